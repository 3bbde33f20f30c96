import Verif.Model.Resource
import Verif.Spec.RdfList

/-! What a resource is told, independent of how it is turned into statements. -/

namespace Rdftk.Spec

/-- All pairs of predicate and value of a resource. -/
def added (r : Resource) : List (Iri × RObj) :=
  r.preds.flatMap fun e => e.objects.map fun o => (e.name, o)

/-- The resources directly inside a value. -/
def inside : RObj → List Resource
  | .res r => [r]
  | .ress _ rs => rs
  | _ => []

/-- `Within r r'`: `r'` is `r` or is nested in it, at any depth. -/
inductive Within : Resource → Resource → Prop
  | self (r : Resource) : Within r r
  | step {r r' r'' : Resource} (p : Iri) (o : RObj) (h : (p, o) ∈ added r) (hi : r' ∈ inside o)
      (hw : Within r' r'') : Within r r''

/-- The number of the `i`-th member, counting from 1. -/
def memberIri (i : Nat) : Iri := rdf ('_' :: Nat.toDigits 10 (i + 1))

/-- What statements must have for one pair of predicate and value. -/
def Told (sts : List Stmt) (s : Subject) (p : Iri) : RObj → Prop
  | .lit l => Stmt.mk s p (.lit l) ∈ sts
  | .res r => Stmt.mk s p r.subject.toObject ∈ sts
  | .ress k rs => ∃ b, Stmt.mk s p (.blank b) ∈ sts ∧
      Stmt.mk (.blank b) (rdf (str! "type")) (.res k.iri) ∈ sts ∧
      ∀ i r, rs[i]? = some r → Stmt.mk (.blank b) (memberIri i) r.subject.toObject ∈ sts
  | .lits k ls => ∃ b, Stmt.mk s p (.blank b) ∈ sts ∧
      Stmt.mk (.blank b) (rdf (str! "type")) (.res k.iri) ∈ sts ∧
      ∀ i l, ls[i]? = some l → Stmt.mk (.blank b) (memberIri i) (.lit l) ∈ sts

mutual
/-- The number of containers in a resource, at any depth. -/
def containers : Resource → Nat
  | .mk _ ps => containersPs ps
def containersPs : List PredObjs → Nat
  | [] => 0
  | po :: rest => containersP po + containersPs rest
def containersP : PredObjs → Nat
  | .mk _ os => containersOs os
def containersOs : List RObj → Nat
  | [] => 0
  | o :: rest => containersO o + containersOs rest
def containersO : RObj → Nat
  | .res r => containers r
  | .lit _ => 0
  | .ress _ rs => containersRs rs + 1
  | .lits _ _ => 1
def containersRs : List Resource → Nat
  | [] => 0
  | r :: rs => containers r + containersRs rs
end

mutual
/-- The number of statements: one for each value, two for a container and one for each member. -/
def weight : Resource → Nat
  | .mk _ ps => weightPs ps
def weightPs : List PredObjs → Nat
  | [] => 0
  | po :: rest => weightP po + weightPs rest
def weightP : PredObjs → Nat
  | .mk _ os => weightOs os
def weightOs : List RObj → Nat
  | [] => 0
  | o :: rest => weightO o + weightOs rest
def weightO : RObj → Nat
  | .res r => weight r + 1
  | .lit _ => 1
  | .ress _ rs => weightRs rs + 2
  | .lits _ ls => ls.length + 2
def weightRs : List Resource → Nat
  | [] => 0
  | r :: rs => weight r + 1 + weightRs rs
end

end Rdftk.Spec
