import Verif.Model.Expand

/-!
Model of `rdftk_core/src/model/resource.rs`: the resource builder and its statements.

The map from predicates to values is a list of entries in the order in which the map is visited;
the theorems hold for every such list.
-/

namespace Rdftk

/-- `resource.rs` 110-116, `ContainerKind`. -/
inductive ContainerKind
  | alt
  | bag
  | seq
  | other (i : Iri)
deriving DecidableEq

/-- `resource.rs` 652-657, the type of a container node. -/
def ContainerKind.iri : ContainerKind → Iri
  | .alt => rdfIri (str! "Alt")
  | .bag => rdfIri (str! "Bag")
  | .seq => rdfIri (str! "Seq")
  | .other i => i

mutual
/-- `resource.rs` 84-88, `Resource`. -/
inductive Resource
  | mk (subject : Subject) (preds : List PredObjs)
/-- One entry of the map; also `resource.rs` 93-97, `Predicate`. -/
inductive PredObjs
  | mk (name : Iri) (objects : List RObj)
/-- `resource.rs` 102-108, `ResourceObject`. -/
inductive RObj
  | res (r : Resource)
  | ress (kind : ContainerKind) (rs : List Resource)
  | lit (l : Literal)
  | lits (kind : ContainerKind) (ls : List Literal)
end

/-- The field `subject`. -/
def Resource.subject : Resource → Subject
  | .mk s _ => s
/-- The field `predicate_objects`. -/
def Resource.preds : Resource → List PredObjs
  | .mk _ ps => ps
/-- The key of an entry. -/
def PredObjs.name : PredObjs → Iri
  | .mk p _ => p
/-- The values of an entry. -/
def PredObjs.objects : PredObjs → List RObj
  | .mk _ os => os

/-- `resource.rs` 141-146, `new`. -/
def Resource.new (s : Subject) : Resource := .mk s []

/-- The list with the object at the end of the entry of the predicate; a new entry if there is
none. -/
def insertPred (p : Iri) (o : RObj) : List PredObjs → List PredObjs
  | [] => [.mk p [o]]
  | .mk q os :: rest => if q = p then .mk q (os ++ [o]) :: rest else .mk q os :: insertPred p o rest

/-- `resource.rs` 444-453, `insert`, which all the builder methods call. -/
def Resource.insert (p : Iri) (o : RObj) : Resource → Resource
  | .mk s ps => .mk s (insertPred p o ps)

/-- `resource.rs` 192-197, `predicate`: the objects of a `Predicate` one by one. -/
def Resource.predicate (po : PredObjs) (r : Resource) : Resource :=
  po.objects.foldl (fun r o => r.insert po.name o) r

/-- `resource.rs` 434-439, `instance_of`. -/
def Resource.instanceOf (i : Iri) (r : Resource) : Resource :=
  r.insert rdfType (.res (.new (.res i)))

/-- `resource.rs` 175-177, `is_a_resource`. -/
def Resource.isResource (r : Resource) : Bool := r.subject.isResource

/-- `resource.rs` 183-186, `is_an_individual`. -/
def Resource.isIndividual (r : Resource) : Bool := r.preds.any (fun e => e.name = rdfType)

/-- `resource.rs` 672-679, the members of a container of literals. -/
def literalMembers (b : Str) (idx : Nat) : List Literal → List Stmt
  | [] => []
  | l :: ls => .mk (.blank b) (rdfMember idx) (.lit l) :: literalMembers b (idx + 1) ls

mutual
/-- `resource.rs` 627-699, `flatten`: statements and the new count of nodes asked for. -/
def Resource.flatten (gen : Nat → Str) (n : Nat) : Resource → List Stmt × Nat
  | .mk s ps => flattenPreds gen s n ps
/-- The loop over the entries. -/
def flattenPreds (gen : Nat → Str) (s : Subject) (n : Nat) : List PredObjs → List Stmt × Nat
  | [] => ([], n)
  | po :: rest =>
    let a := PredObjs.flatten gen s n po
    let b := flattenPreds gen s a.2 rest
    (a.1 ++ b.1, b.2)
/-- One entry. -/
def PredObjs.flatten (gen : Nat → Str) (s : Subject) (n : Nat) : PredObjs → List Stmt × Nat
  | .mk p os => flattenObjs gen s p n os
/-- The loop over the values of an entry. -/
def flattenObjs (gen : Nat → Str) (s : Subject) (p : Iri) (n : Nat) :
    List RObj → List Stmt × Nat
  | [] => ([], n)
  | o :: rest =>
    let a := RObj.flatten gen s p n o
    let b := flattenObjs gen s p a.2 rest
    (a.1 ++ b.1, b.2)
/-- `resource.rs` 631-696, one value.  For a nested resource the object of the new statement is
the subject of the outer one (line 688). -/
def RObj.flatten (gen : Nat → Str) (s : Subject) (p : Iri) (n : Nat) : RObj → List Stmt × Nat
  | .res r =>
    let a := Resource.flatten gen n r
    (a.1 ++ [.mk s p s.toObject], a.2)
  | .lit l => ([.mk s p (.lit l)], n)
  | .ress k rs =>
    let a := flattenMembers gen (gen n) 0 (n + 1) rs
    (.mk s p (.blank (gen n)) :: .mk (.blank (gen n)) rdfType (.res k.iri) :: a.1, a.2)
  | .lits k ls =>
    (.mk s p (.blank (gen n)) :: .mk (.blank (gen n)) rdfType (.res k.iri) ::
      literalMembers (gen n) 0 ls, n + 1)
/-- `resource.rs` 662-671, the members of a container of resources. -/
def flattenMembers (gen : Nat → Str) (b : Str) (idx n : Nat) : List Resource → List Stmt × Nat
  | [] => ([], n)
  | r :: rs =>
    let a := Resource.flatten gen n r
    let c := flattenMembers gen b (idx + 1) a.2 rs
    (a.1 ++ .mk (.blank b) (rdfMember idx) r.subject.toObject :: c.1, c.2)
end

/-- `resource.rs` 127-133, `From<Resource> for Vec<Statement>`. -/
def Resource.statements (gen : Nat → Str) (n : Nat) (r : Resource) : List Stmt :=
  (r.flatten gen n).1

end Rdftk
