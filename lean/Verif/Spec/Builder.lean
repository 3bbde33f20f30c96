import Verif.Model.Builder
import Verif.Spec.Resource

/-! What a call to the builder says, by the documentation of the methods. -/

namespace Rdftk.Spec

/-- The values of a resource for a predicate, in order. -/
def valuesAt (p : Iri) (r : Resource) : List RObj :=
  (r.preds.filter fun e => e.name = p).flatMap PredObjs.objects

/-- The predicate and the values that a call names; `none` for a call with an impossible language tag. -/
def callSays (pr : Char → Bool) (tag : Str → Option Str) : Call → Option (Iri × List RObj)
  | .literal p l | .property p l | .valueOf p l => some (p, [.lit l])
  | .literalStr p s => some (p, [.lit ⟨escapeString pr s, none, none⟩])
  | .literalTypedStr p s t => some (p, [.lit ⟨escapeString pr s, some t, none⟩])
  | .literalLanguageStr p s lang => some (p, [.lit ⟨escapeString pr s, none, some lang⟩])
  | .literalLanguageStrStr p s lang => (tag lang).map fun t => (p, [.lit ⟨escapeString pr s, none, some t⟩])
  | .propertyAlternatives p ls => some (p, [.lits .alt ls])
  | .propertyBag p ls => some (p, [.lits .bag ls])
  | .propertySequence p ls => some (p, [.lits .seq ls])
  | .propertyContainer p ls k => some (p, [.lits (.other k) ls])
  | .resourceBlankNamed p b => some (p, [.res (.mk (.blank b) [])])
  | .resourceNamed p i => some (p, [.res (.mk (.res i) [])])
  | .resource p x => some (p, [.res x])
  | .resourceAlternatives p xs => some (p, [.ress .alt xs])
  | .resourceBag p xs => some (p, [.ress .bag xs])
  | .resourceSequence p xs => some (p, [.ress .seq xs])
  | .resourceContainer p xs k => some (p, [.ress (.other k) xs])
  | .instanceOf i => some (rdf (str! "type"), [.res (.mk (.res i) [])])
  | .predicate po => some (po.name, po.objects)

/-- What one call says about a predicate. -/
def callSaysOf (pr : Char → Bool) (tag : Str → Option Str) (p : Iri) (c : Call) : List RObj :=
  match callSays pr tag c with
  | some (q, os) => if q = p then os else []
  | none => []

/-- The call of the resource builder that does the same as one of the predicate builder. -/
def direct (p : Iri) : PCall → Call
  | .property l => .property p l
  | .propertyAlternatives ls => .propertyAlternatives p ls
  | .propertyBag ls => .propertyBag p ls
  | .propertySequence ls => .propertySequence p ls
  | .propertyContainer ls k => .propertyContainer p ls k
  | .resourceBlankNamed b => .resourceBlankNamed p b
  | .resourceNamed i => .resourceNamed p i
  | .resource x => .resource p x
  | .resourceAlternatives xs => .resourceAlternatives p xs
  | .resourceBag xs => .resourceBag p xs
  | .resourceSequence xs => .resourceSequence p xs
  | .resourceContainer xs k => .resourceContainer p xs k

end Rdftk.Spec
