import Verif.Model.Skos

/-! What a sequence of calls says of each concept and collection of a thesaurus, and of its scheme. -/

namespace Rdftk.Spec

/-- What can be said of a concept, a collection or a scheme. -/
inductive SkosFact where
  | relation (r : ConceptRelation) (j : Nat)
  | external (r o : Iri)
  | member (m : Member)
  | label (l : Label)
  | property (p : LiteralProperty)

/-- The IRI of the concept that a call makes, if it makes one; `n` is the number of concepts made before. -/
def madeConcept (n : Nat) : SkosOp → Option Iri
  | .newTopConcept u _ => some u
  | .newConcept i _ u _ => if i < n then some u else none
  | _ => none

/-- The IRI of the collection that a call makes, and whether it is ordered. -/
def madeCollection (n : Nat) : SkosOp → Option (Iri × Bool)
  | .newTopCollection u o _ => some (u, o)
  | .newCollection i u o _ => if i < n then some (u, o) else none
  | _ => none

/-- What a call says of concept `a`, when `n` concepts were made before. -/
def saidOfConcept (n a : Nat) : SkosOp → List SkosFact
  | .newTopConcept _ ls => if a = n then ls.map .label else []
  | .newConcept i r _ ls => if i < n then (if a = i then [.relation r n] else if a = n then ls.map .label else []) else []
  | .addRelated i r j => if a = i ∧ i < n ∧ j < n then [.relation r j] else []
  | .addExternal i r o => if a = i ∧ i < n then [.external r o] else []
  | .addLabel (.concept i) l => if a = i ∧ i < n then [.label l] else []
  | .addProperty (.concept i) p => if a = i ∧ i < n then [.property p] else []
  | _ => []

/-- What a call says of collection `a`, when `n` collections and `m` concepts were made before. -/
def saidOfCollection (n m a : Nat) : SkosOp → List SkosFact
  | .newTopCollection _ _ ls => if a = n then ls.map .label else []
  | .newCollection i _ _ ls =>
    if i < n then (if a = i then [.member (.collection n)] else if a = n then ls.map .label else []) else []
  | .addMemberConcept i j => if a = i ∧ i < n ∧ j < m then [.member (.concept j)] else []
  | .addLabel (.collection i) l => if a = i ∧ i < n then [.label l] else []
  | .addProperty (.collection i) p => if a = i ∧ i < n then [.property p] else []
  | _ => []

/-- What a call says of the scheme. -/
def saidOfScheme : SkosOp → List SkosFact
  | .addLabel .scheme l => [.label l]
  | .addProperty .scheme p => [.property p]
  | _ => []

/-- What calls say of concept `a`, in their order. -/
def factsOfConcept (a : Nat) : Nat → List SkosOp → List SkosFact
  | _, [] => []
  | n, op :: ops => saidOfConcept n a op ++ factsOfConcept a (n + (madeConcept n op).toList.length) ops

/-- What calls say of collection `a`, in their order. -/
def factsOfCollection (a : Nat) : Nat → Nat → List SkosOp → List SkosFact
  | _, _, [] => []
  | n, m, op :: ops => saidOfCollection n m a op ++
    factsOfCollection a (n + (madeCollection n op).toList.length) (m + (madeConcept m op).toList.length) ops

/-- The IRIs of the concepts that calls make. -/
def conceptsMade : Nat → List SkosOp → List Iri
  | _, [] => []
  | n, op :: ops => (madeConcept n op).toList ++ conceptsMade (n + (madeConcept n op).toList.length) ops

/-- The collections that calls make. -/
def collectionsMade : Nat → List SkosOp → List (Iri × Bool)
  | _, [] => []
  | n, op :: ops => (madeCollection n op).toList ++ collectionsMade (n + (madeCollection n op).toList.length) ops

/-- The top concepts that calls make. -/
def topsMade : Nat → List SkosOp → List Nat
  | _, [] => []
  | n, .newTopConcept u ls :: ops => n :: topsMade (n + (madeConcept n (.newTopConcept u ls)).toList.length) ops
  | n, op :: ops => topsMade (n + (madeConcept n op).toList.length) ops

/-- The top collections that calls make. -/
def topCollectionsMade : Nat → List SkosOp → List Nat
  | _, [] => []
  | n, .newTopCollection u o ls :: ops => n :: topCollectionsMade (n + (madeCollection n (.newTopCollection u o ls)).toList.length) ops
  | n, op :: ops => topCollectionsMade (n + (madeCollection n op).toList.length) ops

/-- The relations, and so on, among what is said. -/
def relationsIn (fs : List SkosFact) : List (ConceptRelation × Nat) :=
  fs.filterMap fun | .relation r j => some (r, j) | _ => none
def externalsIn (fs : List SkosFact) : List (Iri × Iri) := fs.filterMap fun | .external r o => some (r, o) | _ => none
def membersIn (fs : List SkosFact) : List Member := fs.filterMap fun | .member m => some m | _ => none
def labelsIn (fs : List SkosFact) : List Label := fs.filterMap fun | .label l => some l | _ => none
def propertiesIn (fs : List SkosFact) : List LiteralProperty := fs.filterMap fun | .property p => some p | _ => none

end Rdftk.Spec
