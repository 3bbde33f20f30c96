import Verif.Model.Xml

/-! How many elements of a document are open. -/

namespace Rdftk.Spec

/-- How many elements are open after the events, if `k` were before. -/
def openAfter : Nat → List XmlIn → Nat
  | k, [] => k
  | k, .start _ _ :: es => openAfter (k + 1) es
  | k, .stop _ :: es => openAfter (k - 1) es
  | k, _ :: es => openAfter k es

/-- How many elements are ever open at a time, if `k` are. -/
def mostOpen : Nat → List XmlIn → Nat
  | k, [] => k
  | k, .start _ _ :: es => max k (mostOpen (k + 1) es)
  | k, .stop _ :: es => max k (mostOpen (k - 1) es)
  | k, _ :: es => mostOpen k es

end Rdftk.Spec
