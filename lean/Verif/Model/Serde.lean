import Verif.Model.JsonText
import Verif.Model.PrefixMap

/-!
The derived `Serialize` and `Deserialize` of `rdftk_iri` (feature `serde`, on by default), with
JSON as the format (`rdftk_iri/tests/serde.rs` 19-25): `serde_json::to_string` and `from_str`.

A tuple struct of one field stands for its field, a struct is an object with its fields in the
order of declaration, and an enum is an object with one member named after the variant.
`url::Url` is written as its serialisation and read with `Url::parse`; a `BiBTreeMap` is an object,
read by inserting its members in order.

Texts are read through a JSON value, in which a repeated member has its last value; the derived
code refuses a repeated field.
-/

namespace Rdftk

/-- `pname.rs` 52-57, `PrefixedName`. -/
inductive PrefixedName where
  | ns (n : Namespace)
  | loc (l : LocalName)
deriving DecidableEq, Repr

/-- `iri.rs` 51-56, `IriRef`, with all its values. -/
inductive AnyRef where
  | iri (i : Iri)
  | pname (p : PrefixedName)
deriving DecidableEq, Repr

/-! ### Writing -/

/-- `iri.rs` 29-30. -/
def Iri.toJson (i : Iri) : Json := .str i.text

/-- `pname.rs` 147-148. -/
def Name.toJson (n : Name) : Json := .str n.text

/-- `pname.rs` 100-101. -/
def Namespace.toJson (n : Namespace) : Json := .str n.text

/-- `pname.rs` 185-189. -/
def LocalName.toJson (l : LocalName) : Json :=
  .obj [(str! "namespace", l.namespace.toJson), (str! "name", l.name.toJson)]

/-- `pname.rs` 50-57. -/
def PrefixedName.toJson : PrefixedName → Json
  | .ns n => .obj [(str! "Namespace", n.toJson)]
  | .loc l => .obj [(str! "Local", l.toJson)]

/-- `iri.rs` 49-56. -/
def AnyRef.toJson : AnyRef → Json
  | .iri i => .obj [(str! "Iri", i.toJson)]
  | .pname p => .obj [(str! "PrefixedName", p.toJson)]

/-- `map.rs` 44-47. -/
def PrefixMap.toJson (m : PrefixMap) : Json :=
  .obj [(str! "map", .obj (m.entries.map fun e => (e.1.text, e.2.toJson)))]

/-- `serde_json::to_string`. -/
def jsonToString (j : Json) : Str := j.text false 0

/-! ### Reading -/

/-- `Url::parse` of a string. -/
def Iri.ofJson (url : Str → Option Iri) : Json → Option Iri
  | .str s => url s
  | _ => none

/-- `pname.rs` 147-148: any string. -/
def Name.ofJson : Json → Option Name
  | .str s => some ⟨s⟩
  | _ => none

/-- `pname.rs` 100-101: any string. -/
def Namespace.ofJson : Json → Option Namespace
  | .str s => some ⟨s⟩
  | _ => none

/-- `pname.rs` 185-189: an object with both fields and perhaps others, or an array. -/
def LocalName.ofJson : Json → Option LocalName
  | .obj m =>
    (mapGet (str! "namespace") m).bind fun a => (Namespace.ofJson a).bind fun ns =>
    (mapGet (str! "name") m).bind fun b => (Name.ofJson b).bind fun n => some ⟨ns, n⟩
  | .arr [a, b] => (Namespace.ofJson a).bind fun ns => (Name.ofJson b).bind fun n => some ⟨ns, n⟩
  | _ => none

/-- `pname.rs` 50-57. -/
def PrefixedName.ofJson : Json → Option PrefixedName
  | .obj [(k, v)] =>
    if k = str! "Namespace" then (Namespace.ofJson v).map .ns
    else if k = str! "Local" then (LocalName.ofJson v).map .loc
    else none
  | _ => none

/-- `iri.rs` 49-56. -/
def AnyRef.ofJson (url : Str → Option Iri) : Json → Option AnyRef
  | .obj [(k, v)] =>
    if k = str! "Iri" then (Iri.ofJson url v).map .iri
    else if k = str! "PrefixedName" then (PrefixedName.ofJson v).map .pname
    else none
  | _ => none

/-- The members of a `BiBTreeMap`, inserted one after the other. -/
def insertMembers (url : Str → Option Iri) (m : PrefixMap) : List (Str × Json) → Option PrefixMap
  | [] => some m
  | (k, v) :: l => (Iri.ofJson url v).bind fun i => insertMembers url (m.insert ⟨k⟩ i) l

/-- `BiBTreeMap::deserialize`. -/
def biMapOfJson (url : Str → Option Iri) : Json → Option PrefixMap
  | .obj m => insertMembers url .empty m
  | _ => none

/-- `map.rs` 44-47. -/
def PrefixMap.ofJson (url : Str → Option Iri) : Json → Option PrefixMap
  | .obj m => (mapGet (str! "map") m).bind (biMapOfJson url)
  | .arr [a] => biMapOfJson url a
  | _ => none

/-- `serde_json::from_str`. -/
def jsonFromStr {α : Type} (read : Json → Option α) (s : Str) : Option α := (jParse s).bind read

end Rdftk
