import Verif.Model.Expand
import Verif.Model.Number

/-! Texts of identifiers in well-known IRIs (`rdftk_iri/src/iri.rs` 475-480). The random UUID is a parameter,
its 128 bits as a number; `Iri.genid` is in `Model/Expand.lean`. -/

namespace Rdftk

/-- `iri.rs` 475-479, `uuid::fmt::Simple::encode_lower`: 32 hexadecimal digits. -/
def uuidSimple (u : Nat) : Str := padLeft 32 (Nat.toDigits 16 u)

/-- `iri.rs` 471-482, `Iri::genid` for the identifier that was drawn. -/
def Iri.genidOf (i : Iri) (u : Nat) : Option Iri := i.genid (uuidSimple u)

end Rdftk
