import Verif.Spec.NTriples

/-! Percent decoding, RFC 3986 section 2.1, to the bytes of UTF-8. -/

namespace Rdftk.Spec

/-- Bytes that a text with percent escapes denotes. -/
def percentBytes : Str → List UInt8
  | '%' :: a :: b :: s =>
    UInt8.ofNat ((hexDigitValue a).getD 0 * 16 + (hexDigitValue b).getD 0) :: percentBytes s
  | c :: s => String.utf8EncodeChar c ++ percentBytes s
  | [] => []

end Rdftk.Spec
