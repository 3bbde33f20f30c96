import Verif.Model.Iri

/-! Fragments and paths of RFC 3986, and the sets of characters that the URL standard encodes. -/

namespace Rdftk.Spec

/-- The C0 control percent-encode set of the URL standard, for opaque paths. -/
def controlSet (n : Nat) : Prop := n ≤ 0x1F ∨ 0x7E < n

/-- The fragment percent-encode set of the URL standard (section 1.3), as code points. -/
def fragmentSet (n : Nat) : Prop :=
  n ≤ 0x1F ∨ 0x7E < n ∨ n = 0x20 ∨ n = 0x22 ∨ n = 0x3C ∨ n = 0x3E ∨ n = 0x60

/-- The path percent-encode set. -/
def pathSet (n : Nat) : Prop := fragmentSet n ∨ n = 0x3F ∨ n = 0x23 ∨ n = 0x7B ∨ n = 0x7D

/-- A character of `pchar` but for the percent sign. -/
def isPchar (c : Char) : Bool :=
  let n := c.toNat
  -- ALPHA, DIGIT
  (0x41 ≤ n && n ≤ 0x5A) || (0x61 ≤ n && n ≤ 0x7A) || (0x30 ≤ n && n ≤ 0x39) ||
  -- the rest of unreserved, sub-delims, colon and at sign
  (str! "-._~!$&'()*+,;=:@").contains c

/-- A hexadecimal digit. -/
def isHexOf (c : Char) : Bool :=
  let n := c.toNat
  (0x41 ≤ n && n ≤ 0x46) || (0x61 ≤ n && n ≤ 0x66) || (0x30 ≤ n && n ≤ 0x39)

/-- Texts of characters, of those given and of bytes as percent sign and two digits. -/
def pctText (ok : Char → Bool) : Str → Bool
  | [] => true
  | '%' :: a :: b :: s => isHexOf a && isHexOf b && pctText ok s
  | c :: s => c != '%' && ok c && pctText ok s

/-- `fragment = *( pchar / "/" / "?" )` -/
def isFragmentText : Str → Bool := pctText fun c => isPchar c || c == '/' || c == '?'

/-- `path-abempty`, `path-absolute`: segments of `pchar` between slashes. -/
def isPathText : Str → Bool := pctText fun c => isPchar c || c == '/'

/-- The ASCII characters that are printable but stand in neither. -/
def isUnwise (c : Char) : Bool := (str! "[]^|\\").contains c

end Rdftk.Spec
