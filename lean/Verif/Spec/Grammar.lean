import Verif.Model.Str

/-!
The W3C productions for prefixed names, written from the SPARQL 1.1 / Turtle 1.1
recommendations and independent of the model.
-/

namespace Rdftk.Spec

/-- Membership in a list of inclusive code point ranges. -/
def InRanges (rs : List (Nat × Nat)) (c : Char) : Prop :=
  ∃ r ∈ rs, r.1 ≤ c.toNat ∧ c.toNat ≤ r.2

/-- `PN_CHARS_BASE` -/
def PN_CHARS_BASE : Char → Prop := InRanges
  [(0x41, 0x5A), (0x61, 0x7A), (0xC0, 0xD6), (0xD8, 0xF6), (0xF8, 0x2FF), (0x370, 0x37D),
   (0x37F, 0x1FFF), (0x200C, 0x200D), (0x2070, 0x218F), (0x2C00, 0x2FEF), (0x3001, 0xD7FF),
   (0xF900, 0xFDCF), (0xFDF0, 0xFFFD), (0x10000, 0xEFFFF)]

/-- `[0-9]` -/
def Digit : Char → Prop := InRanges [(0x30, 0x39)]

/-- `PN_CHARS_U ::= PN_CHARS_BASE | '_'` -/
def PN_CHARS_U (c : Char) : Prop := PN_CHARS_BASE c ∨ c = '_'

/-- `PN_CHARS ::= PN_CHARS_U | '-' | [0-9] | #xB7 | [#x300-#x36F] | [#x203F-#x2040]` -/
def PN_CHARS (c : Char) : Prop :=
  PN_CHARS_U c ∨ c = '-' ∨ Digit c ∨ InRanges [(0xB7, 0xB7), (0x300, 0x36F), (0x203F, 0x2040)] c

/-- `first ((PN_CHARS | '.')* PN_CHARS)?` -/
def Dotted (first : Char → Prop) (s : Str) : Prop :=
  ∃ c, first c ∧ (s = [c] ∨
    ∃ mid last, s = c :: mid ++ [last] ∧ (∀ x ∈ mid, PN_CHARS x ∨ x = '.') ∧ PN_CHARS last)

/-- `PN_PREFIX ::= PN_CHARS_BASE ((PN_CHARS | '.')* PN_CHARS)?` -/
def PN_PREFIX : Str → Prop := Dotted PN_CHARS_BASE

/-- `PNAME_NS ::= PN_PREFIX? ':'` -/
def PNAME_NS (s : Str) : Prop := s = [':'] ∨ ∃ p, PN_PREFIX p ∧ s = p ++ [':']

/-- `PN_LOCAL` without the alternatives `':'` and `PLX` (percent and backslash
escapes): `(PN_CHARS_U | [0-9]) ((PN_CHARS | '.')* PN_CHARS)?` -/
def PN_LOCAL_PLAIN : Str → Prop := Dotted (fun c => PN_CHARS_U c ∨ Digit c)

end Rdftk.Spec
