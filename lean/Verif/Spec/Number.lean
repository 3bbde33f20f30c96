import Verif.Model.Number
import Mathlib.Data.Rat.Defs

/-! Values and lexical forms of numbers: IEEE 754 comparison, XSD 1.1 part 2 `double`, `float` (3.3.4, 3.3.5)
and `decimal` (3.3.3). -/

namespace Rdftk.Spec

/-- IEEE 754 equality, `==` in Rust: nothing equals NaN, and the zeros are equal. -/
def fltEq : Flt → Flt → Prop
  | .inf a, .inf b => a = b
  | .fin a m, .fin b n => m = n ∧ (a = b ∨ m = 0)
  | _, _ => False

/-- Digits only. -/
def Digits (s : Str) : Prop := ∀ c ∈ s, c.isDigit = true

/-- `noDecimalPtNumeral` or `decimalPtNumeral`, without sign. -/
def Numeral (s : Str) : Prop :=
  (s ≠ [] ∧ Digits s) ∨
  ∃ a b, s = a ++ '.' :: b ∧ Digits a ∧ Digits b ∧ (a ≠ [] ∨ b ≠ [])

def Sign (s : Str) : Prop := s = [] ∨ s = ['-'] ∨ s = ['+']

/-- Lexical forms of `xsd:double` and `xsd:float`. -/
def DoubleText (s : Str) : Prop :=
  (∃ sg n, s = sg ++ n ∧ Sign sg ∧ Numeral n) ∨
  (∃ sg n e sg' n', s = sg ++ n ++ e :: sg' ++ n' ∧ Sign sg ∧ Numeral n ∧ (e = 'e' ∨ e = 'E') ∧ Sign sg' ∧
    n' ≠ [] ∧ Digits n') ∨
  (∃ sg, s = sg ++ str! "INF" ∧ Sign sg) ∨ s = str! "NaN"

/-- What is assumed of the digits that the standard library prints for finite numbers: a numeral that
starts with a digit, and different numbers have different ones (they are read back as the number). -/
structure FltDigits (digits : Nat → Str) : Prop where
  form : ∀ n, ∃ a b, digits n = a ++ b ∧ a ≠ [] ∧ Digits a ∧ (b = [] ∨ ∃ c, b = '.' :: c ∧ c ≠ [] ∧ Digits c)
  inj : ∀ m n, digits m = digits n → m = n

/-- The number that digits denote. -/
def digitsValue (s : Str) : Nat := Nat.ofDigitChars 10 s 0

/-- The value of a decimal. -/
def decimalValue (d : Decimal) : Rat := (if d.neg then -1 else 1) * (d.mantissa : Rat) / 10 ^ d.scale

/-- `decimalLexicalMap`: an `xsd:decimal` text denotes a number. -/
inductive DecimalDenotes : Str → Rat → Prop where
  | whole (a : Str) : a ≠ [] → Digits a → DecimalDenotes a (digitsValue a)
  | point (a b : Str) : Digits a → Digits b → (a ≠ [] ∨ b ≠ []) →
      DecimalDenotes (a ++ '.' :: b) (digitsValue a + (digitsValue b : Rat) / 10 ^ b.length)
  | plus {s : Str} {q : Rat} : (∀ c ∈ s.head?, c ≠ '+' ∧ c ≠ '-') → DecimalDenotes s q → DecimalDenotes ('+' :: s) q
  | minus {s : Str} {q : Rat} : (∀ c ∈ s.head?, c ≠ '+' ∧ c ≠ '-') → DecimalDenotes s q → DecimalDenotes ('-' :: s) (-q)

end Rdftk.Spec
