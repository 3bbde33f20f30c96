import Verif.Model.JsonText

/-!
JSON texts by the grammar of RFC 8259, independent of the reader.
-/

namespace Rdftk.Spec

/-- White space. -/
def JsonBlank (s : Str) : Prop :=
  ∀ c ∈ s, c.toNat = 0x20 ∨ c.toNat = 0x09 ∨ c.toNat = 0x0A ∨ c.toNat = 0x0D

/-- A hexadecimal digit and its value. -/
def HexDigit (c : Char) (n : Nat) : Prop :=
  (0x30 ≤ c.toNat ∧ c.toNat ≤ 0x39 ∧ n + 0x30 = c.toNat) ∨
  (0x41 ≤ c.toNat ∧ c.toNat ≤ 0x46 ∧ n + 0x37 = c.toNat) ∨
  (0x61 ≤ c.toNat ∧ c.toNat ≤ 0x66 ∧ n + 0x57 = c.toNat)

/-- Four hexadecimal digits and their value. -/
def HexFour (h : Str) (v : Nat) : Prop :=
  ∃ a b c d i j k l, h = [a, b, c, d] ∧ HexDigit a i ∧ HexDigit b j ∧ HexDigit c k ∧ HexDigit d l ∧
    v = 4096 * i + 256 * j + 16 * k + l

/-- The escapes of one character. -/
def jsonEscapes : List (Char × Nat) :=
  [('"', 0x22), ('\\', 0x5C), ('/', 0x2F), ('b', 0x08), ('f', 0x0C), ('n', 0x0A), ('r', 0x0D), ('t', 0x09)]

/-- The text between the quotes of a string, and the string. -/
inductive JsonChars : Str → Str → Prop
  | nil : JsonChars [] []
  | plain {c : Char} {t s : Str} : c.toNat ≠ 0x22 → c.toNat ≠ 0x5C → 0x20 ≤ c.toNat →
      JsonChars t s → JsonChars (c :: t) (c :: s)
  | escape {e c : Char} {t s : Str} : (e, c.toNat) ∈ jsonEscapes →
      JsonChars t s → JsonChars ('\\' :: e :: t) (c :: s)
  | unicode {h : Str} {v : Nat} {c : Char} {t s : Str} : HexFour h v → c.toNat = v →
      JsonChars t s → JsonChars ('\\' :: 'u' :: (h ++ t)) (c :: s)
  | pair {h h' : Str} {v w : Nat} {c : Char} {t s : Str} : HexFour h v → HexFour h' w →
      0xD800 ≤ v → v ≤ 0xDBFF → 0xDC00 ≤ w → w ≤ 0xDFFF →
      c.toNat = 0x10000 + (v - 0xD800) * 0x400 + (w - 0xDC00) →
      JsonChars t s → JsonChars ('\\' :: 'u' :: (h ++ '\\' :: 'u' :: (h' ++ t))) (c :: s)

/-- Digits. -/
def JsonDigits (s : Str) : Prop := ∀ c ∈ s, 0x30 ≤ c.toNat ∧ c.toNat ≤ 0x39

/-- `int` -/
def JsonInt (s : Str) : Prop := s = ['0'] ∨ (s.head? ≠ some '0' ∧ s ≠ [] ∧ JsonDigits s)

/-- `[ frac ]` -/
def JsonFrac (s : Str) : Prop := s = [] ∨ ∃ ds, s = '.' :: ds ∧ ds ≠ [] ∧ JsonDigits ds

/-- `[ exp ]` -/
def JsonExp (s : Str) : Prop :=
  s = [] ∨ ∃ e sign ds, s = e :: (sign ++ ds) ∧ (e = 'e' ∨ e = 'E') ∧
    (sign = [] ∨ sign = ['+'] ∨ sign = ['-']) ∧ ds ≠ [] ∧ JsonDigits ds

/-- `number` -/
def JsonNum (s : Str) : Prop :=
  ∃ minus int frac exp, s = minus ++ (int ++ (frac ++ exp)) ∧ (minus = [] ∨ minus = ['-']) ∧
    JsonInt int ∧ JsonFrac frac ∧ JsonExp exp

/-- The last value of a name. -/
def lastOf (k : Str) (l : List (Str × Json)) : Option Json := (l.reverse.find? fun e => e.1 == k).map (·.2)

/-- The map of members: sorted, each name with its last value. -/
def MapOf (l m : List (Str × Json)) : Prop :=
  (m.Pairwise fun a b => cmpStr a.1 b.1 = .lt) ∧ ∀ k v, (k, v) ∈ m ↔ lastOf k l = some v

mutual
/-- A value without white space around it, with at most so many arrays and objects inside each
other. -/
inductive JsonVal : Nat → Str → Json → Prop
  | null {d : Nat} : JsonVal d (str! "null") .null
  | yes {d : Nat} : JsonVal d (str! "true") (.bool true)
  | no {d : Nat} : JsonVal d (str! "false") (.bool false)
  | num {d : Nat} {t : Str} : JsonNum t → JsonVal d t (.num t)
  | str {d : Nat} {t s : Str} : JsonChars t s → JsonVal d ('"' :: (t ++ ['"'])) (.str s)
  | emptyArr {d : Nat} {w : Str} : JsonBlank w → JsonVal (d + 1) ('[' :: (w ++ [']'])) (.arr [])
  | arr {d : Nat} {t : Str} {l : List Json} : JsonElems d t l → JsonVal (d + 1) ('[' :: (t ++ [']'])) (.arr l)
  | emptyObj {d : Nat} {w : Str} : JsonBlank w → JsonVal (d + 1) ('{' :: (w ++ ['}'])) (.obj [])
  | obj {d : Nat} {t : Str} {l m : List (Str × Json)} : JsonMembers d t l → MapOf l m →
      JsonVal (d + 1) ('{' :: (t ++ ['}'])) (.obj m)
/-- The elements of an array. -/
inductive JsonElems : Nat → Str → List Json → Prop
  | one {d : Nat} {a t b : Str} {v : Json} : JsonBlank a → JsonVal d t v → JsonBlank b →
      JsonElems d (a ++ (t ++ b)) [v]
  | more {d : Nat} {a t b u : Str} {v : Json} {l : List Json} : JsonBlank a → JsonVal d t v → JsonBlank b →
      JsonElems d u l → JsonElems d (a ++ (t ++ (b ++ ',' :: u))) (v :: l)
/-- The members of an object. -/
inductive JsonMembers : Nat → Str → List (Str × Json) → Prop
  | one {d : Nat} {a k b c t e s : Str} {v : Json} : JsonBlank a → JsonChars k s → JsonBlank b → JsonBlank c →
      JsonVal d t v → JsonBlank e →
      JsonMembers d (a ++ '"' :: (k ++ '"' :: (b ++ ':' :: (c ++ (t ++ e))))) [(s, v)]
  | more {d : Nat} {a k b c t e s u : Str} {v : Json} {l : List (Str × Json)} : JsonBlank a → JsonChars k s →
      JsonBlank b → JsonBlank c → JsonVal d t v → JsonBlank e → JsonMembers d u l →
      JsonMembers d (a ++ '"' :: (k ++ '"' :: (b ++ ':' :: (c ++ (t ++ (e ++ ',' :: u)))))) ((s, v) :: l)
end

/-- A JSON text for a value, with at most so many arrays and objects inside each other. -/
def JsonText (d : Nat) (s : Str) (v : Json) : Prop :=
  ∃ a t b, s = a ++ (t ++ b) ∧ JsonBlank a ∧ JsonVal d t v ∧ JsonBlank b

end Rdftk.Spec
