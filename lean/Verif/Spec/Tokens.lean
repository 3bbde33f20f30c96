import Verif.Model.CommonPest

/-! The numbers of Turtle as the recommendation of W3C defines them, rules 19 to 21 and 154s. -/

namespace Rdftk.Spec
open Rdftk

/-- `[0-9]*`. -/
def DigitsText (d : Str) : Prop := ∀ c ∈ d, '0' ≤ c ∧ c ≤ '9'

/-- `[+-]?`. -/
def SignText (a : Str) : Prop := a = [] ∨ a = ['+'] ∨ a = ['-']

/-- `INTEGER ::= [+-]? [0-9]+`. -/
def TurtleInteger (t : Str) : Prop := ∃ a d, SignText a ∧ DigitsText d ∧ d ≠ [] ∧ t = a ++ d

/-- `DECIMAL ::= [+-]? [0-9]* '.' [0-9]+`. -/
def TurtleDecimal (t : Str) : Prop := ∃ a d e, SignText a ∧ DigitsText d ∧ DigitsText e ∧ e ≠ [] ∧ t = a ++ (d ++ '.' :: e)

/-- `EXPONENT ::= [eE] [+-]? [0-9]+`. -/
def ExponentText (t : Str) : Prop := ∃ c a d, (c = 'e' ∨ c = 'E') ∧ SignText a ∧ DigitsText d ∧ d ≠ [] ∧ t = c :: (a ++ d)

/-- `DOUBLE ::= [+-]? ([0-9]+ '.' [0-9]* EXPONENT | '.' [0-9]+ EXPONENT | [0-9]+ EXPONENT)`. -/
def TurtleDouble (t : Str) : Prop := ∃ a d e x, SignText a ∧ DigitsText d ∧ DigitsText e ∧ ExponentText x ∧
  ((d ≠ [] ∧ t = a ++ (d ++ '.' :: (e ++ x))) ∨ (e ≠ [] ∧ t = a ++ '.' :: (e ++ x)) ∨ (d ≠ [] ∧ t = a ++ (d ++ x)))

/-- A number of the kind of the rule. -/
def NumberText (k : GRule) (t : Str) : Prop :=
  (k = .Double ∧ TurtleDouble t) ∨ (k = .Decimal ∧ TurtleDecimal t) ∨ (k = .Integer ∧ TurtleInteger t)

/-- `PN_PREFIX ::= PN_CHARS_BASE ((PN_CHARS | '.')* PN_CHARS)?`. -/
def PrefixWord (c : Char) (us : Str) : Prop :=
  isPnCharsBase c = true ∧ (∀ d ∈ us, isPnChars d = true ∨ d = '.') ∧ us.getLast? ≠ some '.'

/-- `HEX ::= [0-9] | [A-F] | [a-f]`. -/
def HexText (c : Char) : Prop := ('0' ≤ c ∧ c ≤ '9') ∨ ('A' ≤ c ∧ c ≤ 'F') ∨ ('a' ≤ c ∧ c ≤ 'f')

/-- The characters that may be escaped in a local name. -/
def escapable : Str := str! "_~.-!$&'()*+,;=/?#@%"

/-- `PLX ::= PERCENT | PN_LOCAL_ESC`. -/
def PlxText (u : Str) : Prop := (∃ a b, HexText a ∧ HexText b ∧ u = ['%', a, b]) ∨ ∃ c, c ∈ escapable ∧ u = ['\\', c]

/-- `PN_CHARS | ':' | PLX`. -/
def LocalUnit (u : Str) : Prop := (∃ c, (isPnChars c = true ∨ c = ':') ∧ u = [c]) ∨ PlxText u

/-- `PN_LOCAL ::= (PN_CHARS_U | ':' | [0-9] | PLX) ((PN_CHARS | '.' | ':' | PLX)* (PN_CHARS | ':' | PLX))?`, cut into its parts. -/
def LocalWord (u : Str) (us : List Str) : Prop :=
  ((∃ c, (isPnCharsU c = true ∨ c = ':' ∨ isAsciiDigit c = true) ∧ u = [c]) ∨ PlxText u) ∧ (∀ v ∈ us, LocalUnit v ∨ v = ['.']) ∧
    us.getLast? ≠ some ['.']

end Rdftk.Spec
