import Verif.Spec.Grammar

/-!
The terms of N-Triples and N-Quads documents and their layout, written from the W3C
recommendations and independent of the model.
-/

namespace Rdftk.Spec

/-- Value of a hexadecimal digit of either case. -/
def hexDigitValue (c : Char) : Option Nat :=
  ((str! "0123456789abcdef").idxOf? c).or ((str! "0123456789ABCDEF").idxOf? c)

/-- `HEX` -/
def Hex (c : Char) : Prop := (hexDigitValue c).isSome = true

/-- Value of a sequence of hexadecimal digits, the first one being the most significant. -/
def hexValue : Str → Nat
  | [] => 0
  | c :: s => (hexDigitValue c).getD 0 * 16 ^ s.length + hexValue s

/-- A sequence of tokens. -/
def Tokens (P : Str → Prop) (s : Str) : Prop := ∃ ts : List Str, (∀ t ∈ ts, P t) ∧ s = ts.flatten

/-- `UCHAR ::= '\u' HEX HEX HEX HEX | '\U' HEX HEX HEX HEX HEX HEX HEX HEX`, with its digits. -/
def UcharOf (ds t : Str) : Prop :=
  (∀ c ∈ ds, Hex c) ∧
    ((ds.length = 4 ∧ t = '\\' :: 'u' :: ds) ∨ (ds.length = 8 ∧ t = '\\' :: 'U' :: ds))

/-- `UCHAR` -/
def Uchar (t : Str) : Prop := ∃ ds, UcharOf ds t

/-- `ECHAR ::= '\' [tbnrf"'\]` -/
def Echar (t : Str) : Prop := ∃ c ∈ (str! "tbnrf\"'\\"), t = ['\\', c]

/-- ``[^#x00-#x20<>"{}|^`\]`` -/
def IriPlain (c : Char) : Prop := 0x20 < c.toNat ∧ c ∉ (str! "<>\"{}|^`\\")

/-- The inside of an `IRIREF`. -/
def IriText : Str → Prop := Tokens fun t => (∃ c, IriPlain c ∧ t = [c]) ∨ Uchar t

/-- The inside of a `STRING_LITERAL_QUOTE`. -/
def QuoteText : Str → Prop :=
  Tokens fun t => (∃ c, c ∉ (str! "\"\\\n\r") ∧ t = [c]) ∨ Uchar t ∨ Echar t

/-- No two dots in a row.  The W3C grammar allows them inside a label, the grammar of the code
does not. -/
def SingleDots (s : Str) : Prop := ∀ a b, s ≠ a ++ '.' :: '.' :: b

/-- A blank node label after the `_:`. -/
def Label (s : Str) : Prop := Dotted (fun c => PN_CHARS_U c ∨ Digit c) s ∧ SingleDots s

/-- `[a-zA-Z]` -/
def Alpha : Char → Prop := InRanges [(0x41, 0x5A), (0x61, 0x7A)]
/-- `[a-zA-Z0-9]` -/
def Alnum (c : Char) : Prop := Alpha c ∨ Digit c

/-- `LANGTAG ::= '@' [a-zA-Z]+ ('-' [a-zA-Z0-9]+)*`, after the `@`. -/
def LangTag (s : Str) : Prop :=
  ∃ (a : Str) (subs : List Str), s = a ++ subs.flatMap (fun t => '-' :: t) ∧ a ≠ [] ∧
    (∀ c ∈ a, Alpha c) ∧ ∀ t ∈ subs, t ≠ [] ∧ ∀ c ∈ t, Alnum c

/-- White space, line ends and comments up to the end of their line. -/
inductive Gap : Str → Prop where
  | nil : Gap []
  | ws {c : Char} {g : Str} : c ∈ (str! " \t\r\n") → Gap g → Gap (c :: g)
  | comment {body : Str} {nl : Char} {g : Str} : '\r' ∉ body → '\n' ∉ body →
      nl ∈ (str! "\r\n") → Gap g → Gap ('#' :: (body ++ nl :: g))

/-- What may stand at the end of a document: a gap and maybe a comment without line end. -/
def LastGap (s : Str) : Prop :=
  ∃ g c, Gap g ∧ s = g ++ c ∧ (c = [] ∨ ∃ body, '\r' ∉ body ∧ '\n' ∉ body ∧ c = '#' :: body)

/-- An IRI or blank node as it stands in a document. -/
inductive Term where
  | iri (inner : Str)
  | blank (label : Str)

/-- What follows the string of a literal. -/
inductive Suffix where
  | none
  | lang (tag : Str)
  | type (inner : Str)

/-- An object as it stands in a document. -/
inductive Obj where
  | term (t : Term)
  | lit (inner : Str) (suffix : Suffix)

/-- A statement as it stands in a document; N-Triples have no graph. -/
structure Line where
  s : Term
  p : Str
  o : Obj
  g : Option Term

/-- The gaps between the parts of a statement. -/
structure Gaps where
  afterS : Str
  afterP : Str
  afterO : Str
  afterG : Str
  beforeSuffix : Str
  insideType : Str
  afterEnd : Str

/-- Text of a term. -/
def Term.text : Term → Str
  | .iri i => '<' :: i ++ ['>']
  | .blank l => '_' :: ':' :: l

/-- Text of a suffix. -/
def Suffix.text (g : Gaps) : Suffix → Str
  | .none => []
  | .lang t => '@' :: t
  | .type i => '^' :: '^' :: g.insideType ++ '<' :: i ++ ['>']

/-- Text of an object. -/
def Obj.text (g : Gaps) : Obj → Str
  | .term t => t.text
  | .lit a .none => '"' :: a ++ ['"']
  | .lit a x => '"' :: a ++ '"' :: g.beforeSuffix ++ x.text g

/-- Text of the graph name with the gap after it. -/
def graphText (g : Gaps) : Option Term → Str
  | none => []
  | some t => t.text ++ g.afterG

/-- Text of a statement. -/
def Line.text (g : Gaps) (l : Line) : Str :=
  l.s.text ++ g.afterS ++ '<' :: l.p ++ '>' :: g.afterP ++ l.o.text g ++ g.afterO ++
    graphText g l.g ++ '.' :: g.afterEnd

/-- A term of the grammar. -/
def Term.Valid : Term → Prop
  | .iri i => IriText i
  | .blank l => Label l

/-- A suffix of the grammar. -/
def Suffix.Valid : Suffix → Prop
  | .none => True
  | .lang t => LangTag t
  | .type i => IriText i

/-- An object of the grammar. -/
def Obj.Valid : Obj → Prop
  | .term t => t.Valid
  | .lit a x => QuoteText a ∧ x.Valid

/-- A statement of the grammar. -/
def Line.Valid (l : Line) : Prop := l.s.Valid ∧ IriText l.p ∧ l.o.Valid ∧ ∀ t ∈ l.g, t.Valid

/-- Terms whose end only shows by what follows. -/
def Term.Open : Term → Prop
  | .iri _ => False
  | .blank _ => True

/-- Objects whose end only shows by what follows. -/
def Obj.Open : Obj → Prop
  | .term t => t.Open
  | .lit _ (.lang _) => True
  | .lit _ _ => False

/-- Gaps that separate the parts of a statement. -/
def Gaps.Valid (g : Gaps) (l : Line) : Prop :=
  Gap g.afterS ∧ Gap g.afterP ∧ Gap g.afterO ∧ Gap g.afterG ∧ Gap g.beforeSuffix ∧
  Gap g.insideType ∧ Gap g.afterEnd ∧
  (l.s.Open → g.afterS ≠ []) ∧ (l.o.Open → g.afterO ≠ []) ∧ (∀ t ∈ l.g, t.Open → g.afterG ≠ [])

/-- Text of statements in a layout. -/
def linesText : List (Gaps × Line) → Str
  | [] => []
  | (g, l) :: r => l.text g ++ linesText r

/-- `DecodesIri s t`: `t` is `s` with each numeric escape, found from left to right, replaced
by the character it names. -/
inductive DecodesIri : Str → Str → Prop where
  | nil : DecodesIri [] []
  | plain {c : Char} {s t : Str} : (∀ u r, Uchar u → c :: s ≠ u ++ r) → DecodesIri s t →
      DecodesIri (c :: s) (c :: t)
  | escape {ds u s t : Str} {c : Char} : UcharOf ds u → c.toNat = hexValue ds → DecodesIri s t →
      DecodesIri (u ++ s) (c :: t)

/-- Every numeric escape in the text names a character. -/
def GoodEscapes (s : Str) : Prop :=
  ∀ ds u, UcharOf ds u → u <:+: s → (hexValue ds).isValidChar

end Rdftk.Spec
