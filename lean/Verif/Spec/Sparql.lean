import Verif.Spec.Grammar

/-! Productions of the grammar of SPARQL 1.1, written from the recommendation. -/

namespace Rdftk.Spec

/-- `PN_CHARS_U | [0-9] | #x00B7 | [#x0300-#x036F] | [#x203F-#x2040]` -/
def VarNameChar (c : Char) : Prop :=
  PN_CHARS_U c ∨ Digit c ∨ InRanges [(0xB7, 0xB7), (0x300, 0x36F), (0x203F, 0x2040)] c

/-- `VARNAME ::= ( PN_CHARS_U | [0-9] ) ( … )*` -/
def VARNAME (s : Str) : Prop := ∃ c t, s = c :: t ∧ (PN_CHARS_U c ∨ Digit c) ∧ ∀ x ∈ t, VarNameChar x

/-- A character of `IRIREF`: `[^<>"{}|^`\]-[#x00-#x20]` -/
def IriRefChar (c : Char) : Prop := c ∉ str! "<>\"{}|^`\\" ∧ 0x20 < c.toNat

/-- `[a-zA-Z]` -/
def AsciiLetter : Char → Prop := InRanges [(0x41, 0x5A), (0x61, 0x7A)]

/-- `('-' [a-zA-Z0-9]+)*` -/
inductive LangParts : Str → Prop
  | nil : LangParts []
  | part {t s : Str} : t ≠ [] → (∀ c ∈ t, AsciiLetter c ∨ Digit c) → LangParts s → LangParts ('-' :: t ++ s)

/-- What follows the `'@'` of `LANGTAG`: `[a-zA-Z]+ ('-' [a-zA-Z0-9]+)*` -/
def LANGTAG (s : Str) : Prop := ∃ m p, s = m ++ p ∧ m ≠ [] ∧ (∀ c ∈ m, AsciiLetter c) ∧ LangParts p

/-- The property `White_Space` of Unicode, from `PropList.txt`. -/
def WhiteSpace (c : Char) : Prop := c.toNat ∈ [0x9, 0xA, 0xB, 0xC, 0xD, 0x20, 0x85, 0xA0, 0x1680, 0x2000, 0x2001, 0x2002, 0x2003, 0x2004, 0x2005,
  0x2006, 0x2007, 0x2008, 0x2009, 0x200A, 0x2028, 0x2029, 0x202F, 0x205F, 0x3000]

/-- What follows the backslash of `PN_LOCAL_ESC`. -/
def LocalEscape (c : Char) : Prop := c ∈ ['_', '~', '.', '-', '!', '$', '&', '\'', '(', ')', '*', '+', ',', ';', '=', '/', '?', '#', '@', '%']

/-- The text begins with no such character. -/
def NotNext (p : Char → Prop) (s : Str) : Prop := ∀ c t, s = c :: t → ¬p c

end Rdftk.Spec

namespace Rdftk.Spec

/-- `WS ::= #x20 | #x9 | #xD | #xA` -/
def SparqlWs (c : Char) : Prop := c ∈ [' ', '\t', '\r', '\n']

/-- White space and comments between tokens.  A comment is from `#` to the end of the line. -/
inductive SparqlGap : Str → Prop
  | nil : SparqlGap []
  | ws {c : Char} {s : Str} : SparqlWs c → SparqlGap s → SparqlGap (c :: s)
  | comment {t s : Str} : '\n' ∉ t → '\r' ∉ t → SparqlGap s → SparqlGap ('#' :: t ++ '\n' :: s)

/-- A keyword, "matched in a case-insensitive manner", letter by letter. -/
def Keyword : Str → Str → Prop
  | [], [] => True
  | k :: ks, c :: cs => (c = k ∨ (AsciiLetter k ∧ AsciiLetter c ∧ (c.toNat = k.toNat + 32 ∨ k.toNat = c.toNat + 32))) ∧ Keyword ks cs
  | _, _ => False

/-- `BaseDecl ::= 'BASE' IRIREF` and `PrefixDecl ::= 'PREFIX' PNAME_NS IRIREF`, with what follows up to the
next token.  Where a prefix follows the keyword there is something between them. -/
inductive Declaration : Str → Prop
  | base {k g i g' : Str} : Keyword (str! "BASE") k → SparqlGap g → (∀ c ∈ i, IriRefChar c) → SparqlGap g' →
      Declaration (k ++ g ++ '<' :: i ++ '>' :: g')
  | noPrefix {k g g1 i g' : Str} : Keyword (str! "PREFIX") k → SparqlGap g → SparqlGap g1 → (∀ c ∈ i, IriRefChar c) → SparqlGap g' →
      Declaration (k ++ g ++ ':' :: g1 ++ '<' :: i ++ '>' :: g')
  | named {k g p g1 i g' : Str} : Keyword (str! "PREFIX") k → g ≠ [] → SparqlGap g → PN_PREFIX p → SparqlGap g1 →
      (∀ c ∈ i, IriRefChar c) → SparqlGap g' →
      Declaration (k ++ g ++ p ++ ':' :: g1 ++ '<' :: i ++ '>' :: g')

/-- `Prologue ::= ( BaseDecl | PrefixDecl )*` -/
inductive Prologue : Str → Prop
  | nil : Prologue []
  | cons {d s : Str} : Declaration d → Prologue s → Prologue (d ++ s)

/-- Declarations without comments, with white space after `BASE`, and no prefix that begins with U+1680, which is
white space to some and a letter to others. -/
inductive PlainDeclaration : Str → Prop
  | base {k g i g' : Str} : Keyword (str! "BASE") k → g ≠ [] → (∀ c ∈ g, SparqlWs c) → (∀ c ∈ i, IriRefChar c) →
      (∀ c ∈ g', SparqlWs c) → PlainDeclaration (k ++ g ++ '<' :: i ++ '>' :: g')
  | noPrefix {k g g1 i g' : Str} : Keyword (str! "PREFIX") k → (∀ c ∈ g, SparqlWs c) → (∀ c ∈ g1, SparqlWs c) →
      (∀ c ∈ i, IriRefChar c) → (∀ c ∈ g', SparqlWs c) → PlainDeclaration (k ++ g ++ ':' :: g1 ++ '<' :: i ++ '>' :: g')
  | named {k g p g1 i g' : Str} : Keyword (str! "PREFIX") k → g ≠ [] → (∀ c ∈ g, SparqlWs c) → PN_PREFIX p →
      p.head? ≠ some (Char.ofNat 0x1680) → (∀ c ∈ g1, SparqlWs c) → (∀ c ∈ i, IriRefChar c) → (∀ c ∈ g', SparqlWs c) →
      PlainDeclaration (k ++ g ++ p ++ ':' :: g1 ++ '<' :: i ++ '>' :: g')

/-- Any number of them. -/
inductive PlainPrologue : Str → Prop
  | nil : PlainPrologue []
  | cons {d s : Str} : PlainDeclaration d → PlainPrologue s → PlainPrologue (d ++ s)

/-- What a digit of base sixteen stands for, `HEX ::= [0-9] | [A-F] | [a-f]`. -/
def sparqlHex (c : Char) : Option Nat :=
  if 0x30 ≤ c.toNat ∧ c.toNat ≤ 0x39 then some (c.toNat - 0x30)
  else if 0x41 ≤ c.toNat ∧ c.toNat ≤ 0x46 then some (c.toNat - 0x41 + 10)
  else if 0x61 ≤ c.toNat ∧ c.toNat ≤ 0x66 then some (c.toNat - 0x61 + 10)
  else none

end Rdftk.Spec
