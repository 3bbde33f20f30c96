import Verif.Model.NTriples

/-!
Parsing expression grammars as `pest` runs them: the generator of `pest` turns every rule of a grammar file into a function, and this is
what those functions do.  Choices are ordered, repetitions are greedy, and between the parts of a sequence or a repetition white space and
comments are skipped unless the rule is atomic, or has been called from an atomic rule.

Not kept: the positions of the pairs in the text (only the text they span), and what the error of a failed parse says.
-/

namespace Rdftk

/-- Expressions of a grammar file over the rules `R`. -/
inductive Peg (R : Type) where
  /-- `"…"` -/
  | str (t : Str)
  /-- `^"…"`, letters of ASCII in either case -/
  | istr (t : Str)
  /-- `'a'..'b'`, by code points -/
  | range (lo hi : Nat)
  /-- `ANY` -/
  | any
  /-- `SOI` -/
  | soi
  /-- `EOI` -/
  | eoi
  | rule (r : R)
  /-- `a ~ b` -/
  | seq (a b : Peg R)
  /-- `a | b` -/
  | alt (a b : Peg R)
  /-- `a?` -/
  | opt (a : Peg R)
  /-- `a*` -/
  | star (a : Peg R)
  /-- the rest of `a*` after the first `a`: skip, then `a`, any number of times -/
  | more (a : Peg R)
  /-- `!a` -/
  | not (a : Peg R)
  /-- `&a` -/
  | look (a : Peg R)
deriving DecidableEq

/-- `ASCII_ALPHA`. -/
def Peg.asciiAlpha {R : Type} : Peg R := .alt (.range 0x61 0x7A) (.range 0x41 0x5A)
/-- `ASCII_DIGIT`. -/
def Peg.asciiDigit {R : Type} : Peg R := .range 0x30 0x39
/-- `ASCII_ALPHANUMERIC`. -/
def Peg.asciiAlphanumeric {R : Type} : Peg R := .alt (.range 0x61 0x7A) (.alt (.range 0x41 0x5A) (.range 0x30 0x39))
/-- `ASCII_HEX_DIGIT`. -/
def Peg.asciiHexDigit {R : Type} : Peg R := .alt (.range 0x30 0x39) (.alt (.range 0x61 0x66) (.range 0x41 0x46))

/-- The kinds of rules: `{…}`, `_{…}`, `@{…}` and `${…}`. -/
inductive PegKind where
  | normal | silent | atomic | compound
deriving DecidableEq, Repr

/-- `pest::Atomicity`. -/
inductive PegMode where
  | free | atomic | compound
deriving DecidableEq, Repr

/-- A grammar: the rules, and which of them are `WHITESPACE` and `COMMENT`. -/
structure PegGrammar (R : Type) where
  body : R → PegKind × Peg R
  space : R
  comment : R

/-- `pest::iterators::Pair`: the rule, the text matched and the pairs inside.  `EOI` is the pair without a rule. -/
inductive Pair (R : Type) where
  | mk (rule : Option R) (text : Str) (inner : List (Pair R))

def Pair.rule {R : Type} : Pair R → Option R
  | .mk r _ _ => r
def Pair.text {R : Type} : Pair R → Str
  | .mk _ t _ => t
def Pair.inner {R : Type} : Pair R → List (Pair R)
  | .mk _ _ l => l

/-- The mode in which the body of a rule runs: `state.atomic(…)` around it. -/
def PegKind.mode : PegKind → PegMode → PegMode
  | .normal, m => m
  | .silent, m => m
  | .atomic, _ => .atomic
  | .compound, _ => .compound

/-- Whether `state.rule(…)` makes a pair: not for silent rules, and not in atomic mode; the mode of a compound rule is set before, that of
an atomic one after. -/
def PegKind.makes : PegKind → PegMode → Bool
  | .silent, _ => false
  | .compound, _ => true
  | _, m => m != .atomic

/-- A lower case letter of ASCII for an upper case one. -/
def asciiLower (c : Char) : Char := if inRange 0x41 0x5A c then Char.ofNat (c.toNat + 32) else c

/-- `match_insensitive`. -/
def stripPrefixI : Str → Str → Option Str
  | [], s => some s
  | _ :: _, [] => none
  | a :: t, b :: s => if asciiLower a = asciiLower b then stripPrefixI t s else none

/-- What was read of `s` when `r` is left. -/
def textRead (s r : Str) : Str := s.take (s.length - r.length)

/-- What a run gives: the pairs and the rest of the text, or failure. -/
abbrev PegRes (R : Type) := Option (List (Pair R) × Str)

/-- `and_then`: go on where the first part has ended. -/
def PegRes.next {R : Type} (x : Option (PegRes R)) (f : Str → Option (PegRes R)) : Option (PegRes R) :=
  match x with
  | none => none
  | some none => some none
  | some (some (l, r)) =>
    match f r with
    | none => none
    | some none => some none
    | some (some (k, r)) => some (some (l ++ k, r))

/-- `or_else`. -/
def PegRes.other {R : Type} (x : Option (PegRes R)) (y : Unit → Option (PegRes R)) : Option (PegRes R) :=
  match x with
  | some none => y ()
  | x => x

/-- `hidden::skip`: `WHITESPACE* ~ (COMMENT ~ WHITESPACE*)*`. -/
def PegGrammar.skipper {R : Type} (g : PegGrammar R) : Peg R :=
  .seq (.star (.rule g.space)) (.star (.seq (.rule g.comment) (.star (.rule g.space))))

/-- The functions that `pest` makes of a grammar.  `total` is the length of the whole text, the first number bounds the depth of calls;
`none` is for a run that is deeper than that. -/
def PegGrammar.run {R : Type} (g : PegGrammar R) (total : Nat) : Nat → PegMode → Peg R → Str → Option (PegRes R)
  | 0, _, _, _ => none
  | _ + 1, _, .str t, s => some ((stripPrefix t s).map fun r => ([], r))
  | _ + 1, _, .istr t, s => some ((stripPrefixI t s).map fun r => ([], r))
  | _ + 1, _, .range _ _, [] => some none
  | _ + 1, _, .range lo hi, c :: r => some (if inRange lo hi c then some ([], r) else none)
  | _ + 1, _, .any, [] => some none
  | _ + 1, _, .any, _ :: r => some (some ([], r))
  | _ + 1, _, .soi, s => some (if s.length = total then some ([], s) else none)
  | _ + 1, m, .eoi, s => some (if s.isEmpty then some (if m = .atomic then [] else [.mk none [] []], s) else none)
  | n + 1, m, .rule x, s =>
    match g.run total n ((g.body x).1.mode m) (g.body x).2 s with
    | none => none
    | some none => some none
    | some (some (l, r)) => some (some (if (g.body x).1.makes m then [.mk (some x) (textRead s r) l] else l, r))
  | n + 1, m, .seq a b, s =>
    PegRes.next (g.run total n m a s) fun r =>
      PegRes.next (if m = .free then g.run total n .atomic g.skipper r else some (some ([], r))) fun r => g.run total n m b r
  | n + 1, m, .alt a b, s => PegRes.other (g.run total n m a s) fun _ => g.run total n m b s
  | n + 1, m, .opt a, s => PegRes.other (g.run total n m a s) fun _ => some (some ([], s))
  | n + 1, m, .star a, s =>
    PegRes.other (PegRes.next (g.run total n m a s) fun r => g.run total n m (.more a) r) fun _ => some (some ([], s))
  | n + 1, m, .more a, s =>
    PegRes.other
      (PegRes.next (if m = .free then g.run total n .atomic g.skipper s else some (some ([], s))) fun r =>
        PegRes.next (g.run total n m a r) fun r => g.run total n m (.more a) r)
      fun _ => some (some ([], s))
  | n + 1, m, .not a, s =>
    match g.run total n m a s with
    | none => none
    | some none => some (some ([], s))
    | some (some _) => some none
  | n + 1, m, .look a, s =>
    match g.run total n m a s with
    | none => none
    | some none => some none
    | some (some _) => some (some ([], s))

/-- `Parser::parse(rule, input)`. -/
def PegGrammar.parse {R : Type} (g : PegGrammar R) (n : Nat) (x : R) (s : Str) : Option (PegRes R) :=
  g.run s.length n .free (.rule x) s

end Rdftk
