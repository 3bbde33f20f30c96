import Verif.Spec.Resolve
import Verif.Spec.NTriples

/-!
A reader of Turtle documents, from the W3C recommendation of 2014 and independent of the model.
It reads a part of the language: strings stand in one pair of double quotes, a statement starts
with an IRI or a blank node label.  Other documents are refused, so what is read is what the
recommendation says.

The text is read character by character.  A scanner turns it into tokens, and each token is
handed to a machine that keeps what was read so far.
-/

namespace Rdftk.Spec

/-! ### Characters -/

/-- Membership in a list of ranges. -/
def inRanges (rs : List (Nat × Nat)) (c : Char) : Bool := rs.any fun r => r.1 ≤ c.toNat && c.toNat ≤ r.2

/-- `PN_CHARS_BASE` -/
def pnBase : Char → Bool := inRanges
  [(0x41, 0x5A), (0x61, 0x7A), (0xC0, 0xD6), (0xD8, 0xF6), (0xF8, 0x2FF), (0x370, 0x37D),
   (0x37F, 0x1FFF), (0x200C, 0x200D), (0x2070, 0x218F), (0x2C00, 0x2FEF), (0x3001, 0xD7FF),
   (0xF900, 0xFDCF), (0xFDF0, 0xFFFD), (0x10000, 0xEFFFF)]
/-- `[0-9]` -/
def digit : Char → Bool := inRanges [(0x30, 0x39)]
/-- `[a-zA-Z]` -/
def alpha : Char → Bool := inRanges [(0x41, 0x5A), (0x61, 0x7A)]
/-- `PN_CHARS_U` -/
def pnU (c : Char) : Bool := pnBase c || c == '_'
/-- `PN_CHARS` -/
def pnChar (c : Char) : Bool :=
  pnU c || c == '-' || digit c || inRanges [(0xB7, 0xB7), (0x300, 0x36F), (0x203F, 0x2040)] c
/-- `WS` -/
def white (c : Char) : Bool := (str! " \t\r\n").contains c
/-- ``[^#x00-#x20<>"{}|^`\]`` -/
def iriChar (c : Char) : Bool := decide (0x20 < c.toNat) && !(str! "<>\"{}|^`\\").contains c

/-! ### Names, numbers and tags -/

/-- `first ((PN_CHARS | '.')* PN_CHARS)?` -/
def dotted (first : Char → Bool) : Str → Bool
  | [] => false
  | c :: s => first c && (s.all fun c => pnChar c || c == '.') && s.getLast? != some '.'

/-- `PN_LOCAL` without percent and backslash. -/
def isLocal : Str → Bool
  | [] => true
  | c :: s => (pnU c || c == ':' || digit c) && (s.all fun c => pnChar c || c == '.' || c == ':') &&
      s.getLast? != some '.'

/-- `PN_PREFIX?` -/
def isPrefix (s : Str) : Bool := s.isEmpty || dotted pnBase s

/-- The label of a `BLANK_NODE_LABEL`. -/
def isLabel : Str → Bool := dotted fun c => pnU c || digit c

/-- `LANGTAG` after the `@`. -/
def isTag (s : Str) : Bool :=
  let subs := (splitDash s)
  (subs.head?.any fun a => !a.isEmpty && a.all alpha) &&
    subs.tail.all fun t => !t.isEmpty && t.all fun c => alpha c || digit c
where
  /-- The pieces between hyphens. -/
  splitDash : Str → List Str
    | [] => [[]]
    | c :: s =>
      if c = '-' then [] :: splitDash s
      else match splitDash s with
        | [] => [[c]]
        | w :: ws => (c :: w) :: ws

/-- The XML schema type of that name. -/
def xsdText (s : Str) : Str := str! "http://www.w3.org/2001/XMLSchema#" ++ s
/-- The RDF term of that name. -/
def rdfText (s : Str) : Str := str! "http://www.w3.org/1999/02/22-rdf-syntax-ns#" ++ s

/-- Without a sign. -/
def unsigned : Str → Str
  | '+' :: s => s
  | '-' :: s => s
  | s => s

/-- `[0-9]+` -/
def digits (s : Str) : Bool := !s.isEmpty && s.all digit

/-- `[0-9]* '.' [0-9]+` -/
def isPoint (s : Str) : Bool :=
  (s.dropWhile digit).head? == some '.' && digits ((s.dropWhile digit).drop 1)

/-- `[0-9]+ '.' [0-9]* EXPONENT | '.' [0-9]+ EXPONENT | [0-9]+ EXPONENT` -/
def isExponential (s : Str) : Bool :=
  let m := s.takeWhile fun c => !(str! "eE").contains c
  let e := s.dropWhile fun c => !(str! "eE").contains c
  !e.isEmpty && digits (unsigned (e.drop 1)) && (digits m || isPoint m ||
    (m.getLast? == some '.' && digits m.dropLast))

/-- The type of a number or truth value. -/
def bareType (s : Str) : Option Str :=
  if s = (str! "true") ∨ s = (str! "false") then some (xsdText (str! "boolean"))
  else if digits (unsigned s) then some (xsdText (str! "integer"))
  else if isPoint (unsigned s) then some (xsdText (str! "decimal"))
  else if isExponential (unsigned s) then some (xsdText (str! "double"))
  else none

/-! ### Scanner -/

/-- Tokens. -/
inductive Tok where
  | iri (s : Str)
  | pname (p l : Str)
  | blank (l : Str)
  | string (s : Str)
  | at (s : Str)
  | type
  | a
  | prefixKw
  | baseKw
  | value (s type : Str)
  | dot
  | semi
  | comma
  | lbr
  | rbr
  | lpar
  | rpar
deriving DecidableEq, Repr

/-- States of the scanner. -/
inductive Mode where
  | start
  | comment
  | iri (acc : Str)
  | str (acc : Str)
  | empty
  | esc (inIri : Bool) (acc : Str)
  | hex (inIri : Bool) (acc : Str) (left v : Nat)
  | name (acc : Str)
  | at (acc : Str)
  | caret
deriving DecidableEq, Repr

/-- Characters of names, keywords and numbers. -/
def nameChar (c : Char) : Bool := pnChar c || (str! ".:+").contains c

/-- The token for a word with a colon. -/
def colonTok (s : Str) : Option Tok :=
  if s.take 2 = (str! "_:") then (if isLabel (s.drop 2) then some (.blank (s.drop 2)) else none)
  else
    let r := cutAt (str! ":") s
    match r.2 with
    | [] => none
    | _ :: l => if isPrefix r.1 && isLocal l then some (.pname r.1 l) else none

/-- The token for a word without final dots. -/
def wordTok (s : Str) : Option Tok :=
  if s = (str! "a") then some .a
  else match bareType s with
    | some t => some (.value s t)
    | none =>
      if s.map Char.toLower = (str! "prefix") then some .prefixKw
      else if s.map Char.toLower = (str! "base") then some .baseKw
      else colonTok s

/-- The word without final dots. -/
def stem (s : Str) : Str := (s.reverse.dropWhile (· == '.')).reverse

/-- The tokens for a word: names do not end with a dot, what follows are single dots. -/
def wordToks (s : Str) : Option (List Tok) :=
  let dots := List.replicate (s.length - (stem s).length) Tok.dot
  if stem s = [] then some dots else (wordTok (stem s)).map (· :: dots)

/-- A character between tokens. -/
def scanStart (c : Char) : Option (List Tok × Mode) :=
  if white c then some ([], .start)
  else if c = '#' then some ([], .comment)
  else if c = '<' then some ([], .iri [])
  else if c = '"' then some ([], .str [])
  else if c = '@' then some ([], .at [])
  else if c = '^' then some ([], .caret)
  else if c = ';' then some ([.semi], .start)
  else if c = ',' then some ([.comma], .start)
  else if c = '[' then some ([.lbr], .start)
  else if c = ']' then some ([.rbr], .start)
  else if c = '(' then some ([.lpar], .start)
  else if c = ')' then some ([.rpar], .start)
  else if nameChar c then some ([], .name [c])
  else none

/-- `ECHAR` -/
def echar (c : Char) : Option Char :=
  if c = 't' then some '\t' else if c = 'b' then some '\x08' else if c = 'n' then some '\n'
  else if c = 'r' then some '\r' else if c = 'f' then some '\x0c' else if c = '"' then some '"'
  else if c = '\'' then some '\'' else if c = '\\' then some '\\' else none

/-- The scanner. -/
def scan : Mode → Char → Option (List Tok × Mode)
  | .start, c => scanStart c
  | .comment, c => some ([], if c = '\n' ∨ c = '\r' then .start else .comment)
  | .iri acc, c =>
    if c = '>' then some ([.iri acc], .start)
    else if c = '\\' then some ([], .esc true acc)
    else if iriChar c then some ([], .iri (acc ++ [c]))
    else none
  | .str acc, c =>
    if c = '"' then (if acc = [] then some ([], .empty) else some ([.string acc], .start))
    else if c = '\\' then some ([], .esc false acc)
    else if c = '\n' ∨ c = '\r' then none
    else some ([], .str (acc ++ [c]))
  | .empty, c =>
    if c = '"' then none else (scanStart c).map fun r => (.string [] :: r.1, r.2)
  | .esc inIri acc, c =>
    if c = 'u' then some ([], .hex inIri acc 4 0)
    else if c = 'U' then some ([], .hex inIri acc 8 0)
    else if inIri then none
    else (echar c).map fun x => ([], .str (acc ++ [x]))
  | .hex inIri acc left v, c =>
    (hexDigitValue c).bind fun d =>
      if left ≤ 1 then
        if (v * 16 + d).isValidChar then
          let acc := acc ++ [Char.ofNat (v * 16 + d)]
          some ([], if inIri then .iri acc else .str acc)
        else none
      else some ([], .hex inIri acc (left - 1) (v * 16 + d))
  | .name acc, c =>
    if nameChar c then some ([], .name (acc ++ [c]))
    else (wordToks acc).bind fun ts => (scanStart c).map fun r => (ts ++ r.1, r.2)
  | .at acc, c =>
    if alpha c || digit c || c == '-' then some ([], .at (acc ++ [c]))
    else if isTag acc then (scanStart c).map fun r => (.at acc :: r.1, r.2)
    else none
  | .caret, c => if c = '^' then some ([.type], .start) else none

/-- The tokens at the end of the text. -/
def scanEnd : Mode → Option (List Tok)
  | .start => some []
  | .comment => some []
  | .empty => some [.string []]
  | .name acc => wordToks acc
  | .at acc => if isTag acc then some [.at acc] else none
  | _ => none

/-! ### Statements -/

/-- RDF terms; `fresh` are blank nodes without a label. -/
inductive Node where
  | iri (s : Str)
  | blank (l : Str)
  | fresh (n : Nat)
  | lit (text type : Str) (lang : Option Str)
deriving DecidableEq, Repr

/-- RDF triples. -/
structure Triple where
  s : Node
  p : Str
  o : Node
deriving DecidableEq, Repr

/-- Where the next object goes. -/
inductive Frame where
  | pair (s : Node) (p : Str)
  /-- the first and the last cell of a collection so far -/
  | list (cells : Option (Node × Node))
deriving DecidableEq, Repr

/-- What is expected. -/
inductive Expect where
  | start
  | prefixName (sparql : Bool)
  | prefixIri (sparql : Bool) (p : Str)
  | baseIri (sparql : Bool)
  | directiveEnd
  /-- a verb for the subject; `more` when one was read before -/
  | verb (s : Node) (more : Bool)
  | object
  | after
  | items
  | bracket (b : Node)
  /-- maybe a language or type -/
  | string (t : Str)
  | typeOf (t : Str)
deriving DecidableEq, Repr

/-- What was read so far. -/
structure Doc where
  base : Option Str
  prefixes : List (Str × Str)
  n : Nat
  out : List Triple
  stack : List Frame
  expect : Expect
deriving DecidableEq, Repr

/-- Nothing was read. -/
def Doc.empty : Doc := ⟨none, [], 0, [], [], .start⟩

/-- The IRI of a prefixed name; the last declaration counts. -/
def Doc.lookup (d : Doc) (p : Str) : Option Str := (d.prefixes.find? fun e => e.1 == p).map (·.2)

/-- The IRI that a token stands for. -/
def Doc.iriOf (d : Doc) : Tok → Option Str
  | .iri s => iriValue d.base s
  | .pname p l => (d.lookup p).map (· ++ l)
  | _ => none

/-- The term that a token stands for. -/
def Doc.nodeOf (d : Doc) : Tok → Option Node
  | .blank l => some (.blank l)
  | .value s t => some (.lit s t none)
  | t => (d.iriOf t).map .iri

/-- An object was read. -/
def Doc.put (d : Doc) (o : Node) : Option Doc :=
  match d.stack with
  | .pair s p :: _ => some { d with out := d.out ++ [⟨s, p, o⟩], expect := .after }
  | .list none :: r =>
    some { d with
      n := d.n + 1
      out := d.out ++ [⟨.fresh d.n, rdfText (str! "first"), o⟩]
      stack := .list (some (.fresh d.n, .fresh d.n)) :: r
      expect := .items }
  | .list (some (h, l)) :: r =>
    some { d with
      n := d.n + 1
      out := d.out ++ [⟨l, rdfText (str! "rest"), .fresh d.n⟩, ⟨.fresh d.n, rdfText (str! "first"), o⟩]
      stack := .list (some (h, .fresh d.n)) :: r
      expect := .items }
  | [] => none

/-- The first token of an object. -/
def Doc.object (d : Doc) : Tok → Option Doc
  | .string s => some { d with expect := .string s }
  | .lbr => some { d with n := d.n + 1, expect := .bracket (.fresh d.n) }
  | .lpar => some { d with stack := .list none :: d.stack, expect := .items }
  | t => (d.nodeOf t).bind d.put

/-- A token after an object, or the next one in a collection. -/
def Doc.next (d : Doc) (t : Tok) : Option Doc :=
  match d.stack with
  | .pair s _ :: r =>
    match t with
    | .comma => some { d with expect := .object }
    | .semi => some { d with stack := r, expect := .verb s true }
    | .dot => if r = [] then some { d with stack := [], expect := .start } else none
    | .rbr => Doc.put { d with stack := r } s
    | _ => none
  | .list cells :: r =>
    match t with
    | .rpar =>
      match cells with
      | none => Doc.put { d with stack := r } (.iri (rdfText (str! "nil")))
      | some (h, l) =>
        Doc.put { d with
          out := d.out ++ [⟨l, rdfText (str! "rest"), .iri (rdfText (str! "nil"))⟩]
          stack := r } h
    | t => d.object t
  | [] => none

/-- A verb, or what may stand instead. -/
def Doc.verb (d : Doc) (s : Node) (more : Bool) : Tok → Option Doc
  | .a => some { d with stack := .pair s (rdfText (str! "type")) :: d.stack, expect := .object }
  | .semi => if more then some d else none
  | .dot => if more && d.stack.isEmpty then some { d with expect := .start } else none
  | .rbr => if more then d.put s else none
  | t => (d.iriOf t).map fun p => { d with stack := .pair s p :: d.stack, expect := .object }

/-- A token. -/
def Doc.step (d : Doc) (t : Tok) : Option Doc :=
  match d.expect with
  | .start =>
    match t with
    | .at s =>
      if s = (str! "prefix") then some { d with expect := .prefixName false }
      else if s = (str! "base") then some { d with expect := .baseIri false }
      else none
    | .prefixKw => some { d with expect := .prefixName true }
    | .baseKw => some { d with expect := .baseIri true }
    | .value _ _ => none
    | t => (d.nodeOf t).map fun s => { d with expect := .verb s false }
  | .prefixName sparql =>
    match t with
    | .pname p [] => some { d with expect := .prefixIri sparql p }
    | _ => none
  | .prefixIri sparql p =>
    match t with
    | .iri s => (iriValue d.base s).map fun i =>
        { d with prefixes := (p, i) :: d.prefixes, expect := if sparql then .start else .directiveEnd }
    | _ => none
  | .baseIri sparql =>
    match t with
    | .iri s => (iriValue d.base s).map fun i =>
        { d with base := some i, expect := if sparql then .start else .directiveEnd }
    | _ => none
  | .directiveEnd => if t = .dot then some { d with expect := .start } else none
  | .verb s more => d.verb s more t
  | .object => d.object t
  | .after => d.next t
  | .items => d.next t
  | .bracket b => if t = .rbr then d.put b else d.verb b false t
  | .string s =>
    match t with
    | .at l => d.put (.lit s (rdfText (str! "langString")) (some l))
    | .type => some { d with expect := .typeOf s }
    | t => (d.put (.lit s (xsdText (str! "string")) none)).bind fun d => d.next t
  | .typeOf s => (d.iriOf t).bind fun i => d.put (.lit s i none)

/-- Some tokens. -/
def Doc.steps (d : Doc) : List Tok → Option Doc
  | [] => some d
  | t :: ts => (d.step t).bind fun d => d.steps ts

/-! ### Documents -/

/-- A text, from a state of the scanner and what was read before. -/
def readFrom : Mode → Doc → Str → Option (Mode × Doc)
  | m, d, [] => some (m, d)
  | m, d, c :: s => (scan m c).bind fun r => (d.steps r.1).bind fun d => readFrom r.2 d s

/-- The triples of a document. -/
def readTurtle (s : Str) : Option (List Triple) :=
  (readFrom .start .empty s).bind fun r => (scanEnd r.1).bind fun ts => (r.2.steps ts).bind fun d =>
    if d.expect = .start then some d.out else none

/-! Parts of the examples of the recommendation. -/

example : readTurtle (str! "@base <http://example.org/> .\n@prefix foaf: <http://xmlns.com/foaf/0.1/> .\nPREFIX rel: <http://r/#>\n<#green-goblin>\n    rel:enemyOf <#spiderman> ;\n    a foaf:Person ;    # in the context of the Marvel universe\n    foaf:name \"Green \\\"Goblin\\\"\", \"b\"@en-GB, 1.5, -5, true .") =
    let gg := Node.iri (str! "http://example.org/#green-goblin")
    let name := str! "http://xmlns.com/foaf/0.1/name"
    some [⟨gg, str! "http://r/#enemyOf", .iri (str! "http://example.org/#spiderman")⟩,
      ⟨gg, rdfText (str! "type"), .iri (str! "http://xmlns.com/foaf/0.1/Person")⟩,
      ⟨gg, name, .lit (str! "Green \"Goblin\"") (xsdText (str! "string")) none⟩,
      ⟨gg, name, .lit (str! "b") (rdfText (str! "langString")) (some (str! "en-GB"))⟩,
      ⟨gg, name, .lit (str! "1.5") (xsdText (str! "decimal")) none⟩,
      ⟨gg, name, .lit (str! "-5") (xsdText (str! "integer")) none⟩,
      ⟨gg, name, .lit (str! "true") (xsdText (str! "boolean")) none⟩] := by decide +kernel

example : readTurtle (str! "PREFIX : <http://e/>\n:s :p ( :x [ :q 5 ; ] \"\"^^:t ) , [] ; :r (), _:b.c.") =
    let e (s : Str) : Str := str! "http://e/" ++ s
    some [⟨.fresh 0, rdfText (str! "first"), .iri (e (str! "x"))⟩,
      ⟨.fresh 1, e (str! "q"), .lit (str! "5") (xsdText (str! "integer")) none⟩,
      ⟨.fresh 0, rdfText (str! "rest"), .fresh 2⟩, ⟨.fresh 2, rdfText (str! "first"), .fresh 1⟩,
      ⟨.fresh 2, rdfText (str! "rest"), .fresh 3⟩,
      ⟨.fresh 3, rdfText (str! "first"), .lit [] (e (str! "t")) none⟩,
      ⟨.fresh 3, rdfText (str! "rest"), .iri (rdfText (str! "nil"))⟩,
      ⟨.iri (e (str! "s")), e (str! "p"), .fresh 0⟩,
      ⟨.iri (e (str! "s")), e (str! "p"), .fresh 4⟩,
      ⟨.iri (e (str! "s")), e (str! "r"), .iri (rdfText (str! "nil"))⟩,
      ⟨.iri (e (str! "s")), e (str! "r"), .blank (str! "b.c")⟩] := by decide +kernel

example : readTurtle (str! "<a:s> <a:p> ( <a:x>, <a:y> ) .") = none := by decide +kernel

end Rdftk.Spec
