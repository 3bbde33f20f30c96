import Verif.Model.Expand

/-!
Model of the N-Triples and N-Quads writers (`rdftk_io/src/nt/writer.rs`, `nq/writer.rs`) and
readers (`rdftk_io/src/common/common.pest`, `common/parser/ntriples.rs`, `nquads.rs`).

The grammar is a PEG run by `pest`: choices are ordered, repetitions are greedy, and rules
that are not atomic skip white space and comments between their parts.  Each rule is a
function from the remaining text to what it matched and the text after it.  As in `pest`, the
whole text is matched before any term is evaluated.
-/

namespace Rdftk

/-- A Rust `Result` of code that may also panic; the kind of error is not kept. -/
inductive Res (α : Type _) where
  | ok (a : α)
  | err
  | panic
deriving DecidableEq, Repr

/-- The `?` operator. -/
def Res.bind {α β : Type _} : Res α → (α → Res β) → Res β
  | .ok a, f => f a
  | .err, _ => .err
  | .panic, _ => .panic

/-- A `Result` of code that does not panic. -/
def Res.ofOption {α : Type _} : Option α → Res α
  | some a => .ok a
  | none => .err

/-! ### The grammar -/

/-- `common.pest` 566. -/
def isNewline (c : Char) : Bool := c == '\r' || c == '\n'

/-- `common.pest` 572-576. -/
def isWs (c : Char) : Bool := c == ' ' || c == '\t' || isNewline c

/-- What `pest` skips between the parts of a rule that is not atomic: `WHITESPACE` and
`COMMENT` (`common.pest` 568-576) any number of times.  The flag tells that a comment is
open. -/
def skip : Bool → Str → Str
  | _, [] => []
  | true, c :: s => if isNewline c then skip false s else skip true s
  | false, c :: s => if isWs c then skip false s else if c = '#' then skip true s else c :: s

/-- Repetition `e*` without skipping.  `step` tells how many characters `e` matches, at least
one; the number is that of the characters still to pass over. -/
def rep (step : Str → Option Nat) : Nat → Str → Str × Str
  | _, [] => ([], [])
  | k + 1, c :: s => let r := rep step k s; (c :: r.1, r.2)
  | 0, c :: s =>
    match step (c :: s) with
    | none => ([], c :: s)
    | some n => let r := rep step (n - 1) s; (c :: r.1, r.2)

/-- `ASCII_HEX_DIGIT`. -/
def isHexDigit (c : Char) : Bool := (hexVal c).isSome

/-- `common.pest` 460-463, `UCHAR`: the number of characters matched. -/
def ucharLen : Str → Option Nat
  | '\\' :: 'U' :: r => if 8 ≤ (r.takeWhile isHexDigit).length then some 10 else none
  | '\\' :: 'u' :: r => if 4 ≤ (r.takeWhile isHexDigit).length then some 6 else none
  | _ => none

/-- `common.pest` 465-467, `ECHAR`. -/
def echarLen : Str → Option Nat
  | '\\' :: c :: _ => if c ∈ (str! "tbnrf\"'\\") then some 2 else none
  | _ => none

/-- `common.pest` 322: what an IRI may not hold as it is. -/
def iriExcluded (c : Char) : Bool := c.toNat ≤ 0x20 || c ∈ (str! ">\"{}|^`\\")

/-- `common.pest` 320-324, `IRIREF_CHAR`. -/
def iriCharLen : Str → Option Nat
  | [] => none
  | c :: s => if iriExcluded c then ucharLen (c :: s) else some 1

/-- `common.pest` 440-444, `QUOTE_CHAR`. -/
def quoteCharLen : Str → Option Nat
  | [] => none
  | c :: s =>
    if c ∈ (str! "\"\\\r\n") then (ucharLen (c :: s)).or (echarLen (c :: s)) else some 1

/-- `common.pest` 339-342, `BLANK_NODE_LABEL_TAIL`.  The tables of `PN_CHARS` (495-523) are
those of `pname.rs`. -/
def labelTailLen : Str → Option Nat
  | [] => none
  | c :: s =>
    if isPnChars c then some 1
    else if c = '.' then
      match s with
      | d :: _ => if isPnChars d then some 1 else none
      | [] => none
    else none

/-- `ASCII_ALPHA`. -/
def isAsciiAlpha (c : Char) : Bool := inRange 0x41 0x5A c || inRange 0x61 0x7A c
/-- `ASCII_ALPHANUMERIC`. -/
def isAsciiAlnum (c : Char) : Bool := isAsciiAlpha c || isAsciiDigit c

/-- `common.pest` 353, `"-" ~ ASCII_ALPHANUMERIC+`. -/
def subTagLen : Str → Option Nat
  | '-' :: s =>
    if (s.takeWhile isAsciiAlnum).isEmpty then none else some ((s.takeWhile isAsciiAlnum).length + 1)
  | _ => none

/-- `common.pest` 312-318, `IRIREF`: the text between the brackets. -/
def pIriRef : Str → Option (Str × Str)
  | '<' :: s =>
    match rep iriCharLen 0 s with
    | (a, '>' :: r) => some (a, r)
    | _ => none
  | _ => none

/-- `common.pest` 335-337, `BLANK_NODE_LABEL`, with the `_:`. -/
def pLabel : Str → Option (Str × Str)
  | '_' :: ':' :: c :: s =>
    if isPnCharsU c || isAsciiDigit c then
      let r := rep labelTailLen 0 s
      some ('_' :: ':' :: c :: r.1, r.2)
    else none
  | _ => none

/-- `common.pest` 344-346, `ANON`; not atomic, so there may be white space and comments
inside. -/
def pAnon : Str → Option (Str × Str)
  | '[' :: s =>
    match skip false s with
    | ']' :: r => some ('[' :: s.take (s.length - r.length), r)
    | _ => none
  | _ => none

/-- A subject as matched: the inside of an `IRIREF`, or the text of a `blankNode`. -/
inductive RNode where
  | iri (inner : Str)
  | blank (text : Str)
deriving DecidableEq, Repr

/-- `common.pest` 330-333, `blankNode`. -/
def pBlank (s : Str) : Option (Str × Str) := (pLabel s).or (pAnon s)

/-- `common.pest` 276-279, `ntripleSubject`. -/
def pSubject (s : Str) : Option (RNode × Str) :=
  match pIriRef s with
  | some (i, r) => some (.iri i, r)
  | none => (pBlank s).map fun (b, r) => (.blank b, r)

/-- `common.pest` 432-438, `STRING_LITERAL_QUOTE`: the text between the quotes. -/
def pString : Str → Option (Str × Str)
  | '"' :: s =>
    match rep quoteCharLen 0 s with
    | (a, '"' :: r) => some (a, r)
    | _ => none
  | _ => none

/-- `common.pest` 352-354, `LANGTAG`, without the `@`. -/
def pLangTag : Str → Option (Str × Str)
  | '@' :: s =>
    let a := s.takeWhile isAsciiAlpha
    if a.isEmpty then none
    else
      let b := rep subTagLen 0 (s.dropWhile isAsciiAlpha)
      some (a ++ b.1, b.2)
  | _ => none

/-- What follows the string of a literal. -/
inductive RSuffix where
  | none
  | lang (tag : Str)
  | type (inner : Str)
deriving DecidableEq, Repr

/-- `common.pest` 296, `(LANGTAG | "^^" ~ IRIREF)?`. -/
def pSuffix (s : Str) : RSuffix × Str :=
  match pLangTag s with
  | some (t, r) => (.lang t, r)
  | Option.none =>
    match stripPrefix (str! "^^") s with
    | some r =>
      match pIriRef (skip false r) with
      | some (i, r') => (.type i, r')
      | Option.none => (.none, s)
    | Option.none => (.none, s)

/-- An object as matched. -/
inductive RObject where
  | node (n : RNode)
  | lit (inner : Str) (suffix : RSuffix)
deriving DecidableEq, Repr

/-- `common.pest` 285-301, `ntripleObject`. -/
def pObject (s : Str) : Option (RObject × Str) :=
  match pSubject s with
  | some (n, r) => some (.node n, r)
  | none =>
    match pString s with
    | some (a, r) => let x := pSuffix (skip false r); some (.lit a x.1, x.2)
    | none => none

/-- A statement as matched; in N-Triples there is no graph. -/
structure RLine where
  subject : RNode
  predicate : Str
  object : RObject
  graph : Option RNode
deriving DecidableEq, Repr

/-- `common.pest` 398, `END_OF_STATEMENT`, after skipping. -/
def pEnd (s : Str) : Option Str :=
  match skip false s with
  | '.' :: r => some r
  | _ => none

/-- The three terms that begin `ntriple` and `nquad`. -/
def pTerms (s : Str) : Option ((RNode × Str × RObject) × Str) :=
  match pSubject s with
  | none => none
  | some (a, r) =>
    match pIriRef (skip false r) with
    | none => none
    | some (b, r) =>
      match pObject (skip false r) with
      | none => none
      | some (c, r) => some ((a, b, c), r)

/-- `common.pest` 272-274, `ntriple`. -/
def pTriple (s : Str) : Option (RLine × Str) :=
  match pTerms s with
  | none => none
  | some ((a, b, c), r) => (pEnd r).map fun r => (⟨a, b, c, none⟩, r)

/-- `common.pest` 260-262, `nquad`. -/
def pQuad (s : Str) : Option (RLine × Str) :=
  match pTerms s with
  | none => none
  | some ((a, b, c), r) =>
    match pSubject (skip false r) with
    | some (g, r) => (pEnd r).map fun r => (⟨a, b, c, some g⟩, r)
    | none => (pEnd r).map fun r => (⟨a, b, c, none⟩, r)

/-- `ntriple*` or `nquad*`, with skipping.  The number bounds the steps: every line takes at
least one character. -/
def pLines (p : Str → Option (RLine × Str)) : Nat → Str → List RLine × Str
  | 0, s => ([], s)
  | n + 1, s =>
    match p s with
    | none => ([], s)
    | some (l, r) => let x := pLines p n (skip false r); (l :: x.1, x.2)

/-- `common.pest` 255-257 and 268-270, `nquadDoc` and `ntripleDoc`. -/
def pDoc (p : Str → Option (RLine × Str)) (s : Str) : Option (List RLine) :=
  match pLines p s.length (skip false s) with
  | (ls, []) => some ls
  | _ => none

/-! ### Evaluation of what was matched -/

/-- What the readers take from other crates. -/
structure ReadEnv where
  /-- printable characters, for `escape_debug` -/
  pr : Char → Bool
  /-- `Url::from_str` -/
  url : Str → Option Iri
  /-- `LanguageTag::parse`, as the text of the tag it gives -/
  lang : Str → Option Str
  /-- `NameParser::BlankNode.is_valid_str` -/
  blankOk : Str → Bool

/-- Value of hexadecimal digits, `u32::from_str_radix(_, 16)`. -/
def hexNumber (ds : Str) : Nat := ds.foldl (fun n c => n * 16 + (hexVal c).getD 0) 0

/-- `ntriples.rs` 234-264, `unescape_iri` and `unescape_uchar`.  The regular expression finds
the leftmost matches that do not overlap, and its alternatives are those of `UCHAR`;
`char::from_u32(..).unwrap()` panics.  The number is that of the characters still to pass
over. -/
def unescapeIri : Nat → Str → Outcome Str
  | _, [] => .ok []
  | k + 1, _ :: s => unescapeIri k s
  | 0, c :: s =>
    match ucharLen (c :: s) with
    | none =>
      match unescapeIri 0 s with
      | .ok r => .ok (c :: r)
      | .panic => .panic
    | some n =>
      let v := hexNumber ((s.drop 1).take (n - 2))
      if v.isValidChar then
        match unescapeIri (n - 1) s with
        | .ok r => .ok (Char.ofNat v :: r)
        | .panic => .panic
      else .panic

/-- `ntriples.rs` 204-215, `iri_ref`. -/
def evalIri (env : ReadEnv) (inner : Str) : Res Iri :=
  match unescapeIri 0 inner with
  | .panic => .panic
  | .ok t => .ofOption (Iri.fromStr env.url t)

/-- `ntriples.rs` 61-84, `subject`: two characters are dropped from any blank node, also from
an anonymous one. -/
def evalNode (env : ReadEnv) : RNode → Res Subject
  | .iri i => (evalIri env i).bind fun i => .ok (.res i)
  | .blank t => (Res.ofOption (blankParse env.blankOk (t.drop 2))).bind fun b => .ok (.blank b)

/-- `ntriples.rs` 141-171, `rdf_literal`; the constructors escape the text as it stands in the
document. -/
def evalLiteral (env : ReadEnv) (inner : Str) : RSuffix → Res Literal
  | .none => .ok (Literal.plain env.pr inner)
  | .lang t => (Res.ofOption (env.lang t)).bind fun t => .ok (Literal.withLanguage env.pr inner t)
  | .type i => (evalIri env i).bind fun i => .ok (Literal.withDataType env.pr inner (.other i))

/-- `ntriples.rs` 101-128, `object`. -/
def evalObject (env : ReadEnv) : RObject → Res Object
  | .node n => (evalNode env n).bind fun s => .ok s.toObject
  | .lit a x => (evalLiteral env a x).bind fun l => .ok (.lit l)

/-- `ntriples.rs` 47-59, `triple`. -/
def evalTriple (env : ReadEnv) (l : RLine) : Res Stmt :=
  (evalNode env l.subject).bind fun s =>
  (evalIri env l.predicate).bind fun p =>
  (evalObject env l.object).bind fun o => .ok (.mk s p o)

/-- `ntriples.rs` 15-45, `parse_doc`. -/
def evalTriples (env : ReadEnv) (g : Graph) : List RLine → Res Graph
  | [] => .ok g
  | l :: ls => (evalTriple env l).bind fun st => evalTriples env (g.insert st) ls

/-- `parser/mod.rs` 66-80 and `nt/reader.rs` 21-28, `NTripleReader::read`. -/
def readNt (env : ReadEnv) (s : Str) : Res Graph :=
  match pDoc pTriple s with
  | none => .err
  | some ls => evalTriples env Graph.default ls

/-- `nquads.rs` 62-73: the graph is looked up by name and made if absent. -/
def DataSet.insertInto (d : DataSet) (n : GraphName) (st : Stmt) : DataSet :=
  if d.containsGraph (some n) then d.graphMut (some n) fun g => g.insert st
  else (d.insert (Graph.named n)).graphMut (some n) fun g => g.insert st

/-- `nquads.rs` 50-78, `nquad`.  `END_OF_STATEMENT` is not a silent rule, so a line without
graph has a fourth part as well, which `nt_subject` refuses. -/
def evalQuad (env : ReadEnv) (d : DataSet) (l : RLine) : Res DataSet :=
  (evalTriple env l).bind fun st =>
  match l.graph with
  | none => .err
  | some n =>
    (evalNode env n).bind fun s =>
    match GraphName.ofSubject s with
    | .panic => .panic
    | .ok n => .ok (d.insertInto n st)

/-- `nquads.rs` 14-40, `parse_doc`. -/
def evalQuads (env : ReadEnv) (d : DataSet) : List RLine → Res DataSet
  | [] => .ok d
  | l :: ls => (evalQuad env d l).bind fun d => evalQuads env d ls

/-- `parser/mod.rs` 82-96, `NQuadReader::read`. -/
def readNq (env : ReadEnv) (s : Str) : Res DataSet :=
  match pDoc pQuad s with
  | none => .err
  | some ls => evalQuads env DataSet.empty ls

/-! ### Writers -/

/-- The orders in which the hash sets of the loops of the writers are visited. -/
structure Orders where
  subj : List Subject → List Subject
  pred : Subject → List Iri → List Iri
  obj : Subject → Iri → List Object → List Object

/-- `nt/writer.rs` 35-37 and `nq/writer.rs` 45-47: the statements in the order of the three
loops. -/
def Graph.visit (o : Orders) (g : Graph) : List Stmt :=
  (o.subj g.subjects).flatMap fun s =>
    (o.pred s (g.predicatesFor s)).flatMap fun p =>
      (o.obj s p (g.objectsFor s p)).map fun x => Stmt.mk s p x

/-- `nt/writer.rs` 38-42: one line; `alt` is `force_string_literals`. -/
def ntLine (sty : IriStyle) (alt : Bool) (st : Stmt) : Str :=
  st.subject.display sty ++ str! " <" ++ st.predicate.fmt sty ++ str! "> " ++
    st.object.display sty alt ++ str! " .\n"

/-- `nt/writer.rs` 29-47, `write`. -/
def writeNt (gen : Nat → Str) (n : Nat) (o : Orders) (sty : IriStyle) (alt : Bool) (g : Graph) : Str :=
  ((g.simplify gen n).1.visit o).flatMap (ntLine sty alt)

/-- `nq/writer.rs` 48-52: one line. -/
def nqLine (sty : IriStyle) (name : Option GraphName) (st : Stmt) : Str :=
  match name with
  | some n =>
    st.subject.display sty ++ str! " <" ++ st.predicate.fmt sty ++ str! "> " ++
      st.object.display sty false ++ ' ' :: n.display sty ++ str! " .\n"
  | none => ntLine sty false st

/-- `nq/writer.rs` 36-58, `write` for a graph. -/
def writeNqGraph (gen : Nat → Str) (n : Nat) (o : Orders) (sty : IriStyle) (g : Graph) : Str × Nat :=
  let r := g.simplify gen n
  ((r.1.visit o).flatMap (nqLine sty r.1.name), r.2)

/-- `nq/writer.rs` 20-30, `write` for the graphs of a data set, in the order of a visit.  `o`
gives the orders for each graph. -/
def writeNqGraphs (gen : Nat → Str) (n : Nat) (o : Graph → Orders) (sty : IriStyle) :
    List Graph → Str
  | [] => []
  | g :: gs =>
    let r := writeNqGraph gen n (o g) sty g
    r.1 ++ writeNqGraphs gen r.2 o sty gs

/-- `nq/writer.rs` 20-30. -/
def writeNq (gen : Nat → Str) (n : Nat) (o : Graph → Orders) (sty : IriStyle) (d : DataSet) : Str :=
  writeNqGraphs gen n o sty d.allGraphs

end Rdftk
