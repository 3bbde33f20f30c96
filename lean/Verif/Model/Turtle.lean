import Verif.Model.NTriples
import Verif.Model.Names

/-!
Model of the Turtle writer (`rdftk_io/src/turtle/writer.rs`) and of the indenter it uses
(`rdftk_io/src/common/indenter.rs`).

A step of the writer takes the current indentation and gives the text it writes and the new
indentation.  When an error or a panic ends a step the text written so far is not kept.  The
recursion of the code, from an object to the properties of a blank node and on to their objects,
need not end; here it goes as deep as a number allows and answers `deep` beyond.  Each hash set
is visited in the order given by `Orders`, the same one every time.
-/

namespace Rdftk

/-- The result of a run that may fail, panic or go deeper than allowed. -/
inductive Run (α : Type _) where
  | ok (a : α)
  | err
  | panic
  | deep
deriving DecidableEq, Repr

/-- The `?` operator. -/
def Run.bind {α β : Type _} : Run α → (α → Run β) → Run β
  | .ok a, f => f a
  | .err, _ => .err
  | .panic, _ => .panic
  | .deep, _ => .deep

/-- Fails for `none`. -/
def Run.ofOption {α : Type _} : Option α → Run α
  | some a => .ok a
  | none => .err

/-- Runs a function on each element and collects the results. -/
def Run.mapAll {α β : Type _} (f : α → Run β) : List α → Run (List β)
  | [] => .ok []
  | a :: l => (f a).bind fun b => (Run.mapAll f l).bind fun bs => .ok (b :: bs)

/-- Insertion into a sorted list, before the elements that are not smaller. -/
def insertBy {α : Type _} (le : α → α → Bool) (a : α) : List α → List α
  | [] => [a]
  | b :: l => if le a b then a :: b :: l else b :: insertBy le a l

/-- The stable sorts of the standard library. -/
def sortBy {α : Type _} (le : α → α → Bool) : List α → List α
  | [] => []
  | a :: l => insertBy le a (sortBy le l)

/-- Comparison of keys for `sort_by_key`. -/
def keyLe {α : Type _} (a b : Str × α) : Bool := cmpStr a.1 b.1 != .gt

/-! ### Steps of the writer -/

/-- A step: from the indentation to the text and the new indentation. -/
abbrev Step := Nat → Run (Str × Nat)

/-- Nothing is written. -/
def Step.nop : Step := fun d => .ok ([], d)
/-- A text is written. -/
def Step.text (s : Str) : Step := fun d => .ok (s, d)
/-- A text is computed and written. -/
def Step.run (r : Run Str) : Step := fun d => r.bind fun s => .ok (s, d)
/-- One step after the other. -/
def Step.andThen (a b : Step) : Step := fun d =>
  (a d).bind fun x => (b x.2).bind fun y => .ok (x.1 ++ y.1, y.2)
@[inherit_doc] infixl:60 " ⊹ " => Step.andThen

/-- `indenter.rs` 82-90, `indent`. -/
def Step.indent (w : Nat) : Step := fun d => .ok ([], d + w)
/-- `indenter.rs` 98-113, `outdent`; the subtraction panics when it would be negative. -/
def Step.outdent (w : Nat) : Step := fun d => if d = 0 then .panic else if d < w then .panic else .ok ([], d - w)
/-- `indenter.rs` 77-79, `reset_depth`, without offset. -/
def Step.reset : Step := fun _ => .ok ([], 0)

/-! ### Options -/

/-- `writer.rs` 31-44, `TurtleWriterOptions`, without the unused `outdent_blank_node_end`. -/
structure TurtleOptions where
  idBase : Option Iri
  nest : Bool
  outdentColl : Bool
  typeA : Bool
  sparql : Bool
  intellij : Bool
  typeOnLine : Bool
  convertTo : Option Iri
  convert : List (Iri × Iri)
  width : Nat
  padding : Bool

/-- `writer.rs` 141-158, `Default`. -/
def TurtleOptions.default : TurtleOptions :=
  { idBase := none, nest := true, outdentColl := false, typeA := false, sparql := false,
    intellij := false, typeOnLine := false, convertTo := none, convert := [], width := 4,
    padding := false }

/-- `writer.rs` 59-87, `WriterStatusFlags`. -/
structure TurtleFlags where
  nextBlank : Bool
  sorted : Bool
  lastSubject : Bool
  lastPredicate : Bool

/-- `WriterStatusFlags::default()`. -/
def TurtleFlags.none : TurtleFlags := ⟨false, false, false, false⟩

/-- What the functions of the writer have at hand. -/
structure TurtleEnv where
  /-- printable characters, for `{:?}` -/
  pr : Char → Bool
  /-- `Url::from_str` -/
  url : Str → Option Iri
  /-- how `{}` prints an IRI -/
  sty : IriStyle
  opts : TurtleOptions
  /-- the graph without nested statements -/
  graph : Graph
  orders : Orders

/-! ### IRIs -/

/-- `writer.rs` 730-747: the text in brackets when the IRI starts with a base. -/
def turtleRelative (env : TurtleEnv) (s : Str) : Option Str :=
  match env.opts.idBase with
  | Option.none => Option.none
  | some b =>
    match env.opts.convertTo.bind fun c => stripPrefix (c.fmt env.sty) s with
    | some t => some t
    | Option.none => stripPrefix (b.fmt env.sty) s

/-- `writer.rs` 748-757: the conversions one after the other. -/
def convertAll (sty : IriStyle) : List (Iri × Iri) → Str → Str
  | [], s => s
  | (a, b) :: r, s =>
    convertAll sty r (match stripPrefix (a.fmt sty) s with
      | some t => b.fmt sty ++ t
      | Option.none => s)

/-- `writer.rs` 727-763, `compress_iri`. -/
def compressIri (env : TurtleEnv) (i : Iri) : Run Str :=
  match turtleRelative env (i.fmt env.sty) with
  | some t => .ok ('<' :: t ++ ['>'])
  | Option.none =>
    match Iri.fromStr env.url (convertAll env.sty env.opts.convert (i.fmt env.sty)) with
    | Option.none => .err
    | some j =>
      match env.graph.mappings.compress j with
      | .panic => .panic
      | .ok Option.none => .ok ('<' :: j.fmt env.sty ++ ['>'])
      | .ok (some q) => .ok q.display

/-! ### Predicates -/

/-- `writer.rs` 89-107, `PredicateGroupOrdering`. -/
inductive PredGroup where
  | type
  | label
  | comment
  | other
deriving DecidableEq, Repr

/-- The derived order. -/
def PredGroup.rank : PredGroup → Nat
  | .type => 0
  | .label => 1
  | .comment => 2
  | .other => 3

/-- A member of a vocabulary of `rdftk_names`. -/
def NameTable.term (t : NameTable) (n : Str) : Iri := ⟨t.ns ++ n⟩

/-- `writer.rs` 1013-1035, `new_mapping`. -/
def groupTable : List (Iri × PredGroup) := [
  (rdfTable.term (str! "type"), .type),
  (rdfsTable.term (str! "subClassOf"), .type),
  (rdfsTable.term (str! "subPropertyOf"), .type),
  (owlTable.term (str! "equivalentClass"), .type),
  (rdfsTable.term (str! "label"), .label),
  (skosTable.term (str! "prefLabel"), .label),
  (skosTable.term (str! "altLabel"), .label),
  (skosTable.term (str! "hiddenLabel"), .label),
  (foafTable.term (str! "name"), .label),
  (dcTable.term (str! "title"), .label),
  (rdfsTable.term (str! "comment"), .comment),
  (dcTable.term (str! "description"), .comment),
  (skosTable.term (str! "definition"), .comment),
  (skosTable.term (str! "note"), .comment),
  (skosTable.term (str! "scopeNote"), .comment),
  (skosTable.term (str! "editorialNote"), .comment)]

/-- `writer.rs` 1006-1011, `group_predicate`. -/
def groupOf (p : Iri) : PredGroup :=
  match groupTable.find? fun e => e.1 == p with
  | some e => e.2
  | Option.none => .other

/-- `Itertools::chunk_by`: runs of neighbours with the same key. -/
def chunkBy {α κ : Type _} [DecidableEq κ] (key : α → κ) : List α → List (κ × List α)
  | [] => []
  | a :: l =>
    match chunkBy key l with
    | [] => [(key a, [a])]
    | (k, c) :: r => if key a = k then (k, a :: c) :: r else (key a, [a]) :: (k, c) :: r

/-- `writer.rs` 995-1004, `group_predicates`. -/
def groupPredicates (ps : List Iri) : List (PredGroup × List Iri) :=
  sortBy (fun a b => decide (a.1.rank ≤ b.1.rank)) (chunkBy groupOf ps)

/-- The key of a predicate, with `unwrap`. -/
def predicateKey (env : TurtleEnv) (p : Iri) : Run (Str × Iri) :=
  match compressIri env p with
  | .ok s => .ok (s, p)
  | .err => .panic
  | .panic => .panic
  | .deep => .deep

/-- `writer.rs` 662, `sort_by_cached_key`, which asks for no keys when there is nothing to
sort. -/
def sortPredicates (env : TurtleEnv) (ps : List Iri) : Run (List Iri) :=
  if ps.length < 2 then .ok ps
  else (Run.mapAll (predicateKey env) ps).bind fun l => .ok ((sortBy keyLe l).map (·.2))

/-- `str::len`, in bytes. -/
def byteLen (s : Str) : Nat := (s.map Char.utf8Size).sum

/-- `writer.rs` 439-448, `max_len_predicates`. -/
def maxLenPredicates (env : TurtleEnv) (ps : List Iri) : Run Nat :=
  (Run.mapAll (compressIri env) ps).bind fun l => .ok (l.foldl (fun a b => max a (byteLen b)) 0)

/-- `{:<n$}`. -/
def padRight (s : Str) (n : Nat) : Str := s ++ List.replicate (n - s.length) ' '

/-- `writer.rs` 405-412, `write_padded`. -/
def padded (s : Str) (n : Nat) : Str := if n = 0 then s ++ [' '] else padRight s n

/-- `writer.rs` 415-422, `write_padding`. -/
def padding (n : Nat) : Str := if n = 0 then [' '] else padRight [' '] n

/-- `writer.rs` 393-402, `new_line`. -/
def newLine (f : TurtleFlags) : Step := fun d =>
  .ok (if f.sorted then [' '] else '\n' :: List.replicate d ' ', d)

/-- `writer.rs` 681-709, `write_verb`. -/
def writeVerb (env : TurtleEnv) (g : PredGroup) (p : Iri) (maxLen : Nat) (f : TurtleFlags) : Step :=
  if g = .type then
    let v := if env.opts.typeA then .ok (str! "a") else compressIri env rdfType
    if env.opts.typeOnLine then .run (v.bind fun s => .ok (' ' :: s ++ [' ']))
    else newLine f ⊹ .run (v.bind fun s => .ok (padded s maxLen))
  else newLine f ⊹ .run ((compressIri env p).bind fun s => .ok (padded s maxLen))

/-! ### Literals -/

/-- `writer.rs` 783-794: printed without quotes. -/
def turtleBare : DataType → Bool
  | .boolean | .long | .int | .short | .byte | .unsignedLong | .unsignedInt | .unsignedShort
  | .unsignedByte | .float | .double | .decimal => true
  | _ => false

/-- `writer.rs` 797-805, what follows the quoted text. -/
def turtleSuffix (env : TurtleEnv) (l : Literal) : Run Str :=
  match l.dataType, l.language with
  | some t, Option.none => (compressIri env t.asIri).bind fun s => .ok ('^' :: '^' :: s)
  | Option.none, some g => .ok ('@' :: g)
  | _, _ => .ok []

/-- `writer.rs` 776-808, `write_literal`. -/
def writeLiteral (env : TurtleEnv) (l : Literal) : Run Str :=
  match l.dataType with
  | some t =>
    if t = .iri then (Run.ofOption (env.url l.lexicalForm)).bind (compressIri env)
    else if turtleBare t then .ok l.lexicalForm
    else (turtleSuffix env l).bind fun s => .ok ('"' :: escapeString env.pr l.lexicalForm ++ '"' :: s)
  | Option.none =>
    (turtleSuffix env l).bind fun s => .ok ('"' :: escapeString env.pr l.lexicalForm ++ '"' :: s)

/-! ### Objects.  `wo` is the function that writes an object, one level down. -/

/-- `writer.rs` 810-842, `write_predicate_object_object`. -/
def writeObjectAnd (wo : Nat → TurtleFlags → Object → Step) (w maxLen : Nat) (f : TurtleFlags)
    (o : Object) : Step :=
  wo w f o ⊹
  if f.lastPredicate then
    (if f.lastSubject then .outdent w else .nop) ⊹ fun d =>
      if d = 0 then (.text (str! " .") ⊹ newLine f) d
      else if f.lastSubject then Step.nop d
      else Step.text (str! " ;") d
  else
    .text (str! ",") ⊹
    if f.nextBlank then .nop
    else .indent w ⊹ newLine f ⊹ (if 0 < maxLen then .text (padding maxLen) else .nop) ⊹ .outdent w

/-- `peek` and `is_blank`. -/
def firstIsBlank : List Object → Bool
  | [] => false
  | x :: _ => x.isBlank

/-- `writer.rs` 951-960, the loop over the objects. -/
def writeObjects (wo : Nat → TurtleFlags → Object → Step) (w maxLen : Nat) (f : TurtleFlags) :
    List Object → Step
  | [] => .nop
  | o :: os =>
    writeObjectAnd wo w maxLen
      { f with
        nextBlank := firstIsBlank os
        lastPredicate := os.isEmpty } o ⊹
    writeObjects wo w maxLen f os

/-- `writer.rs` 450-460, `object_sort_key`, and `unwrap_or_default`: a new writer, with the width
of `Indenter::default()`. -/
def objectSortKey (wo : Nat → TurtleFlags → Object → Step) (o : Object) : Run Str :=
  match wo 2 { TurtleFlags.none with sorted := true } o 0 with
  | .ok x => .ok x.1
  | .err => .ok []
  | .panic => .panic
  | .deep => .deep

/-- `writer.rs` 943-950: the objects of a subject and predicate, sorted. -/
def sortedObjects (env : TurtleEnv) (wo : Nat → TurtleFlags → Object → Step) (s : Subject) (p : Iri) :
    Run (List Object) :=
  let os := env.orders.obj s p (env.graph.objectsFor s p)
  if 1 < os.length then
    (Run.mapAll (fun o => (objectSortKey wo o).bind fun k => .ok (k, o)) os).bind fun l =>
      .ok ((sortBy keyLe l).map (·.2))
  else .ok os

/-- `writer.rs` 926-962, `write_predicate_object`. -/
def writePredicate (env : TurtleEnv) (wo : Nat → TurtleFlags → Object → Step) (w : Nat) (s : Subject)
    (maxLen : Nat) (f : TurtleFlags) (g : PredGroup) (p : Iri) : Step :=
  writeVerb env g p maxLen f ⊹ fun d =>
    (sortedObjects env wo s p).bind fun os => writeObjects wo w maxLen f os d

/-- `writer.rs` 661-672, the loops over groups and predicates; `count` predicates are done. -/
def writePredicateLoop (env : TurtleEnv) (wo : Nat → TurtleFlags → Object → Step) (w : Nat)
    (s : Subject) (maxLen total : Nat) (f : TurtleFlags) : Nat → List (PredGroup × Iri) → Step
  | _, [] => .nop
  | count, (g, p) :: r =>
    writePredicate env wo w s maxLen { f with lastSubject := count + 1 == total } g p ⊹
    writePredicateLoop env wo w s maxLen total f (count + 1) r

/-- The predicates with their groups in the order in which they are written. -/
def predicateSequence (env : TurtleEnv) (ps : List Iri) : Run (List (PredGroup × Iri)) :=
  (Run.mapAll (fun e : PredGroup × List Iri =>
    (sortPredicates env e.2).bind fun l => .ok (l.map fun p => (e.1, p))) (groupPredicates ps)).bind
      fun l => .ok l.flatten

/-- `writer.rs` 644-675, `write_predicate_object_list`. -/
def writePredicates (env : TurtleEnv) (wo : Nat → TurtleFlags → Object → Step) (w : Nat)
    (f : TurtleFlags) (s : Subject) : Step := fun d =>
  let ps := env.orders.pred s (env.graph.predicatesFor s)
  (if env.opts.padding then .ok 0 else (maxLenPredicates env ps).bind fun n => .ok (1 + n)).bind fun m =>
  (predicateSequence env ps).bind fun l => writePredicateLoop env wo w s m ps.length f 0 l d

/-- `writer.rs` 905-910, the members of a collection. -/
def writeMembers (wo : Nat → TurtleFlags → Object → Step) (w : Nat) (f : TurtleFlags) :
    List Object → Step
  | [] => .nop
  | o :: os => wo w f o ⊹ .text (if os.isEmpty then [] else [',', ' ']) ⊹ writeMembers wo w f os

/-- `writer.rs` 893-923, `write_collection`. -/
def writeCollection (env : TurtleEnv) (wo : Nat → TurtleFlags → Object → Step) (w : Nat)
    (f : TurtleFlags) (c : List Object) : Step :=
  if c.isEmpty then .text (str! "()")
  else
    .indent w ⊹ .text (str! "(") ⊹ newLine f ⊹ writeMembers wo w f c ⊹
    (if env.opts.outdentColl then .outdent w else .nop) ⊹ newLine f ⊹ .text (str! ")") ⊹
    (if env.opts.outdentColl then .nop else .outdent w)

/-- `writer.rs` 969-983, `write_blank_node_property_list`. -/
def writeProperties (env : TurtleEnv) (wo : Nat → TurtleFlags → Object → Step) (w : Nat)
    (f : TurtleFlags) (b : Str) : Step :=
  .indent w ⊹ .text (str! "[") ⊹ writePredicates env wo w f (.blank b) ⊹ newLine f ⊹ .text (str! "]")

/-- `writer.rs` 849-885, `write_object`. -/
def writeObjectStep (env : TurtleEnv) (wo : Nat → TurtleFlags → Object → Step) (w : Nat)
    (f : TurtleFlags) : Object → Step
  | .blank b =>
    if env.opts.nest then
      if env.graph.containsSubject (.blank b) then writeProperties env wo w f b
      else .text (str! "[]")
    else .text ('_' :: ':' :: b)
  | .res i => .run (compressIri env i)
  | .lit l => .run (writeLiteral env l)
  | .coll c => writeCollection env wo w f c
  | .stmt _ => fun _ => .panic

/-- `writer.rs` 849-885, `write_object`, at most so many levels deep. -/
def writeObject (env : TurtleEnv) : Nat → Nat → TurtleFlags → Object → Step
  | 0 => fun _ _ _ _ => .deep
  | n + 1 => writeObjectStep env (writeObject env n)

/-! ### Documents -/

/-- `writer.rs` 609-637, `write_subject`. -/
def writeSubject (env : TurtleEnv) (w : Nat) (f : TurtleFlags) (s : Subject) : Step :=
  (match s with
    | .blank b => fun d =>
      if d = 0 then .ok ((if f.sorted then [' '] else ['\n']) ++ '_' :: ':' :: b, d) else Step.nop d
    | .res i => .run (compressIri env i)
    | .stmt _ => fun _ => .panic) ⊹ .indent w

/-- One subject with its statements. -/
def writeBlock (env : TurtleEnv) (n w : Nat) (s : Subject) : Step :=
  writeSubject env w .none s ⊹ writePredicates env (writeObject env n) w .none s ⊹ .text (str! "\n")

/-- `writer.rs` 583-587, the loop over the subjects that are no blank nodes. -/
def writeNodes (env : TurtleEnv) (n w : Nat) : List Subject → Step
  | [] => .nop
  | s :: ss => writeBlock env n w s ⊹ writeNodes env n w ss

/-- `writer.rs` 595-600, the loop over the blank nodes. -/
def writeBlanks (env : TurtleEnv) (n w : Nat) : List Subject → Step
  | [] => .nop
  | s :: ss => .reset ⊹ writeBlock env n w s ⊹ writeBlanks env n w ss

/-- `writer.rs` 428-436, `sorted_subjects`. -/
def sortedSubjects (g : Graph) : List Subject :=
  sortBy (fun a b => Subject.cmp a b != .gt) g.nodeSubjects

/-- `writer.rs` 576-602, `write_triples`. -/
def writeTriples (env : TurtleEnv) (n : Nat) : Step :=
  writeNodes env n env.opts.width (sortedSubjects env.graph) ⊹
  writeBlanks env n env.opts.width (env.orders.subj env.graph.blankSubjects)

/-- The end of a directive, and which keywords are used. -/
def sparqlStyle (o : TurtleOptions) : Bool := o.sparql && !o.intellij

/-- `writer.rs` 506-525, `write_base_iri`. -/
def writeBase (sty : IriStyle) (o : TurtleOptions) : Str :=
  match o.idBase with
  | Option.none => []
  | some b =>
    (if sparqlStyle o then str! "BASE" else str! "@base") ++ str! " <" ++ b.fmt sty ++ str! ">" ++
      (if sparqlStyle o then [] else str! " .") ++ str! "\n" ++ (if o.intellij then [] else str! "\n")

/-- `writer.rs` 541-551: the first conversion that applies to a namespace. -/
def convertFirst (sty : IriStyle) : List (Iri × Iri) → Str → Str
  | [], s => s
  | (a, b) :: r, s =>
    match stripPrefix (a.fmt sty) s with
    | some t => b.fmt sty ++ t
    | Option.none => convertFirst sty r s

/-- `writer.rs` 553-562, one prefix.  Line 538 treats the prefix as an optional name, but `mappings`
gives a `Namespace` (so the line does not type-check against `rdftk_iri`); it is read here as the
prefix before its colon.  The text of a `Namespace` ends with the colon. -/
def writePrefix (sty : IriStyle) (o : TurtleOptions) (e : Namespace × Iri) : Str :=
  (if sparqlStyle o then str! "PREFIX" else str! "@prefix") ++ str! " " ++ e.1.text ++ str! " <" ++
    convertFirst sty o.convert (e.2.fmt sty) ++ str! ">" ++
    (if sparqlStyle o then [] else str! " .") ++ str! "\n"

/-- `writer.rs` 533-567, `write_prefixes`. -/
def writePrefixes (sty : IriStyle) (o : TurtleOptions) (m : PrefixMap) : Str :=
  if m.isEmpty then []
  else
    (sortBy (fun a b => (cmpStr a.1.text b.1.text).then (cmpStr a.2.text b.2.text) != .gt)
      m.mappings).flatMap (writePrefix sty o) ++ str! "\n"

/-- `writer.rs` 350-361, the statements for the nested ones. -/
def denestAll (gen : Nat → Str) (n : Nat) : List Stmt → List Stmt × Nat
  | [] => ([], n)
  | t :: ts =>
    let r := t.reify gen n
    let q := denestAll gen r.2 ts
    (r.1 ++ .mk t.subject t.predicate (.blank (gen n)) :: q.1, q.2)

/-- `writer.rs` 347-368, the graph that is written. -/
def denest (gen : Nat → Str) (n : Nat) (g : Graph) : Graph :=
  (Graph.fromIter ((denestAll gen n (g.stmts.filter Stmt.isNested)).1 ++
    g.stmts.filter fun t => !t.isNested)).withMappings g.mappings

/-- `writer.rs` 343-370 and 473-498, `write`. -/
def writeTurtle (pr : Char → Bool) (url : Str → Option Iri) (sty : IriStyle) (opts : TurtleOptions)
    (o : Orders) (gen : Nat → Str) (k deep : Nat) (g : Graph) : Run Str :=
  let env : TurtleEnv := ⟨pr, url, sty, opts, denest gen k g, o⟩
  ((Step.text (writeBase sty opts) ⊹ .text (writePrefixes sty opts g.mappings) ⊹ writeTriples env deep)
    0).bind fun x => .ok x.1

end Rdftk
