import Verif.Model.CommonPest

/-!
What `ntriples.rs` and `nquads.rs` do with the pairs that `pest` hands them, function by function.
-/

namespace Rdftk

/-- `iter.next().unwrap()`. -/
def unwrapNext {α : Type} : List α → Res (α × List α)
  | [] => .panic
  | a :: l => .ok (a, l)

/-- `&s[n..]`: panics inside a character and behind the end. -/
def dropBytes : Nat → Str → Res Str
  | 0, s => .ok s
  | _ + 1, [] => .panic
  | n + 1, c :: s => if c.utf8Size ≤ n + 1 then dropBytes (n + 1 - c.utf8Size) s else .panic

/-- `&s[..s.len() - n]`. -/
def dropEndBytes (n : Nat) (s : Str) : Res Str := (dropBytes n s.reverse).bind fun t => .ok t.reverse

/-- `ntriples.rs` 204-215, `iri_ref`. -/
def pairIri (env : ReadEnv) (p : Pair GRule) : Res Iri :=
  if p.rule = some .IRIREF then
    (dropBytes 1 p.text).bind fun t => (dropEndBytes 1 t).bind fun t => evalIri env t
  else .err

/-- `ntriples.rs` 69-74 and 109-114: a blank node. -/
def pairBlank (env : ReadEnv) (p : Pair GRule) : Res Str :=
  (dropBytes 2 p.text).bind fun t => Res.ofOption (blankParse env.blankOk t)

/-- `ntriples.rs` 61-84, `subject`. -/
def pairSubject (env : ReadEnv) (p : Pair GRule) : Res Subject :=
  if p.rule = some .ntripleSubject then
    (unwrapNext p.inner).bind fun q =>
    match q.1.rule with
    | some .IRIREF => (pairIri env q.1).bind fun i => .ok (.res i)
    | some .blankNode => (pairBlank env q.1).bind fun b => .ok (.blank b)
    | _ => .err
  else .err

/-- `ntriples.rs` 86-99, `predicate`. -/
def pairPredicate (env : ReadEnv) (p : Pair GRule) : Res Iri :=
  if p.rule = some .ntriplePredicate then
    (unwrapNext p.inner).bind fun q => if q.1.rule = some .IRIREF then pairIri env q.1 else .err
  else .err

/-- `ntriples.rs` 173-202, `string`. -/
def pairString (p : Pair GRule) : Res Str :=
  if p.rule = some .ntripleString then
    (unwrapNext p.inner).bind fun q =>
    match q.1.rule with
    | some .STRING_LITERAL_QUOTE =>
      (unwrapNext q.1.inner).bind fun q => if q.1.rule = some .QUOTE_INNER then .ok q.1.text else .err
    | _ => .err
  else .err

/-- `ntriples.rs` 217-230, `lang_tag`; what it prints on the standard output is not kept. -/
def pairLang (env : ReadEnv) (p : Pair GRule) : Res Str :=
  if p.rule = some .LANGTAG then (dropBytes 1 p.text).bind fun t => Res.ofOption (env.lang t) else .err

/-- `ntriples.rs` 141-171, `rdf_literal`. -/
def pairRdfLiteral (env : ReadEnv) (p : Pair GRule) : Res Literal :=
  if p.rule = some .ntripleRdfLiteral then
    (unwrapNext p.inner).bind fun q =>
    (pairString q.1).bind fun a =>
    match q.2 with
    | [] => .ok (Literal.plain env.pr a)
    | x :: _ =>
      match x.rule with
      | some .IRIREF => (pairIri env x).bind fun i => .ok (Literal.withDataType env.pr a (.other i))
      | some .LANGTAG => (pairLang env x).bind fun t => .ok (Literal.withLanguage env.pr a t)
      | _ => .err
  else .err

/-- `ntriples.rs` 130-139, `literal`. -/
def pairLiteral (env : ReadEnv) (p : Pair GRule) : Res Literal :=
  if p.rule = some .ntripleLiteral then (unwrapNext p.inner).bind fun q => pairRdfLiteral env q.1 else .err

/-- `ntriples.rs` 101-128, `object`. -/
def pairObject (env : ReadEnv) (p : Pair GRule) : Res Object :=
  if p.rule = some .ntripleObject then
    (unwrapNext p.inner).bind fun q =>
    match q.1.rule with
    | some .IRIREF => (pairIri env q.1).bind fun i => .ok (.res i)
    | some .blankNode => (pairBlank env q.1).bind fun b => .ok (.blank b)
    | some .ntripleLiteral => (pairLiteral env q.1).bind fun l => .ok (.lit l)
    | _ => .err
  else .err

/-- `ntriples.rs` 47-59, `triple`. -/
def pairTriple (env : ReadEnv) (p : Pair GRule) : Res Stmt :=
  if p.rule = some .ntriple then
    (unwrapNext p.inner).bind fun q1 =>
    (pairSubject env q1.1).bind fun s =>
    (unwrapNext q1.2).bind fun q2 =>
    (pairPredicate env q2.1).bind fun i =>
    (unwrapNext q2.2).bind fun q3 =>
    (pairObject env q3.1).bind fun o => .ok (.mk s i o)
  else .err

/-- `ntriples.rs` 20-38: the loop of `parse_doc`; after it is `unreachable!()`. -/
def pairTriples (env : ReadEnv) (g : Graph) : List (Pair GRule) → Res Graph
  | [] => .panic
  | p :: l =>
    match p.rule with
    | some .ntriple => (pairTriple env p).bind fun st => pairTriples env (g.insert st) l
    | none => .ok g
    | _ => .err

/-- `ntriples.rs` 15-45, `parse_doc`. -/
def pairTripleDoc (env : ReadEnv) (p : Pair GRule) : Res Graph :=
  if p.rule = some .ntripleDoc then pairTriples env Graph.default p.inner else .err

/-- `parser/mod.rs` 69-82, `parse_ntriple_doc`.  `none` is for a run of the grammar that is deeper than the number. -/
def parseNTripleDoc (env : ReadEnv) (n : Nat) (s : Str) : Option (Res Graph) :=
  match commonGrammar.parse n .ntripleDoc s with
  | none => none
  | some none => some .err
  | some (some (l, _)) => some ((unwrapNext l).bind fun q => pairTripleDoc env q.1)

/-- `nquads.rs` 61-75: into the graph without a name. -/
def DataSet.insertIntoDefault (d : DataSet) (st : Stmt) : DataSet :=
  if d.containsGraph none then d.graphMut none fun g => g.insert st
  else (d.insert Graph.default).graphMut none fun g => g.insert st

/-- `nquads.rs` 50-82, `nquad`. -/
def pairQuad (env : ReadEnv) (d : DataSet) (p : Pair GRule) : Res DataSet :=
  if p.rule = some .nquad then
    (unwrapNext p.inner).bind fun q1 =>
    (pairSubject env q1.1).bind fun s =>
    (unwrapNext q1.2).bind fun q2 =>
    (pairPredicate env q2.1).bind fun i =>
    (unwrapNext q2.2).bind fun q3 =>
    (pairObject env q3.1).bind fun o =>
    match q3.2 with
    | x :: _ =>
      (pairSubject env x).bind fun n =>
      match GraphName.ofSubject n with
      | .panic => .panic
      | .ok n => .ok (d.insertInto n (.mk s i o))
    | [] => .ok (d.insertIntoDefault (.mk s i o))
  else .err

/-- `nquads.rs` 20-35: the loop of `parse_doc`. -/
def pairQuads (env : ReadEnv) (d : DataSet) : List (Pair GRule) → Res DataSet
  | [] => .ok d
  | p :: l =>
    match p.rule with
    | some .nquad => (pairQuad env d p).bind fun d => pairQuads env d l
    | none => pairQuads env d l
    | _ => .err

/-- `nquads.rs` 14-40, `parse_doc`. -/
def pairQuadDoc (env : ReadEnv) (p : Pair GRule) : Res DataSet :=
  if p.rule = some .nquadDoc then pairQuads env DataSet.empty p.inner else .err

/-- `parser/mod.rs` 84-97, `parse_nquad_doc`. -/
def parseNQuadDoc (env : ReadEnv) (n : Nat) (s : Str) : Option (Res DataSet) :=
  match commonGrammar.parse n .nquadDoc s with
  | none => none
  | some none => some .err
  | some (some (l, _)) => some ((unwrapNext l).bind fun q => pairQuadDoc env q.1)

end Rdftk
