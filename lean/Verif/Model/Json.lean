import Verif.Model.JsonText

/-!
Model of the RDF/JSON writer and reader (`rdftk_io/src/json/writer.rs`, `reader.rs`,
`syntax.rs`), above the JSON texts of `Model/JsonText.lean`.
-/

namespace Rdftk

/-! ### Writer -/

/-- `writer.rs` 72-117: the value for one object; `none` is the error of line 115. -/
def jsonObject (sty : IriStyle) : Object → Option Json
  | .blank b => some (.obj (mapPut (str! "value") (.str b) (mapPut (str! "type") (.str (str! "bnode")) [])))
  | .res i =>
    some (.obj (mapPut (str! "value") (.str (i.fmt sty)) (mapPut (str! "type") (.str (str! "uri")) [])))
  | .lit l =>
    let m := mapPut (str! "value") (.str l.lexicalForm) (mapPut (str! "type") (.str (str! "literal")) [])
    let m := match l.language with
      | some g => mapPut (str! "lang") (.str g) m
      | none => m
    let m := match l.dataType with
      | some t => mapPut (str! "datatype") (.str (t.asIri.fmt sty)) m
      | none => m
    some (.obj m)
  | .coll _ => none
  | .stmt _ => none

/-- `writer.rs` 70-118: the objects of a subject and predicate. -/
def jsonObjects (sty : IriStyle) : List Object → Option (List Json)
  | [] => some []
  | x :: xs =>
    match jsonObject sty x with
    | none => none
    | some v => (jsonObjects sty xs).map (v :: ·)

/-- `writer.rs` 69-120: the predicates of a subject. -/
def jsonPredicates (o : Orders) (sty : IriStyle) (g : Graph) (s : Subject) (m : List (Str × Json)) :
    List Iri → Option (List (Str × Json))
  | [] => some m
  | p :: ps =>
    match jsonObjects sty (o.obj s p (g.objectsFor s p)) with
    | none => none
    | some l => jsonPredicates o sty g s (mapPut (p.fmt sty) (.arr l) m) ps

/-- `writer.rs` 67-122: the subjects. -/
def jsonSubjects (o : Orders) (sty : IriStyle) (g : Graph) (m : List (Str × Json)) :
    List Subject → Option (List (Str × Json))
  | [] => some m
  | s :: ss =>
    match jsonPredicates o sty g s [] (o.pred s (g.predicatesFor s)) with
    | none => none
    | some ps => jsonSubjects o sty g (mapPut (s.display sty) (.obj ps) m) ss

/-- `writer.rs` 65-122: the value for a graph. -/
def jsonGraph (gen : Nat → Str) (n : Nat) (o : Orders) (sty : IriStyle) (g : Graph) : Option Json :=
  let g := (g.simplify gen n).1
  (jsonSubjects o sty g [] (o.subj g.subjects)).map .obj

/-- `writer.rs` 61-130, `write`. -/
def writeJson (gen : Nat → Str) (n : Nat) (o : Orders) (sty : IriStyle) (pretty : Bool) (g : Graph) :
    Option Str :=
  (jsonGraph gen n o sty g).map (Json.text pretty 0)

/-! ### Reader -/

/-- `&s[2..]` for a `&str`: panics when the text is shorter than two bytes or when the second
byte is inside a character. -/
def dropTwoBytes : Str → Outcome Str
  | [] => .panic
  | c :: s =>
    if (utf8Bytes c.toNat).length = 2 then .ok s
    else if (utf8Bytes c.toNat).length = 1 then
      match s with
      | [] => .panic
      | d :: s => if (utf8Bytes d.toNat).length = 1 then .ok s else .panic
    else .panic

/-- `reader.rs` 192-226, `parse_literal_object`, without the insertion. -/
def jsonLiteral (env : ReadEnv) (m : List (Str × Json)) : Res Literal :=
  match mapGet (str! "value") m, mapGet (str! "lang") m, mapGet (str! "datatype") m with
  | some (.str v), none, none => .ok (Literal.plain env.pr v)
  | some (.str v), some (.str l), none =>
    (Res.ofOption (env.lang l)).bind fun l => .ok (Literal.withLanguage env.pr v l)
  | some (.str v), none, some (.str d) =>
    (Res.ofOption (Iri.fromStr env.url d)).bind fun i =>
      .ok (Literal.withDataType env.pr v (DataType.fromIri i))
  | _, _, _ => .err

/-- `reader.rs` 228-250, `parse_bnode_object`, without the insertion. -/
def jsonBlank (env : ReadEnv) (m : List (Str × Json)) : Res Str :=
  match mapGet (str! "value") m with
  | some (.str s) =>
    match dropTwoBytes s with
    | .panic => .panic
    | .ok t => Res.ofOption (blankParse env.blankOk t)
  | _ => .err

/-- `reader.rs` 252-274, `parse_uri_object`, without the insertion. -/
def jsonUri (env : ReadEnv) (m : List (Str × Json)) : Res Iri :=
  match mapGet (str! "value") m with
  | some (.str s) => Res.ofOption (Iri.fromStr env.url s)
  | _ => .err

/-- `reader.rs` 143-190, `parse_object`: the object node of the statement that is inserted. -/
def jsonReadObject (env : ReadEnv) : Json → Res Object
  | .obj m =>
    match mapGet (str! "type") m with
    | some (.str s) =>
      if s = (str! "literal") then (jsonLiteral env m).bind fun l => .ok (.lit l)
      else if s = (str! "bnode") then (jsonBlank env m).bind fun b => .ok (.blank b)
      else if s = (str! "uri") then (jsonUri env m).bind fun i => .ok (.res i)
      else .err
    | _ => .err
  | _ => .err

/-- `reader.rs` 128-130, the loop over the objects. -/
def jsonReadObjects (env : ReadEnv) (s : Subject) (p : Iri) (g : Graph) : List Json → Res Graph
  | [] => .ok g
  | v :: vs =>
    (jsonReadObject env v).bind fun x => jsonReadObjects env s p (g.insert (.mk s p x)) vs

/-- `reader.rs` 118-141, `parse_predicates`. -/
def jsonReadPredicate (env : ReadEnv) (s : Subject) (p : Str) (g : Graph) : Json → Res Graph
  | .arr l =>
    (Res.ofOption (Iri.fromStr env.url p)).bind fun p => jsonReadObjects env s p g l
  | _ => .err

/-- `reader.rs` 104-106, the loop over the predicates. -/
def jsonReadPredicates (env : ReadEnv) (s : Subject) (g : Graph) : List (Str × Json) → Res Graph
  | [] => .ok g
  | (p, v) :: m => (jsonReadPredicate env s p g v).bind fun g => jsonReadPredicates env s g m

/-- `reader.rs` 99-103, the subject of a key. -/
def jsonReadKey (env : ReadEnv) (s : Str) : Res Subject :=
  match stripPrefix (str! "_:") s with
  | some b => (Res.ofOption (blankParse env.blankOk b)).bind fun b => .ok (.blank b)
  | none => (Res.ofOption (Iri.fromStr env.url s)).bind fun i => .ok (.res i)

/-- `reader.rs` 91-116, `parse_statements`. -/
def jsonReadSubject (env : ReadEnv) (s : Str) (g : Graph) : Json → Res Graph
  | .obj m => (jsonReadKey env s).bind fun s => jsonReadPredicates env s g m
  | _ => .err

/-- `reader.rs` 78-80, the loop over the subjects. -/
def jsonReadSubjects (env : ReadEnv) (g : Graph) : List (Str × Json) → Res Graph
  | [] => .ok g
  | (s, v) :: m => (jsonReadSubject env s g v).bind fun g => jsonReadSubjects env g m

/-- `reader.rs` 73-89, `parse_graph`. -/
def jsonReadGraph (env : ReadEnv) : Json → Res Graph
  | .obj m => jsonReadSubjects env Graph.default m
  | _ => .err

/-- `reader.rs` 33-41, `read`. -/
def readJson (env : ReadEnv) (s : Str) : Res Graph :=
  match jParse s with
  | none => .err
  | some v => jsonReadGraph env v

end Rdftk
