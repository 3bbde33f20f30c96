import Verif.Model.Graph

/-!
Model of the functions that rewrite nested terms into plain statements:
`Collection::reify`, `Statement::reify`, `Graph::simplify` and `Graph::skolemize`.

The process wide number sequence is a parameter `gen`: the label of the `k`-th node asked for.
The functions thread the number of nodes asked for so far.
-/

namespace Rdftk

/-- `rdf::a_type()`. -/
def rdfType : Iri := rdfIri (str! "type")
/-- `rdf::statement()`. -/
def rdfStatement : Iri := rdfIri (str! "Statement")
/-- `rdf::subject()`. -/
def rdfSubject : Iri := rdfIri (str! "subject")
/-- `rdf::predicate()`. -/
def rdfPredicate : Iri := rdfIri (str! "predicate")
/-- `rdf::object()`. -/
def rdfObject : Iri := rdfIri (str! "object")
/-- `rdf::list()`. -/
def rdfList : Iri := rdfIri (str! "List")
/-- `rdf::first()`. -/
def rdfFirst : Iri := rdfIri (str! "first")
/-- `rdf::rest()`. -/
def rdfRest : Iri := rdfIri (str! "rest")
/-- `rdf::nil()`. -/
def rdfNil : Iri := rdfIri (str! "nil")

/-- `collection.rs` 181-205, the loop: `b` is the label of the current cell. -/
def collCells (gen : Nat → Str) (b : Str) (n : Nat) : List Object → List Stmt × Nat
  | [] => ([], n)
  | [o] =>
    ([.mk (.blank b) rdfType (.res rdfList), .mk (.blank b) rdfFirst o,
      .mk (.blank b) rdfRest (.res rdfNil)], n)
  | o :: o' :: os =>
    let r := collCells gen (gen n) (n + 1) (o' :: os)
    ([.mk (.blank b) rdfType (.res rdfList), .mk (.blank b) rdfFirst o,
      .mk (.blank b) rdfRest (.blank (gen n))] ++ r.1, r.2)

/-- `collection.rs` 173-209, `reify`: head, statements and the new count. -/
def collReify (gen : Nat → Str) (n : Nat) (c : List Object) : Subject × List Stmt × Nat :=
  match c with
  | [] => (.res rdfNil, [], n)
  | o :: os =>
    let r := collCells gen (gen n) (n + 1) (o :: os)
    (.blank (gen n), r.1, r.2)

mutual
/-- `statement.rs` 189-234, `reify`: statements and the new count; the node is the first one
asked for, `gen n`. -/
def Stmt.reify (gen : Nat → Str) (n : Nat) : Stmt → List Stmt × Nat
  | .mk s p o =>
    let rs := Subject.reify gen (gen n) (n + 1) s
    let ro := Object.reify gen (gen n) rs.2 o
    (.mk (.blank (gen n)) rdfType (.res rdfStatement) ::
      (rs.1 ++ .mk (.blank (gen n)) rdfPredicate (.res p) :: ro.1), ro.2)
/-- `statement.rs` 197-211, the subject of the statement described by node `b`. -/
def Subject.reify (gen : Nat → Str) (b : Str) (n : Nat) : Subject → List Stmt × Nat
  | .stmt t =>
    let r := Stmt.reify gen n t
    (r.1 ++ [.mk (.blank b) rdfSubject (.blank (gen n))], r.2)
  | .blank x => ([.mk (.blank b) rdfSubject (.blank x)], n)
  | .res i => ([.mk (.blank b) rdfSubject (.res i)], n)
/-- `statement.rs` 217-232, the object of the statement described by node `b`. -/
def Object.reify (gen : Nat → Str) (b : Str) (n : Nat) : Object → List Stmt × Nat
  | .stmt t =>
    let r := Stmt.reify gen n t
    (r.1 ++ [.mk (.blank b) rdfObject (.blank (gen n))], r.2)
  | .blank x => ([.mk (.blank b) rdfObject (.blank x)], n)
  | .res i => ([.mk (.blank b) rdfObject (.res i)], n)
  | .lit l => ([.mk (.blank b) rdfObject (.lit l)], n)
  | .coll c => ([.mk (.blank b) rdfObject (.coll c)], n)
end

/-- `graph.rs` 658-684, what `simplify` inserts for one statement. -/
def simplifyStmt (gen : Nat → Str) (n : Nat) : Stmt → List Stmt × Nat
  | .mk (.stmt u) p o =>
    let r := u.reify gen n
    (.mk (.blank (gen n)) p o :: r.1, r.2)
  | .mk s p (.stmt u) =>
    let r := u.reify gen n
    (.mk s p (.blank (gen n)) :: r.1, r.2)
  | .mk s p (.coll c) =>
    let r := collReify gen n c
    (.mk s p r.1.toObject :: r.2.1, r.2.2)
  | t => ([t], n)

/-- `graph.rs` 657-685, the loop of `simplify`. -/
def simplifyAll (gen : Nat → Str) (n : Nat) : List Stmt → List Stmt × Nat
  | [] => ([], n)
  | t :: ts =>
    let r := simplifyStmt gen n t
    let q := simplifyAll gen r.2 ts
    (r.1 ++ q.1, q.2)

/-- `graph.rs` 652-688, `simplify`.  The new graph is `Graph::default()` with the name. -/
def Graph.simplify (gen : Nat → Str) (n : Nat) (g : Graph) : Graph × Nat :=
  let r := simplifyAll gen n g.stmts
  ({ Graph.default.extend r.1 with name := g.name }, r.2)

/-- `iri.rs` 471-482, `genid`: joins an absolute path with the base; fails for a base that
cannot be one.  `uuid` is the text of a new identifier. -/
def Iri.genid (base : Iri) (uuid : Str) : Option Iri :=
  if base.isOpaque then none
  else some ⟨base.pre ++ str! "/.well-known/genid/" ++ uuid⟩

/-- The state of `skolemize`: the map from blank nodes to IRIs and the number of identifiers
asked for. -/
structure SkolemState where
  map : List (Str × Iri)
  count : Nat

/-- `graph.rs` 624-627 and 632-635: the IRI of a blank node. -/
def skolemBlank (uuid : Nat → Str) (base : Iri) (st : SkolemState) (b : Str) :
    Option (Iri × SkolemState) :=
  match st.map.find? (fun e => e.1 == b) with
  | some e => some (e.2, st)
  | none =>
    match base.genid (uuid st.count) with
    | none => none
    | some i => some (i, ⟨st.map ++ [(b, i)], st.count + 1⟩)

/-- `graph.rs` 623-630. -/
def skolemSubject (uuid : Nat → Str) (base : Iri) (st : SkolemState) :
    Subject → Option (Subject × SkolemState)
  | .blank b => (skolemBlank uuid base st b).map fun r => (.res r.1, r.2)
  | s => some (s, st)

/-- `graph.rs` 631-638. -/
def skolemObject (uuid : Nat → Str) (base : Iri) (st : SkolemState) :
    Object → Option (Object × SkolemState)
  | .blank b => (skolemBlank uuid base st b).map fun r => (.res r.1, r.2)
  | o => some (o, st)

/-- `graph.rs` 621-640, the loop. -/
def skolemAll (uuid : Nat → Str) (base : Iri) (st : SkolemState) :
    List Stmt → Option (List Stmt × SkolemState)
  | [] => some ([], st)
  | t :: ts =>
    match skolemSubject uuid base st t.subject with
    | none => none
    | some (s, st1) =>
      match skolemObject uuid base st1 t.object with
      | none => none
      | some (o, st2) =>
        match skolemAll uuid base st2 ts with
        | none => none
        | some (r, st3) => some (.mk s t.predicate o :: r, st3)

/-- `graph.rs` 616-643, `skolemize`; `none` is the error of `genid`. -/
def Graph.skolemize (uuid : Nat → Str) (base : Iri) (g : Graph) : Option Graph :=
  (skolemAll uuid base ⟨[], 0⟩ g.stmts).map fun r => Graph.default.extend r.1

end Rdftk
