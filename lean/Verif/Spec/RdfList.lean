import Verif.Model.Node
import Verif.Lemmas.Node

/-!
How RDF describes lists and statements: readers for lists (`rdf:first`, `rdf:rest`, `rdf:nil`)
and for reified statements (`rdf:subject`, `rdf:predicate`, `rdf:object`).
-/

namespace Rdftk.Spec

/-- Terms of the RDF vocabulary. -/
def rdf (n : Str) : Iri := ⟨str! "http://www.w3.org/1999/02/22-rdf-syntax-ns#" ++ n⟩

/-- `IsList sts s os`: in the statements `sts` the node `s` is the head of a well formed list
of the members `os`. -/
inductive IsList (sts : List Stmt) : Subject → List Object → Prop
  | nil : IsList sts (.res (rdf (str! "nil"))) []
  | cons {s r : Subject} {o : Object} {os : List Object}
      (type : Stmt.mk s (rdf (str! "type")) (.res (rdf (str! "List"))) ∈ sts)
      (first : Stmt.mk s (rdf (str! "first")) o ∈ sts)
      (rest : Stmt.mk s (rdf (str! "rest")) r.toObject ∈ sts)
      (tail : IsList sts r os) : IsList sts s (o :: os)

/-- The objects of the statements with a blank node subject and a predicate. -/
def valuesOf (sts : List Stmt) (b : Str) (p : Iri) : List Object :=
  (sts.filter fun t => decide (t.subject = .blank b) && decide (t.predicate = p)).map Stmt.object

/-- Does a blank node stand for a statement? -/
def isStmtNode (sts : List Stmt) (b : Str) : Bool :=
  (valuesOf sts b (rdf (str! "type"))).contains (.res (rdf (str! "Statement")))

/-- The subject a node stands for; `rd` reads the statement of a node. -/
def readSubject (sts : List Stmt) (rd : Str → Option Stmt) : Object → Option Subject
  | .blank x => if isStmtNode sts x then (rd x).map .stmt else some (.blank x)
  | o => o.toSubject
/-- The object a node stands for. -/
def readObject (sts : List Stmt) (rd : Str → Option Stmt) : Object → Option Object
  | .blank x => if isStmtNode sts x then (rd x).map .stmt else some (.blank x)
  | o => some o

/-- Read back the statement described by a blank node.  There must be exactly one subject,
predicate and object.  The number bounds the depth of nesting. -/
def readStmt (sts : List Stmt) : Nat → Str → Option Stmt
  | 0, _ => none
  | f + 1, b =>
    if isStmtNode sts b then
      match valuesOf sts b (rdf (str! "subject")), valuesOf sts b (rdf (str! "predicate")),
          valuesOf sts b (rdf (str! "object")) with
      | [s], [.res p], [o] =>
        match readSubject sts (readStmt sts f) s, readObject sts (readStmt sts f) o with
        | some s', some o' => some (.mk s' p o')
        | _, _ => none
      | _, _, _ => none
    else none

mutual
/-- How deep statements are nested. -/
def sdepth : Subject → Nat
  | .stmt t => depth t
  | _ => 0
def depth : Stmt → Nat
  | .mk s _ o => max (sdepth s) (odepth o) + 1
def odepth : Object → Nat
  | .stmt t => depth t
  | _ => 0
end

mutual
/-- The blank node labels in a term, at any depth. -/
def sblanks : Subject → List Str
  | .blank b => [b]
  | .res _ => []
  | .stmt t => blanks t
def blanks : Stmt → List Str
  | .mk s _ o => sblanks s ++ oblanks o
def oblanks : Object → List Str
  | .blank b => [b]
  | .res _ => []
  | .lit _ => []
  | .coll c => cblanks c
  | .stmt t => blanks t
def cblanks : List Object → List Str
  | [] => []
  | o :: os => oblanks o ++ cblanks os
end

mutual
/-- How many statements a term has in it, itself included, leaving out collections. -/
def ssize : Subject → Nat
  | .stmt t => size t
  | _ => 0
def size : Stmt → Nat
  | .mk s _ o => ssize s + osize o + 1
def osize : Object → Nat
  | .stmt t => size t
  | _ => 0
end

/-- Neither a statement as subject nor a statement or collection as object. -/
def simpleSubject : Subject → Bool
  | .stmt _ => false
  | _ => true
def simpleObject : Object → Bool
  | .stmt _ => false
  | .coll _ => false
  | _ => true
def simple (t : Stmt) : Bool := simpleSubject t.subject && simpleObject t.object

mutual
/-- No collections at any depth of statements. -/
def collFreeS : Subject → Bool
  | .stmt t => collFree t
  | _ => true
def collFree : Stmt → Bool
  | .mk s _ o => collFreeS s && collFreeO o
def collFreeO : Object → Bool
  | .stmt t => collFree t
  | .coll _ => false
  | _ => true
end

/-- Nested in one place only, with nothing nested in collections. -/
def shallow : Stmt → Bool
  | .mk (.stmt u) _ o => collFree u && simpleObject o
  | .mk _ _ (.stmt u) => collFree u
  | .mk _ _ (.coll c) => c.all simpleObject
  | _ => true

end Rdftk.Spec
