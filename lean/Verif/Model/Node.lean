import Verif.Model.Literal

/-!
Model of `rdftk_core/src/model/statement.rs` and `statement/{bnode,subject,object,collection}.rs`.

`Arc` is erased: a shared statement is its value.  A blank node is its label text.
-/

namespace Rdftk

mutual
/-- `statement/subject.rs` 15-19, `SubjectNode`. -/
inductive Subject where
  | blank (b : Str)
  | res (i : Iri)
  | stmt (s : Stmt)
/-- `statement.rs` 50-55, `Statement`. -/
inductive Stmt where
  | mk (subject : Subject) (predicate : Iri) (object : Object)
/-- `statement/object.rs` 17-23, `ObjectNode`; a `Collection` (`collection.rs` 30-31) is the
list of its members. -/
inductive Object where
  | blank (b : Str)
  | res (i : Iri)
  | lit (l : Literal)
  | coll (c : List Object)
  | stmt (s : Stmt)
end

/-- `statement.rs` 135-137. -/
def Stmt.subject : Stmt → Subject | .mk s _ _ => s
/-- `statement.rs` 149-151. -/
def Stmt.predicate : Stmt → Iri | .mk _ p _ => p
/-- `statement.rs` 163-165. -/
def Stmt.object : Stmt → Object | .mk _ _ o => o
/-- `statement.rs` 142-144, `set_subject`. -/
def Stmt.setSubject : Stmt → Subject → Stmt | .mk _ p o, s => .mk s p o
/-- `statement.rs` 156-158, `set_predicate`. -/
def Stmt.setPredicate : Stmt → Iri → Stmt | .mk s _ o, p => .mk s p o
/-- `statement.rs` 170-172, `set_object`. -/
def Stmt.setObject : Stmt → Object → Stmt | .mk s p _, o => .mk s p o

mutual
/-- `subject.rs` 151-165, `Ord for SubjectNode`. -/
def Subject.cmp : Subject → Subject → Ordering
  | .blank a, .blank b => cmpStr a b
  | .blank _, .res _ => .lt
  | .blank _, .stmt _ => .lt
  | .res _, .blank _ => .gt
  | .res a, .res b => cmpStr a.text b.text
  | .res _, .stmt _ => .lt
  | .stmt _, .blank _ => .gt
  | .stmt _, .res _ => .gt
  | .stmt a, .stmt b => Stmt.cmp a b
/-- `statement.rs` 81-93, `Ord for Statement`. -/
def Stmt.cmp : Stmt → Stmt → Ordering
  | .mk s p o, .mk s' p' o' =>
    (Subject.cmp s s').then ((cmpStr p.text p'.text).then (Object.cmp o o'))
/-- `object.rs` 205-239, `Ord for ObjectNode`. -/
def Object.cmp : Object → Object → Ordering
  | .blank a, .blank b => cmpStr a b
  | .blank _, .res _ => .lt
  | .blank _, .lit _ => .lt
  | .blank _, .coll _ => .lt
  | .blank _, .stmt _ => .lt
  | .res _, .blank _ => .gt
  | .res a, .res b => cmpStr a.text b.text
  | .res _, .lit _ => .lt
  | .res _, .coll _ => .lt
  | .res _, .stmt _ => .lt
  | .lit _, .blank _ => .gt
  | .lit _, .res _ => .gt
  | .lit a, .lit b => a.cmp b
  | .lit _, .coll _ => .lt
  | .lit _, .stmt _ => .lt
  | .coll _, .blank _ => .gt
  | .coll _, .res _ => .gt
  | .coll _, .lit _ => .gt
  | .coll a, .coll b => Object.cmpColl a b
  | .coll _, .stmt _ => .lt
  | .stmt _, .blank _ => .gt
  | .stmt _, .res _ => .gt
  | .stmt _, .lit _ => .gt
  | .stmt _, .coll _ => .gt
  | .stmt a, .stmt b => Stmt.cmp a b
/-- `collection.rs` 30, derived `Ord`: the order of the vector of members. -/
def Object.cmpColl : List Object → List Object → Ordering
  | [], [] => .eq
  | [], _ :: _ => .lt
  | _ :: _, [] => .gt
  | a :: as, b :: bs => (Object.cmp a b).then (Object.cmpColl as bs)
end

/-- `[String]::join(" ")`. -/
def joinSpace : List Str → Str
  | [] => []
  | [a] => a
  | a :: b :: r => a ++ ' ' :: joinSpace (b :: r)

mutual
/-- `subject.rs` 93-101, `Display`. -/
def Subject.display (sty : IriStyle) : Subject → Str
  | .blank b => str! "_:" ++ b
  | .res i => '<' :: i.fmt sty ++ str! ">"
  | .stmt s => str! "<< " ++ Stmt.display sty s ++ str! " >>"
/-- `statement.rs` 61-71, `Display`. -/
def Stmt.display (sty : IriStyle) : Stmt → Str
  | .mk s p o =>
    Subject.display sty s ++ str! " <" ++ p.fmt sty ++ str! "> " ++ Object.display sty false o
/-- `object.rs` 121-137, `Display`; `alt` is the `#` flag. -/
def Object.display (sty : IriStyle) (alt : Bool) : Object → Str
  | .blank b => str! "_:" ++ b
  | .res i => '<' :: i.fmt sty ++ str! ">"
  | .lit l => l.display sty alt
  | .coll c => str! "( " ++ joinSpace (Object.displayAll sty c) ++ str! " )"
  | .stmt s => str! "<< " ++ Stmt.display sty s ++ str! " >>"
/-- `collection.rs` 141-152, the members of `Display for Collection`. -/
def Object.displayAll (sty : IriStyle) : List Object → List Str
  | [] => []
  | o :: os => Object.display sty false o :: Object.displayAll sty os
end

/-- `subject.rs` 184-193. -/
def Subject.isBlank : Subject → Bool | .blank _ => true | _ => false
def Subject.asBlank : Subject → Option Str | .blank b => some b | _ => none
/-- `subject.rs` 195-204. -/
def Subject.isResource : Subject → Bool | .res _ => true | _ => false
def Subject.asResource : Subject → Option Iri | .res i => some i | _ => none
/-- `subject.rs` 206-215. -/
def Subject.isStatement : Subject → Bool | .stmt _ => true | _ => false
def Subject.asStatement : Subject → Option Stmt | .stmt s => some s | _ => none

/-- `object.rs` 255-264. -/
def Object.isBlank : Object → Bool | .blank _ => true | _ => false
def Object.asBlank : Object → Option Str | .blank b => some b | _ => none
/-- `object.rs` 266-275. -/
def Object.isResource : Object → Bool | .res _ => true | _ => false
def Object.asResource : Object → Option Iri | .res i => some i | _ => none
/-- `object.rs` 277-286. -/
def Object.isLiteral : Object → Bool | .lit _ => true | _ => false
def Object.asLiteral : Object → Option Literal | .lit l => some l | _ => none
/-- `object.rs` 288-297. -/
def Object.isCollection : Object → Bool | .coll _ => true | _ => false
def Object.asCollection : Object → Option (List Object) | .coll c => some c | _ => none
/-- `object.rs` 299-308. -/
def Object.isStatement : Object → Bool | .stmt _ => true | _ => false
def Object.asStatement : Object → Option Stmt | .stmt s => some s | _ => none

/-- `subject.rs` 220-226. -/
def Subject.toObject : Subject → Object
  | .blank b => .blank b
  | .res i => .res i
  | .stmt s => .stmt s

/-- `object.rs` 312-320. -/
def Object.toSubject : Object → Option Subject
  | .blank b => some (.blank b)
  | .res i => some (.res i)
  | .stmt s => some (.stmt s)
  | .lit _ => none
  | .coll _ => none

/-- `statement.rs` 182-184. -/
def Stmt.isNested (s : Stmt) : Bool := s.subject.isStatement || s.object.isStatement

/-! ### Blank node labels -/

/-- `bnode.rs` 96-106, `is_valid_str`.  `NameParser::BlankNode` is not part of the current
`rdftk_iri`; the test it makes is the parameter `v`. -/
def blankValid (v : Str → Bool) (s : Str) : Bool :=
  match stripPrefix (str! "_:") s with
  | some r => v r
  | none => v s

/-- `bnode.rs` 41-51, `from_str`: the text is kept as it is. -/
def blankParse (v : Str → Bool) (s : Str) : Option Str :=
  if blankValid v s then some s else none

/-- `bnode.rs` 87-89, `generate`, with the number from the process wide sequence. -/
def blankGen (n : Nat) : Str := 'B' :: Nat.toDigits 10 n

end Rdftk
