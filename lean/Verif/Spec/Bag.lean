import Verif.Lemmas.Graph

/-!
What a graph should hold after a history of operations: how often each statement occurs,
as a function of the history alone.
-/

namespace Rdftk

/-- Adding `b` copies to `a` copies: a set holds one at most. -/
def addCopies (set : Bool) (a b : Nat) : Nat := if set then min 1 (a + b) else a + b

/-- How many copies of `t` there should be after one operation, when there were `n`. -/
def copiesAfter (set : Bool) (t : Stmt) (n : Nat) : GraphOp → Nat
  | .insert s => addCopies set n (if t = s then 1 else 0)
  | .extend ss => addCopies set n (ss.count t)
  | .merge h => addCopies set n (h.stmts.count t)
  | .remove s => if t = s then 0 else n
  | .clear => 0
  | .withStatements ss => addCopies set 0 (ss.count t)
  | .dedup _ => min 1 n
  | .removeAllFor s => if t.subject = s then 0 else n
  | .setName _ => n
  | .unsetName => n
  | .setMappings _ => n
  | .rehash _ => n

/-- How many copies of `t` there should be after a history. -/
def copies (set : Bool) (t : Stmt) (ops : List GraphOp) : Nat :=
  ops.foldl (copiesAfter set t) 0

/-- Does the history use `remove_all_for`? -/
def GraphOp.isRemoveAll : GraphOp → Bool
  | .removeAllFor _ => true
  | _ => false

end Rdftk
