import Verif.Model.Iri

/-!
Model of `rdftk_io/src/common/indenter.rs`.  The subtraction of `outdent_by` panics when the
result would be negative, as in builds with overflow checks.
-/

namespace Rdftk

/-- `indenter.rs` 9-13, `Indenter`. -/
structure Indenter where
  offset : Nat
  width : Nat
  current : Nat
deriving DecidableEq, Repr

namespace Indenter

/-- `indenter.rs` 20-26, `Default`. -/
def default : Indenter := ⟨0, 2, 0⟩
/-- `indenter.rs` 40-44, `with_default_indent_width`. -/
def withWidth (i : Indenter) (w : Nat) : Indenter := { i with width := w }
/-- `indenter.rs` 48-53, `with_initial_offset`. -/
def withOffset (i : Indenter) (o : Nat) : Indenter := { i with current := o, offset := o }
/-- `indenter.rs` 66-68, `is_not_indented`. -/
def isNotIndented (i : Indenter) : Bool := i.current == i.offset
/-- `indenter.rs` 77-79, `reset_depth`. -/
def reset (i : Indenter) : Indenter := { i with current := i.offset }
/-- `indenter.rs` 87-90, `indent_by`, and 93-95, `indent_for`. -/
def indentBy (i : Indenter) (n : Nat) : Indenter := { i with current := i.current + n }
/-- `indenter.rs` 82-84, `indent`. -/
def indent (i : Indenter) : Indenter := i.indentBy i.width
/-- `indenter.rs` 107-113, `outdent_by`, and 116-121, `outdent_for`. -/
def outdentBy (i : Indenter) (n : Nat) : Outcome Indenter :=
  if i.current = 0 then .panic
  else if i.current < n then .panic
  else .ok { i with current := i.current - n }
/-- `indenter.rs` 98-103, `outdent`. -/
def outdent (i : Indenter) : Outcome Indenter :=
  if i.current = 0 then .panic else i.outdentBy i.width
/-- `indenter.rs` 29-32, `Display`. -/
def display (i : Indenter) : Str := List.replicate i.current ' '

end Indenter

/-- A call of the writers. -/
inductive IndentOp where
  | indent
  | outdent
deriving DecidableEq, Repr

/-- A sequence of calls. -/
def Indenter.run : Indenter → List IndentOp → Outcome Indenter
  | i, [] => .ok i
  | i, .indent :: l => i.indent.run l
  | i, .outdent :: l =>
    match i.outdent with
    | .panic => .panic
    | .ok j => j.run l

end Rdftk
