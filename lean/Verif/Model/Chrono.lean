import Verif.Model.Literal

/-!
Literals of `chrono::Duration` (`rdftk_core/src/model/literal.rs` 533-559, feature `chrono_types`).

`chrono::Duration` is taken from chrono 0.4.32 and later: seconds and nanoseconds, the latter never
negative, printed by its `Display`.
-/

namespace Rdftk

/-- `chrono::TimeDelta`. -/
structure Delta where
  secs : Int
  nanos : Nat
deriving DecidableEq, Repr

namespace Delta

/-- What every duration satisfies. -/
def ok (d : Delta) : Prop := d.nanos < 10 ^ 9

/-- `Neg`. -/
def neg (d : Delta) : Delta :=
  if d.nanos = 0 then ⟨-d.secs, 0⟩ else ⟨-d.secs - 1, 10 ^ 9 - d.nanos⟩

/-- The loop of `Display`: the digits of the fraction without the zeros at the end, and how many
there are. -/
def trim : Nat → Nat → Nat × Nat
  | 0, f => (f, 0)
  | n + 1, f => if f % 10 = 0 then trim n (f / 10) else (f, n + 1)

/-- `{:0n$}`. -/
def padZeros (n f : Nat) : Str := List.replicate (n - (Nat.toDigits 10 f).length) '0' ++ Nat.toDigits 10 f

/-- `Display` of a duration that is not negative, after the `P`. -/
def magnitude (d : Delta) : Str :=
  if d.secs = 0 ∧ d.nanos = 0 then str! "0D"
  else
    'T' :: intText d.secs ++
      (if 0 < d.nanos then '.' :: padZeros (trim 9 d.nanos).2 (trim 9 d.nanos).1 else []) ++ ['S']

/-- `Display`. -/
def text (d : Delta) : Str :=
  if d.secs < 0 then '-' :: 'P' :: d.neg.magnitude else 'P' :: d.magnitude

end Delta

/-- `literal.rs` 533-538, `From<chrono::Duration>`. -/
def Literal.ofDelta (pr : Char → Bool) (d : Delta) : Literal := Literal.withDataType pr d.text .duration

/-- `literal.rs` 554-559, `PartialEq<chrono::Duration>`. -/
def Literal.eqDelta (l : Literal) (d : Delta) : Bool :=
  l.lexicalForm == d.text && l.dataType == some .duration

end Rdftk
