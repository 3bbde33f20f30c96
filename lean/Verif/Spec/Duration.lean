import Verif.Model.Str

/-! Independent reading of `xsd:duration` texts of the form `PTnS` and `PTn.fS`. -/

namespace Rdftk.Spec

/-- Nanoseconds denoted by `PTnS` or `PTn.fS` with at most nine decimals. -/
def durationNanos (s : Str) : Option Nat :=
  match stripPrefix ['P', 'T'] s with
  | none => none
  | some r =>
    match stripSuffix r 'S' with
    | none => none
    | some body =>
      match splitFirst '.' body with
      | (n, none) =>
        if n ≠ [] ∧ n.all Char.isDigit then some (Nat.ofDigitChars 10 n 0 * 10 ^ 9) else none
      | (n, some f) =>
        if n ≠ [] ∧ n.all Char.isDigit ∧ f ≠ [] ∧ f.all Char.isDigit ∧ f.length ≤ 9 then
          some (Nat.ofDigitChars 10 n 0 * 10 ^ 9 + Nat.ofDigitChars 10 f 0 * 10 ^ (9 - f.length))
        else none

/-- Nanoseconds denoted by `P0D`, or by `PTnS` or `PTn.fS`, or by one of these after a minus sign. -/
def signedNanos (s : Str) : Option Int :=
  let size (t : Str) : Option Int := if t = ['P', '0', 'D'] then some 0 else (durationNanos t).map Int.ofNat
  match s with
  | '-' :: t => (size t).map (- ·)
  | t => size t

end Rdftk.Spec
