import Verif.Model.Literal

/-! Floating point and decimal values as literals (`rdftk_core/src/model/literal.rs` 471-506, 565-575).

Simplifications: a float is its bit pattern without the sign, plus the sign; `f64` and `f32` differ in the
patterns that occur and in their data type. The digits that the standard library prints for a finite
number are a parameter. `rust_decimal::Decimal` is sign, integer and scale, without the bounds (96 bits,
28) that it keeps; its printing is modelled in full. -/

namespace Rdftk

/-- A value of `f64` or `f32`. Zero is `fin _ 0`. -/
inductive Flt where
  | nan
  | inf (neg : Bool)
  | fin (neg : Bool) (bits : Nat)
deriving DecidableEq, Repr

inductive FltKind where
  | f64 | f32
deriving DecidableEq, Repr

def FltKind.dataType : FltKind → DataType
  | .f64 => .double
  | .f32 => .float

/-- The minus sign of a printed number. -/
def signText (neg : Bool) : Str := if neg then ['-'] else []

/-- `core::fmt`, `Display` for `f64` and `f32`: the sign is printed for zero too. -/
def Flt.text (digits : Nat → Str) : Flt → Str
  | .nan => str! "NaN"
  | .inf neg => signText neg ++ str! "inf"
  | .fin neg bits => signText neg ++ digits bits

/-- `literal.rs` 496-500, 565-569. -/
def Literal.ofFlt (pr : Char → Bool) (digits : Nat → Str) (k : FltKind) (v : Flt) : Literal :=
  Literal.withDataType pr (v.text digits) k.dataType

/-- `literal.rs` 502-506, 571-575. -/
def Literal.eqFlt (l : Literal) (digits : Nat → Str) (k : FltKind) (v : Flt) : Bool :=
  l.lexicalForm == v.text digits && l.dataType == some k.dataType

/-- `rust_decimal::Decimal`: `mantissa` by ten to the power of `-scale`. -/
structure Decimal where
  neg : Bool
  mantissa : Nat
  scale : Nat
deriving DecidableEq, Repr

/-- Zeros in front, up to a width. -/
def padLeft (w : Nat) (s : Str) : Str := List.replicate (w - s.length) '0' ++ s

/-- `rust_decimal` `to_str_internal` and `Display`: at least one digit before the point and `scale` digits after
it; no point for the scale 0; the sign is printed for zero too. -/
def Decimal.text (d : Decimal) : Str :=
  let ds := padLeft (d.scale + 1) (Nat.toDigits 10 d.mantissa)
  let whole := ds.take (ds.length - d.scale)
  signText d.neg ++ if d.scale = 0 then whole else whole ++ '.' :: ds.drop (ds.length - d.scale)

/-- `literal.rs` 471-483. -/
def Literal.ofDecimal (pr : Char → Bool) (d : Decimal) : Literal := Literal.withDataType pr d.text .decimal

/-- `literal.rs` 485-490. -/
def Literal.eqDecimal (l : Literal) (d : Decimal) : Bool :=
  l.lexicalForm == d.text && l.dataType == some .decimal

end Rdftk
