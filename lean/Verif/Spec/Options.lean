import Verif.Model.Options

/-! What calls that change options say, without doing anything. -/

namespace Rdftk.Spec

/-- The value given last, or the one at the beginning. -/
def lastTold {C V : Type} (told : C → Option V) (first : V) (cs : List C) : V :=
  (cs.filterMap told).getLastD first

def toldBase : TurtleCall → Option (Option Iri)
  | .withIdBase i | .setIdBase i => some (some i)
  | .unsetIdBase => some none
  | _ => none

def toldNest : TurtleCall → Option Bool
  | .withNested => some true
  | .withoutNested => some false
  | .setNest b => some b
  | _ => none

def toldSparql : TurtleCall → Option Bool
  | .withSparql => some true
  | .setSparql b => some b
  | _ => none

def toldIntellij : TurtleCall → Option Bool
  | .withIntellij => some true
  | .setIntellij b => some b
  | _ => none

def toldTypeOnLine : TurtleCall → Option Bool
  | .setTypeOnLine b => some b
  | _ => none

def toldConvertTo : TurtleCall → Option (Option Iri)
  | .setConvertTo i => some (some i)
  | .unsetConvertTo => some none
  | _ => none

/-- The width; the style of IntelliJ says that it is 4. -/
def toldWidth : TurtleCall → Option Nat
  | .withWidth n | .setWidth n => some n
  | .withIntellij => some 4
  | _ => none

def toldPadding : TurtleCall → Option Bool
  | .withPadding b | .setPadding b => some b
  | _ => none

/-- `with_x` and the `set_x` of the same name. -/
inductive Pair : TurtleCall → TurtleCall → Prop
  | idBase (i) : Pair (.withIdBase i) (.setIdBase i)
  | intellij : Pair .withIntellij (.setIntellij true)
  | sparql : Pair .withSparql (.setSparql true)
  | width (n) : Pair (.withWidth n) (.setWidth n)
  | padding (b) : Pair (.withPadding b) (.setPadding b)
  | nested : Pair .withNested (.setNest true)
  | unnested : Pair .withoutNested (.setNest false)

/-- The columns in which a character stands in a text; `c` characters of the line are before it. -/
def columns (mark : Char) : Nat → List Char → List Nat
  | _, [] => []
  | c, x :: s =>
    if x = mark then c :: columns mark (c + 1) s
    else if x = '\n' then columns mark 0 s
    else columns mark (c + 1) s

end Rdftk.Spec
