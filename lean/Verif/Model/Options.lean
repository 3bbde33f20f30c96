import Verif.Model.Turtle
import Verif.Model.Dot

/-! Model of the options of the writers and the functions that change them
(`rdftk_io/src/{turtle,dot,xml,trig,json,nt}/writer.rs`).  A call of a function is a value; `with_`
functions take the options and return new ones, `set_` functions change them in place, which is the
same here. -/

namespace Rdftk

/-! ### Turtle -/

/-- `turtle/writer.rs` 160-322: the functions of `TurtleWriterOptions` that change something. -/
inductive TurtleCall where
  | withIdBase (i : Iri)
  | withIntellij
  | withSparql
  | withWidth (n : Nat)
  | withPadding (b : Bool)
  | withNested
  | withoutNested
  | setIdBase (i : Iri)
  | unsetIdBase
  | setNest (b : Bool)
  | setSparql (b : Bool)
  | setIntellij (b : Bool)
  | setTypeOnLine (b : Bool)
  | setConvertTo (i : Iri)
  | unsetConvertTo
  | setWidth (n : Nat)
  | setPadding (b : Bool)

/-- What a call does; `assert!` in 311 panics. -/
def TurtleCall.run (o : TurtleOptions) : TurtleCall → Outcome TurtleOptions
  | .withIdBase i => .ok { o with idBase := some i }
  | .withIntellij => .ok { o with intellij := true, width := 4 }
  | .withSparql => .ok { o with sparql := true }
  | .withWidth n => .ok { o with width := n }
  | .withPadding b => .ok { o with padding := b }
  | .withNested => .ok { o with nest := true }
  | .withoutNested => .ok { o with nest := false }
  | .setIdBase i => .ok { o with idBase := some i }
  | .unsetIdBase => .ok { o with idBase := none }
  | .setNest b => .ok { o with nest := b }
  | .setSparql b => .ok { o with sparql := b }
  | .setIntellij b => .ok { o with intellij := b }
  | .setTypeOnLine b => .ok { o with typeOnLine := b }
  | .setConvertTo i => .ok { o with convertTo := some i }
  | .unsetConvertTo => .ok { o with convertTo := none }
  | .setWidth n => if 0 < n then .ok { o with width := n } else .panic
  | .setPadding b => .ok { o with padding := b }

/-- Calls one after the other. -/
def turtleCalls (o : TurtleOptions) : List TurtleCall → Outcome TurtleOptions
  | [] => .ok o
  | c :: cs =>
    match c.run o with
    | .ok p => turtleCalls p cs
    | .panic => .panic

/-! ### TriG -/

/-- `trig/writer.rs` 12-16, `TrigWriterOptions`, with the derived `Default`. -/
structure TrigOptions where
  turtle : TurtleOptions
  omitKeyword : Bool

/-- `trig/writer.rs` 27-57: `From`, and the functions that change something. -/
inductive TrigCall where
  | fromTurtle (t : TurtleOptions)
  | withOmit (b : Bool)
  | setOmit (b : Bool)

/-- The derived `Default`. -/
def TrigOptions.default : TrigOptions := ⟨.default, false⟩

/-- What a call does; `from` does not look at other options. -/
def TrigCall.run (o : TrigOptions) : TrigCall → TrigOptions
  | .fromTurtle t => { TrigOptions.default with turtle := t }
  | .withOmit b => { o with omitKeyword := b }
  | .setOmit b => { o with omitKeyword := b }

/-! ### DOT -/

/-- `dot/writer.rs` 87-262: the functions of `DotOptions` that change something; each is there
as `with_` and as `set_`. -/
inductive DotCall where
  | blankShape (s : Str)
  | blankColor (s : Str)
  | blankLabels (b : Bool)
  | iriShape (s : Str)
  | iriColor (s : Str)
  | literalShape (s : Str)
  | literalColor (s : Str)
  | nodePrefix (s : Str)

/-- What a call does. -/
def DotCall.run (o : DotOptions) : DotCall → DotOptions
  | .blankShape s => { o with blankShape := s }
  | .blankColor s => { o with blankColor := s }
  | .blankLabels b => { o with blankLabels := b }
  | .iriShape s => { o with iriShape := s }
  | .iriColor s => { o with iriColor := s }
  | .literalShape s => { o with literalShape := s }
  | .literalColor s => { o with literalColor := s }
  | .nodePrefix s => { o with nodePrefix := s }

/-! ### RDF/XML -/

/-- `xml/writer.rs` 38-47, `XmlOptions`; `flat` is `XmlStyle::Flat`. -/
structure XmlOptions where
  flat : Bool
  pretty : Bool
  encoding : Str

/-- `xml/writer.rs` 72-80. -/
def XmlOptions.default : XmlOptions := ⟨true, false, str! "utf-8"⟩

/-- `xml/writer.rs` 82-123. -/
inductive XmlCall where
  | flat
  | striped
  | pretty
  | plain
  | withEncoding (s : Str)

/-- What a call does. -/
def XmlCall.run (o : XmlOptions) : XmlCall → XmlOptions
  | .flat => { o with flat := true }
  | .striped => { o with flat := false }
  | .pretty => { o with pretty := true }
  | .plain => { o with pretty := false }
  | .withEncoding s => { o with encoding := s }

/-! ### JSON and N-Triples: one option each, false at first -/

/-- `json/writer.rs` 35-43, `with_pretty_print` and `set_pretty_print`; `nt/writer.rs` 67-71,
`force_string_literals`. -/
def flagCall (_ : Bool) (b : Bool) : Bool := b

end Rdftk
