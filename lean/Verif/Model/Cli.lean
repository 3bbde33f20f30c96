import Verif.Model.Json
import Verif.Model.Turtle
import Verif.Model.Trig
import Verif.Model.Xml
import Verif.Model.Dot

/-!
Model of the commands of `rdftk_cli/src`.

The input is a text; bytes that are no UTF-8, files that cannot be opened and the parsing of the
arguments are left out.  When a command fails or panics the text written so far is not kept.
XML is tokenized and printed by a crate, which are two functions here.
-/

namespace Rdftk

/-- `commands/mod.rs` 29-39, `Representation`. -/
inductive Representation where
  | json
  | jsonLd
  | n3
  | nQuads
  | nTriples
  | trig
  | turtle
  | xml
deriving DecidableEq, Repr

/-- `commands/mod.rs` 66-70, `is_dataset_representation`. -/
def Representation.isDataSet : Representation → Bool
  | .nQuads => true
  | .trig => true
  | _ => false

/-- What the commands take from their surroundings. -/
structure CliEnv where
  read : ReadEnv
  sty : IriStyle
  /-- labels of generated blank nodes, and the first numbers when reading and when writing -/
  gen : Nat → Str
  startRead : Nat
  startWrite : Nat
  orders : Orders
  /-- the order of the nodes of a diagram -/
  nodeOrder : DotNodes → DotNodes
  /-- the tokenizer, the writer of `XMLLiteral`s and the writer of documents of the XML crate -/
  tokens : Str → List XmlIn
  emit : Emit
  xmlText : List XmlOut → Str
  /-- how deep the Turtle writer may go -/
  deep : Nat

/-- A result as a run. -/
def Res.toRun {α : Type _} : Res α → Run α
  | .ok a => .ok a
  | .err => .err
  | .panic => .panic

/-- `commands/mod.rs` 76-103, `read_graph`: `todo!()` for two representations, `unreachable!()`
for those of data sets; the reader of Turtle is `todo!()` itself (`common/parser/mod.rs` 96-103). -/
def cliRead (e : CliEnv) (s : Str) : Representation → Run Graph
  | .json => (readJson e.read s).toRun
  | .jsonLd => .panic
  | .n3 => .panic
  | .nTriples => (readNt e.read s).toRun
  | .turtle => .panic
  | .xml => readXml e.read e.sty e.gen e.startRead e.emit (e.tokens s)
  | .nQuads => .panic
  | .trig => .panic

/-- `commands/mod.rs` 130-166, `write_graph`, with the default options of the writers. -/
def cliWrite (e : CliEnv) (g : Graph) : Representation → Run Str
  | .json => Run.ofOption (writeJson e.gen e.startWrite e.orders e.sty false g)
  | .jsonLd => .panic
  | .n3 => .panic
  | .nQuads => .ok (writeNqGraph e.gen e.startWrite e.orders e.sty g).1
  | .nTriples => .ok (writeNt e.gen e.startWrite e.orders e.sty false g)
  | .trig => .ok (writeTrigGraph e.sty false g)
  | .turtle =>
    writeTurtle e.read.pr e.read.url e.sty TurtleOptions.default e.orders e.gen e.startWrite e.deep g
  | .xml =>
    (writeXml e.gen e.startWrite e.sty true (str! "utf-8") e.orders 1 g).bind fun es => .ok (e.xmlText es)

/-- `commands/mod.rs` 22-27, `Commands`. -/
inductive CliCommand where
  | convert (source target : Representation)
  | draw (source : Representation)
  | namespaces
deriving DecidableEq, Repr

/-- How a process ends. -/
inductive Exit where
  | success (out : Str)
  | failure
  | panic
  | deep
deriving DecidableEq, Repr

/-- `main.rs` 78-86: an error ends the process with a failure. -/
def Run.exit : Run Str → Exit
  | .ok s => .success s
  | .err => .failure
  | .panic => .panic
  | .deep => .deep

/-- `representations.rs` 52-58, `draw.rs` 48-61 and `namespaces.rs`, `execute`; `main.rs` 66-88. -/
def cliMain (e : CliEnv) (s : Str) : CliCommand → Exit
  | .convert source target => ((cliRead e s source).bind fun g => cliWrite e g target).exit
  | .draw source =>
    if source.isDataSet then .failure
    else
      ((cliRead e s source).bind fun g =>
        match writeDot e.sty e.nodeOrder DotOptions.default [] g with
        | .ok r => .ok r.1
        | .panic => .panic).exit
  | .namespaces => .panic

end Rdftk
