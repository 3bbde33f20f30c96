import Verif.Model.Turtle

/-! Model of `rdftk_query/src/results.rs` and `sparql/results/csv.rs`: query results and their CSV and TSV
texts.  The crate is not a member of the workspace at present; it is modelled as written.

The crate `csv` is modelled with its defaults: fields are quoted when they have the delimiter, a quote,
a line feed or a carriage return; quotes are doubled; lines end in a line feed; a record that
has no bytes is written as two quotes; all records must have as many fields as the first; text goes
through a buffer of 8192 bytes, and errors when the buffer is written at the end are dropped. -/

namespace Rdftk

/-- `results.rs` 38-43, `Value`. -/
inductive QValue where
  | bnode (b : Str)
  | iri (i : Iri)
  | lit (l : Literal)

/-- `results.rs` 95-107, `Display`; that of a blank node is its label (`bnode.rs` 35-39). -/
def QValue.display (sty : IriStyle) : QValue → Str
  | .bnode b => b
  | .iri i => i.fmt sty
  | .lit l => l.display sty false

/-- `results.rs` 26-36, `Results` and `Row`, without the two numbers for paging. -/
structure QResults where
  columns : List Str
  rows : List (List QValue)

/-- `csv.rs` 27-31, `Options`. -/
structure CsvOptions where
  tabSeparated : Bool
  skipHeaders : Bool
deriving DecidableEq

/-- `csv_core::WriterBuilder`, the characters for which a field is quoted. -/
def csvSpecial (d c : Char) : Bool := c == d || c == '"' || c == '\n' || c == '\r'

/-- `csv_core::Writer::field`. -/
def csvField (d : Char) (s : Str) : Str :=
  if s.any (csvSpecial d) then '"' :: s.flatMap (fun c => if c = '"' then ['"', '"'] else [c]) ++ ['"'] else s

/-- `csv::Writer::write_field` for each field of a record. -/
def csvFields (d : Char) : List Str → Str
  | [] => []
  | [f] => csvField d f
  | f :: g :: fs => csvField d f ++ d :: csvFields d (g :: fs)

/-- `csv::Writer::write_record`. -/
def csvRecord (d : Char) (fs : List Str) : Str :=
  (if csvFields d fs = [] then ['"', '"'] else csvFields d fs) ++ ['\n']

/-- `csv::Writer`, records until one has another number of fields than the first, which is an error.
The second part says whether there was none. -/
def csvRecords (d : Char) : Option Nat → List (List Str) → Str × Bool
  | _, [] => ([], true)
  | none, r :: rs => let t := csvRecords d (some r.length) rs; (csvRecord d r ++ t.1, t.2)
  | some n, r :: rs =>
    if r.length = n then let t := csvRecords d (some n) rs; (csvRecord d r ++ t.1, t.2)
    else (csvFields d r, false)

/-- `csv.rs` 78-80, the delimiter. -/
def CsvOptions.delimiter (o : CsvOptions) : Char := if o.tabSeparated then '\t' else ','

/-- `csv.rs` 82-92, the records that are written. -/
def QResults.records (sty : IriStyle) (o : CsvOptions) (r : QResults) : List (List Str) :=
  (if !o.skipHeaders || o.tabSeparated then [r.columns] else []) ++ r.rows.map fun row => row.map (·.display sty)

/-- `csv.rs` 67-71, `to_string`, and 73-95, `to_writer`; `none` is an error. -/
def QResults.toText (sty : IriStyle) (o : CsvOptions) (r : QResults) : Option Str :=
  let t := csvRecords o.delimiter none (r.records sty o)
  if t.2 then some t.1 else none

/-- `csv.rs` 97-103, `to_file`, for a path at which there is a file or not: whether it succeeds, and
the new contents of the file.  `File::open` opens the file for reading only, so that nothing can be
written; that is noticed when the buffer is full, but not at the end. -/
def QResults.toFile (sty : IriStyle) (o : CsvOptions) (r : QResults) (file : Option Str) : Bool × Option Str :=
  match file with
  | none => (false, none)
  | some old =>
    let t := csvRecords o.delimiter none (r.records sty o)
    (t.2 && byteLen t.1 ≤ 8192, some old)

/-- `csv.rs` 46-63, `from_reader`, which ends in `todo!()` whatever is read. -/
def QResults.fromText (_o : CsvOptions) (_s : Str) : Outcome (Option QResults) := .panic

end Rdftk
