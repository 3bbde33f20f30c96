import Verif.Model.QueryResults
import Mathlib.Data.List.Forall2

/-! Reading CSV by RFC 4180, with lines that end in a line feed and a given delimiter; and the forms
of values by SPARQL 1.1 Query Results CSV and TSV Formats. -/

namespace Rdftk.Spec

/-- Where a reader is: at the start of a field, in a field without quotes, in one with quotes, or after a
quote in one with quotes. -/
inductive CsvMode where
  | start
  | plain
  | quoted
  | closed

/-- The records of a text, from within a record whose first fields are `r` and a field that begins with
`f`; `none` when the text is not CSV. -/
def csvScan (d : Char) : CsvMode → Str → List Str → Str → Option (List (List Str))
  | .start, _, [], [] => some []
  | .start, _, r@(_ :: _), [] => some [r ++ [[]]]
  | .plain, f, r, [] => some [r ++ [f]]
  | .closed, f, r, [] => some [r ++ [f]]
  | .quoted, _, _, [] => none
  | .start, _, r, c :: s =>
    if c = '"' then csvScan d .quoted [] r s
    else if c = d then csvScan d .start [] (r ++ [[]]) s
    else if c = '\n' then (csvScan d .start [] [] s).map ((r ++ [[]]) :: ·)
    else if c = '\r' then none
    else csvScan d .plain [c] r s
  | .plain, f, r, c :: s =>
    if c = '"' then none
    else if c = d then csvScan d .start [] (r ++ [f]) s
    else if c = '\n' then (csvScan d .start [] [] s).map ((r ++ [f]) :: ·)
    else if c = '\r' then none
    else csvScan d .plain (f ++ [c]) r s
  | .quoted, f, r, c :: s =>
    if c = '"' then csvScan d .closed f r s else csvScan d .quoted (f ++ [c]) r s
  | .closed, f, r, c :: s =>
    if c = '"' then csvScan d .quoted (f ++ ['"']) r s
    else if c = d then csvScan d .start [] (r ++ [f]) s
    else if c = '\n' then (csvScan d .start [] [] s).map ((r ++ [f]) :: ·)
    else none

/-- The records of a text. -/
def csvRead (d : Char) (s : Str) : Option (List (List Str)) := csvScan d .start [] [] s

/-- Section 3.2 of the recommendation: the text of a value in CSV, before it is quoted. -/
def csvForm : QValue → Str
  | .bnode b => '_' :: ':' :: b
  | .iri i => i.text
  | .lit l => l.lexicalForm

/-- Section 4.2: the texts of a value in TSV, which are its forms in SPARQL and Turtle.  Only booleans, decimals
and doubles have a form without quotes. -/
def TsvForm : QValue → Str → Prop
  | .bnode b, s => s = '_' :: ':' :: b
  | .iri i, s => s = '<' :: i.text ++ ['>']
  | .lit l, s => (s = '"' :: l.lexicalForm ++ ['"'] ++
      (match l.dataType, l.language with
        | some t, _ => str! "^^<" ++ t.asIri.text ++ str! ">"
        | none, some lang => '@' :: lang
        | none, none => [])) ∨
    (s = l.lexicalForm ∧ (l.dataType = some .boolean ∨ l.dataType = some .decimal ∨ l.dataType = some .double))

/-- Section 3.1 and 4.1: the text of a variable in the first line. -/
def headerForm (o : CsvOptions) (v : Str) : Str := if o.tabSeparated then '?' :: v else v

/-- A field as RFC 4180 and the crate `csv` have it: in quotes, with quotes doubled, where there is need. -/
def csvQuoted (d : Char) (f q : Str) : Prop :=
  (q = f ∧ ∀ c ∈ f, c ≠ d ∧ c ≠ '"' ∧ c ≠ '\n' ∧ c ≠ '\r') ∨
  ((∃ c ∈ f, c = d ∨ c = '"' ∨ c = '\n' ∨ c = '\r') ∧ q = '"' :: f.flatMap (fun c => if c = '"' then ['"', '"'] else [c]) ++ ['"'])

/-- The line of a record: its fields with the delimiter between them; a record that would be an empty line is two
quotes. -/
def CsvLine (d : Char) (fs : List Str) (t : Str) : Prop :=
  ((fs = [] ∨ fs = [[]]) ∧ t = ['"', '"', '\n']) ∨
  (fs ≠ [] ∧ fs ≠ [[]] ∧ ∃ qs, List.Forall₂ (csvQuoted d) fs qs ∧ t = [d].intercalate qs ++ ['\n'])

end Rdftk.Spec
