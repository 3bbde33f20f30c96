import Verif.Model.Error
import Verif.Spec.Escape

/-! What the traces and messages of errors are expected to say. -/

namespace Rdftk.Spec

/-- A trace: for each message, from the first on, a line with its number. -/
def numbered (ms : List Str) (n : Nat) : Str :=
  (ms.zipIdx n).flatMap fun (m, i) => Nat.toDigits 10 i ++ str! ". " ++ m ++ str! "\n"

/-- The error an error is made of, if it is. -/
def cause : CoreError → Option Foreign
  | .tokenizer _ s | .borrow s | .io s | .iri s | .languageTag s | .name s | .utf8 s | .base64 s => some s
  | _ => none

/-- The kinds of errors. -/
def kind : CoreError → Nat
  | .tokenizer .. => 0 | .parserExpected .. => 1 | .parserUnexpected .. => 2 | .parserUnreachable .. => 3 | .invalidFromStr .. => 4
  | .invalidCoercion .. => 5 | .hexDecoder .. => 6 | .invalidBlankNodeName _ => 7 | .emptyQName => 8 | .invalidQName _ => 9
  | .providerMismatch .. => 10 | .invalidMatch => 11 | .absoluteIriExpected _ => 12 | .invalidState => 13 | .rdfStarNotSupported _ => 14
  | .formulaeNotSupported _ => 15 | .queryResultsFormat _ => 16 | .borrow _ => 17 | .io _ => 18 | .iri _ => 19 | .languageTag _ => 20
  | .name _ => 21 | .utf8 _ => 22 | .base64 _ => 23 | .unknown _ => 24

/-- What messages begin with. -/
def beginnings : List (Str × Nat) :=
  [(str! "The tokenizer", 0), (str! "Parser was exp", 1), (str! "Parser was not", 2), (str! "Parser should", 3), (str! "Not", 5), (str! "Could not d", 6),
   (str! "A Q", 8), (str! "Val", 10), (str! "The match", 11), (str! "An A", 12), (str! "Some", 13), (str! "Stat", 14), (str! "Cited", 15),
   (str! "Could not r", 16), (str! "A c", 17), (str! "An I", 18), (str! "An error occurred parsing an", 19),
   (str! "An error occurred parsing a l", 20), (str! "An error occurred parsing a n", 21), (str! "An error occurred parsing a U", 22),
   (str! "An error occurred parsing a b", 23), (str! "Un", 24)]

/-- The kind of a message, by its beginning, or else by its end. -/
def kindOf (s : Str) : Nat :=
  match beginnings.find? fun p => p.1.isPrefixOf s with
  | some p => p.2
  | none => if s.reverse.take 2 = str! ".'" then 4 else if s.reverse.take 5 = str! ".eman" then 7 else 9

/-- A text in quotes that stands for another. -/
def Quotes (q a : Str) : Prop := ∃ b, q = '"' :: (b ++ ['"']) ∧ noBareQuote false b = true ∧ unescape .text b = some a

/-- Texts in quotes with commas between them, up to the bracket that closes the list. -/
inductive ListItems : Str → List Str → Prop
  | last {q a} : Quotes q a → ListItems (q ++ str! "]") [a]
  | more {q a s l} : Quotes q a → ListItems s l → ListItems (q ++ str! ", " ++ s) (a :: l)

/-- A list of texts as the debug output of Rust has it. -/
def ListText (s : Str) (l : List Str) : Prop := (s = str! "[]" ∧ l = []) ∨ ∃ t, s = '[' :: t ∧ ListItems t l

/-- The texts that the message of an error has as they are. -/
def plainTexts : CoreError → List Str
  | .tokenizer r s => [r, s.msg]
  | .parserExpected a b | .parserUnreachable a b | .invalidFromStr a b | .invalidCoercion a b | .parserUnexpected a b _ => [a, b]
  | .hexDecoder v i => [v, Nat.toDigits 10 i]
  | .invalidBlankNodeName n | .invalidQName n | .absoluteIriExpected n | .unknown n => [n]
  | .borrow s | .io s | .iri s | .languageTag s | .name s | .utf8 s | .base64 s => [s.msg]
  | _ => []

/-- The texts that it has in quotes. -/
def quotedTexts : CoreError → List Str
  | .providerMismatch a b => [a, b]
  | .rdfStarNotSupported r | .formulaeNotSupported r | .queryResultsFormat r => [r]
  | .parserUnexpected _ _ l => l
  | _ => []

end Rdftk.Spec
