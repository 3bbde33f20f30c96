import Verif.Model.NTriples

/-! Model of `rdftk_core/src/error.rs`: the errors, their messages and causes, and traces.  Errors of other
crates are the text they display, with the texts of their causes.  The count of a trace is a number without
bound where the code has an `i32`. -/

namespace Rdftk

/-- An error of another crate. -/
structure Foreign where
  msg : Str
  causes : List Str
deriving DecidableEq, Repr

/-- `error.rs` 20-152, `Error`. -/
inductive CoreError where
  | tokenizer (representation : Str) (source : Foreign)
  | parserExpected (rule expecting : Str)
  | parserUnexpected (rule given : Str) (expecting : List Str)
  | parserUnreachable (rule given : Str)
  | invalidFromStr (value name : Str)
  | invalidCoercion (fromType toType : Str)
  | hexDecoder (value : Str) (index : Nat)
  | invalidBlankNodeName (name : Str)
  | emptyQName
  | invalidQName (name : Str)
  | providerMismatch (lhs rhs : Str)
  | invalidMatch
  | absoluteIriExpected (uri : Str)
  | invalidState
  | rdfStarNotSupported (representation : Str)
  | formulaeNotSupported (representation : Str)
  | queryResultsFormat (representation : Str)
  | borrow (source : Foreign)
  | io (source : Foreign)
  | iri (source : Foreign)
  | languageTag (source : Foreign)
  | name (source : Foreign)
  | utf8 (source : Foreign)
  | base64 (source : Foreign)
  | unknown (message : Str)

/-- `{:?}` of a string. -/
def debugStr (pr : Char → Bool) (s : Str) : Str := '"' :: escapeString pr s ++ ['"']

/-- `{:?}` of a vector of strings. -/
def debugStrs (pr : Char → Bool) (l : List Str) : Str :=
  '[' :: ((l.map (debugStr pr)).intersperse (str! ", ")).flatten ++ [']']

/-- `error.rs` 343-386, `Display`. -/
def CoreError.display (pr : Char → Bool) : CoreError → Str
  | .tokenizer r s => str! "The tokenizer for " ++ r ++ str! " generated an error: " ++ s.msg
  | .parserExpected f e => str! "Parser was expecting `" ++ e ++ str! "` in function `" ++ f ++ str! "`."
  | .parserUnexpected f g e =>
    str! "Parser was not expecting `" ++ g ++ str! "` in function `" ++ f ++ str! "`; expecting " ++ debugStrs pr e ++ str! "."
  | .parserUnreachable f g => str! "Parser should not have reached `" ++ g ++ str! "` in function `" ++ f ++ str! "`."
  | .invalidFromStr v n => str! "The String value `" ++ v ++ str! "` is not a valid value for it's type: '" ++ n ++ str! "'."
  | .invalidBlankNodeName n => str! "The String value `" ++ n ++ str! "` is not a valid Blank Node name."
  | .invalidCoercion a b => str! "Not possible to coerce a literal from `" ++ a ++ str! "` into `" ++ b ++ str! "`."
  | .hexDecoder v i => str! "Could not decode a hex-encoded string, bad value `" ++ v ++ str! "` at index " ++ Nat.toDigits 10 i
  | .emptyQName => str! "A QName may not have an empty name part."
  | .invalidQName n => str! "The String value `" ++ n ++ str! "` is not a valid QName."
  | .providerMismatch a b =>
    str! "Values from these different providers cannot be combined (" ++ debugStr pr a ++ str! ", " ++ debugStr pr b ++ str! ")."
  | .invalidMatch => str! "The match combination is not valid."
  | .absoluteIriExpected u => str! "An Absolute IRI was expected at, not '" ++ u ++ str! "'."
  | .invalidState => str! "Some model element was in an invalid state for the requested operation."
  | .rdfStarNotSupported r =>
    str! "Statements as objects, from RDF*, are not supported by the " ++ debugStr pr r ++ str! " representation."
  | .formulaeNotSupported r => str! "Cited model.formulae, from N3, are not supported by the " ++ debugStr pr r ++ str! " representation."
  | .queryResultsFormat r => str! "Could not read or write query results in the " ++ debugStr pr r ++ str! " representation."
  | .borrow s => str! "A cell borrow error occurred; source: " ++ s.msg
  | .io s => str! "An I/O error occurred; source: " ++ s.msg
  | .iri s => str! "An error occurred parsing an IRI; source: " ++ s.msg
  | .languageTag s => str! "An error occurred parsing a language tag; source: " ++ s.msg
  | .name s => str! "An error occurred parsing a name; source: " ++ s.msg
  | .utf8 s => str! "An error occurred parsing a UTF-8 string; source: " ++ s.msg
  | .base64 s => str! "An error occurred parsing a base64 encoded string; source: " ++ s.msg
  | .unknown s => str! "Unknown error: " ++ s

/-- `error.rs` 389-403, `source`. -/
def CoreError.source : CoreError → Option Foreign
  | .borrow s | .io s | .iri s | .languageTag s | .name s | .utf8 s | .base64 s => some s
  | _ => none

/-- The messages of an error and its causes. -/
def CoreError.chain (pr : Char → Bool) (e : CoreError) : List Str :=
  e.display pr :: match e.source with
    | some s => s.msg :: s.causes
    | none => []

/-- `error.rs` 465-478, `trace_one`, of an error by the messages of it and its causes. -/
def traceOne : List Str → Nat → Str
  | [], _ => []
  | m :: ms, count => Nat.toDigits 10 count ++ str! ". " ++ m ++ str! "\n" ++ traceOne ms (count + 1) ++ str! "\n"

/-- `error.rs` 334-337, `error_trace`. -/
def errorTrace (pr : Char → Bool) (e : CoreError) : Str := traceOne (e.chain pr) 1

end Rdftk
