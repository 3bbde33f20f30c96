import Verif.Model.Str

/-! Independent specification of backslash escapes and quoted strings. -/

namespace Rdftk.Spec

/-- Where the reader of escapes is. -/
inductive EscState where
  | text            -- outside an escape
  | backslash       -- after a backslash
  | u               -- after `\u`
  | hex (n : Nat)   -- inside `\u{...}`, value so far
deriving DecidableEq, Repr

/-- Value of a lower case hexadecimal digit. -/
def hexDigit (c : Char) : Option Nat := (str! "0123456789abcdef").idxOf? c

/-- Remove the escapes: `\0 \t \r \n \" \\` and `\u{hex}` stand for a character, every
other character for itself; anything else is no escaped text. -/
def unescape : EscState → Str → Option Str
  | .text, [] => some []
  | _, [] => none
  | .text, c :: r => if c = '\\' then unescape .backslash r else (unescape .text r).map (c :: ·)
  | .backslash, c :: r =>
    if c = '0' then (unescape .text r).map ('\x00' :: ·)
    else if c = 't' then (unescape .text r).map ('\t' :: ·)
    else if c = 'r' then (unescape .text r).map ('\r' :: ·)
    else if c = 'n' then (unescape .text r).map ('\n' :: ·)
    else if c = '"' then (unescape .text r).map ('"' :: ·)
    else if c = '\\' then (unescape .text r).map ('\\' :: ·)
    else if c = 'u' then unescape .u r
    else none
  | .u, c :: r => if c = '{' then unescape (.hex 0) r else none
  | .hex n, c :: r =>
    if c = '}' then
      if n.isValidChar then (unescape .text r).map (Char.ofNat n :: ·) else none
    else match hexDigit c with
      | some d => unescape (.hex (n * 16 + d)) r
      | none => none

/-- No quote that is not preceded by an escaping backslash, and no escape left open; the
flag tells whether a backslash is pending. -/
def noBareQuote : Bool → Str → Bool
  | pending, [] => !pending
  | true, _ :: r => noBareQuote false r
  | false, c :: r => if c = '"' then false else noBareQuote (c = '\\') r

/-- Read up to the first quote that is not escaped: the text before and after it. -/
def readQuoted : Bool → Str → Option (Str × Str)
  | _, [] => none
  | true, c :: r => (readQuoted false r).map fun (a, b) => (c :: a, b)
  | false, c :: r =>
    if c = '"' then some ([], r)
    else (readQuoted (c = '\\') r).map fun (a, b) => (c :: a, b)

end Rdftk.Spec
