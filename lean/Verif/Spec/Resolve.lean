import Verif.Model.Str

/-!
References against a base, from RFC 3986, independent of the model.
-/

namespace Rdftk.Spec

/-- Before the first of some characters, and from it on. -/
def cutAt (cs : Str) (s : Str) : Str × Str :=
  (s.takeWhile fun c => !cs.contains c, s.dropWhile fun c => !cs.contains c)

/-- `scheme = ALPHA *( ALPHA / DIGIT / "+" / "-" / "." )` -/
def isScheme : Str → Bool
  | [] => false
  | c :: s => c.isAlpha && s.all fun c => c.isAlphanum || (str! "+-.").contains c

/-- A text that starts with a scheme and a colon. -/
def hasScheme (s : Str) : Bool :=
  let r := cutAt (str! ":/?#") s
  isScheme r.1 && r.2.head? == some ':'

/-- The components of RFC 3986, appendix B: scheme with its colon, authority with its slashes,
path, query with its mark, fragment with its mark. -/
structure Parts where
  scheme : Str
  authority : Str
  path : Str
  query : Str
  fragment : Str
deriving DecidableEq, Repr

/-- Authority, path, query and fragment. -/
def partsFrom (scheme s : Str) : Parts :=
  let a : Str × Str := match s with
    | '/' :: '/' :: r => ('/' :: '/' :: (cutAt (str! "/?#") r).1, (cutAt (str! "/?#") r).2)
    | _ => ([], s)
  let p := cutAt (str! "?#") a.2
  let q := cutAt (str! "#") p.2
  ⟨scheme, a.1, p.1, q.1, q.2⟩

/-- Appendix B. -/
def partsOf (s : Str) : Parts :=
  if hasScheme s then
    let r := cutAt (str! ":") s
    partsFrom (r.1 ++ [':']) (r.2.drop 1)
  else partsFrom [] s

/-- Section 5.3. -/
def Parts.text (p : Parts) : Str := p.scheme ++ p.authority ++ p.path ++ p.query ++ p.fragment

/-- The pieces between slashes. -/
def segments : Str → List Str
  | [] => [[]]
  | c :: s =>
    if c = '/' then [] :: segments s
    else match segments s with
      | [] => [[c]]
      | w :: ws => (c :: w) :: ws

/-- The pieces with slashes between them. -/
def unsegments : List Str → Str
  | [] => []
  | [w] => w
  | w :: ws => w ++ '/' :: unsegments ws

/-- Section 5.2.4 on the pieces after the first slash; `out` is what was kept, the last first. -/
def dropDots (out : List Str) : List Str → List Str
  | [] => out.reverse
  | w :: ws =>
    if w = str! "." then dropDots (if ws.isEmpty then [] :: out else out) ws
    else if w = str! ".." then dropDots (if ws.isEmpty then [] :: out.tail else out.tail) ws
    else dropDots (w :: out) ws

/-- `remove_dot_segments`, for paths that start with a slash; others are kept. -/
def removeDots : Str → Str
  | '/' :: p => '/' :: unsegments (dropDots [] (segments p))
  | p => p

/-- Section 5.2.3: all but the last piece of the path of the base, and the path. -/
def mergePaths (base : Parts) (p : Str) : Str :=
  if base.authority ≠ [] ∧ base.path = [] then '/' :: p
  else (base.path.reverse.dropWhile (· != '/')).reverse ++ p

/-- Section 5.2.2: the reference `r` without a scheme against the base. -/
def resolve (base r : Str) : Str :=
  let b := partsOf base
  let r := partsOf r
  Parts.text <|
    if r.authority ≠ [] then { r with scheme := b.scheme, path := removeDots r.path }
    else if r.path = [] then
      { b with query := if r.query = [] then b.query else r.query, fragment := r.fragment }
    else
      { b with
        path := if r.path.head? = some '/' then removeDots r.path else removeDots (mergePaths b r.path)
        query := r.query
        fragment := r.fragment }

/-- The IRI that the text between the angle brackets stands for: texts with a scheme are taken
as they are, others need a base. -/
def iriValue (base : Option Str) (s : Str) : Option Str :=
  if hasScheme s then some s else base.map fun b => resolve b s

/-! The examples of section 5.4. -/

example : ([(str! "g", str! "http://a/b/c/g"), (str! "./g", str! "http://a/b/c/g"),
    (str! "g/", str! "http://a/b/c/g/"), (str! "/g", str! "http://a/g"), (str! "//g", str! "http://g"),
    (str! "?y", str! "http://a/b/c/d;p?y"), (str! "g?y", str! "http://a/b/c/g?y"),
    (str! "#s", str! "http://a/b/c/d;p?q#s"), (str! "g#s", str! "http://a/b/c/g#s"),
    (str! "g?y#s", str! "http://a/b/c/g?y#s"), (str! ";x", str! "http://a/b/c/;x"),
    (str! "g;x", str! "http://a/b/c/g;x"), (str! "g;x?y#s", str! "http://a/b/c/g;x?y#s"),
    (str! "", str! "http://a/b/c/d;p?q"), (str! ".", str! "http://a/b/c/"),
    (str! "./", str! "http://a/b/c/"), (str! "..", str! "http://a/b/"), (str! "../", str! "http://a/b/"),
    (str! "../g", str! "http://a/b/g"), (str! "../..", str! "http://a/"), (str! "../../", str! "http://a/"),
    (str! "../../g", str! "http://a/g"), (str! "../../../g", str! "http://a/g"),
    (str! "/./g", str! "http://a/g"), (str! "/../g", str! "http://a/g"), (str! "g.", str! "http://a/b/c/g."),
    (str! "..g", str! "http://a/b/c/..g"), (str! "./../g", str! "http://a/b/g"),
    (str! "./g/.", str! "http://a/b/c/g/"), (str! "g/./h", str! "http://a/b/c/g/h"),
    (str! "g/../h", str! "http://a/b/c/h"), (str! "g;x=1/../y", str! "http://a/b/c/y")] :
    List (Str × Str)).all (fun e => resolve (str! "http://a/b/c/d;p?q") e.1 == e.2) = true := by
  decide +kernel

end Rdftk.Spec
