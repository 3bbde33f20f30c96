import Verif.Model.SkosDocument

/-! How a document about a thesaurus is read: where its links lead, its outline, and what its lists show. -/

namespace Rdftk.Spec

/-- An entry of a hierarchy: how it is set, where it leads and what it says. -/
abbrev TreeEntry := DocStyle × Str × Str

/-- A way down a list: an entry, an entry of the list below it, and so on. -/
inductive Chain : List DocItem → List TreeEntry → Prop
  | here {st : DocStyle} {a c : Str} {rest : List DocItem} : Chain (.item st [.jump a c] :: rest) [(st, a, c)]
  | under {st : DocStyle} {a c : Str} {sub rest : List DocItem} {es : List TreeEntry} : Chain sub es →
      Chain (.item st [.jump a c] :: .sub sub :: rest) ((st, a, c) :: es)
  | later {i : DocItem} {rest : List DocItem} {es : List TreeEntry} : Chain rest es → Chain (i :: rest) es

mutual
/-- The entries of an item and of the lists in it. -/
def itemEntries : DocItem → List TreeEntry
  | .item st [.jump a c] => [(st, a, c)]
  | .item _ _ => []
  | .sub l => listEntries l
/-- The entries of a list and of the lists in it. -/
def listEntries : List DocItem → List TreeEntry
  | [] => []
  | i :: l => itemEntries i ++ listEntries l
end

/-- The list itself, the lists in it, the lists in those, and so on. -/
inductive Level : List DocItem → List DocItem → Prop
  | self {l : List DocItem} : Level l l
  | under {l s l' : List DocItem} : .sub s ∈ l → Level s l' → Level l l'

/-- What the entries of a list say, without the lists in it. -/
def directCaptions (l : List DocItem) : List Str :=
  l.filterMap fun
    | .item _ [.jump _ c] => some c
    | _ => none

/-- The ways down from a concept to narrower ones. -/
inductive NarrowerPath (h : SkosStore) : Nat → List (ConceptRelation × Nat) → Prop
  | nil {i : Nat} : NarrowerPath h i []
  | cons {i j : Nat} {r : ConceptRelation} {es : List (ConceptRelation × Nat)} : (r, j) ∈ (h.concept i).concepts →
      r.isNarrower = true → NarrowerPath h j es → NarrowerPath h i ((r, j) :: es)

/-- The entry for a narrower concept: parts and instances are in italics. -/
def entryOf (x : DocContext) (h : SkosStore) (e : ConceptRelation × Nat) : TreeEntry :=
  (match e.1 with
    | .narrowerPartitive => .italic
    | .narrowerInstantial => .italic
    | _ => .plain,
   x.safe (str! "concept") (preferredLabelFor x.sty (h.concept e.2).uri (h.concept e.2).labels x.lang),
   preferredLabelFor x.sty (h.concept e.2).uri (h.concept e.2).labels x.lang)

/-- The entry for a top concept. -/
def topEntry (x : DocContext) (h : SkosStore) (i : Nat) : TreeEntry :=
  (.bold, x.safe (str! "concept") (preferredLabelFor x.sty (h.concept i).uri (h.concept i).labels x.lang),
   preferredLabelFor x.sty (h.concept i).uri (h.concept i).labels x.lang)

/-- Where the links of a piece of text lead, within the document. -/
def spanJumps : DocSpan → List Str
  | .jump a _ => [a]
  | _ => []

mutual
/-- Where the links of an item lead. -/
def itemJumps : DocItem → List Str
  | .item _ sp => sp.flatMap spanJumps
  | .sub l => listJumps l
/-- Where the links of a list lead. -/
def listJumps : List DocItem → List Str
  | [] => []
  | i :: l => itemJumps i ++ listJumps l
end

/-- Where the links of a block lead. -/
def blockJumps : DocBlock → List Str
  | .heading .. => []
  | .paragraph sp => sp.flatMap spanJumps
  | .list l => listJumps l
  | .table _ rows => rows.flatMap fun r => r.flatMap fun c => c.flatMap spanJumps

/-- Where the links of a document lead. -/
def jumps (bs : List DocBlock) : List Str := bs.flatMap blockJumps

/-- The places of a document to which links can lead. -/
def anchors (bs : List DocBlock) : List Str :=
  bs.filterMap fun
    | .heading _ _ a => a
    | _ => none

/-- The levels of the headings of a document. -/
def levels (bs : List DocBlock) : List Nat :=
  bs.filterMap fun
    | .heading l _ _ => some l
    | _ => none

/-- No heading is more than one level deeper than the one before. -/
def Steps : Nat → List Nat → Prop
  | _, [] => True
  | p, l :: ls => l ≤ p + 1 ∧ Steps l ls

end Rdftk.Spec
