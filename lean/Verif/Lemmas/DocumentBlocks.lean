import Verif.Spec.SkosDocument
import Verif.Lemmas.Skos
import Verif.Lemmas.SkosDocument

/-! The parts of a document about a thesaurus: their headings and their links. -/

namespace Rdftk

open Spec

theorem flatMap_one {α β : Type} (l : List α) (g : α → List β) (f : α → β) (h : ∀ a, g a = [f a]) : l.flatMap g = l.map f := by
  induction l with
  | nil => rfl
  | cons a l ih => rw [List.flatMap_cons, h, ih]; rfl

theorem flatMap_none {α β : Type} (l : List α) (g : α → List β) (h : ∀ a, g a = []) : l.flatMap g = [] := by
  induction l with
  | nil => rfl
  | cons a l ih => rw [List.flatMap_cons, h, ih]; rfl

theorem jumps_append (a b : List DocBlock) : jumps (a ++ b) = jumps a ++ jumps b := by simp [jumps]
theorem anchors_append (a b : List DocBlock) : anchors (a ++ b) = anchors a ++ anchors b := by simp [anchors]
theorem levels_append (a b : List DocBlock) : levels (a ++ b) = levels a ++ levels b := by simp [levels]

theorem jumps_flatMap {α : Type} (l : List α) (f : α → List DocBlock) : jumps (l.flatMap f) = l.flatMap fun a => jumps (f a) := by
  simp [jumps, List.flatMap_assoc]
theorem anchors_flatMap {α : Type} (l : List α) (f : α → List DocBlock) :
    anchors (l.flatMap f) = l.flatMap fun a => anchors (f a) := by
  induction l with
  | nil => rfl
  | cons a l ih => simp only [List.flatMap_cons, anchors_append, ih]
theorem levels_flatMap {α : Type} (l : List α) (f : α → List DocBlock) :
    levels (l.flatMap f) = l.flatMap fun a => levels (f a) := by
  induction l with
  | nil => rfl
  | cons a l ih => simp only [List.flatMap_cons, levels_append, ih]

/-- A part without headings and links. -/
def Bare (bs : List DocBlock) : Prop := jumps bs = [] ∧ anchors bs = [] ∧ levels bs = []

theorem Bare.append {a b : List DocBlock} (ha : Bare a) (hb : Bare b) : Bare (a ++ b) :=
  ⟨by rw [jumps_append, ha.1, hb.1]; rfl, by rw [anchors_append, ha.2.1, hb.2.1]; rfl,
    by rw [levels_append, ha.2.2, hb.2.2]; rfl⟩

theorem languageCell_jumps (x : DocContext) (l : Option Str) : (languageCell x l).flatMap spanJumps = [] := by
  unfold languageCell
  cases l <;> rfl

theorem flushLabels_bare {x : DocContext} {ls : List Label} : Bare (flushLabels (some (ls.map (labelRow x)))) := by
  refine ⟨?_, rfl, rfl⟩
  simp only [flushLabels, jumps, List.flatMap_cons, List.flatMap_nil, List.append_nil, blockJumps]
  rw [List.flatMap_map]
  simp [labelRow, languageCell_jumps, spanJumps]

theorem labelLoop_bare (x : DocContext) (ls : List Label) : ∀ (cur : Option LabelKind) (tb : Option (List Label)),
    Bare (labelLoop x ls cur (tb.map fun l => l.map (labelRow x))) := by
  induction ls with
  | nil =>
    intro cur tb
    cases tb with
    | none => exact ⟨rfl, rfl, rfl⟩
    | some l => exact flushLabels_bare
  | cons l ls ih =>
    intro cur tb
    unfold labelLoop
    split
    · refine Bare.append ?_ (Bare.append (a := [_]) ⟨rfl, rfl, rfl⟩ (ih _ (some [l])))
      cases tb with
      | none => exact ⟨rfl, rfl, rfl⟩
      | some l => exact flushLabels_bare
    · have := ih cur (tb.map (· ++ [l]))
      rw [Option.map_map] at this ⊢
      simpa [Function.comp_def] using this

theorem writeLabels_bare (x : DocContext) (ls : List Label) : Bare (writeLabels x ls) := labelLoop_bare x _ none none

theorem writeOtherProperties_bare (x : DocContext) (ps : List LiteralProperty) : Bare (writeOtherProperties x ps) := by
  refine ⟨?_, rfl, rfl⟩
  simp only [writeOtherProperties, jumps, List.flatMap_cons, List.flatMap_nil, List.append_nil, blockJumps]
  rw [List.flatMap_map]
  simp [propertyRow, languageCell_jumps, spanJumps]

theorem header_jumps (x : DocContext) (u : Iri) (ls : List Label) (ps : List LiteralProperty) (a b : Str) (d : Nat) :
    jumps (writeEntityHeader x u ls ps a b d) = [] := by
  unfold writeEntityHeader
  simp only [jumps_append]
  have h1 : ∀ (n : Nat) (s : Str) (bs : List DocBlock), jumps (.heading n s none :: bs) = jumps bs := fun n s bs => by simp [jumps, blockJumps]
  split <;> split <;> split <;>
    simp [h1, (writeLabels_bare x ls).1, (writeOtherProperties_bare x ps).1] <;> simp [jumps, blockJumps, spanJumps]

theorem header_anchors (x : DocContext) (u : Iri) (ls : List Label) (ps : List LiteralProperty) (a b : Str) (d : Nat) :
    anchors (writeEntityHeader x u ls ps a b d) = [x.safe b (preferredLabelFor x.sty u ls x.lang)] := by
  unfold writeEntityHeader
  simp only [anchors_append]
  have h1 : ∀ (n : Nat) (s : Str) (bs : List DocBlock), anchors (.heading n s none :: bs) = anchors bs := fun n s bs => by simp [anchors]
  split <;> split <;> split <;>
    simp [h1, (writeLabels_bare x ls).2.1, (writeOtherProperties_bare x ps).2.1] <;> simp [anchors]

/-- The levels of a section: its own, and one deeper. -/
theorem header_levels (x : DocContext) (u : Iri) (ls : List Label) (ps : List LiteralProperty) (a b : Str) (d : Nat) :
    ∃ r, levels (writeEntityHeader x u ls ps a b d) = levelToHeading d :: r ∧ ∀ n ∈ r, n = levelToHeading (d + 1) := by
  unfold writeEntityHeader
  simp only [levels_append]
  have h1 : ∀ (n : Nat) (s : Str) (bs : List DocBlock), levels (.heading n s none :: bs) = n :: levels bs := fun n s bs => by simp [levels]
  split <;> split <;> split <;>
    simp [h1, (writeLabels_bare x ls).2.2, (writeOtherProperties_bare x ps).2.2] <;> simp [levels]

/-- The place of the section of a concept. -/
def conceptAnchor (x : DocContext) (h : SkosStore) (i : Nat) : Str :=
  x.safe (str! "concept") (preferredLabelFor x.sty (h.concept i).uri (h.concept i).labels x.lang)
/-- The place of the section of a collection. -/
def collectionAnchor (x : DocContext) (h : SkosStore) (i : Nat) : Str :=
  x.safe (str! "collection") (preferredLabelFor x.sty (h.collection i).uri (h.collection i).labels x.lang)

/-- The place of the section of a member. -/
def memberAnchor (x : DocContext) (h : SkosStore) : Member → Str
  | .concept i => conceptAnchor x h i
  | .collection i => collectionAnchor x h i

theorem listJumps_items {α : Type} (l : List α) (f : α → DocItem) : listJumps (l.map f) = l.flatMap fun a => itemJumps (f a) := by
  induction l with
  | nil => rfl
  | cons a l ih => rw [List.map_cons, listJumps, ih, List.flatMap_cons]

theorem membership_jumps (x : DocContext) (h : SkosStore) (u : Iri) :
    jumps (writeCollectionMembership x h u) =
      (x.collections.filter fun i => (h.collection i).hasMember h u).map (collectionAnchor x h) := by
  unfold writeCollectionMembership
  simp only
  split
  · rename_i h1
    rw [List.isEmpty_iff] at h1
    rw [h1]; rfl
  · simp only [jumps, List.flatMap_cons, List.flatMap_nil, List.append_nil, blockJumps, List.nil_append, listJumps_items]
    exact flatMap_one _ _ _ fun i => rfl

theorem membership_anchors (x : DocContext) (h : SkosStore) (u : Iri) :
    anchors (writeCollectionMembership x h u) =
      if x.collections.any (fun i => (h.collection i).hasMember h u) then [str! "Collections"] else [] := by
  unfold writeCollectionMembership
  simp only
  by_cases h1 : x.collections.any (fun i => (h.collection i).hasMember h u) = true
  · have : (x.collections.filter fun i => (h.collection i).hasMember h u).isEmpty = false := by
      rw [Bool.eq_false_iff]
      intro h2
      rw [List.isEmpty_iff, List.filter_eq_nil_iff] at h2
      rw [List.any_eq_true] at h1
      obtain ⟨i, h3, h4⟩ := h1
      exact h2 i h3 h4
    rw [this, h1]
    simp [anchors]
  · have : (x.collections.filter fun i => (h.collection i).hasMember h u).isEmpty = true := by
      rw [List.isEmpty_iff, List.filter_eq_nil_iff]
      intro i h3 h4
      exact h1 (List.any_eq_true.2 ⟨i, h3, h4⟩)
    rw [this, if_neg h1]
    simp [anchors]

theorem membership_levels (x : DocContext) (h : SkosStore) (u : Iri) : ∀ n ∈ levels (writeCollectionMembership x h u), n = 4 := by
  unfold writeCollectionMembership
  simp only
  split <;> simp [levels, levelToHeading]

theorem concept_jumps (x : DocContext) (h : SkosStore) (c : Concept) :
    jumps (writeConcept x h c) = c.concepts.map (fun e => conceptAnchor x h e.2) ++
      (x.collections.filter fun i => (h.collection i).hasMember h c.uri).map (collectionAnchor x h) := by
  unfold writeConcept
  rw [jumps_append, jumps_append, header_jumps, membership_jumps, List.nil_append]
  congr 1
  split
  · rename_i h1
    rw [List.isEmpty_iff] at h1
    rw [h1]; rfl
  · simp only [writeConceptRelations, jumps, List.flatMap_cons, List.flatMap_nil, List.append_nil, blockJumps, List.nil_append,
      List.flatMap_append, List.flatMap_map]
    refine (congrArg₂ (· ++ ·) (flatMap_one c.concepts _ (fun e => conceptAnchor x h e.2) fun e => rfl)
      (flatMap_none c.external _ fun e => rfl)).trans (List.append_nil _)

theorem concept_anchors (x : DocContext) (h : SkosStore) (i : Nat) :
    anchors (writeConcept x h (h.concept i)) = conceptAnchor x h i ::
      if x.collections.any (fun k => (h.collection k).hasMember h (h.concept i).uri) then [str! "Collections"] else [] := by
  unfold writeConcept
  rw [anchors_append, anchors_append, header_anchors, membership_anchors]
  have : anchors (if (h.concept i).concepts.isEmpty then [] else writeConceptRelations x h (h.concept i)) = [] := by
    split <;> simp [anchors, writeConceptRelations]
  rw [this, List.append_nil]
  rfl

theorem concept_levels (x : DocContext) (h : SkosStore) (c : Concept) :
    ∃ r, levels (writeConcept x h c) = 3 :: r ∧ ∀ n ∈ r, n = 4 := by
  unfold writeConcept
  obtain ⟨r, h1, h2⟩ := header_levels x c.uri c.labels c.properties (str! "Concept") (str! "concept") 3
  rw [levels_append, levels_append, h1]
  refine ⟨_, by rw [List.cons_append, List.cons_append]; rfl, ?_⟩
  intro n hn
  rw [List.mem_append, List.mem_append] at hn
  rcases hn with (hn | hn) | hn
  · exact h2 n hn
  · revert hn
    split <;> simp [levels, writeConceptRelations, levelToHeading]
  · exact membership_levels x h _ n hn

theorem collection_jumps (x : DocContext) (h : SkosStore) (c : SkosCollection) :
    jumps (writeSkosCollection x h c) = c.members.map (memberAnchor x h) ++
      (x.collections.filter fun i => (h.collection i).hasMember h c.uri).map (collectionAnchor x h) := by
  unfold writeSkosCollection
  rw [jumps_append, jumps_append, header_jumps, membership_jumps, List.nil_append]
  congr 1
  split
  · rename_i h1
    rw [List.isEmpty_iff] at h1
    rw [h1]; rfl
  · rename_i h1
    simp only [writeCollectionMembers, h1, jumps, List.flatMap_append, List.flatMap_cons, List.flatMap_nil, List.append_nil,
      blockJumps, List.nil_append, listJumps_items, Bool.false_eq_true, if_false]
    exact flatMap_one _ _ _ fun m => by cases m <;> rfl

theorem collection_anchors (x : DocContext) (h : SkosStore) (i : Nat) :
    anchors (writeSkosCollection x h (h.collection i)) = collectionAnchor x h i ::
      if x.collections.any (fun k => (h.collection k).hasMember h (h.collection i).uri) then [str! "Collections"] else [] := by
  unfold writeSkosCollection
  rw [anchors_append, anchors_append, header_anchors, membership_anchors]
  have : anchors (if (h.collection i).members.isEmpty then [] else writeCollectionMembers x h (h.collection i).members) = [] := by
    split
    · rfl
    · simp only [writeCollectionMembers]
      split <;> simp [anchors]
  rw [this, List.append_nil]
  rfl

theorem collection_levels (x : DocContext) (h : SkosStore) (c : SkosCollection) :
    ∃ r, levels (writeSkosCollection x h c) = 3 :: r ∧ ∀ n ∈ r, n = 4 := by
  unfold writeSkosCollection
  obtain ⟨r, h1, h2⟩ := header_levels x c.uri c.labels c.properties (str! "Collection") (str! "collection") 3
  rw [levels_append, levels_append, h1]
  refine ⟨_, by rw [List.cons_append, List.cons_append]; rfl, ?_⟩
  intro n hn
  rw [List.mem_append, List.mem_append] at hn
  rcases hn with (hn | hn) | hn
  · exact h2 n hn
  · revert hn
    split
    · simp [levels]
    · simp only [writeCollectionMembers]
      split <;> simp [levels, levelToHeading]
  · exact membership_levels x h _ n hn

theorem listJumps_append (a b : List DocItem) : listJumps (a ++ b) = listJumps a ++ listJumps b := by
  induction a with
  | nil => rfl
  | cons i a ih => simp [listJumps, ih]

/-- Sections: a heading of the third level, and headings of the fourth. -/
theorem steps_sections {α : Type} (l : List α) (f : α → List Nat) (hf : ∀ a, ∃ r, f a = 3 :: r ∧ ∀ n ∈ r, n = 4)
    (rest : List Nat) (hr : Steps 2 rest) (p : Nat) (hp : 2 ≤ p) : Steps p (l.flatMap f ++ rest) := by
  have mono : ∀ (q p : Nat) (ls : List Nat), p ≤ q → Steps p ls → Steps q ls := by
    intro q p ls h1 h2
    cases ls with
    | nil => trivial
    | cons a ls => exact ⟨by have := h2.1; omega, h2.2⟩
  have fours : ∀ (r ls : List Nat) (q : Nat), 3 ≤ q → (∀ n ∈ r, n = 4) → (∀ q, 2 ≤ q → Steps q ls) → Steps q (r ++ ls) := by
    intro r ls
    induction r with
    | nil => exact fun q hq _ h => h q (by omega)
    | cons a r ih =>
      intro q hq h1 h2
      have := h1 a (.head _)
      subst this
      exact ⟨by omega, ih 4 (by omega) (fun n hn => h1 n (.tail _ hn)) h2⟩
  induction l generalizing p with
  | nil => exact mono _ _ _ hp hr
  | cons a l ih =>
    obtain ⟨r, h1, h2⟩ := hf a
    rw [List.flatMap_cons, h1, List.append_assoc, List.cons_append]
    exact ⟨by omega, fours r _ 3 (by omega) h2 fun q hq => ih q hq⟩

end Rdftk
