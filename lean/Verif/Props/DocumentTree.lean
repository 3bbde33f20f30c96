import Verif.Spec.SkosDocument
import Verif.Lemmas.SkosDocument
import Verif.Props.SkosDocument
import Mathlib.Data.List.Forall2

/-! Property C133: the hierarchy of concepts in a document about a thesaurus (`rdftk_skos/src/document.rs`). -/

namespace Rdftk

open Spec

theorem mapM_some {α β : Type} {f : α → Option β} : ∀ {l : List α} {ys : List β}, l.mapM f = some ys ↔
    List.Forall₂ (fun a b => f a = some b) l ys
  | [], ys => by
    simp only [List.mapM_nil]
    constructor
    · intro h; cases h; exact .nil
    · intro h; cases h; rfl
  | a :: l, ys => by
    rw [List.mapM_cons]
    simp only [Option.bind_eq_bind, Option.bind_eq_some_iff, Option.pure_def, Option.some.injEq, mapM_some]
    constructor
    · rintro ⟨b, hb, bs, hbs, rfl⟩; exact .cons hb hbs
    · intro h
      cases h with
      | cons h1 h2 => exact ⟨_, h1, _, h2, rfl⟩

theorem mapM_isSome {α β : Type} {f : α → Option β} {l : List α} : (l.mapM f).isSome ↔ ∀ a ∈ l, (f a).isSome := by
  induction l with
  | nil => simp
  | cons a l ih =>
    rw [List.mapM_cons]
    cases h : f a with
    | none => simp [h]
    | some b => 
      simp only [Option.bind_eq_bind, Option.bind_some, Option.pure_def, List.mem_cons, forall_eq_or_imp, h, Option.isSome_some, true_and, ← ih]
      cases l.mapM f <;> simp

theorem chain_item {st : DocStyle} {a c : Str} {rest : List DocItem} {cs : List TreeEntry} :
    Chain (.item st [.jump a c] :: rest) cs ↔ cs = [(st, a, c)] ∨
      (∃ s rest' cs', rest = .sub s :: rest' ∧ cs = (st, a, c) :: cs' ∧ Chain s cs') ∨ Chain rest cs := by
  constructor
  · intro h
    cases h with
    | here => exact .inl rfl
    | under h => exact .inr (.inl ⟨_, _, _, rfl, rfl, h⟩)
    | later h => exact .inr (.inr h)
  · rintro (rfl | ⟨s, rest', cs', rfl, rfl, h⟩ | h)
    · exact .here
    · exact .under h
    · exact .later h

theorem chain_sub {s rest : List DocItem} {cs : List TreeEntry} : Chain (.sub s :: rest) cs ↔ Chain rest cs := by
  constructor
  · intro h
    cases h with
    | later h => exact h
  · exact .later

theorem chain_nil {cs : List TreeEntry} : ¬Chain [] cs := by intro h; cases h

theorem narrowerPath_nil {h : SkosStore} {i : Nat} (hi : (h.concept i).concepts = []) {p : List (ConceptRelation × Nat)} :
    NarrowerPath h i p ↔ p = [] := by
  constructor
  · intro hp
    cases hp with
    | nil => rfl
    | cons h1 => rw [hi] at h1; cases h1
  · rintro rfl; exact .nil

theorem narrowerPath_iff {h : SkosStore} {i : Nat} {p : List (ConceptRelation × Nat)} :
    NarrowerPath h i p ↔ p = [] ∨ ∃ e ∈ (h.concept i).concepts, e.1.isNarrower = true ∧ ∃ p', NarrowerPath h e.2 p' ∧ p = e :: p' := by
  constructor
  · intro hp
    cases hp with
    | nil => exact .inl rfl
    | cons h1 h2 h3 => exact .inr ⟨_, h1, h2, _, h3, rfl⟩
  · rintro (rfl | ⟨e, h1, h2, p', h3, rfl⟩)
    · exact .nil
    · exact .cons h1 h2 h3

theorem innerStyle_eq (r : ConceptRelation) : (if r = .narrowerPartitive ∨ r = .narrowerInstantial then DocStyle.italic else .plain) =
    match r with
    | .narrowerPartitive => .italic
    | .narrowerInstantial => .italic
    | _ => .plain := by
  cases r <;> rfl

/-- The list for one concept, in one equation. -/
theorem treeInner_some {x : DocContext} {h : SkosStore} {n : Nat} {es : List (ConceptRelation × Nat)} {s : DocItem}
    (hs : writeConceptTreeInner x h (n + 1) es = some s) :
    ∃ (L : List (ConceptRelation × Nat)) (ys : List (List DocItem)), s = .sub ys.flatten ∧ (L.Perm (es.filter fun e => e.1.isNarrower)) ∧
      (L.Pairwise fun a b => cmpStr (x.conceptLabel (h.concept a.2)) (x.conceptLabel (h.concept b.2)) ≠ .gt) ∧
      List.Forall₂ (fun e y => ∃ st a c, (st, a, c) = entryOf x h e ∧
        (((h.concept e.2).concepts = [] ∧ y = [DocItem.item st [.jump a c]]) ∨
          ((h.concept e.2).concepts ≠ [] ∧ ∃ l, writeConceptTreeInner x h n (h.concept e.2).concepts = some l ∧
            y = [DocItem.item st [.jump a c], l]))) L ys := by
  unfold writeConceptTreeInner at hs
  rw [Option.map_eq_some_iff] at hs
  obtain ⟨ys, h1, rfl⟩ := hs
  rw [mapM_some] at h1
  refine ⟨_, ys, rfl, (List.mergeSort_perm _ _).filter _, ?_, h1.imp fun e y h2 => ?_⟩
  · refine List.Pairwise.sublist List.filter_sublist ?_
    refine (List.pairwise_mergeSort ?_ ?_ es).imp fun h => by simpa using h
    · exact fun a b c => cmpStr_order.le_trans _ _ _
    · exact fun a b => cmpStr_order.le_total _ _
  · refine ⟨_, _, _, rfl, ?_⟩
    rw [innerStyle_eq] at h2
    cases hc : (h.concept e.2).concepts with
    | nil =>
      left
      simp only [hc, List.isEmpty_nil, if_true, Option.some.injEq] at h2
      exact ⟨rfl, h2.symm⟩
    | cons a l =>
      right
      simp only [hc, List.isEmpty_cons, Bool.false_eq_true, if_false, Option.map_eq_some_iff] at h2
      obtain ⟨l', h3, h4⟩ := h2
      exact ⟨by simp, l', h3, h4.symm⟩

theorem treeInner_sub {x : DocContext} {h : SkosStore} {n : Nat} {es : List (ConceptRelation × Nat)} {s : DocItem}
    (hs : writeConceptTreeInner x h n es = some s) : ∃ l, s = .sub l := by
  cases n with
  | zero => cases hs
  | succ n =>
    obtain ⟨_, ys, rfl, _⟩ := treeInner_some hs
    exact ⟨_, rfl⟩

theorem treeInner_chain (x : DocContext) (h : SkosStore) (n : Nat) : ∀ (es : List (ConceptRelation × Nat)) (l : List DocItem),
    writeConceptTreeInner x h n es = some (.sub l) → ∀ cs, Chain l cs ↔
      ∃ e ∈ es, e.1.isNarrower = true ∧ ∃ p, NarrowerPath h e.2 p ∧ cs = (e :: p).map (entryOf x h) := by
  induction n with
  | zero => intro es l hs; cases hs
  | succ n ih =>
    intro es l hs cs
    obtain ⟨L, ys, he, hp, -, hf⟩ := treeInner_some hs
    cases he
    have hL : (∃ e ∈ es, e.1.isNarrower = true ∧ ∃ p, NarrowerPath h e.2 p ∧ cs = (e :: p).map (entryOf x h)) ↔
        ∃ e ∈ L, ∃ p, NarrowerPath h e.2 p ∧ cs = (e :: p).map (entryOf x h) := by
      simp only [hp.mem_iff, List.mem_filter, and_assoc]
    rw [hL]
    clear hL hp hs
    suffices H : (∀ s rest, ys.flatten ≠ .sub s :: rest) ∧ (Chain ys.flatten cs ↔ ∃ e ∈ L, ∃ p, NarrowerPath h e.2 p ∧ cs = (e :: p).map (entryOf x h)) from H.2
    induction hf with
    | nil => exact ⟨by simp, by simp [chain_nil]⟩
    | @cons e y L ys h1 h2 ih2 =>
      obtain ⟨st, a, c, hent, h3⟩ := h1
      rcases h3 with ⟨h4, rfl⟩ | ⟨h4, l, h5, rfl⟩
      · refine ⟨by simp, ?_⟩
        rw [List.flatten_cons, List.singleton_append, chain_item, ih2.2]
        simp only [List.exists_mem_cons_iff, narrowerPath_nil h4, hent]
        constructor
        · rintro (rfl | ⟨s, rest, _, h6, _⟩ | h6)
          · exact .inl ⟨[], rfl, rfl⟩
          · exact absurd h6 (ih2.1 _ _)
          · exact .inr h6
        · rintro (⟨p, rfl, rfl⟩ | h6)
          · exact .inl rfl
          · exact .inr (.inr h6)
      · obtain ⟨l', rfl⟩ := treeInner_sub h5
        refine ⟨by simp, ?_⟩
        rw [List.flatten_cons, List.cons_append, List.cons_append, List.nil_append, chain_item, chain_sub, ih2.2]
        simp only [List.exists_mem_cons_iff]
        have h7 : ∀ cs', Chain l' cs' ↔ _ := ih _ _ h5
        constructor
        · rintro (rfl | ⟨s, rest, cs', h6, rfl, h8⟩ | h6)
          · exact .inl ⟨[], .nil, by rw [hent]; rfl⟩
          · cases h6
            obtain ⟨e', he', hn, p, hp, rfl⟩ := (h7 cs').1 h8
            exact .inl ⟨e' :: p, .cons he' hn hp, by rw [hent]; rfl⟩
          · exact .inr h6
        · rintro (⟨p, hp, rfl⟩ | h6)
          · rcases narrowerPath_iff.1 hp with rfl | ⟨e', he', hn, p', hp', rfl⟩
            · exact .inl (by rw [hent]; rfl)
            · exact .inr (.inl ⟨l', ys.flatten, _, rfl, by rw [hent]; rfl, (h7 _).2 ⟨e', he', hn, p', hp', rfl⟩⟩)
          · exact .inr (.inr h6)

/-- The hierarchy, in one equation. -/
theorem tree_some {x : DocContext} {h : SkosStore} {n : Nat} {tops : List Nat} {bs : List DocBlock}
    (hb : writeConceptTree x h n tops = some bs) :
    ∃ ys : List DocBlock, bs = .heading 2 (str! "Concepts Hierarchy") (some (str! "ConceptsHierarchy")) :: ys ∧
      List.Forall₂ (fun i y => ∃ st a c, (st, a, c) = topEntry x h i ∧
        (((h.concept i).concepts = [] ∧ y = DocBlock.list [DocItem.item st [.jump a c]]) ∨
          ((h.concept i).concepts ≠ [] ∧ ∃ l, writeConceptTreeInner x h n (h.concept i).concepts = some l ∧
            y = DocBlock.list [DocItem.item st [.jump a c], l]))) tops ys := by
  unfold writeConceptTree at hb
  rw [Option.map_eq_some_iff] at hb
  obtain ⟨ys, h1, rfl⟩ := hb
  rw [mapM_some] at h1
  refine ⟨ys, rfl, h1.imp fun i y h2 => ⟨_, _, _, rfl, ?_⟩⟩
  cases hc : (h.concept i).concepts with
  | nil =>
    left
    simp only [hc, List.isEmpty_nil, if_true, Option.some.injEq] at h2
    exact ⟨rfl, h2.symm⟩
  | cons a l =>
    right
    simp only [hc, List.isEmpty_cons, Bool.false_eq_true, if_false, Option.map_eq_some_iff] at h2
    obtain ⟨l', h3, h4⟩ := h2
    exact ⟨by simp, l', h3, h4.symm⟩

/-- C133: the ways down the lists of the hierarchy are the ways from a top concept to narrower concepts; each
entry has the label of its concept and leads to its section, top concepts in bold, parts and instances in italics. -/
theorem C133_chains (x : DocContext) (h : SkosStore) (n : Nat) (tops : List Nat) (bs : List DocBlock)
    (hb : writeConceptTree x h n tops = some bs) (cs : List TreeEntry) :
    (∃ l, .list l ∈ bs ∧ Chain l cs) ↔ ∃ i ∈ tops, ∃ p, NarrowerPath h i p ∧ cs = topEntry x h i :: p.map (entryOf x h) := by
  obtain ⟨ys, rfl, hf⟩ := tree_some hb
  clear hb
  simp only [List.mem_cons, reduceCtorEq, false_or]
  induction hf with
  | nil => simp
  | @cons i y tops ys h1 h2 ih =>
    obtain ⟨st, a, c, hent, h3⟩ := h1
    have key : (∃ l, y = .list l ∧ Chain l cs) ↔ ∃ p, NarrowerPath h i p ∧ cs = topEntry x h i :: p.map (entryOf x h) := by
      rcases h3 with ⟨h4, rfl⟩ | ⟨h4, l, h5, rfl⟩
      · simp only [DocBlock.list.injEq, exists_eq_left', chain_item, narrowerPath_nil h4, exists_eq_left, List.map_nil, ← hent]
        simp [chain_nil]
      · obtain ⟨l', rfl⟩ := treeInner_sub h5
        simp only [DocBlock.list.injEq, exists_eq_left', chain_item, chain_sub, chain_nil, or_false, ← hent]
        constructor
        · rintro (rfl | ⟨s, rest, cs', h6, rfl, h8⟩)
          · exact ⟨[], .nil, rfl⟩
          · cases h6
            obtain ⟨e', he', hn, p, hp, rfl⟩ := (treeInner_chain x h n _ _ h5 cs').1 h8
            exact ⟨e' :: p, .cons he' hn hp, rfl⟩
        · rintro ⟨p, hp, rfl⟩
          rcases narrowerPath_iff.1 hp with rfl | ⟨e', he', hn, p', hp', rfl⟩
          · exact .inl rfl
          · exact .inr ⟨l', [], _, rfl, rfl, (treeInner_chain x h n _ _ h5 _).2 ⟨e', he', hn, p', hp', rfl⟩⟩
    simp only [List.mem_cons, or_and_right, exists_or, exists_eq_left, ← ih, ← key]
    simp only [eq_comm]

theorem listEntries_append (a b : List DocItem) : listEntries (a ++ b) = listEntries a ++ listEntries b := by
  induction a with
  | nil => rfl
  | cons i a ih => simp [listEntries, ih]

theorem treeInner_entries (x : DocContext) (h : SkosStore) (n : Nat) : ∀ (m : Nat) (es : List (ConceptRelation × Nat)) (l : List DocItem)
    (fl : List Nat), writeConceptTreeInner x h n es = some (.sub l) →
    flattenAll (conceptChildren h) m ((es.filter fun e => e.1.isNarrower).map (·.2)) = some fl →
    ((listEntries l).map (·.2)).Perm (fl.map fun i => (topEntry x h i).2) := by
  induction n with
  | zero => intro m es l fl hs; cases hs
  | succ n ih =>
    intro m es l fl hs hfl
    obtain ⟨L, ys, he, hp, -, hf⟩ := treeInner_some hs
    cases he
    have hperm : ∀ {a b : List Nat}, a.Perm b → ∀ fa, flattenAll (conceptChildren h) m a = some fa →
        ∃ fb, flattenAll (conceptChildren h) m b = some fb ∧ fa.Perm fb := by
      intro a b hab
      induction hab with
      | nil => exact fun fa h => ⟨fa, h, .refl _⟩
      | cons i _ ih =>
        intro fa hfa
        rw [flattenAll_cons] at hfa
        simp only [Option.bind_eq_some_iff, Option.map_eq_some_iff] at hfa
        obtain ⟨f1, h1, f2, h2, rfl⟩ := hfa
        obtain ⟨fb, h3, h4⟩ := ih _ h2
        exact ⟨f1 ++ [i] ++ fb, by rw [flattenAll_cons, h1, h3]; rfl, h4.append_left _⟩
      | swap i j l =>
        intro fa hfa
        rw [flattenAll_cons, flattenAll_cons] at hfa
        simp only [Option.bind_eq_some_iff, Option.map_eq_some_iff] at hfa
        obtain ⟨f1, h1, f2, ⟨f3, h2, f4, h3, rfl⟩, rfl⟩ := hfa
        refine ⟨f3 ++ [i] ++ (f1 ++ [j] ++ f4), by rw [flattenAll_cons, flattenAll_cons, h1, h2, h3]; rfl, ?_⟩
        rw [← List.append_assoc (f1 ++ [j]), ← List.append_assoc (f3 ++ [i])]
        exact List.perm_append_comm.append_right _
      | trans _ _ ih1 ih2 =>
        intro fa hfa
        obtain ⟨fb, h1, h2⟩ := ih1 fa hfa
        obtain ⟨fc, h3, h4⟩ := ih2 fb h1
        exact ⟨fc, h3, h2.trans h4⟩
    obtain ⟨fl', h1, h2⟩ := hperm (hp.symm.map (·.2)) fl hfl
    refine List.Perm.trans ?_ (h2.symm.map _)
    clear hperm hfl h2 hs hp fl
    induction hf generalizing fl' with
    | nil => cases h1; exact .refl _
    | @cons e y L ys h3 h4 ih2 =>
      rw [List.map_cons, flattenAll_cons] at h1
      simp only [Option.bind_eq_some_iff, Option.map_eq_some_iff] at h1
      obtain ⟨f1, h5, f2, h6, rfl⟩ := h1
      have h7 := ih2 f2 h6
      rw [List.flatten_cons, listEntries_append, List.map_append, List.map_append]
      refine List.Perm.append ?_ h7
      obtain ⟨st, a, c, hent, h8⟩ := h3
      have hac : (a, c) = (topEntry x h e.2).2 := congrArg (·.2) hent
      have hm : ∃ m', m = m' + 1 := by
        cases m with
        | zero => cases h5
        | succ m => exact ⟨m, rfl⟩
      obtain ⟨m', rfl⟩ := hm
      rw [flattenBy_succ] at h5
      rcases h8 with ⟨h9, rfl⟩ | ⟨h9, l, h10, rfl⟩
      · have : f1 = [] := by
          have : conceptChildren h e.2 = [] := by simp [conceptChildren, h9]
          rw [this] at h5
          cases h5; rfl
        subst this
        simp [listEntries, itemEntries, ← hac]
      · obtain ⟨l', rfl⟩ := treeInner_sub h10
        have h11 := ih m' _ _ f1 h10 h5
        simp only [listEntries, itemEntries, List.append_nil, List.singleton_append, List.map_cons, List.map_append,
          List.map_nil, ← hac]
        exact (h11.cons _).trans (List.perm_append_singleton _ _).symm

/-- C133, no more and no less: the entries of the hierarchy are those of the concepts that the scheme lists, each as
often as it is listed there. -/
theorem C133_entries (x : DocContext) (h : SkosStore) (n m : Nat) (s : Scheme) (bs : List DocBlock) (fl : List Nat)
    (hb : writeConceptTree x h n s.concepts = some bs) (hfl : s.conceptsFlattened h m = some fl) :
    ((bs.flatMap fun
      | .list l => listEntries l
      | _ => []).map (·.2)).Perm (fl.map fun i => (topEntry x h i).2) := by
  obtain ⟨ys, rfl, hf⟩ := tree_some hb
  rw [Scheme.conceptsFlattened_eq] at hfl
  clear hb
  rw [List.flatMap_cons]
  simp only [List.nil_append]
  generalize s.concepts = tops at *
  induction hf generalizing fl with
  | nil => cases hfl; exact .refl _
  | @cons i y tops ys h3 h4 ih =>
    rw [flattenAll_cons] at hfl
    simp only [Option.bind_eq_some_iff, Option.map_eq_some_iff] at hfl
    obtain ⟨f1, h5, f2, h6, rfl⟩ := hfl
    have h7 := ih f2 h6
    rw [List.flatMap_cons, List.map_append, List.map_append]
    refine List.Perm.append ?_ h7
    obtain ⟨st, a, c, hent, h8⟩ := h3
    have hac : (a, c) = (topEntry x h i).2 := congrArg (·.2) hent
    have hm : ∃ m', m = m' + 1 := by
      cases m with
      | zero => cases h5
      | succ m => exact ⟨m, rfl⟩
    obtain ⟨m', rfl⟩ := hm
    rw [flattenBy_succ] at h5
    rcases h8 with ⟨h9, rfl⟩ | ⟨h9, l, h10, rfl⟩
    · have : f1 = [] := by
        have : conceptChildren h i = [] := by simp [conceptChildren, h9]
        rw [this] at h5
        cases h5; rfl
      subst this
      simp [listEntries, itemEntries, ← hac]
    · obtain ⟨l', rfl⟩ := treeInner_sub h10
      have h11 := treeInner_entries x h n m' _ _ f1 h10 h5
      simp only [listEntries, itemEntries, List.append_nil, List.singleton_append, List.map_cons, List.map_append,
        List.map_nil, ← hac]
      exact (h11.cons _).trans (List.perm_append_singleton _ _).symm

theorem directCaptions_flatten {x : DocContext} {h : SkosStore} {n : Nat} {L : List (ConceptRelation × Nat)} {ys : List (List DocItem)}
    (hf : List.Forall₂ (fun e y => ∃ st a c, (st, a, c) = entryOf x h e ∧
        (((h.concept e.2).concepts = [] ∧ y = [DocItem.item st [.jump a c]]) ∨
          ((h.concept e.2).concepts ≠ [] ∧ ∃ l, writeConceptTreeInner x h n (h.concept e.2).concepts = some l ∧
            y = [DocItem.item st [.jump a c], l]))) L ys) :
    directCaptions ys.flatten = L.map (fun e => x.conceptLabel (h.concept e.2)) ∧
    ∀ s, .sub s ∈ ys.flatten → ∃ e ∈ L, writeConceptTreeInner x h n (h.concept e.2).concepts = some (.sub s) := by
  induction hf with
  | nil => exact ⟨rfl, by simp⟩
  | @cons e y L ys h1 h2 ih =>
    obtain ⟨st, a, c, hent, h3⟩ := h1
    have hc : c = x.conceptLabel (h.concept e.2) := congrArg (·.2.2) hent
    rw [List.flatten_cons]
    rcases h3 with ⟨h4, rfl⟩ | ⟨h4, l, h5, rfl⟩
    · refine ⟨?_, fun s hs => ?_⟩
      · rw [List.map_cons, ← ih.1, ← hc]; rfl
      · simp only [List.singleton_append, List.mem_cons, reduceCtorEq, false_or] at hs
        obtain ⟨e', h6, h7⟩ := ih.2 s hs
        exact ⟨e', .tail _ h6, h7⟩
    · obtain ⟨l', rfl⟩ := treeInner_sub h5
      refine ⟨?_, fun s hs => ?_⟩
      · rw [List.map_cons, ← ih.1, ← hc]; rfl
      · simp only [List.cons_append, List.nil_append, List.mem_cons, reduceCtorEq, false_or, DocItem.sub.injEq] at hs
        rcases hs with rfl | hs
        · exact ⟨e, .head _, h5⟩
        · obtain ⟨e', h6, h7⟩ := ih.2 s hs
          exact ⟨e', .tail _ h6, h7⟩

/-- C133, the order: in every list below a top concept the entries are in the order of their labels. -/
theorem C133_sorted (x : DocContext) (h : SkosStore) (n : Nat) (tops : List Nat) (bs : List DocBlock)
    (hb : writeConceptTree x h n tops = some bs) (l l' : List DocItem) (hl : .list l ∈ bs) (hl' : Level l l') :
    (directCaptions l').Pairwise fun a b => cmpStr a b ≠ .gt := by
  have inner : ∀ (l l' : List DocItem), Level l l' → ∀ (n : Nat) (es : List (ConceptRelation × Nat)),
      writeConceptTreeInner x h n es = some (.sub l) → (directCaptions l').Pairwise fun a b => cmpStr a b ≠ .gt := by
    intro l l' hl
    induction hl with
    | self =>
      intro n es hs
      cases n with
      | zero => cases hs
      | succ n =>
        obtain ⟨L, ys, he, -, hsort, hf⟩ := treeInner_some hs
        cases he
        rw [(directCaptions_flatten hf).1, List.pairwise_map]
        exact hsort
    | under hsub _ ih =>
      intro n es hs
      cases n with
      | zero => cases hs
      | succ n =>
        obtain ⟨L, ys, he, -, -, hf⟩ := treeInner_some hs
        cases he
        obtain ⟨e, -, h1⟩ := (directCaptions_flatten hf).2 _ hsub
        exact ih _ _ h1
  obtain ⟨ys, rfl, hf⟩ := tree_some hb
  simp only [List.mem_cons, reduceCtorEq, false_or] at hl
  have : ∃ i, ∃ st a c, (st, a, c) = topEntry x h i ∧
        (((h.concept i).concepts = [] ∧ DocBlock.list l = DocBlock.list [DocItem.item st [.jump a c]]) ∨
          ((h.concept i).concepts ≠ [] ∧ ∃ l', writeConceptTreeInner x h n (h.concept i).concepts = some l' ∧
            DocBlock.list l = DocBlock.list [DocItem.item st [.jump a c], l'])) := by
    clear hb hl'
    induction hf with
    | nil => cases hl
    | @cons i y tops ys h1 _ ih =>
      rcases List.mem_cons.1 hl with rfl | hl
      · exact ⟨i, h1⟩
      · exact ih hl
  obtain ⟨i, st, a, c, -, h1⟩ := this
  rcases h1 with ⟨-, he⟩ | ⟨-, s, hs, he⟩
  · cases he
    cases hl' with
    | self => simp [directCaptions]
    | under h2 => simp at h2
  · cases he
    obtain ⟨l2, rfl⟩ := treeInner_sub hs
    cases hl' with
    | self => simp [directCaptions]
    | under h2 h3 =>
      simp only [List.mem_cons, reduceCtorEq, DocItem.sub.injEq, List.not_mem_nil, or_false, false_or] at h2
      subst h2
      exact inner _ _ h3 _ _ hs

theorem treeInner_of_flatten {x : DocContext} {h : SkosStore} (n i : Nat) (hn : (flattenBy (conceptChildren h) n i).isSome) :
    (writeConceptTreeInner x h n (h.concept i).concepts).isSome := by
  induction n generalizing i with
  | zero => cases hn
  | succ n ih =>
    rw [flattenBy_succ, flattenAll_isSome] at hn
    unfold writeConceptTreeInner
    rw [Option.isSome_map, mapM_isSome]
    intro e he
    rw [List.mem_filter, List.mem_mergeSort] at he
    simp only
    split
    · rfl
    · rw [Option.isSome_map]
      apply ih
      apply hn
      simp only [conceptChildren, List.mem_map, List.mem_filter]
      exact ⟨e, he, rfl⟩

theorem flatten_of_treeInner {x : DocContext} {h : SkosStore} (n i : Nat)
    (hn : (writeConceptTreeInner x h n (h.concept i).concepts).isSome) : (flattenBy (conceptChildren h) (n + 1) i).isSome := by
  induction n generalizing i with
  | zero => cases hn
  | succ n ih =>
    rw [flattenBy_succ, flattenAll_isSome]
    unfold writeConceptTreeInner at hn
    rw [Option.isSome_map, mapM_isSome] at hn
    intro j hj
    simp only [conceptChildren, List.mem_map, List.mem_filter] at hj
    obtain ⟨e, he, rfl⟩ := hj
    have h1 := hn e (by rw [List.mem_filter, List.mem_mergeSort]; exact he)
    simp only at h1
    split at h1
    · rename_i h2
      have : conceptChildren h e.2 = [] := by
        have : (h.concept e.2).concepts = [] := by simpa using h2
        simp [conceptChildren, this]
      rw [flattenBy_succ, this]
      rfl
    · rw [Option.isSome_map] at h1
      exact ih _ h1

/-- C133, exactly when: the hierarchy is finished if and only if no chain of narrower concepts from a top concept goes on
for ever. -/
theorem C133_ends_iff (x : DocContext) (h : SkosStore) (tops : List Nat) :
    (∃ n, (writeConceptTree x h n tops).isSome) ↔ ∀ i ∈ tops, Acc (fun b a => NarrowerThan h a b) i := by
  have e1 : (fun b a => b ∈ conceptChildren h a) = fun b a => NarrowerThan h a b :=
    funext fun b => funext fun a => congrFun (congrFun mem_conceptChildren a) b
  rw [← e1]
  constructor
  · rintro ⟨n, hn⟩ i hi
    unfold writeConceptTree at hn
    rw [Option.isSome_map, mapM_isSome] at hn
    have h1 := hn i hi
    simp only at h1
    split at h1
    · rename_i h2
      refine flattenBy_ends.1 ⟨1, ?_⟩
      have : conceptChildren h i = [] := by
        have : (h.concept i).concepts = [] := by simpa using h2
        simp [conceptChildren, this]
      rw [flattenBy_succ, this]
      rfl
    · rw [Option.isSome_map] at h1
      exact flattenBy_ends.1 ⟨_, flatten_of_treeInner n i h1⟩
  · intro hacc
    obtain ⟨n, hn⟩ := flattenAll_ends (ch := conceptChildren h) (l := tops) fun i hi => flattenBy_ends.2 (hacc i hi)
    rw [flattenAll_isSome] at hn
    refine ⟨n, ?_⟩
    unfold writeConceptTree
    rw [Option.isSome_map, mapM_isSome]
    intro i hi
    simp only
    split
    · rfl
    · rw [Option.isSome_map]
      exact treeInner_of_flatten n i (hn i hi)

end Rdftk
