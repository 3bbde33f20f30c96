import Verif.Lemmas.DocumentBlocks
import Verif.Props.DocumentTree

/-! Properties C132, C135 and C136: the links and the outline of a document about a thesaurus
(`rdftk_skos/src/document.rs`). -/

namespace Rdftk

open Spec

/-- The parts of a document. -/
structure DocParts (x : DocContext) (eq : Nat → Nat → Bool) (n : Nat) (t t' : Thesaurus) (bs : List DocBlock) where
  /-- the collections in the order of their labels -/
  ks : List Nat
  /-- the concepts in the order of their labels -/
  cs : List Nat
  ks_iff : ∀ k, k ∈ ks ↔ CollectionOf t.store t.scheme k
  cs_of : ∀ i ∈ cs, ConceptOf t.store t.scheme i
  cs_all : ∀ i, ConceptOf t.store t.scheme i → ∃ j ∈ cs, i = j ∨ eq i j = true
  scheme : t'.scheme = t.scheme
  collections : t'.store.collections = t.store.collections
  concept : ∀ i, (t'.store.concept i).uri = (t.store.concept i).uri ∧ (t'.store.concept i).labels = (t.store.concept i).labels ∧
    (t'.store.concept i).properties = (t.store.concept i).properties
  relations : ∀ i, ∀ e ∈ (t'.store.concept i).concepts, e ∈ (t.store.concept i).concepts ∨ e.2 ∈ cs
  kept : ∀ i, ∀ e ∈ (t.store.concept i).concepts, e ∈ (t'.store.concept i).concepts
  tree : List DocBlock
  tree_eq : t.scheme.concepts ≠ [] → writeConceptTree { x with collections := ks } t.store n t.scheme.concepts = some tree
  blocks : bs = writeEntityHeader { x with collections := ks } t.scheme.uri t.scheme.labels t.scheme.properties (str! "Scheme") (str! "scheme") 1 ++
    ((if t.scheme.concepts = [] then [] else
      jumpLine t.scheme :: tree ++ .heading 2 (str! "Concepts") (some (str! "Concepts")) ::
        cs.flatMap fun i => writeConcept { x with collections := ks } t'.store (t'.store.concept i)) ++
    ((if t.scheme.collections = [] then [] else .heading 2 (str! "Collections") none ::
      ks.flatMap fun i => writeSkosCollection { x with collections := ks } t'.store (t'.store.collection i)) ++
    [.heading 2 (str! "Appendix - RDF") (some (str! "Appendix-RDF"))]))
  empty : t.scheme.concepts = [] → cs = []
  none : t.scheme.collections = [] → ks = []

theorem documentParts {x : DocContext} {eq : Nat → Nat → Bool} {n : Nat} {t t' : Thesaurus} {bs : List DocBlock}
    (hd : documentBlocks x eq n t = some (.ok (bs, t'))) : Nonempty (DocParts x eq n t t' bs) := by
  unfold documentBlocks at hd
  simp only [Option.bind_eq_bind, Option.bind_eq_some_iff] at hd
  obtain ⟨fk, hk, hd⟩ := hd
  have hks : ∀ k, k ∈ sortCollections x t.store fk ↔ CollectionOf t.store t.scheme k := fun k => by
    unfold sortCollections
    rw [List.mem_mergeSort]
    exact mem_collectionsFlattened hk k
  have hnone : t.scheme.collections = [] → sortCollections x t.store fk = [] := by
    intro he
    rw [List.eq_nil_iff_forall_not_mem]
    intro k hk'
    obtain ⟨a, ha, _⟩ := (hks k).1 hk'
    rw [he] at ha
    cases ha
  split at hd
  · rename_i he
    have he' : t.scheme.concepts = [] := by simpa using he
    simp only [Option.some.injEq, Outcome.ok.injEq, Prod.mk.injEq] at hd
    obtain ⟨rfl, rfl⟩ := hd
    refine ⟨⟨sortCollections x t.store fk, [], hks, by simp, ?_, rfl, rfl, fun i => ⟨rfl, rfl, rfl⟩, fun i e h => .inl h,
      fun i e h => h, [], fun h => absurd he' h, ?_, fun _ => rfl, hnone⟩⟩
    · rintro i ⟨a, ha, _⟩
      rw [he'] at ha
      cases ha
    · rw [if_pos he']
      simp only [List.isEmpty_iff, List.nil_append]
  · rename_i he
    have he' : t.scheme.concepts ≠ [] := by simpa using he
    simp only [Option.bind_eq_some_iff] at hd
    obtain ⟨tree, htree, l, hl, hd⟩ := hd
    rw [addInverses_eq] at hd
    split at hd
    · rename_i heq
      split at heq
      · simp at hd
      · cases heq
    · rename_i t'' heq
      split at heq
      · cases heq
      · simp only [Outcome.ok.injEq] at heq
        simp only [Option.some.injEq, Outcome.ok.injEq, Prod.mk.injEq] at hd
        obtain ⟨rfl, rfl⟩ := hd
        generalize hcs : documentConcepts x.sty x.lang eq t.store l = cs at *
        have hout : ∀ i, ¬i < t.store.concepts.length → t''.store.concept i = t.store.concept i := by
          intro i hi
          rw [← heq, concept_out (by rw [Thesaurus.length_relate]; omega), concept_out (by omega)]
        refine ⟨⟨sortCollections x t.store fk, cs, hks, ?_, ?_, ?_, ?_, ?_, ?_, ?_, tree, fun _ => htree, ?_, fun h => absurd h he', hnone⟩⟩
        · exact fun i hi => (mem_conceptsFlattened hl i).1 (mem_documentConcepts (hcs ▸ hi))
        · intro i hi
          rw [← hcs]
          exact documentConcepts_covers ((mem_conceptsFlattened hl i).2 hi)
        · rw [← heq]; rfl
        · rw [← heq]; rfl
        · intro i
          by_cases hi : i < t.store.concepts.length
          · rw [← heq, Thesaurus.concept_relate _ _ hi]
            exact ⟨rfl, rfl, rfl⟩
          · rw [hout i hi]
            exact ⟨rfl, rfl, rfl⟩
        · intro i e he
          by_cases hi : i < t.store.concepts.length
          · rw [← heq, Thesaurus.concept_relate _ _ hi, List.mem_append] at he
            rcases he with he | he
            · exact .inl he
            · simp only [inversesTo, List.mem_flatMap, List.mem_map] at he
              obtain ⟨j, hj, e', _, rfl⟩ := he
              exact .inr hj
          · rw [hout i hi] at he
            exact .inl he
        · intro i e he
          by_cases hi : i < t.store.concepts.length
          · rw [← heq, Thesaurus.concept_relate _ _ hi]
            exact List.mem_append_left _ he
          · rw [hout i hi]
            exact he
        · rw [if_neg he']
          simp only [List.isEmpty_iff, List.append_assoc, List.cons_append]

/-! ### C135 -/

theorem tree_levels {x : DocContext} {h : SkosStore} {n : Nat} {tops : List Nat} {bs : List DocBlock}
    (hb : writeConceptTree x h n tops = some bs) : levels bs = [2] ∧ anchors bs = [str! "ConceptsHierarchy"] := by
  obtain ⟨ys, rfl, hf⟩ := tree_some hb
  have : levels ys = [] ∧ anchors ys = [] := by
    clear hb
    induction hf with
    | nil => exact ⟨rfl, rfl⟩
    | cons h1 _ ih =>
      obtain ⟨st, a, c, -, h2⟩ := h1
      rcases h2 with ⟨-, rfl⟩ | ⟨-, l, -, rfl⟩
      · exact ih
      · exact ih
  constructor
  · show 2 :: levels ys = _
    rw [this.1]
  · show _ :: anchors ys = _
    rw [this.2]

/-- C135: a document begins with its only heading of the first level, has headings of four levels at most, and no heading
is more than one level deeper than the one before. -/
theorem C135_outline (x : DocContext) (eq : Nat → Nat → Bool) (n : Nat) (t t' : Thesaurus) (bs : List DocBlock)
    (hd : documentBlocks x eq n t = some (.ok (bs, t'))) :
    ∃ r, levels bs = 1 :: r ∧ (∀ l ∈ r, 2 ≤ l ∧ l ≤ 4) ∧ Steps 1 r := by
  obtain ⟨d⟩ := documentParts hd
  obtain ⟨r, h1, h2⟩ := header_levels { x with collections := d.ks } t.scheme.uri t.scheme.labels t.scheme.properties
    (str! "Scheme") (str! "scheme") 1
  have hb := d.blocks
  rw [hb, levels_append, h1]
  clear hb
  have hcon := concept_levels { x with collections := d.ks } t'.store
  have hcol := collection_levels { x with collections := d.ks } t'.store
  refine ⟨_, List.cons_append, ?_, ?_⟩
  · intro l hl
    rw [List.mem_append, levels_append, levels_append, List.mem_append, List.mem_append] at hl
    rcases hl with hl | hl | hl | hl
    · rw [h2 l hl]; decide
    · split at hl
      · cases hl
      · rename_i hne
        have h3 := (tree_levels (d.tree_eq hne)).1
        rw [levels_append, List.mem_append] at hl
        rcases hl with hl | hl
        · have : levels (jumpLine t.scheme :: d.tree) = levels d.tree := rfl
          rw [this, h3, List.mem_singleton] at hl
          omega
        · have h4 : ∀ bs, levels (.heading 2 (str! "Concepts") (some (str! "Concepts")) :: bs) = 2 :: levels bs := fun _ => rfl
          rw [h4, levels_flatMap, List.mem_cons, List.mem_flatMap] at hl
          rcases hl with rfl | ⟨i, _, hl⟩
          · decide
          · obtain ⟨r, h5, h6⟩ := hcon (t'.store.concept i)
            rw [h5, List.mem_cons] at hl
            rcases hl with rfl | hl
            · decide
            · rw [h6 l hl]; decide
    · split at hl
      · cases hl
      · have h4 : ∀ bs, levels (.heading 2 (str! "Collections") none :: bs) = 2 :: levels bs := fun _ => rfl
        rw [h4, levels_flatMap, List.mem_cons, List.mem_flatMap] at hl
        rcases hl with rfl | ⟨i, _, hl⟩
        · decide
        · obtain ⟨r, h5, h6⟩ := hcol (t'.store.collection i)
          rw [h5, List.mem_cons] at hl
          rcases hl with rfl | hl
          · decide
          · rw [h6 l hl]; decide
    · rw [show levels [DocBlock.heading 2 (str! "Appendix - RDF") (some (str! "Appendix-RDF"))] = [2] from rfl,
        List.mem_singleton] at hl
      omega
  · have hrest : Steps 1 (levels ((if t.scheme.concepts = [] then [] else
        jumpLine t.scheme :: d.tree ++ .heading 2 (str! "Concepts") (some (str! "Concepts")) ::
          d.cs.flatMap fun i => writeConcept { x with collections := d.ks } t'.store (t'.store.concept i)) ++
        ((if t.scheme.collections = [] then [] else .heading 2 (str! "Collections") none ::
          d.ks.flatMap fun i => writeSkosCollection { x with collections := d.ks } t'.store (t'.store.collection i)) ++
        [.heading 2 (str! "Appendix - RDF") (some (str! "Appendix-RDF"))]))) := by
      have hap : levels [DocBlock.heading 2 (str! "Appendix - RDF") (some (str! "Appendix-RDF"))] = [2] := rfl
      have hcp : ∀ p, 1 ≤ p → Steps p (levels ((if t.scheme.collections = [] then [] else .heading 2 (str! "Collections") none ::
          d.ks.flatMap fun i => writeSkosCollection { x with collections := d.ks } t'.store (t'.store.collection i)) ++
          [.heading 2 (str! "Appendix - RDF") (some (str! "Appendix-RDF"))])) := by
        intro p hp
        rw [levels_append, hap]
        split
        · exact ⟨by omega, trivial⟩
        · have h4 : ∀ bs, levels (.heading 2 (str! "Collections") none :: bs) = 2 :: levels bs := fun _ => rfl
          rw [h4, levels_flatMap]
          exact ⟨by omega, steps_sections _ _ (fun i => hcol _) [2] ⟨by omega, trivial⟩ 2 (by omega)⟩
      rw [levels_append]
      split
      · exact hcp 1 (by omega)
      · rename_i hne
        have h3 := (tree_levels (d.tree_eq hne)).1
        rw [levels_append]
        have h5 : levels (jumpLine t.scheme :: d.tree) = [2] := h3
        have h4 : ∀ bs, levels (.heading 2 (str! "Concepts") (some (str! "Concepts")) :: bs) = 2 :: levels bs := fun _ => rfl
        rw [h5, h4, levels_flatMap]
        exact ⟨by omega, by omega, steps_sections _ _ (fun i => hcon _) _ (hcp 2 (by omega)) 2 (by omega)⟩
    clear h1
    show Steps 1 (r ++ _)
    generalize levels _ = ls at hrest ⊢
    induction r with
    | nil => exact hrest
    | cons a r ih =>
      have ha := h2 a (.head _)
      have ha : a = 2 := ha
      subst ha
      refine ⟨by omega, ?_⟩
      have : ∀ r : List Nat, (∀ n ∈ r, n = 2) → Steps 2 (r ++ ls) := by
        intro r
        induction r with
        | nil =>
          intro _
          cases ls with
          | nil => trivial
          | cons b ls => exact ⟨by have := hrest.1; omega, hrest.2⟩
        | cons b r ih =>
          intro hb
          have := hb b (.head _)
          subst this
          exact ⟨by omega, ih fun n hn => hb n (.tail _ hn)⟩
      exact this r fun n hn => h2 n (.tail _ hn)

/-! ### C132 -/

theorem anchors_parts (x : DocContext) (eq : Nat → Nat → Bool) (n : Nat) (t t' : Thesaurus) (bs : List DocBlock)
    (d : DocParts x eq n t t' bs) :
    anchors bs = x.safe (str! "scheme") (preferredLabelFor x.sty t.scheme.uri t.scheme.labels x.lang) ::
      ((if t.scheme.concepts = [] then [] else str! "ConceptsHierarchy" :: str! "Concepts" ::
        d.cs.flatMap fun i => conceptAnchor x t.store i ::
          if ∃ k ∈ d.ks, ∃ m ∈ (t.store.collection k).members, m.uri t.store = (t.store.concept i).uri then [str! "Collections"] else []) ++
      ((d.ks.flatMap fun i => collectionAnchor x t.store i ::
        if ∃ k ∈ d.ks, ∃ m ∈ (t.store.collection k).members, m.uri t.store = (t.store.collection i).uri then [str! "Collections"] else []) ++
      [str! "Appendix-RDF"])) := by
  have hcoll : ∀ i, t'.store.collection i = t.store.collection i := fun i => by
    unfold SkosStore.collection; rw [d.collections]
  have huri : ∀ m : Member, m.uri t'.store = m.uri t.store := by
    intro m
    cases m with
    | concept i => exact (d.concept i).1
    | collection i => simp only [Member.uri, hcoll]
  have hany : ∀ u : Iri, (d.ks.any fun k => (t'.store.collection k).hasMember t'.store u) = true ↔
      ∃ k ∈ d.ks, ∃ m ∈ (t.store.collection k).members, m.uri t.store = u := by
    intro u
    simp only [List.any_eq_true, SkosCollection.hasMember, hcoll, huri, decide_eq_true_eq]
  have h1 : ∀ i, conceptAnchor { x with collections := d.ks } t'.store i = conceptAnchor x t.store i := by
    intro i
    simp only [conceptAnchor, (d.concept i).1, (d.concept i).2.1]
  have h2 : ∀ i, collectionAnchor { x with collections := d.ks } t'.store i = collectionAnchor x t.store i := by
    intro i
    simp only [collectionAnchor, hcoll]
  refine (congrArg anchors d.blocks).trans ?_
  rw [anchors_append, header_anchors, List.singleton_append]
  congr 1
  rw [anchors_append]
  congr 1
  · split
    · rfl
    · rename_i hne
      rw [anchors_append]
      have h3 : anchors (jumpLine t.scheme :: d.tree) = [str! "ConceptsHierarchy"] := (tree_levels (d.tree_eq hne)).2
      have h4 : ∀ bs, anchors (.heading 2 (str! "Concepts") (some (str! "Concepts")) :: bs) = str! "Concepts" :: anchors bs := fun _ => rfl
      rw [h3, h4, anchors_flatMap]
      simp only [concept_anchors, h1, hany, (d.concept _).1]
      rfl
  · rw [anchors_append]
    congr 1
    split
    · rename_i he
      rw [d.none he]; rfl
    · have h4 : ∀ bs, anchors (.heading 2 (str! "Collections") none :: bs) = anchors bs := fun _ => rfl
      rw [h4, anchors_flatMap]
      simp only [collection_anchors]
      simp only [h2, hany]
      simp only [hcoll]

theorem jump_entries {x : DocContext} {h : SkosStore} : ∀ (n : Nat) (es : List (ConceptRelation × Nat)) (l : List DocItem),
    writeConceptTreeInner x h n es = some (.sub l) → listJumps l = (listEntries l).map (·.2.1) := by
  intro n
  induction n with
  | zero => intro es l h; cases h
  | succ n ih =>
    intro es l hs
    obtain ⟨L, ys, he, -, -, hf⟩ := treeInner_some hs
    cases he
    clear hs
    induction hf with
    | nil => rfl
    | cons h1 _ ih2 =>
      obtain ⟨st, a, c, -, h2⟩ := h1
      rw [List.flatten_cons, listJumps_append, listEntries_append, List.map_append, ih2]
      congr 1
      rcases h2 with ⟨-, rfl⟩ | ⟨-, l, h3, rfl⟩
      · rfl
      · obtain ⟨l', rfl⟩ := treeInner_sub h3
        simp only [listJumps, itemJumps, listEntries, itemEntries, ih _ _ h3, List.append_nil]
        rfl

theorem listEntries_chain : ∀ (l : List DocItem) (e : TreeEntry), (∃ cs, Chain l (cs ++ [e])) → e ∈ listEntries l := by
  have : ∀ (l : List DocItem) (cs : List TreeEntry), Chain l cs → ∀ e ∈ cs, e ∈ listEntries l := by
    intro l cs h
    induction h with
    | here => intro e he; simp_all [listEntries, itemEntries]
    | under _ ih =>
      intro e he
      rcases List.mem_cons.1 he with rfl | he
      · simp [listEntries, itemEntries]
      · have := ih e he
        simp [listEntries, itemEntries, this]
    | later _ ih =>
      intro e he
      rw [listEntries, List.mem_append]
      exact .inr (ih e he)
  rintro l e ⟨cs, h⟩
  exact this l _ h e (by simp)

theorem tree_jumps {x : DocContext} {t : Thesaurus} {n : Nat} {bs : List DocBlock}
    (hb : writeConceptTree x t.store n t.scheme.concepts = some bs) (a : Str) :
    a ∈ jumps bs ↔ ∃ i, ConceptOf t.store t.scheme i ∧ a = conceptAnchor x t.store i := by
  have hends := (C133_ends_iff x t.store t.scheme.concepts).1 ⟨n, by rw [hb]; rfl⟩
  have e1 : (fun b a => b ∈ conceptChildren t.store a) = fun b a => NarrowerThan t.store a b :=
    funext fun b => funext fun a => congrFun (congrFun mem_conceptChildren a) b
  rw [← e1] at hends
  obtain ⟨m, hm⟩ := flattenAll_ends (ch := conceptChildren t.store) (l := t.scheme.concepts) fun i hi => flattenBy_ends.2 (hends i hi)
  obtain ⟨fl, hfl⟩ := Option.isSome_iff_exists.1 hm
  rw [← Scheme.conceptsFlattened_eq] at hfl
  have hp := C133_entries x t.store n m t.scheme bs fl hb hfl
  have hj : jumps bs = (bs.flatMap fun
      | .list l => listEntries l
      | _ => []).map (·.2.1) := by
    obtain ⟨ys, rfl, hf⟩ := tree_some hb
    clear hb hp
    show jumps ys = _
    rw [List.flatMap_cons]
    simp only [List.nil_append]
    generalize t.scheme.concepts = tops at hf
    induction hf with
    | nil => rfl
    | cons h1 _ ih =>
      obtain ⟨st, a, c, -, h2⟩ := h1
      rw [List.flatMap_cons, List.map_append, ← ih]
      show _ ++ jumps _ = _
      congr 1
      rcases h2 with ⟨-, rfl⟩ | ⟨-, l, h3, rfl⟩
      · rfl
      · obtain ⟨l', rfl⟩ := treeInner_sub h3
        simp only [blockJumps, listJumps, itemJumps, listEntries, itemEntries, jump_entries _ _ _ h3, List.append_nil]
        rfl
  have hp' := hp.map (·.1)
  rw [List.map_map, List.map_map] at hp'
  rw [hj]
  have : (fun e : TreeEntry => e.2.1) = (fun e : Str × Str => e.1) ∘ fun e : TreeEntry => e.2 := rfl
  rw [this]
  refine hp'.mem_iff.trans ?_
  rw [List.mem_map]
  simp only [mem_conceptsFlattened hfl]
  constructor
  · rintro ⟨i, hi, rfl⟩; exact ⟨i, hi, rfl⟩
  · rintro ⟨i, hi, rfl⟩; exact ⟨i, hi, rfl⟩

/-- What the document needs of the names it makes up: different titles give different names, and none of the names used
for its parts.  The names are made by `Anchor::safe_from` of the crate `somedoc`, which is not part of
the code under study. -/
structure SafeNames (safe : Str → Str → Str) : Prop where
  inj : ∀ a b c d, safe a b = safe c d → a = c ∧ b = d
  parts : ∀ a b, safe a b ≠ str! "ConceptsHierarchy" ∧ safe a b ≠ str! "Concepts" ∧ safe a b ≠ str! "Collections" ∧
    safe a b ≠ str! "Appendix-RDF"

/-- What the document needs of the comparison of concepts: equal concepts have the same name and title, and are related
to concepts of the same titles. -/
def Alike (x : DocContext) (h : SkosStore) (eq : Nat → Nat → Bool) : Prop :=
  ∀ i j, eq i j = true → (h.concept i).uri = (h.concept j).uri ∧ x.conceptLabel (h.concept i) = x.conceptLabel (h.concept j) ∧
    ∀ e ∈ (h.concept i).concepts, ∃ e' ∈ (h.concept j).concepts, x.conceptLabel (h.concept e'.2) = x.conceptLabel (h.concept e.2)

/-- C132, the headings to which links can lead, in order: the scheme, the two parts about concepts, each concept in turn,
each collection in turn and the appendix.  The name of the part about collections is given to each list of collections. -/
theorem C132_anchors (x : DocContext) (eq : Nat → Nat → Bool) (n : Nat) (t t' : Thesaurus) (bs : List DocBlock)
    (hd : documentBlocks x eq n t = some (.ok (bs, t'))) :
    ∃ cs ks : List Nat, (∀ k, k ∈ ks ↔ CollectionOf t.store t.scheme k) ∧ (∀ i ∈ cs, ConceptOf t.store t.scheme i) ∧
      (∀ i, ConceptOf t.store t.scheme i → ∃ j ∈ cs, i = j ∨ eq i j = true) ∧
      anchors bs = x.safe (str! "scheme") (preferredLabelFor x.sty t.scheme.uri t.scheme.labels x.lang) ::
        ((if t.scheme.concepts = [] then [] else str! "ConceptsHierarchy" :: str! "Concepts" ::
          cs.flatMap fun i => x.safe (str! "concept") (x.conceptLabel (t.store.concept i)) ::
            if ∃ k ∈ ks, ∃ m ∈ (t.store.collection k).members, m.uri t.store = (t.store.concept i).uri then [str! "Collections"] else []) ++
        ((ks.flatMap fun i => x.safe (str! "collection") (x.collectionLabel (t.store.collection i)) ::
          if ∃ k ∈ ks, ∃ m ∈ (t.store.collection k).members, m.uri t.store = (t.store.collection i).uri then [str! "Collections"] else []) ++
        [str! "Appendix-RDF"])) := by
  obtain ⟨d⟩ := documentParts hd
  exact ⟨d.cs, d.ks, d.ks_iff, d.cs_of, d.cs_all, anchors_parts x eq n t t' bs d⟩

theorem jumps_parts (x : DocContext) (eq : Nat → Nat → Bool) (n : Nat) (t t' : Thesaurus) (bs : List DocBlock)
    (d : DocParts x eq n t t' bs) (a : Str) :
    a ∈ jumps bs ↔
      (t.scheme.concepts ≠ [] ∧ (a = str! "ConceptsHierarchy" ∨ a = str! "Concepts" ∨
        (t.scheme.collections ≠ [] ∧ a = str! "Collections") ∨ a = str! "Appendix-RDF" ∨
        (∃ i, ConceptOf t.store t.scheme i ∧ a = conceptAnchor x t.store i) ∨
        ∃ i ∈ d.cs, (∃ e ∈ (t'.store.concept i).concepts, a = conceptAnchor x t.store e.2) ∨
          ∃ k ∈ d.ks, (∃ m ∈ (t.store.collection k).members, m.uri t.store = (t.store.concept i).uri) ∧ a = collectionAnchor x t.store k)) ∨
      ∃ i ∈ d.ks, (∃ m ∈ (t.store.collection i).members, a = memberAnchor x t.store m) ∨
        ∃ k ∈ d.ks, (∃ m ∈ (t.store.collection k).members, m.uri t.store = (t.store.collection i).uri) ∧ a = collectionAnchor x t.store k := by
  have hcoll : ∀ i, t'.store.collection i = t.store.collection i := fun i => by
    unfold SkosStore.collection; rw [d.collections]
  have huri : ∀ m : Member, m.uri t'.store = m.uri t.store := by
    intro m
    cases m with
    | concept i => exact (d.concept i).1
    | collection i => simp only [Member.uri, hcoll]
  have h1 : ∀ i, conceptAnchor { x with collections := d.ks } t'.store i = conceptAnchor x t.store i := by
    intro i
    simp only [conceptAnchor, (d.concept i).1, (d.concept i).2.1]
  have h2 : ∀ i, collectionAnchor { x with collections := d.ks } t'.store i = collectionAnchor x t.store i := by
    intro i
    simp only [collectionAnchor, hcoll]
  have h3 : ∀ m, memberAnchor { x with collections := d.ks } t'.store m = memberAnchor x t.store m := by
    intro m
    cases m with
    | concept i => exact h1 i
    | collection i => exact h2 i
  have hmem : ∀ u : Iri, (a ∈ (d.ks.filter fun k => (t'.store.collection k).hasMember t'.store u).map
      (collectionAnchor { x with collections := d.ks } t'.store)) ↔
      ∃ k ∈ d.ks, (∃ m ∈ (t.store.collection k).members, m.uri t.store = u) ∧ a = collectionAnchor x t.store k := by
    intro u
    simp only [List.mem_map, List.mem_filter, SkosCollection.hasMember, hcoll, huri, h2, List.any_eq_true, decide_eq_true_eq, and_assoc]
    exact exists_congr fun k => and_congr_right fun _ => and_congr_right fun _ => eq_comm
  have hb : jumps bs = _ := congrArg jumps d.blocks
  rw [hb, jumps_append, header_jumps, List.nil_append, jumps_append, List.mem_append, jumps_append, List.mem_append]
  have hap : a ∉ jumps [DocBlock.heading 2 (str! "Appendix - RDF") (some (str! "Appendix-RDF"))] := by simp [jumps, blockJumps]
  refine or_congr ?_ ((or_iff_left hap).trans ?_)
  · split
    · rename_i he
      simp [he, jumps]
    · rename_i hne
      rw [jumps_append, List.mem_append]
      have h4 : ∀ bs, jumps (.heading 2 (str! "Concepts") (some (str! "Concepts")) :: bs) = jumps bs := fun _ => rfl
      have h5 : a ∈ jumps (jumpLine t.scheme :: d.tree) ↔ a ∈ blockJumps (jumpLine t.scheme) ∨ a ∈ jumps d.tree := by
        show a ∈ _ ++ jumps d.tree ↔ _
        rw [List.mem_append]
      have h6 : a ∈ blockJumps (jumpLine t.scheme) ↔ a = str! "ConceptsHierarchy" ∨ a = str! "Concepts" ∨
          (t.scheme.collections ≠ [] ∧ a = str! "Collections") ∨ a = str! "Appendix-RDF" := by
        unfold jumpLine
        by_cases hc : t.scheme.collections = []
        · simp [hc, blockJumps, spanJumps]
        · simp [hc, blockJumps, spanJumps]
      have h7 : a ∈ jumps d.tree ↔ ∃ i, ConceptOf t.store t.scheme i ∧ a = conceptAnchor x t.store i :=
        tree_jumps (d.tree_eq hne) a
      rw [h4, h5, h6, h7, jumps_flatMap, List.mem_flatMap]
      have h8 : ∀ i, a ∈ jumps (writeConcept { x with collections := d.ks } t'.store (t'.store.concept i)) ↔
          (∃ e ∈ (t'.store.concept i).concepts, a = conceptAnchor x t.store e.2) ∨
          ∃ k ∈ d.ks, (∃ m ∈ (t.store.collection k).members, m.uri t.store = (t.store.concept i).uri) ∧ a = collectionAnchor x t.store k := by
        intro i
        rw [concept_jumps, List.mem_append, hmem, (d.concept i).1]
        refine or_congr_left ?_
        simp only [List.mem_map, h1]
        exact exists_congr fun e => and_congr_right fun _ => eq_comm
      simp only [h8]
      simp only [hne, ne_eq, not_false_eq_true, true_and, or_assoc]
  · split
    · rename_i he
      simp [d.none he, jumps]
    · have h4 : ∀ bs, jumps (.heading 2 (str! "Collections") none :: bs) = jumps bs := fun _ => rfl
      rw [h4, jumps_flatMap, List.mem_flatMap]
      refine exists_congr fun i => and_congr_right fun _ => ?_
      rw [collection_jumps, List.mem_append, hmem, hcoll]
      refine or_congr_left ?_
      simp only [List.mem_map, h3]
      exact exists_congr fun e => and_congr_right fun _ => eq_comm

/-- C132, where links lead: every link leads to a heading of the document, if the names of headings are made well. -/
def C132_statement : Prop :=
  ∀ (x : DocContext) (eq : Nat → Nat → Bool) (n : Nat) (t t' : Thesaurus) (bs : List DocBlock),
    SafeNames x.safe → Alike x t.store eq → documentBlocks x eq n t = some (.ok (bs, t')) → ∀ a ∈ jumps bs, a ∈ anchors bs

/-- C132, exactly: every link leads to a heading when the related concepts and the concepts in collections are in the
scheme (or share their title with one that is), and, if the document links to its collections at all, something in it is
a member of a collection. -/
theorem C132_iff (x : DocContext) (eq : Nat → Nat → Bool) (n : Nat) (t t' : Thesaurus) (bs : List DocBlock)
    (hs : SafeNames x.safe) (ha : Alike x t.store eq) (hd : documentBlocks x eq n t = some (.ok (bs, t'))) :
    (∀ a ∈ jumps bs, a ∈ anchors bs) ↔
      (∀ i, ConceptOf t.store t.scheme i → ∀ e ∈ (t.store.concept i).concepts, ∃ j, ConceptOf t.store t.scheme j ∧
        x.conceptLabel (t.store.concept j) = x.conceptLabel (t.store.concept e.2)) ∧
      (∀ k, CollectionOf t.store t.scheme k → ∀ i, Member.concept i ∈ (t.store.collection k).members →
        ∃ j, ConceptOf t.store t.scheme j ∧ x.conceptLabel (t.store.concept j) = x.conceptLabel (t.store.concept i)) ∧
      (t.scheme.concepts ≠ [] → t.scheme.collections ≠ [] → ∃ k, CollectionOf t.store t.scheme k ∧
        ∃ m ∈ (t.store.collection k).members, (∃ i, ConceptOf t.store t.scheme i ∧ (t.store.concept i).uri = m.uri t.store) ∨
          ∃ j, CollectionOf t.store t.scheme j ∧ (t.store.collection j).uri = m.uri t.store) := by
  obtain ⟨d⟩ := documentParts hd
  have hj := jumps_parts x eq n t t' bs d
  have han := anchors_parts x eq n t t' bs d
  have hne : ∀ i, ConceptOf t.store t.scheme i → t.scheme.concepts ≠ [] := by
    rintro i ⟨a, h1, -⟩ h2
    rw [h2] at h1; cases h1
  have hcne : ∀ i ∈ d.cs, t.scheme.concepts ≠ [] := fun i hi => hne i (d.cs_of i hi)
  -- the places of concepts
  have hcon : ∀ i, conceptAnchor x t.store i ∈ anchors bs ↔
      ∃ j, ConceptOf t.store t.scheme j ∧ x.conceptLabel (t.store.concept j) = x.conceptLabel (t.store.concept i) := by
    intro i
    have e : ∀ i, conceptAnchor x t.store i = x.safe (str! "concept") (x.conceptLabel (t.store.concept i)) := fun i => rfl
    rw [han]
    constructor
    · intro h
      rw [List.mem_cons, List.mem_append, List.mem_append, List.mem_singleton] at h
      have hp := hs.parts (str! "concept") (x.conceptLabel (t.store.concept i))
      rcases h with h | h | h | h
      · exact absurd (hs.inj _ _ _ _ h).1 (by decide)
      · split at h
        · cases h
        · rw [List.mem_cons, List.mem_cons, List.mem_flatMap] at h
          rcases h with h | h | ⟨j, hj', h⟩
          · exact absurd h hp.1
          · exact absurd h hp.2.1
          · rw [List.mem_cons] at h
            rcases h with h | h
            · exact ⟨j, d.cs_of j hj', (hs.inj _ _ _ _ h).2.symm⟩
            · split at h
              · exact absurd (List.mem_singleton.1 h) hp.2.2.1
              · cases h
      · rw [List.mem_flatMap] at h
        obtain ⟨j, hj', h⟩ := h
        rw [List.mem_cons] at h
        rcases h with h | h
        · exact absurd (hs.inj _ _ _ _ h).1 (by decide)
        · split at h
          · exact absurd (List.mem_singleton.1 h) hp.2.2.1
          · cases h
      · exact absurd h hp.2.2.2
    · rintro ⟨j, h1, h2⟩
      obtain ⟨j', h3, h4⟩ := d.cs_all j h1
      have h5 : x.conceptLabel (t.store.concept j') = x.conceptLabel (t.store.concept i) := by
        rcases h4 with rfl | h4
        · exact h2
        · rw [← (ha _ _ h4).2.1, h2]
      refine List.mem_cons_of_mem _ (List.mem_append_left _ ?_)
      rw [if_neg (hne j h1)]
      refine List.mem_cons_of_mem _ (List.mem_cons_of_mem _ (List.mem_flatMap.2 ⟨j', h3, ?_⟩))
      rw [e, e, h5]
      exact List.mem_cons_self
  have hcol : ∀ k, CollectionOf t.store t.scheme k → collectionAnchor x t.store k ∈ anchors bs := by
    intro k hk
    rw [han]
    refine List.mem_cons_of_mem _ (List.mem_append_right _ (List.mem_append_left _ (List.mem_flatMap.2 ⟨k, (d.ks_iff k).2 hk, ?_⟩)))
    exact List.mem_cons_self
  have huri : ∀ u, (∃ i ∈ d.cs, (t.store.concept i).uri = u) ↔ ∃ i, ConceptOf t.store t.scheme i ∧ (t.store.concept i).uri = u := by
    intro u
    constructor
    · rintro ⟨i, h1, h2⟩
      exact ⟨i, d.cs_of i h1, h2⟩
    · rintro ⟨i, h1, h2⟩
      obtain ⟨j, h3, h4⟩ := d.cs_all i h1
      refine ⟨j, h3, ?_⟩
      rcases h4 with rfl | h4
      · exact h2
      · rw [← (ha _ _ h4).1, h2]
  have hcs : str! "Collections" ∈ anchors bs ↔ ∃ k, CollectionOf t.store t.scheme k ∧
        ∃ m ∈ (t.store.collection k).members, (∃ i, ConceptOf t.store t.scheme i ∧ (t.store.concept i).uri = m.uri t.store) ∨
          ∃ j, CollectionOf t.store t.scheme j ∧ (t.store.collection j).uri = m.uri t.store := by
    rw [han]
    constructor
    · intro h
      rw [List.mem_cons, List.mem_append, List.mem_append, List.mem_singleton] at h
      rcases h with h | h | h | h
      · exact absurd h.symm (hs.parts _ _).2.2.1
      · split at h
        · cases h
        · rw [List.mem_cons, List.mem_cons, List.mem_flatMap] at h
          rcases h with h | h | ⟨j, hj', h⟩
          · exact absurd h (by decide)
          · exact absurd h (by decide)
          · rw [List.mem_cons] at h
            rcases h with h | h
            · exact absurd h.symm (hs.parts _ _).2.2.1
            · split at h
              · rename_i h1
                obtain ⟨k, h1, m, h2, h3⟩ := h1
                exact ⟨k, (d.ks_iff k).1 h1, m, h2, .inl ⟨j, d.cs_of j hj', h3.symm⟩⟩
              · cases h
      · rw [List.mem_flatMap] at h
        obtain ⟨j, hj', h⟩ := h
        rw [List.mem_cons] at h
        rcases h with h | h
        · exact absurd h.symm (hs.parts _ _).2.2.1
        · split at h
          · rename_i h1
            obtain ⟨k, h1, m, h2, h3⟩ := h1
            exact ⟨k, (d.ks_iff k).1 h1, m, h2, .inr ⟨j, (d.ks_iff j).1 hj', h3.symm⟩⟩
          · cases h
      · exact absurd h (by decide)
    · rintro ⟨k, hk, m, hm, h | ⟨j, h1, h2⟩⟩
      · obtain ⟨i, h1, h2⟩ := (huri _).2 h
        refine List.mem_cons_of_mem _ (List.mem_append_left _ ?_)
        rw [if_neg (hcne i h1)]
        refine List.mem_cons_of_mem _ (List.mem_cons_of_mem _ (List.mem_flatMap.2 ⟨i, h1, ?_⟩))
        rw [if_pos ⟨k, (d.ks_iff k).2 hk, m, hm, h2.symm⟩]
        exact List.mem_cons_of_mem _ List.mem_cons_self
      · refine List.mem_cons_of_mem _ (List.mem_append_right _ (List.mem_append_left _ (List.mem_flatMap.2 ⟨j, (d.ks_iff j).2 h1, ?_⟩)))
        rw [if_pos ⟨k, (d.ks_iff k).2 hk, m, hm, h2.symm⟩]
        exact List.mem_cons_of_mem _ List.mem_cons_self
  constructor
  · intro h
    refine ⟨?_, ?_, ?_⟩
    · intro i hi e he
      obtain ⟨j, h1, h2⟩ := d.cs_all i hi
      have h3 : ∃ e' ∈ (t.store.concept j).concepts, x.conceptLabel (t.store.concept e'.2) = x.conceptLabel (t.store.concept e.2) := by
        rcases h2 with rfl | h2
        · exact ⟨e, he, rfl⟩
        · exact (ha _ _ h2).2.2 e he
      obtain ⟨e', h4, h5⟩ := h3
      have := h (conceptAnchor x t.store e'.2) ((hj _).2 (.inl ⟨hne i hi, .inr (.inr (.inr (.inr (.inr ⟨j, h1, .inl ⟨e', d.kept j e' h4, rfl⟩⟩))))⟩))
      obtain ⟨j', h6, h7⟩ := (hcon _).1 this
      exact ⟨j', h6, h7.trans h5⟩
    · intro k hk i hi
      exact (hcon i).1 (h _ ((hj _).2 (.inr ⟨k, (d.ks_iff k).2 hk, .inl ⟨_, hi, rfl⟩⟩)))
    · intro h1 h2
      exact hcs.1 (h _ ((hj _).2 (.inl ⟨h1, .inr (.inr (.inl ⟨h2, rfl⟩))⟩)))
  · rintro ⟨hA, hB, hC⟩ a haj
    rcases (hj a).1 haj with ⟨h1, h | h | ⟨h2, h⟩ | h | ⟨i, h2, rfl⟩ | ⟨i, h2, h⟩⟩ | ⟨k, h1, h⟩
    · subst h
      rw [han, if_neg h1]
      exact List.mem_cons_of_mem _ (List.mem_append_left _ List.mem_cons_self)
    · subst h
      rw [han, if_neg h1]
      exact List.mem_cons_of_mem _ (List.mem_append_left _ (List.mem_cons_of_mem _ List.mem_cons_self))
    · subst h
      exact hcs.2 (hC h1 h2)
    · subst h
      rw [han]
      exact List.mem_cons_of_mem _ (List.mem_append_right _ (List.mem_append_right _ List.mem_cons_self))
    · exact (hcon i).2 ⟨i, h2, rfl⟩
    · rcases h with ⟨e, h3, rfl⟩ | ⟨k, h3, -, rfl⟩
      · rcases d.relations i e h3 with h4 | h4
        · exact (hcon _).2 (hA i (d.cs_of i h2) e h4)
        · exact (hcon _).2 ⟨e.2, d.cs_of _ h4, rfl⟩
      · exact hcol k ((d.ks_iff k).1 h3)
    · have hk := (d.ks_iff k).1 h1
      rcases h with ⟨m, h3, rfl⟩ | ⟨k', h3, -, rfl⟩
      · cases m with
        | concept i => exact (hcon _).2 (hB k hk i h3)
        | collection j =>
          obtain ⟨a, h4, h5⟩ := hk
          exact hcol j ⟨a, h4, h5.tail h3⟩
      · exact hcol k' ((d.ks_iff k').1 h3)

/-- C132 for thesauri in which every related concept and every member is in the scheme, and there are no collections or
one of them has a concept of the scheme as a member. -/
theorem C132_partial (x : DocContext) (eq : Nat → Nat → Bool) (n : Nat) (t t' : Thesaurus) (bs : List DocBlock)
    (hs : SafeNames x.safe) (ha : Alike x t.store eq) (hd : documentBlocks x eq n t = some (.ok (bs, t')))
    (h1 : ∀ i, ConceptOf t.store t.scheme i → ∀ e ∈ (t.store.concept i).concepts, ConceptOf t.store t.scheme e.2)
    (h2 : ∀ k, CollectionOf t.store t.scheme k → ∀ i, Member.concept i ∈ (t.store.collection k).members → ConceptOf t.store t.scheme i)
    (h3 : t.scheme.collections = [] ∨ ∃ k, CollectionOf t.store t.scheme k ∧ ∃ i, Member.concept i ∈ (t.store.collection k).members) :
    ∀ a ∈ jumps bs, a ∈ anchors bs := by
  refine (C132_iff x eq n t t' bs hs ha hd).2 ⟨fun i hi e he => ⟨e.2, h1 i hi e he, rfl⟩, fun k hk i hi => ⟨i, h2 k hk i hi, rfl⟩, ?_⟩
  intro _ h4
  rcases h3 with h3 | ⟨k, hk, i, hi⟩
  · exact absurd h3 h4
  · exact ⟨k, hk, _, hi, .inl ⟨i, h2 k hk i hi, rfl⟩⟩

/-- Names that are made well. -/
def numberedNames (a b : Str) : Str := '#' :: (List.replicate a.length 'x' ++ '#' :: (a ++ b))

theorem numberedNames_safe : SafeNames numberedNames := by
  constructor
  · intro a b c d h
    simp only [numberedNames, List.cons.injEq, true_and] at h
    have hl : ∀ (n m : Nat) (r s : Str), List.replicate n 'x' ++ '#' :: r = List.replicate m 'x' ++ '#' :: s → n = m ∧ r = s := by
      intro n
      induction n with
      | zero =>
        intro m r s h
        cases m with
        | zero => simpa using h
        | succ m => simp [List.replicate_succ] at h
      | succ n ih =>
        intro m r s h
        cases m with
        | zero => simp [List.replicate_succ] at h
        | succ m =>
          rw [List.replicate_succ, List.replicate_succ, List.cons_append, List.cons_append, List.cons.injEq] at h
          have := ih m r s h.2
          exact ⟨by omega, this.2⟩
    have h' := hl _ _ _ _ h
    exact List.append_inj h'.2 h'.1
  · intro a b
    simp [numberedNames]

/-- C132 fails: the part about collections cannot be reached in a document about a concept and an empty collection. -/
theorem C132_fails : ¬C132_statement := by
  intro h
  have hd : ∃ bs t', documentBlocks ⟨fun _ => none, .bare, numberedNames, [], none⟩ (fun i j => decide (i = j)) 1
      ⟨⟨[Concept.new ⟨str! "a"⟩], [SkosCollection.new ⟨str! "k"⟩ false]⟩, { Scheme.new ⟨str! "s"⟩ with concepts := [0], collections := [0] }⟩ =
      some (.ok (bs, t')) := by
    simp [documentBlocks, Scheme.collectionsFlattened, collectionsFlattened, SkosStore.collection, SkosCollection.new, Scheme.conceptsFlattened,
      conceptsFlattened, SkosStore.concept, Concept.new, writeConceptTree, documentConcepts, vecDedup, addInverses, addInversesOf]
  obtain ⟨bs, t', hd⟩ := hd
  have ha : Alike ⟨fun _ => none, .bare, numberedNames, [], none⟩ ⟨[Concept.new ⟨str! "a"⟩], [SkosCollection.new ⟨str! "k"⟩ false]⟩
      fun i j => decide (i = j) := by
    intro i j hij
    have : i = j := by simpa using hij
    subst this
    exact ⟨rfl, rfl, fun e he => ⟨e, he, rfl⟩⟩
  obtain ⟨k, -, m, hm, -⟩ := ((C132_iff _ _ _ _ _ _ numberedNames_safe ha hd).1 (h _ _ _ _ _ _ numberedNames_safe ha hd)).2.2
    (by simp) (by simp)
  have : ∀ k, (SkosStore.collection ⟨[Concept.new ⟨str! "a"⟩], [SkosCollection.new ⟨str! "k"⟩ false]⟩ k).members = [] := by
    intro k
    cases k <;> rfl
  rw [this] at hm
  cases hm

theorem mem_anchors {bs : List DocBlock} {l : Nat} {s a : Str} (h : .heading l s (some a) ∈ bs) : a ∈ anchors bs :=
  List.mem_filterMap.2 ⟨_, h, rfl⟩

theorem header_only {x : DocContext} {u : Iri} {ls : List Label} {ps : List LiteralProperty} {p q : Str} {d l : Nat} {s a : Str}
    (h : .heading l s (some a) ∈ writeEntityHeader x u ls ps p q d) : a = x.safe q (preferredLabelFor x.sty u ls x.lang) := by
  have := mem_anchors h
  rw [header_anchors, List.mem_singleton] at this
  exact this

theorem membership_only {x : DocContext} {h : SkosStore} {u : Iri} {l : Nat} {s a : Str}
    (hm : .heading l s (some a) ∈ writeCollectionMembership x h u) : l = 4 ∧ s = str! "In Collections" := by
  unfold writeCollectionMembership at hm
  simp only at hm
  split at hm
  · cases hm
  · simp only [List.mem_cons, DocBlock.heading.injEq, reduceCtorEq, List.not_mem_nil, or_false] at hm
    exact ⟨hm.1, hm.2.1⟩

/-- C132, the part about collections is never what is reached: every heading of that name is that of a list of the
collections that something is in. -/
theorem C132_fails_collections (x : DocContext) (eq : Nat → Nat → Bool) (n : Nat) (t t' : Thesaurus) (bs : List DocBlock)
    (hs : SafeNames x.safe) (hd : documentBlocks x eq n t = some (.ok (bs, t'))) (l : Nat) (s : Str)
    (hh : .heading l s (some (str! "Collections")) ∈ bs) : l = 4 ∧ s = str! "In Collections" := by
  obtain ⟨d⟩ := documentParts hd
  have hb := d.blocks
  rw [hb, List.mem_append, List.mem_append, List.mem_append] at hh
  rcases hh with hh | hh | hh | hh
  · exact absurd (header_only hh).symm (hs.parts _ _).2.2.1
  · split at hh
    · cases hh
    · rename_i hne
      rw [List.mem_append, List.mem_cons, List.mem_cons, List.mem_flatMap] at hh
      rcases hh with (hh | hh) | hh | ⟨i, _, hh⟩
      · cases hh
      · have := mem_anchors hh
        rw [(tree_levels (d.tree_eq hne)).2, List.mem_singleton] at this
        exact absurd this (by decide)
      · simp only [DocBlock.heading.injEq, Option.some.injEq] at hh
        exact absurd hh.2.2 (by decide)
      · unfold writeConcept at hh
        rw [List.mem_append, List.mem_append] at hh
        rcases hh with (hh | hh) | hh
        · exact absurd (header_only hh).symm (hs.parts _ _).2.2.1
        · split at hh
          · cases hh
          · simp [writeConceptRelations] at hh
        · exact membership_only hh
  · split at hh
    · cases hh
    · rw [List.mem_cons, List.mem_flatMap] at hh
      rcases hh with hh | ⟨i, _, hh⟩
      · simp at hh
      · unfold writeSkosCollection at hh
        rw [List.mem_append, List.mem_append] at hh
        rcases hh with (hh | hh) | hh
        · exact absurd (header_only hh).symm (hs.parts _ _).2.2.1
        · split at hh
          · cases hh
          · unfold writeCollectionMembers at hh
            split at hh <;> simp at hh
        · exact membership_only hh
  · simp only [List.mem_singleton, DocBlock.heading.injEq, Option.some.injEq] at hh
    exact absurd hh.2.2 (by decide)

/-! ### C136 -/

/-- C136, the sections of a collection and of a concept refer to each other: the collection shows the concept among its
members exactly when the concept shows the collection, provided that titles and IRIs tell things apart. -/
theorem C136_concept (x : DocContext) (h : SkosStore) (hs : SafeNames x.safe) (i k : Nat) (hk : k ∈ x.collections)
    (hrel : ∀ m ∈ (h.collection k).members, ∀ j, m = .concept j →
      (x.conceptLabel (h.concept j) = x.conceptLabel (h.concept i) ↔ (h.concept j).uri = (h.concept i).uri))
    (hcol : ∀ m ∈ (h.collection k).members, ∀ j, m = .collection j → (h.collection j).uri ≠ (h.concept i).uri)
    (hdis : ∀ k' ∈ x.collections, x.collectionLabel (h.collection k') = x.collectionLabel (h.collection k) → k' = k) :
    x.safe (str! "concept") (x.conceptLabel (h.concept i)) ∈ jumps (writeSkosCollection x h (h.collection k)) ↔
    x.safe (str! "collection") (x.collectionLabel (h.collection k)) ∈ jumps (writeConcept x h (h.concept i)) := by
  have e1 : ∀ i, conceptAnchor x h i = x.safe (str! "concept") (x.conceptLabel (h.concept i)) := fun i => rfl
  have e2 : ∀ i, collectionAnchor x h i = x.safe (str! "collection") (x.collectionLabel (h.collection i)) := fun i => rfl
  rw [collection_jumps, concept_jumps, List.mem_append, List.mem_append]
  simp only [List.mem_map, List.mem_filter, SkosCollection.hasMember, List.any_eq_true, decide_eq_true_eq]
  constructor
  · rintro (⟨m, h1, h2⟩ | ⟨k', -, h2⟩)
    · cases m with
      | concept j =>
        refine .inr ⟨k, ⟨hk, _, h1, ?_⟩, rfl⟩
        exact (hrel _ h1 j rfl).1 (hs.inj _ _ _ _ ((e1 j).symm.trans h2)).2
      | collection j => exact absurd (hs.inj _ _ _ _ ((e2 j).symm.trans h2)).1 (by decide)
    · exact absurd (hs.inj _ _ _ _ ((e2 k').symm.trans h2)).1 (by decide)
  · rintro (⟨e, -, h2⟩ | ⟨k', ⟨h1, m, h2, h3⟩, h4⟩)
    · exact absurd (hs.inj _ _ _ _ ((e1 e.2).symm.trans h2)).1 (by decide)
    · have := hdis k' h1 (hs.inj _ _ _ _ ((e2 k').symm.trans h4)).2
      subst this
      cases m with
      | concept j =>
        refine .inl ⟨_, h2, ?_⟩
        show conceptAnchor x h j = _
        rw [e1, (hrel _ h2 j rfl).2 h3]
      | collection j => exact absurd h3 (hcol _ h2 j rfl)

/-- C136, in general: a collection is shown in the section of a resource exactly when one of its members has the IRI of
the resource, and the collections are in the order of the document. -/
theorem C136_membership (x : DocContext) (h : SkosStore) (u : Iri) :
    ∃ ks : List Nat, ks.Sublist x.collections ∧
      (∀ k, k ∈ ks ↔ k ∈ x.collections ∧ ∃ m ∈ (h.collection k).members, m.uri h = u) ∧
      jumps (writeCollectionMembership x h u) = ks.map (fun k => x.safe (str! "collection") (x.collectionLabel (h.collection k))) := by
  refine ⟨_, List.filter_sublist, fun k => ?_, membership_jumps x h u⟩
  simp [SkosCollection.hasMember]

/-- C136, the list of members shows each of them, in order, and says of which kind it is. -/
theorem C136_members (x : DocContext) (h : SkosStore) (c : SkosCollection) (hne : c.members ≠ []) :
    ∃ l, .list l ∈ writeSkosCollection x h c ∧ l.length = c.members.length ∧ ∀ (n : Nat) (m : Member), c.members[n]? = some m →
      l[n]? = some (match m with
        | .concept i => .item .text [.text .text (str! "Concept "), .jump (x.safe (str! "concept") (x.conceptLabel (h.concept i))) (x.conceptLabel (h.concept i))]
        | .collection i => .item .text [.text .text (str! "Collection "),
            .jump (x.safe (str! "collection") (x.collectionLabel (h.collection i))) (x.collectionLabel (h.collection i))]) := by
  refine ⟨c.members.map fun
      | .collection i => .item .text [.text .text (str! "Collection "), collectionJump x (h.collection i)]
      | .concept i => .item .text [.text .text (str! "Concept "), conceptJump x (h.concept i)], ?_, ?_, ?_⟩
  · unfold writeSkosCollection writeCollectionMembers
    have : c.members.isEmpty = false := by simpa using hne
    rw [this]
    exact List.mem_append_left _ (List.mem_append_right _ (.tail _ (.head _)))
  · simp
  · intro n m hm
    rw [List.getElem?_map, hm]
    cases m <;> rfl

/-! ### Documents -/

/-- C135, the document and the thesaurus: writing a document changes the thesaurus as `makeDocument` says, and panics
when that does. -/
theorem C135_thesaurus (x : DocContext) (eq : Nat → Nat → Bool) (n : Nat) (t : Thesaurus) (r : Outcome (List DocBlock × Thesaurus))
    (hd : documentBlocks x eq n t = some r) :
    makeDocument x.sty x.lang eq n t = some (match r with
      | .panic => .panic
      | .ok (_, t') => .ok t') := by
  unfold documentBlocks at hd
  simp only [Option.bind_eq_bind, Option.bind_eq_some_iff] at hd
  obtain ⟨fk, hk, hd⟩ := hd
  unfold makeDocument
  split at hd
  · rename_i he
    rw [if_pos he]
    simp only [Option.some.injEq] at hd
    subst hd
    rfl
  · rename_i he
    rw [if_neg he]
    simp only [Option.bind_eq_some_iff] at hd
    obtain ⟨tree, htree, l, hl, hd⟩ := hd
    rw [hl, Option.map_some]
    split at hd
    · rename_i heq
      simp only [Option.some.injEq] at hd
      subst hd
      rw [heq]
    · rename_i t'' heq
      simp only [Option.some.injEq] at hd
      subst hd
      rw [heq]

/-- C135, a document is made, or a panic comes of it, exactly when no chain of narrower concepts and no chain of collections
goes on for ever. -/
theorem C135_ends_iff (x : DocContext) (eq : Nat → Nat → Bool) (t : Thesaurus) :
    (∃ n, (documentBlocks x eq n t).isSome) ↔ Ends t.store t.scheme := by
  have e1 : (fun b a => b ∈ conceptChildren t.store a) = fun b a => NarrowerThan t.store a b :=
    funext fun b => funext fun a => congrFun (congrFun mem_conceptChildren a) b
  have e2 : (fun b a => b ∈ collectionChildren t.store a) = fun b a => HasSubCollection t.store a b :=
    funext fun b => funext fun a => congrFun (congrFun mem_collectionChildren a) b
  constructor
  · rintro ⟨n, hn⟩
    obtain ⟨r, hd⟩ := Option.isSome_iff_exists.1 hn
    unfold documentBlocks at hd
    simp only [Option.bind_eq_bind, Option.bind_eq_some_iff] at hd
    obtain ⟨fk, hk, hd⟩ := hd
    refine ⟨?_, ?_⟩
    · split at hd
      · rename_i he
        have he : t.scheme.concepts = [] := by simpa using he
        intro i hi
        rw [he] at hi
        cases hi
      · simp only [Option.bind_eq_some_iff] at hd
        obtain ⟨tree, htree, -⟩ := hd
        exact (C133_ends_iff _ _ _).1 ⟨n, by rw [htree]; rfl⟩
    · intro i hi
      rw [Scheme.collectionsFlattened_eq] at hk
      rw [← e2]
      exact flattenBy_ends.1 ⟨n, flattenAll_isSome.1 (by rw [hk]; rfl) i hi⟩
  · rintro ⟨h1, h2⟩
    rw [← e1] at h1
    rw [← e2] at h2
    obtain ⟨n, hn⟩ := flattenAll_ends (ch := conceptChildren t.store) (l := t.scheme.concepts) fun i hi => flattenBy_ends.2 (h1 i hi)
    obtain ⟨m, hm⟩ := flattenAll_ends (ch := collectionChildren t.store) (l := t.scheme.collections) fun i hi => flattenBy_ends.2 (h2 i hi)
    rw [flattenAll_isSome] at hn hm
    refine ⟨max n m, ?_⟩
    have hn' : ∀ i ∈ t.scheme.concepts, (flattenBy (conceptChildren t.store) (max n m) i).isSome := fun i hi =>
      flattenBy_of_le (Nat.le_max_left _ _) (hn i hi)
    have hm' : ∀ i ∈ t.scheme.collections, (flattenBy (collectionChildren t.store) (max n m) i).isSome := fun i hi =>
      flattenBy_of_le (Nat.le_max_right _ _) (hm i hi)
    obtain ⟨fk, hk⟩ := Option.isSome_iff_exists.1 (flattenAll_isSome.2 hm')
    obtain ⟨fc, hc⟩ := Option.isSome_iff_exists.1 (flattenAll_isSome.2 hn')
    have htree : ∀ x : DocContext, (writeConceptTree x t.store (max n m) t.scheme.concepts).isSome := by
      intro x
      unfold writeConceptTree
      rw [Option.isSome_map, mapM_isSome]
      intro i hi
      simp only
      split
      · rfl
      · rw [Option.isSome_map]
        exact treeInner_of_flatten _ i (hn' i hi)
    unfold documentBlocks
    simp only [Scheme.collectionsFlattened_eq, hk, Scheme.conceptsFlattened_eq, hc, Option.bind_eq_bind, Option.bind_some]
    split
    · rfl
    · obtain ⟨tree, h3⟩ := Option.isSome_iff_exists.1 (htree { x with collections := sortCollections x t.store fk })
      rw [h3, Option.bind_some]
      split <;> rfl

end Rdftk
