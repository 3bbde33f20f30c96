import Verif.Lemmas.Skos

/-! What the calls of a thesaurus do to its relations. -/

namespace Rdftk

open Relation Spec

theorem getD_modify {α : Type} (l : List α) (i a : Nat) (f : α → α) (d : α) :
    (l.modify i f).getD a d = if a = i ∧ i < l.length then f (l.getD a d) else l.getD a d := by
  simp only [List.getD_eq_getElem?_getD, List.getElem?_modify]
  by_cases h : i = a
  · subst h
    by_cases hi : i < l.length
    · simp [hi]
    · simp [hi, List.getElem?_eq_none (Nat.le_of_not_lt hi)]
  · have : ¬(a = i ∧ i < l.length) := fun e => h e.1.symm
    simp [h, this]

theorem getD_append_one {α : Type} (l : List α) (x : α) (a : Nat) (d : α) :
    (l ++ [x]).getD a d = if a = l.length then x else l.getD a d := by
  simp only [List.getD_eq_getElem?_getD]
  by_cases h : a = l.length
  · subst h; simp
  · rw [List.getElem?_append]
    by_cases h' : a < l.length
    · simp [h', h]
    · have : a - l.length ≠ 0 := by omega
      rw [if_neg h', if_neg h, List.getElem?_eq_none (Nat.le_of_not_lt h'), List.getElem?_eq_none (by simp; omega)]

/-- The relations that a call adds to a concept, where `n` is the number of concepts. -/
def addedRelations (n : Nat) (a : Nat) : SkosOp → List (ConceptRelation × Nat)
  | .newConcept i r _ _ => if a = i ∧ i < n then [(r, n)] else []
  | .addRelated i r j => if a = i ∧ i < n ∧ j < n then [(r, j)] else []
  | _ => []

/-- The members that a call adds to a collection, where `n` is the number of collections and `m` that of
concepts. -/
def addedMembers (n m : Nat) (a : Nat) : SkosOp → List Member
  | .newCollection i _ _ _ => if a = i ∧ i < n then [.collection n] else []
  | .addMemberConcept i j => if a = i ∧ i < n ∧ j < m then [.concept j] else []
  | _ => []

/-- The number of concepts that a call makes. -/
def newConcepts (n : Nat) : SkosOp → Nat
  | .newTopConcept .. => 1
  | .newConcept i .. => if i < n then 1 else 0
  | _ => 0

/-- The number of collections that a call makes. -/
def newCollections (n : Nat) : SkosOp → Nat
  | .newTopCollection .. => 1
  | .newCollection i .. => if i < n then 1 else 0
  | _ => 0

theorem concept_out {h : SkosStore} {a : Nat} (ha : h.concepts.length ≤ a) : h.concept a = .new ⟨[]⟩ := by
  rw [SkosStore.concept, List.getD_eq_getElem?_getD, List.getElem?_eq_none ha]
  rfl

theorem collection_out {h : SkosStore} {a : Nat} (ha : h.collections.length ≤ a) : h.collection a = .new ⟨[]⟩ false := by
  rw [SkosStore.collection, List.getD_eq_getElem?_getD, List.getElem?_eq_none ha]
  rfl

theorem apply_length (t : Thesaurus) (op : SkosOp) :
    (t.apply op).store.concepts.length = t.store.concepts.length + newConcepts t.store.concepts.length op ∧
    (t.apply op).store.collections.length = t.store.collections.length + newCollections t.store.collections.length op := by
  cases op with
  | newTopConcept => simp [Thesaurus.apply, newConcepts, newCollections]
  | newConcept i r u ls =>
    simp only [Thesaurus.apply, newConcepts, newCollections]
    split <;> simp [Thesaurus.modifyConcept]
  | addRelated i r j =>
    simp only [Thesaurus.apply, newConcepts, newCollections]
    split <;> simp [Thesaurus.modifyConcept]
  | addExternal => simp [Thesaurus.apply, newConcepts, newCollections, Thesaurus.modifyConcept]
  | newTopCollection => simp [Thesaurus.apply, newConcepts, newCollections]
  | newCollection i u o ls =>
    simp only [Thesaurus.apply, newConcepts, newCollections]
    split <;> simp [Thesaurus.modifyCollection]
  | addMemberConcept i j =>
    simp only [Thesaurus.apply, newConcepts, newCollections]
    split <;> simp [Thesaurus.modifyCollection]
  | addLabel g l => cases g <;> simp [Thesaurus.apply, newConcepts, newCollections, Thesaurus.modifyConcept, Thesaurus.modifyCollection]
  | addProperty g l => cases g <;> simp [Thesaurus.apply, newConcepts, newCollections, Thesaurus.modifyConcept, Thesaurus.modifyCollection]

theorem apply_relations (t : Thesaurus) (op : SkosOp) (a : Nat) :
    ((t.apply op).store.concept a).concepts =
      (t.store.concept a).concepts ++ addedRelations t.store.concepts.length a op := by
  have hout : ∀ a, a = t.store.concepts.length → (t.store.concept a).concepts = [] := fun a e => by
    rw [concept_out (by omega)]; rfl
  cases op with
  | newTopConcept u ls =>
    simp only [Thesaurus.apply, addedRelations, SkosStore.concept, getD_append_one, List.append_nil]
    split
    · rename_i e; exact (hout a e).symm
    · rfl
  | newConcept i r u ls =>
    simp only [Thesaurus.apply, addedRelations]
    by_cases hi : i < t.store.concepts.length
    · simp only [hi, if_true, and_true, Thesaurus.modifyConcept, SkosStore.concept, getD_append_one, List.length_modify,
        getD_modify]
      by_cases ha : a = t.store.concepts.length
      · have : a ≠ i := by omega
        rw [if_pos ha, if_neg this]
        have := hout a ha
        rw [SkosStore.concept] at this
        rw [this]
        rfl
      · rw [if_neg ha]
        by_cases hai : a = i <;> simp [hai]
    · simp [hi]
  | addRelated i r j =>
    simp only [Thesaurus.apply, addedRelations]
    by_cases hi : i < t.store.concepts.length ∧ j < t.store.concepts.length
    · simp only [hi, and_self, if_true, and_true, Thesaurus.modifyConcept, SkosStore.concept, getD_modify]
      by_cases hai : a = i <;> simp [hai]
    · have : ¬(a = i ∧ i < t.store.concepts.length ∧ j < t.store.concepts.length) := fun e => hi e.2
      simp [hi, this]
  | addExternal i r o =>
    simp only [Thesaurus.apply, addedRelations, Thesaurus.modifyConcept, SkosStore.concept, getD_modify, List.append_nil]
    split <;> rfl
  | newTopCollection => simp [Thesaurus.apply, addedRelations, SkosStore.concept]
  | newCollection i u o ls =>
    simp only [Thesaurus.apply, addedRelations, List.append_nil]
    split <;> rfl
  | addMemberConcept i j =>
    simp only [Thesaurus.apply, addedRelations, List.append_nil]
    split <;> rfl
  | addLabel g l =>
    cases g with
    | scheme => simp [Thesaurus.apply, addedRelations]
    | concept i =>
      simp only [Thesaurus.apply, addedRelations, Thesaurus.modifyConcept, SkosStore.concept, getD_modify, List.append_nil]
      split <;> rfl
    | collection i => simp [Thesaurus.apply, addedRelations, Thesaurus.modifyCollection, SkosStore.concept]
  | addProperty g l =>
    cases g with
    | scheme => simp [Thesaurus.apply, addedRelations]
    | concept i =>
      simp only [Thesaurus.apply, addedRelations, Thesaurus.modifyConcept, SkosStore.concept, getD_modify, List.append_nil]
      split <;> rfl
    | collection i => simp [Thesaurus.apply, addedRelations, Thesaurus.modifyCollection, SkosStore.concept]

theorem apply_members (t : Thesaurus) (op : SkosOp) (a : Nat) :
    ((t.apply op).store.collection a).members =
      (t.store.collection a).members ++ addedMembers t.store.collections.length t.store.concepts.length a op := by
  have hout : ∀ a, a = t.store.collections.length → (t.store.collection a).members = [] := fun a e => by
    rw [collection_out (by omega)]; rfl
  cases op with
  | newTopCollection u o ls =>
    simp only [Thesaurus.apply, addedMembers, SkosStore.collection, getD_append_one, List.append_nil]
    split
    · rename_i e; exact (hout a e).symm
    · rfl
  | newCollection i u o ls =>
    simp only [Thesaurus.apply, addedMembers]
    by_cases hi : i < t.store.collections.length
    · simp only [hi, if_true, and_true, Thesaurus.modifyCollection, SkosStore.collection, getD_append_one, List.length_modify,
        getD_modify]
      by_cases ha : a = t.store.collections.length
      · have : a ≠ i := by omega
        rw [if_pos ha, if_neg this]
        have := hout a ha
        rw [SkosStore.collection] at this
        rw [this]
        rfl
      · rw [if_neg ha]
        by_cases hai : a = i <;> simp [hai]
    · simp [hi]
  | addMemberConcept i j =>
    simp only [Thesaurus.apply, addedMembers]
    by_cases hj : j < t.store.concepts.length
    · simp only [hj, if_true, and_true, Thesaurus.modifyCollection, SkosStore.collection, getD_modify]
      split <;> simp
    · simp [hj]
  | newTopConcept => simp [Thesaurus.apply, addedMembers, SkosStore.collection]
  | newConcept i r u ls =>
    simp only [Thesaurus.apply, addedMembers, List.append_nil]
    split <;> rfl
  | addRelated i r j =>
    simp only [Thesaurus.apply, addedMembers, List.append_nil]
    split <;> rfl
  | addExternal i r o => simp [Thesaurus.apply, addedMembers, Thesaurus.modifyConcept, SkosStore.collection]
  | addLabel g l =>
    cases g with
    | scheme => simp [Thesaurus.apply, addedMembers]
    | collection i =>
      simp only [Thesaurus.apply, addedMembers, Thesaurus.modifyCollection, SkosStore.collection, getD_modify, List.append_nil]
      split <;> rfl
    | concept i => simp [Thesaurus.apply, addedMembers, Thesaurus.modifyConcept, SkosStore.collection]
  | addProperty g l =>
    cases g with
    | scheme => simp [Thesaurus.apply, addedMembers]
    | collection i =>
      simp only [Thesaurus.apply, addedMembers, Thesaurus.modifyCollection, SkosStore.collection, getD_modify, List.append_nil]
      split <;> rfl
    | concept i => simp [Thesaurus.apply, addedMembers, Thesaurus.modifyConcept, SkosStore.collection]

theorem apply_tops (t : Thesaurus) (op : SkosOp) :
    (t.apply op).scheme.concepts = t.scheme.concepts ++ (match op with
      | .newTopConcept .. => [t.store.concepts.length]
      | _ => []) ∧
    (t.apply op).scheme.collections = t.scheme.collections ++ (match op with
      | .newTopCollection .. => [t.store.collections.length]
      | _ => []) := by
  cases op with
  | newTopConcept => simp [Thesaurus.apply]
  | newTopCollection => simp [Thesaurus.apply]
  | newConcept i r u ls => simp only [Thesaurus.apply]; split <;> simp [Thesaurus.modifyConcept]
  | addRelated i r j => simp only [Thesaurus.apply]; split <;> simp [Thesaurus.modifyConcept]
  | addExternal => simp [Thesaurus.apply, Thesaurus.modifyConcept]
  | newCollection i u o ls => simp only [Thesaurus.apply]; split <;> simp [Thesaurus.modifyCollection]
  | addMemberConcept i j => simp only [Thesaurus.apply]; split <;> simp [Thesaurus.modifyCollection]
  | addLabel g l => cases g <;> simp [Thesaurus.apply, Thesaurus.modifyConcept, Thesaurus.modifyCollection]
  | addProperty g l => cases g <;> simp [Thesaurus.apply, Thesaurus.modifyConcept, Thesaurus.modifyCollection]

/-- Each place has at most one place above it, which came before it; those at the top have none. -/
structure Forest (ch : Nat → List Nat) (tops : List Nat) (n : Nat) : Prop where
  lt : ∀ i j, j ∈ ch i → i < j ∧ j < n
  nodup : ∀ i, (ch i).Nodup
  one : ∀ a b j, j ∈ ch a → j ∈ ch b → a = b
  tops_lt : ∀ i ∈ tops, i < n
  tops_nodup : tops.Nodup
  tops_top : ∀ i ∈ tops, ∀ a, i ∉ ch a

namespace Forest

variable {ch ch' : Nat → List Nat} {tops : List Nat} {n : Nat}

theorem grow (h : Forest ch tops n) (m : Nat) (hm : n ≤ m) : Forest ch tops m :=
  ⟨fun i j hj => ⟨(h.lt i j hj).1, by have := (h.lt i j hj).2; omega⟩, h.nodup, h.one,
    fun i hi => by have := h.tops_lt i hi; omega, h.tops_nodup, h.tops_top⟩

theorem addTop (h : Forest ch tops n) : Forest ch (tops ++ [n]) (n + 1) := by
  refine ⟨(h.grow _ (by omega)).lt, h.nodup, h.one, ?_, ?_, ?_⟩
  · intro i hi
    rcases List.mem_append.1 hi with hi | hi
    · have := h.tops_lt i hi; omega
    · simp at hi; omega
  · rw [List.nodup_append]
    refine ⟨h.tops_nodup, by simp, fun a ha b hb e => ?_⟩
    have := h.tops_lt a ha
    simp at hb
    omega
  · intro i hi a ha
    rcases List.mem_append.1 hi with hi | hi
    · exact h.tops_top i hi a ha
    · have := (h.lt a i ha).2
      simp at hi
      omega

theorem addChild (h : Forest ch tops n) {p : Nat} (hp : p < n) (he : ∀ a, ch' a = ch a ++ if a = p then [n] else []) :
    Forest ch' tops (n + 1) := by
  have hmem : ∀ a j, j ∈ ch' a ↔ j ∈ ch a ∨ (a = p ∧ j = n) := by
    intro a j
    rw [he, List.mem_append]
    by_cases e : a = p <;> simp [e]
  have hn : ∀ a, n ∉ ch a := fun a ha => by have := (h.lt a n ha).2; omega
  refine ⟨?_, ?_, ?_, (h.grow _ (by omega)).tops_lt, h.tops_nodup, ?_⟩
  · intro i j hj
    rcases (hmem i j).1 hj with hj | ⟨rfl, rfl⟩
    · have := h.lt i j hj; omega
    · omega
  · intro a
    rw [he]
    by_cases e : a = p
    · rw [if_pos e, List.nodup_append]
      refine ⟨h.nodup a, by simp, fun x hx y hy e' => ?_⟩
      simp at hy
      subst hy e'
      exact hn a hx
    · simpa [e] using h.nodup a
  · intro a b j ha hb
    rcases (hmem a j).1 ha with ha | ⟨rfl, rfl⟩ <;> rcases (hmem b j).1 hb with hb | ⟨e, e'⟩
    · exact h.one a b j ha hb
    · subst e'; exact absurd ha (hn a)
    · exact absurd hb (hn b)
    · exact e.symm
  · intro i hi a ha
    rcases (hmem a i).1 ha with ha | ⟨_, rfl⟩
    · exact h.tops_top i hi a ha
    · have := h.tops_lt i hi; omega

theorem acc (h : Forest ch tops n) (i : Nat) : Acc (fun b a => b ∈ ch a) i := by
  have : ∀ k i, n ≤ i + k → Acc (fun b a => b ∈ ch a) i := by
    intro k
    induction k with
    | zero => exact fun i hi => ⟨_, fun j hj => by have := h.lt i j hj; omega⟩
    | succ k ih => exact fun i hi => ⟨_, fun j hj => ih j (by have := h.lt i j hj; omega)⟩
  exact this n i (by omega)

theorem flatten (h : Forest ch tops n) : ∃ m l, flattenAll ch m tops = some l ∧ l.Nodup := by
  obtain ⟨m, hm⟩ := flattenAll_ends (ch := ch) (l := tops) fun i _ => flattenBy_ends.2 (h.acc i)
  obtain ⟨l, hl⟩ := Option.isSome_iff_exists.1 hm
  refine ⟨m, l, hl, flattenAll_nodup h.nodup h.one (flattenBy_nodup h.nodup h.one h.acc) hl h.tops_nodup
    (fun i _ => h.acc i) ?_⟩
  intro i _ j hj hij
  obtain ⟨k, _, hk⟩ := TransGen.tail'_iff.1 hij
  exact h.tops_top j hj k hk

theorem congr (h : Forest ch tops n) (he : ∀ a, ch' a = ch a) : Forest ch' tops n := by
  have : ch' = ch := funext he
  rwa [this]

end Forest

/-- The collections of a thesaurus form a forest, whatever the calls. -/
theorem collections_forest {t : Thesaurus} (op : SkosOp)
    (h : Forest (collectionChildren t.store) t.scheme.collections t.store.collections.length) :
    Forest (collectionChildren (t.apply op).store) (t.apply op).scheme.collections (t.apply op).store.collections.length := by
  have hc : ∀ a, collectionChildren (t.apply op).store a = collectionChildren t.store a ++
      (addedMembers t.store.collections.length t.store.concepts.length a op).filterMap Member.asCollection := by
    intro a
    rw [collectionChildren, apply_members, List.filterMap_append]
    rfl
  rw [(apply_length t op).2, (apply_tops t op).2]
  cases op with
  | newTopCollection u o ls =>
    exact h.addTop.congr fun a => by rw [hc]; simp [addedMembers]
  | newCollection i u o ls =>
    simp only [newCollections, List.append_nil]
    by_cases hi : i < t.store.collections.length
    · rw [if_pos hi]
      refine h.addChild hi fun a => ?_
      rw [hc]
      simp only [addedMembers, hi, and_true]
      by_cases e : a = i <;> simp [e, Member.asCollection]
    · rw [if_neg hi, Nat.add_zero]
      exact h.congr fun a => by rw [hc]; simp [addedMembers, hi]
  | addMemberConcept i j =>
    simp only [newCollections, List.append_nil, Nat.add_zero]
    refine h.congr fun a => ?_
    rw [hc]
    simp only [addedMembers]
    split <;> simp [Member.asCollection]
  | _ =>
    simp only [newCollections, List.append_nil, Nat.add_zero]
    exact h.congr fun a => by rw [hc]; simp [addedMembers]

/-- The calls that give an existing concept as a narrower one. -/
def SkosOp.shares : SkosOp → Bool
  | .addRelated _ r _ => r.isNarrower
  | _ => false

/-- The concepts of a thesaurus form a forest, unless an existing one is given as a narrower one. -/
theorem concepts_forest {t : Thesaurus} (op : SkosOp) (hop : op.shares = false)
    (h : Forest (conceptChildren t.store) t.scheme.concepts t.store.concepts.length) :
    Forest (conceptChildren (t.apply op).store) (t.apply op).scheme.concepts (t.apply op).store.concepts.length := by
  have hc : ∀ a, conceptChildren (t.apply op).store a = conceptChildren t.store a ++
      ((addedRelations t.store.concepts.length a op).filter fun e => e.1.isNarrower).map (·.2) := by
    intro a
    rw [conceptChildren, apply_relations, List.filter_append, List.map_append]
    rfl
  rw [(apply_length t op).1, (apply_tops t op).1]
  cases op with
  | newTopConcept u ls =>
    exact h.addTop.congr fun a => by rw [hc]; simp [addedRelations]
  | newConcept i r u ls =>
    simp only [newConcepts, List.append_nil]
    by_cases hi : i < t.store.concepts.length
    · rw [if_pos hi]
      cases hr : r.isNarrower with
      | true =>
        refine h.addChild hi fun a => ?_
        rw [hc]
        simp only [addedRelations, hi, and_true]
        by_cases e : a = i <;> simp [e, hr]
      | false =>
        refine (h.grow _ (by omega)).congr fun a => ?_
        rw [hc]
        simp only [addedRelations, hi, and_true]
        by_cases e : a = i <;> simp [e, hr]
    · rw [if_neg hi, Nat.add_zero]
      exact h.congr fun a => by rw [hc]; simp [addedRelations, hi]
  | addRelated i r j =>
    have hr : r.isNarrower = false := hop
    simp only [newConcepts, List.append_nil, Nat.add_zero]
    refine h.congr fun a => ?_
    rw [hc]
    simp only [addedRelations]
    split <;> simp [hr]
  | _ =>
    simp only [newConcepts, List.append_nil, Nat.add_zero]
    exact h.congr fun a => by rw [hc]; simp [addedRelations]

theorem forest_new : Forest (fun _ => []) [] 0 :=
  ⟨fun _ _ h => by (cases h), fun _ => by simp, fun _ _ _ h => by (cases h), fun _ h => by (cases h), by simp,
    fun _ h => by (cases h)⟩

theorem forest_run_collections (u : Iri) (ops : List SkosOp) :
    Forest (collectionChildren (ops.foldl Thesaurus.apply (.new u)).store)
      (ops.foldl Thesaurus.apply (.new u)).scheme.collections (ops.foldl Thesaurus.apply (.new u)).store.collections.length := by
  have : ∀ (t : Thesaurus), Forest (collectionChildren t.store) t.scheme.collections t.store.collections.length →
      Forest (collectionChildren (ops.foldl Thesaurus.apply t).store)
        (ops.foldl Thesaurus.apply t).scheme.collections (ops.foldl Thesaurus.apply t).store.collections.length := by
    induction ops with
    | nil => exact fun t h => h
    | cons op ops ih => exact fun t h => ih _ (collections_forest op h)
  exact this _ (forest_new.congr fun _ => rfl)

theorem forest_run_concepts (u : Iri) (ops : List SkosOp) (hops : ∀ op ∈ ops, op.shares = false) :
    Forest (conceptChildren (ops.foldl Thesaurus.apply (.new u)).store)
      (ops.foldl Thesaurus.apply (.new u)).scheme.concepts (ops.foldl Thesaurus.apply (.new u)).store.concepts.length := by
  have : ∀ (t : Thesaurus), Forest (conceptChildren t.store) t.scheme.concepts t.store.concepts.length →
      Forest (conceptChildren (ops.foldl Thesaurus.apply t).store)
        (ops.foldl Thesaurus.apply t).scheme.concepts (ops.foldl Thesaurus.apply t).store.concepts.length := by
    induction ops with
    | nil => exact fun t h => h
    | cons op ops ih =>
      exact fun t h => ih (fun o ho => hops o (by simp [ho])) _ (concepts_forest op (hops op (by simp)) h)
  exact this _ (forest_new.congr fun _ => rfl)

/-- The calls that make a concept which is not a narrower one. -/
def SkosOp.aside : SkosOp → Bool
  | .newConcept _ r _ _ => !r.isNarrower
  | _ => false

theorem conceptOf_apply {t : Thesaurus} (op : SkosOp) {i : Nat} (h : ConceptOf t.store t.scheme i) :
    ConceptOf (t.apply op).store (t.apply op).scheme i := by
  obtain ⟨k, hk, hr⟩ := h
  refine ⟨k, by rw [(apply_tops t op).1]; simp [hk], ?_⟩
  refine ReflTransGen.mono ?_ _ _ hr
  rintro a b ⟨r, h1, h2⟩
  exact ⟨r, by rw [apply_relations]; simp [h1], h2⟩

theorem collectionOf_apply {t : Thesaurus} (op : SkosOp) {i : Nat} (h : CollectionOf t.store t.scheme i) :
    CollectionOf (t.apply op).store (t.apply op).scheme i := by
  obtain ⟨k, hk, hr⟩ := h
  refine ⟨k, by rw [(apply_tops t op).2]; simp [hk], ?_⟩
  refine ReflTransGen.mono ?_ _ _ hr
  intro a b h1
  rw [HasSubCollection, apply_members]
  simp only [HasSubCollection] at h1
  simp [h1]

/-- Every concept belongs to the scheme, unless one was made that is not a narrower one. -/
theorem conceptOf_run (u : Iri) (ops : List SkosOp) (hops : ∀ op ∈ ops, op.aside = false) :
    ∀ i < (ops.foldl Thesaurus.apply (.new u)).store.concepts.length,
      ConceptOf (ops.foldl Thesaurus.apply (.new u)).store (ops.foldl Thesaurus.apply (.new u)).scheme i := by
  have : ∀ (t : Thesaurus), (∀ i < t.store.concepts.length, ConceptOf t.store t.scheme i) →
      ∀ i < (ops.foldl Thesaurus.apply t).store.concepts.length,
        ConceptOf (ops.foldl Thesaurus.apply t).store (ops.foldl Thesaurus.apply t).scheme i := by
    induction ops with
    | nil => exact fun t h => h
    | cons op ops ih =>
      refine fun t h => ih (fun o ho => hops o (by simp [ho])) _ fun i hi => ?_
      rw [(apply_length t op).1] at hi
      by_cases hlt : i < t.store.concepts.length
      · exact conceptOf_apply op (h i hlt)
      · have hop := hops op (by simp)
        cases op with
        | newTopConcept v ls =>
          refine ⟨i, ?_, .refl⟩
          rw [(apply_tops t _).1]
          simp only [newConcepts] at hi
          simp only [List.mem_append, List.mem_singleton]
          omega
        | newConcept p r v ls =>
          simp only [newConcepts] at hi
          by_cases hp : p < t.store.concepts.length
          · rw [if_pos hp] at hi
            have e : i = t.store.concepts.length := by omega
            obtain ⟨k, hk, hr⟩ := conceptOf_apply (.newConcept p r v ls) (h p hp)
            refine ⟨k, hk, hr.tail ⟨r, ?_, by simpa [SkosOp.aside] using hop⟩⟩
            rw [apply_relations]
            simp [addedRelations, hp, e]
          · rw [if_neg hp] at hi; omega
        | _ => simp only [newConcepts] at hi; omega
  exact this _ (fun i hi => by simp [Thesaurus.new] at hi)

/-- Every collection belongs to the scheme. -/
theorem collectionOf_run (u : Iri) (ops : List SkosOp) :
    ∀ i < (ops.foldl Thesaurus.apply (.new u)).store.collections.length,
      CollectionOf (ops.foldl Thesaurus.apply (.new u)).store (ops.foldl Thesaurus.apply (.new u)).scheme i := by
  have : ∀ (t : Thesaurus), (∀ i < t.store.collections.length, CollectionOf t.store t.scheme i) →
      ∀ i < (ops.foldl Thesaurus.apply t).store.collections.length,
        CollectionOf (ops.foldl Thesaurus.apply t).store (ops.foldl Thesaurus.apply t).scheme i := by
    induction ops with
    | nil => exact fun t h => h
    | cons op ops ih =>
      refine fun t h => ih _ fun i hi => ?_
      rw [(apply_length t op).2] at hi
      by_cases hlt : i < t.store.collections.length
      · exact collectionOf_apply op (h i hlt)
      · cases op with
        | newTopCollection v o ls =>
          refine ⟨i, ?_, .refl⟩
          rw [(apply_tops t _).2]
          simp only [newCollections] at hi
          simp only [List.mem_append, List.mem_singleton]
          omega
        | newCollection p v o ls =>
          simp only [newCollections] at hi
          by_cases hp : p < t.store.collections.length
          · rw [if_pos hp] at hi
            have e : i = t.store.collections.length := by omega
            obtain ⟨k, hk, hr⟩ := collectionOf_apply (.newCollection p v o ls) (h p hp)
            refine ⟨k, hk, hr.tail ?_⟩
            rw [HasSubCollection, apply_members]
            simp [addedMembers, hp, e]
          · rw [if_neg hp] at hi; omega
        | _ => simp only [newCollections] at hi; omega
  exact this _ (fun i hi => by simp [Thesaurus.new] at hi)

end Rdftk
