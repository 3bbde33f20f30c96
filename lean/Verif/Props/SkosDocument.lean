import Mathlib.Data.List.Chain
import Mathlib.Data.List.Nodup
import Verif.Lemmas.Cmp
import Verif.Lemmas.JsonText
import Verif.Props.Skos

/-! Properties C112 and C114: documents about thesauri (`rdftk_skos/src/document.rs`). -/

namespace Rdftk

open Relation Spec

/-- The inverses of the relations of the listed concepts to a concept. -/
def inversesTo (h : SkosStore) (is : List Nat) (a : Nat) : List (ConceptRelation × Nat) :=
  is.flatMap fun i => ((h.concept i).concepts.filter fun e => e.1.getsInverse && e.2 == a).map fun e => (e.1.inverse, i)

/-- The thesaurus in which every concept has further relations. -/
def Thesaurus.relate (t : Thesaurus) (g : Nat → List (ConceptRelation × Nat)) : Thesaurus :=
  { t with store := { t.store with concepts := t.store.concepts.mapIdx fun a c => { c with concepts := c.concepts ++ g a } } }

theorem Thesaurus.relate_nil (t : Thesaurus) : t.relate (fun _ => []) = t := by
  have : (t.store.concepts.mapIdx fun _ c => { c with concepts := c.concepts ++ [] : Concept }) = t.store.concepts := by
    apply List.ext_getElem?
    intro a
    simp only [List.getElem?_mapIdx, List.append_nil]
    cases t.store.concepts[a]? <;> rfl
  simp only [Thesaurus.relate, this]

theorem Thesaurus.relate_relate (t : Thesaurus) (g g' : Nat → List (ConceptRelation × Nat)) :
    (t.relate g).relate g' = t.relate fun a => g a ++ g' a := by
  simp [Thesaurus.relate, List.mapIdx_mapIdx, Function.comp_def]

theorem Thesaurus.relate_congr (t : Thesaurus) {g g' : Nat → List (ConceptRelation × Nat)}
    (hg : ∀ a, a < t.store.concepts.length → g a = g' a) : t.relate g = t.relate g' := by
  have : (t.store.concepts.mapIdx fun a c => { c with concepts := c.concepts ++ g a : Concept }) =
      t.store.concepts.mapIdx fun a c => { c with concepts := c.concepts ++ g' a } := by
    apply List.ext_getElem?
    intro a
    simp only [List.getElem?_mapIdx]
    by_cases ha : a < t.store.concepts.length
    · rw [hg a ha]
    · rw [List.getElem?_eq_none (by omega)]; rfl
  simp only [Thesaurus.relate, this]

theorem Thesaurus.modify_relate (t : Thesaurus) (j : Nat) (x : List (ConceptRelation × Nat)) :
    (t.modifyConcept j fun c => { c with concepts := c.concepts ++ x }) = t.relate fun a => if a = j then x else [] := by
  have : (t.store.concepts.modify j fun c => { c with concepts := c.concepts ++ x }) =
      t.store.concepts.mapIdx fun a c => { c with concepts := c.concepts ++ if a = j then x else [] } := by
    apply List.ext_getElem?
    intro a
    simp only [List.getElem?_mapIdx, List.getElem?_modify]
    cases t.store.concepts[a]? with
    | none => simp
    | some c => by_cases h : j = a <;> simp [h, eq_comm]
  simp only [Thesaurus.relate, Thesaurus.modifyConcept, this]

theorem Thesaurus.length_relate (t : Thesaurus) (g : Nat → List (ConceptRelation × Nat)) :
    (t.relate g).store.concepts.length = t.store.concepts.length := by simp [Thesaurus.relate]

theorem Thesaurus.concept_relate (t : Thesaurus) (g : Nat → List (ConceptRelation × Nat)) {a : Nat} (ha : a < t.store.concepts.length) :
    (t.relate g).store.concept a = { t.store.concept a with concepts := (t.store.concept a).concepts ++ g a } := by
  simp [Thesaurus.relate, SkosStore.concept, List.getD_eq_getElem?_getD, List.getElem?_mapIdx, ha]

/-- Relations that get no inverse do not matter for the inverses. -/
theorem Thesaurus.filter_relate (t : Thesaurus) (g : Nat → List (ConceptRelation × Nat)) (hg : ∀ a, ∀ e ∈ g a, e.1.getsInverse = false)
    (a : Nat) (p : ConceptRelation × Nat → Bool) :
    ((t.relate g).store.concept a).concepts.filter (fun e => e.1.getsInverse && p e) =
      (t.store.concept a).concepts.filter fun e => e.1.getsInverse && p e := by
  by_cases ha : a < t.store.concepts.length
  · rw [Thesaurus.concept_relate t g ha]
    simp only [List.filter_append]
    have : (g a).filter (fun e => e.1.getsInverse && p e) = [] := by
      rw [List.filter_eq_nil_iff]
      intro e he
      simp [hg a e he]
    rw [this, List.append_nil]
  · rw [concept_out (by simpa [Thesaurus.length_relate] using ha), concept_out (by simpa using ha)]

theorem getsInverse_inverse (r : ConceptRelation) (h : r.getsInverse = true) : r.inverse.getsInverse = false := by
  cases r <;> simp_all [ConceptRelation.getsInverse, ConceptRelation.inverse]

theorem addInversesOf_eq (i : Nat) (rs : List (ConceptRelation × Nat)) (t : Thesaurus) :
    addInversesOf i rs t = if rs.any (fun e => e.1.getsInverse && e.2 == i) then .panic else
      .ok (t.relate fun a => (rs.filter fun e => e.1.getsInverse && e.2 == a).map fun e => (e.1.inverse, i)) := by
  induction rs generalizing t with
  | nil => simp [addInversesOf, Thesaurus.relate_nil]
  | cons e rs ih =>
    obtain ⟨r, j⟩ := e
    rw [addInversesOf]
    by_cases hr : r.getsInverse = true
    · by_cases hj : j = i
      · simp [hr, hj]
      · simp only [hr, if_true, hj, if_false, ih, List.any_cons, Bool.true_and, beq_eq_false_iff_ne.2 hj, Bool.false_or]
        split
        · rfl
        · rw [Thesaurus.modify_relate, Thesaurus.relate_relate]
          congr 1
          apply Thesaurus.relate_congr
          intro a _
          by_cases ha : a = j
          · simp [ha, hr]
          · have : j ≠ a := fun e => ha e.symm
            simp [ha, List.filter_cons, hr, this]
    · simp only [Bool.not_eq_true] at hr
      have : ((r, j) :: rs).any (fun e => e.1.getsInverse && e.2 == i) = rs.any fun e => e.1.getsInverse && e.2 == i := by
        rw [List.any_cons, hr]; simp
      rw [this]
      simp only [hr, Bool.false_eq_true, if_false, List.filter_cons, Bool.false_and]
      exact ih t

/-- The loop over the concepts, in one equation. -/
theorem addInverses_eq (is : List Nat) (t : Thesaurus) :
    addInverses is t =
      if is.any (fun i => (t.store.concept i).concepts.any fun e => e.1.getsInverse && e.2 == i) then .panic
      else .ok (t.relate (inversesTo t.store is)) := by
  induction is generalizing t with
  | nil =>
    have : inversesTo t.store [] = fun _ => [] := rfl
    simp [addInverses, this, Thesaurus.relate_nil]
  | cons i is ih =>
    unfold addInverses
    rw [addInversesOf_eq]
    by_cases h : (t.store.concept i).concepts.any (fun e => e.1.getsInverse && e.2 == i) = true
    · simp only [h, if_true, List.any_cons, Bool.true_or]
    · simp only [h, List.any_cons, Bool.false_or]
      simp only [Bool.false_eq_true, if_false]
      generalize hg : (fun a => (((t.store.concept i).concepts.filter fun e => e.1.getsInverse && e.2 == a).map
        fun e => (e.1.inverse, i))) = g
      have hgi : ∀ a, ∀ e ∈ g a, e.1.getsInverse = false := by
        intro a e he
        subst hg
        simp only [List.mem_map, List.mem_filter, Bool.and_eq_true] at he
        obtain ⟨e', he', rfl⟩ := he
        exact getsInverse_inverse _ he'.2.1
      rw [ih]
      have e1 : ∀ j, ((t.relate g).store.concept j).concepts.any (fun e => e.1.getsInverse && e.2 == j) =
          (t.store.concept j).concepts.any fun e => e.1.getsInverse && e.2 == j := by
        intro j
        have := Thesaurus.filter_relate t g hgi j fun e => e.2 == j
        rw [Bool.eq_iff_iff, List.any_eq_true, List.any_eq_true]
        simp only [← List.mem_filter (p := fun e : ConceptRelation × Nat => e.1.getsInverse && e.2 == j)]
        rw [this]
      simp only [e1]
      split
      · rfl
      · rw [Thesaurus.relate_relate]
        congr 1
        apply Thesaurus.relate_congr
        intro a _
        simp only [inversesTo, List.flatMap_cons]
        rw [← hg]
        congr 1
        apply congrArg (List.flatMap · is)
        funext j
        rw [hg, Thesaurus.filter_relate t g hgi]

/-! ### The list of the document -/

theorem mem_vecDedup_of {eq : Nat → Nat → Bool} : ∀ (l : List Nat) (x : Nat), x ∈ vecDedup eq l → x ∈ l
  | [], _, h => by unfold vecDedup at h; exact h
  | [a], _, h => by unfold vecDedup at h; exact h
  | a :: b :: l, x, h => by
    unfold vecDedup at h
    split at h
    · rcases List.mem_cons.1 (mem_vecDedup_of (a :: l) x h) with e | e
      · exact e ▸ List.mem_cons_self
      · exact .tail _ (.tail _ e)
    · rcases List.mem_cons.1 h with e | e
      · exact e ▸ List.mem_cons_self
      · exact .tail _ (mem_vecDedup_of (b :: l) x e)
termination_by l => l.length

theorem vecDedup_sublist {eq : Nat → Nat → Bool} : ∀ l : List Nat, (vecDedup eq l).Sublist l
  | [] => by unfold vecDedup; exact .refl _
  | [a] => by unfold vecDedup; exact .refl _
  | a :: b :: l => by
    unfold vecDedup
    split
    · exact (vecDedup_sublist (a :: l)).trans (.cons_cons _ (.cons _ (.refl _)))
    · exact .cons_cons _ (vecDedup_sublist (b :: l))
termination_by l => l.length

theorem vecDedup_head {eq : Nat → Nat → Bool} : ∀ (l : List Nat) (a : Nat), a ∈ vecDedup eq (a :: l)
  | [], a => by unfold vecDedup; exact List.mem_cons_self
  | b :: l, a => by
    unfold vecDedup
    split
    · exact vecDedup_head l a
    · exact List.mem_cons_self
termination_by l => l.length

theorem vecDedup_covers {eq : Nat → Nat → Bool} : ∀ (l : List Nat) (x : Nat), x ∈ l →
    ∃ y ∈ vecDedup eq l, x = y ∨ eq x y = true
  | [], _, h => nomatch h
  | [a], x, h => ⟨x, by unfold vecDedup; exact h, .inl rfl⟩
  | a :: b :: l, x, h => by
    rcases List.mem_cons.1 h with rfl | h
    · exact ⟨x, vecDedup_head _ _, .inl rfl⟩
    · unfold vecDedup
      split
      · rename_i hb
        rcases List.mem_cons.1 h with rfl | h
        · exact ⟨a, vecDedup_head _ _, .inr hb⟩
        · exact vecDedup_covers (a :: l) x (.tail _ h)
      · obtain ⟨y, hy, e⟩ := vecDedup_covers (b :: l) x h
        exact ⟨y, .tail _ hy, e⟩
termination_by l => l.length

theorem mem_documentConcepts {sty : IriStyle} {lang : Option Str} {eq : Nat → Nat → Bool} {h : SkosStore} {l : List Nat} {i : Nat}
    (hi : i ∈ documentConcepts sty lang eq h l) : i ∈ l :=
  List.mem_mergeSort.1 (mem_vecDedup_of _ _ hi)

theorem documentConcepts_covers {sty : IriStyle} {lang : Option Str} {eq : Nat → Nat → Bool} {h : SkosStore} {l : List Nat}
    {i : Nat} (hi : i ∈ l) : ∃ j ∈ documentConcepts sty lang eq h l, i = j ∨ eq i j = true :=
  vecDedup_covers _ i (List.mem_mergeSort.2 hi)

theorem makeDocument_eq {sty : IriStyle} {lang : Option Str} {eq : Nat → Nat → Bool} {n : Nat} {t : Thesaurus} {l : List Nat}
    (hl : t.scheme.conceptsFlattened t.store n = some l) :
    makeDocument sty lang eq n t = some (addInverses (documentConcepts sty lang eq t.store l) t) := by
  unfold makeDocument
  split
  · rename_i he
    have : t.scheme.concepts = [] := by simpa using he
    have e : l = [] := by
      unfold Scheme.conceptsFlattened at hl
      rw [this] at hl
      simpa using hl.symm
    subst e
    simp [documentConcepts, vecDedup, addInverses]
  · rw [hl]; rfl

/-! ### C112 -/

/-- C112, the full statement: making a document about a thesaurus leaves the thesaurus as it is. -/
def C112_statement : Prop :=
  ∀ (sty : IriStyle) (lang : Option Str) (eq : Nat → Nat → Bool) (n : Nat) (u : Iri) (ops : List SkosOp) (r : Outcome Thesaurus),
    makeDocument sty lang eq n (ops.foldl Thesaurus.apply (.new u)) = some r → r = .ok (ops.foldl Thesaurus.apply (.new u))

/-- C112, what happens: the program stops if a listed concept is narrower than or related to itself; otherwise every concept
gets the inverses of the relations that listed concepts have to it, and nothing else is changed. -/
theorem C112_result (sty : IriStyle) (lang : Option Str) (eq : Nat → Nat → Bool) (n : Nat) (t : Thesaurus) (l : List Nat)
    (hl : t.scheme.conceptsFlattened t.store n = some l) :
    (makeDocument sty lang eq n t = some .panic ↔
      ∃ i ∈ documentConcepts sty lang eq t.store l, ∃ r, (r, i) ∈ (t.store.concept i).concepts ∧ r.getsInverse = true) ∧
    ∀ t', makeDocument sty lang eq n t = some (.ok t') →
      t'.scheme = t.scheme ∧ t'.store.collections = t.store.collections ∧
      t'.store.concepts.length = t.store.concepts.length ∧
      ∀ a, a < t.store.concepts.length → t'.store.concept a =
        { t.store.concept a with
          concepts := (t.store.concept a).concepts ++ inversesTo t.store (documentConcepts sty lang eq t.store l) a } := by
  rw [makeDocument_eq hl, addInverses_eq]
  constructor
  · constructor
    · intro h
      split at h
      · rename_i ha
        simp only [List.any_eq_true, Bool.and_eq_true, beq_iff_eq, Prod.exists] at ha
        obtain ⟨i, hi, r, j, h1, h2, rfl⟩ := ha
        exact ⟨j, hi, r, h1, h2⟩
      · cases h
    · rintro ⟨i, hi, r, h1, h2⟩
      have : (documentConcepts sty lang eq t.store l).any
          (fun i => (t.store.concept i).concepts.any fun e => e.1.getsInverse && e.2 == i) = true := by
        simp only [List.any_eq_true, Bool.and_eq_true, beq_iff_eq, Prod.exists]
        exact ⟨i, hi, r, i, h1, h2, rfl⟩
      rw [if_pos this]
  · intro t' h
    split at h
    · cases h
    · simp only [Option.some.injEq, Outcome.ok.injEq] at h
      subst h
      exact ⟨rfl, rfl, Thesaurus.length_relate _ _, fun a ha => Thesaurus.concept_relate t _ ha⟩

/-- Relations lead to concepts that there are. -/
theorem relations_run (u : Iri) (ops : List SkosOp) : ∀ a, ∀ e ∈ ((ops.foldl Thesaurus.apply (.new u)).store.concept a).concepts,
    a < (ops.foldl Thesaurus.apply (.new u)).store.concepts.length ∧
    e.2 < (ops.foldl Thesaurus.apply (.new u)).store.concepts.length := by
  have : ∀ (t : Thesaurus), (∀ a, ∀ e ∈ (t.store.concept a).concepts, a < t.store.concepts.length ∧ e.2 < t.store.concepts.length) →
      ∀ a, ∀ e ∈ ((ops.foldl Thesaurus.apply t).store.concept a).concepts,
        a < (ops.foldl Thesaurus.apply t).store.concepts.length ∧ e.2 < (ops.foldl Thesaurus.apply t).store.concepts.length := by
    induction ops with
    | nil => exact fun t h => h
    | cons op ops ih =>
      intro t h
      apply ih
      intro a e he
      rw [apply_relations, List.mem_append] at he
      rw [(apply_length t op).1]
      rcases he with he | he
      · have := h a e he
        omega
      · cases op with
        | newConcept i r u ls =>
          simp only [addedRelations] at he
          split at he
          · rename_i hi
            simp only [List.mem_singleton] at he
            subst he
            simp [newConcepts, hi.2]
            omega
          · cases he
        | addRelated i r j =>
          simp only [addedRelations] at he
          split at he
          · rename_i hi
            simp only [List.mem_singleton] at he
            subst he
            exact ⟨by omega, by simp only; omega⟩
          · cases he
        | _ => cases he
  apply this
  intro a e he
  rw [concept_out (by simp [Thesaurus.new])] at he
  cases he

/-- C112, exactly: the thesaurus is as before if and only if no concept of the scheme has a narrower or related one.  The
equality of concepts is any one for which equal concepts are alike in that. -/
theorem C112_iff (sty : IriStyle) (lang : Option Str) (eq : Nat → Nat → Bool) (n : Nat) (u : Iri) (ops : List SkosOp)
    (r : Outcome Thesaurus) (hr : makeDocument sty lang eq n (ops.foldl Thesaurus.apply (.new u)) = some r)
    (heq : ∀ i j, eq i j = true →
      ((∃ e ∈ ((ops.foldl Thesaurus.apply (.new u)).store.concept i).concepts, e.1.getsInverse = true) ↔
        ∃ e ∈ ((ops.foldl Thesaurus.apply (.new u)).store.concept j).concepts, e.1.getsInverse = true)) :
    r = .ok (ops.foldl Thesaurus.apply (.new u)) ↔
      ∀ i, ConceptOf (ops.foldl Thesaurus.apply (.new u)).store (ops.foldl Thesaurus.apply (.new u)).scheme i →
        ∀ e ∈ ((ops.foldl Thesaurus.apply (.new u)).store.concept i).concepts, e.1.getsInverse = false := by
  have hrange := relations_run u ops
  generalize ops.foldl Thesaurus.apply (.new u) = t at *
  by_cases hemp : t.scheme.concepts = []
  · have : r = .ok t := by
      unfold makeDocument at hr
      rw [hemp] at hr
      simpa using hr.symm
    refine ⟨fun _ i hi => ?_, fun _ => this⟩
    obtain ⟨a, ha, _⟩ := hi
    rw [hemp] at ha
    cases ha
  cases hl : t.scheme.conceptsFlattened t.store n with
  | none => unfold makeDocument at hr; simp [hemp, hl] at hr
  | some l =>
    have key : r = addInverses (documentConcepts sty lang eq t.store l) t := by
      unfold makeDocument at hr
      simpa [hemp, hl] using hr.symm
    generalize hd : documentConcepts sty lang eq t.store l = d at *
    have listed : (∀ i, ConceptOf t.store t.scheme i → ∀ e ∈ (t.store.concept i).concepts, e.1.getsInverse = false) ↔
        ∀ i ∈ d, ∀ e ∈ (t.store.concept i).concepts, e.1.getsInverse = false := by
      constructor
      · intro h i hi
        exact h i ((mem_conceptsFlattened hl i).1 (mem_documentConcepts (hd ▸ hi)))
      · intro h i hi e he
        obtain ⟨j, hj, h1⟩ := documentConcepts_covers (sty := sty) (lang := lang) (eq := eq) (h := t.store)
          ((mem_conceptsFlattened hl i).2 hi)
        have hj' := h j (hd ▸ hj)
        rw [Bool.eq_false_iff]
        intro hn
        rcases h1 with rfl | h1
        · rw [hj' e he] at hn; cases hn
        · obtain ⟨e', he', hn'⟩ := (heq i j h1).1 ⟨e, he, hn⟩
          rw [hj' e' he'] at hn'; cases hn'
    rw [listed, key, addInverses_eq]
    constructor
    · intro h i hi e he
      split at h
      · cases h
      · simp only [Outcome.ok.injEq] at h
        obtain ⟨-, h2⟩ := hrange i e he
        have h3 : (t.store.concept e.2).concepts ++ inversesTo t.store d e.2 = (t.store.concept e.2).concepts := by
          have := congrArg (fun t => (t.store.concept e.2).concepts) h
          simpa [Thesaurus.concept_relate t _ h2] using this
        have h4 : inversesTo t.store d e.2 = [] := by simpa using h3
        rw [Bool.eq_false_iff]
        intro hn
        have : (e.1.inverse, i) ∈ inversesTo t.store d e.2 := by
          simp only [inversesTo, List.mem_flatMap, List.mem_map, List.mem_filter, Bool.and_eq_true, beq_iff_eq]
          exact ⟨i, hi, e, ⟨he, hn, rfl⟩, rfl⟩
        rw [h4] at this
        cases this
    · intro h
      have h1 : d.any (fun i => (t.store.concept i).concepts.any fun e => e.1.getsInverse && e.2 == i) = false := by
        rw [Bool.eq_false_iff]
        intro ha
        simp only [List.any_eq_true, Bool.and_eq_true] at ha
        obtain ⟨i, hi, e, he, h1, _⟩ := ha
        rw [h i hi e he] at h1
        cases h1
      have h2 : inversesTo t.store d = fun _ => [] := by
        funext a
        rw [List.eq_nil_iff_forall_not_mem]
        intro e he
        simp only [inversesTo, List.mem_flatMap, List.mem_map, List.mem_filter, Bool.and_eq_true] at he
        obtain ⟨i, hi, e', ⟨he', h3, _⟩, _⟩ := he
        rw [h i hi e' he'] at h3
        cases h3
      rw [h1, h2, Thesaurus.relate_nil]
      rfl

/-- C112 fails: with one narrower concept a broader relation is added. -/
theorem C112_fails : ¬C112_statement := by
  intro h
  have hd := makeDocument_eq (sty := .bare) (lang := none) (eq := fun i j => i == j) (n := 2) (l := [1, 0])
    (t := [SkosOp.newTopConcept ⟨str! "a"⟩ [], .newConcept 0 .narrower ⟨str! "b"⟩ []].foldl Thesaurus.apply (.new ⟨str! "s"⟩))
    (by decide +kernel)
  have h1 := h _ _ _ _ _ _ _ hd
  have h2 := (C112_iff _ _ _ _ _ _ _ hd (by
    intro i j e
    rw [beq_iff_eq] at e
    rw [e])).1 h1 0 ⟨0, by decide +kernel, .refl⟩ (.narrower, 1) (by decide +kernel)
  cases h2

/-- C112, what the relations mean: after a document is made, every narrower or related concept of a listed one has the
inverse relation. -/
theorem C112_inverse (sty : IriStyle) (lang : Option Str) (eq : Nat → Nat → Bool) (n : Nat) (t t' : Thesaurus) (l : List Nat)
    (hl : t.scheme.conceptsFlattened t.store n = some l) (ht : makeDocument sty lang eq n t = some (.ok t')) :
    ∀ i ∈ documentConcepts sty lang eq t.store l, ∀ e ∈ (t.store.concept i).concepts, e.1.getsInverse = true →
      e.2 < t.store.concepts.length → (e.1.inverse, i) ∈ (t'.store.concept e.2).concepts := by
  intro i hi e he h1 h2
  rw [((C112_result sty lang eq n t l hl).2 t' ht).2.2.2 e.2 h2]
  refine List.mem_append_right _ ?_
  simp only [inversesTo, List.mem_flatMap, List.mem_map, List.mem_filter, Bool.and_eq_true, beq_iff_eq]
  exact ⟨i, hi, e, ⟨he, h1, rfl⟩, rfl⟩

theorem conceptChildren_relate (t : Thesaurus) (g : Nat → List (ConceptRelation × Nat))
    (hg : ∀ a, ∀ e ∈ g a, e.1.isNarrower = false) : conceptChildren (t.relate g).store = conceptChildren t.store := by
  funext a
  unfold conceptChildren
  by_cases ha : a < t.store.concepts.length
  · rw [Thesaurus.concept_relate t g ha]
    simp only [List.filter_append]
    have : (g a).filter (fun e => e.1.isNarrower) = [] := by
      rw [List.filter_eq_nil_iff]
      intro e he
      simp [hg a e he]
    rw [this, List.append_nil]
  · rw [concept_out (by simpa [Thesaurus.length_relate] using ha), concept_out (by simpa using ha)]

theorem inversesTo_kind {h : SkosStore} {is : List Nat} {a : Nat} {e : ConceptRelation × Nat} (he : e ∈ inversesTo h is a) :
    e.1.isNarrower = false ∧ e.1.getsInverse = false := by
  simp only [inversesTo, List.mem_flatMap, List.mem_map, List.mem_filter, Bool.and_eq_true] at he
  obtain ⟨i, _, ⟨r, j⟩, ⟨_, h1, _⟩, rfl⟩ := he
  cases r <;> simp_all [ConceptRelation.getsInverse, ConceptRelation.inverse, ConceptRelation.isNarrower]

/-- C112, and again: a second document adds the same relations a second time. -/
theorem C112_again (sty : IriStyle) (lang : Option Str) (eq : Nat → Nat → Bool) (n : Nat) (t t' : Thesaurus) (l : List Nat)
    (hl : t.scheme.conceptsFlattened t.store n = some l) (ht : makeDocument sty lang eq n t = some (.ok t')) :
    ∃ t'', makeDocument sty lang eq n t' = some (.ok t'') ∧ ∀ a, a < t.store.concepts.length →
      (t''.store.concept a).concepts = (t.store.concept a).concepts ++
        inversesTo t.store (documentConcepts sty lang eq t.store l) a ++
        inversesTo t.store (documentConcepts sty lang eq t.store l) a := by
  rw [makeDocument_eq hl, addInverses_eq] at ht
  split at ht
  · cases ht
  rename_i hn
  simp only [Option.some.injEq, Outcome.ok.injEq] at ht
  generalize hd : documentConcepts sty lang eq t.store l = d at *
  have hg : ∀ a, ∀ e ∈ inversesTo t.store d a, e.1.getsInverse = false := fun a e he => (inversesTo_kind he).2
  have hl' : t'.scheme.conceptsFlattened t'.store n = some l := by
    rw [← ht, Scheme.conceptsFlattened_eq, conceptChildren_relate _ _ (fun a e he => (inversesTo_kind he).1),
      ← hl, Scheme.conceptsFlattened_eq]
    rfl
  have hd' : documentConcepts sty lang eq t'.store l = d := by
    rw [← hd]
    have : ∀ i, (t'.store.concept i).uri = (t.store.concept i).uri ∧ (t'.store.concept i).labels = (t.store.concept i).labels := by
      intro i
      rw [← ht]
      by_cases hi : i < t.store.concepts.length
      · rw [Thesaurus.concept_relate _ _ hi]; exact ⟨rfl, rfl⟩
      · rw [concept_out (by simpa [Thesaurus.length_relate] using hi), concept_out (by simpa using hi)]; exact ⟨rfl, rfl⟩
    simp only [documentConcepts, this]
  have hi : inversesTo t'.store d = inversesTo t.store d := by
    funext a
    simp only [inversesTo, ← ht]
    apply congrArg (List.flatMap · d)
    funext j
    rw [Thesaurus.filter_relate t _ hg]
  rw [makeDocument_eq hl', addInverses_eq, hd', hi]
  have e1 : ∀ j, (t'.store.concept j).concepts.any (fun e => e.1.getsInverse && e.2 == j) =
      (t.store.concept j).concepts.any fun e => e.1.getsInverse && e.2 == j := by
    intro j
    have := Thesaurus.filter_relate t _ hg j fun e => e.2 == j
    rw [ht] at this
    rw [Bool.eq_iff_iff, List.any_eq_true, List.any_eq_true]
    simp only [← List.mem_filter (p := fun e : ConceptRelation × Nat => e.1.getsInverse && e.2 == j)]
    rw [this]
  simp only [e1, hn]
  refine ⟨_, rfl, fun a ha => ?_⟩
  rw [← ht, Thesaurus.relate_relate, Thesaurus.concept_relate _ _ ha]
  simp only [List.append_assoc]

/-- C112, the appendix: the graph that is added to the document is that of the changed thesaurus, in which the inverse
relations are said for the concepts that are part of the scheme. -/
theorem C112_graph (pr : Char → Bool) (gen : Nat → Str) (sty : IriStyle) (lang : Option Str) (eq : Nat → Nat → Bool) (n k : Nat)
    (t t' : Thesaurus) (l : List Nat) (sts : List Stmt)
    (hl : t.scheme.conceptsFlattened t.store n = some l) (ht : makeDocument sty lang eq n t = some (.ok t'))
    (hs : t'.scheme.toStatements pr gen t'.store n k = some sts) :
    ∀ i ∈ documentConcepts sty lang eq t.store l, ∀ e ∈ (t.store.concept i).concepts, e.1.isNarrower = true →
      e.2 < t.store.concepts.length →
      .mk (.res (t.store.concept e.2).uri) e.1.inverse.toUri (.res (t.store.concept i).uri) ∈ sts := by
  intro i hi e he h1 h2
  have h3 := C112_inverse sty lang eq n t t' l hl ht i hi e he (by revert h1; cases e.1 <;> decide) h2
  have hu : ∀ a, (t'.store.concept a).uri = (t.store.concept a).uri := by
    intro a
    have h4 := (C112_result sty lang eq n t l hl).2 t' ht
    by_cases ha : a < t.store.concepts.length
    · rw [h4.2.2.2 a ha]
    · rw [concept_out (by rw [h4.2.2.1]; omega), concept_out (by omega)]
  have hc : ConceptOf t.store t.scheme e.2 := by
    obtain ⟨a, ha, hr⟩ := (mem_conceptsFlattened hl i).1 (mem_documentConcepts hi)
    exact ⟨a, ha, hr.tail ⟨e.1, he, h1⟩⟩
  have hc' : ConceptOf t'.store t'.scheme e.2 := by
    have hl' : t'.scheme.conceptsFlattened t'.store n = some l := by
      rw [makeDocument_eq hl, addInverses_eq] at ht
      split at ht
      · cases ht
      · simp only [Option.some.injEq, Outcome.ok.injEq] at ht
        rw [← ht, Scheme.conceptsFlattened_eq, conceptChildren_relate _ _ (fun a e he => (inversesTo_kind he).1),
          ← hl, Scheme.conceptsFlattened_eq]
        rfl
    exact (mem_conceptsFlattened hl' _).1 ((mem_conceptsFlattened hl _).2 hc)
  rw [C107_statements pr gen t'.store t'.scheme n k sts hs _ (fun b e => by cases e)]
  rw [← hu e.2, ← hu i]
  exact .relation hc' h3

/-! ### C114 -/

/-- C114, the full statement: a document describes every concept of the scheme exactly once, in the order of the labels. -/
def C114_statement : Prop :=
  ∀ (sty : IriStyle) (lang : Option Str) (eq : Nat → Nat → Bool) (h : SkosStore) (s : Scheme) (n : Nat) (l : List Nat),
    s.conceptsFlattened h n = some l → (∀ i j, eq i j = true ↔ i = j) →
    (documentConcepts sty lang eq h l).Nodup ∧ (∀ i, i ∈ documentConcepts sty lang eq h l ↔ ConceptOf h s i) ∧
    (documentConcepts sty lang eq h l).Pairwise fun i j =>
      cmpStr (preferredLabelFor sty (h.concept i).uri (h.concept i).labels lang)
        (preferredLabelFor sty (h.concept j).uri (h.concept j).labels lang) ≠ .gt

/-- C114, what holds: exactly the concepts of the scheme are described, up to the equality of concepts, in the order of
their labels, and once each if the scheme lists none twice.  Missing: concepts that are listed twice. -/
theorem C114_partial (sty : IriStyle) (lang : Option Str) (eq : Nat → Nat → Bool) (h : SkosStore) (s : Scheme) (n : Nat)
    (l : List Nat) (hl : s.conceptsFlattened h n = some l) :
    (∀ i ∈ documentConcepts sty lang eq h l, ConceptOf h s i) ∧
    (∀ i, ConceptOf h s i → ∃ j ∈ documentConcepts sty lang eq h l, i = j ∨ eq i j = true) ∧
    ((documentConcepts sty lang eq h l).Pairwise fun i j =>
      cmpStr (preferredLabelFor sty (h.concept i).uri (h.concept i).labels lang)
        (preferredLabelFor sty (h.concept j).uri (h.concept j).labels lang) ≠ .gt) ∧
    (l.Nodup → (documentConcepts sty lang eq h l).Nodup) := by
  refine ⟨fun i hi => (mem_conceptsFlattened hl i).1 (mem_documentConcepts hi),
    fun i hi => documentConcepts_covers ((mem_conceptsFlattened hl i).2 hi), ?_, ?_⟩
  · have : (l.mergeSort fun i j => cmpStr (preferredLabelFor sty (h.concept i).uri (h.concept i).labels lang)
        (preferredLabelFor sty (h.concept j).uri (h.concept j).labels lang) != .gt).Pairwise fun i j =>
        (cmpStr (preferredLabelFor sty (h.concept i).uri (h.concept i).labels lang)
          (preferredLabelFor sty (h.concept j).uri (h.concept j).labels lang) != .gt) = true := by
      apply List.pairwise_mergeSort
      · intro a b c hab hbc
        simp only [bne_iff_ne, ne_eq, cmpStr_gt] at *
        intro hca
        by_cases hcb : cmpStr (preferredLabelFor sty (h.concept b).uri (h.concept b).labels lang)
          (preferredLabelFor sty (h.concept a).uri (h.concept a).labels lang) = .gt
        · rw [cmpStr_gt] at hcb
          exact hbc (cmpStr_order.trans _ _ _ hca hcb)
        · have : cmpStr (preferredLabelFor sty (h.concept b).uri (h.concept b).labels lang)
            (preferredLabelFor sty (h.concept a).uri (h.concept a).labels lang) = .eq := by
            cases hx : cmpStr (preferredLabelFor sty (h.concept b).uri (h.concept b).labels lang)
              (preferredLabelFor sty (h.concept a).uri (h.concept a).labels lang) with
            | lt => exact absurd hx hab
            | eq => rfl
            | gt => exact absurd hx hcb
          rw [cmpStr_eq] at this
          rw [this] at hbc
          exact hbc hca
      · intro a b
        simp only [Bool.or_eq_true, bne_iff_ne, ne_eq, cmpStr_gt]
        by_cases hab : cmpStr (preferredLabelFor sty (h.concept b).uri (h.concept b).labels lang)
          (preferredLabelFor sty (h.concept a).uri (h.concept a).labels lang) = .lt
        · refine .inr fun hba => ?_
          have := cmpStr_order.trans _ _ _ hab hba
          rw [cmpStr_order.refl] at this
          cases this
        · exact .inl hab
    exact (this.imp fun h => by simpa using h).sublist (vecDedup_sublist _)
  · intro hn
    exact ((List.mergeSort_perm _ _).nodup_iff.2 hn).sublist (vecDedup_sublist _)

theorem vecDedup_keeps {eq : Nat → Nat → Bool} (he : ∀ i j, eq i j = true ↔ i = j) : ∀ (l c : List Nat),
    c.IsChain (· ≠ ·) → c.Sublist l → c.Sublist (vecDedup eq l)
  | [], c, _, h => by unfold vecDedup; exact h
  | [a], c, _, h => by unfold vecDedup; exact h
  | a :: b :: l, c, hc, h => by
    unfold vecDedup
    split
    · rename_i hb
      have hb := (he _ _).1 hb
      subst hb
      refine vecDedup_keeps he (b :: l) c hc ?_
      cases h with
      | cons _ h => exact h
      | @cons_cons c' _ _ h =>
        refine .cons_cons _ ?_
        cases h with
        | cons _ h => exact h
        | cons_cons _ h => exact absurd rfl (List.isChain_cons_cons.1 hc).1
    · cases h with
      | cons _ h => exact .cons _ (vecDedup_keeps he (b :: l) c hc h)
      | @cons_cons c' _ _ h => exact .cons_cons _ (vecDedup_keeps he (b :: l) c' hc.tail h)

theorem vecDedup_starts {eq : Nat → Nat → Bool} : ∀ (l : List Nat) (a : Nat), ∃ r, vecDedup eq (a :: l) = a :: r
  | [], a => ⟨[], by simp [vecDedup]⟩
  | b :: l, a => by
    unfold vecDedup
    split
    · exact vecDedup_starts l a
    · exact ⟨_, rfl⟩

theorem vecDedup_chain {eq : Nat → Nat → Bool} (he : ∀ i j, eq i j = true ↔ i = j) : ∀ l : List Nat, (vecDedup eq l).IsChain (· ≠ ·)
  | [] => by simp [vecDedup]
  | [a] => by simp [vecDedup]
  | a :: b :: l => by
    unfold vecDedup
    split
    · exact vecDedup_chain he (a :: l)
    · rename_i hb
      have ih := vecDedup_chain he (b :: l)
      obtain ⟨r, hr⟩ := vecDedup_starts (eq := eq) l b
      rw [hr] at ih ⊢
      exact List.isChain_cons_cons.2 ⟨fun e => hb ((he _ _).2 e.symm), ih⟩

theorem chain_between {i : Nat} : ∀ d : List Nat, d.IsChain (· ≠ ·) → [i, i].Sublist d → ∃ j, j ≠ i ∧ [i, j, i].Sublist d
  | [], _, h => by cases h
  | a :: d, hc, h => by
    cases h with
    | cons _ h =>
      obtain ⟨j, h1, h2⟩ := chain_between d hc.tail h
      exact ⟨j, h1, .cons _ h2⟩
    | cons_cons _ h =>
      match d, hc, h with
      | b :: d, hc, h =>
        have hb := (List.isChain_cons_cons.1 hc).1
        refine ⟨b, Ne.symm hb, .cons_cons _ (.cons_cons _ ?_)⟩
        cases h with
        | cons _ h => exact h
        | cons_cons _ h => exact absurd rfl hb

/-- What is left of a list has something twice exactly if something else was between. -/
theorem vecDedup_nodup {eq : Nat → Nat → Bool} (he : ∀ i j, eq i j = true ↔ i = j) (l : List Nat) :
    (vecDedup eq l).Nodup ↔ ∀ i j, j ≠ i → ¬[i, j, i].Sublist l := by
  constructor
  · intro hn i j hj h
    have h1 := vecDedup_keeps he l [i, j, i] (by simp [hj, Ne.symm hj]) h
    have h2 : [i, i].Sublist (vecDedup eq l) := .trans (.cons_cons _ (.cons _ (.refl _))) h1
    exact List.nodup_iff_sublist.1 hn i h2
  · intro h
    refine List.nodup_iff_sublist.2 fun i hi => ?_
    obtain ⟨j, h1, h2⟩ := chain_between _ (vecDedup_chain he l) hi
    exact h i j h1 (h2.trans (vecDedup_sublist l))

theorem label_le_trans (f : Nat → Str) (a b c : Nat) (hab : (cmpStr (f a) (f b) != .gt) = true) (hbc : (cmpStr (f b) (f c) != .gt) = true) :
    (cmpStr (f a) (f c) != .gt) = true := by
  simp only [bne_iff_ne, ne_eq, cmpStr_gt] at *
  intro hca
  cases hx : cmpStr (f b) (f a) with
  | lt => exact absurd hx hab
  | eq => rw [cmpStr_eq] at hx; rw [hx] at hbc; exact hbc hca
  | gt => rw [cmpStr_gt] at hx; exact hbc (cmpStr_order.trans _ _ _ hca hx)

theorem label_le_total (f : Nat → Str) (a b : Nat) : (cmpStr (f a) (f b) != .gt || cmpStr (f b) (f a) != .gt) = true := by
  simp only [Bool.or_eq_true, bne_iff_ne, ne_eq, cmpStr_gt]
  by_cases hab : cmpStr (f b) (f a) = .lt
  · refine .inr fun hba => ?_
    have := cmpStr_order.trans _ _ _ hab hba
    rw [cmpStr_order.refl] at this
    cases this
  · exact .inl hab

/-- Sorting by a label keeps the order of what has the same label. -/
theorem sorted_between (f : Nat → Str) (l : List Nat) (i j : Nat) :
    [i, j, i].Sublist (l.mergeSort fun i j => cmpStr (f i) (f j) != .gt) ↔ f i = f j ∧ [i, j, i].Sublist l := by
  have hs := List.pairwise_mergeSort (le := fun i j => cmpStr (f i) (f j) != .gt) (label_le_trans f) (label_le_total f) l
  constructor
  · intro h
    have hp := hs.sublist h
    have h1 : (cmpStr (f i) (f j) != .gt) = true := (List.pairwise_cons.1 hp).1 j (by simp)
    have h2 : (cmpStr (f j) (f i) != .gt) = true := (List.pairwise_cons.1 (List.pairwise_cons.1 hp).2).1 i (by simp)
    have he : f i = f j := by
      simp only [bne_iff_ne, ne_eq, cmpStr_gt] at h1 h2
      cases hx : cmpStr (f i) (f j) with
      | lt => exact absurd hx h2
      | eq => exact cmpStr_eq.1 hx
      | gt => exact absurd (cmpStr_gt.1 hx) h1
    refine ⟨he, ?_⟩
    have hsub : (l.filter fun k => decide (f k = f i)).Sublist ((l.mergeSort fun i j => cmpStr (f i) (f j) != .gt)) := by
      refine List.sublist_mergeSort (label_le_trans f) (label_le_total f) ?_ List.filter_sublist
      refine List.pairwise_of_forall_mem_list fun a ha b hb => ?_
      have ha := (List.mem_filter.1 ha).2
      have hb := (List.mem_filter.1 hb).2
      simp only [decide_eq_true_eq] at ha hb
      rw [ha, hb, cmpStr_order.refl]
      rfl
    have hsub2 := hsub.filter fun k => decide (f k = f i)
    rw [List.filter_filter] at hsub2
    simp only [Bool.and_self] at hsub2
    have hlen := ((List.mergeSort_perm l fun i j => cmpStr (f i) (f j) != .gt).filter fun k => decide (f k = f i)).length_eq
    have e := hsub2.eq_of_length hlen.symm
    have h3 := h.filter fun k => decide (f k = f i)
    rw [← e] at h3
    simp only [List.filter_cons, he, decide_true, if_true, List.filter_nil] at h3
    exact h3.trans List.filter_sublist
  · rintro ⟨he, h⟩
    refine List.sublist_mergeSort (label_le_trans f) (label_le_total f) ?_ h
    simp [he, cmpStr_order.refl]

/-- C114, exactly: concepts are described once each unless the list of the scheme has, between two occurrences of a concept,
another with the same label. -/
theorem C114_iff (sty : IriStyle) (lang : Option Str) (eq : Nat → Nat → Bool) (h : SkosStore) (s : Scheme) (n : Nat)
    (l : List Nat) (hl : s.conceptsFlattened h n = some l) (he : ∀ i j, eq i j = true ↔ i = j) :
    (∀ i, i ∈ documentConcepts sty lang eq h l ↔ ConceptOf h s i) ∧
    ((documentConcepts sty lang eq h l).Nodup ↔ ∀ i j, j ≠ i →
      preferredLabelFor sty (h.concept i).uri (h.concept i).labels lang = preferredLabelFor sty (h.concept j).uri (h.concept j).labels lang →
      ¬[i, j, i].Sublist l) := by
  have hp := C114_partial sty lang eq h s n l hl
  refine ⟨fun i => ⟨hp.1 i, fun hi => ?_⟩, ?_⟩
  · obtain ⟨j, hj, e | e⟩ := hp.2.1 i hi
    · rw [e]; exact hj
    · rw [(he _ _).1 e]; exact hj
  · unfold documentConcepts
    rw [vecDedup_nodup he]
    refine ⟨fun h1 i j hj e hs => h1 i j hj ((sorted_between (fun i => preferredLabelFor sty (h.concept i).uri (h.concept i).labels lang) l i j).2 ⟨e, hs⟩),
      fun h1 i j hj hs => ?_⟩
    obtain ⟨e, hs⟩ := (sorted_between (fun i => preferredLabelFor sty (h.concept i).uri (h.concept i).labels lang) l i j).1 hs
    exact h1 i j hj e hs

/-- C114 fails: a concept that two others have as a narrower one is described twice if another concept has its label. -/
theorem C114_fails : ¬C114_statement := by
  intro h
  have := (h .bare none (fun i j => i == j)
    (([.newTopConcept ⟨[]⟩ [], .newTopConcept ⟨[]⟩ [], .newConcept 0 .narrower ⟨[]⟩ [], .addRelated 1 .narrower 2] : List SkosOp).foldl
      Thesaurus.apply (.new ⟨[]⟩)).store
    (([.newTopConcept ⟨[]⟩ [], .newTopConcept ⟨[]⟩ [], .newConcept 0 .narrower ⟨[]⟩ [], .addRelated 1 .narrower 2] : List SkosOp).foldl
      Thesaurus.apply (.new ⟨[]⟩)).scheme 2 [2, 0, 2, 1] (by decide +kernel) (by simp)).1
  unfold documentConcepts at this
  rw [List.mergeSort_of_pairwise (by decide +kernel)] at this
  simp [vecDedup] at this

end Rdftk
