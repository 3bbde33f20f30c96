import Verif.Props.Skos

/-! Exactly which thesauri satisfy the conditions of SKOS: C113. -/

namespace Rdftk

open Relation Spec

/-- Types other than that of lists, and literals, are said only by the thesaurus itself. -/
theorem skos_mem {pr : Char → Bool} {gen : Nat → Str} {h : SkosStore} {s : Scheme} {n k : Nat} {sts : List Stmt}
    (hs : s.toStatements pr gen h n k = some sts) {x : Subject} {p : Iri} {o : Object}
    (ho : (p = rdfType ∧ o ≠ .res (rdfIri (str! "List"))) ∨ ∃ l, o = .lit l) :
    .mk x p o ∈ sts ↔ Says pr h s (.mk x p o) := by
  by_cases hb : ∀ b, x ≠ .blank b
  · exact C107_statements pr gen h s n k sts hs (.mk x p o) hb
  · have : ∃ b, x = .blank b := Classical.byContradiction fun hn => hb fun b e => hn ⟨b, e⟩
    obtain ⟨b, rfl⟩ := this
    constructor
    · intro hst
      exfalso
      obtain ⟨i, -, -, k', h1⟩ := C107_blank pr gen h s n k sts hs _ b rfl hst
      have : ∀ (k : Nat) (cur : Str) (ms : List Iri) (st : Stmt), st ∈ (listFrom gen k cur ms).1 →
          (st.predicate = rdfType → st.object = .res (rdfIri (str! "List"))) ∧ ∀ l, st.object ≠ .lit l := by
        intro k cur ms
        induction ms generalizing k cur with
        | nil =>
          intro st hst
          simp only [listFrom, makeListEnd, List.mem_cons, List.not_mem_nil, or_false] at hst
          rcases hst with rfl | rfl
          · exact ⟨fun _ => rfl, fun l e => by cases e⟩
          · exact ⟨fun e => absurd e (by simp only [Stmt.predicate]; decide +kernel), fun l e => by cases e⟩
        | cons m ms ih =>
          intro st hst
          simp only [listFrom, makeListNode, addToListNode, List.cons_append, List.mem_cons, List.mem_append] at hst
          simp only [List.not_mem_nil, false_or, or_false] at hst
          rcases hst with rfl | rfl | rfl | hst
          · exact ⟨fun e => absurd e (by simp only [Stmt.predicate]; decide +kernel), fun l e => by cases e⟩
          · exact ⟨fun e => absurd e (by simp only [Stmt.predicate]; decide +kernel), fun l e => by cases e⟩
          · exact ⟨fun _ => rfl, fun l e => by cases e⟩
          · exact ih _ _ _ hst
      have h2 : (p = rdfType → o = .res (rdfIri (str! "List"))) ∧ ∀ l, o ≠ .lit l := by
        simp only [listStatements, makeListNode, List.mem_append, List.mem_singleton, List.not_mem_nil, false_or] at h1
        rcases h1 with e | h1
        · injection e with _ _ e
          subst e
          exact ⟨fun _ => rfl, fun l e => by cases e⟩
        · exact this _ _ _ _ h1
      rcases ho with ⟨e1, e2⟩ | ⟨l, e⟩
      · exact e2 (h2.1 e1)
      · exact h2.2 l e
    · intro hsay
      exfalso
      generalize hst : Stmt.mk (.blank b) p o = st at hsay
      have key : ∀ {u ls ps}, ¬SaysOf pr u ls ps st := fun h1 => by
        obtain ⟨_, _, e⟩ := saysOf_subject h1; rw [e] at hst; cases hst
      cases hsay with
      | schemeOf h1 => exact key h1
      | conceptOf _ h1 => exact key h1
      | collectionOf _ h1 => exact key h1
      | _ => cases hst

/-- A thesaurus in which nothing is two of concept, concept scheme and collection. -/
structure Apart (h : SkosStore) (s : Scheme) : Prop where
  concept : ∀ i, ConceptOf h s i → (h.concept i).uri ≠ s.uri
  collection : ∀ i, CollectionOf h s i → (h.collection i).uri ≠ s.uri
  apart : ∀ i j, ConceptOf h s i → CollectionOf h s j → (h.concept i).uri ≠ (h.collection j).uri
  external : ∀ i, ConceptOf h s i → ∀ c, (rdfType, c) ∈ (h.concept i).external →
    c ∉ [skosIri (str! "ConceptScheme"), skosIri (str! "Collection"), skosIri (str! "OrderedCollection")]

/-- The types that are said. -/
theorem says_types {pr : Char → Bool} {h : SkosStore} {s : Scheme} {x : Subject} {c : Iri} :
    Says pr h s (.mk x rdfType (.res c)) ↔
    (x = .res s.uri ∧ c = skosIri (str! "ConceptScheme")) ∨
    (∃ i, ConceptOf h s i ∧ x = .res (h.concept i).uri ∧ (c = skosIri (str! "Concept") ∨ (rdfType, c) ∈ (h.concept i).external)) ∨
    ∃ i, CollectionOf h s i ∧ x = .res (h.collection i).uri ∧
      c = skosIri (if (h.collection i).ordered then str! "OrderedCollection" else str! "Collection") := by
  constructor
  · intro hs
    generalize hst : Stmt.mk x rdfType (.res c) = st at hs
    cases hs with
    | scheme => injection hst with e1 e2 e3; injection e3 with e3; exact .inl ⟨e1, e3⟩
    | schemeOf h1 => obtain ⟨_, _, e⟩ := saysOf_subject h1; rw [e] at hst; cases hst
    | concept hi => injection hst with e1 e2 e3; injection e3 with e3; exact .inr (.inl ⟨_, hi, e1, .inl e3⟩)
    | conceptIn hi => injection hst with _ e; exact absurd e (by decide +kernel)
    | @relation _ _ r hi => injection hst with _ e; exact absurd e (by cases r <;> decide +kernel)
    | external hi he =>
      injection hst with e1 e2 e3
      injection e3 with e3
      subst e2 e3
      exact .inr (.inl ⟨_, hi, e1, .inr he⟩)
    | conceptOf _ h1 => obtain ⟨_, _, e⟩ := saysOf_subject h1; rw [e] at hst; cases hst
    | topConceptOf => injection hst with _ e; exact absurd e (by decide +kernel)
    | hasTopConcept => injection hst with _ e; exact absurd e (by decide +kernel)
    | @collection i hi =>
      injection hst with e1 e2 e3
      injection e3 with e3
      exact .inr (.inr ⟨_, hi, e1, e3⟩)
    | collectionIn => injection hst with _ e; exact absurd e (by decide +kernel)
    | member => injection hst with _ e; exact absurd e (by decide +kernel)
    | collectionOf _ h1 => obtain ⟨_, _, e⟩ := saysOf_subject h1; rw [e] at hst; cases hst
  · rintro (⟨rfl, rfl⟩ | ⟨i, hi, rfl, rfl | he⟩ | ⟨i, hi, rfl, rfl⟩)
    · exact .scheme
    · exact .concept hi
    · exact .external hi he
    · exact .collection hi

/-- C113 for classes, exactly. -/
theorem C113_classes_iff (pr : Char → Bool) (gen : Nat → Str) (h : SkosStore) (s : Scheme) (n k : Nat) (sts : List Stmt)
    (hs : s.toStatements pr gen h n k = some sts) : DisjointClasses sts ↔ Apart h s := by
  have d1 : skosIri (str! "Concept") ≠ skosIri (str! "ConceptScheme") := by decide +kernel
  have d2 : skosIri (str! "Concept") ≠ skosIri (str! "Collection") := by decide +kernel
  have d3 : skosIri (str! "Concept") ≠ skosIri (str! "OrderedCollection") := by decide +kernel
  have d4 : skosIri (str! "ConceptScheme") ≠ skosIri (str! "Collection") := by decide +kernel
  have d5 : skosIri (str! "ConceptScheme") ≠ skosIri (str! "OrderedCollection") := by decide +kernel
  have l1 : skosIri (str! "Concept") ≠ rdfIri (str! "List") := by decide +kernel
  have l2 : skosIri (str! "ConceptScheme") ≠ rdfIri (str! "List") := by decide +kernel
  have l3 : skosIri (str! "Collection") ≠ rdfIri (str! "List") := by decide +kernel
  have l4 : skosIri (str! "OrderedCollection") ≠ rdfIri (str! "List") := by decide +kernel
  have mem : ∀ {x c}, c ≠ rdfIri (str! "List") → (.mk x rdfType (.res c) ∈ sts ↔ Says pr h s (.mk x rdfType (.res c))) :=
    fun hc => skos_mem hs (.inl ⟨rfl, fun e => hc (by injection e)⟩)
  have coll : ∀ i, skosIri (if (h.collection i).ordered then str! "OrderedCollection" else str! "Collection") ∈
      [skosIri (str! "Collection"), skosIri (str! "OrderedCollection")] := fun i => by
    cases (h.collection i).ordered
    · exact .head _
    · exact .tail _ (.head _)
  constructor
  · intro hd
    have ne : ∀ {x : Subject} {c c' y y'}, c ∈ [[skosIri (str! "Concept")], [skosIri (str! "ConceptScheme")],
        [skosIri (str! "Collection"), skosIri (str! "OrderedCollection")]] →
        c' ∈ [[skosIri (str! "Concept")], [skosIri (str! "ConceptScheme")],
        [skosIri (str! "Collection"), skosIri (str! "OrderedCollection")]] → y ∈ c → y' ∈ c' →
        Says pr h s (.mk x rdfType (.res y)) → Says pr h s (.mk x rdfType (.res y')) → c = c' := by
      intro x c c' y y' hc hc' hy hy' h1 h2
      refine hd x c c' hc hc' ⟨y, hy, (mem ?_).2 h1⟩ ⟨y', hy', (mem ?_).2 h2⟩
      · simp only [List.mem_cons, List.not_mem_nil, or_false] at hc
        rcases hc with rfl | rfl | rfl <;> simp only [List.mem_cons, List.not_mem_nil, or_false] at hy <;> grind
      · simp only [List.mem_cons, List.not_mem_nil, or_false] at hc'
        rcases hc' with rfl | rfl | rfl <;> simp only [List.mem_cons, List.not_mem_nil, or_false] at hy' <;> grind
    refine ⟨fun i hi e => ?_, fun i hi e => ?_, fun i j hi hj e => ?_, fun i hi c he hc => ?_⟩
    · have h1 := Says.concept (pr := pr) hi
      rw [e] at h1
      have := ne (.head _) (.tail _ (.head _)) (.head _) (.head _) h1 .scheme
      simp [d1] at this
    · have h1 := Says.collection (pr := pr) hi
      rw [e] at h1
      have := ne (.tail _ (.tail _ (.head _))) (.tail _ (.head _)) (coll i) (.head _) h1 .scheme
      simp at this
    · have h1 := Says.collection (pr := pr) hj
      rw [← e] at h1
      have := ne (.tail _ (.tail _ (.head _))) (.head _) (coll j) (.head _) h1 (.concept hi)
      simp at this
    · have h1 := Says.external (pr := pr) hi he
      simp only [List.mem_cons, List.not_mem_nil, or_false] at hc
      rcases hc with rfl | hc
      · have := ne (.tail _ (.head _)) (.head _) (.head _) (.head _) h1 (.concept hi)
        simp [d1.symm] at this
      · have := ne (.tail _ (.tail _ (.head _))) (.head _) (by simpa using hc) (.head _) h1 (.concept hi)
        simp at this
  · intro ht x c c' hc hc' hx hx'
    have key : ∀ {c}, c ∈ [[skosIri (str! "Concept")], [skosIri (str! "ConceptScheme")],
        [skosIri (str! "Collection"), skosIri (str! "OrderedCollection")]] → (∃ y ∈ c, .mk x rdfType (.res y) ∈ sts) →
        (x = .res s.uri ∧ c = [skosIri (str! "ConceptScheme")]) ∨
        (∃ i, ConceptOf h s i ∧ x = .res (h.concept i).uri ∧ c = [skosIri (str! "Concept")]) ∨
        ∃ i, CollectionOf h s i ∧ x = .res (h.collection i).uri ∧
          c = [skosIri (str! "Collection"), skosIri (str! "OrderedCollection")] := by
      rintro c hc ⟨y, hy, h1⟩
      have hne : y ≠ rdfIri (str! "List") := by
        simp only [List.mem_cons, List.not_mem_nil, or_false] at hc
        rcases hc with rfl | rfl | rfl <;> simp only [List.mem_cons, List.not_mem_nil, or_false] at hy <;> grind
      rw [mem hne, says_types] at h1
      rcases h1 with ⟨rfl, rfl⟩ | ⟨i, hi, rfl, rfl | he⟩ | ⟨i, hi, rfl, rfl⟩
      · left
        simp only [List.mem_cons, List.not_mem_nil, or_false] at hc
        rcases hc with rfl | rfl | rfl <;> simp only [List.mem_cons, List.not_mem_nil, or_false] at hy <;> grind
      · refine .inr (.inl ⟨i, hi, rfl, ?_⟩)
        simp only [List.mem_cons, List.not_mem_nil, or_false] at hc
        rcases hc with rfl | rfl | rfl <;> simp only [List.mem_cons, List.not_mem_nil, or_false] at hy <;> grind
      · refine .inr (.inl ⟨i, hi, rfl, ?_⟩)
        have := ht.external i hi y he
        simp only [List.mem_cons, List.not_mem_nil, or_false] at hc this
        rcases hc with rfl | rfl | rfl <;> simp only [List.mem_cons, List.not_mem_nil, or_false] at hy <;> grind
      · refine .inr (.inr ⟨i, hi, rfl, ?_⟩)
        have := coll i
        simp only [List.mem_cons, List.not_mem_nil, or_false] at hc this
        rcases hc with rfl | rfl | rfl <;> simp only [List.mem_cons, List.not_mem_nil, or_false] at hy <;> grind
    have a := key hc hx
    have b := key hc' hx'
    rcases a with ⟨rfl, rfl⟩ | ⟨i, hi, rfl, rfl⟩ | ⟨i, hi, rfl, rfl⟩
    · rcases b with ⟨_, e⟩ | ⟨j, hj, e, _⟩ | ⟨j, hj, e, _⟩
      · exact e.symm
      · injection e with e; exact absurd e.symm (ht.concept j hj)
      · injection e with e; exact absurd e.symm (ht.collection j hj)
    · rcases b with ⟨e, _⟩ | ⟨j, hj, _, e⟩ | ⟨j, hj, e, _⟩
      · injection e with e; exact absurd e (ht.concept i hi)
      · exact e.symm
      · injection e with e; exact absurd e (ht.apart i j hi hj)
    · rcases b with ⟨e, _⟩ | ⟨j, hj, e, _⟩ | ⟨j, hj, _, e⟩
      · injection e with e; exact absurd e (ht.collection i hi)
      · injection e with e; exact absurd e.symm (ht.apart j i hj hi)
      · exact e.symm

/-- The literals that a thesaurus gives a resource by a predicate, as a label or as a property. -/
def Given (pr : Char → Bool) (h : SkosStore) (s : Scheme) (u p : Iri) (l : Literal) : Prop :=
  ∃ ls ps, Described h s u ls ps ∧
    ((∃ a ∈ ls, a.kind.toUri = p ∧ labelLiteral pr a = l) ∨ ∃ q ∈ ps, q.predicate = p ∧ propertyLiteral pr q = l)

theorem says_given {pr : Char → Bool} {h : SkosStore} {s : Scheme} {x : Subject} {p : Iri} {l : Literal} :
    Says pr h s (.mk x p (.lit l)) ↔ ∃ u, x = .res u ∧ Given pr h s u p l := by
  constructor
  · intro hs
    have key : ∀ {u ls ps}, Described h s u ls ps → SaysOf pr u ls ps (.mk x p (.lit l)) → ∃ u, x = .res u ∧ Given pr h s u p l := by
      intro u ls ps hd h1
      generalize hst : Stmt.mk x p (.lit l) = st at h1
      cases h1 with
      | label ha => injection hst with e1 e2 e3; injection e3 with e3; exact ⟨u, e1, ls, ps, hd, .inl ⟨_, ha, e2.symm, e3.symm⟩⟩
      | property ha => injection hst with e1 e2 e3; injection e3 with e3; exact ⟨u, e1, ls, ps, hd, .inr ⟨_, ha, e2.symm, e3.symm⟩⟩
    generalize hst : Stmt.mk x p (.lit l) = st at hs
    cases hs with
    | schemeOf h1 => subst hst; exact key .scheme h1
    | conceptOf hi h1 => subst hst; exact key (.concept hi) h1
    | collectionOf hi h1 => subst hst; exact key (.collection hi) h1
    | _ => cases hst
  · rintro ⟨u, rfl, ls, ps, hd, hl⟩
    have h1 : SaysOf pr u ls ps (.mk (.res u) p (.lit l)) := by
      rcases hl with ⟨a, ha, rfl, rfl⟩ | ⟨q, hq, rfl, rfl⟩
      · exact .label ha
      · exact .property hq
    cases hd with
    | scheme => exact .schemeOf h1
    | concept hi => exact .conceptOf hi h1
    | collection hi => exact .collectionOf hi h1

/-- C113 for labels, exactly: no literal is given to a resource by two of the three predicates. -/
theorem C113_labels_iff (pr : Char → Bool) (gen : Nat → Str) (h : SkosStore) (s : Scheme) (n k : Nat) (sts : List Stmt)
    (hs : s.toStatements pr gen h n k = some sts) : DisjointLabels sts ↔
    ∀ u p p' l, p ∈ labelPredicates → p' ∈ labelPredicates → Given pr h s u p l → Given pr h s u p' l → p = p' := by
  have mem : ∀ {x p l}, .mk x p (.lit l) ∈ sts ↔ ∃ u, x = .res u ∧ Given pr h s u p l := fun {x p l} =>
    (skos_mem hs (.inr ⟨l, rfl⟩)).trans says_given
  constructor
  · intro hd u p p' l hp hp' h1 h2
    exact hd (.res u) p p' l hp hp' (mem.2 ⟨u, rfl, h1⟩) (mem.2 ⟨u, rfl, h2⟩)
  · intro hd x p p' l hp hp' h1 h2
    obtain ⟨u, rfl, g1⟩ := mem.1 h1
    obtain ⟨u', e, g2⟩ := mem.1 h2
    injection e with e
    subst e
    exact hd u p p' l hp hp' g1 g2

/-- C113 for preferred labels, exactly: the literals given to a resource as preferred labels are for
different languages. -/
theorem C113_preferred_iff (pr : Char → Bool) (gen : Nat → Str) (h : SkosStore) (s : Scheme) (n k : Nat) (sts : List Stmt)
    (hs : s.toStatements pr gen h n k = some sts) : OnePreferredLabel sts ↔
    ∀ u l l', Given pr h s u (skosIri (str! "prefLabel")) l → Given pr h s u (skosIri (str! "prefLabel")) l' →
      l.language = l'.language → l = l' := by
  have mem : ∀ {x p l}, .mk x p (.lit l) ∈ sts ↔ ∃ u, x = .res u ∧ Given pr h s u p l := fun {x p l} =>
    (skos_mem hs (.inr ⟨l, rfl⟩)).trans says_given
  constructor
  · intro hd u l l' h1 h2
    exact hd (.res u) l l' (mem.2 ⟨u, rfl, h1⟩) (mem.2 ⟨u, rfl, h2⟩)
  · intro hd x l l' h1 h2
    obtain ⟨u, rfl, g1⟩ := mem.1 h1
    obtain ⟨u', e, g2⟩ := mem.1 h2
    injection e with e
    subst e
    exact hd u l l' g1 g2

/-- A literal added by the calls for properties is never a label. -/
theorem C113_properties (k : PropertyKind) : k.predicate ∉ labelPredicates := by
  cases k <;> decide +kernel

end Rdftk
