import Verif.Lemmas.SkosCalls
import Verif.Props.PrefixMap

/-! Properties C104-C111 and C113: thesauri and the graphs they are written to (`rdftk_skos`). -/

namespace Rdftk

open Relation Spec

/-! ### C104 -/

/-- C104, the full statement: the inverse of the inverse of a relation is the relation, and the IRIs of a relation and of its
inverse are declared inverse to each other. -/
def C104_statement : Prop :=
  ∀ r : ConceptRelation, r.inverse.inverse = r ∧ (r.toUri, r.inverse.toUri) ∈ inverseProperties

/-- C104 fails for the relation of a class to an instance. -/
theorem C104_fails : ¬C104_statement := fun h => by
  have := (h .narrowerInstantial).1
  revert this
  decide

/-- C104, exactly: which relations are restored. -/
theorem C104_iff (r : ConceptRelation) : r.inverse.inverse = r ↔ r ≠ .narrowerInstantial := by
  cases r <;> decide

/-- C104, exactly: for which relations the inverse is the declared one, and is narrower if the relation
is broader. -/
theorem C104_uri_iff (r : ConceptRelation) :
    ((r.toUri, r.inverse.toUri) ∈ inverseProperties ↔ r ≠ .broaderInstantial) ∧
    ((r.isBroader = r.inverse.isNarrower) ↔ r ≠ .broaderInstantial) ∧
    (r.isNarrower = true → r.inverse.isBroader = true) := by
  cases r <;> decide +kernel

/-! ### C105 -/

/-- C105, the full statement: the concepts and collections of every thesaurus can be listed, each once. -/
def C105_statement : Prop :=
  ∀ (u : Iri) (ops : List SkosOp),
    (∃ n l, (ops.foldl Thesaurus.apply (.new u)).scheme.conceptsFlattened (ops.foldl Thesaurus.apply (.new u)).store n = some l ∧ l.Nodup) ∧
    ∃ n l, (ops.foldl Thesaurus.apply (.new u)).scheme.collectionsFlattened (ops.foldl Thesaurus.apply (.new u)).store n = some l ∧ l.Nodup

/-- C105, exactly: the lists are finite if and only if no chain of narrower concepts or of collections
goes on for ever. -/
theorem C105_ends_iff (h : SkosStore) (s : Scheme) :
    ((∃ n, (s.conceptsFlattened h n).isSome) ∧ ∃ n, (s.collectionsFlattened h n).isSome) ↔ Ends h s := by
  simp only [Scheme.conceptsFlattened_eq, Scheme.collectionsFlattened_eq, Ends]
  have key : ∀ (ch : Nat → List Nat) (l : List Nat), (∃ n, (flattenAll ch n l).isSome) ↔
      ∀ i ∈ l, Acc (fun b a => b ∈ ch a) i := by
    intro ch l
    constructor
    · rintro ⟨n, hn⟩ i hi
      exact flattenBy_ends.1 ⟨n, flattenAll_isSome.1 hn i hi⟩
    · intro h'
      exact flattenAll_ends fun i hi => flattenBy_ends.2 (h' i hi)
  rw [key, key]
  have e1 : (fun b a => b ∈ conceptChildren h a) = fun b a => NarrowerThan h a b :=
    funext fun b => funext fun a => congrFun (congrFun mem_conceptChildren a) b
  have e2 : (fun b a => b ∈ collectionChildren h a) = fun b a => HasSubCollection h a b :=
    funext fun b => funext fun a => congrFun (congrFun mem_collectionChildren a) b
  rw [e1, e2]

/-- C105, exactly: what is listed. -/
theorem C105_lists (h : SkosStore) (s : Scheme) (n : Nat) (l : List Nat) :
    (s.conceptsFlattened h n = some l → ∀ i, i ∈ l ↔ ConceptOf h s i) ∧
    (s.collectionsFlattened h n = some l → ∀ i, i ∈ l ↔ CollectionOf h s i) :=
  ⟨fun hl => mem_conceptsFlattened hl, fun hl => mem_collectionsFlattened hl⟩

/-- C105 for thesauri in which no existing concept was given as a narrower one.  Missing: the others. -/
theorem C105_partial (u : Iri) (ops : List SkosOp) (hops : ∀ op ∈ ops, op.shares = false) :
    ∃ n l, (ops.foldl Thesaurus.apply (.new u)).scheme.conceptsFlattened (ops.foldl Thesaurus.apply (.new u)).store n = some l ∧ l.Nodup := by
  simp only [Scheme.conceptsFlattened_eq]
  exact (forest_run_concepts u ops hops).flatten

/-- C105 for collections, whatever the calls. -/
theorem C105_collections (u : Iri) (ops : List SkosOp) :
    ∃ n l, (ops.foldl Thesaurus.apply (.new u)).scheme.collectionsFlattened (ops.foldl Thesaurus.apply (.new u)).store n = some l ∧ l.Nodup := by
  simp only [Scheme.collectionsFlattened_eq]
  exact (forest_run_collections u ops).flatten

/-- A top concept that is narrower than itself: the recursion never ends. -/
theorem C105_fails_cycle (u v : Iri) (n : Nat) :
    (([.newTopConcept v [], .addRelated 0 .narrower 0] : List SkosOp).foldl Thesaurus.apply (.new u)).scheme.conceptsFlattened
      (([.newTopConcept v [], .addRelated 0 .narrower 0] : List SkosOp).foldl Thesaurus.apply (.new u)).store n = none := by
  generalize ht : ([.newTopConcept v [], .addRelated 0 .narrower 0] : List SkosOp).foldl Thesaurus.apply (.new u) = t
  have hc : conceptChildren t.store 0 = [0] := by subst ht; rfl
  have hs : t.scheme.concepts = [0] := by subst ht; rfl
  have : ∀ n, flattenBy (conceptChildren t.store) n 0 = none := by
    intro n
    induction n with
    | zero => rfl
    | succ n ih => rw [flattenBy_succ, hc, flattenAll_cons, ih]; rfl
  rw [Scheme.conceptsFlattened_eq, hs, flattenAll_cons, this]
  rfl

/-- A concept that is narrower than two others is listed twice. -/
theorem C105_fails_shared (u : Iri) :
    (([.newTopConcept u [], .newTopConcept u [], .newConcept 0 .narrower u [], .addRelated 1 .narrower 2] : List SkosOp).foldl
      Thesaurus.apply (.new u)).scheme.conceptsFlattened
      (([.newTopConcept u [], .newTopConcept u [], .newConcept 0 .narrower u [], .addRelated 1 .narrower 2] : List SkosOp).foldl
      Thesaurus.apply (.new u)).store 2 = some [2, 0, 2, 1] := rfl

/-- C105 fails. -/
theorem C105_fails : ¬C105_statement := by
  intro h
  obtain ⟨⟨n, l, hl, -⟩, -⟩ := h ⟨[]⟩ [.newTopConcept ⟨[]⟩ [], .addRelated 0 .narrower 0]
  rw [C105_fails_cycle] at hl
  cases hl

/-! ### C107 -/

/-- C107: the statements that are written of anything but a blank node are those that describe the
thesaurus. -/
theorem C107_statements (pr : Char → Bool) (gen : Nat → Str) (h : SkosStore) (s : Scheme) (n k : Nat) (sts : List Stmt)
    (hs : s.toStatements pr gen h n k = some sts) (st : Stmt) (hb : ∀ b, st.subject ≠ .blank b) :
    st ∈ sts ↔ Says pr h s st := by
  unfold Scheme.toStatements at hs
  cases hc : s.conceptsFlattened h n with
  | none => rw [hc] at hs; cases hs
  | some cs =>
    cases hk : s.collectionsFlattened h n with
    | none => rw [hc, hk] at hs; cases hs
    | some ks =>
      rw [hc, hk] at hs
      simp only [Option.bind_eq_bind, Option.bind_some, Option.some.injEq] at hs
      subst hs
      have hcm := mem_conceptsFlattened hc
      have hkm := mem_collectionsFlattened hk
      simp only [List.append_assoc, List.cons_append, List.mem_cons, List.mem_append, List.mem_flatMap, hcm,
        mem_collectionsToStatements hb, hkm, mem_conceptToStatements]
      rw [← List.mem_append, mem_saysOf]
      constructor
      · rintro (rfl | ⟨i, hi, (rfl | rfl | ⟨e, he, rfl⟩ | ⟨e, he, rfl⟩ | h1) | h1⟩ |
          ⟨i, hi, rfl | rfl | ⟨ho, m, hm, rfl⟩ | h1⟩ | h1)
        · exact .scheme
        · exact .concept hi
        · exact .conceptIn hi
        · exact .relation hi he
        · exact .external hi he
        · exact .conceptOf hi h1
        · split at h1
          · rename_i hu
            obtain ⟨j, hj, e⟩ := List.mem_map.1 hu
            simp only [List.mem_cons, List.not_mem_nil, or_false] at h1
            rcases h1 with rfl | rfl
            · rw [← e]; exact .topConceptOf hj
            · rw [← e]; exact .hasTopConcept hj
          · cases h1
        · exact .collection hi
        · exact .collectionIn hi
        · exact .member hi ho hm
        · exact .collectionOf hi h1
        · exact .schemeOf h1
      · intro hst
        cases hst with
        | scheme => exact .inl rfl
        | schemeOf h1 => exact .inr (.inr (.inr h1))
        | concept hi => exact .inr (.inl ⟨_, hi, .inl (.inl rfl)⟩)
        | conceptIn hi => exact .inr (.inl ⟨_, hi, .inl (.inr (.inl rfl))⟩)
        | relation hi he => exact .inr (.inl ⟨_, hi, .inl (.inr (.inr (.inl ⟨_, he, rfl⟩)))⟩)
        | external hi he => exact .inr (.inl ⟨_, hi, .inl (.inr (.inr (.inr (.inl ⟨_, he, rfl⟩))))⟩)
        | conceptOf hi h1 => exact .inr (.inl ⟨_, hi, .inl (.inr (.inr (.inr (.inr h1))))⟩)
        | @topConceptOf i hi =>
          refine .inr (.inl ⟨i, ⟨i, hi, .refl⟩, .inr ?_⟩)
          rw [if_pos (List.mem_map.2 ⟨i, hi, rfl⟩)]
          simp
        | @hasTopConcept i hi =>
          refine .inr (.inl ⟨i, ⟨i, hi, .refl⟩, .inr ?_⟩)
          rw [if_pos (List.mem_map.2 ⟨i, hi, rfl⟩)]
          simp
        | collection hi => exact .inr (.inr (.inl ⟨_, hi, .inl rfl⟩))
        | collectionIn hi => exact .inr (.inr (.inl ⟨_, hi, .inr (.inl rfl)⟩))
        | member hi ho hm => exact .inr (.inr (.inl ⟨_, hi, .inr (.inr (.inl ⟨ho, _, hm, rfl⟩))⟩))
        | collectionOf hi h1 => exact .inr (.inr (.inl ⟨_, hi, .inr (.inr (.inr h1))⟩))

/-- C107: statements are written for every thesaurus that can be listed, and for no other. -/
theorem C107_written_iff (pr : Char → Bool) (gen : Nat → Str) (h : SkosStore) (s : Scheme) (k : Nat) :
    (∃ n, (s.toStatements pr gen h n k).isSome) ↔ Ends h s := by
  rw [← C105_ends_iff]
  constructor
  · rintro ⟨n, hn⟩
    unfold Scheme.toStatements at hn
    cases hc : s.conceptsFlattened h n with
    | none => rw [hc] at hn; cases hn
    | some cs =>
      cases hk : s.collectionsFlattened h n with
      | none => rw [hc, hk] at hn; cases hn
      | some ks => exact ⟨⟨n, by rw [hc]; rfl⟩, ⟨n, by rw [hk]; rfl⟩⟩
  · rintro ⟨⟨n, hn⟩, ⟨m, hm⟩⟩
    refine ⟨max n m, ?_⟩
    have h1 : (s.conceptsFlattened h (max n m)).isSome := by
      rw [Scheme.conceptsFlattened_eq, flattenAll_isSome] at hn ⊢
      exact fun i hi => flattenBy_of_le (by omega) (hn i hi)
    have h2 : (s.collectionsFlattened h (max n m)).isSome := by
      rw [Scheme.collectionsFlattened_eq, flattenAll_isSome] at hm ⊢
      exact fun i hi => flattenBy_of_le (by omega) (hm i hi)
    obtain ⟨a, ha⟩ := Option.isSome_iff_exists.1 h1
    obtain ⟨b, hb⟩ := Option.isSome_iff_exists.1 h2
    simp [Scheme.toStatements, ha, hb]

/-- C107: statements about blank nodes are those of the lists of ordered collections. -/
theorem C107_blank (pr : Char → Bool) (gen : Nat → Str) (h : SkosStore) (s : Scheme) (n k : Nat) (sts : List Stmt)
    (hs : s.toStatements pr gen h n k = some sts) (st : Stmt) (b : Str) (hb : st.subject = .blank b) (hst : st ∈ sts) :
    ∃ i, CollectionOf h s i ∧ (h.collection i).ordered = true ∧
      ∃ k', st ∈ listStatements gen k' ((h.collection i).members.map (·.uri h)) := by
  unfold Scheme.toStatements at hs
  cases hc : s.conceptsFlattened h n with
  | none => rw [hc] at hs; cases hs
  | some cs =>
    cases hk : s.collectionsFlattened h n with
    | none => rw [hc, hk] at hs; cases hs
    | some ks =>
      rw [hc, hk] at hs
      simp only [Option.bind_eq_bind, Option.bind_some, Option.some.injEq] at hs
      subst hs
      simp only [List.append_assoc, List.cons_append, List.mem_cons, List.mem_append, List.mem_flatMap,
        mem_conceptToStatements] at hst
      rw [← List.mem_append, mem_saysOf] at hst
      rcases hst with rfl | ⟨i, hi, (rfl | rfl | ⟨e, he, rfl⟩ | ⟨e, he, rfl⟩ | h1) | h1⟩ | h1 | h1
      · cases hb
      · cases hb
      · cases hb
      · cases hb
      · cases hb
      · obtain ⟨p, l, rfl⟩ := saysOf_subject h1
        cases hb
      · split at h1
        · simp only [List.mem_cons, List.not_mem_nil, or_false] at h1
          rcases h1 with rfl | rfl <;> cases hb
        · cases h1
      · obtain ⟨i, hi, k', ho, h2⟩ := blank_collectionsToStatements hb h1
        exact ⟨i, (mem_collectionsFlattened hk i).1 hi, ho, k', h2⟩
      · obtain ⟨p, l, rfl⟩ := saysOf_subject h1
        cases hb

/-- C107: the graph holds these statements, has the mappings given and no name. -/
theorem C107_graph (pr : Char → Bool) (gen : Nat → Str) (h : SkosStore) (s : Scheme) (n k : Nat) (m : PrefixMap) :
    (s.toGraph pr gen h n k m).isSome = (s.toStatements pr gen h n k).isSome ∧
    ∀ g, s.toGraph pr gen h n k m = some g →
      s.toStatements pr gen h n k = some g.statements.iter ∧ g.mappings = m ∧ g.name = none := by
  unfold Scheme.toGraph
  refine ⟨by simp, fun g hg => ?_⟩
  cases hs : s.toStatements pr gen h n k with
  | none => rw [hs] at hg; cases hg
  | some sts =>
    rw [hs, Option.map_some, Option.some.injEq] at hg
    have : ∀ (sts l : List Stmt), sts.foldl Graph.insert ⟨none, .nonUnique l, m⟩ = ⟨none, .nonUnique (l ++ sts), m⟩ := by
      intro sts
      induction sts with
      | nil => simp
      | cons st sts ih =>
        intro l
        simp only [List.foldl_cons, Graph.insert, Statements.insert, ih]
        simp
    have e : Graph.default.withMappings m = ⟨none, .nonUnique [], m⟩ := rfl
    rw [e, this] at hg
    subst hg
    simp [Statements.iter]

/-! ### C106 -/

/-- C106, the full statement: of every concept and collection that was made, the graph says that it is one
and that it belongs to the scheme. -/
def C106_statement : Prop :=
  ∀ (pr : Char → Bool) (gen : Nat → Str) (u : Iri) (ops : List SkosOp) (n k : Nat) (sts : List Stmt),
    (ops.foldl Thesaurus.apply (.new u)).scheme.toStatements pr gen (ops.foldl Thesaurus.apply (.new u)).store n k = some sts →
    (∀ i < (ops.foldl Thesaurus.apply (.new u)).store.concepts.length,
      .mk (.res ((ops.foldl Thesaurus.apply (.new u)).store.concept i).uri) rdfType (.res (skosIri (str! "Concept"))) ∈ sts ∧
      .mk (.res ((ops.foldl Thesaurus.apply (.new u)).store.concept i).uri) (skosIri (str! "inScheme"))
        (.res (ops.foldl Thesaurus.apply (.new u)).scheme.uri) ∈ sts) ∧
    ∀ i < (ops.foldl Thesaurus.apply (.new u)).store.collections.length,
      .mk (.res ((ops.foldl Thesaurus.apply (.new u)).store.collection i).uri) (skosIri (str! "inScheme"))
        (.res (ops.foldl Thesaurus.apply (.new u)).scheme.uri) ∈ sts

/-- C106, exactly: of which IRIs the graph says that they are concepts and that they belong to the scheme. -/
theorem C106_iff (pr : Char → Bool) (gen : Nat → Str) (h : SkosStore) (s : Scheme) (n k : Nat) (sts : List Stmt)
    (hs : s.toStatements pr gen h n k = some sts) (v : Iri) :
    (.mk (.res v) rdfType (.res (skosIri (str! "Concept"))) ∈ sts ↔ ∃ i, ConceptOf h s i ∧ (h.concept i).uri = v) ∧
    (.mk (.res v) (skosIri (str! "inScheme")) (.res s.uri) ∈ sts ↔
      (∃ i, ConceptOf h s i ∧ (h.concept i).uri = v) ∨ ∃ i, CollectionOf h s i ∧ (h.collection i).uri = v) := by
  have hn : ∀ (st : Stmt), (∃ w p o, st = .mk (.res w) p o) → (st ∈ sts ↔ Says pr h s st) := by
    rintro st ⟨w, p, o, rfl⟩
    exact C107_statements pr gen h s n k sts hs _ (fun b e => by cases e)
  rw [hn _ ⟨_, _, _, rfl⟩, hn _ ⟨_, _, _, rfl⟩]
  have lit : ∀ {v p i ls ps}, ¬SaysOf pr v ls ps (.mk (.res v) p (.res i)) := by
    intro v p i ls ps h1
    obtain ⟨_, _, e⟩ := saysOf_subject h1
    cases e
  constructor
  · constructor
    · intro h1
      generalize hst : Stmt.mk (.res v) rdfType (.res (skosIri (str! "Concept"))) = st at h1
      cases h1 with
      | scheme => injection hst with _ _ e; exact absurd e (by decide +kernel)
      | schemeOf h1 => obtain ⟨_, _, e⟩ := saysOf_subject h1; rw [e] at hst; cases hst
      | concept hi => injection hst with e; injection e with e; exact ⟨_, hi, e.symm⟩
      | conceptIn hi => injection hst with e; injection e with e; exact ⟨_, hi, e.symm⟩
      | relation hi => injection hst with e; injection e with e; exact ⟨_, hi, e.symm⟩
      | external hi => injection hst with e; injection e with e; exact ⟨_, hi, e.symm⟩
      | conceptOf _ h1 => obtain ⟨_, _, e⟩ := saysOf_subject h1; rw [e] at hst; cases hst
      | @topConceptOf i hi => injection hst with e; injection e with e; exact ⟨i, ⟨i, hi, .refl⟩, e.symm⟩
      | hasTopConcept => injection hst with _ e; exact absurd e (by decide +kernel)
      | @collection i =>
        injection hst with _ _ e
        exfalso
        revert e
        cases (h.collection i).ordered <;> decide +kernel
      | collectionIn => injection hst with _ e; exact absurd e (by decide +kernel)
      | member => injection hst with _ e; exact absurd e (by decide +kernel)
      | collectionOf _ h1 => obtain ⟨_, _, e⟩ := saysOf_subject h1; rw [e] at hst; cases hst
    · rintro ⟨i, hi, rfl⟩
      exact .concept hi
  · constructor
    · intro h1
      generalize hst : Stmt.mk (.res v) (skosIri (str! "inScheme")) (.res s.uri) = st at h1
      cases h1 with
      | scheme => injection hst with _ e; exact absurd e (by decide +kernel)
      | schemeOf h1 => obtain ⟨_, _, e⟩ := saysOf_subject h1; rw [e] at hst; cases hst
      | concept hi => injection hst with e; injection e with e; exact .inl ⟨_, hi, e.symm⟩
      | conceptIn hi => injection hst with e; injection e with e; exact .inl ⟨_, hi, e.symm⟩
      | relation hi => injection hst with e; injection e with e; exact .inl ⟨_, hi, e.symm⟩
      | external hi => injection hst with e; injection e with e; exact .inl ⟨_, hi, e.symm⟩
      | conceptOf _ h1 => obtain ⟨_, _, e⟩ := saysOf_subject h1; rw [e] at hst; cases hst
      | @topConceptOf i hi => injection hst with e; injection e with e; exact .inl ⟨i, ⟨i, hi, .refl⟩, e.symm⟩
      | hasTopConcept => injection hst with _ e; exact absurd e (by decide +kernel)
      | collection hi => injection hst with e; injection e with e; exact .inr ⟨_, hi, e.symm⟩
      | collectionIn hi => injection hst with e; injection e with e; exact .inr ⟨_, hi, e.symm⟩
      | member hi => injection hst with e; injection e with e; exact .inr ⟨_, hi, e.symm⟩
      | collectionOf _ h1 => obtain ⟨_, _, e⟩ := saysOf_subject h1; rw [e] at hst; cases hst
    · rintro (⟨i, hi, rfl⟩ | ⟨i, hi, rfl⟩)
      · exact .conceptIn hi
      · exact .collectionIn hi

/-- C106 for thesauri in which every concept was made as a top concept or a narrower one.  Missing: concepts
that were made with `related` alone. -/
theorem C106_partial (pr : Char → Bool) (gen : Nat → Str) (u : Iri) (ops : List SkosOp) (n k : Nat) (sts : List Stmt)
    (hops : ∀ op ∈ ops, op.aside = false)
    (hs : (ops.foldl Thesaurus.apply (.new u)).scheme.toStatements pr gen (ops.foldl Thesaurus.apply (.new u)).store n k = some sts)
    (i : Nat) (hi : i < (ops.foldl Thesaurus.apply (.new u)).store.concepts.length) :
    .mk (.res ((ops.foldl Thesaurus.apply (.new u)).store.concept i).uri) rdfType (.res (skosIri (str! "Concept"))) ∈ sts ∧
    .mk (.res ((ops.foldl Thesaurus.apply (.new u)).store.concept i).uri) (skosIri (str! "inScheme"))
      (.res (ops.foldl Thesaurus.apply (.new u)).scheme.uri) ∈ sts := by
  have := conceptOf_run u ops hops i hi
  have h := C106_iff pr gen _ _ n k sts hs ((ops.foldl Thesaurus.apply (.new u)).store.concept i).uri
  exact ⟨h.1.2 ⟨i, this, rfl⟩, h.2.2 (.inl ⟨i, this, rfl⟩)⟩

/-- C106 for collections, whatever the calls. -/
theorem C106_collections (pr : Char → Bool) (gen : Nat → Str) (u : Iri) (ops : List SkosOp) (n k : Nat) (sts : List Stmt)
    (hs : (ops.foldl Thesaurus.apply (.new u)).scheme.toStatements pr gen (ops.foldl Thesaurus.apply (.new u)).store n k = some sts)
    (i : Nat) (hi : i < (ops.foldl Thesaurus.apply (.new u)).store.collections.length) :
    .mk (.res ((ops.foldl Thesaurus.apply (.new u)).store.collection i).uri) (skosIri (str! "inScheme"))
      (.res (ops.foldl Thesaurus.apply (.new u)).scheme.uri) ∈ sts :=
  (C106_iff pr gen _ _ n k sts hs _).2.2 (.inr ⟨i, collectionOf_run u ops i hi, rfl⟩)

/-- C106 fails: a related concept that was made with `related` is not described. -/
theorem C106_fails : ¬C106_statement := by
  intro h
  have := ((h (fun _ => true) (fun _ => []) ⟨str! "s"⟩ [.newTopConcept ⟨str! "a"⟩ [], .newConcept 0 .related ⟨str! "b"⟩ []]
    1 0 _ rfl).1 1 (by decide)).1
  revert this
  decide +kernel

/-! ### C108 -/

/-- C108, the full statement: an ordered collection is linked to a list of its members in their order. -/
def C108_statement : Prop :=
  ∀ (pr : Char → Bool) (gen : Nat → Str) (h : SkosStore) (o : Object) (c : SkosCollection) (k : Nat),
    (∀ i j, gen i = gen j → i = j) → c.ordered = true →
    ∃ l, .mk (.res c.uri) (skosIri (str! "memberList")) l ∈ (c.toStatements pr gen h (some o) k).1 ∧
      IsMemberList (c.toStatements pr gen h (some o) k).1 l (c.members.map (·.uri h))

theorem blank_collectionToStatements {pr : Char → Bool} {gen : Nat → Str} {h : SkosStore} {o : Object}
    {c : SkosCollection} {k : Nat} {b : Str} {p : Iri} {x : Object} :
    .mk (.blank b) p x ∈ (c.toStatements pr gen h (some o) k).1 ↔ .mk (.blank b) p x ∈ listPart gen h c k := by
  rw [mem_collectionToStatements]
  constructor
  · rintro (h1 | h1 | ⟨_, _, _, h1⟩ | h1 | h1)
    · cases h1
    · cases h1
    · cases h1
    · exact h1
    · obtain ⟨_, _, e⟩ := saysOf_subject h1
      cases e
  · exact fun h1 => .inr (.inr (.inr (.inl h1)))

/-- C108, what is written: the nodes in order, each with its member and the rest, and one more node without
a member.  Missing: the link to the list and its proper end. -/
theorem C108_partial (pr : Char → Bool) (gen : Nat → Str) (h : SkosStore) (o : Object) (c : SkosCollection) (k : Nat)
    (ho : c.ordered = true) (hm : c.members ≠ []) (b : Str) (x : Object) :
    (.mk (.blank b) (rdfIri (str! "first")) x ∈ (c.toStatements pr gen h (some o) k).1 ↔
      ∃ j m, c.members[j]? = some m ∧ b = gen (k + j) ∧ x = .res (m.uri h)) ∧
    (.mk (.blank b) (rdfIri (str! "rest")) x ∈ (c.toStatements pr gen h (some o) k).1 ↔
      (∃ j < c.members.length, b = gen (k + j) ∧ x = .blank (gen (k + j + 1))) ∨
      (b = gen (k + c.members.length) ∧ x = .res (rdfIri (str! "nil")))) := by
  have e : listPart gen h c k = listStatements gen k (c.members.map (·.uri h)) := by
    unfold listPart
    rw [if_pos ⟨ho, hm⟩]
  rw [blank_collectionToStatements, blank_collectionToStatements, e, listStatements_first, listStatements_rest]
  refine ⟨?_, by rw [List.length_map]⟩
  constructor
  · rintro ⟨j, m, h1, h2, h3⟩
    rw [List.getElem?_map] at h1
    cases hj : c.members[j]? with
    | none => rw [hj] at h1; cases h1
    | some m' => rw [hj] at h1; cases h1; exact ⟨j, m', hj, h2, h3⟩
  · rintro ⟨j, m, h1, h2, h3⟩
    exact ⟨j, m.uri h, by rw [List.getElem?_map, h1]; rfl, h2, h3⟩

/-- C108 fails for every ordered collection with members: no node of what is written is a list of anything. -/
theorem C108_fails_always (pr : Char → Bool) (gen : Nat → Str) (hg : ∀ i j, gen i = gen j → i = j) (h : SkosStore)
    (o : Object) (c : SkosCollection) (k : Nat) (ho : c.ordered = true) (hm : c.members ≠ []) (b : Str) (l : List Iri) :
    ¬IsMemberList (c.toStatements pr gen h (some o) k).1 (.blank b) l := by
  induction l generalizing b with
  | nil => intro h1; cases h1
  | cons m l ih =>
    intro h1
    cases h1 with
    | cons h1 h2 h3 =>
      obtain ⟨j, m', hj, rfl, -⟩ := ((C108_partial pr gen h o c k ho hm _ _).1).1 h1
      have hlt : j < c.members.length := by
        rw [List.getElem?_eq_some_iff] at hj
        exact hj.1
      rcases ((C108_partial pr gen h o c k ho hm _ _).2).1 h2 with ⟨i, hi, e, rfl⟩ | ⟨e, rfl⟩
      · exact ih _ h3
      · have := hg _ _ e
        omega

/-- C108: no ordered collection is linked to a list, whether it has members or not: nothing but a blank node
refers to a blank node. -/
theorem C108_fails_link (pr : Char → Bool) (gen : Nat → Str) (h : SkosStore) (s : Scheme) (n k : Nat) (sts : List Stmt)
    (hs : s.toStatements pr gen h n k = some sts) (v p : Iri) (b : Str) : .mk (.res v) p (.blank b) ∉ sts := by
  rw [C107_statements pr gen h s n k sts hs _ (fun b e => by cases e)]
  intro h1
  generalize hst : Stmt.mk (.res v) p (.blank b) = st at h1
  cases h1 with
  | schemeOf h1 => obtain ⟨_, _, e⟩ := saysOf_subject h1; rw [e] at hst; cases hst
  | conceptOf _ h1 => obtain ⟨_, _, e⟩ := saysOf_subject h1; rw [e] at hst; cases hst
  | collectionOf _ h1 => obtain ⟨_, _, e⟩ := saysOf_subject h1; rw [e] at hst; cases hst
  | _ => cases hst

/-- C108 fails. -/
theorem C108_fails : ¬C108_statement := by
  intro h
  obtain ⟨l, h1, h2⟩ := h (fun _ => true) (fun i => List.replicate i 'a') ⟨[.new ⟨str! "m"⟩], []⟩ (.blank []) ⟨⟨str! "c"⟩, true, [.concept 0], [], []⟩ 0
    (fun i j e => by simpa using congrArg List.length e) rfl
  revert h1
  rw [mem_collectionToStatements]
  rintro (e | e | ⟨e, -⟩ | e | e)
  · injection e with _ e; revert e; decide +kernel
  · injection e with _ e; revert e; decide +kernel
  · cases e
  · unfold listPart at e
    rw [if_pos (by simp)] at e
    obtain ⟨_, e⟩ := listStatements_blank e
    cases e
  · have := mem_saysOf.2 e
    simp at this

/-! ### C109 -/

/-- C109, the full statement: the label that was added last as the preferred one for a language is the one that is
returned. -/
def C109_statement : Prop :=
  ∀ (sty : IriStyle) (u : Iri) (ls : List Label) (t : Str) (lang : Option Str),
    preferredLabelFor sty u (ls ++ [⟨.preferred, t, lang⟩]) lang = t

/-- C109, exactly: the first preferred label that was added for the language is returned, and the IRI if
there is none. -/
theorem C109_first (sty : IriStyle) (u : Iri) (ls : List Label) (lang : Option Str) :
    (∀ a b t, ls = a ++ ⟨.preferred, t, lang⟩ :: b → (∀ l ∈ a, ¬(l.kind = .preferred ∧ l.language = lang)) →
      preferredLabelFor sty u ls lang = t) ∧
    ((∀ l ∈ ls, ¬(l.kind = .preferred ∧ l.language = lang)) → preferredLabelFor sty u ls lang = u.fmt sty) := by
  constructor
  · rintro a b t rfl ha
    unfold preferredLabelFor finalPreferredLabel
    rw [List.find?_append, List.find?_eq_none.2 (fun l hl => by simpa using ha l hl)]
    simp
  · intro h
    unfold preferredLabelFor finalPreferredLabel
    rw [List.find?_eq_none.2 (fun l hl => by simpa using h l hl)]
    rfl

/-- C109, exactly: a label that is added is returned if and only if the answer was it before, or there was
no answer. -/
theorem C109_iff (sty : IriStyle) (u : Iri) (ls : List Label) (t : Str) (lang : Option Str) :
    preferredLabelFor sty u (ls ++ [⟨.preferred, t, lang⟩]) lang = t ↔
      ∀ t', finalPreferredLabel ls lang = some t' → t' = t := by
  unfold preferredLabelFor finalPreferredLabel
  rw [List.find?_append]
  cases List.find? (fun l => decide (l.kind = LabelKind.preferred ∧ l.language = lang)) ls with
  | none => simp
  | some l => simp

/-- C109: a label of another kind or for another language changes no answer. -/
theorem C109_other (sty : IriStyle) (u : Iri) (ls : List Label) (l : Label) (lang : Option Str)
    (h : ¬(l.kind = .preferred ∧ l.language = lang)) :
    preferredLabelFor sty u (ls ++ [l]) lang = preferredLabelFor sty u ls lang := by
  unfold preferredLabelFor finalPreferredLabel
  rw [List.find?_append]
  have : List.find? (fun l => decide (l.kind = LabelKind.preferred ∧ l.language = lang)) [l] = none := by
    rw [List.find?_eq_none]
    simpa using h
  rw [this, Option.or_none]

/-- C109 fails for a second label in the same language. -/
theorem C109_fails : ¬C109_statement := fun h => by
  have := h .bare ⟨[]⟩ [⟨.preferred, str! "a", none⟩] (str! "b") none
  revert this
  decide

/-- C109: making a label panics exactly for a language that is given and is not a language tag; no language is the
empty text. -/
theorem C109_new (tag : Str → Option Str) (k : LabelKind) (t lang : Str) :
    (Label.new tag k t lang = .panic ↔ lang ≠ [] ∧ tag lang = none) ∧
    ∀ l, Label.new tag k t lang = .ok l →
      l.kind = k ∧ l.text = t ∧ ((lang = [] ∧ l.language = none) ∨ (lang ≠ [] ∧ l.language = tag lang ∧ l.language ≠ none)) := by
  unfold Label.new
  cases lang with
  | nil => simp
  | cons c cs =>
    cases h : tag (c :: cs) with
    | none => simp [h]
    | some x => simp [h]

/-! ### C110 -/

/-- C110, the full statement: each constructor uses the predicate of its name. -/
def C110_statement : Prop := ∀ k : PropertyKind, k.predicate = namedPredicate k

/-- C110, exactly: all but one. -/
theorem C110_iff (k : PropertyKind) : k.predicate = namedPredicate k ↔ k ≠ .available := by
  cases k <;> decide +kernel

/-- C110 fails for the date from which something is available. -/
theorem C110_fails : ¬C110_statement := fun h => (C110_iff .available).1 (h _) rfl

/-- So the dates from which something is available and at which it was created cannot be told apart. -/
theorem C110_fails_ambiguous (pr : Char → Bool) (s : Subject) (t : Str) :
    (LiteralProperty.ofKind .available t).toStatement pr s = (LiteralProperty.ofKind .created t).toStatement pr s := rfl

/-- The literal of a property has the text of the property, escaped, its type, and its language if it has no type. -/
theorem C110_literal (pr : Char → Bool) (p : LiteralProperty) : p.makeLiteral pr = propertyLiteral pr p := by
  unfold LiteralProperty.makeLiteral propertyLiteral
  cases p.dataType <;> cases p.language <;> rfl

/-- C110: what each way to make a property says: the text, with the language or the type that was
given, of the property that was asked for; a tag that is not one stops the program. -/
theorem C110_made (pr : Char → Bool) (tag : Str → Option Str) (x : Subject) (k : PropertyKind) (p : Iri) (s : Str) :
    (LiteralProperty.ofKind k s).toStatement pr x = .mk x k.predicate (.lit ⟨escapeString pr s, none, none⟩) ∧
    (∀ lang, LiteralProperty.ofKindWith tag k s lang = .panic ↔ tag lang = none) ∧
    (∀ lang g, tag lang = some g → ∃ q, LiteralProperty.ofKindWith tag k s lang = .ok q ∧
      q.toStatement pr x = .mk x k.predicate (.lit ⟨escapeString pr s, none, some g⟩)) ∧
    (∀ t, (LiteralProperty.withDataType p s t).toStatement pr x = .mk x p (.lit ⟨escapeString pr s, some t, none⟩)) := by
  refine ⟨rfl, fun lang => ?_, fun lang g h => ?_, fun t => rfl⟩
  · unfold LiteralProperty.ofKindWith; split <;> simp [*]
  · exact ⟨.withLanguage k.predicate s g, by simp only [LiteralProperty.ofKindWith, h], rfl⟩

/-- A property is found exactly if one with the predicate was added. -/
theorem C110_has (ps : List LiteralProperty) (p : Iri) : hasProperty ps p = true ↔ ∃ x ∈ ps, x.predicate = p := by
  simp [hasProperty]

/-! ### C111 -/

/-- The prefixes of the standard mappings with their namespaces, as the recommendations give them. -/
def skosPrefixes : List (Str × Str) :=
  [(str! "skos", str! "http://www.w3.org/2004/02/skos/core#"), (str! "skosxl", str! "http://www.w3.org/2008/05/skos-xl#"),
   (str! "isothes", str! "http://purl.org/iso25964/skos-thes#"),
   (str! "status", str! "http://www.w3.org/2003/06/sw-vocab-status/ns#"), (str! "dcterms", str! "http://purl.org/dc/terms/"),
   (str! "rdf", str! "http://www.w3.org/1999/02/22-rdf-syntax-ns#"), (str! "rdfs", str! "http://www.w3.org/2000/01/rdf-schema#"),
   (str! "owl", str! "http://www.w3.org/2002/07/owl#"), (str! "xsd", str! "http://www.w3.org/2001/XMLSchema#")]

/-- C111, the full statement: the graph of a thesaurus has the standard prefixes, whatever the default namespace. -/
def C111_statement : Prop :=
  ∀ (d : Option Iri) (p n : Str), (p, n) ∈ skosPrefixes → (skosMappingsWith d).getNamespace ⟨p ++ [':']⟩ = some ⟨n⟩

theorem skosMappings_inv : skosMappings.Inv := by
  have : defaultMappings.Inv := by
    unfold defaultMappings
    cases h : PrefixMap.default with
    | none => exact PrefixMap.inv_empty
    | some m => exact Reachable.inv (.default h)
  exact PrefixMap.inv_insert (PrefixMap.inv_insert (PrefixMap.inv_insert (PrefixMap.inv_insert (PrefixMap.inv_insert
    (PrefixMap.inv_insert (PrefixMap.inv_insert (PrefixMap.inv_insert this _ _) _ _) _ _) _ _) _ _) _ _) _ _) _ _

theorem skosMappings_prefixes : ∀ e ∈ skosPrefixes, e.1 ≠ [] ∧ (⟨e.1 ++ [':']⟩, ⟨e.2⟩) ∈ skosMappings.entries := by decide +kernel

/-- C111 without a default namespace.  Missing: default namespaces that have a prefix. -/
theorem C111_partial (p n : Str) (h : (p, n) ∈ skosPrefixes) : (skosMappingsWith none).getNamespace ⟨p ++ [':']⟩ = some ⟨n⟩ :=
  (PrefixMap.getNamespace_iff skosMappings_inv _ _).2 (skosMappings_prefixes _ h).2

/-- C111, exactly: a standard prefix is kept if and only if its namespace is not made the default one; the default
namespace is always set. -/
theorem C111_iff (d : Iri) (p n : Str) (h : (p, n) ∈ skosPrefixes) :
    ((skosMappingsWith (some d)).getNamespace ⟨p ++ [':']⟩ = some ⟨n⟩ ↔ d ≠ ⟨n⟩) ∧
    (skosMappingsWith (some d)).getDefaultNamespace = some d := by
  have hi : (skosMappingsWith (some d)).Inv := PrefixMap.inv_insert skosMappings_inv _ _
  obtain ⟨h1, h2⟩ := skosMappings_prefixes _ h
  have hne : (⟨p ++ [':']⟩ : Namespace) ≠ Namespace.newDefault := fun e => h1 (by
    have := congrArg Namespace.text e
    simpa [Namespace.newDefault] using this)
  refine ⟨?_, (PrefixMap.getNamespace_iff hi _ _).2 (PrefixMap.mem_insertSorted.2 (.inl rfl))⟩
  rw [PrefixMap.getNamespace_iff hi]
  have : (skosMappingsWith (some d)).entries = PrefixMap.insertSorted Namespace.newDefault d
    (skosMappings.entries.filter fun e => !(e.1 == Namespace.newDefault) && !(e.2 == d)) := rfl
  rw [this, PrefixMap.mem_insertSorted, List.mem_filter]
  constructor
  · rintro (e | ⟨_, e⟩)
    · exact absurd (congrArg Prod.fst e) hne
    · simp at e; exact fun e' => e.2 e'.symm
  · intro e
    refine .inr ⟨h2, ?_⟩
    simp only [Bool.and_eq_true, Bool.not_eq_true', beq_eq_false_iff_ne]
    exact ⟨hne, fun e' => e e'.symm⟩

/-- C111 fails: with the namespace of SKOS as the default one the prefix `skos` is lost. -/
theorem C111_fails : ¬C111_statement := fun h =>
  (C111_iff ⟨str! "http://www.w3.org/2004/02/skos/core#"⟩ (str! "skos") (str! "http://www.w3.org/2004/02/skos/core#")
    (by decide)).1.1 (h _ _ _ (by decide)) rfl

/-! ### C113 -/

/-- C113, the full statement: the graph of a thesaurus satisfies the conditions S9, S13, S14 and S37 of SKOS. -/
def C113_statement : Prop :=
  ∀ (pr : Char → Bool) (gen : Nat → Str) (u : Iri) (ops : List SkosOp) (n k : Nat) (sts : List Stmt),
    (ops.foldl Thesaurus.apply (.new u)).scheme.toStatements pr gen (ops.foldl Thesaurus.apply (.new u)).store n k = some sts →
    DisjointClasses sts ∧ DisjointLabels sts ∧ OnePreferredLabel sts

/-- What a thesaurus must be for the conditions to hold: resources with one IRI are one; there is no external
relation for types and no property or further kind of label for labels; the labels of a resource with one text or of
the preferred kind are for different languages. -/
structure Tidy (pr : Char → Bool) (h : SkosStore) (s : Scheme) : Prop where
  concept : ∀ i, ConceptOf h s i → (h.concept i).uri ≠ s.uri
  collection : ∀ i, CollectionOf h s i → (h.collection i).uri ≠ s.uri
  apart : ∀ i j, ConceptOf h s i → CollectionOf h s j → (h.concept i).uri ≠ (h.collection j).uri
  one : ∀ u ls ps ls' ps', Described h s u ls ps → Described h s u ls' ps' → ls = ls'
  external : ∀ i, ConceptOf h s i → ∀ e ∈ (h.concept i).external, e.1 ≠ rdfType
  properties : ∀ u ls ps, Described h s u ls ps → ∀ p ∈ ps, p.predicate ∉ labelPredicates
  kinds : ∀ u ls ps, Described h s u ls ps → ∀ l ∈ ls, ∀ i, l.kind = .other i → i ∉ labelPredicates
  labels : ∀ u ls ps, Described h s u ls ps → ∀ l ∈ ls, ∀ l' ∈ ls, l.language = l'.language →
    (escapeString pr l.text = escapeString pr l'.text ∨ (l.kind = .preferred ∧ l'.kind = .preferred)) → l = l'

/-- What is said with a literal is said by a label or a property of a resource. -/
theorem says_literal {pr : Char → Bool} {h : SkosStore} {s : Scheme} {x : Subject} {p : Iri} {l : Literal}
    (hs : Says pr h s (.mk x p (.lit l))) :
    ∃ u ls ps, Described h s u ls ps ∧ x = .res u ∧
      ((∃ a ∈ ls, p = a.kind.toUri ∧ l = labelLiteral pr a) ∨ ∃ q ∈ ps, p = q.predicate) := by
  have key : ∀ {u ls ps}, Described h s u ls ps → SaysOf pr u ls ps (.mk x p (.lit l)) →
      ∃ u ls ps, Described h s u ls ps ∧ x = .res u ∧
        ((∃ a ∈ ls, p = a.kind.toUri ∧ l = labelLiteral pr a) ∨ ∃ q ∈ ps, p = q.predicate) := by
    intro u ls ps hd h1
    refine ⟨u, ls, ps, hd, ?_⟩
    generalize hst : Stmt.mk x p (.lit l) = st at h1
    cases h1 with
    | label ha => injection hst with e1 e2 e3; injection e3 with e3; exact ⟨e1, .inl ⟨_, ha, e2, e3⟩⟩
    | property ha => injection hst with e1 e2 e3; exact ⟨e1, .inr ⟨_, ha, e2⟩⟩
  generalize hst : Stmt.mk x p (.lit l) = st at hs
  cases hs with
  | schemeOf h1 => subst hst; exact key .scheme h1
  | conceptOf hi h1 => subst hst; exact key (.concept hi) h1
  | collectionOf hi h1 => subst hst; exact key (.collection hi) h1
  | _ => cases hst

/-- The types that are said. -/
theorem says_type {pr : Char → Bool} {h : SkosStore} {s : Scheme} (ht : Tidy pr h s) {x : Subject} {c : Iri}
    (hs : Says pr h s (.mk x rdfType (.res c))) :
    (x = .res s.uri ∧ c = skosIri (str! "ConceptScheme")) ∨
    (∃ i, ConceptOf h s i ∧ x = .res (h.concept i).uri ∧ c = skosIri (str! "Concept")) ∨
    ∃ i, CollectionOf h s i ∧ x = .res (h.collection i).uri ∧
      (c = skosIri (str! "Collection") ∨ c = skosIri (str! "OrderedCollection")) := by
  generalize hst : Stmt.mk x rdfType (.res c) = st at hs
  cases hs with
  | scheme => injection hst with e1 e2 e3; injection e3 with e3; exact .inl ⟨e1, e3⟩
  | schemeOf h1 => obtain ⟨_, _, e⟩ := saysOf_subject h1; rw [e] at hst; cases hst
  | concept hi => injection hst with e1 e2 e3; injection e3 with e3; exact .inr (.inl ⟨_, hi, e1, e3⟩)
  | conceptIn hi => injection hst with _ e; exact absurd e (by decide +kernel)
  | @relation _ _ r hi => injection hst with _ e; exact absurd e (by cases r <;> decide +kernel)
  | external hi he => injection hst with _ e; exact absurd e.symm (ht.external _ hi _ he)
  | conceptOf _ h1 => obtain ⟨_, _, e⟩ := saysOf_subject h1; rw [e] at hst; cases hst
  | topConceptOf => injection hst with _ e; exact absurd e (by decide +kernel)
  | hasTopConcept => injection hst with _ e; exact absurd e (by decide +kernel)
  | @collection i hi =>
    injection hst with e1 e2 e3
    injection e3 with e3
    refine .inr (.inr ⟨_, hi, e1, ?_⟩)
    rw [e3]
    cases (h.collection i).ordered
    · exact .inl rfl
    · exact .inr rfl
  | collectionIn => injection hst with _ e; exact absurd e (by decide +kernel)
  | member => injection hst with _ e; exact absurd e (by decide +kernel)
  | collectionOf _ h1 => obtain ⟨_, _, e⟩ := saysOf_subject h1; rw [e] at hst; cases hst

/-- C113 for thesauri that are tidy.  Missing: the others, which the calls do not refuse. -/
theorem C113_partial (pr : Char → Bool) (gen : Nat → Str) (h : SkosStore) (s : Scheme) (n k : Nat) (sts : List Stmt)
    (hs : s.toStatements pr gen h n k = some sts) (ht : Tidy pr h s) :
    DisjointClasses sts ∧ DisjointLabels sts ∧ OnePreferredLabel sts := by
  have noblank : ∀ {b p o}, (p = rdfType ∧ o ≠ .res (rdfIri (str! "List"))) ∨ (∃ l, o = .lit l) → .mk (.blank b) p o ∉ sts := by
    intro b p o ho hst
    obtain ⟨i, -, -, k', h1⟩ := C107_blank pr gen h s n k sts hs _ b rfl hst
    have : ∀ (k : Nat) (cur : Str) (ms : List Iri) (st : Stmt), st ∈ (listFrom gen k cur ms).1 →
        (st.predicate = rdfType → st.object = .res (rdfIri (str! "List"))) ∧ ∀ l, st.object ≠ .lit l := by
      intro k cur ms
      induction ms generalizing k cur with
      | nil =>
        intro st hst
        simp only [listFrom, makeListEnd, List.mem_cons, List.not_mem_nil, or_false] at hst
        rcases hst with rfl | rfl
        · exact ⟨fun _ => rfl, fun l e => by cases e⟩
        · exact ⟨fun e => absurd e (by simp only [Stmt.predicate]; decide +kernel), fun l e => by cases e⟩
      | cons m ms ih =>
        intro st hst
        simp only [listFrom, makeListNode, addToListNode, List.cons_append, List.mem_cons, List.mem_append] at hst
        simp only [List.not_mem_nil, false_or, or_false] at hst
        rcases hst with rfl | rfl | rfl | hst
        · exact ⟨fun e => absurd e (by simp only [Stmt.predicate]; decide +kernel), fun l e => by cases e⟩
        · exact ⟨fun e => absurd e (by simp only [Stmt.predicate]; decide +kernel), fun l e => by cases e⟩
        · exact ⟨fun _ => rfl, fun l e => by cases e⟩
        · exact ih _ _ _ hst
    have h2 : (p = rdfType → o = .res (rdfIri (str! "List"))) ∧ ∀ l, o ≠ .lit l := by
      simp only [listStatements, makeListNode, List.mem_append, List.mem_singleton, List.not_mem_nil, false_or] at h1
      rcases h1 with e | h1
      · injection e with _ _ e
        subst e
        exact ⟨fun _ => rfl, fun l e => by cases e⟩
      · exact this _ _ _ _ h1
    rcases ho with ⟨e1, e2⟩ | ⟨l, e⟩
    · exact e2 (h2.1 e1)
    · exact h2.2 l e
  have says : ∀ {x p o}, (∀ b, x ≠ .blank b) → .mk x p o ∈ sts → Says pr h s (.mk x p o) :=
    fun {x p o} hb hst => (C107_statements pr gen h s n k sts hs (.mk x p o) hb).1 hst
  have notBlank : ∀ {x p o}, ((p = rdfType ∧ o ≠ .res (rdfIri (str! "List"))) ∨ ∃ l, o = .lit l) → .mk x p o ∈ sts →
      ∀ b, x ≠ .blank b := fun ho hst b e => by subst e; exact noblank ho hst
  refine ⟨?_, ?_, ?_⟩
  · rintro x c c' hc hc' ⟨y, hy, h1⟩ ⟨y', hy', h1'⟩
    have key : ∀ {c y}, c ∈ [[skosIri (str! "Concept")], [skosIri (str! "ConceptScheme")],
        [skosIri (str! "Collection"), skosIri (str! "OrderedCollection")]] → y ∈ c → .mk x rdfType (.res y) ∈ sts →
        (x = .res s.uri ∧ c = [skosIri (str! "ConceptScheme")]) ∨
        (∃ i, ConceptOf h s i ∧ x = .res (h.concept i).uri ∧ c = [skosIri (str! "Concept")]) ∨
        ∃ i, CollectionOf h s i ∧ x = .res (h.collection i).uri ∧
          c = [skosIri (str! "Collection"), skosIri (str! "OrderedCollection")] := by
      intro c y hc hy h1
      have hne : (Object.res y) ≠ .res (rdfIri (str! "List")) := by
        simp only [List.mem_cons, List.not_mem_nil, or_false] at hc
        rcases hc with rfl | rfl | rfl
        all_goals
          simp only [List.mem_cons, List.not_mem_nil, or_false] at hy
          rcases hy with rfl | rfl <;> decide +kernel
      have h2 := says_type ht (says (notBlank (.inl ⟨rfl, hne⟩) h1) h1)
      have d1 : skosIri (str! "Concept") ≠ skosIri (str! "ConceptScheme") := by decide +kernel
      have d2 : skosIri (str! "Concept") ≠ skosIri (str! "Collection") := by decide +kernel
      have d3 : skosIri (str! "Concept") ≠ skosIri (str! "OrderedCollection") := by decide +kernel
      have d4 : skosIri (str! "ConceptScheme") ≠ skosIri (str! "Collection") := by decide +kernel
      have d5 : skosIri (str! "ConceptScheme") ≠ skosIri (str! "OrderedCollection") := by decide +kernel
      simp only [List.mem_cons, List.not_mem_nil, or_false] at hc
      rcases hc with rfl | rfl | rfl <;> simp only [List.mem_cons, List.not_mem_nil, or_false] at hy <;> grind
    have a := key hc hy h1
    have b := key hc' hy' h1'
    rcases a with ⟨rfl, rfl⟩ | ⟨i, hi, rfl, rfl⟩ | ⟨i, hi, rfl, rfl⟩
    · rcases b with ⟨_, e⟩ | ⟨j, hj, e, _⟩ | ⟨j, hj, e, _⟩
      · exact e.symm
      · injection e with e; exact absurd e.symm (ht.concept j hj)
      · injection e with e; exact absurd e.symm (ht.collection j hj)
    · rcases b with ⟨e, _⟩ | ⟨j, hj, _, e⟩ | ⟨j, hj, e, _⟩
      · injection e with e; exact absurd e (ht.concept i hi)
      · exact e.symm
      · injection e with e; exact absurd e (ht.apart i j hi hj)
    · rcases b with ⟨e, _⟩ | ⟨j, hj, e, _⟩ | ⟨j, hj, _, e⟩
      · injection e with e; exact absurd e (ht.collection i hi)
      · injection e with e; exact absurd e.symm (ht.apart j i hj hi)
      · exact e.symm
  · intro x p p' l hp hp' h1 h1'
    obtain ⟨u, ls, ps, hd, rfl, h2⟩ := says_literal (says (notBlank (.inr ⟨_, rfl⟩) h1) h1)
    obtain ⟨u', ls', ps', hd', e, h2'⟩ := says_literal (says (notBlank (.inr ⟨_, rfl⟩) h1') h1')
    injection e with e
    subst e
    have := ht.one _ _ _ _ _ hd hd'
    subst this
    rcases h2 with ⟨a, ha, rfl, rfl⟩ | ⟨q, hq, rfl⟩
    · rcases h2' with ⟨a', ha', rfl, e⟩ | ⟨q, hq, rfl⟩
      · have e1 := congrArg Literal.lexicalForm e
        have e2 := congrArg Literal.language e
        rw [ht.labels _ _ _ hd a ha a' ha' e2 (.inl e1)]
      · exact absurd hp' (ht.properties _ _ _ hd' _ hq)
    · exact absurd hp (ht.properties _ _ _ hd _ hq)
  · intro x l l' h1 h1' hl
    obtain ⟨u, ls, ps, hd, rfl, h2⟩ := says_literal (says (notBlank (.inr ⟨_, rfl⟩) h1) h1)
    obtain ⟨u', ls', ps', hd', e, h2'⟩ := says_literal (says (notBlank (.inr ⟨_, rfl⟩) h1') h1')
    injection e with e
    subst e
    have := ht.one _ _ _ _ _ hd hd'
    subst this
    have pref : ∀ a ∈ ls, skosIri (str! "prefLabel") = a.kind.toUri → a.kind = .preferred := by
      intro a ha e
      cases hk : a.kind with
      | preferred => rfl
      | alternative => rw [hk] at e; exact absurd e (by decide +kernel)
      | hidden => rw [hk] at e; exact absurd e (by decide +kernel)
      | other i =>
        rw [hk] at e
        exact absurd (List.mem_of_mem_head? (congrArg some e)) (ht.kinds _ _ _ hd a ha i hk)
    rcases h2 with ⟨a, ha, e, rfl⟩ | ⟨q, hq, e⟩
    · rcases h2' with ⟨a', ha', e', rfl⟩ | ⟨q, hq, e'⟩
      · rw [ht.labels _ _ _ hd a ha a' ha' hl (.inr ⟨pref a ha e, pref a' ha' e'⟩)]
      · exact absurd (List.mem_of_mem_head? (congrArg some e')) (ht.properties _ _ _ hd' _ hq)
    · exact absurd (List.mem_of_mem_head? (congrArg some e)) (ht.properties _ _ _ hd _ hq)

/-- A thesaurus with a concept that has two labels is tidy. -/
example : Tidy (fun _ => true)
    ⟨[{ Concept.new ⟨str! "a"⟩ with labels := [⟨.preferred, str! "x", none⟩, ⟨.alternative, str! "y", none⟩] }], []⟩
    { Scheme.new ⟨str! "s"⟩ with concepts := [0] } := by
  have hc : ∀ i, ConceptOf
      ⟨[{ Concept.new ⟨str! "a"⟩ with labels := [⟨.preferred, str! "x", none⟩, ⟨.alternative, str! "y", none⟩] }], []⟩
      { Scheme.new ⟨str! "s"⟩ with concepts := [0] } i → i = 0 := fun i hi => by
    have := (mem_conceptsFlattened (n := 1) (l := [0]) (by decide +kernel) i).2 hi
    simpa using this
  have hk : ∀ i, ¬CollectionOf
      ⟨[{ Concept.new ⟨str! "a"⟩ with labels := [⟨.preferred, str! "x", none⟩, ⟨.alternative, str! "y", none⟩] }], []⟩
      { Scheme.new ⟨str! "s"⟩ with concepts := [0] } i := fun i hi => by
    have := (mem_collectionsFlattened (n := 1) (l := []) (by decide +kernel) i).2 hi
    cases this
  have hd : ∀ u ls ps, Described
      ⟨[{ Concept.new ⟨str! "a"⟩ with labels := [⟨.preferred, str! "x", none⟩, ⟨.alternative, str! "y", none⟩] }], []⟩
      { Scheme.new ⟨str! "s"⟩ with concepts := [0] } u ls ps →
      ps = [] ∧ ((u = ⟨str! "s"⟩ ∧ ls = []) ∨
        (u = ⟨str! "a"⟩ ∧ ls = [⟨.preferred, str! "x", none⟩, ⟨.alternative, str! "y", none⟩])) := by
    intro u ls ps h
    cases h with
    | scheme => exact ⟨rfl, .inl ⟨rfl, rfl⟩⟩
    | concept hi => rw [hc _ hi]; exact ⟨rfl, .inr ⟨rfl, rfl⟩⟩
    | collection hi => exact absurd hi (hk _)
  constructor
  · intro i hi; rw [hc i hi]; decide +kernel
  · intro i hi; exact absurd hi (hk i)
  · intro i j _ hj; exact absurd hj (hk j)
  · intro u ls ps ls' ps' h h'
    obtain ⟨-, ⟨h1, h2⟩ | ⟨h1, h2⟩⟩ := hd _ _ _ h <;> obtain ⟨-, ⟨h3, h4⟩ | ⟨h3, h4⟩⟩ := hd _ _ _ h'
    · rw [h2, h4]
    · rw [h1] at h3; exact absurd h3 (by decide)
    · rw [h1] at h3; exact absurd h3 (by decide)
    · rw [h2, h4]
  · intro i hi; rw [hc i hi]; exact fun e he => nomatch he
  · intro u ls ps h; rw [(hd _ _ _ h).1]; exact fun e he => nomatch he
  · intro u ls ps h l hl i
    obtain ⟨-, ⟨-, h2⟩ | ⟨-, h2⟩⟩ := hd _ _ _ h
    · rw [h2] at hl; cases hl
    · rw [h2] at hl
      simp only [List.mem_cons, List.not_mem_nil, or_false] at hl
      rcases hl with rfl | rfl <;> exact fun e => by cases e
  · intro u ls ps h
    obtain ⟨-, ⟨-, h2⟩ | ⟨-, h2⟩⟩ := hd _ _ _ h
    · rw [h2]; exact fun e he => nomatch he
    · rw [h2]; decide +kernel

/-- C113 fails for classes: nothing keeps a concept from having the IRI of its scheme. -/
theorem C113_fails_classes : ∃ (ops : List SkosOp) (sts : List Stmt), (ops.foldl Thesaurus.apply (.new ⟨str! "s"⟩)).scheme.toStatements (fun _ => true) (fun _ => [])
    (ops.foldl Thesaurus.apply (.new ⟨str! "s"⟩)).store 1 0 = some sts ∧ ¬DisjointClasses sts := by
  refine ⟨[.newTopConcept ⟨str! "s"⟩ []], _, rfl, fun h => ?_⟩
  have := h (.res ⟨str! "s"⟩) [skosIri (str! "Concept")] [skosIri (str! "ConceptScheme")] (by simp) (by simp)
    ⟨_, .head _, by decide +kernel⟩ ⟨_, .head _, by decide +kernel⟩
  revert this
  decide +kernel

/-- C113 fails for labels: nothing keeps a label from being added as two kinds. -/
theorem C113_fails_labels : ∃ (ops : List SkosOp) (sts : List Stmt), (ops.foldl Thesaurus.apply (.new ⟨str! "s"⟩)).scheme.toStatements (fun _ => true) (fun _ => [])
    (ops.foldl Thesaurus.apply (.new ⟨str! "s"⟩)).store 1 0 = some sts ∧ ¬DisjointLabels sts := by
  refine ⟨[.addLabel .scheme ⟨.preferred, [], none⟩, .addLabel .scheme ⟨.hidden, [], none⟩], _, rfl, fun h => ?_⟩
  have := h (.res ⟨str! "s"⟩) (skosIri (str! "prefLabel")) (skosIri (str! "hiddenLabel")) ⟨[], none, none⟩
    (by decide +kernel) (by decide +kernel) (by decide +kernel) (by decide +kernel)
  revert this
  decide +kernel

/-- C113 fails for preferred labels: two can be added for one language. -/
theorem C113_fails_preferred : ∃ (ops : List SkosOp) (sts : List Stmt), (ops.foldl Thesaurus.apply (.new ⟨str! "s"⟩)).scheme.toStatements (fun _ => true) (fun _ => [])
    (ops.foldl Thesaurus.apply (.new ⟨str! "s"⟩)).store 1 0 = some sts ∧ ¬OnePreferredLabel sts := by
  refine ⟨[.addLabel .scheme ⟨.preferred, str! "a", none⟩, .addLabel .scheme ⟨.preferred, str! "b", none⟩], _, rfl, fun h => ?_⟩
  have := h (.res ⟨str! "s"⟩) ⟨str! "a", none, none⟩ ⟨str! "b", none, none⟩
    (by decide +kernel) (by decide +kernel) rfl
  revert this
  decide +kernel

/-- C113 fails. -/
theorem C113_fails : ¬C113_statement := by
  intro h
  obtain ⟨ops, sts, hs, hn⟩ := C113_fails_preferred
  exact hn (h _ _ _ ops _ _ _ hs).2.2

end Rdftk
