import Verif.Lemmas.Flatten
import Verif.Lemmas.Graph

/-! Facts about the model of SKOS. -/

namespace Rdftk

open Relation Spec

/-- The narrower concepts of a concept. -/
def conceptChildren (h : SkosStore) (i : Nat) : List Nat :=
  ((h.concept i).concepts.filter fun e => e.1.isNarrower).map (·.2)

/-- The collections in a collection. -/
def collectionChildren (h : SkosStore) (i : Nat) : List Nat := (h.collection i).members.filterMap Member.asCollection

theorem conceptsFlattened_eq (h : SkosStore) (n i : Nat) : conceptsFlattened h n i = flattenBy (conceptChildren h) n i := by
  induction n generalizing i with
  | zero => rfl
  | succ n ih =>
    have : (fun j => (conceptsFlattened h n j).map (· ++ [j])) = fun j => (flattenBy (conceptChildren h) n j).map (· ++ [j]) :=
      funext fun j => by rw [ih]
    rw [conceptsFlattened, flattenBy, this]
    rfl

theorem collectionsFlattened_eq (h : SkosStore) (n i : Nat) :
    collectionsFlattened h n i = flattenBy (collectionChildren h) n i := by
  induction n generalizing i with
  | zero => rfl
  | succ n ih =>
    have : (fun j => (collectionsFlattened h n j).map (· ++ [j])) = fun j => (flattenBy (collectionChildren h) n j).map (· ++ [j]) :=
      funext fun j => by rw [ih]
    rw [collectionsFlattened, flattenBy, this]
    rfl

theorem Scheme.conceptsFlattened_eq (h : SkosStore) (n : Nat) (s : Scheme) :
    s.conceptsFlattened h n = flattenAll (conceptChildren h) n s.concepts := by
  have : (fun j => (Rdftk.conceptsFlattened h n j).map (· ++ [j])) = fun j => (flattenBy (conceptChildren h) n j).map (· ++ [j]) :=
    funext fun j => by rw [Rdftk.conceptsFlattened_eq]
  rw [Scheme.conceptsFlattened, this]
  rfl

theorem Scheme.collectionsFlattened_eq (h : SkosStore) (n : Nat) (s : Scheme) :
    s.collectionsFlattened h n = flattenAll (collectionChildren h) n s.collections := by
  have : (fun j => (Rdftk.collectionsFlattened h n j).map (· ++ [j])) = fun j => (flattenBy (collectionChildren h) n j).map (· ++ [j]) :=
    funext fun j => by rw [Rdftk.collectionsFlattened_eq]
  rw [Scheme.collectionsFlattened, this]
  rfl

theorem mem_conceptChildren {h : SkosStore} : (fun a b => b ∈ conceptChildren h a) = NarrowerThan h := by
  funext a b
  apply propext
  simp only [conceptChildren, NarrowerThan, List.mem_map, List.mem_filter, Prod.exists]
  constructor
  · rintro ⟨r, j, h1, rfl⟩; exact ⟨r, h1⟩
  · rintro ⟨r, h1⟩; exact ⟨r, b, h1, rfl⟩

theorem mem_collectionChildren {h : SkosStore} : (fun a b => b ∈ collectionChildren h a) = HasSubCollection h := by
  funext a b
  apply propext
  simp only [collectionChildren, HasSubCollection, List.mem_filterMap]
  constructor
  · rintro ⟨m, h1, h2⟩
    cases m with
    | concept => cases h2
    | collection j => cases h2; exact h1
  · intro h1; exact ⟨_, h1, rfl⟩

theorem mem_conceptsFlattened {h : SkosStore} {n : Nat} {s : Scheme} {l : List Nat} (hl : s.conceptsFlattened h n = some l)
    (i : Nat) : i ∈ l ↔ ConceptOf h s i := by
  rw [Scheme.conceptsFlattened_eq] at hl
  rw [mem_flattenAll mem_flattenBy hl, mem_conceptChildren]
  rfl

theorem mem_collectionsFlattened {h : SkosStore} {n : Nat} {s : Scheme} {l : List Nat}
    (hl : s.collectionsFlattened h n = some l) (i : Nat) : i ∈ l ↔ CollectionOf h s i := by
  rw [Scheme.collectionsFlattened_eq] at hl
  rw [mem_flattenAll mem_flattenBy hl, mem_collectionChildren]
  rfl

theorem labelToStatement_eq (pr : Char → Bool) (u : Iri) (l : Label) :
    l.toStatement pr (.res u) = .mk (.res u) l.kind.toUri (.lit (labelLiteral pr l)) := by
  unfold Label.toStatement labelLiteral
  cases l.language <;> rfl

theorem propertyToStatement_eq (pr : Char → Bool) (u : Iri) (p : LiteralProperty) :
    p.toStatement pr (.res u) = .mk (.res u) p.predicate (.lit (propertyLiteral pr p)) := by
  unfold LiteralProperty.toStatement LiteralProperty.makeLiteral propertyLiteral
  cases p.dataType <;> cases p.language <;> rfl

theorem mem_saysOf {pr : Char → Bool} {u : Iri} {ls : List Label} {ps : List LiteralProperty} {st : Stmt} :
    st ∈ ls.map (·.toStatement pr (.res u)) ++ ps.map (·.toStatement pr (.res u)) ↔ SaysOf pr u ls ps st := by
  simp only [List.mem_append, List.mem_map, labelToStatement_eq, propertyToStatement_eq]
  constructor
  · rintro (⟨l, h, rfl⟩ | ⟨p, h, rfl⟩)
    · exact .label h
    · exact .property h
  · rintro (⟨h⟩ | ⟨h⟩)
    · exact .inl ⟨_, h, rfl⟩
    · exact .inr ⟨_, h, rfl⟩

theorem saysOf_subject {pr : Char → Bool} {u : Iri} {ls : List Label} {ps : List LiteralProperty} {st : Stmt}
    (h : SaysOf pr u ls ps st) : ∃ p l, st = .mk (.res u) p (.lit l) := by
  cases h <;> exact ⟨_, _, rfl⟩

theorem mem_conceptToStatements {pr : Char → Bool} {h : SkosStore} {o : Object} {c : Concept} {st : Stmt} :
    st ∈ c.toStatements pr h (some o) ↔
      st = .mk (.res c.uri) rdfType (.res (skosIri (str! "Concept"))) ∨
      st = .mk (.res c.uri) (skosIri (str! "inScheme")) o ∨
      (∃ e ∈ c.concepts, st = .mk (.res c.uri) e.1.toUri (.res (h.concept e.2).uri)) ∨
      (∃ e ∈ c.external, st = .mk (.res c.uri) e.1 (.res e.2)) ∨ SaysOf pr c.uri c.labels c.properties st := by
  rw [← mem_saysOf]
  simp only [Concept.toStatements, List.mem_append, List.mem_map, List.mem_singleton]
  grind

/-! ### The lists of ordered collections -/

/-- The statements of the list of an ordered collection. -/
def listStatements (gen : Nat → Str) (k : Nat) (ms : List Iri) : List Stmt :=
  makeListNode none (gen k) ++ (listFrom gen (k + 1) (gen k) ms).1

theorem listFrom_next (gen : Nat → Str) (k : Nat) (cur : Str) (ms : List Iri) :
    (listFrom gen k cur ms).2 = k + ms.length := by
  induction ms generalizing k cur with
  | nil => rfl
  | cons m ms ih => simp only [listFrom, ih, List.length_cons]; omega

theorem listFrom_blank {gen : Nat → Str} {k : Nat} {cur : Str} {ms : List Iri} {st : Stmt}
    (h : st ∈ (listFrom gen k cur ms).1) : ∃ b, st.subject = .blank b := by
  induction ms generalizing k cur with
  | nil =>
    simp only [listFrom, makeListEnd, List.mem_cons, List.not_mem_nil, or_false] at h
    rcases h with rfl | rfl <;> exact ⟨_, rfl⟩
  | cons m ms ih =>
    simp only [listFrom, makeListNode, addToListNode, List.cons_append, List.mem_cons, List.mem_append] at h
    simp only [List.not_mem_nil, false_or, or_false] at h
    rcases h with rfl | rfl | rfl | h
    · exact ⟨_, rfl⟩
    · exact ⟨_, rfl⟩
    · exact ⟨_, rfl⟩
    · exact ih h

theorem listStatements_blank {gen : Nat → Str} {k : Nat} {ms : List Iri} {st : Stmt}
    (h : st ∈ listStatements gen k ms) : ∃ b, st.subject = .blank b := by
  simp only [listStatements, makeListNode, List.mem_append, List.mem_singleton, List.not_mem_nil, false_or] at h
  rcases h with rfl | h
  · exact ⟨_, rfl⟩
  · exact listFrom_blank h

/-- The list part of a collection. -/
def listPart (gen : Nat → Str) (h : SkosStore) (c : SkosCollection) (k : Nat) : List Stmt :=
  if c.ordered ∧ c.members ≠ [] then listStatements gen k (c.members.map (·.uri h)) else []

/-- What a collection says, without its list. -/
theorem mem_collectionToStatements {pr : Char → Bool} {gen : Nat → Str} {h : SkosStore} {o : Object}
    {c : SkosCollection} {k : Nat} {st : Stmt} :
    st ∈ (c.toStatements pr gen h (some o) k).1 ↔
      st = .mk (.res c.uri) rdfType (.res (skosIri (if c.ordered then str! "OrderedCollection" else str! "Collection"))) ∨
      st = .mk (.res c.uri) (skosIri (str! "inScheme")) o ∨
      (c.ordered = false ∧ ∃ m ∈ c.members, st = .mk (.res c.uri) (skosIri (str! "member")) (.res (m.uri h))) ∨
      st ∈ listPart gen h c k ∨ SaysOf pr c.uri c.labels c.properties st := by
  rw [← mem_saysOf]
  simp only [SkosCollection.toStatements, listPart, listStatements]
  by_cases hm : c.members = []
  · simp [hm, or_assoc]
  · have hm' : c.members.isEmpty = false := by simpa using hm
    by_cases ho : c.ordered = true
    · simp [hm, ho, or_assoc]
    · simp only [hm', Bool.false_eq_true, if_false, ho, false_and, List.mem_append, List.mem_map,
        List.mem_singleton, List.not_mem_nil, false_or]
      grind

theorem mem_collectionsToStatements {pr : Char → Bool} {gen : Nat → Str} {h : SkosStore} {u : Iri} {ks : List Nat}
    {k : Nat} {st : Stmt} (hb : ∀ b, st.subject ≠ .blank b) :
    st ∈ (collectionsToStatements pr gen h u ks k).1 ↔ ∃ i ∈ ks,
      (st = .mk (.res (h.collection i).uri) rdfType
        (.res (skosIri (if (h.collection i).ordered then str! "OrderedCollection" else str! "Collection"))) ∨
      st = .mk (.res (h.collection i).uri) (skosIri (str! "inScheme")) (.res u) ∨
      ((h.collection i).ordered = false ∧ ∃ m ∈ (h.collection i).members,
        st = .mk (.res (h.collection i).uri) (skosIri (str! "member")) (.res (m.uri h))) ∨
      SaysOf pr (h.collection i).uri (h.collection i).labels (h.collection i).properties st) := by
  induction ks generalizing k with
  | nil => simp [collectionsToStatements]
  | cons i ks ih =>
    have hl : ∀ k, st ∉ listPart gen h (h.collection i) k := by
      intro k hk
      unfold listPart at hk
      split at hk
      · obtain ⟨b, e⟩ := listStatements_blank hk
        exact hb b e
      · cases hk
    simp only [collectionsToStatements, List.mem_append, List.mem_cons, mem_collectionToStatements, ih, hl,
      exists_eq_or_imp]
    grind

/-- Statements with a blank subject come from the list of an ordered collection. -/
theorem blank_collectionsToStatements {pr : Char → Bool} {gen : Nat → Str} {h : SkosStore} {u : Iri} {ks : List Nat}
    {k : Nat} {st : Stmt} {b : Str} (hb : st.subject = .blank b)
    (hst : st ∈ (collectionsToStatements pr gen h u ks k).1) :
    ∃ i ∈ ks, ∃ k', (h.collection i).ordered = true ∧
      st ∈ listStatements gen k' ((h.collection i).members.map (·.uri h)) := by
  induction ks generalizing k with
  | nil => cases hst
  | cons i ks ih =>
    simp only [collectionsToStatements, List.mem_append, List.mem_cons, mem_collectionToStatements] at hst
    rcases hst with (rfl | rfl | ⟨_, _, _, rfl⟩ | h1 | h1) | rfl | h1
    · cases hb
    · cases hb
    · cases hb
    · unfold listPart at h1
      split at h1
      · rename_i ho
        exact ⟨i, by simp, k, ho.1, h1⟩
      · cases h1
    · obtain ⟨p, l, rfl⟩ := saysOf_subject h1
      cases hb
    · cases hb
    · obtain ⟨j, hj, k', h2⟩ := ih h1
      exact ⟨j, by simp [hj], k', h2⟩

/-- The rests in the statements of a list. -/
theorem listFrom_rest {gen : Nat → Str} {k : Nat} {cur : Str} {ms : List Iri} {b : Str} {o : Object} :
    .mk (.blank b) (rdfIri (str! "rest")) o ∈ (listFrom gen k cur ms).1 ↔
      (match ms with
        | [] => b = cur ∧ o = .res (rdfIri (str! "nil"))
        | _ :: ms => (b = cur ∧ o = .blank (gen k)) ∨
          .mk (.blank b) (rdfIri (str! "rest")) o ∈ (listFrom gen (k + 1) (gen k) ms).1) := by
  have h1 : rdfIri (str! "rest") ≠ rdfType := by decide
  have h2 : rdfIri (str! "rest") ≠ rdfIri (str! "first") := by decide
  cases ms with
  | nil => simp [listFrom, makeListEnd, h1]
  | cons m ms => simp [listFrom, makeListNode, addToListNode, h1, h2]

/-- The members in the statements of a list. -/
theorem listFrom_first {gen : Nat → Str} {k : Nat} {cur : Str} {ms : List Iri} {b : Str} {o : Object} :
    .mk (.blank b) (rdfIri (str! "first")) o ∈ (listFrom gen k cur ms).1 ↔
      (match ms with
        | [] => False
        | m :: ms => (b = cur ∧ o = .res m) ∨
          .mk (.blank b) (rdfIri (str! "first")) o ∈ (listFrom gen (k + 1) (gen k) ms).1) := by
  have h1 : rdfIri (str! "first") ≠ rdfType := by decide
  have h2 : rdfIri (str! "first") ≠ rdfIri (str! "rest") := by decide
  cases ms with
  | nil => simp [listFrom, makeListEnd, h1, h2]
  | cons m ms => simp [listFrom, makeListNode, addToListNode, h1, h2]

/-- The rests in the statements of a list, by the number of the node. -/
theorem listStatements_rest {gen : Nat → Str} {k : Nat} {ms : List Iri} {b : Str} {o : Object} :
    .mk (.blank b) (rdfIri (str! "rest")) o ∈ listStatements gen k ms ↔
      (∃ j < ms.length, b = gen (k + j) ∧ o = .blank (gen (k + j + 1))) ∨
      (b = gen (k + ms.length) ∧ o = .res (rdfIri (str! "nil"))) := by
  have h1 : rdfIri (str! "rest") ≠ rdfType := by decide
  have : .mk (.blank b) (rdfIri (str! "rest")) o ∈ listStatements gen k ms ↔
      .mk (.blank b) (rdfIri (str! "rest")) o ∈ (listFrom gen (k + 1) (gen k) ms).1 := by
    simp [listStatements, makeListNode, h1]
  rw [this]
  clear this
  induction ms generalizing k with
  | nil => rw [listFrom_rest]; simp
  | cons m ms ih =>
    rw [listFrom_rest]
    simp only [ih, List.length_cons]
    constructor
    · rintro (⟨rfl, rfl⟩ | ⟨j, hj, rfl, rfl⟩ | ⟨rfl, rfl⟩)
      · exact .inl ⟨0, by omega, rfl, rfl⟩
      · exact .inl ⟨j + 1, by omega, by congr 1; omega, by congr 2; omega⟩
      · exact .inr ⟨by congr 1; omega, rfl⟩
    · rintro (⟨j, hj, rfl, rfl⟩ | ⟨rfl, rfl⟩)
      · cases j with
        | zero => exact .inl ⟨rfl, rfl⟩
        | succ j => exact .inr (.inl ⟨j, by omega, by congr 1; omega, by congr 2; omega⟩)
      · exact .inr (.inr ⟨by congr 1; omega, rfl⟩)

/-- The members in the statements of a list, by the number of the node. -/
theorem listStatements_first {gen : Nat → Str} {k : Nat} {ms : List Iri} {b : Str} {o : Object} :
    .mk (.blank b) (rdfIri (str! "first")) o ∈ listStatements gen k ms ↔
      ∃ j m, ms[j]? = some m ∧ b = gen (k + j) ∧ o = .res m := by
  have h1 : rdfIri (str! "first") ≠ rdfType := by decide
  have : .mk (.blank b) (rdfIri (str! "first")) o ∈ listStatements gen k ms ↔
      .mk (.blank b) (rdfIri (str! "first")) o ∈ (listFrom gen (k + 1) (gen k) ms).1 := by
    simp [listStatements, makeListNode, h1]
  rw [this]
  clear this
  induction ms generalizing k with
  | nil => rw [listFrom_first]; simp
  | cons m ms ih =>
    rw [listFrom_first]
    simp only [ih]
    constructor
    · rintro (⟨rfl, rfl⟩ | ⟨j, m', hj, rfl, rfl⟩)
      · exact ⟨0, m, rfl, rfl, rfl⟩
      · exact ⟨j + 1, m', by simpa using hj, by congr 1; omega, rfl⟩
    · rintro ⟨j, m', hj, rfl, rfl⟩
      cases j with
      | zero => simp at hj; subst hj; exact .inl ⟨rfl, rfl⟩
      | succ j => exact .inr ⟨j, m', by simpa using hj, by congr 1; omega, rfl⟩

end Rdftk
