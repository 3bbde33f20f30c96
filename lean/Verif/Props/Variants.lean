import Verif.Model.Variants
import Verif.Lemmas.Graph
import Verif.Lemmas.Names

/-! What nodes are made from and compared with, and the iterator over statements: C177 and C178. -/

namespace Rdftk

/-! ### C177 -/

/-- C177: a subject equals a value of another type just when it is made from it. -/
theorem C177_subject (s : Subject) :
    (∀ b, s.eqBlank b = true ↔ s = .ofBlank b) ∧ (∀ i, s.eqIri i = true ↔ s = .ofIri i) ∧ (∀ t, s.eqStmt t = true ↔ s = .ofStmt t) := by
  cases s <;> simp [Subject.eqBlank, Subject.eqIri, Subject.eqStmt, Subject.ofBlank, Subject.ofIri, Subject.ofStmt]

/-- C177: an object equals a value of another type just when it is made from it. -/
theorem C177_object (o : Object) :
    (∀ b, o.eqBlank b = true ↔ o = .ofBlank b) ∧ (∀ i, o.eqIri i = true ↔ o = .ofIri i) ∧ (∀ l, o.eqLiteral l = true ↔ o = .ofLiteral l) ∧
    (∀ c, o.eqCollection c = true ↔ o = .ofCollection c) ∧ (∀ t, o.eqStmt t = true ↔ o = .ofStmt t) := by
  cases o <;> simp [Object.eqBlank, Object.eqIri, Object.eqLiteral, Object.eqCollection, Object.eqStmt, Object.ofBlank, Object.ofIri,
    Object.ofLiteral, Object.ofCollection, Object.ofStmt]

/-- C177: a node made from a name is the blank node with that label. -/
theorem C177_name (n : Name) : Subject.ofName n = .ofBlank n.text ∧ Object.ofName n = .ofBlank n.text ∧
    GraphName.ofName n = .bnode n.text ∧ (Subject.ofName n).isBlank = true ∧ (Object.ofName n).isBlank = true := ⟨rfl, rfl, rfl, rfl, rfl⟩

/-- C177: a graph name is of just one kind, has the value of that kind, and is determined by it. -/
theorem C177_graphName (g : GraphName) :
    (g.isBlank = !g.isIri) ∧ (g.isBlank = true ↔ ∃ b, g.asBlank = some b) ∧ (g.isIri = true ↔ ∃ i, g.asIri = some i) ∧
    (∀ b, g.asBlank = some b ↔ g = .bnode b) ∧ (∀ i, g.asIri = some i ↔ g = .named i) := by
  cases g <;> simp [GraphName.isBlank, GraphName.isIri, GraphName.asBlank, GraphName.asIri, GraphName.named]

/-- C177: a graph named by a text has the text as its label, if it is accepted, with the reserved prefix or without. -/
theorem C177_blankNamed (v : Str → Bool) (s : Str) (g : GraphName) :
    GraphName.blankNamed v s = some g ↔ g = .bnode s ∧ (v s = true ∧ (¬∃ r, s = '_' :: ':' :: r) ∨ ∃ r, s = '_' :: ':' :: r ∧ v r = true) := by
  have hs : (∃ r, s = '_' :: ':' :: r) ∨ ¬∃ r, s = '_' :: ':' :: r := Classical.em _
  have hb : blankValid v s = true ↔ (v s = true ∧ (¬∃ r, s = '_' :: ':' :: r) ∨ ∃ r, s = '_' :: ':' :: r ∧ v r = true) := by
    rcases hs with ⟨r, rfl⟩ | hs
    · simp [blankValid, stripPrefix]
    · have : stripPrefix (str! "_:") s = none := by
        cases s with
        | nil => rfl
        | cons a s =>
          cases s with
          | nil => by_cases h : '_' = a <;> simp [stripPrefix, h]
          | cons b s =>
            by_cases h : '_' = a
            · by_cases h' : ':' = b
              · exact absurd ⟨s, by rw [← h, ← h']⟩ hs
              · simp [stripPrefix, h, h']
            · simp [stripPrefix, h]
      simp only [blankValid, this, hs, not_false_eq_true, and_true]
      constructor
      · exact .inl
      · rintro (h | ⟨r, e, -⟩)
        · exact h
        · exact absurd ⟨r, e⟩ hs
  unfold GraphName.blankNamed blankParse
  rw [← hb]
  cases blankValid v s <;> simp [eq_comm]

/-- C177: graphs named by blank nodes that are made one after the other have different names. -/
theorem C177_blank_distinct (m n : Nat) (h : GraphName.blank m = GraphName.blank n) : m = n := by
  simp only [GraphName.blank, GraphName.bnode.injEq, blankGen, List.cons.injEq, true_and, List.append_cancel_left_eq] at h
  exact toDigits_inj h

/-- C177: the type of a subject is said with the predicate of RDF. -/
theorem C177_rdfType (s : Subject) (o : Object) : (Stmt.rdfType s o).subject = s ∧ (Stmt.rdfType s o).object = o ∧
    (Stmt.rdfType s o).predicate.text = str! "http://www.w3.org/1999/02/22-rdf-syntax-ns#type" := ⟨rfl, rfl, rfl⟩

/-- C177: a statement announces what its object does, and all that its subject does; collections are announced for objects alone. -/
theorem C177_features (t : Stmt) (f : Iri) :
    t.supportsFeature f = t.object.supportsFeature f ∧ (t.subject.supportsFeature f = true → t.supportsFeature f = true) ∧
    t.supportsFeature featureObjectCollections = true ∧ t.supportsFeature featureSubjectCollections = false ∧
    t.subject.supportsFeature featureObjectCollections = false := by
  refine ⟨rfl, ?_, ?_, ?_, ?_⟩
  · simp only [Subject.supportsFeature, Stmt.supportsFeature]
    intro h
    simp [h]
  all_goals simp only [Subject.supportsFeature, Stmt.supportsFeature]; decide

/-- C177: a graph announces neither that it may be named, even if it is, nor the collections that each statement in it announces. -/
theorem C177_features_graph (g : Graph) (t : Stmt) :
    g.supportsFeature featureNamed = false ∧ g.supportsFeature featureObjectCollections = false ∧
    g.supportsFeature featureRdfStar = t.supportsFeature featureRdfStar := by
  have h (f : Iri) (h1 : (f == featureDuplicates) = false) (h2 : (f == featureRdfStar) = false) : g.supportsFeature f = false := by
    simp only [Graph.supportsFeature, h1, h2, Bool.false_and, Bool.or_self]
  refine ⟨h _ (by decide) (by decide), h _ (by decide) (by decide), ?_⟩
  simp [Graph.supportsFeature, Stmt.supportsFeature]

/-- C177: the features, by their text, that each of these announces; a data set announces none. -/
theorem C177_announced (f : Iri) :
    (∀ t : Stmt, t.supportsFeature f = true ↔ f.text = str! "http://rust-rdftk.dev/feature/graph/rdf_star" ∨
      f.text = str! "http://rust-rdftk.dev/feature/statements/object_collections") ∧
    (∀ s : Subject, s.supportsFeature f = true ↔ f.text = str! "http://rust-rdftk.dev/feature/graph/rdf_star") ∧
    (∀ g : Graph, g.supportsFeature f = true ↔ 
      (f.text = str! "http://rust-rdftk.dev/feature/graph/duplicates" ∧ ∃ l, g.statements = .unique l) ∨
      f.text = str! "http://rust-rdftk.dev/feature/graph/rdf_star") ∧
    (∀ g : IndexedGraph, g.supportsFeature f = true ↔ f.text ∈ [str! "http://rust-rdftk.dev/feature/graph/duplicates",
      str! "http://rust-rdftk.dev/feature/graph/rdf_star", str! "http://rust-rdftk.dev/feature/index/subject",
      str! "http://rust-rdftk.dev/feature/index/predicate", str! "http://rust-rdftk.dev/feature/index/object"]) ∧
    ∀ d : DataSet, d.supportsFeature f = false := by
  have e (t : Str) : f = ⟨t⟩ ↔ f.text = t := by cases f; simp
  refine ⟨fun t => ?_, fun s => ?_, fun g => ?_, fun g => ?_, fun _ => rfl⟩
  · simp only [Stmt.supportsFeature, Bool.or_eq_true, beq_iff_eq, featureRdfStar, featureObjectCollections, e]
  · simp only [Subject.supportsFeature, beq_iff_eq, featureRdfStar, e]
  · simp only [Graph.supportsFeature, Bool.or_eq_true, Bool.and_eq_true, beq_iff_eq, featureRdfStar, featureDuplicates, e]
    have h : g.statements.isUnique = true ↔ ∃ l, g.statements = .unique l := by cases g.statements <;> simp [Statements.isUnique]
    rw [h]
  · simp only [IndexedGraph.supportsFeature, Bool.or_eq_true, beq_iff_eq, featureRdfStar, featureDuplicates, featureIndexSubject,
      featureIndexPredicate, featureIndexObject, e, List.mem_cons, List.not_mem_nil, or_false, or_assoc]

/-- C177: the graph with indices announces duplicates and has them, unlike the other (C30). -/
theorem C177_indexed (g : IndexedGraph) (s : Stmt) :
    g.supportsFeature featureDuplicates = true ∧ ((g.insert s).insert s).len = g.len + 2 := by
  refine ⟨?_, ?_⟩
  · simp [IndexedGraph.supportsFeature]
  · simp [IndexedGraph.insert, IndexedGraph.len]

/-- C177: a subject names a graph just when it is no statement; then it is the name with the same label or IRI, and the conversion panics
otherwise. -/
theorem C177_ofSubject (s : Subject) :
    (∀ b, GraphName.ofSubject s = .ok (.bnode b) ↔ s = .ofBlank b) ∧ (∀ i, GraphName.ofSubject s = .ok (.named i) ↔ s = .ofIri i) ∧
    (GraphName.ofSubject s = .panic ↔ ∃ t, s = .ofStmt t) := by
  cases s <;> simp [GraphName.ofSubject, Subject.ofBlank, Subject.ofIri, Subject.ofStmt, GraphName.named]

/-! ### C178 -/

/-- C178, the full statement: at any time the length and the size hint of the iterator are the number of statements that are still to
come. -/
def C178_statement : Prop :=
  ∀ (st : Statements) (ord : List Stmt → List Stmt) (n : Nat), (∀ l, (ord l).Perm l) →
    let it := ((st.iterator ord).advance n).2
    it.len = st.len - n ∧ it.sizeHint = (st.len - n, some (st.len - n))

theorem advance_cons (it : StatementIter) (n : Nat) :
    it.advance (n + 1) = (it.next.1 :: (it.next.2.advance n).1, (it.next.2.advance n).2) := rfl

theorem advance_unique (r : List Stmt) (n : Nat) :
    (StatementIter.unique r).advance n = ((r.take n).map some ++ List.replicate (n - r.length) none, .unique (r.drop n)) := by
  induction n generalizing r with
  | zero => simp [StatementIter.advance]
  | succ n ih =>
    rw [advance_cons]
    cases r with
    | nil => simp [StatementIter.next, ih, List.replicate_succ]
    | cons t r => simp [StatementIter.next, ih]

theorem advance_nonUnique (r : List Stmt) (n : Nat) :
    (StatementIter.nonUnique r).advance n = ((r.take n).map some ++ List.replicate (n - r.length) none, .nonUnique (r.drop n)) := by
  induction n generalizing r with
  | zero => simp [StatementIter.advance]
  | succ n ih =>
    rw [advance_cons]
    cases r with
    | nil => simp [StatementIter.next, ih, List.replicate_succ]
    | cons t r => simp [StatementIter.next, ih]

/-- C178: the length is right at any time. -/
theorem C178_len (st : Statements) (ord : List Stmt → List Stmt) (n : Nat) (ho : ∀ l, (ord l).Perm l) :
    ((st.iterator ord).advance n).2.len = st.len - n := by
  cases st with
  | unique l => simp [Statements.iterator, advance_unique, StatementIter.len, Statements.len, (ho l).length_eq]
  | nonUnique l => simp [Statements.iterator, advance_nonUnique, StatementIter.len, Statements.len]

/-- C178: all statements come, each as often as it is there, and then nothing any more. -/
theorem C178_all (st : Statements) (ord : List Stmt → List Stmt) (n : Nat) (ho : ∀ l, (ord l).Perm l) (hn : st.len ≤ n) :
    ∃ l : List Stmt, l.Perm st.iter ∧ ((st.iterator ord).advance n).1 = l.map some ++ List.replicate (n - st.len) none := by
  cases st with
  | unique l =>
    refine ⟨ord l, ho l, ?_⟩
    have := (ho l).length_eq
    simp only [Statements.len] at hn
    simp [Statements.iterator, advance_unique, Statements.len, List.take_of_length_le (show (ord l).length ≤ n by omega), this]
  | nonUnique l =>
    simp only [Statements.len] at hn
    exact ⟨l, .refl _, by simp [Statements.iterator, advance_nonUnique, Statements.len, List.take_of_length_le hn]⟩

/-- C178 fails for the size hint: an iterator that has a length says nothing of it, as soon as a statement is to come. -/
theorem C178_fails : ¬C178_statement := fun h => by
  have := (h (.nonUnique [.mk (.blank []) ⟨[]⟩ (.blank [])]) id 0 fun _ => .refl _).2
  cases this

/-- C178, exactly: the size hint is never the length, at no time. -/
theorem C178_fails_always (it : StatementIter) : it.sizeHint ≠ (it.len, some it.len) := by
  simp [StatementIter.sizeHint]

/-- C178: what the size hint says is nevertheless true: the number is not less than the one and not more than the other. -/
theorem C178_bounds (it : StatementIter) : it.sizeHint.1 ≤ it.len ∧ ∀ m, it.sizeHint.2 = some m → it.len ≤ m := by
  simp [StatementIter.sizeHint]

example : ((Statements.nonUnique [.mk (.blank []) ⟨[]⟩ (.blank [])]).iterator id).advance 2 =
    ([some (.mk (.blank []) ⟨[]⟩ (.blank [])), none], .nonUnique []) := rfl

end Rdftk
