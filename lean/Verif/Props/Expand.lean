import Verif.Lemmas.Expand

/-! C32–C35: collections, reified statements, simplified and skolemized graphs. -/

namespace Rdftk
open Spec

/-! ### C32: collections as lists -/

/-- The vocabulary functions used are the terms of the RDF vocabulary. -/
theorem C32_terms :
    rdfType = rdf (str! "type") ∧ rdfList = rdf (str! "List") ∧ rdfFirst = rdf (str! "first") ∧
    rdfRest = rdf (str! "rest") ∧ rdfNil = rdf (str! "nil") ∧
    rdfStatement = rdf (str! "Statement") ∧ rdfSubject = rdf (str! "subject") ∧
    rdfPredicate = rdf (str! "predicate") ∧ rdfObject = rdf (str! "object") :=
  ⟨rfl, rfl, rfl, rfl, rfl, rfl, rfl, rfl, rfl⟩

/-- The statements of an expanded collection are a well formed list of its members. -/
theorem C32_is_list (gen : Nat → Str) (n : Nat) (c : List Object) :
    IsList (collReify gen n c).2.1 (collReify gen n c).1 c := by
  cases c with
  | nil => exact .nil
  | cons o os => exact collCells_isList gen (gen n) (n + 1) o os

/-- The list has no other reading. -/
theorem C32_one_reading (gen : Nat → Str) (hg : ∀ i j, gen i = gen j → i = j) (n : Nat)
    (c c' : List Object) (h : IsList (collReify gen n c).2.1 (collReify gen n c).1 c') :
    c' = c := by
  refine IsList.unique ?_ ?_ ?_ h (C32_is_list gen n c)
  · cases c with
    | nil => intro s o o' h; simp [collReify] at h
    | cons x xs =>
      exact fun s o o' => collCells_functional gen hg (gen n) (n + 1)
        (fun j hj e => by have := hg _ _ e; omega) (x :: xs) s _ o o'
  · cases c with
    | nil => intro s o o' h; simp [collReify] at h
    | cons x xs =>
      exact fun s o o' => collCells_functional gen hg (gen n) (n + 1)
        (fun j hj e => by have := hg _ _ e; omega) (x :: xs) s _ o o'
  · intro p o hm
    obtain ⟨j, _, _, h⟩ := collReify_subject gen n c _ hm
    cases h

/-- Three statements and one new node for each member. -/
theorem C32_size (gen : Nat → Str) (n : Nat) (c : List Object) :
    (collReify gen n c).2.1.length = 3 * c.length ∧
    (collReify gen n c).2.2 = n + c.length := by
  cases c with
  | nil => simp [collReify]
  | cons o os =>
    have := collCells_count gen (gen n) (n + 1) o os
    simp only [collReify, this.1, this.2, List.length_cons]
    exact ⟨trivial, by omega⟩

/-- The cells are the new nodes, each used for one member, in order. -/
theorem C32_cells (gen : Nat → Str) (n : Nat) (c : List Object) :
    (collReify gen n c).2.1.filter (fun t => decide (t.predicate = rdf (str! "first"))) =
      List.zipWith (fun k x => Stmt.mk (.blank (gen (n + k))) (rdf (str! "first")) x)
        (List.range c.length) c := by
  cases c with
  | nil => simp [collReify]
  | cons o os =>
    refine (collCells_cells gen (gen n) (n + 1) o os).trans ?_
    rw [List.length_cons, List.range_succ_eq_map, List.zipWith_cons_cons, List.zipWith_cons_cons]
    congr 1
    rw [List.zipWith_map_left, List.zipWith_map_left]
    congr 1
    funext k x
    simp only [Nat.succ_eq_add_one]
    rw [Nat.add_assoc, Nat.add_comm 1 k]
    rfl

/-- Every statement is about one of the new nodes. -/
theorem C32_subjects (gen : Nat → Str) (n : Nat) (c : List Object) (t : Stmt)
    (h : t ∈ (collReify gen n c).2.1) :
    ∃ j, n ≤ j ∧ j < n + c.length ∧ t.subject = .blank (gen j) := by
  obtain ⟨j, h1, h2, h3⟩ := collReify_subject gen n c t h
  rw [(C32_size gen n c).2] at h2
  exact ⟨j, h1, h2, h3⟩

example : (collReify blankGen 4 [.blank (str! "x"), .res ⟨str! "http://a/"⟩]).2.1.length = 6 := by
  decide +kernel

/-! ### C33: reified statements -/

/-- The full property: with distinct new labels the node describes the statement. -/
def C33_statement : Prop :=
  ∀ (gen : Nat → Str), (∀ i j, gen i = gen j → i = j) → ∀ (n : Nat) (t : Stmt), collFree t →
    readStmt (t.reify gen n).1 (depth t) (gen n) = some t

/-- It fails when a label in the statement is one of the new ones: the labels of the code are
`B0`, `B1`, …, and those are valid labels to use. -/
theorem C33_fails : ¬ C33_statement := by
  intro h
  have hi : ∀ i j, blankGen i = blankGen j → i = j := by
    intro i j e
    simp only [blankGen, List.cons.injEq, true_and, List.append_cancel_left_eq] at e
    exact toDigits_inj e
  have := h blankGen hi 0 (.mk (.blank (blankGen 0)) ⟨str! "http://a/"⟩ (.blank (blankGen 0)))
    (by decide +kernel)
  revert this
  decide +kernel

/-- Labels that are not among the new ones: every statement can be read back, nested to any
depth, collections included. -/
theorem C33_read_back_partial (gen : Nat → Str) (hg : ∀ i j, gen i = gen j → i = j) (n : Nat)
    (t : Stmt) (hb : ∀ x ∈ blanks t, ∀ j, gen j ≠ x) (f : Nat) (hf : depth t ≤ f) :
    readStmt (t.reify gen n).1 f (gen n) = some t :=
  Stmt.read_reify gen hg _ n f t (Agrees.refl _ _ _ _) (fun x hx => not_stmtNode (hb x hx)) hf

/-- One new node for each statement, nested ones included. -/
theorem C33_nodes (gen : Nat → Str) (n : Nat) (t : Stmt) :
    (t.reify gen n).2 = n + size t := Stmt.reify_count gen n t

mutual
theorem Stmt.reify_length (gen : Nat → Str) (n : Nat) (t : Stmt) :
    (t.reify gen n).1.length = 4 * size t := by
  match t with
  | .mk s p o =>
    rw [Stmt.reify_eq]
    have a := Subject.nested_length gen (n + 1) s
    have b := Object.nested_length gen (n + 1 + ssize s) o
    simp only [List.length_append, List.length_singleton, size, a, b]; omega
theorem Subject.nested_length (gen : Nat → Str) (n : Nat) (s : Subject) :
    (s.nested gen n).length = 4 * ssize s := by
  match s with
  | .stmt t => exact Stmt.reify_length gen n t
  | .blank _ => rfl
  | .res _ => rfl
theorem Object.nested_length (gen : Nat → Str) (n : Nat) (o : Object) :
    (o.nested gen n).length = 4 * osize o := by
  match o with
  | .stmt t => exact Stmt.reify_length gen n t
  | .blank _ => rfl
  | .res _ => rfl
  | .lit _ => rfl
  | .coll _ => rfl
end

/-- Four statements for each statement, and all of them about the new nodes. -/
theorem C33_size (gen : Nat → Str) (n : Nat) (t : Stmt) :
    (t.reify gen n).1.length = 4 * size t ∧
    ∀ x ∈ (t.reify gen n).1, ∃ j, n ≤ j ∧ j < n + size t ∧ x.subject = .blank (gen j) :=
  ⟨Stmt.reify_length gen n t, Stmt.reify_subject gen n t⟩

example : readStmt ((Stmt.mk (.stmt (.mk (.res ⟨str! "a:"⟩) ⟨str! "b:"⟩ (.blank (str! "x"))))
    ⟨str! "c:"⟩ (.res ⟨str! "d:"⟩)).reify blankGen 0).1 2 (blankGen 0) =
    some (.mk (.stmt (.mk (.res ⟨str! "a:"⟩) ⟨str! "b:"⟩ (.blank (str! "x"))))
      ⟨str! "c:"⟩ (.res ⟨str! "d:"⟩)) := by decide +kernel

/-! ### C34: simplified graphs -/

/-- The full property. -/
def C34_statement : Prop :=
  ∀ (gen : Nat → Str) (n : Nat) (g : Graph) (t : Stmt),
    t ∈ (g.simplify gen n).1.stmts → simple t = true

mutual
theorem Stmt.reify_simple (gen : Nat → Str) (n : Nat) (t : Stmt) :
    (∀ x ∈ (t.reify gen n).1, simple x = true) ↔ collFree t = true := by
  match t with
  | .mk s p o =>
    rw [Stmt.reify_eq]
    have a := Subject.nested_simple gen (n + 1) s
    have b := Object.nested_simple gen (n + 1 + ssize s) o
    simp only [List.forall_mem_append, List.forall_mem_singleton, collFree, Bool.and_eq_true,
      ← a, ← b]
    have e1 : simple (.mk (.blank (gen n)) rdfType (.res rdfStatement)) = true := rfl
    have e2 : simple (.mk (.blank (gen n)) rdfSubject (s.refObj gen (n + 1))) = true := by
      cases s <;> rfl
    have e3 : simple (.mk (.blank (gen n)) rdfPredicate (.res p)) = true := rfl
    have e4 : ∀ m, simple (.mk (.blank (gen n)) rdfObject (o.refObj gen m)) =
        simpleObject (o.refObj gen m) := by
      intro m; simp [simple, simpleSubject, Stmt.subject, Stmt.object]
    simp only [e1, e2, e3, e4, true_and, and_true]
    exact and_assoc
theorem Subject.nested_simple (gen : Nat → Str) (n : Nat) (s : Subject) :
    (∀ x ∈ s.nested gen n, simple x = true) ↔ collFreeS s = true := by
  match s with
  | .stmt t => exact Stmt.reify_simple gen n t
  | .blank _ => simp [Subject.nested, collFreeS]
  | .res _ => simp [Subject.nested, collFreeS]
theorem Object.nested_simple (gen : Nat → Str) (n : Nat) (o : Object) :
    ((∀ x ∈ o.nested gen n, simple x = true) ∧ simpleObject (o.refObj gen n) = true) ↔
      collFreeO o = true := by
  match o with
  | .stmt t =>
    have := Stmt.reify_simple gen n t
    simp only [Object.nested, Object.refObj, simpleObject, and_true, collFreeO]
    exact this
  | .blank _ => simp [Object.nested, collFreeO, Object.refObj, simpleObject]
  | .res _ => simp [Object.nested, collFreeO, Object.refObj, simpleObject]
  | .lit _ => simp [Object.nested, collFreeO, Object.refObj, simpleObject]
  | .coll _ => simp [Object.nested, collFreeO, Object.refObj, simpleObject]
end

theorem collCells_simple (gen : Nat → Str) (b : Str) (n : Nat) (c : List Object) :
    (∀ x ∈ (collCells gen b n c).1, simple x = true) ↔ c.all simpleObject = true := by
  match c with
  | [] => simp [collCells]
  | [o] => simp [collCells, simple, simpleSubject, simpleObject, Stmt.subject, Stmt.object]
  | o :: o' :: os =>
    have := collCells_simple gen (gen n) (n + 1) (o' :: os)
    simp only [collCells, List.forall_mem_append, this]
    simp [simple, simpleSubject, simpleObject, Stmt.subject, Stmt.object]

theorem simplifyStmt_simple (gen : Nat → Str) (n : Nat) (t : Stmt) :
    (∀ x ∈ (simplifyStmt gen n t).1, simple x = true) ↔ shallow t = true := by
  match t with
  | .mk (.stmt u) p o =>
    simp only [simplifyStmt, List.forall_mem_cons, Stmt.reify_simple, shallow, Bool.and_eq_true]
    simp [simple, simpleSubject, Stmt.subject, Stmt.object, and_comm]
  | .mk (.blank _) p (.stmt u) | .mk (.res _) p (.stmt u) =>
    simp only [simplifyStmt, List.forall_mem_cons, Stmt.reify_simple, shallow]
    simp [simple, simpleSubject, simpleObject, Stmt.subject, Stmt.object]
  | .mk (.blank _) p (.coll []) | .mk (.res _) p (.coll []) =>
    simp [simplifyStmt, collReify, shallow, simple, simpleSubject, simpleObject, Stmt.subject,
      Stmt.object, Subject.toObject]
  | .mk (.blank _) p (.coll (x :: xs)) | .mk (.res _) p (.coll (x :: xs)) =>
    simp only [simplifyStmt, collReify, List.forall_mem_cons, collCells_simple, shallow]
    simp [simple, simpleSubject, simpleObject, Stmt.subject, Stmt.object, Subject.toObject]
  | .mk (.blank _) p (.blank _) | .mk (.blank _) p (.res _) | .mk (.blank _) p (.lit _)
  | .mk (.res _) p (.blank _) | .mk (.res _) p (.res _) | .mk (.res _) p (.lit _) =>
    simp [simplifyStmt, shallow, simple, simpleSubject, simpleObject, Stmt.subject, Stmt.object]

/-- Exactly the graphs for which the result has only simple statements: nested at one end of a
statement only, no collections in nested statements, nothing nested in collections. -/
theorem C34_exact_partial (gen : Nat → Str) (n : Nat) (g : Graph) :
    (∀ t ∈ (g.simplify gen n).1.stmts, simple t = true) ↔
      ∀ t ∈ g.stmts, shallow t = true := by
  rw [simplify_stmts]
  generalize g.stmts = l
  induction l generalizing n with
  | nil => simp [simplifyAll]
  | cons t ts ih =>
    simp only [simplifyAll, List.forall_mem_append, simplifyStmt_simple, ih, List.forall_mem_cons]

/-- A statement nested at both ends keeps the nested object. -/
theorem C34_fails : ¬ C34_statement := by
  intro h
  let u : Stmt := .mk (.res ⟨str! "a:"⟩) ⟨str! "b:"⟩ (.res ⟨str! "c:"⟩)
  let g : Graph := Graph.default.insert (.mk (.stmt u) ⟨str! "b:"⟩ (.stmt u))
  have := (C34_exact_partial blankGen 0 g).1 (h blankGen 0 g)
    (.mk (.stmt u) ⟨str! "b:"⟩ (.stmt u)) (by decide +kernel)
  revert this
  decide +kernel

/-- A collection in a collection also stays. -/
theorem C34_fails_collection : ¬ C34_statement := by
  intro h
  let t : Stmt := .mk (.res ⟨str! "a:"⟩) ⟨str! "b:"⟩ (.coll [.coll []])
  let g : Graph := Graph.default.insert t
  have := (C34_exact_partial blankGen 0 g).1 (h blankGen 0 g) t (by decide +kernel)
  revert this
  decide +kernel

/-- The name is kept. -/
theorem C34_name (gen : Nat → Str) (n : Nat) (g : Graph) :
    (g.simplify gen n).1.name = g.name := rfl

/-- The prefixes are not kept: they are those of a new graph; duplicates are allowed. -/
theorem C34_not_kept (gen : Nat → Str) (n : Nat) (g : Graph) :
    (g.simplify gen n).1.mappings = defaultMappings ∧
    (g.simplify gen n).1.statements.isUnique = false := ⟨rfl, rfl⟩

theorem simplifyStmt_of_simple (gen : Nat → Str) (n : Nat) (t : Stmt) (h : simple t = true) :
    simplifyStmt gen n t = ([t], n) := by
  match t with
  | .mk (.stmt u) p o => simp [simple, simpleSubject, Stmt.subject] at h
  | .mk (.blank _) p (.stmt u) | .mk (.res _) p (.stmt u)
  | .mk (.blank _) p (.coll _) | .mk (.res _) p (.coll _) =>
    simp [simple, simpleObject, Stmt.object] at h
  | .mk (.blank _) p (.blank _) | .mk (.blank _) p (.res _) | .mk (.blank _) p (.lit _)
  | .mk (.res _) p (.blank _) | .mk (.res _) p (.res _) | .mk (.res _) p (.lit _) => rfl

/-- Simple statements are kept, in order. -/
theorem C34_simple_kept (gen : Nat → Str) (n : Nat) (g : Graph) :
    (g.stmts.filter simple).Sublist (g.simplify gen n).1.stmts := by
  rw [simplify_stmts]
  generalize g.stmts = l
  induction l generalizing n with
  | nil => simp [simplifyAll]
  | cons t ts ih =>
    simp only [simplifyAll]
    by_cases h : simple t = true
    · rw [List.filter_cons_of_pos h, simplifyStmt_of_simple gen n t h]
      exact (ih n).cons₂ t
    · rw [List.filter_cons_of_neg h]
      exact (ih _).trans (List.sublist_append_right _ _)

/-- A graph of simple statements has the same statements, and no new nodes are made. -/
theorem C34_unchanged (gen : Nat → Str) (n : Nat) (g : Graph)
    (h : ∀ t ∈ g.stmts, simple t = true) :
    (g.simplify gen n).1.stmts = g.stmts ∧ (g.simplify gen n).2 = n := by
  rw [simplify_stmts]
  show (simplifyAll gen n g.stmts).1 = _ ∧ (simplifyAll gen n g.stmts).2 = n
  generalize g.stmts = l at h
  induction l with
  | nil => simp [simplifyAll]
  | cons t ts ih =>
    simp only [simplifyAll, simplifyStmt_of_simple gen n t (h t (by simp))]
    have := ih (fun x hx => h x (by simp [hx]))
    simp [this.1, this.2]

/-- A statement about a statement becomes one about a node from which the nested statement can
be read back, when labels are new and the predicate is not itself `rdf:subject` and the like. -/
theorem C34_nested_subject (gen : Nat → Str) (hg : ∀ i j, gen i = gen j → i = j) (n : Nat)
    (g : Graph) (hs : ∀ t ∈ g.stmts, ∀ j, t.subject ≠ .blank (gen j))
    (u : Stmt) (p : Iri) (o : Object) (ht : Stmt.mk (.stmt u) p o ∈ g.stmts)
    (hp : p ≠ rdf (str! "subject") ∧ p ≠ rdf (str! "predicate") ∧ p ≠ rdf (str! "object"))
    (hb : ∀ x ∈ blanks u, (∀ j, gen j ≠ x) ∧ isStmtNode g.stmts x = false) :
    ∃ b, Stmt.mk (.blank b) p o ∈ (g.simplify gen n).1.stmts ∧
      ∀ f, depth u ≤ f → readStmt (g.simplify gen n).1.stmts f b = some u := by
  rw [simplify_stmts]
  obtain ⟨l1, l2, e⟩ := List.append_of_mem ht
  rw [e] at hs hb ⊢
  have ha := simplify_agrees gen hg n l1 l2 (.mk (.stmt u) p o) u
    (.mk (.blank (gen (simplifyAll gen n l1).2)) p o) p hs _ rfl rfl
    (.inl ⟨_, rfl, fun h => by
      rcases h with h | h | h
      · exact hp.1 h
      · exact hp.2.1 h
      · exact hp.2.2 h⟩)
  refine ⟨gen (simplifyAll gen n l1).2, ?_, fun f hf => ?_⟩
  · rw [(simplifyAll_append gen n l1 _).1]
    simp [simplifyAll, simplifyStmt]
  · exact Stmt.read_reify gen hg _ _ f u ha
      (fun x hx => simplify_isStmtNode gen n _ x (hb x hx).1 (hb x hx).2) hf

/-- The same for a statement that has a statement as its object. -/
theorem C34_nested_object (gen : Nat → Str) (hg : ∀ i j, gen i = gen j → i = j) (n : Nat)
    (g : Graph) (hs : ∀ t ∈ g.stmts, ∀ j, t.subject ≠ .blank (gen j))
    (u : Stmt) (s : Subject) (p : Iri) (ht : Stmt.mk s p (.stmt u) ∈ g.stmts)
    (hss : simpleSubject s = true)
    (hb : ∀ x ∈ blanks u, (∀ j, gen j ≠ x) ∧ isStmtNode g.stmts x = false) :
    ∃ b, Stmt.mk s p (.blank b) ∈ (g.simplify gen n).1.stmts ∧
      ∀ f, depth u ≤ f → readStmt (g.simplify gen n).1.stmts f b = some u := by
  rw [simplify_stmts]
  obtain ⟨l1, l2, e⟩ := List.append_of_mem ht
  rw [e] at hs hb ⊢
  have h1 : ∀ m, simplifyStmt gen m (.mk s p (.stmt u)) =
      (.mk s p (.blank (gen m)) :: (u.reify gen m).1, (u.reify gen m).2) := by
    intro m
    cases s with
    | stmt _ => simp [simpleSubject] at hss
    | blank _ => rfl
    | res _ => rfl
  have ha := simplify_agrees gen hg n l1 l2 (.mk s p (.stmt u)) u
    (.mk s p (.blank (gen (simplifyAll gen n l1).2))) p hs _ rfl (h1 _)
    (.inr fun j => hs (.mk s p (.stmt u)) (by simp) j)
  refine ⟨gen (simplifyAll gen n l1).2, ?_, fun f hf => ?_⟩
  · rw [(simplifyAll_append gen n l1 _).1]
    simp [simplifyAll, h1]
  · exact Stmt.read_reify gen hg _ _ f u ha
      (fun x hx => simplify_isStmtNode gen n _ x (hb x hx).1 (hb x hx).2) hf

/-- A collection becomes a list of its members. -/
theorem C34_collection (gen : Nat → Str) (n : Nat) (g : Graph) (s : Subject) (p : Iri)
    (c : List Object) (ht : Stmt.mk s p (.coll c) ∈ g.stmts) (hss : simpleSubject s = true) :
    ∃ h : Subject, Stmt.mk s p h.toObject ∈ (g.simplify gen n).1.stmts ∧
      IsList (g.simplify gen n).1.stmts h c := by
  rw [simplify_stmts]
  obtain ⟨l1, l2, e⟩ := List.append_of_mem ht
  rw [e]
  have h1 : ∀ m, simplifyStmt gen m (.mk s p (.coll c)) =
      (.mk s p (collReify gen m c).1.toObject :: (collReify gen m c).2.1,
        (collReify gen m c).2.2) := by
    intro m
    cases s with
    | stmt _ => simp [simpleSubject] at hss
    | blank _ => rfl
    | res _ => rfl
  refine ⟨(collReify gen (simplifyAll gen n l1).2 c).1, ?_, ?_⟩
  · rw [(simplifyAll_append gen n l1 _).1]
    simp [simplifyAll, h1]
  · refine IsList.mono ?_ (C32_is_list gen (simplifyAll gen n l1).2 c)
    intro t h
    rw [(simplifyAll_append gen n l1 _).1]
    simp [simplifyAll, h1, h]

example : ((Graph.default.insert (.mk (.stmt (.mk (.res ⟨str! "a:"⟩) ⟨str! "b:"⟩
    (.res ⟨str! "c:"⟩))) ⟨str! "b:"⟩ (.blank (str! "x")))).simplify blankGen 0).1.len = 5 := by
  decide +kernel

/-! ### C35: skolemized graphs -/

/-- The full property (apart from consistency, which holds: see below). -/
def C35_statement : Prop :=
  ∀ (uuid : Nat → Str), (∀ i j, uuid i = uuid j → i = j) → ∀ (base : Iri) (g : Graph),
    base.isOpaque = false →
    ∃ g', g.skolemize uuid base = some g' ∧ (∀ t ∈ g'.stmts, blanks t = []) ∧
      g'.name = g.name ∧ g'.mappings = g.mappings

/-- The name is lost. -/
theorem C35_fails : ¬ C35_statement := by
  intro h
  obtain ⟨g', e, _, hn, _⟩ := h (Nat.toDigits 10) (fun _ _ => toDigits_inj) ⟨str! "http://a/"⟩
    (Graph.named (.iri ⟨str! "http://n/"⟩)) (by decide +kernel)
  have : some g' = some Graph.default := e.symm.trans rfl
  cases this
  cases hn

/-- Blank nodes in nested statements stay. -/
theorem C35_fails_nested : ¬ C35_statement := by
  intro h
  obtain ⟨g', e, hb, _, _⟩ := h (Nat.toDigits 10) (fun _ _ => toDigits_inj) ⟨str! "http://a/"⟩
    (Graph.default.insert (.mk (.res ⟨str! "a:"⟩) ⟨str! "b:"⟩ (.coll [.blank (str! "x")])))
    (by decide +kernel)
  simp only [Graph.skolemize, Option.map_eq_some_iff] at e
  obtain ⟨r, e, rfl⟩ := e
  have e' : skolemAll (Nat.toDigits 10) ⟨str! "http://a/"⟩ ⟨[], 0⟩
      [.mk (.res ⟨str! "a:"⟩) ⟨str! "b:"⟩ (.coll [.blank (str! "x")])] = some r := e
  simp only [skolemAll, Stmt.subject, Stmt.object, skolemSubject, skolemObject, Stmt.predicate,
    Option.some.injEq] at e'
  subst e'
  have := hb (.mk (.res ⟨str! "a:"⟩) ⟨str! "b:"⟩ (.coll [.blank (str! "x")]))
    (by rw [extend_default]; simp)
  simp [blanks, sblanks, oblanks, cblanks] at this

/-- Blank nodes that are the subject or the object of a statement are replaced, each by one IRI
everywhere, different ones by different IRIs, all made from the base; nothing else changes and
the order is kept. -/
theorem C35_consistent_partial (uuid : Nat → Str) (hu : ∀ i j, uuid i = uuid j → i = j)
    (base : Iri) (g g' : Graph) (h : g.skolemize uuid base = some g') :
    ∃ f : Str → Iri,
      g'.stmts = g.stmts.map
        (fun t => .mk (skolemS f t.subject) t.predicate (skolemO f t.object)) ∧
      (∀ t ∈ g.stmts, ∀ t' ∈ g.stmts, ∀ b b',
        (t.subject = .blank b ∨ t.object = .blank b) →
        (t'.subject = .blank b' ∨ t'.object = .blank b') → f b = f b' → b = b') ∧
      (∀ t ∈ g.stmts, ∀ b, (t.subject = .blank b ∨ t.object = .blank b) →
        ∃ k, f b = genidIri base (uuid k)) := by
  simp only [Graph.skolemize, Option.map_eq_some_iff] at h
  obtain ⟨⟨r, st⟩, e, rfl⟩ := h
  obtain ⟨a, _, c, d⟩ := skolemAll_spec uuid base ⟨[], 0⟩ st g.stmts r ⟨rfl⟩ e
  refine ⟨fun b => (st.get b).getD ⟨[]⟩, ?_, ?_, ?_⟩
  · rw [extend_default]
    exact c _ (fun b j hb => by simp [hb])
  · intro t ht t' ht' b b' hb hb' he
    obtain ⟨i, hi⟩ := Option.isSome_iff_exists.1 (d t ht b hb)
    obtain ⟨i', hi'⟩ := Option.isSome_iff_exists.1 (d t' ht' b' hb')
    simp only [hi, hi', Option.getD_some] at he
    subst he
    exact a.inj hu hi hi'
  · intro t ht b hb
    obtain ⟨i, hi⟩ := Option.isSome_iff_exists.1 (d t ht b hb)
    simp only [hi, Option.getD_some]
    simp only [SkolemState.get, Option.map_eq_some_iff] at hi
    obtain ⟨e, he, rfl⟩ := hi
    have := List.mem_map_of_mem (f := Prod.snd) (List.mem_of_find?_eq_some he)
    rw [a.values] at this
    obtain ⟨k, _, hk⟩ := List.mem_map.1 this
    exact ⟨k, hk.symm⟩

/-- Blank nodes nested in a subject or object. -/
def nestedBlanks (t : Stmt) : List Str :=
  (match t.subject with | .blank _ => [] | s => sblanks s) ++
  (match t.object with | .blank _ => [] | o => oblanks o)

/-- The result has no blank nodes exactly when none were nested. -/
theorem C35_no_blanks (uuid : Nat → Str) (base : Iri) (g g' : Graph)
    (h : g.skolemize uuid base = some g') :
    (∀ t ∈ g'.stmts, blanks t = []) ↔ ∀ t ∈ g.stmts, nestedBlanks t = [] := by
  simp only [Graph.skolemize, Option.map_eq_some_iff] at h
  obtain ⟨⟨r, st⟩, e, rfl⟩ := h
  obtain ⟨_, _, c, _⟩ := skolemAll_spec uuid base ⟨[], 0⟩ st g.stmts r ⟨rfl⟩ e
  rw [extend_default, c (fun b => (st.get b).getD ⟨[]⟩) (fun b j hb => by simp [hb])]
  simp only [List.forall_mem_map]
  apply forall_congr'; intro t
  apply imp_congr_right; intro _
  cases t with
  | mk s p o =>
    cases s <;> cases o <;>
      simp [blanks, nestedBlanks, skolemS, skolemO, sblanks, oblanks, Stmt.subject, Stmt.object]

/-- It fails exactly for a base that cannot be joined with a path, when there is something to
replace. -/
theorem C35_error (uuid : Nat → Str) (base : Iri) (g : Graph) :
    g.skolemize uuid base = none ↔
      base.isOpaque = true ∧ ∃ t ∈ g.stmts, ∃ b, t.subject = .blank b ∨ t.object = .blank b := by
  simp only [Graph.skolemize, Option.map_eq_none_iff]
  cases ho : base.isOpaque with
  | true => simp [skolemAll_opaque uuid base g.stmts ho]
  | false =>
    obtain ⟨r, hr⟩ := Option.isSome_iff_exists.1 (skolemAll_isSome uuid base ⟨[], 0⟩ g.stmts ho)
    simp [hr]

/-- Name and prefixes are those of a new graph, whatever they were. -/
theorem C35_not_kept (uuid : Nat → Str) (base : Iri) (g g' : Graph)
    (h : g.skolemize uuid base = some g') : g'.name = none ∧ g'.mappings = defaultMappings := by
  simp only [Graph.skolemize, Option.map_eq_some_iff] at h
  obtain ⟨r, _, rfl⟩ := h
  exact ⟨rfl, rfl⟩

/-- C35, exactly, with a base that can be joined with a path: no nested blank nodes, no name, and the prefixes of a new
graph. -/
theorem C35_iff (uuid : Nat → Str) (base : Iri) (g : Graph) (hb : base.isOpaque = false) :
    (∃ g', g.skolemize uuid base = some g' ∧ (∀ t ∈ g'.stmts, blanks t = []) ∧
      g'.name = g.name ∧ g'.mappings = g.mappings) ↔
    (∀ t ∈ g.stmts, nestedBlanks t = []) ∧ g.name = none ∧ g.mappings = defaultMappings := by
  constructor
  · rintro ⟨g', h, h1, h2, h3⟩
    obtain ⟨e1, e2⟩ := C35_not_kept uuid base g g' h
    exact ⟨(C35_no_blanks uuid base g g' h).1 h1, h2 ▸ e1, h3 ▸ e2⟩
  · rintro ⟨h1, h2, h3⟩
    cases h : g.skolemize uuid base with
    | none =>
      rw [C35_error, hb] at h
      cases h.1
    | some g' =>
      obtain ⟨e1, e2⟩ := C35_not_kept uuid base g g' h
      exact ⟨g', rfl, (C35_no_blanks uuid base g g' h).2 h1, by rw [e1, h2], by rw [e2, h3]⟩

example : ((Graph.default.insert (.mk (.blank (str! "x")) ⟨str! "b:"⟩ (.blank (str! "x")))
    ).skolemize (Nat.toDigits 10) ⟨str! "http://a/b"⟩).map Graph.stmts = some [.mk
      (.res ⟨str! "http://a/.well-known/genid/0"⟩) ⟨str! "b:"⟩
      (.res ⟨str! "http://a/.well-known/genid/0"⟩)] := by decide +kernel

end Rdftk
