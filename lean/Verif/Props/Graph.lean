import Verif.Spec.Bag

/-! C24–C30: graphs. -/

namespace Rdftk

/-- Statements used in the examples. -/
def exStmt (s p o : Str) : Stmt := .mk (.blank s) ⟨p⟩ (.blank o)

/-! ### C24 -/

theorem count_apply (g : Graph) (hg : g.ok) (op : GraphOp) (hop : op.isRemoveAll = false) (t : Stmt) :
    (g.apply op).stmts.count t = copiesAfter g.statements.isUnique t (g.stmts.count t) op := by
  have hext : ∀ (l ss : List Stmt), l.Nodup →
      (setExtend l ss).count t = min 1 (l.count t + ss.count t) := by
    intro l ss hl
    rw [count_nodup (setExtend_nodup hl)]
    simp only [mem_setExtend]
    by_cases h1 : t ∈ l <;> by_cases h2 : t ∈ ss <;>
      simp only [h1, h2, or_self, or_true, true_or, if_true, if_false]
    · have := List.count_pos_iff.2 h1; omega
    · have := List.count_pos_iff.2 h1; omega
    · have := List.count_pos_iff.2 h2; omega
    · rw [List.count_eq_zero_of_not_mem h1, List.count_eq_zero_of_not_mem h2]; rfl
  cases hs : g.statements with
  | nonUnique l =>
    have e : g.stmts = l := by simp [Graph.stmts, hs, Statements.iter]
    rw [e]
    cases op with
    | insert s =>
      simp only [Graph.apply, Graph.insert, Graph.stmts, hs, Statements.insert, Statements.iter,
        copiesAfter, addCopies, Statements.isUnique, List.count_append, List.count_cons,
        List.count_nil, Nat.zero_add]
      by_cases h : t = s
      · subst h; simp
      · simp [h, Ne.symm h]
    | extend ss =>
      simp [Graph.apply, Graph.extend, Graph.stmts, hs, Statements.extend, Statements.iter,
        copiesAfter, addCopies, Statements.isUnique]
    | merge h =>
      show (g.merge h).statements.iter.count t = _
      rw [Graph.merge_statements]
      simp [hs, Statements.extend, Statements.iter, copiesAfter, addCopies, Statements.isUnique]
    | remove s =>
      simp only [Graph.apply, Graph.remove, Graph.stmts, hs, Statements.remove, Statements.iter,
        copiesAfter]
      split
      · rename_i h; subst h
        apply List.count_eq_zero_of_not_mem; simp
      · rename_i h; rw [List.count_filter (by simp [h])]
    | clear => simp [Graph.apply, Graph.clear, Graph.stmts, hs, Statements.clear, Statements.iter,
        copiesAfter]
    | withStatements ss =>
      simp [Graph.apply, Graph.withStatements, Graph.stmts, hs, Statements.iter, copiesAfter,
        addCopies, Statements.isUnique]
    | dedup ord =>
      simp only [Graph.apply, Graph.dedup, hs, Statements.isUnique, Bool.false_eq_true, if_false,
        Graph.stmts, Statements.iter, copiesAfter]
      rw [(ord.perm _).count_eq, (dedup_fold l [] [] List.nodup_nil).1, hext _ _ List.nodup_nil]
      simp
    | removeAllFor s => simp [GraphOp.isRemoveAll] at hop
    | setName n => simp [Graph.apply, Graph.setName, Graph.stmts, hs, copiesAfter, Statements.iter]
    | unsetName => simp [Graph.apply, Graph.unsetName, Graph.stmts, hs, copiesAfter, Statements.iter]
    | setMappings m =>
      simp [Graph.apply, Graph.withMappings, Graph.stmts, hs, copiesAfter, Statements.iter]
    | rehash ord => simp [Graph.apply, Graph.stmts, hs, copiesAfter, Statements.iter]
  | unique l =>
    have e : g.stmts = l := by simp [Graph.stmts, hs, Statements.iter]
    have hl : l.Nodup := by
      have := hg (by rw [hs]; rfl)
      rwa [e] at this
    have hle : l.count t ≤ 1 := by rw [count_nodup hl]; split <;> omega
    rw [e]
    cases op with
    | insert s =>
      have := hext l [s] hl
      simp only [Graph.apply, Graph.insert, Graph.stmts, hs, Statements.insert, Statements.iter,
        copiesAfter, addCopies, Statements.isUnique, if_true]
      have e2 : setInsert l s = setExtend l [s] := rfl
      rw [e2, this]
      by_cases h : t = s
      · subst h; simp
      · simp [h, Ne.symm h]
    | extend ss =>
      simp only [Graph.apply, Graph.extend, Graph.stmts, hs, Statements.extend, Statements.iter,
        copiesAfter, addCopies, Statements.isUnique, if_true]
      exact hext l ss hl
    | merge h =>
      show (g.merge h).statements.iter.count t = _
      rw [Graph.merge_statements]
      simp only [hs, Statements.extend, Statements.iter, copiesAfter, addCopies,
        Statements.isUnique, if_true]
      exact hext l _ hl
    | remove s =>
      simp only [Graph.apply, Graph.remove, Graph.stmts, hs, Statements.remove, Statements.iter,
        copiesAfter]
      split
      · rename_i h; subst h
        apply List.count_eq_zero_of_not_mem
        intro h
        rw [hl.mem_erase_iff] at h
        exact h.1 rfl
      · rename_i h
        rw [count_nodup (hl.erase s), count_nodup hl]; simp [hl.mem_erase_iff, h]
    | clear => simp [Graph.apply, Graph.clear, Graph.stmts, hs, Statements.clear, Statements.iter,
        copiesAfter]
    | withStatements ss =>
      simp only [Graph.apply, Graph.withStatements, Graph.stmts, hs, Statements.iter, copiesAfter,
        addCopies, Statements.isUnique, if_true]
      have := hext [] ss List.nodup_nil
      simpa [setOf] using this
    | dedup ord =>
      simp only [Graph.apply, Graph.dedup, hs, Statements.isUnique, if_true, copiesAfter, e]
      omega
    | removeAllFor s => simp [GraphOp.isRemoveAll] at hop
    | setName n => simp [Graph.apply, Graph.setName, Graph.stmts, hs, copiesAfter, Statements.iter]
    | unsetName => simp [Graph.apply, Graph.unsetName, Graph.stmts, hs, copiesAfter, Statements.iter]
    | setMappings m =>
      simp [Graph.apply, Graph.withMappings, Graph.stmts, hs, copiesAfter, Statements.iter]
    | rehash ord =>
      simp only [Graph.apply, Graph.stmts, hs, copiesAfter, Statements.iter]
      exact (ord.perm l).count_eq t

/-- C24: the graphs that the constructors make: empty, with the name that was given, with or without duplicates. -/
theorem C24_constructors (n : GraphName) :
    (Graph.default.stmts = [] ∧ Graph.default.name = none ∧ Graph.default.statements.isUnique = false) ∧
    ((Graph.named n).stmts = [] ∧ (Graph.named n).name = some n ∧ (Graph.named n).statements.isUnique = false) ∧
    (Graph.uniq.stmts = [] ∧ Graph.uniq.name = none ∧ Graph.uniq.statements.isUnique = true) ∧
    ((Graph.uniqNamed n).stmts = [] ∧ (Graph.uniqNamed n).name = some n ∧ (Graph.uniqNamed n).statements.isUnique = true) :=
  ⟨⟨rfl, rfl, rfl⟩, ⟨rfl, rfl, rfl⟩, ⟨rfl, rfl, rfl⟩, ⟨rfl, rfl, rfl⟩⟩

/-- C24: statements made unique are each there once, and none is lost; made not unique, all copies stay. -/
theorem C24_into (st : Statements) (h : st.isUnique = true → st.iter.Nodup) :
    (st.intoUnique.isUnique = true ∧ ∀ t, st.intoUnique.iter.count t = min 1 (st.iter.count t)) ∧
    (st.intoNonUnique.isUnique = false ∧ ∀ t, st.intoNonUnique.iter.count t = st.iter.count t) := by
  have key : ∀ l : List Stmt, l.Nodup → ∀ (m : List Stmt), (∀ x, x ∈ l ↔ x ∈ m) → ∀ t, l.count t = min 1 (m.count t) := by
    intro l hl m hm t
    rw [hl.count]
    by_cases ht : t ∈ l
    · have := List.count_pos_iff.2 ((hm t).1 ht)
      simp only [ht, if_true]; omega
    · have := List.count_eq_zero.2 fun h => ht ((hm t).2 h)
      simp only [ht, if_false]; omega
  cases st with
  | unique l => exact ⟨⟨rfl, key l (h rfl) l fun _ => Iff.rfl⟩, rfl, fun _ => rfl⟩
  | nonUnique l => exact ⟨⟨rfl, key _ (setOf_nodup l) l fun _ => mem_setOf⟩, rfl, fun _ => rfl⟩

/-- C24: starting from an empty graph, ordinary or unique, after any history the graph holds
each statement as often as the history says. -/
theorem C24_bag (g : Graph) (hg : g.stmts = []) (ops : List GraphOp)
    (hops : ∀ op ∈ ops, op.isRemoveAll = false) (t : Stmt) :
    (g.run ops).stmts.count t = copies g.statements.isUnique t ops := by
  have gen : ∀ (ops : List GraphOp) (g : Graph), g.ok → (∀ op ∈ ops, op.isRemoveAll = false) →
      (g.run ops).stmts.count t =
        ops.foldl (copiesAfter g.statements.isUnique t) (g.stmts.count t) := by
    intro ops
    induction ops with
    | nil => intro g _ _; rfl
    | cons op ops ih =>
      intro g hok h
      have := ih (g.apply op) (Graph.ok_apply g op hok) (fun o ho => h o (by simp [ho]))
      rw [Graph.isUnique_apply, count_apply g hok op (h op (by simp))] at this
      exact this
  rw [gen ops g (fun _ => by rw [hg]; exact List.nodup_nil) hops, hg]; rfl

/-- C24: containment, emptiness and length say what the graph holds: a statement is contained
when there is a copy of it, the graph is empty when there is a copy of none, and the length is
the number of copies of the statements in any list that has all of them once. -/
theorem C24_reports (g : Graph) (hg : g.stmts = []) (ops : List GraphOp)
    (hops : ∀ op ∈ ops, op.isRemoveAll = false) :
    (∀ t, (g.run ops).contains t = true ↔ 0 < copies g.statements.isUnique t ops) ∧
    (∀ t, (g.run ops).containsAll t.subject t.predicate t.object = (g.run ops).contains t) ∧
    (∀ s, (g.run ops).containsSubject s = true ↔
      ∃ t, t.subject = s ∧ 0 < copies g.statements.isUnique t ops) ∧
    ((g.run ops).isEmpty = true ↔ ∀ t, copies g.statements.isUnique t ops = 0) ∧
    (∀ L : List Stmt, L.Nodup → (∀ t, 0 < copies g.statements.isUnique t ops → t ∈ L) →
      (g.run ops).len = (L.map fun t => copies g.statements.isUnique t ops).sum) := by
  have hc := C24_bag g hg ops hops
  have hm : ∀ t, t ∈ (g.run ops).stmts ↔ 0 < copies g.statements.isUnique t ops := by
    intro t; rw [← hc, List.count_pos_iff]
  refine ⟨fun t => by rw [Graph.contains_iff, hm], fun t => rfl, ?_, ?_, ?_⟩
  · intro s
    simp only [Graph.containsSubject, List.any_eq_true, beq_iff_eq, hm]
    exact ⟨fun ⟨t, a, b⟩ => ⟨t, b, a⟩, fun ⟨t, a, b⟩ => ⟨t, b, a⟩⟩
  · have : (g.run ops).isEmpty = (g.run ops).stmts.isEmpty := by
      simp only [Graph.isEmpty, Graph.stmts]; cases (g.run ops).statements <;> rfl
    rw [this, List.isEmpty_iff, List.eq_nil_iff_forall_not_mem]
    constructor
    · intro h t; have := h t; rw [hm] at this; omega
    · intro h t; rw [hm, h t]; omega
  · intro L hL hall
    have : (g.run ops).len = (g.run ops).stmts.length := by
      simp only [Graph.len, Graph.stmts]; cases (g.run ops).statements <;> rfl
    rw [this, length_eq_sum_counts _ L hL (fun x hx => hall x ((hm x).1 hx))]
    simp only [hc]

/-- C24: an ordinary graph keeps the order in which statements were added. -/
theorem C24_order (ss : List Stmt) :
    (Graph.fromIter ss).stmts = ss ∧
    (∀ g : Graph, g.statements.isUnique = false →
      (∀ s, (g.insert s).stmts = g.stmts ++ [s]) ∧ (g.extend ss).stmts = g.stmts ++ ss ∧
      (∀ h, (g.merge h).stmts = g.stmts ++ h.stmts) ∧ (g.withStatements ss).stmts = ss) := by
  refine ⟨rfl, ?_⟩
  intro g hg
  cases hs : g.statements with
  | unique l => rw [hs] at hg; simp [Statements.isUnique] at hg
  | nonUnique l =>
    refine ⟨?_, ?_, ?_, ?_⟩
    · intro s; simp [Graph.insert, Graph.stmts, hs, Statements.insert, Statements.iter]
    · simp [Graph.extend, Graph.stmts, hs, Statements.extend, Statements.iter]
    · intro h
      show (g.merge h).statements.iter = _
      rw [Graph.merge_statements]; simp [Graph.stmts, hs, Statements.extend, Statements.iter]
    · simp [Graph.withStatements, Graph.stmts, hs, Statements.iter]

example : (Graph.default).stmts = [] ∧ (Graph.uniq).stmts = [] ∧
    (∀ n, (Graph.named n).stmts = []) ∧ (∀ n, (Graph.uniqNamed n).stmts = []) ∧
    Graph.uniq.statements.isUnique = true ∧ Graph.default.statements.isUnique = false ∧
    (let s := exStmt (str! "s") (str! "p") (str! "o")
     let ops := [GraphOp.insert s, .extend [s, s], .remove s, .insert s, .insert s]
     (Graph.default.run ops).stmts = [s, s] ∧ (Graph.uniq.run ops).stmts = [s] ∧
     copies false s ops = 2 ∧ copies true s ops = 1) := by
  refine ⟨rfl, rfl, fun _ => rfl, fun _ => rfl, rfl, rfl, ?_⟩
  decide +kernel

/-- C24, the name and the mappings of a graph: those last set, whatever else is called. -/
theorem C24_name (g : Graph) (ops : List GraphOp) :
    (g.run ops).name = ops.foldl (fun n op => match op with
      | .setName m => some m
      | .unsetName => none
      | _ => n) g.name ∧
    (g.run ops).mappings = ops.foldl (fun n op => match op with
      | .setMappings m => m
      | _ => n) g.mappings ∧
    ((g.run ops).isNamed = true ↔ ∃ n, (g.run ops).name = some n) := by
  refine ⟨?_, ?_, by unfold Graph.isNamed; exact Option.isSome_iff_exists⟩
  · unfold Graph.run
    induction ops generalizing g with
    | nil => rfl
    | cons op ops ih =>
      rw [List.foldl_cons, List.foldl_cons, ih]
      congr 1
      cases op <;> try rfl
      · rename_i h
        show (g.merge h).name = _
        unfold Graph.merge
        generalize h.stmts = l
        induction l generalizing g with
        | nil => rfl
        | cons s l ih2 => rw [List.foldl_cons, ih2]; rfl
      · simp only [Graph.apply, Graph.dedup]
        split <;> rfl
      · simp only [Graph.apply]
        split <;> rfl
  · unfold Graph.run
    induction ops generalizing g with
    | nil => rfl
    | cons op ops ih =>
      rw [List.foldl_cons, List.foldl_cons, ih]
      congr 1
      cases op <;> try rfl
      · rename_i h
        show (g.merge h).mappings = _
        unfold Graph.merge
        generalize h.stmts = l
        induction l generalizing g with
        | nil => rfl
        | cons s l ih2 => rw [List.foldl_cons, ih2]; rfl
      · simp only [Graph.apply, Graph.dedup]
        split <;> rfl
      · simp only [Graph.apply]
        split <;> rfl

/-! ### C25 -/

/-- C25: after any history, with every operation there is, a unique graph holds no statement
twice and is still a unique graph; and an ordinary graph is still ordinary. -/
theorem C25_unique_stays (g : Graph) (hg : g.stmts = []) (ops : List GraphOp) :
    (g.statements.isUnique = true → (g.run ops).stmts.Nodup) ∧
    (g.run ops).statements.isUnique = g.statements.isUnique := by
  refine ⟨fun h => ?_, Graph.isUnique_run g ops⟩
  exact Graph.ok_run g ops (fun _ => by rw [hg]; exact List.nodup_nil)
    (by rw [Graph.isUnique_run]; exact h)

/-- C25: inserting again what a unique graph holds changes nothing at all. -/
theorem C25_insert_again (g : Graph) (h : g.statements.isUnique = true) (s : Stmt)
    (hs : g.contains s = true) : (g.insert s).stmts = g.stmts ∧ (g.insert s).len = g.len := by
  rw [Graph.contains_iff] at hs
  cases hst : g.statements with
  | nonUnique l => rw [hst] at h; simp [Statements.isUnique] at h
  | unique l =>
    have : s ∈ l := by simpa [Graph.stmts, hst, Statements.iter] using hs
    simp [Graph.insert, Graph.stmts, Graph.len, hst, Statements.insert, Statements.iter,
      Statements.len, setInsert, this]

/-! ### C26 -/

/-- C26: whatever order the set of kept statements is visited in, after `dedup` the graph
contains what it contained, each statement once, the returned list has every surplus copy,
and a second `dedup` returns nothing and keeps the statements. Name and mappings stay. -/
theorem C26_dedup (ord ord' : VisitOrder) (g : Graph) (hg : g.ok) :
    let r := g.dedup ord.run
    (∀ t, t ∈ r.1.stmts ↔ t ∈ g.stmts) ∧ r.1.stmts.Nodup ∧
    (∀ t, r.2.count t = g.stmts.count t - 1) ∧
    (r.1.dedup ord'.run).2 = [] ∧ (r.1.dedup ord'.run).1.stmts.Perm r.1.stmts ∧
    r.1.name = g.name ∧ r.1.mappings = g.mappings := by
  intro r
  cases hs : g.statements with
  | unique l =>
    have e : r = (g, []) := by simp [r, Graph.dedup, hs, Statements.isUnique]
    have hn := hg (by rw [hs]; rfl)
    have e2 : g.dedup ord'.run = (g, []) := by simp [Graph.dedup, hs, Statements.isUnique]
    rw [e]
    refine ⟨fun t => Iff.rfl, hn, ?_, by simp [e2], by simp [e2], rfl, rfl⟩
    intro t
    rw [count_nodup hn]; split <;> simp
  | nonUnique l =>
    have e : g.stmts = l := by simp [Graph.stmts, hs, Statements.iter]
    have hf := dedup_fold l [] [] List.nodup_nil
    have e1 : r.1.statements = .nonUnique (ord.run (setOf l)) := by
      simp only [r, Graph.dedup, hs, Statements.isUnique, Bool.false_eq_true, if_false, e]
      rw [hf.1]; rfl
    have e2 : r.1.stmts = ord.run (setOf l) := by simp [Graph.stmts, e1, Statements.iter]
    have e3 : r.2 = (l.foldl Graph.dedupStep ([], [])).2 := by
      simp [r, Graph.dedup, hs, Statements.isUnique, e]
    have hnd : r.1.stmts.Nodup := by rw [e2]; exact (ord.perm _).nodup_iff.2 (setOf_nodup l)
    have hf2 := dedup_fold r.1.stmts [] [] List.nodup_nil
    have h2 : r.1.dedup ord'.run =
        ({ r.1 with statements := .nonUnique (ord'.run (r.1.stmts.foldl Graph.dedupStep ([], [])).1) },
         (r.1.stmts.foldl Graph.dedupStep ([], [])).2) := by
      conv => lhs; unfold Graph.dedup
      rw [e1]; rfl
    have h3 : (r.1.stmts.foldl Graph.dedupStep ([], [])).1 = r.1.stmts := by
      rw [hf2.1]; exact setOf_of_nodup hnd
    refine ⟨?_, hnd, ?_, ?_, ?_, ?_, ?_⟩
    · intro t; rw [e2, (ord.perm _).mem_iff, mem_setOf, e]
    · intro t
      have := hf.2 t
      rw [hf.1, count_nodup (setExtend_nodup List.nodup_nil)] at this
      simp only [mem_setExtend, List.not_mem_nil, false_or, List.count_nil, Nat.zero_add] at this
      rw [e3, e]
      by_cases hm : t ∈ l
      · simp only [hm, if_true] at this; omega
      · simp only [hm, if_false] at this
        rw [List.count_eq_zero_of_not_mem hm] at this ⊢; omega
    · rw [h2]
      apply List.eq_nil_iff_forall_not_mem.2
      intro t ht
      have hc := hf2.2 t
      rw [h3] at hc
      have : 0 < List.count t (r.1.stmts.foldl Graph.dedupStep ([], [])).2 :=
        List.count_pos_iff.2 ht
      simp only [List.count_nil] at hc
      omega
    · rw [h2]
      show (ord'.run (r.1.stmts.foldl Graph.dedupStep ([], [])).1).Perm _
      rw [h3]
      exact ord'.perm _
    · simp [r, Graph.dedup, hs, Statements.isUnique]
    · simp [r, Graph.dedup, hs, Statements.isUnique]

example : let s := exStmt (str! "s") (str! "p") (str! "o")
    let u := exStmt (str! "u") (str! "p") (str! "o")
    (Graph.fromIter [s, u, s, s]).ok ∧
    ((Graph.fromIter [s, u, s, s]).dedup id).2 = [s, s] ∧
    ((Graph.fromIter [s, u, s, s]).dedup id).1.stmts = [s, u] := by
  refine ⟨fun h => by simp [Graph.fromIter, Statements.isUnique] at h, ?_⟩
  decide +kernel

/-! ### C27 -/

/-- C27, the full statement. -/
def C27_statement : Prop := ∀ (g : Graph), g.ok → ∀ (s : Subject) (t : Stmt),
  ((g.removeAllFor s).1.stmts.count t = if t.subject = s then 0 else g.stmts.count t) ∧
  ((g.removeAllFor s).2.count t = if t.subject = s then g.stmts.count t else 0)

/-- C27, what the code does: it keeps exactly the statements with the subject, in order, and
returns the others. -/
theorem C27_inverted (g : Graph) (hg : g.ok) (s : Subject) :
    (g.removeAllFor s).1.stmts = g.stmts.filter (fun t => decide (t.subject = s)) ∧
    (g.removeAllFor s).2 = g.stmts.filter (fun t => decide (t.subject ≠ s)) := by
  have hf := removeAll_fold s g.stmts [] []
  simp only [List.nil_append] at hf
  constructor
  · unfold Graph.removeAllFor
    rw [hf]
    simp only [Graph.stmts]
    split
    · rename_i h
      exact setOf_of_nodup ((hg h).filter _)
    · rfl
  · unfold Graph.removeAllFor; rw [hf]

/-- C27 fails. -/
theorem C27_fails : ¬ C27_statement := by
  intro h
  have := (h (.fromIter [exStmt (str! "s") (str! "p") (str! "o")])
    (fun h => by simp [Graph.fromIter, Statements.isUnique] at h) (.blank (str! "s"))
    (exStmt (str! "s") (str! "p") (str! "o"))).1
  revert this; decide +kernel

/-- C27 fails for every graph that is not empty, whatever the subject. -/
theorem C27_fails_always (g : Graph) (hg : g.ok) (hne : g.stmts ≠ []) (s : Subject) :
    ¬ ((∀ t, t ∈ (g.removeAllFor s).1.stmts ↔ t ∈ g.stmts ∧ t.subject ≠ s)) := by
  intro h
  rw [(C27_inverted g hg s).1] at h
  obtain ⟨t, ht⟩ := List.exists_mem_of_ne_nil _ hne
  have := h t
  simp only [List.mem_filter, decide_eq_true_eq, ht, true_and] at this
  by_cases e : t.subject = s <;> simp [e] at this

/-- C27, what holds: no statement is lost or made up, the kind, name and mappings stay, and
kept and returned statements are told apart by having the subject. -/
theorem C27_partition_partial (g : Graph) (hg : g.ok) (s : Subject) :
    ((g.removeAllFor s).1.stmts ++ (g.removeAllFor s).2).Perm g.stmts ∧
    (∀ t ∈ (g.removeAllFor s).1.stmts, ∀ u ∈ (g.removeAllFor s).2,
      (t.subject = s) ≠ (u.subject = s)) ∧
    (g.removeAllFor s).1.statements.isUnique = g.statements.isUnique ∧
    (g.removeAllFor s).1.name = g.name ∧ (g.removeAllFor s).1.mappings = g.mappings := by
  refine ⟨?_, ?_, Graph.isUnique_apply g (.removeAllFor s), rfl, rfl⟩
  · rw [(C27_inverted g hg s).1, (C27_inverted g hg s).2]
    have := List.filter_append_perm (fun t : Stmt => decide (t.subject = s)) g.stmts
    simpa using this
  · rw [(C27_inverted g hg s).1, (C27_inverted g hg s).2]
    intro t ht u hu
    simp at ht hu
    simp [ht.2, hu.2]

/-! ### C28 -/

/-- C28, the full statement. -/
def C28_statement : Prop :=
  ∀ (g : Graph) (s : Option Subject) (p : Option Iri) (o : Option Object) (t : Stmt),
    t ∈ g.matches s p o ↔ t ∈ g.stmts ∧ (∀ x, s = some x → t.subject = x) ∧
      (∀ x, p = some x → t.predicate = x) ∧ (∀ x, o = some x → t.object = x)

/-- C28 fails: a component that is not given matches nothing. -/
theorem C28_fails : ¬ C28_statement := by
  intro h
  have := (h (.fromIter [exStmt (str! "s") (str! "p") (str! "o")]) none none none
    (exStmt (str! "s") (str! "p") (str! "o"))).2
    ⟨by decide +kernel, by simp, by simp, by simp⟩
  revert this; decide +kernel

/-- C28, what holds: with all three given the result is what it should be; with one missing
the result is empty; and never is a statement listed twice. -/
theorem C28_matches_partial (g : Graph) (s : Option Subject) (p : Option Iri) (o : Option Object) :
    (∀ t, s.isSome → p.isSome → o.isSome → (t ∈ g.matches s p o ↔ t ∈ g.stmts ∧
      (∀ x, s = some x → t.subject = x) ∧ (∀ x, p = some x → t.predicate = x) ∧
      (∀ x, o = some x → t.object = x))) ∧
    (s = none ∨ p = none ∨ o = none → g.matches s p o = []) ∧
    (g.matches s p o).Nodup ∧ (g.matches s p o).length ≤ 1 := by
  have hnd : (g.matches s p o).Nodup := setOf_nodup _
  refine ⟨?_, ?_, hnd, ?_⟩
  · intro t h1 h2 h3
    rw [Graph.mem_matches]
    cases s <;> cases p <;> cases o <;> simp at h1 h2 h3
    simp only [Option.some.injEq, forall_eq']
    exact ⟨fun ⟨a, b, c, d⟩ => ⟨a, b.symm, c.symm, d.symm⟩,
      fun ⟨a, b, c, d⟩ => ⟨a, b.symm, c.symm, d.symm⟩⟩
  · intro h
    apply List.eq_nil_iff_forall_not_mem.2
    intro t ht
    rw [Graph.mem_matches] at ht
    rcases h with rfl | rfl | rfl <;> simp at ht
  · match hl : g.matches s p o with
    | [] => simp
    | [_] => simp
    | a :: b :: r =>
      exfalso
      have ha : a ∈ g.matches s p o := by rw [hl]; simp
      have hb : b ∈ g.matches s p o := by rw [hl]; simp
      rw [Graph.mem_matches] at ha hb
      have : a = b := by
        have e1 := ha.2.1.symm.trans hb.2.1
        have e2 := ha.2.2.1.symm.trans hb.2.2.1
        have e3 := ha.2.2.2.symm.trans hb.2.2.2
        cases a; cases b
        simp [Stmt.subject, Stmt.predicate, Stmt.object] at e1 e2 e3
        simp [e1, e2, e3]
      rw [hl, this] at hnd
      simp at hnd

example : let s := exStmt (str! "s") (str! "p") (str! "o")
    (Graph.fromIter [s, s]).matches (some s.subject) (some s.predicate) (some s.object) = [s] := by
  decide +kernel

/-- C28, exactly: a pattern finds the statements that agree with it when it gives all three parts, or when no
statement agrees with it. -/
theorem C28_iff (g : Graph) (s : Option Subject) (p : Option Iri) (o : Option Object) :
    (∀ t, t ∈ g.matches s p o ↔ t ∈ g.stmts ∧ (∀ x, s = some x → t.subject = x) ∧
      (∀ x, p = some x → t.predicate = x) ∧ (∀ x, o = some x → t.object = x)) ↔
    (s.isSome ∧ p.isSome ∧ o.isSome) ∨
      ∀ t ∈ g.stmts, ¬((∀ x, s = some x → t.subject = x) ∧ (∀ x, p = some x → t.predicate = x) ∧
        (∀ x, o = some x → t.object = x)) := by
  obtain ⟨h1, h2, -, -⟩ := C28_matches_partial g s p o
  constructor
  · intro h
    by_cases hn : s = none ∨ p = none ∨ o = none
    · refine .inr fun t ht ha => ?_
      have := (h t).2 ⟨ht, ha⟩
      rw [h2 hn] at this
      cases this
    · refine .inl ?_
      cases s <;> cases p <;> cases o <;> simp at hn ⊢
  · rintro (⟨hs, hp, ho⟩ | h) t
    · exact h1 t hs hp ho
    · refine ⟨fun ht => ?_, fun ht => absurd ht.2 (h t ht.1)⟩
      by_cases hn : s = none ∨ p = none ∨ o = none
      · rw [h2 hn] at ht
        cases ht
      · refine (h1 t ?_ ?_ ?_).1 ht <;> cases s <;> cases p <;> cases o <;> simp at hn ⊢

/-! ### C29 -/

/-- C29: each projection has exactly the components of the statements held, once each. -/
theorem C29_projections (g : Graph) :
    (∀ s, s ∈ g.subjects ↔ ∃ t ∈ g.stmts, t.subject = s) ∧ g.subjects.Nodup ∧
    (∀ s, s ∈ g.nodeSubjects ↔ (∃ t ∈ g.stmts, t.subject = s) ∧ ¬ ∃ b, s = .blank b) ∧
    g.nodeSubjects.Nodup ∧
    (∀ s, s ∈ g.blankSubjects ↔ (∃ t ∈ g.stmts, t.subject = s) ∧ ∃ b, s = .blank b) ∧
    g.blankSubjects.Nodup ∧
    (∀ p, p ∈ g.predicates ↔ ∃ t ∈ g.stmts, t.predicate = p) ∧ g.predicates.Nodup ∧
    (∀ o, o ∈ g.objects ↔ ∃ t ∈ g.stmts, t.object = o) ∧ g.objects.Nodup ∧
    (∀ s p, p ∈ g.predicatesFor s ↔ ∃ o, Stmt.mk s p o ∈ g.stmts) ∧
    (∀ s, (g.predicatesFor s).Nodup) ∧
    (∀ s p o, o ∈ g.objectsFor s p ↔ Stmt.mk s p o ∈ g.stmts) ∧
    (∀ s p, (g.objectsFor s p).Nodup) := by
  have hb : ∀ s : Subject, s.isBlank = true ↔ ∃ b, s = .blank b := by
    intro s; cases s <;> simp [Subject.isBlank]
  refine ⟨?_, setOf_nodup _, ?_, setOf_nodup _, ?_, setOf_nodup _, ?_, setOf_nodup _, ?_,
    setOf_nodup _, ?_, fun _ => setOf_nodup _, ?_, fun _ _ => setOf_nodup _⟩
  · intro s; simp [Graph.subjects, mem_setOf]
  · intro s
    rw [← hb]
    simp [Graph.nodeSubjects, Graph.subjects, mem_setOf]
  · intro s
    rw [← hb]
    simp [Graph.blankSubjects, Graph.subjects, mem_setOf]
  · intro p; simp [Graph.predicates, mem_setOf]
  · intro p; simp [Graph.objects, mem_setOf]
  · intro s p
    simp only [Graph.predicatesFor, mem_setOf, List.mem_filterMap]
    constructor
    · rintro ⟨t, ht, h⟩
      split at h
      · rename_i e; cases t; simp [Stmt.subject, Stmt.predicate] at e h
        subst e; subst h; exact ⟨_, ht⟩
      · cases h
    · rintro ⟨o, ho⟩
      exact ⟨_, ho, by simp [Stmt.subject, Stmt.predicate]⟩
  · intro s p o
    simp only [Graph.objectsFor, mem_setOf, List.mem_filterMap]
    constructor
    · rintro ⟨t, ht, h⟩
      split at h
      · rename_i e; cases t; simp [Stmt.subject, Stmt.predicate, Stmt.object] at e h
        obtain ⟨rfl, rfl⟩ := e; subst h; exact ht
      · cases h
    · intro ho
      exact ⟨_, ho, by simp [Stmt.subject, Stmt.predicate, Stmt.object]⟩

example : let g := Graph.fromIter [exStmt (str! "s") (str! "p") (str! "o"),
      exStmt (str! "s") (str! "p") (str! "s")]
    g.subjects = [.blank (str! "s")] ∧
    g.objectsFor (.blank (str! "s")) ⟨str! "p"⟩ = [.blank (str! "o"), .blank (str! "s")] := by
  decide +kernel

/-! ### C30 -/

/-- C30, the full statement. -/
def C30_statement : Prop := ∀ (g : Graph) (s : Stmt), g.ok → s ∉ g.stmts →
  (g.supportsFeature featureDuplicates = true ↔ ((g.insert s).insert s).len = g.len + 2)

/-- C30 fails for every graph: support for duplicates is reported exactly by the graphs that
do not have it. -/
theorem C30_fails_always (g : Graph) (s : Stmt) (hs : s ∉ g.stmts) :
    (g.supportsFeature featureDuplicates = true ↔ ¬ ((g.insert s).insert s).len = g.len + 2) := by
  have h1 : (featureDuplicates == featureRdfStar) = false := by decide +kernel
  have h2 : g.supportsFeature featureDuplicates = g.statements.isUnique := by
    simp [Graph.supportsFeature, h1]
  rw [h2]
  cases hst : g.statements with
  | unique l =>
    have : s ∉ l := by simpa [Graph.stmts, hst, Statements.iter] using hs
    simp [Statements.isUnique, Graph.insert, Graph.len, hst, Statements.insert, Statements.len,
      setInsert, this]
  | nonUnique l =>
    simp [Statements.isUnique, Graph.insert, Graph.len, hst, Statements.insert, Statements.len]

/-- C30 fails: the empty graph and any statement. -/
theorem C30_fails : ¬ C30_statement := by
  intro h
  have h1 := h .default (exStmt [] [] []) (fun h => by simp [Graph.default, Statements.isUnique] at h)
    (by simp [Graph.default, Graph.stmts, Statements.iter])
  have h2 := C30_fails_always .default (exStmt [] [] [])
    (by simp [Graph.default, Graph.stmts, Statements.iter])
  rw [h1] at h2
  by_cases h : ((Graph.default.insert (exStmt [] [] [])).insert (exStmt [] [] [])).len =
      Graph.default.len + 2 <;> simp [h] at h2

/-- C30, what holds: every graph reports RDF-star, no graph reports anything but these two. -/
theorem C30_features_partial (g : Graph) (f : Iri) :
    g.supportsFeature featureRdfStar = true ∧
    (g.supportsFeature f = true → f = featureDuplicates ∨ f = featureRdfStar) := by
  constructor
  · simp [Graph.supportsFeature]
  · intro h
    simp only [Graph.supportsFeature, Bool.or_eq_true, Bool.and_eq_true, beq_iff_eq] at h
    rcases h with ⟨h, -⟩ | h
    · exact .inl h
    · exact .inr h

end Rdftk
