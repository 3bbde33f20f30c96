import Verif.Model.Graph

/-! Facts about sets as lists and about the graph operations. -/

namespace Rdftk

section sets
variable {α : Type _} [DecidableEq α]

theorem mem_setInsert {l : List α} {a x : α} : x ∈ setInsert l a ↔ x ∈ l ∨ x = a := by
  unfold setInsert
  split
  · rename_i h
    constructor
    · exact .inl
    · rintro (h' | rfl)
      · exact h'
      · exact h
  · simp

theorem setInsert_nodup {l : List α} {a : α} (h : l.Nodup) : (setInsert l a).Nodup := by
  unfold setInsert
  split
  · exact h
  · rename_i hn
    rw [List.nodup_append]
    refine ⟨h, by simp, ?_⟩
    intro x hx y hy e
    simp at hy; subst hy; subst e; exact hn hx

theorem mem_setExtend {l as : List α} {x : α} : x ∈ setExtend l as ↔ x ∈ l ∨ x ∈ as := by
  unfold setExtend
  induction as generalizing l with
  | nil => simp
  | cons a as ih => simp only [List.foldl_cons, ih, mem_setInsert, List.mem_cons, or_assoc]

theorem setExtend_nodup {l as : List α} (h : l.Nodup) : (setExtend l as).Nodup := by
  unfold setExtend
  induction as generalizing l with
  | nil => exact h
  | cons a as ih => exact ih (setInsert_nodup h)

theorem mem_setOf {as : List α} {x : α} : x ∈ setOf as ↔ x ∈ as := by
  simp [setOf, mem_setExtend]

theorem setOf_nodup (as : List α) : (setOf as).Nodup := setExtend_nodup List.nodup_nil

theorem setOf_isEmpty {as : List α} : (setOf as).isEmpty = as.isEmpty := by
  rw [Bool.eq_iff_iff, List.isEmpty_iff, List.isEmpty_iff, List.eq_nil_iff_forall_not_mem,
    List.eq_nil_iff_forall_not_mem]
  simp [mem_setOf]

theorem count_nodup {l : List α} (h : l.Nodup) (x : α) : l.count x = if x ∈ l then 1 else 0 := by
  split
  · rename_i hx
    have := List.nodup_iff_count.1 h x
    have := List.count_pos_iff.2 hx
    omega
  · rename_i hx; exact List.count_eq_zero_of_not_mem hx

/-- A list without repetition is fixed by `setOf`. -/
theorem setExtend_of_nodup {l as : List α} (h : (l ++ as).Nodup) : setExtend l as = l ++ as := by
  unfold setExtend
  induction as generalizing l with
  | nil => simp
  | cons a as ih =>
    have ha : a ∉ l := by
      rw [List.nodup_append] at h
      exact fun hm => h.2.2 a hm a (by simp) rfl
    simp only [List.foldl_cons, setInsert, ha, if_false]
    rw [ih (by simpa using h)]
    simp

theorem setOf_of_nodup {as : List α} (h : as.Nodup) : setOf as = as := by
  simpa [setOf] using setExtend_of_nodup (l := []) (by simpa using h)

theorem length_eq_sum_counts (l L : List α) (hL : L.Nodup) (h : ∀ x ∈ l, x ∈ L) :
    l.length = (L.map fun x => l.count x).sum := by
  induction l with
  | nil =>
    have : ∀ L : List α, (L.map fun x => ([] : List α).count x).sum = 0 := by
      intro L
      induction L with
      | nil => rfl
      | cons y L ih => rw [List.map_cons, List.sum_cons, ih]; rfl
    rw [this]; rfl
  | cons a l ih =>
    have h1 : ∀ x ∈ l, x ∈ L := fun x hx => h x (by simp [hx])
    have ha : a ∈ L := h a (by simp)
    have key : ∀ (L : List α), L.Nodup → (L.map fun x => (a :: l).count x).sum =
        (L.map fun x => l.count x).sum + if a ∈ L then 1 else 0 := by
      intro L hL
      induction L with
      | nil => simp
      | cons y L ihL =>
        rw [List.nodup_cons] at hL
        rw [List.map_cons, List.sum_cons, ihL hL.2, List.map_cons, List.sum_cons, List.count_cons]
        by_cases hy : a = y
        · subst hy; simp [hL.1]; omega
        · simp [hy]; omega
    rw [key L hL, ← ih h1]; simp [ha]

end sets

/-! ### Operations on a graph -/

/-- A visiting order of a hash set: some arrangement of its members. -/
structure VisitOrder where
  run : List Stmt → List Stmt
  perm : ∀ l, (run l).Perm l

/-- The operations on a graph.  `rehash` is not an operation of the code: it lets the
visiting order of a set change at any time. -/
inductive GraphOp where
  | insert (s : Stmt)
  | extend (ss : List Stmt)
  | merge (h : Graph)
  | remove (s : Stmt)
  | clear
  | withStatements (ss : List Stmt)
  | dedup (ord : VisitOrder)
  | removeAllFor (s : Subject)
  | setName (n : GraphName)
  | unsetName
  | setMappings (m : PrefixMap)
  | rehash (ord : VisitOrder)

/-- The effect of an operation. -/
def Graph.apply (g : Graph) : GraphOp → Graph
  | .insert s => g.insert s
  | .extend ss => g.extend ss
  | .merge h => g.merge h
  | .remove s => g.remove s
  | .clear => g.clear
  | .withStatements ss => g.withStatements ss
  | .dedup ord => (g.dedup ord.run).1
  | .removeAllFor s => (g.removeAllFor s).1
  | .setName n => g.setName n
  | .unsetName => g.unsetName
  | .setMappings m => g.withMappings m
  | .rehash ord => match g.statements with
    | .unique l => { g with statements := .unique (ord.run l) }
    | .nonUnique _ => g

/-- The effect of a sequence of operations. -/
def Graph.run (g : Graph) (ops : List GraphOp) : Graph := ops.foldl Graph.apply g

/-- A graph made by one of the constructors, or any graph whose set has no repetition. -/
def Graph.ok (g : Graph) : Prop := g.statements.isUnique = true → g.stmts.Nodup

theorem Graph.merge_statements (g h : Graph) :
    (g.merge h).statements = g.statements.extend h.stmts := by
  unfold Graph.merge
  generalize h.stmts = ss
  induction ss generalizing g with
  | nil => cases hs : g.statements <;> simp [Statements.extend, setExtend, hs]
  | cons s ss ih =>
    rw [List.foldl_cons, ih]
    cases hs : g.statements <;>
      simp [Graph.insert, Statements.insert, Statements.extend, setExtend, hs]

theorem Graph.merge_name (g h : Graph) :
    (g.merge h).name = g.name ∧ (g.merge h).mappings = g.mappings := by
  unfold Graph.merge
  generalize h.stmts = ss
  induction ss generalizing g with
  | nil => exact ⟨rfl, rfl⟩
  | cons s ss ih => exact ih _

theorem dedup_fold (ss : List Stmt) : ∀ (k d : List Stmt), k.Nodup →
    let r := ss.foldl Graph.dedupStep (k, d)
    r.1 = setExtend k ss ∧ (∀ t, r.1.count t + r.2.count t = k.count t + d.count t + ss.count t) := by
  induction ss with
  | nil => intro k d _; simp [setExtend]
  | cons s ss ih =>
    intro k d hk
    simp only [List.foldl_cons, Graph.dedupStep]
    split
    · rename_i hs
      have := ih k (d ++ [s]) hk
      refine ⟨by rw [this.1]; simp only [setExtend, List.foldl_cons, setInsert]; rw [if_pos hs], ?_⟩
      intro t
      rw [this.2 t]
      simp only [List.count_append, List.count_cons, List.count_nil]; omega
    · rename_i hs
      have := ih (setInsert k s) d (setInsert_nodup hk)
      refine ⟨by rw [this.1]; rfl, ?_⟩
      intro t
      rw [this.2 t]
      unfold setInsert; rw [if_neg hs]
      simp only [List.count_append, List.count_cons, List.count_nil]; omega

theorem removeAll_fold (s : Subject) (ss : List Stmt) : ∀ (k d : List Stmt),
    ss.foldl (Graph.removeStep s) (k, d) =
      (k ++ ss.filter (fun t => decide (t.subject = s)),
       d ++ ss.filter (fun t => decide (t.subject ≠ s))) := by
  induction ss with
  | nil => simp
  | cons t ss ih =>
    intro k d
    rw [List.foldl_cons]
    by_cases h : t.subject = s
    · simp only [Graph.removeStep, h, if_true]; rw [ih]; simp [h]
    · simp only [Graph.removeStep, h, if_false]; rw [ih]; simp [h]

theorem Graph.isUnique_apply (g : Graph) (op : GraphOp) :
    (g.apply op).statements.isUnique = g.statements.isUnique := by
  cases op with
  | merge h =>
    show (g.merge h).statements.isUnique = _
    rw [Graph.merge_statements]; cases g.statements <;> rfl
  | insert s => simp only [Graph.apply, Graph.insert]; cases g.statements <;> rfl
  | extend s => simp only [Graph.apply, Graph.extend]; cases g.statements <;> rfl
  | remove s => simp only [Graph.apply, Graph.remove]; cases g.statements <;> rfl
  | clear => simp only [Graph.apply, Graph.clear]; cases g.statements <;> rfl
  | withStatements ss => simp only [Graph.apply, Graph.withStatements]; cases g.statements <;> rfl
  | dedup ord =>
    simp only [Graph.apply, Graph.dedup]
    split
    · rfl
    · rename_i h; simp [Statements.isUnique] at h ⊢; exact h
  | removeAllFor s =>
    simp only [Graph.apply, Graph.removeAllFor]
    split <;> rename_i h <;> simp [Statements.isUnique] at h ⊢ <;> exact h
  | setName n => rfl
  | unsetName => rfl
  | setMappings m => rfl
  | rehash ord => simp only [Graph.apply]; cases h : g.statements <;> simp [Statements.isUnique, h]

theorem Graph.ok_apply (g : Graph) (op : GraphOp) (hg : g.ok) : (g.apply op).ok := by
  intro hu
  rw [Graph.isUnique_apply] at hu
  have hn := hg hu
  cases hs : g.statements with
  | nonUnique l => rw [hs] at hu; simp [Statements.isUnique] at hu
  | unique l =>
    have hl : l.Nodup := by simpa [Graph.stmts, hs, Statements.iter] using hn
    cases op with
    | merge h =>
      show ((g.merge h).statements.iter).Nodup
      rw [Graph.merge_statements, hs]; exact setExtend_nodup hl
    | insert s => simp only [Graph.apply, Graph.insert, Graph.stmts, hs]; exact setInsert_nodup hl
    | extend s => simp only [Graph.apply, Graph.extend, Graph.stmts, hs]; exact setExtend_nodup hl
    | remove s =>
      simp only [Graph.apply, Graph.remove, Graph.stmts, hs]; exact hl.erase s
    | clear => simp [Graph.apply, Graph.clear, Graph.stmts, hs, Statements.clear, Statements.iter]
    | withStatements ss =>
      simp only [Graph.apply, Graph.withStatements, Graph.stmts, hs]; exact setOf_nodup _
    | dedup ord =>
      simp only [Graph.apply, Graph.dedup, hs, Statements.isUnique, if_true]; exact hn
    | removeAllFor s =>
      simp only [Graph.apply, Graph.removeAllFor, hs, Statements.isUnique, if_true, Graph.stmts]
      exact setOf_nodup _
    | setName n => exact hn
    | unsetName => exact hn
    | setMappings m => exact hn
    | rehash ord =>
      simp only [Graph.apply, hs, Graph.stmts, Statements.iter]
      exact (ord.perm l).nodup_iff.2 hl

theorem Graph.ok_run (g : Graph) (ops : List GraphOp) (hg : g.ok) : (g.run ops).ok := by
  induction ops generalizing g with
  | nil => exact hg
  | cons op ops ih => exact ih _ (Graph.ok_apply g op hg)

theorem Graph.isUnique_run (g : Graph) (ops : List GraphOp) :
    (g.run ops).statements.isUnique = g.statements.isUnique := by
  induction ops generalizing g with
  | nil => rfl
  | cons op ops ih => exact (ih _).trans (Graph.isUnique_apply g op)

theorem Stmt.eta_iff (t : Stmt) (s : Subject) (p : Iri) (o : Object) :
    (t.subject = s ∧ t.predicate = p ∧ t.object = o) ↔ t = .mk s p o := by
  cases t; simp [Stmt.subject, Stmt.predicate, Stmt.object]

theorem Graph.mem_matches (g : Graph) (s : Option Subject) (p : Option Iri) (o : Option Object)
    (t : Stmt) : t ∈ g.matches s p o ↔
      t ∈ g.stmts ∧ s = some t.subject ∧ p = some t.predicate ∧ o = some t.object := by
  have ha : ∀ {α : Type} [DecidableEq α] (x : Option α) (y : α),
      Graph.agrees x y = true ↔ x = some y := by
    intro α _ x y
    cases x with
    | none => simp [Graph.agrees]
    | some v => simp only [Graph.agrees, beq_iff_eq, Option.some.injEq]; exact eq_comm
  simp only [Graph.matches, mem_setOf, List.mem_filter, Bool.and_eq_true, ha, and_assoc]

theorem Graph.contains_iff (g : Graph) (t : Stmt) : g.contains t = true ↔ t ∈ g.stmts := by
  have h1 : ∀ {l : List Stmt}, (!l.isEmpty) = true ↔ ∃ x, x ∈ l := by
    intro l; cases l <;> simp
  unfold Graph.contains
  rw [h1]
  simp only [Graph.mem_matches, Option.some.injEq]
  constructor
  · rintro ⟨x, hx, e1, e2, e3⟩
    have : x = t := by cases x; cases t; simp [Stmt.subject, Stmt.predicate, Stmt.object] at *; simp [*]
    exact this ▸ hx
  · intro h; exact ⟨t, h, rfl, rfl, rfl⟩

end Rdftk
