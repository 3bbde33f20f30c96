import Verif.Lemmas.Indexed

/-! How often a statement is held by an indexed graph and by its indices. -/

namespace Rdftk

open Spec

namespace Spec

/-- How often a statement is held by a graph and by its indices, after a call. -/
def tally (t : Stmt) : Nat × Nat → IndexedOp → Nat × Nat
  | (c, i), .insert st => if st = t then (c + 1, i + 1) else (c, i)
  | (c, i), .merge h => (c + h.stmts.count t, i + h.stmts.count t)
  | (c, i), .dedup _ => (min c 1, i - (c - 1))
  | (c, i), .remove st => if st = t then (c - 1, i - 1) else (c, i)
  | (c, i), .removeAllFor s => if t.subject = s then (c - i, 0) else (c, i)
  | _, .clear => (0, 0)
  | (c, i), _ => (c, i)

end Spec

namespace IndexedGraph

/-- The indices of a graph hold the statements of a list. -/
def Holds (g : IndexedGraph) (l : List Stmt) : Prop :=
  IndexOf Stmt.subject g.sIndex l ∧ IndexOf Stmt.predicate g.pIndex l ∧ IndexOf Stmt.object g.oIndex l

/-- The indices of a graph hold the statements of a list, none more often than the graph does. -/
def Under (g : IndexedGraph) (l : List Stmt) : Prop := Holds g l ∧ ∀ t, l.count t ≤ g.stmts.count t

theorem indexOf_unique {κ : Type} [DecidableEq κ] {key : Stmt → κ} {m : Index κ} {l l' : List Stmt}
    (h : IndexOf key m l) (h' : IndexOf key m l') (t : Stmt) : l.count t = l'.count t := by
  have := ((h (key t)).symm.trans (h' (key t))).count_eq t
  rwa [List.count_filter (by simp), List.count_filter (by simp)] at this

theorem indexed_iff {g : IndexedGraph} {l : List Stmt} (h : Holds g l) :
    Indexed g ↔ ∀ t, g.stmts.count t = l.count t := by
  constructor
  · intro hi t
    exact indexOf_unique hi.1 h.1 t
  · intro hc
    have hp : l.Perm g.stmts := List.perm_iff_count.2 fun t => (hc t).symm
    exact ⟨indexOf_perm h.1 hp, indexOf_perm h.2.1 hp, indexOf_perm h.2.2 hp⟩

theorem under_insert {g : IndexedGraph} {l : List Stmt} (h : Under g l) (st : Stmt) : Under (g.insert st) (l ++ [st]) :=
  ⟨⟨indexOf_push h.1.1 st, indexOf_push h.1.2.1 st, indexOf_push h.1.2.2 st⟩, fun t => by
    have := h.2 t
    simp only [IndexedGraph.insert, List.count_append]
    omega⟩

theorem under_inserts {g : IndexedGraph} {l : List Stmt} (h : Under g l) (l' : List Stmt) : Under (l'.foldl insert g) (l ++ l') := by
  induction l' generalizing g l with
  | nil => simpa using h
  | cons st l' ih => simpa using ih (under_insert h st)

theorem under_remove {g : IndexedGraph} {l : List Stmt} (h : Under g l) (st : Stmt) : Under (g.remove st) (l.erase st) := by
  refine ⟨?_, fun t => ?_⟩
  · unfold remove
    split
    · exact ⟨indexOf_removeFrom h.1.1 st, indexOf_removeFrom h.1.2.1 st, indexOf_removeFrom h.1.2.2 st⟩
    · rename_i hn
      have := h.2 st
      rw [List.count_eq_zero_of_not_mem hn] at this
      rw [List.erase_of_not_mem (List.count_eq_zero.1 (Nat.le_zero.1 this))]
      exact h.1
  · rw [stmts_remove, List.count_erase, List.count_erase]
    have := h.2 t
    omega

theorem under_removes {g : IndexedGraph} {l : List Stmt} (h : Under g l) (d : List Stmt) :
    Under (d.foldl remove g) (d.foldl List.erase l) := by
  induction d generalizing g l with
  | nil => exact h
  | cons st d ih => exact ih (under_remove h st)

/-- Keeping one of each statement. -/
theorem count_setOf (l : List Stmt) (t : Stmt) : (setOf l).count t = min (l.count t) 1 := by
  by_cases h : t ∈ l
  · have h1 := List.count_pos_iff.2 h
    rw [(setOf_nodup l).count, if_pos (mem_setOf.2 h)]
    omega
  · rw [List.count_eq_zero_of_not_mem h, List.count_eq_zero_of_not_mem fun h' => h (mem_setOf.1 h')]
    rfl

theorem apply_tally {g : IndexedGraph} {l : List Stmt} (h : Under g l) (op : IndexedOp) :
    ∃ l', Under (g.apply op) l' ∧
      ∀ t, ((g.apply op).stmts.count t, l'.count t) = tally t (g.stmts.count t, l.count t) op := by
  cases op with
  | insert st =>
    refine ⟨_, under_insert h st, fun t => ?_⟩
    simp only [apply, IndexedGraph.insert, tally, List.count_append, List.count_singleton, beq_iff_eq]
    split <;> rfl
  | merge k =>
    refine ⟨_, under_inserts h k.stmts, fun t => ?_⟩
    simp only [apply, merge, stmts_foldl_insert, tally, List.count_append]
  | remove st =>
    refine ⟨_, under_remove h st, fun t => ?_⟩
    simp only [apply, stmts_remove, tally, List.count_erase, beq_iff_eq]
    split <;> simp
  | clear =>
    exact ⟨[], ⟨⟨indexOf_nil, indexOf_nil, indexOf_nil⟩, fun t => by simp⟩, fun t => rfl⟩
  | setName n => exact ⟨l, h, fun t => rfl⟩
  | unsetName => exact ⟨l, h, fun t => rfl⟩
  | setMappings m => exact ⟨l, h, fun t => rfl⟩
  | dedup ord =>
    have hd := dedup_fold g.stmts [] [] List.nodup_nil
    simp only at hd
    simp only [apply]
    rw [dedup_eq]
    generalize g.stmts.foldl Graph.dedupStep ([], []) = kd at hd ⊢
    obtain ⟨hd1, hd2⟩ := hd
    have hk : kd.1 = setOf g.stmts := hd1
    have hr := indexed_removeIndices (g := { g with stmts := ord.run kd.1 }) h.1.1 h.1.2.1 h.1.2.2 kd.2
    simp only at hr ⊢
    have hc : ∀ t, (List.foldl removeIndicesFor { g with stmts := ord.run kd.1 } kd.2).stmts.count t = min (g.stmts.count t) 1 := by
      intro t
      rw [hr.1, (ord.perm _).count_eq, hk, count_setOf]
    have hl : ∀ t, (kd.2.foldl List.erase l).count t = l.count t - (g.stmts.count t - 1) := by
      intro t
      rw [count_foldl_erase]
      have h2 := hd2 t
      rw [hk, count_setOf] at h2
      simp at h2
      omega
    refine ⟨kd.2.foldl List.erase l, ⟨hr.2, fun t => ?_⟩, fun t => ?_⟩
    · rw [hc, hl]
      have := h.2 t
      omega
    · rw [hc, hl]; rfl
  | removeAllFor s =>
    have hs := h.1.1 s
    simp only [apply, removeAllFor]
    cases hg : g.sIndex.get s with
    | none =>
      rw [hg] at hs
      have he := hs.symm.eq_nil
      refine ⟨l, h, fun t => ?_⟩
      simp only [tally]
      split
      · rename_i e
        have : t ∉ l := fun ht => by
          have := List.filter_eq_nil_iff.1 he t ht
          simp [e] at this
        rw [List.count_eq_zero_of_not_mem this]
        rfl
      · rfl
    | some sts =>
      rw [hg] at hs
      simp only [Option.getD_some] at hs
      refine ⟨_, under_removes h sts, fun t => ?_⟩
      simp only [stmts_foldl_remove, count_foldl_erase, tally, hs.count_eq]
      by_cases e : t.subject = s
      · rw [List.count_filter (by simpa using e), if_pos e]
        simp
      · rw [List.count_eq_zero_of_not_mem (a := t) (l := l.filter _) (fun h => e (by simpa using (List.mem_filter.1 h).2)), if_neg e]
        simp

theorem run_tally {g : IndexedGraph} {l : List Stmt} (h : Under g l) (ops : List IndexedOp) :
    ∃ l', Under (ops.foldl apply g) l' ∧
      ∀ t, ((ops.foldl apply g).stmts.count t, l'.count t) = ops.foldl (tally t) (g.stmts.count t, l.count t) := by
  induction ops generalizing g l with
  | nil => exact ⟨l, h, fun t => rfl⟩
  | cons op ops ih =>
    obtain ⟨l1, h1, e1⟩ := apply_tally h op
    obtain ⟨l2, h2, e2⟩ := ih h1
    exact ⟨l2, h2, fun t => by rw [List.foldl_cons, e2, e1, List.foldl_cons]⟩

theorem create_under (n : Option GraphName) (sts : List Stmt) (pm : Option PrefixMap) :
    Under (create n sts pm) sts ∧ (create n sts pm).stmts = sts ++ sts := by
  have h : Under ⟨n, sts, pm.getD defaultMappings, [], [], []⟩ [] :=
    ⟨⟨indexOf_nil, indexOf_nil, indexOf_nil⟩, fun t => by simp⟩
  exact ⟨by have := under_inserts h sts; rwa [List.nil_append] at this, stmts_foldl_insert _ _⟩

end IndexedGraph

end Rdftk
