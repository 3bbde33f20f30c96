import Verif.Spec.Indexed

/-! The indices of an indexed graph under the calls that change it. -/

namespace Rdftk

open Spec

namespace Index

variable {κ : Type} [DecidableEq κ]

theorem get_push (k k' : κ) (st : Stmt) (m : Index κ) :
    (m.push k st).get k' = if k = k' then some ((m.get k).getD [] ++ [st]) else m.get k' := by
  induction m with
  | nil => simp only [push, get]; split <;> simp
  | cons e m ih =>
    simp only [push]
    by_cases h : e.1 = k
    · simp only [h, if_true, get]
      split <;> simp
    · simp only [h, if_false, get, ih]
      by_cases h' : e.1 = k'
      · have : k ≠ k' := by rintro rfl; exact h h'
        simp [h', this]
      · simp [h']

theorem get_removeFrom (k k' : κ) (st : Stmt) (m : Index κ) :
    (m.removeFrom k st).get k' = if k = k' then (m.get k).map (·.erase st) else m.get k' := by
  induction m with
  | nil => simp only [removeFrom, get]; split <;> simp
  | cons e m ih =>
    simp only [removeFrom]
    by_cases h : e.1 = k
    · simp only [h, if_true, get]
      split <;> simp
    · simp only [h, if_false, get, ih]
      by_cases h' : e.1 = k'
      · have : k ≠ k' := by rintro rfl; exact h h'
        simp [h', this]
      · simp [h']

theorem mem_keys {m : Index κ} {k : κ} : k ∈ m.keys ↔ (m.get k).isSome := by
  induction m with
  | nil => simp [keys, get]
  | cons e m ih =>
    simp only [keys, List.map_cons, List.mem_cons, get]
    by_cases h : e.1 = k
    · simp [h]
    · simp only [h, if_false]
      rw [← ih]
      simp [keys, Ne.symm h]

end Index

section index

variable {κ : Type} [DecidableEq κ] {key : Stmt → κ} {m : Index κ} {l : List Stmt}

theorem indexOf_nil : IndexOf key ([] : Index κ) [] := fun k => by simp [Index.get]

theorem indexOf_push (h : IndexOf key m l) (st : Stmt) : IndexOf key (m.push (key st) st) (l ++ [st]) := by
  intro k
  rw [Index.get_push, List.filter_append]
  by_cases hk : key st = k
  · subst hk
    simpa using (h (key st)).append_right [st]
  · simpa [hk] using h k

theorem filter_erase {p : Stmt → Bool} {a : Stmt} (l : List Stmt) :
    (l.erase a).filter p = if p a then (l.filter p).erase a else l.filter p := by
  induction l with
  | nil => simp
  | cons b l ih =>
    by_cases hb : b = a
    · subst hb
      simp only [List.erase_cons_head]
      by_cases hp : p b = true <;> simp [hp]
    · rw [List.erase_cons_tail (by simpa using hb)]
      by_cases hpb : p b = true
      · rw [List.filter_cons_of_pos hpb, List.filter_cons_of_pos hpb, ih]
        split
        · rw [List.erase_cons_tail (by simpa using hb)]
        · rfl
      · rw [List.filter_cons_of_neg hpb, List.filter_cons_of_neg hpb, ih]

theorem indexOf_removeFrom (h : IndexOf key m l) (st : Stmt) :
    IndexOf key (m.removeFrom (key st) st) (l.erase st) := by
  intro k
  rw [Index.get_removeFrom, filter_erase]
  by_cases hk : key st = k
  · subst hk
    rw [if_pos rfl, if_pos (by simp)]
    have := (h (key st)).erase st
    cases hg : m.get (key st) with
    | none => rw [hg] at this; simpa using this
    | some v => rw [hg] at this; simpa using this
  · rw [if_neg hk, if_neg (by simpa using hk)]
    exact h k

theorem indexOf_perm (h : IndexOf key m l) {l' : List Stmt} (hp : l.Perm l') : IndexOf key m l' := fun k =>
  (h k).trans (hp.filter _)

end index

namespace IndexedGraph

theorem indexed_insert {g : IndexedGraph} (h : Indexed g) (st : Stmt) : Indexed (g.insert st) :=
  ⟨indexOf_push h.1 st, indexOf_push h.2.1 st, indexOf_push h.2.2 st⟩

theorem indexed_foldl_insert {g : IndexedGraph} (h : Indexed g) (l : List Stmt) : Indexed (l.foldl insert g) := by
  induction l generalizing g with
  | nil => exact h
  | cons st l ih => exact ih (indexed_insert h st)

theorem stmts_foldl_insert (g : IndexedGraph) (l : List Stmt) : (l.foldl insert g).stmts = g.stmts ++ l := by
  induction l generalizing g with
  | nil => simp
  | cons st l ih => rw [List.foldl_cons, ih]; simp [insert]

theorem indexed_remove {g : IndexedGraph} (h : Indexed g) (st : Stmt) : Indexed (g.remove st) := by
  unfold remove
  split
  · exact ⟨indexOf_removeFrom h.1 st, indexOf_removeFrom h.2.1 st, indexOf_removeFrom h.2.2 st⟩
  · exact h

theorem indexed_foldl_remove {g : IndexedGraph} (h : Indexed g) (l : List Stmt) : Indexed (l.foldl remove g) := by
  induction l generalizing g with
  | nil => exact h
  | cons st l ih => exact ih (indexed_remove h st)

theorem stmts_remove (g : IndexedGraph) (st : Stmt) : (g.remove st).stmts = g.stmts.erase st := by
  unfold remove
  split
  · rfl
  · rename_i h; rw [List.erase_of_not_mem h]

theorem stmts_foldl_remove (g : IndexedGraph) (l : List Stmt) :
    (l.foldl remove g).stmts = l.foldl List.erase g.stmts := by
  induction l generalizing g with
  | nil => rfl
  | cons st l ih => rw [List.foldl_cons, ih, stmts_remove]; rfl

/-- Removing statements from the indices one by one. -/
theorem indexed_removeIndices {g : IndexedGraph} {l : List Stmt} (h1 : IndexOf Stmt.subject g.sIndex l)
    (h2 : IndexOf Stmt.predicate g.pIndex l) (h3 : IndexOf Stmt.object g.oIndex l) (d : List Stmt) :
    let r := d.foldl removeIndicesFor g
    r.stmts = g.stmts ∧ IndexOf Stmt.subject r.sIndex (d.foldl List.erase l) ∧
      IndexOf Stmt.predicate r.pIndex (d.foldl List.erase l) ∧ IndexOf Stmt.object r.oIndex (d.foldl List.erase l) := by
  induction d generalizing g l with
  | nil => exact ⟨rfl, h1, h2, h3⟩
  | cons st d ih =>
    have := ih (g := g.removeIndicesFor st) (l := l.erase st) (indexOf_removeFrom h1 st) (indexOf_removeFrom h2 st)
      (indexOf_removeFrom h3 st)
    exact this

theorem count_foldl_erase (l d : List Stmt) (t : Stmt) : (d.foldl List.erase l).count t = l.count t - d.count t := by
  induction d generalizing l with
  | nil => simp
  | cons a d ih =>
    rw [List.foldl_cons, ih, List.count_erase, List.count_cons]
    by_cases h : a = t
    · subst h; simp; omega
    · simp [h]

theorem dedup_eq (ord : List Stmt → List Stmt) (g : IndexedGraph) :
    g.dedup ord = ((g.stmts.foldl Graph.dedupStep ([], [])).2.foldl removeIndicesFor
      { g with stmts := ord (g.stmts.foldl Graph.dedupStep ([], [])).1 },
      (g.stmts.foldl Graph.dedupStep ([], [])).2) := rfl

/-- What `dedup` does to the statements and the indices. -/
theorem dedup_spec {g : IndexedGraph} (h : Indexed g) (ord : VisitOrder) :
    (g.dedup ord.run).1.stmts = ord.run (setOf g.stmts) ∧ Indexed (g.dedup ord.run).1 ∧
      ∀ t, (setOf g.stmts).count t + (g.dedup ord.run).2.count t = g.stmts.count t := by
  have hd := dedup_fold g.stmts [] [] List.nodup_nil
  simp only at hd
  rw [dedup_eq]
  generalize g.stmts.foldl Graph.dedupStep ([], []) = kd at hd ⊢
  obtain ⟨hd1, hd2⟩ := hd
  have hk : kd.1 = setOf g.stmts := hd1
  have hr := indexed_removeIndices (g := { g with stmts := ord.run kd.1 }) h.1 h.2.1 h.2.2 kd.2
  simp only at hr
  have hp : (kd.2.foldl List.erase g.stmts).Perm (ord.run kd.1) := by
    refine (List.perm_iff_count.2 fun t => ?_).trans (ord.perm _).symm
    rw [count_foldl_erase]
    have := hd2 t
    simp at this
    omega
  refine ⟨by rw [hr.1, hk], ⟨?_, ?_, ?_⟩, fun t => ?_⟩
  · rw [hr.1]; exact indexOf_perm hr.2.1 hp
  · rw [hr.1]; exact indexOf_perm hr.2.2.1 hp
  · rw [hr.1]; exact indexOf_perm hr.2.2.2 hp
  · have := hd2 t
    simp at this
    rw [← hk]; exact this

theorem removeAllFor_spec {g : IndexedGraph} (h : Indexed g) (s : Subject) :
    (g.removeAllFor s).1.stmts = g.stmts.filter (fun st => st.subject ≠ s) ∧ Indexed (g.removeAllFor s).1 ∧
      (g.removeAllFor s).2.Perm (g.stmts.filter fun st => st.subject = s) := by
  have hs := h.1 s
  unfold removeAllFor
  cases hg : g.sIndex.get s with
  | none =>
    rw [hg] at hs
    simp only [Option.getD_none] at hs
    have he := hs.symm.eq_nil
    refine ⟨?_, h, hs⟩
    simp only
    rw [eq_comm, List.filter_eq_self]
    intro st hst
    rw [List.filter_eq_nil_iff] at he
    simpa using he st hst
  | some sts =>
    rw [hg] at hs
    simp only [Option.getD_some] at hs
    refine ⟨?_, indexed_foldl_remove h _, hs⟩
    simp only
    rw [stmts_foldl_remove]
    have hall : ∀ st ∈ sts, st.subject = s := fun st hst => by
      have := hs.mem_iff.1 hst
      simpa using (List.mem_filter.1 this).2
    have h1 : ∀ (d l : List Stmt), (∀ st ∈ d, st.subject = s) →
        (d.foldl List.erase l).filter (fun st => st.subject ≠ s) = l.filter (fun st => st.subject ≠ s) := by
      intro d
      induction d with
      | nil => intro l _; rfl
      | cons a d ih =>
        intro l hd
        rw [List.foldl_cons, ih _ fun st hst => hd st (List.mem_cons_of_mem _ hst), filter_erase,
          if_neg (by simp [hd a (by simp)])]
    rw [← h1 sts g.stmts hall, eq_comm, List.filter_eq_self]
    intro st hst
    refine decide_eq_true fun hc => ?_
    have hpos := List.count_pos_iff.2 hst
    rw [count_foldl_erase, hs.count_eq, List.count_filter (by simpa using hc)] at hpos
    omega

theorem indexed_new (n : Option GraphName) (pm : Option PrefixMap) : Indexed (create n [] pm) :=
  ⟨indexOf_nil, indexOf_nil, indexOf_nil⟩

theorem indexed_apply {g : IndexedGraph} (h : Indexed g) (op : IndexedOp) : Indexed (g.apply op) := by
  cases op with
  | insert st => exact indexed_insert h st
  | merge k => exact indexed_foldl_insert h _
  | dedup ord => exact (dedup_spec h ord).2.1
  | remove st => exact indexed_remove h st
  | removeAllFor s => exact (removeAllFor_spec h s).2.1
  | clear => exact ⟨indexOf_nil, indexOf_nil, indexOf_nil⟩
  | setName n => exact h
  | unsetName => exact h
  | setMappings m => exact h

/-- The keys of the three indices, as predicates on statements. -/
def KeysOf (g : IndexedGraph) (l : List Stmt) : Prop :=
  (∀ s, (g.sIndex.get s).isSome ↔ ∃ st ∈ l, st.subject = s) ∧
  (∀ p, (g.pIndex.get p).isSome ↔ ∃ st ∈ l, st.predicate = p) ∧
  ∀ o, (g.oIndex.get o).isSome ↔ ∃ st ∈ l, st.object = o

theorem keysOf_insert {g : IndexedGraph} {l : List Stmt} (h : g.KeysOf l) (st : Stmt) :
    (g.insert st).KeysOf (l ++ [st]) := by
  have key : ∀ {κ : Type} [DecidableEq κ] (key : Stmt → κ) (m : Index κ),
      (∀ k, (m.get k).isSome ↔ ∃ st ∈ l, key st = k) →
      ∀ k, ((m.push (key st) st).get k).isSome ↔ ∃ st' ∈ l ++ [st], key st' = k := by
    intro κ _ key m hm k
    rw [Index.get_push]
    by_cases hk : key st = k
    · rw [if_pos hk]; simp only [Option.isSome_some, true_iff]; exact ⟨st, by simp, hk⟩
    · rw [if_neg hk, hm]
      simp only [List.mem_append, List.mem_singleton]
      constructor
      · rintro ⟨t, ht, e⟩; exact ⟨t, .inl ht, e⟩
      · rintro ⟨t, ht | rfl, e⟩
        · exact ⟨t, ht, e⟩
        · exact absurd e hk
  exact ⟨key _ _ h.1, key _ _ h.2.1, key _ _ h.2.2⟩

theorem keysOf_foldl_insert {g : IndexedGraph} {l : List Stmt} (h : g.KeysOf l) (l' : List Stmt) :
    (l'.foldl insert g).KeysOf (l ++ l') := by
  induction l' generalizing g l with
  | nil => simpa using h
  | cons st l' ih => simpa using ih (keysOf_insert h st)

theorem keysOf_removeIndicesFor {g : IndexedGraph} {l : List Stmt} (h : g.KeysOf l) (st : Stmt) :
    (g.removeIndicesFor st).KeysOf l := by
  have key : ∀ {κ : Type} [DecidableEq κ] (k' : κ) (m : Index κ) (k : κ),
      ((m.removeFrom k' st).get k).isSome = (m.get k).isSome := by
    intro κ _ k' m k
    rw [Index.get_removeFrom]
    split
    · rename_i e; subst e; cases m.get k' <;> rfl
    · rfl
  exact ⟨fun s => by rw [← h.1 s]; exact iff_of_eq (congrArg (· = true) (key _ _ _)),
    fun s => by rw [← h.2.1 s]; exact iff_of_eq (congrArg (· = true) (key _ _ _)),
    fun s => by rw [← h.2.2 s]; exact iff_of_eq (congrArg (· = true) (key _ _ _))⟩

theorem keysOf_foldl_removeIndices {g : IndexedGraph} {l : List Stmt} (h : g.KeysOf l) (d : List Stmt) :
    (d.foldl removeIndicesFor g).KeysOf l := by
  induction d generalizing g with
  | nil => exact h
  | cons st d ih => exact ih (keysOf_removeIndicesFor h st)

theorem keysOf_remove {g : IndexedGraph} {l : List Stmt} (h : g.KeysOf l) (st : Stmt) : (g.remove st).KeysOf l := by
  unfold remove
  split
  · exact keysOf_removeIndicesFor (g := { g with stmts := g.stmts.erase st }) h st
  · exact h

theorem keysOf_run {g : IndexedGraph} {l : List Stmt} (h : g.KeysOf l) (ops : List IndexedOp) :
    (ops.foldl apply g).KeysOf (seen ops l) := by
  induction ops generalizing g l with
  | nil => exact h
  | cons op ops ih =>
    rw [List.foldl_cons]
    cases op with
    | insert st => exact ih (keysOf_insert h st)
    | merge k => exact ih (keysOf_foldl_insert h _)
    | dedup ord =>
      refine ih ?_
      show KeysOf (g.dedup ord.run).1 l
      rw [dedup_eq]
      apply keysOf_foldl_removeIndices
      exact h
    | remove st => exact ih (keysOf_remove h st)
    | removeAllFor s =>
      refine ih ?_
      show KeysOf (g.removeAllFor s).1 l
      unfold removeAllFor
      split
      · rename_i sts _
        have : ∀ (d : List Stmt) (g : IndexedGraph), g.KeysOf l → (d.foldl remove g).KeysOf l := by
          intro d
          induction d with
          | nil => intro g h; exact h
          | cons st d ih => intro g h; exact ih _ (keysOf_remove h st)
        exact this _ _ h
      · exact h
    | clear =>
      refine ih (l := []) ?_
      exact ⟨fun s => by simp [clear, apply, Index.get], fun s => by simp [clear, apply, Index.get],
        fun s => by simp [clear, apply, Index.get]⟩
    | setName n => exact ih (g := g.setName n) h
    | unsetName => exact ih (g := g.unsetName) h
    | setMappings m => exact ih (g := g.setMappings m) h

end IndexedGraph

end Rdftk
