import Verif.Model.Graph

/-! C31: data sets. -/

namespace Rdftk

/-- The operations on a data set.  `rehash` lets the visiting order of the map change at any
time; `modify` is a change of a graph in place (`graph_mut`) that does not rename it. -/
inductive DataSetOp where
  | insert (g : Graph)
  | extend (gs : List Graph)
  | remove (k : Option GraphName)
  | clear
  | modify (k : Option GraphName) (f : Graph → Graph) (h : ∀ g, (f g).name = g.name)
  | rehash (ord : List (Option GraphName × Graph) → List (Option GraphName × Graph))
      (perm : ∀ l, (ord l).Perm l)

/-- The effect of an operation. -/
def DataSet.apply (d : DataSet) : DataSetOp → DataSet
  | .insert g => d.insert g
  | .extend gs => d.extend gs
  | .remove k => d.remove k
  | .clear => d.clear
  | .modify k f _ => d.graphMut k f
  | .rehash ord _ => ⟨ord d.graphs⟩

/-- The effect of a sequence of operations. -/
def DataSet.run (d : DataSet) (ops : List DataSetOp) : DataSet := ops.foldl DataSet.apply d

/-- The last graph in a list with a given name, or else `old`. -/
def lastNamed (k : Option GraphName) (old : Option Graph) (gs : List Graph) : Option Graph :=
  match gs.reverse.find? (fun g => decide (g.name = k)) with
  | some g => some g
  | none => old

/-- What should be found under `k` after an operation, when `x` was found before. -/
def foundAfter (k : Option GraphName) (x : Option Graph) : DataSetOp → Option Graph
  | .insert g => if g.name = k then some g else x
  | .extend gs => lastNamed k x gs
  | .remove k' => if k' = k then none else x
  | .clear => none
  | .modify k' f _ => if k' = k then x.map f else x
  | .rehash _ _ => x

/-- What should be found under `k` after a history. -/
def found (k : Option GraphName) (ops : List DataSetOp) : Option Graph :=
  ops.foldl (foundAfter k) none

/-- Every graph is stored under its own name, and each name occurs once. -/
def DataSet.ok (d : DataSet) : Prop :=
  (∀ e ∈ d.graphs, e.1 = e.2.name) ∧ (d.graphs.map (·.1)).Nodup

theorem mem_mapInsert {k : Option GraphName} {g : Graph} {l : List (Option GraphName × Graph)}
    (h : (l.map (·.1)).Nodup) (e : Option GraphName × Graph) :
    e ∈ DataSet.mapInsert k g l ↔ e = (k, g) ∨ (e ∈ l ∧ e.1 ≠ k) := by
  induction l with
  | nil => simp [DataSet.mapInsert]
  | cons a l ih =>
    rw [List.map_cons, List.nodup_cons] at h
    unfold DataSet.mapInsert
    split
    · rename_i ha
      simp only [List.mem_cons]
      constructor
      · rintro (rfl | he)
        · exact .inl rfl
        · refine .inr ⟨.inr he, ?_⟩
          intro e2
          exact h.1 (List.mem_map.2 ⟨e, he, by rw [e2, ha]⟩)
      · rintro (rfl | ⟨rfl | he, hk⟩)
        · exact .inl rfl
        · exact absurd ha hk
        · exact .inr he
    · rename_i ha
      simp only [List.mem_cons, ih h.2]
      constructor
      · rintro (rfl | rfl | ⟨he, hk⟩)
        · exact .inr ⟨.inl rfl, ha⟩
        · exact .inl rfl
        · exact .inr ⟨.inr he, hk⟩
      · rintro (rfl | ⟨rfl | he, hk⟩)
        · exact .inr (.inl rfl)
        · exact .inl rfl
        · exact .inr (.inr ⟨he, hk⟩)

theorem mapInsert_keys {k : Option GraphName} {g : Graph} {l : List (Option GraphName × Graph)}
    (h : (l.map (·.1)).Nodup) : ((DataSet.mapInsert k g l).map (·.1)).Nodup := by
  induction l with
  | nil => simp [DataSet.mapInsert]
  | cons a l ih =>
    have h0 := h
    rw [List.map_cons, List.nodup_cons] at h
    unfold DataSet.mapInsert
    split
    · rename_i ha; rw [List.map_cons, ← ha]; exact h0
    · rename_i ha
      rw [List.map_cons, List.nodup_cons]
      refine ⟨?_, ih h.2⟩
      intro hm
      obtain ⟨e, he, e1⟩ := List.mem_map.1 hm
      rw [mem_mapInsert h.2] at he
      rcases he with rfl | ⟨he, -⟩
      · exact ha e1.symm
      · exact h.1 (List.mem_map.2 ⟨e, he, e1⟩)

theorem DataSet.graph_iff {d : DataSet} (h : (d.graphs.map (·.1)).Nodup) (k : Option GraphName)
    (g : Graph) : d.graph k = some g ↔ (k, g) ∈ d.graphs := by
  cases d with
  | mk l =>
    unfold DataSet.graph
    simp only at h ⊢
    induction l with
    | nil => simp
    | cons a l ih =>
      rw [List.map_cons, List.nodup_cons] at h
      rw [List.find?_cons]
      by_cases ha : a.1 = k
      · subst ha
        simp only [beq_self_eq_true, Option.map_some, Option.some.injEq, List.mem_cons]
        constructor
        · rintro rfl; exact .inl rfl
        · rintro (e | he)
          · rw [← e]
          · exact absurd (List.mem_map.2 ⟨_, he, rfl⟩) h.1
      · have hb : (a.1 == k) = false := by simp [ha]
        rw [hb]
        simp only [List.mem_cons]
        rw [ih h.2]
        constructor
        · exact .inr
        · rintro (e | he)
          · exact absurd (by rw [← e]) ha
          · exact he

theorem DataSet.graph_none {d : DataSet} (k : Option GraphName) :
    d.graph k = none ↔ ∀ e ∈ d.graphs, e.1 ≠ k := by
  simp [DataSet.graph, List.find?_eq_none]

theorem DataSet.graph_ext {d : DataSet} (h : (d.graphs.map (·.1)).Nodup) (k : Option GraphName)
    (x : Option Graph) (hx : ∀ g, (k, g) ∈ d.graphs ↔ x = some g) : d.graph k = x := by
  apply Option.ext
  intro g
  rw [DataSet.graph_iff h, hx]

theorem DataSet.insert_step {d : DataSet} (hd : d.ok) (g : Graph) :
    (d.insert g).ok ∧ ∀ k, (d.insert g).graph k = if g.name = k then some g else d.graph k := by
  have hn : ((d.insert g).graphs.map (·.1)).Nodup := mapInsert_keys hd.2
  refine ⟨⟨?_, hn⟩, ?_⟩
  · intro e he
    rw [DataSet.insert, mem_mapInsert hd.2] at he
    rcases he with rfl | ⟨he, -⟩
    · rfl
    · exact hd.1 e he
  · intro k
    apply DataSet.graph_ext hn
    intro g'
    rw [DataSet.insert, mem_mapInsert hd.2]
    by_cases hk : g.name = k
    · subst hk; simp [eq_comm]
    · rw [if_neg hk, DataSet.graph_iff hd.2]
      simp [hk, Ne.symm hk]

theorem DataSet.extend_step {d : DataSet} (hd : d.ok) (gs : List Graph) :
    (d.extend gs).ok ∧ ∀ k, (d.extend gs).graph k = lastNamed k (d.graph k) gs := by
  unfold DataSet.extend
  induction gs generalizing d with
  | nil => exact ⟨hd, fun k => rfl⟩
  | cons g gs ih =>
    have h1 := DataSet.insert_step hd g
    have h2 := ih h1.1
    refine ⟨h2.1, ?_⟩
    intro k
    rw [List.foldl_cons, h2.2 k, h1.2 k]
    unfold lastNamed
    rw [List.reverse_cons, List.find?_append]
    cases gs.reverse.find? (fun g => decide (g.name = k)) with
    | some x => rfl
    | none =>
      by_cases hk : g.name = k
      · simp [hk]
      · simp [hk]

theorem DataSet.step {d : DataSet} (hd : d.ok) (op : DataSetOp) :
    (d.apply op).ok ∧ ∀ k, (d.apply op).graph k = foundAfter k (d.graph k) op := by
  cases op with
  | insert g => exact DataSet.insert_step hd g
  | extend gs => exact DataSet.extend_step hd gs
  | clear =>
    refine ⟨⟨by simp [DataSet.apply, DataSet.clear], by simp [DataSet.apply, DataSet.clear]⟩, ?_⟩
    intro k; rfl
  | remove k' =>
    have hn : ((d.remove k').graphs.map (·.1)).Nodup :=
      hd.2.sublist (List.filter_sublist.map _)
    refine ⟨⟨fun e he => hd.1 e (List.mem_filter.1 he).1, hn⟩, ?_⟩
    intro k
    apply DataSet.graph_ext hn
    intro g
    simp only [DataSet.remove, List.mem_filter, decide_eq_true_eq, foundAfter]
    by_cases hk : k' = k
    · subst hk; simp
    · rw [if_neg hk, DataSet.graph_iff hd.2]
      simp [Ne.symm hk]
  | modify k' f hf =>
    have hkeys : ((d.graphMut k' f).graphs.map (·.1)) = d.graphs.map (·.1) := by
      simp only [DataSet.graphMut, List.map_map]
      apply List.map_congr_left
      intro e _
      simp only [Function.comp]; split <;> rfl
    have hn : ((d.graphMut k' f).graphs.map (·.1)).Nodup := by rw [hkeys]; exact hd.2
    refine ⟨⟨?_, hn⟩, ?_⟩
    · intro e he
      simp only [DataSet.apply, DataSet.graphMut, List.mem_map] at he
      obtain ⟨a, ha, rfl⟩ := he
      split
      · simp only; rw [hf]; exact hd.1 a ha
      · exact hd.1 a ha
    · intro k
      apply DataSet.graph_ext hn
      intro g
      simp only [DataSet.graphMut, List.mem_map, foundAfter]
      by_cases hk : k' = k
      · subst hk
        rw [if_pos rfl, Option.map_eq_some_iff]
        simp only [DataSet.graph_iff hd.2]
        constructor
        · rintro ⟨a, ha, e⟩
          split at e
          · rename_i h; rw [Prod.mk.injEq] at e
            refine ⟨a.2, ?_, e.2⟩
            rw [← h]; exact ha
          · rename_i h; rw [e] at h; exact absurd rfl h
        · rintro ⟨x, hx, rfl⟩
          exact ⟨(k', x), hx, by simp⟩
      · rw [if_neg hk, DataSet.graph_iff hd.2]
        constructor
        · rintro ⟨a, ha, e⟩
          split at e
          · rename_i h; rw [Prod.mk.injEq] at e
            exact absurd (h.symm.trans e.1) hk
          · rwa [e] at ha
        · intro h
          exact ⟨_, h, by simp [Ne.symm hk]⟩
  | rehash ord perm =>
    have hp := perm d.graphs
    have hn : ((d.apply (.rehash ord perm)).graphs.map (·.1)).Nodup :=
      (hp.map _).nodup_iff.2 hd.2
    refine ⟨⟨fun e he => hd.1 e (hp.mem_iff.1 he), hn⟩, ?_⟩
    intro k
    apply DataSet.graph_ext hn
    intro g
    simp only [DataSet.apply, foundAfter]
    rw [hp.mem_iff, DataSet.graph_iff hd.2]

/-- C31: after any history, what is found under a name is the last graph inserted with that
name and not removed since, as then modified in place; each name occurs once and every graph is
stored under its own name. -/
theorem C31_map (ops : List DataSetOp) :
    (∀ k, (DataSet.empty.run ops).graph k = found k ops) ∧
    ((DataSet.empty.run ops).graphs.map (·.1)).Nodup ∧
    (∀ e ∈ (DataSet.empty.run ops).graphs, e.1 = e.2.name) := by
  have gen : ∀ (ops : List DataSetOp) (d : DataSet), d.ok →
      (d.run ops).ok ∧ ∀ k, (d.run ops).graph k = ops.foldl (foundAfter k) (d.graph k) := by
    intro ops
    induction ops with
    | nil => intro d hd; exact ⟨hd, fun _ => rfl⟩
    | cons op ops ih =>
      intro d hd
      have h1 := DataSet.step hd op
      have h2 := ih _ h1.1
      refine ⟨h2.1, fun k => ?_⟩
      rw [List.foldl_cons, ← h1.2 k]
      exact h2.2 k
  have := gen ops .empty ⟨by simp [DataSet.empty], by simp [DataSet.empty]⟩
  exact ⟨fun k => this.2 k, this.1.2, this.1.1⟩

/-- C31: the queries agree with what is found. -/
theorem C31_queries (ops : List DataSetOp) :
    let d := DataSet.empty.run ops
    (∀ k, d.containsGraph k = (found k ops).isSome) ∧
    d.hasDefaultGraph = (found none ops).isSome ∧
    (∀ n, d.hasGraphNamed n = (found (some n) ops).isSome) ∧
    d.defaultGraph = found none ops ∧ (∀ n, d.graphNamed n = found (some n) ops) ∧
    (d.isEmpty = true ↔ ∀ k, found k ops = none) ∧
    (∀ g, g ∈ d.allGraphs ↔ found g.name ops = some g) ∧
    d.len = d.allGraphs.length ∧ (d.allGraphs.map Graph.name).Nodup := by
  intro d
  have h := C31_map ops
  have hc : ∀ k, d.containsGraph k = (found k ops).isSome := by
    intro k
    rw [← h.1 k, Bool.eq_iff_iff, ← Bool.not_eq_false (Option.isSome _), Option.isSome_eq_false_iff,
      Option.isNone_iff_eq_none, DataSet.graph_none]
    simp [DataSet.containsGraph, d]
  refine ⟨hc, hc none, fun n => hc (some n), h.1 none, fun n => h.1 (some n), ?_, ?_, by
    simp [DataSet.len, DataSet.allGraphs], ?_⟩
  · simp only [← h.1, DataSet.graph_none]
    simp only [DataSet.isEmpty, List.isEmpty_iff]
    rw [List.eq_nil_iff_forall_not_mem]
    exact ⟨fun hh k e he => absurd he (hh e), fun hh e he => hh e.1 e he rfl⟩
  · intro g
    rw [← h.1, DataSet.graph_iff h.2.1]
    simp only [DataSet.allGraphs, List.mem_map]
    constructor
    · rintro ⟨e, he, rfl⟩
      rw [← h.2.2 e he]; exact he
    · intro hm; exact ⟨_, hm, rfl⟩
  · have e : d.allGraphs.map Graph.name = d.graphs.map (·.1) := by
      simp only [DataSet.allGraphs, List.map_map]
      apply List.map_congr_left
      intro e he
      exact (h.2.2 e he).symm
    rw [e]; exact h.2.1

/-- C31: making a data set of a list of graphs is inserting them one after another. -/
theorem C31_fromIter (gs : List Graph) : DataSet.fromIter gs = DataSet.empty.extend gs := by
  unfold DataSet.fromIter DataSet.extend
  have : ∀ (gs : List Graph) (l : List (Option GraphName × Graph)),
      DataSet.mk (gs.foldl (fun m g => DataSet.mapInsert g.name g m) l) =
        gs.foldl DataSet.insert ⟨l⟩ := by
    intro gs
    induction gs with
    | nil => intro l; rfl
    | cons g gs ih => intro l; exact ih _
  exact this gs []

/-- C31: what is not covered: renaming a graph in place (through `graph_mut`) leaves it under
its old name, for every data set that has a graph under that name. -/
theorem C31_rename_in_place (d : DataSet) (k : Option GraphName) (n : GraphName)
    (hk : k ≠ some n) (h : d.containsGraph k = true) :
    ¬ (d.graphMut k (fun g => g.setName n)).ok := by
  intro hok
  simp only [DataSet.containsGraph, List.any_eq_true, beq_iff_eq] at h
  obtain ⟨e, he, rfl⟩ := h
  have := hok.1 (e.1, e.2.setName n) (by
    simp only [DataSet.graphMut, List.mem_map]
    exact ⟨e, he, by simp⟩)
  exact hk this

example : let n : GraphName := .iri ⟨str! "http://h/g"⟩
    (found (some n) [.insert (.named n), .insert .default, .remove none]).isSome = true ∧
    (found none [.insert (.named n), .insert .default, .remove none]).isSome = false ∧
    (DataSet.empty.run [.insert (.named n), .insert .default, .insert (.uniqNamed n)]).len = 2 := by
  decide +kernel

end Rdftk
