import Verif.Spec.NqNames
import Verif.Props.NTriples

/-! C204: N-Quads of data sets whose graphs are held under other names than their own. -/

namespace Rdftk

open Spec

/-- **C204**, in full: what is held under a key comes back under it, for data sets without default graph whose literals are read as they
were. -/
def C204_statement : Prop :=
  ∀ (env : ReadEnv) (gen : Nat → Str) (n : Nat) (o : Graph → Orders) (d : DataSet), (∀ g, (o g).Fair) → (d.graphs.map (·.1)).Nodup →
    DataSetGood env d → (∀ e ∈ d.graphs, e.1 ≠ none ∧ e.2.name ≠ none) → (∀ g ∈ d.allGraphs, ∀ st ∈ g.stmts, rereadStmt env.pr st = st) →
    ∃ d', readNq env (writeNq gen n o .bare d) = .ok d' ∧ ∀ k st, st ∈ d'.content k ↔ st ∈ d.content k

/-- What reading gives, whatever the keys are: under each name the statements of all graphs that have it. -/
theorem C204_reads (env : ReadEnv) (gen : Nat → Str) (n : Nat) (o : Graph → Orders)
    (ho : ∀ g, (o g).Fair) (d : DataSet) (hg : DataSetGood env d)
    (hdef : ∀ g ∈ d.allGraphs, g.stmts ≠ [] → g.name ≠ none) :
    ∃ d', readNq env (writeNq gen n o .bare d) = .ok d' ∧ d'.ok ∧
      (∀ k st, st ∈ d'.content k ↔ ∃ x, NamedHolds d k x ∧ rereadStmt env.pr x = st) ∧
      ∀ k, (d'.graph k).isSome = true ↔ ∃ x, NamedHolds d k x := by
  have hsimple : ∀ g ∈ d.allGraphs, ∀ st ∈ g.stmts, simple st = true :=
    fun g h st hst => good_simple ((hg g h).2 st hst)
  have hq : ∀ q ∈ quadsOf gen n o d.allGraphs, (∀ m ∈ q.1, NameGood env m) ∧ StmtGood env false q.2 := by
    rintro ⟨k, st⟩ h
    obtain ⟨g, h1, rfl, h2⟩ := (mem_quadsOf ho hsimple k st).1 h
    exact ⟨(hg g h1).1, (hg g h1).2 st h2⟩
  have hmem : ∀ k st, (k, st) ∈ quadsOf gen n o d.allGraphs ↔ NamedHolds d k st := fun k st => mem_quadsOf ho hsimple k st
  have hnone : ∀ q ∈ quadsOf gen n o d.allGraphs, q.1 ≠ none := by
    rintro ⟨k, st⟩ h e
    simp only at e
    subst e
    obtain ⟨g, h1, h2, h3⟩ := (hmem _ _).1 h
    exact hdef g h1 (List.ne_nil_of_mem h3) h2
  obtain ⟨qs, hqs⟩ : ∃ qs : List Quad, quadsOf gen n o d.allGraphs = qs.map fun q => (some q.1, q.2) := by
    generalize quadsOf gen n o d.allGraphs = l at hnone
    clear hq hmem
    induction l with
    | nil => exact ⟨[], rfl⟩
    | cons q l ih =>
      obtain ⟨qs, rfl⟩ := ih fun x hx => hnone x (List.mem_cons_of_mem _ hx)
      obtain ⟨k, st⟩ := q
      cases k with
      | none => exact absurd rfl (hnone _ List.mem_cons_self)
      | some k => exact ⟨(k, st) :: qs, rfl⟩
  have hread : readNq env (writeNq gen n o .bare d) = .ok ((qs.map fun q =>
      (q.1, rereadStmt env.pr q.2)).foldl (fun d q => d.insertInto q.1 q.2) DataSet.empty) := by
    unfold readNq writeNq
    rw [writeNqGraphs_eq _ _ _ _ _ hsimple, pDoc_quadsOf _ hq]
    simp only
    rw [hqs, List.map_map]
    refine evalQuads_good qs (fun q h => ?_) _
    have := hq (some q.1, q.2) (by rw [hqs]; exact List.mem_map.2 ⟨q, h, rfl⟩)
    exact ⟨this.1 _ rfl, this.2⟩
  have hempty : DataSet.empty.ok := ⟨by simp [DataSet.empty], by simp [DataSet.empty]⟩
  obtain ⟨a, b, c⟩ := fold_insertInto (qs.map fun q => (q.1, rereadStmt env.pr q.2)) DataSet.empty hempty
    (by intro k g h; simp [DataSet.empty, DataSet.graph] at h)
  have hcont : ∀ k st, st ∈ ((qs.map fun q => (q.1, rereadStmt env.pr q.2)).foldl
      (fun d q => d.insertInto q.1 q.2) DataSet.empty).content k ↔
      ∃ x, NamedHolds d k x ∧ rereadStmt env.pr x = st := by
    intro k st
    have e : DataSet.empty.content k = [] := rfl
    rw [b, e]
    simp only [List.not_mem_nil, false_or, List.mem_map, Prod.mk.injEq]
    constructor
    · rintro ⟨m, rfl, q, hq, rfl, rfl⟩
      exact ⟨q.2, (hmem _ _).1 (by rw [hqs]; exact List.mem_map.2 ⟨q, hq, rfl⟩), rfl⟩
    · rintro ⟨x, hx, rfl⟩
      have := (hmem _ _).2 hx
      rw [hqs] at this
      obtain ⟨q, hq, e⟩ := List.mem_map.1 this
      injection e with e1 e2
      exact ⟨q.1, e1.symm, q, hq, rfl, by rw [e2]⟩
  refine ⟨_, hread, a, hcont, ?_⟩
  intro k
  rw [Option.isSome_iff_exists]
  constructor
  · rintro ⟨g, e⟩
    have hne := c k g e
    obtain ⟨st, hst⟩ := List.exists_mem_of_ne_nil _ hne
    obtain ⟨x, hx, -⟩ := (hcont k st).1 (by unfold DataSet.content; rw [e]; exact hst)
    exact ⟨x, hx⟩
  · rintro ⟨x, hx⟩
    have := (hcont k _).2 ⟨x, hx, rfl⟩
    unfold DataSet.content at this
    split at this
    · rename_i g e; exact ⟨g, e⟩
    · simp at this

/-- Exactly: the contents come back if and only if each key has the statements of the graphs with that name. -/
theorem C204_iff (env : ReadEnv) (gen : Nat → Str) (n : Nat) (o : Graph → Orders) (ho : ∀ g, (o g).Fair) (d : DataSet) (hg : DataSetGood env d)
    (hdef : ∀ g ∈ d.allGraphs, g.stmts ≠ [] → g.name ≠ none) (hr : ∀ g ∈ d.allGraphs, ∀ st ∈ g.stmts, rereadStmt env.pr st = st) :
    (∃ d', readNq env (writeNq gen n o .bare d) = .ok d' ∧ ∀ k st, st ∈ d'.content k ↔ st ∈ d.content k) ↔
      ∀ k st, st ∈ d.content k ↔ NamedHolds d k st := by
  obtain ⟨d', h1, -, h3, -⟩ := C204_reads env gen n o ho d hg hdef
  have h3 : ∀ k st, st ∈ d'.content k ↔ NamedHolds d k st := by
    intro k st
    rw [h3]
    constructor
    · rintro ⟨x, hx, rfl⟩
      obtain ⟨g, a, b, c⟩ := hx
      rw [hr g a x c]
      exact ⟨g, a, b, c⟩
    · rintro ⟨g, a, b, c⟩
      exact ⟨st, ⟨g, a, b, c⟩, hr g a st c⟩
  constructor
  · rintro ⟨e, h4, h5⟩ k st
    rw [h1] at h4
    cases h4
    rw [← h5, h3]
  · exact fun h => ⟨d', h1, fun k st => by rw [h3, h]⟩

theorem graphMut_graphs {d : DataSet} {k : Option GraphName} {f : Graph → Graph} {g : Graph} :
    g ∈ (d.graphMut k f).allGraphs ↔ ∃ e ∈ d.graphs, g = if e.1 = k then f e.2 else e.2 := by
  unfold DataSet.graphMut DataSet.allGraphs
  simp only [List.map_map, List.mem_map, Function.comp]
  constructor
  · rintro ⟨e, he, rfl⟩; exact ⟨e, he, by split <;> rfl⟩
  · rintro ⟨e, he, rfl⟩; exact ⟨e, he, by split <;> rfl⟩

/-- A graph that is renamed in place is read under its new name, together with the one that had it before; nothing is left under the old. -/
theorem C204_renamed (env : ReadEnv) (gen : Nat → Str) (n : Nat) (o : Graph → Orders) (ho : ∀ g, (o g).Fair) (d : DataSet) (hd : d.ok)
    (hg : DataSetGood env d) (hdef : d.content none = []) (k m : GraphName) (hkm : k ≠ m) (hm : NameGood env m) :
    ∃ d', readNq env (writeNq gen n o .bare (d.graphMut (some k) fun g => g.setName m)) = .ok d' ∧ d'.content (some k) = [] ∧
      (∀ st, st ∈ d'.content (some m) ↔ ∃ x, (x ∈ d.content (some k) ∨ x ∈ d.content (some m)) ∧ rereadStmt env.pr x = st) ∧
      ∀ j, j ≠ some k → j ≠ some m → ∀ st, st ∈ d'.content j ↔ ∃ x ∈ d.content j, rereadStmt env.pr x = st := by
  have hall : ∀ e ∈ d.graphs, e.2 ∈ d.allGraphs := fun e he => List.mem_map.2 ⟨e, he, rfl⟩
  have hs : ∀ g : Graph, (g.setName m).stmts = g.stmts := fun _ => rfl
  have hn : ∀ g : Graph, (g.setName m).name = some m := fun _ => rfl
  obtain ⟨d', h1, -, h3, -⟩ := C204_reads env gen n o ho (d.graphMut (some k) fun g => g.setName m) (by
    intro g h
    obtain ⟨e, he, rfl⟩ := graphMut_graphs.1 h
    split
    · exact ⟨fun a ha => by rw [hn] at ha; cases ha; exact hm, (hg _ (hall e he)).2⟩
    · exact hg _ (hall e he)) (by
    intro g h h2 h3
    obtain ⟨e, he, rfl⟩ := graphMut_graphs.1 h
    split at h3
    · cases h3
    · rename_i hk
      rw [if_neg hk] at h2
      obtain ⟨st, hst⟩ := List.exists_mem_of_ne_nil _ h2
      have := (content_iff hd none st).2 ⟨e.2, hall e he, h3, hst⟩
      rw [hdef] at this
      cases this)
  have key : ∀ j x, NamedHolds (d.graphMut (some k) fun g => g.setName m) j x ↔
      (j = some m ∧ x ∈ d.content (some k)) ∨ (j ≠ some k ∧ x ∈ d.content j) := by
    intro j x
    simp only [content_iff hd]
    constructor
    · rintro ⟨g, h, rfl, hx⟩
      obtain ⟨e, he, rfl⟩ := graphMut_graphs.1 h
      by_cases hk : e.1 = some k
      · rw [if_pos hk] at hx ⊢
        exact .inl ⟨rfl, e.2, hall e he, by rw [← hd.1 e he, hk], hx⟩
      · rw [if_neg hk] at hx ⊢
        exact .inr ⟨by rw [← hd.1 e he]; exact hk, e.2, hall e he, rfl, hx⟩
    · rintro (⟨rfl, g, h, h2, hx⟩ | ⟨hj, g, h, h2, hx⟩)
      · obtain ⟨e, he, rfl⟩ := List.mem_map.1 h
        exact ⟨_, graphMut_graphs.2 ⟨e, he, rfl⟩, by rw [if_pos (by rw [hd.1 e he, h2])]; rfl, by rw [if_pos (by rw [hd.1 e he, h2])]; exact hx⟩
      · obtain ⟨e, he, rfl⟩ := List.mem_map.1 h
        have hne : ¬ e.1 = some k := by rw [hd.1 e he, h2]; exact hj
        exact ⟨_, graphMut_graphs.2 ⟨e, he, rfl⟩, by rw [if_neg hne]; exact h2, by rw [if_neg hne]; exact hx⟩
  refine ⟨d', h1, ?_, fun st => ?_, fun j hj hj' st => ?_⟩
  · refine List.eq_nil_iff_forall_not_mem.2 fun st hst => ?_
    obtain ⟨x, hx, -⟩ := (h3 _ st).1 hst
    rcases (key _ x).1 hx with ⟨e, -⟩ | ⟨e, -⟩
    · exact hkm (Option.some.inj e)
    · exact e rfl
  · rw [h3]
    simp only [key]
    constructor
    · rintro ⟨x, ⟨-, h⟩ | ⟨-, h⟩, e⟩
      · exact ⟨x, .inl h, e⟩
      · exact ⟨x, .inr h, e⟩
    · rintro ⟨x, h | h, e⟩
      · exact ⟨x, .inl ⟨trivial, h⟩, e⟩
      · exact ⟨x, .inr ⟨fun h => hkm (Option.some.inj h).symm, h⟩, e⟩
  · rw [h3]
    simp only [key]
    constructor
    · rintro ⟨x, ⟨h, -⟩ | ⟨-, h⟩, e⟩
      · exact absurd h hj'
      · exact ⟨x, h, e⟩
    · rintro ⟨x, h, e⟩
      exact ⟨x, .inr ⟨hj, h⟩, e⟩

/-- It does not hold: a graph that was renamed in place is not found under its key any more. -/
theorem C204_fails : ¬ C204_statement := by
  intro h
  have h1 : IriGood easyEnv ⟨str! "a:s"⟩ := plain_chars (by decide)
  let g : Graph := (Graph.fromIter [.mk (.res ⟨str! "a:s"⟩) ⟨str! "a:s"⟩ (.res ⟨str! "a:s"⟩)]).setName (.iri ⟨str! "a:s"⟩)
  have hst : ∀ st ∈ g.stmts, st = .mk (.res ⟨str! "a:s"⟩) ⟨str! "a:s"⟩ (.res ⟨str! "a:s"⟩) :=
    fun st h => List.mem_singleton.1 h
  let d : DataSet := ⟨[(some (.iri ⟨str! "a:k"⟩), g)]⟩
  have hall : ∀ x ∈ d.allGraphs, x = g := fun x hx => List.mem_singleton.1 hx
  have hg : DataSetGood easyEnv d := by
    intro x hx
    rw [hall x hx]
    refine ⟨fun n hn => ?_, fun st h => ?_⟩
    · cases hn; exact h1
    · rw [hst st h]; exact ⟨h1, h1, h1⟩
  have hr : ∀ x ∈ d.allGraphs, ∀ st ∈ x.stmts, rereadStmt easyEnv.pr st = st := by
    intro x hx st hs
    rw [hall x hx] at hs
    rw [hst st hs]
    rfl
  obtain h2 := h easyEnv blankGen 0 (fun _ => sameOrder) d (fun _ => sameOrder_fair) (by simp [d]) hg
    (by intro e he; rw [List.mem_singleton.1 he]; exact ⟨by simp, by simp [g, Graph.setName]⟩) hr
  have h3 := (C204_iff easyEnv blankGen 0 (fun _ => sameOrder) (fun _ => sameOrder_fair) d hg
    (by intro x hx _; rw [hall x hx]; simp [g, Graph.setName]) hr).1 h2
  have h4 := (h3 (some (.iri ⟨str! "a:k"⟩)) (.mk (.res ⟨str! "a:s"⟩) ⟨str! "a:s"⟩ (.res ⟨str! "a:s"⟩))).1 (List.mem_singleton.2 rfl)
  obtain ⟨x, hx, hn, -⟩ := h4
  rw [hall x hx] at hn
  revert hn
  decide +kernel

end Rdftk
