import Verif.Lemmas.IndexedTally

/-! Properties C100-C103: graphs with indices (`rdftk_core/src/simple/indexed.rs`). -/

namespace Rdftk

open Spec IndexedGraph

/-- The graphs that can be made: by a constructor and then any calls. -/
inductive Made : IndexedGraph → Prop
  | create (n : Option GraphName) (sts : List Stmt) (pm : Option PrefixMap) : Made (create n sts pm)
  | step {g : IndexedGraph} (op : IndexedOp) : Made g → Made (g.apply op)

/-- The graphs that are made from an empty one. -/
inductive MadeEmpty : IndexedGraph → Prop
  | create (n : Option GraphName) (pm : Option PrefixMap) : MadeEmpty (create n [] pm)
  | step {g : IndexedGraph} (op : IndexedOp) : MadeEmpty g → MadeEmpty (g.apply op)

/-! ### C100 -/

/-- C100, the full statement: in every graph that can be made the indices hold the statements. -/
def C100_statement : Prop := ∀ g, Made g → Indexed g

/-- C100 for graphs that start empty, after any calls.  Missing: graphs made from statements. -/
theorem C100_partial (g : IndexedGraph) (h : MadeEmpty g) : Indexed g := by
  induction h with
  | create n pm => exact indexed_new n pm
  | step op _ ih => exact indexed_apply ih op

/-- A graph made from statements has every statement twice, and its indices have it once. -/
theorem C100_doubled (n : Option GraphName) (sts : List Stmt) (pm : Option PrefixMap) :
    (create n sts pm).stmts = sts ++ sts ∧
    IndexOf Stmt.subject (create n sts pm).sIndex sts ∧ IndexOf Stmt.predicate (create n sts pm).pIndex sts ∧
      IndexOf Stmt.object (create n sts pm).oIndex sts := by
  refine ⟨stmts_foldl_insert _ _, ?_⟩
  have : ∀ (l a : List Stmt) (g : IndexedGraph), IndexOf Stmt.subject g.sIndex a → IndexOf Stmt.predicate g.pIndex a →
      IndexOf Stmt.object g.oIndex a → IndexOf Stmt.subject (l.foldl insert g).sIndex (a ++ l) ∧
        IndexOf Stmt.predicate (l.foldl insert g).pIndex (a ++ l) ∧
        IndexOf Stmt.object (l.foldl insert g).oIndex (a ++ l) := by
    intro l
    induction l with
    | nil => intro a g h1 h2 h3; simpa using ⟨h1, h2, h3⟩
    | cons st l ih =>
      intro a g h1 h2 h3
      simpa using ih (a ++ [st]) (g.insert st) (indexOf_push h1 st) (indexOf_push h2 st) (indexOf_push h3 st)
  exact this sts [] ⟨n, sts, pm.getD defaultMappings, [], [], []⟩ indexOf_nil indexOf_nil indexOf_nil

/-- C100: what the four constructors make. -/
theorem C100_constructors (n : Option GraphName) (sts : List Stmt) (pm : Option PrefixMap) :
    (IndexedGraph.new.isEmpty = true ∧ IndexedGraph.new.name = none) ∧
    ((IndexedGraph.newNamed n).isEmpty = true ∧ (IndexedGraph.newNamed n).name = n) ∧
    ((IndexedGraph.graphFrom sts pm).len = 2 * sts.length ∧ (IndexedGraph.graphFrom sts pm).name = none) ∧
    ((IndexedGraph.namedGraphFrom n sts pm).len = 2 * sts.length ∧ (IndexedGraph.namedGraphFrom n sts pm).name = n) := by
  have hname : ∀ n, (create n sts pm).name = n := fun n => by
    have : ∀ (l : List Stmt) (g : IndexedGraph), (l.foldl insert g).name = g.name := by
      intro l
      induction l with
      | nil => intro g; rfl
      | cons a l ih => intro g; simp only [List.foldl_cons, ih]; rfl
    exact this _ _
  refine ⟨⟨rfl, rfl⟩, ⟨rfl, rfl⟩, ⟨?_, hname none⟩, ⟨?_, hname n⟩⟩
  · simp only [graphFrom, len, (C100_doubled none sts pm).1, List.length_append]; omega
  · simp only [namedGraphFrom, len, (C100_doubled n sts pm).1, List.length_append]; omega

/-- C100 fails for every graph that is made from statements, if there are any. -/
theorem C100_fails_always (n : Option GraphName) (st : Stmt) (sts : List Stmt) (pm : Option PrefixMap) :
    ¬Indexed (create n (st :: sts) pm) := by
  intro h
  obtain ⟨h0, h1, -⟩ := C100_doubled n (st :: sts) pm
  have a := (h.1 st.subject).length_eq
  have b := (h1 st.subject).length_eq
  rw [h0, List.filter_append, List.length_append] at a
  rw [a] at b
  have : 0 < ((st :: sts).filter fun x => x.subject = st.subject).length :=
    List.length_pos_iff.2 fun e => by
      rw [List.filter_eq_nil_iff] at e
      exact e st (by simp) (by simp)
  omega

/-- C100 fails. -/
theorem C100_fails : ¬C100_statement := fun h =>
  C100_fails_always none (.mk (.blank (str! "a")) ⟨str! "http://a/p"⟩ (.blank (str! "b"))) [] none (h _ (.create _ _ _))

/-- An assignment through `statements_mut` leaves the indices behind. -/
theorem C100_fails_assign (n : Option GraphName) (pm : Option PrefixMap) (st st' : Stmt)
    (hs : st.subject ≠ st'.subject) : ¬Indexed (((create n [] pm).insert st).setStatement 0 st') := by
  intro h
  have := (h.1 st.subject).length_eq
  simp [setStatement, IndexedGraph.insert, create, Index.push, Index.get, hs.symm] at this

/-- C100, exactly: after any calls each statement is held by the graph and by its indices as often as
`Spec.tally` says, which starts with twice for the graph and once for the indices, for each time the
statement was given; so the indices hold the statements exactly when both numbers agree. -/
theorem C100_iff (n : Option GraphName) (sts : List Stmt) (pm : Option PrefixMap) (ops : List IndexedOp) :
    Indexed (ops.foldl apply (create n sts pm)) ↔
      ∀ t, (ops.foldl (tally t) (2 * sts.count t, sts.count t)).1 = (ops.foldl (tally t) (2 * sts.count t, sts.count t)).2 := by
  obtain ⟨h, e⟩ := create_under n sts pm
  obtain ⟨l, hl, ht⟩ := run_tally h ops
  rw [indexed_iff hl.1]
  refine forall_congr' fun t => ?_
  have := ht t
  rw [e, List.count_append, ← Nat.two_mul] at this
  rw [← this]

/-- C100: how often a statement is held after any calls. -/
theorem C100_count (n : Option GraphName) (sts : List Stmt) (pm : Option PrefixMap) (ops : List IndexedOp) (t : Stmt) :
    (ops.foldl apply (create n sts pm)).stmts.count t = (ops.foldl (tally t) (2 * sts.count t, sts.count t)).1 ∧
    ((((ops.foldl apply (create n sts pm)).sIndex.get t.subject).getD []).count t = (ops.foldl (tally t) (2 * sts.count t, sts.count t)).2) := by
  obtain ⟨h, e⟩ := create_under n sts pm
  obtain ⟨l, hl, ht⟩ := run_tally h ops
  have := ht t
  rw [e, List.count_append, ← Nat.two_mul] at this
  rw [← this]
  refine ⟨rfl, ?_⟩
  rw [(hl.1.1 t.subject).count_eq, List.count_filter (by simp)]

/-- C100 fails for graphs made from statements as long as no statement is removed by itself and the
graph is not cleared. -/
theorem C100_fails_stays (n : Option GraphName) (st : Stmt) (sts : List Stmt) (pm : Option PrefixMap) (ops : List IndexedOp)
    (h : ∀ op ∈ ops, op ≠ .clear ∧ ∀ x, op ≠ .remove x) : ¬Indexed (ops.foldl apply (create n (st :: sts) pm)) := by
  rw [C100_iff]
  intro hc
  have key : ∀ (ops : List IndexedOp) (c i : Nat), (∀ op ∈ ops, op ≠ .clear ∧ ∀ x, op ≠ .remove x) → i < c →
      (ops.foldl (tally st) (c, i)).2 < (ops.foldl (tally st) (c, i)).1 := by
    intro ops
    induction ops with
    | nil => intro c i _ h; exact h
    | cons op ops ih =>
      intro c i ho hlt
      rw [List.foldl_cons]
      have ho' : ∀ op ∈ ops, op ≠ .clear ∧ ∀ x, op ≠ .remove x := fun op h => ho op (List.mem_cons_of_mem _ h)
      have h0 := ho op List.mem_cons_self
      cases op with
      | clear => exact absurd rfl h0.1
      | remove x => exact absurd rfl (h0.2 x)
      | insert x =>
        by_cases e : x = st
        · simp only [tally, if_pos e]; exact ih _ _ ho' (by omega)
        · simp only [tally, if_neg e]; exact ih _ _ ho' hlt
      | merge k => simp only [tally]; exact ih _ _ ho' (by omega)
      | dedup ord => simp only [tally]; exact ih _ _ ho' (by omega)
      | removeAllFor s =>
        by_cases e : st.subject = s
        · simp only [tally, if_pos e]; exact ih _ _ ho' (by omega)
        · simp only [tally, if_neg e]; exact ih _ _ ho' hlt
      | setName _ => simp only [tally]; exact ih _ _ ho' hlt
      | unsetName => simp only [tally]; exact ih _ _ ho' hlt
      | setMappings _ => simp only [tally]; exact ih _ _ ho' hlt
  have := key ops (2 * (st :: sts).count st) ((st :: sts).count st) h (by rw [List.count_cons_self]; omega)
  have := hc st
  omega

/-- Clearing mends the indices, and so does removing a statement until it is gone. -/
example (n : Option GraphName) (st : Stmt) (pm : Option PrefixMap) :
    Indexed ([.clear].foldl apply (create n [st] pm)) ∧ Indexed ([.remove st, .remove st].foldl apply (create n [st] pm)) ∧
    ¬Indexed ([.remove st].foldl apply (create n [st] pm)) := by
  refine ⟨(C100_iff ..).2 fun t => rfl, (C100_iff ..).2 fun t => ?_, fun h => ?_⟩
  · by_cases e : st = t
    · simp [tally, e]
    · simp [tally, e]
  · have := (C100_iff ..).1 h st
    simp [tally] at this

/-! ### C101 -/

/-- C101, the full statement: the nodes that a graph reports are those of its statements. -/
def C101_statement : Prop :=
  ∀ g, MadeEmpty g →
    (∀ s, g.containsSubject s = true ↔ ∃ st ∈ g.stmts, st.subject = s) ∧
    (∀ s, s ∈ g.subjects ↔ ∃ st ∈ g.stmts, st.subject = s) ∧
    (∀ p, p ∈ g.predicates ↔ ∃ st ∈ g.stmts, st.predicate = p) ∧
    ∀ o, o ∈ g.objects ↔ ∃ st ∈ g.stmts, st.object = o

/-- C101, exactly: the nodes reported are those of the statements that were given or inserted since
the graph was last cleared, removed or not. -/
theorem C101_seen (n : Option GraphName) (sts : List Stmt) (pm : Option PrefixMap) (ops : List IndexedOp) :
    (∀ s, (ops.foldl apply (create n sts pm)).containsSubject s = true ↔ ∃ st ∈ seen ops sts, st.subject = s) ∧
    (∀ s, s ∈ (ops.foldl apply (create n sts pm)).subjects ↔ ∃ st ∈ seen ops sts, st.subject = s) ∧
    (∀ p, p ∈ (ops.foldl apply (create n sts pm)).predicates ↔ ∃ st ∈ seen ops sts, st.predicate = p) ∧
    ∀ o, o ∈ (ops.foldl apply (create n sts pm)).objects ↔ ∃ st ∈ seen ops sts, st.object = o := by
  have h0 := keysOf_foldl_insert (g := ⟨n, sts, pm.getD defaultMappings, [], [], []⟩) (l := [])
    ⟨fun s => by simp [Index.get], fun s => by simp [Index.get], fun s => by simp [Index.get]⟩ sts
  rw [List.nil_append] at h0
  have h := keysOf_run (g := create n sts pm) h0 ops
  exact ⟨h.1, fun s => by rw [subjects, mem_setOf, Index.mem_keys]; exact h.1 s,
    fun s => by rw [predicates, mem_setOf, Index.mem_keys]; exact h.2.1 s,
    fun s => by rw [objects, mem_setOf, Index.mem_keys]; exact h.2.2 s⟩

/-- C101, what holds: no node of the statements is missing.  Missing: the converse, after a
removal. -/
theorem C101_partial (g : IndexedGraph) (h : MadeEmpty g) (st : Stmt) (hst : st ∈ g.stmts) :
    g.containsSubject st.subject = true ∧ st.subject ∈ g.subjects ∧ st.predicate ∈ g.predicates ∧
      st.object ∈ g.objects := by
  have hi := C100_partial g h
  have key : ∀ {κ : Type} [DecidableEq κ] (key : Stmt → κ) (m : Index κ), IndexOf key m g.stmts →
      (m.get (key st)).isSome := by
    intro κ _ key m hm
    have : st ∈ (m.get (key st)).getD [] := (hm (key st)).mem_iff.2 (List.mem_filter.2 ⟨hst, by simp⟩)
    cases hg : m.get (key st) with
    | none => rw [hg] at this; simp at this
    | some v => rfl
  exact ⟨key _ _ hi.1, mem_setOf.2 (Index.mem_keys.2 (key _ _ hi.1)),
    mem_setOf.2 (Index.mem_keys.2 (key _ _ hi.2.1)), mem_setOf.2 (Index.mem_keys.2 (key _ _ hi.2.2))⟩

/-- C101 fails: the nodes of a statement that was removed are still reported. -/
theorem C101_fails : ¬C101_statement := by
  intro h
  let st : Stmt := .mk (.blank (str! "a")) ⟨str! "http://a/p"⟩ (.blank (str! "b"))
  have := (h ((((create none [] none).apply (.insert st)).apply (.remove st)))
    (.step _ (.step _ (.create _ _)))).1 (.blank (str! "a"))
  obtain ⟨x, hx, -⟩ := this.1 (by decide +kernel)
  have : (((create none [] none).apply (.insert st)).apply (.remove st)).stmts = [] := by decide +kernel
  rw [this] at hx
  cases hx

/-! ### C102 -/

/-- C102, the full statement: a pattern finds the statements that agree with it where it is given. -/
def C102_statement : Prop :=
  ∀ g, MadeEmpty g → ∀ (s : Option Subject) (p : Option Iri) (o : Option Object) (st : Stmt),
    st ∈ g.matches s p o ↔ st ∈ g.stmts ∧ (∀ x, s = some x → st.subject = x) ∧
      (∀ x, p = some x → st.predicate = x) ∧ ∀ x, o = some x → st.object = x

/-- C102 for patterns that give all three parts; each statement is found once. -/
theorem C102_partial (g : IndexedGraph) (h : MadeEmpty g) (s : Subject) (p : Iri) (o : Object) :
    (g.matches (some s) (some p) (some o)).Nodup ∧
    ∀ st, st ∈ g.matches (some s) (some p) (some o) ↔
      st ∈ g.stmts ∧ st.subject = s ∧ st.predicate = p ∧ st.object = o := by
  have hi := C100_partial g h
  have key : ∀ {κ : Type} [DecidableEq κ] (key : Stmt → κ) (m : Index κ) (k : κ), IndexOf key m g.stmts →
      ∀ st, st ∈ m.select (some k) ↔ st ∈ g.stmts ∧ key st = k := by
    intro κ _ key m k hm st
    rw [Index.select, mem_setOf, (hm k).mem_iff, List.mem_filter, decide_eq_true_eq]
  refine ⟨((setOf_nodup _).filter _).filter _, fun st => ?_⟩
  simp only [«matches», List.mem_filter, decide_eq_true_eq, key _ _ _ hi.1, key _ _ _ hi.2.1, key _ _ _ hi.2.2]
  grind

/-- A pattern that leaves out a part finds nothing. -/
theorem C102_wildcard (g : IndexedGraph) (s : Option Subject) (p : Option Iri) (o : Option Object)
    (h : s = none ∨ p = none ∨ o = none) : g.matches s p o = [] := by
  rcases h with rfl | rfl | rfl
  · rfl
  · simp [«matches», Index.select]
  · simp [«matches», Index.select]

/-- C102 fails for the pattern that leaves out everything. -/
theorem C102_fails : ¬C102_statement := by
  intro h
  let st : Stmt := .mk (.blank (str! "a")) ⟨str! "http://a/p"⟩ (.blank (str! "b"))
  have := (h ((create none [] none).apply (.insert st)) (.step _ (.create _ _)) none none none st).2
    ⟨by simp [apply, IndexedGraph.insert], by simp, by simp, by simp⟩
  rw [C102_wildcard _ _ _ _ (.inl rfl)] at this
  cases this

/-- C102 for graphs made from statements: a pattern that gives all three parts finds a statement just
when the indices still hold it. -/
theorem C102_made (n : Option GraphName) (sts : List Stmt) (pm : Option PrefixMap) (ops : List IndexedOp) (s : Subject)
    (p : Iri) (o : Object) (st : Stmt) :
    st ∈ (ops.foldl apply (create n sts pm)).matches (some s) (some p) (some o) ↔
      st = .mk s p o ∧ 0 < (ops.foldl (tally st) (2 * sts.count st, sts.count st)).2 := by
  obtain ⟨h, e⟩ := create_under n sts pm
  obtain ⟨l, hl, ht⟩ := run_tally h ops
  have hc := ht st
  rw [e, List.count_append, ← Nat.two_mul] at hc
  rw [← hc, List.count_pos_iff]
  have key : ∀ {κ : Type} [DecidableEq κ] (key : Stmt → κ) (m : Index κ) (k : κ), IndexOf key m l →
      ∀ st, st ∈ m.select (some k) ↔ st ∈ l ∧ key st = k := by
    intro κ _ key m k hm st
    rw [Index.select, mem_setOf, (hm k).mem_iff, List.mem_filter, decide_eq_true_eq]
  simp only [«matches», List.mem_filter, decide_eq_true_eq, key _ _ _ hl.1.1, key _ _ _ hl.1.2.1, key _ _ _ hl.1.2.2]
  cases st
  simp only [Stmt.subject, Stmt.predicate, Stmt.object, Stmt.mk.injEq]
  grind

/-- C102 fails for every graph made from statements once its duplicates are removed: no pattern
finds anything, and all the statements are there. -/
theorem C102_fails_dedup (n : Option GraphName) (sts : List Stmt) (pm : Option PrefixMap) (ord : VisitOrder) (s : Option Subject)
    (p : Option Iri) (o : Option Object) : ((create n sts pm).apply (.dedup ord)).matches s p o = [] ∧
      ∀ st, st ∈ ((create n sts pm).apply (.dedup ord)).stmts ↔ st ∈ sts := by
  constructor
  · by_cases h : s = none ∨ p = none ∨ o = none
    · exact C102_wildcard _ _ _ _ h
    · cases s <;> cases p <;> cases o <;> simp at h
      rename_i s p o
      apply List.eq_nil_iff_forall_not_mem.2
      intro st hst
      have := ((C102_made n sts pm [.dedup ord] s p o st).1 hst).2
      simp only [List.foldl_cons, List.foldl_nil, tally] at this
      omega
  · intro st
    have := (C100_count n sts pm [.dedup ord] st).1
    simp only [List.foldl_cons, List.foldl_nil, tally] at this
    rw [← List.count_pos_iff, this, ← List.count_pos_iff]
    omega

/-- C102, exactly: a pattern finds the statements that agree with it when it gives all three parts, or when no
statement agrees with it. -/
theorem C102_iff (g : IndexedGraph) (h : MadeEmpty g) (s : Option Subject) (p : Option Iri) (o : Option Object) :
    (∀ st, st ∈ g.matches s p o ↔ st ∈ g.stmts ∧ (∀ x, s = some x → st.subject = x) ∧
      (∀ x, p = some x → st.predicate = x) ∧ ∀ x, o = some x → st.object = x) ↔
    (s.isSome = true ∧ p.isSome = true ∧ o.isSome = true) ∨
      ∀ st ∈ g.stmts, ¬((∀ x, s = some x → st.subject = x) ∧ (∀ x, p = some x → st.predicate = x) ∧ ∀ x, o = some x → st.object = x) := by
  constructor
  · intro h1
    by_cases h2 : s = none ∨ p = none ∨ o = none
    · refine .inr fun st hst h3 => ?_
      have := (h1 st).2 ⟨hst, h3⟩
      rw [C102_wildcard g s p o h2] at this
      cases this
    · refine .inl ?_
      cases s <;> cases p <;> cases o <;> simp at h2 ⊢
  · rintro (⟨h1, h2, h3⟩ | h1) st
    · obtain ⟨s, rfl⟩ := Option.isSome_iff_exists.1 h1
      obtain ⟨p, rfl⟩ := Option.isSome_iff_exists.1 h2
      obtain ⟨o, rfl⟩ := Option.isSome_iff_exists.1 h3
      rw [(C102_partial g h s p o).2 st]
      simp only [Option.some.injEq]
      grind
    · constructor
      · intro h2
        by_cases h3 : s = none ∨ p = none ∨ o = none
        · rw [C102_wildcard g s p o h3] at h2
          cases h2
        · cases s <;> cases p <;> cases o <;> simp at h3
          rename_i s p o
          have := ((C102_partial g h s p o).2 st).1 h2
          simp only [Option.some.injEq]
          grind
      · rintro ⟨h2, h3⟩
        exact absurd h3 (h1 st h2)

/-- The predicates reported for a subject are those of its statements; objects are never reported. -/
theorem C102_for (g : IndexedGraph) (h : MadeEmpty g) (s : Subject) :
    (g.predicatesFor s).Nodup ∧ (∀ p, p ∈ g.predicatesFor s ↔ ∃ st ∈ g.stmts, st.subject = s ∧ st.predicate = p) ∧
    ∀ p, g.objectsFor s p = [] := by
  have hi := (C100_partial g h).1 s
  refine ⟨setOf_nodup _, fun p => ?_, fun p => ?_⟩
  · rw [predicatesFor, mem_setOf, List.mem_map]
    constructor
    · rintro ⟨st, hst, e⟩
      have := List.mem_filter.1 (hi.mem_iff.1 hst)
      exact ⟨st, this.1, by simpa using this.2, e⟩
    · rintro ⟨st, hst, hs, e⟩
      exact ⟨st, hi.mem_iff.2 (List.mem_filter.2 ⟨hst, by simpa using hs⟩), e⟩
  · rw [objectsFor, C102_wildcard _ _ _ _ (.inr (.inr rfl))]
    rfl

/-! ### C103 -/

/-- C103: inserting, removing one statement, merging and clearing, by the number of times each statement is
held. -/
theorem C103_counts (g h : IndexedGraph) (st t : Stmt) :
    (g.insert st).stmts.count t = g.stmts.count t + (if st = t then 1 else 0) ∧
    (g.remove st).stmts.count t = g.stmts.count t - (if st = t then 1 else 0) ∧
    (g.merge h).stmts.count t = g.stmts.count t + h.stmts.count t ∧ g.clear.stmts.count t = 0 := by
  refine ⟨?_, ?_, ?_, rfl⟩
  · simp [IndexedGraph.insert, List.count_cons, beq_iff_eq]
  · rw [stmts_remove, List.count_erase]
    simp [beq_iff_eq]
  · rw [merge, stmts_foldl_insert, List.count_append]

/-- C103: removing duplicates keeps one of each statement and returns the others. -/
theorem C103_dedup (g : IndexedGraph) (h : MadeEmpty g) (ord : VisitOrder) :
    (g.dedup ord.run).1.stmts.Nodup ∧ (∀ t, t ∈ (g.dedup ord.run).1.stmts ↔ t ∈ g.stmts) ∧
    ∀ t, (g.dedup ord.run).1.stmts.count t + (g.dedup ord.run).2.count t = g.stmts.count t := by
  obtain ⟨h1, -, h3⟩ := dedup_spec (C100_partial g h) ord
  rw [h1]
  refine ⟨(ord.perm _).nodup_iff.2 (setOf_nodup _), fun t => by rw [(ord.perm _).mem_iff, mem_setOf], fun t => ?_⟩
  rw [(ord.perm _).count_eq]
  exact h3 t

/-- C103: removing all statements for a subject keeps the others in their order, and returns those it
removed. -/
theorem C103_removeAllFor (g : IndexedGraph) (h : MadeEmpty g) (s : Subject) :
    (g.removeAllFor s).1.stmts = g.stmts.filter (fun st => st.subject ≠ s) ∧
    (g.removeAllFor s).2.Perm (g.stmts.filter fun st => st.subject = s) :=
  have := removeAllFor_spec (C100_partial g h) s
  ⟨this.1, this.2.2⟩

/-- C103: no call but those on the name and the mappings changes these, and these calls change no
statement. -/
theorem C103_other (g : IndexedGraph) (n : GraphName) (m : PrefixMap) :
    (g.setName n).stmts = g.stmts ∧ (g.setName n).name = some n ∧ (g.unsetName).name = none ∧
    (g.unsetName).stmts = g.stmts ∧ (g.setMappings m).stmts = g.stmts ∧ (g.setMappings m).mappings = m := by
  simp [setName, unsetName, setMappings]

/-- C103: replacing a statement changes the statement at this place and no other, and neither the index, the name nor the mappings. -/
theorem C103_set (g : IndexedGraph) (i : Nat) (st : Stmt) :
    (g.setStatement i st).stmts.length = g.stmts.length ∧
    (∀ j, (g.setStatement i st).stmts[j]? = if i = j ∧ j < g.stmts.length then some st else g.stmts[j]?) ∧
    { g.setStatement i st with stmts := g.stmts } = g := by
  refine ⟨by simp [setStatement], fun j => ?_, rfl⟩
  simp only [setStatement, List.getElem?_set]
  by_cases h : i = j
  · subst h
    by_cases h2 : i < g.stmts.length
    · simp [h2]
    · simp [h2]
  · simp [h]

example : ∃ g, MadeEmpty g ∧ g.len = 2 :=
  ⟨_, .step (.insert (.mk (.blank (str! "a")) ⟨str! "http://a/p"⟩ (.blank (str! "b"))))
    (.step (.insert (.mk (.blank (str! "a")) ⟨str! "http://a/p"⟩ (.blank (str! "b")))) (.create none none)), rfl⟩

end Rdftk
