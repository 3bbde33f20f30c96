import Verif.Spec.TurtleDepth
import Verif.Props.TurtlePanic

/-! C202: how deep the calls of the Turtle writer are nested. -/

namespace Rdftk

open Spec

/-- **C202**, in full: there is a depth of calls that is enough for every graph whose parts can be printed and whose blank nodes start no
endless chain. -/
def C202_statement : Prop :=
  ∃ n, ∀ env : TurtleEnv, env.orders.Fair → GraphPrints env → 0 < env.opts.width → NoEndlessChain env.graph →
    ∃ x, writeTriples env n 0 = .ok x

theorem nests_writes {env : TurtleEnv} (hfair : env.orders.Fair) (hg : GraphPrints env) {n : Nat} {o : Object}
    (h : NestsWithin env.opts.nest env.graph n o) (hp : Printable env o) : Writes (writeObject env n) o := by
  induction n generalizing o with
  | zero => exact h.elim
  | succ n ih =>
    intro w f d hw
    cases o with
    | blank b =>
      simp only [writeObject, writeObjectStep]
      by_cases hn : env.opts.nest
      · by_cases hs : env.graph.containsSubject (.blank b)
        · simp only [hn, hs, if_true]
          exact writeProperties_ex hfair hg (fun p o hm => ih (h hn p o hm) (hg.2 _ p o hm).2.2) hs hw
        · simp [hn, hs, Step.text]
      · simp [hn, Step.text]
    | res i => cases hp with | res _ hi => obtain ⟨s, hs⟩ := hi; exact ⟨s, by simp [writeObject, writeObjectStep, Step.run, hs]⟩
    | lit l => cases hp with | lit _ hi => obtain ⟨s, hs⟩ := hi; exact ⟨s, by simp [writeObject, writeObjectStep, Step.run, hs]⟩
    | coll c => cases hp with | coll _ hc => exact writeCollection_ex (fun o ho => ih (h o ho) (hc o ho)) hw
    | stmt t => cases hp

theorem wrote_nests {env : TurtleEnv} (hfair : env.orders.Fair) {n : Nat} {o : Object} (h : Wrote (writeObject env n) o) :
    NestsWithin env.opts.nest env.graph n o := by
  induction n generalizing o with
  | zero => obtain ⟨_, _, _, _, h⟩ := h; simp [writeObject] at h
  | succ n ih =>
    cases o with
    | blank b => exact fun hn p o hm => ih (wrote_properties hfair hn (containsSubject_iff.2 ⟨p, o, hm⟩) h p o hm)
    | res i => trivial
    | lit l => trivial
    | coll c =>
      obtain ⟨w, f, d, r, h⟩ := h
      exact fun o ho => ih (writeCollection_wrote h o ho)
    | stmt t => trivial

/-- Exactly: the depth is enough if and only if no object has more levels. -/
theorem C202_iff (env : TurtleEnv) (hfair : env.orders.Fair) (hg : GraphPrints env) (hw : 0 < env.opts.width) (n : Nat) :
    (∃ x, writeTriples env n 0 = .ok x) ↔ ∀ s p o, Stmt.mk s p o ∈ env.graph.stmts → NestsWithin env.opts.nest env.graph n o := by
  constructor
  · rintro ⟨x, h⟩ s p o hm
    obtain ⟨d, y, hb⟩ := writeTriples_block hfair h (containsSubject_iff.2 ⟨p, o, hm⟩)
    exact wrote_nests hfair ((writeBlock_wrote hfair hb).2 p o hm)
  · intro h
    have hb : ∀ s, env.graph.containsSubject s → ∀ d, ∃ t, writeBlock env n env.opts.width s d = .ok (t, d) :=
      fun s hs d => writeBlock_ex hfair hg hw (fun s p o hm => nests_writes hfair hg (h s p o hm) (hg.2 s p o hm).2.2) hs d
    obtain ⟨t, e, h2⟩ := writeBlanks_ex (d := 0) (l := env.orders.subj env.graph.blankSubjects)
      (fun s hs d => hb s (mem_blankSubjects.1 ((hfair.1 _).mem_iff.1 hs)).1 d)
    obtain ⟨t', h⟩ := Step.andThen_ex (writeNodes_ex (d := 0) (l := sortedSubjects env.graph)
      (fun s hs d => hb s (mem_nodeSubjects.1 ((sortBy_perm _ _).mem_iff.1 hs)).1 d)) ⟨t, h2⟩
    exact ⟨_, h⟩

theorem prints_asks {env : TurtleEnv} (hg : GraphPrints env) {r : Run Str} (hr : GraphAsks env r) : ∃ s, r = .ok s := by
  have hpr : ∀ {o : Object} {r : Run Str}, ObjectAsks env o r → Printable env o → ∃ s, r = .ok s := by
    intro o r hr
    induction hr with
    | res i => intro h; cases h with | res _ h => exact h
    | lit l => intro h; cases h with | lit _ h => exact h
    | member c o r hm _ ih => intro h; cases h with | coll _ h => exact ih (h o hm)
    | stmt t => intro h; cases h
  cases hr with
  | type => exact hg.1
  | subject s p o _ hm hr =>
    have := (hg.2 s p o hm).1
    cases hr with
    | res i => exact this
    | stmt t => exact this.elim
  | predicate s p o hm => exact (hg.2 s p o hm).2.1
  | object s p o _ hm hr => exact hpr hr (hg.2 s p o hm).2.2

/-- If some object has more levels, the writer goes deeper; it does not end in another way before. -/
theorem C202_deeper (env : TurtleEnv) (hfair : env.orders.Fair) (hg : GraphPrints env) (hw : 0 < env.opts.width) (n : Nat) (s : Subject) (p : Iri)
    (o : Object) (hm : Stmt.mk s p o ∈ env.graph.stmts) (h : ¬ NestsWithin env.opts.nest env.graph n o) : writeTriples env n 0 = .deep := by
  cases e : writeTriples env n 0 with
  | ok x => exact absurd ((C202_iff env hfair hg hw n).1 ⟨x, e⟩ s p o hm) h
  | err => obtain ⟨s, hs⟩ := prints_asks hg (C175_error env hfair hw n 0 e); cases hs
  | panic =>
    rcases C175_panic env hfair hw n 0 e with h1 | ⟨-, s, p, o, q, o', h1, -, -, -, h2⟩
    · obtain ⟨s, hs⟩ := prints_asks hg h1; cases hs
    · obtain ⟨s, hs⟩ := (hg.2 s p o h1).2.1; rw [h2] at hs; cases hs
  | deep => rfl

/-! ### How many levels there can be -/

theorem Spec.NestsWithin.mono {nest : Bool} {g : Graph} {n m : Nat} {o : Object} (h : NestsWithin nest g n o) (hm : n ≤ m) : NestsWithin nest g m o := by
  induction n generalizing m o with
  | zero => exact h.elim
  | succ n ih =>
    obtain ⟨k, rfl⟩ : ∃ k, m = k + 1 := ⟨m - 1, by omega⟩
    cases o with
    | blank b => exact fun hn p o h1 => ih (h hn p o h1) (by omega)
    | coll c => exact fun o ho => ih (h o ho) (by omega)
    | res | lit | stmt => trivial

/-- Levels of an object from those of the blank nodes in it. -/
theorem nests_of_blanks {nest : Bool} {g : Graph} {d k : Nat} {o : Object} (hd : ListsWithin d o) (hb : ∀ b, HasBlank o b → NestsWithin nest g (k + 1) (.blank b)) :
    NestsWithin nest g (d + (k + 1)) o := by
  induction d generalizing o with
  | zero =>
    rw [Nat.zero_add]
    cases o with
    | blank b => exact hb b (.self b)
    | coll c => exact hd.elim
    | res | lit | stmt => trivial
  | succ d ih =>
    cases o with
    | blank b => exact Spec.NestsWithin.mono (hb b (.self b)) (by omega)
    | coll c =>
      rw [show d + 1 + (k + 1) = d + (k + 1) + 1 by omega]
      exact fun o ho => ih (hd o ho) fun b h => hb b (.member c o b ho h)
    | res | lit | stmt => rw [show d + 1 + (k + 1) = d + (k + 1) + 1 by omega]; trivial

theorem acc_not_reaches {α : Type _} {r : α → α → Prop} {a : α} (h : Acc r a) : ¬ Relation.TransGen r a a := by
  have := h.transGen
  intro hr
  exact not_acc_self hr this

theorem nests_chain {nest : Bool} {g : Graph} {d : Nat} (hc : NoEndlessChain g) (hd : ∀ s p o, Stmt.mk s p o ∈ g.stmts → ListsWithin d o) (k : Nat)
    (b : Str) (seen : List Str) (hn : seen.Nodup) (hs : ∀ c ∈ seen, Subject.blank c ∈ g.blankSubjects ∧ Relation.TransGen (Points g) b c)
    (hk : g.blankSubjects.length ≤ seen.length + k) : NestsWithin nest g (k * (d + 1) + 1) (.blank b) := by
  have hfresh : b ∉ seen := fun hb => acc_not_reaches (hc b) (hs b hb).2
  induction k generalizing b seen with
  | zero =>
    rw [Nat.zero_mul]
    intro _ p o hm
    have hb : Subject.blank b ∈ g.blankSubjects := mem_blankSubjects.2 ⟨containsSubject_iff.2 ⟨p, o, hm⟩, rfl⟩
    have h1 : ((b :: seen).map Subject.blank).Nodup := (List.nodup_cons.2 ⟨hfresh, hn⟩).map fun a b h => by cases h; rfl
    have h2 : (b :: seen).map Subject.blank ⊆ g.blankSubjects := by
      intro s hs'
      obtain ⟨c, hc', rfl⟩ := List.mem_map.1 hs'
      rcases List.mem_cons.1 hc' with rfl | hc'
      · exact hb
      · exact (hs c hc').1
    have := (List.subperm_of_subset h1 h2).length_le
    rw [List.length_map, List.length_cons] at this
    omega
  | succ k ih =>
    intro _ p o hm
    have hb : Subject.blank b ∈ g.blankSubjects := mem_blankSubjects.2 ⟨containsSubject_iff.2 ⟨p, o, hm⟩, rfl⟩
    have := nests_of_blanks (nest := nest) (g := g) (k := k * (d + 1)) (hd _ p o hm) fun c hcb => by
      by_cases hcs : g.containsSubject (.blank c)
      · have hpt : Points g c b := ⟨⟨p, o, hm, hcb⟩, containsSubject_iff.1 hcs⟩
        have hs' : ∀ a ∈ b :: seen, Subject.blank a ∈ g.blankSubjects ∧ Relation.TransGen (Points g) c a := by
          intro a ha
          rcases List.mem_cons.1 ha with rfl | ha
          · exact ⟨hb, .single hpt⟩
          · exact ⟨(hs a ha).1, .head hpt (hs a ha).2⟩
        exact ih c (b :: seen) (List.nodup_cons.2 ⟨hfresh, hn⟩) hs' (by rw [List.length_cons]; omega)
          fun hb => acc_not_reaches (hc c) (hs' c hb).2
      · exact fun _ p o hm => absurd (containsSubject_iff.2 ⟨p, o, hm⟩) hcs
    exact this.mono (by rw [Nat.succ_mul]; omega)

/-- The number of blank nodes that are described bounds the depth, with the depth of collections. -/
theorem C202_bound (env : TurtleEnv) (hfair : env.orders.Fair) (hg : GraphPrints env) (hw : 0 < env.opts.width) (hc : NoEndlessChain env.graph)
    (d : Nat) (hd : ∀ s p o, Stmt.mk s p o ∈ env.graph.stmts → ListsWithin d o) (m : Nat)
    (hm : (env.graph.blankSubjects.length + 1) * (d + 1) ≤ m) : ∃ x, writeTriples env m 0 = .ok x := by
  rw [C202_iff env hfair hg hw]
  intro s p o ho
  refine (nests_of_blanks (k := env.graph.blankSubjects.length * (d + 1)) (hd s p o ho) fun b _ =>
    nests_chain hc hd _ b [] List.nodup_nil (by simp) (by simp)).mono ?_
  rw [Nat.succ_mul] at hm
  omega

/-- Without nested blank nodes and collections one level is enough for every graph. -/
theorem C202_flat (env : TurtleEnv) (hfair : env.orders.Fair) (hg : GraphPrints env) (hw : 0 < env.opts.width) (hn : env.opts.nest = false)
    (hd : ∀ s p o, Stmt.mk s p o ∈ env.graph.stmts → ListsWithin 0 o) : ∃ x, writeTriples env 1 0 = .ok x := by
  rw [C202_iff env hfair hg hw]
  intro s p o ho
  exact nests_of_blanks (d := 0) (k := 0) (hd s p o ho) fun b _ h => by rw [hn] at h; cases h

/-! ### No depth is enough -/

/-- The blank nodes of a chain. -/
def chainNode (i : Nat) : Str := List.replicate i 'b'

/-- A chain of `n` statements, each about the object of the one before. -/
def chainGraph (n : Nat) : Graph :=
  (Graph.fromIter ((List.range n).map fun i => .mk (.blank (chainNode i)) ⟨str! "http://a/p"⟩ (.blank (chainNode (i + 1))))).withMappings PrefixMap.empty

theorem mem_chain {n : Nat} {s : Subject} {p : Iri} {o : Object} :
    Stmt.mk s p o ∈ (chainGraph n).stmts ↔ ∃ i < n, s = .blank (chainNode i) ∧ p = ⟨str! "http://a/p"⟩ ∧ o = .blank (chainNode (i + 1)) := by
  change Stmt.mk s p o ∈ (List.range n).map _ ↔ _
  simp only [List.mem_map, List.mem_range, Stmt.mk.injEq]
  constructor
  · rintro ⟨i, h, rfl, rfl, rfl⟩; exact ⟨i, h, rfl, rfl, rfl⟩
  · rintro ⟨i, h, rfl, rfl, rfl⟩; exact ⟨i, h, rfl, rfl, rfl⟩

theorem chainNode_inj {i j : Nat} (h : chainNode i = chainNode j) : i = j := by
  have := congrArg List.length h
  simpa [chainNode] using this

theorem chain_iri (n : Nat) (i : Iri) : compressIri (easyTurtle .bare TurtleOptions.default (chainGraph n)) i =
    compressIri (easyTurtle .bare TurtleOptions.default noPrefixes) i := rfl

theorem chain_prints (n : Nat) : GraphPrints (easyTurtle .bare TurtleOptions.default (chainGraph n)) := by
  refine ⟨⟨str! "<http://www.w3.org/1999/02/22-rdf-syntax-ns#type>", by rw [chain_iri]; decide +kernel⟩, fun s p o hm => ?_⟩
  obtain ⟨i, -, rfl, rfl, rfl⟩ := mem_chain.1 hm
  exact ⟨trivial, ⟨str! "<http://a/p>", by rw [chain_iri]; decide +kernel⟩, .blank _⟩

theorem chain_nests {n k i : Nat} (hi : i ≤ n) : NestsWithin true (chainGraph n) k (.blank (chainNode i)) ↔ n < k + i := by
  induction k generalizing i with
  | zero => exact ⟨False.elim, fun h => by omega⟩
  | succ k ih =>
    constructor
    · intro h
      by_cases hn : i = n
      · omega
      · have := (ih (i := i + 1) (by omega)).1 (h rfl _ _ (mem_chain.2 ⟨i, by omega, rfl, rfl, rfl⟩))
        omega
    · intro h _ p o hm
      obtain ⟨j, hj, h1, -, rfl⟩ := mem_chain.1 hm
      obtain rfl := chainNode_inj (Subject.blank.inj h1)
      exact (ih (by omega)).2 (by omega)

theorem chain_ends (n : Nat) : NoEndlessChain (chainGraph n) := by
  have h : ∀ k b, (∀ i, b = chainNode i → n < i + k) → Acc (Points (chainGraph n)) b := by
    intro k
    induction k with
    | zero =>
      intro b hb
      refine ⟨_, fun c hc => ?_⟩
      obtain ⟨⟨p, o, hm, -⟩, -⟩ := hc
      obtain ⟨i, hi, h1, -⟩ := mem_chain.1 hm
      have := hb i (Subject.blank.inj h1)
      omega
    | succ k ih =>
      intro b hb
      refine ⟨_, fun c hc => ih c fun j hj => ?_⟩
      obtain ⟨⟨p, o, hm, hbl⟩, -⟩ := hc
      obtain ⟨i, hi, h1, -, rfl⟩ := mem_chain.1 hm
      have := hb i (Subject.blank.inj h1)
      cases hbl
      have := chainNode_inj hj
      omega
  exact fun b => h (n + 1) b fun i _ => by omega

/-- A chain of `n + 1` blank nodes needs `n + 1` levels, not fewer. -/
theorem C202_chain (n m : Nat) :
    (∃ x, writeTriples (easyTurtle .bare TurtleOptions.default (chainGraph (n + 1))) m 0 = .ok x) ↔ n + 1 ≤ m := by
  rw [C202_iff _ sameOrder_fair (chain_prints _) (show 0 < TurtleOptions.default.width by decide)]
  constructor
  · intro h
    have := (chain_nests (n := n + 1) (i := 1) (by omega)).1 (h _ _ _ (mem_chain.2 ⟨0, by omega, rfl, rfl, rfl⟩))
    omega
  · intro h s p o hm
    obtain ⟨i, hi, rfl, rfl, rfl⟩ := mem_chain.1 hm
    exact (chain_nests (by omega)).2 (by omega)

/-- No depth is enough for every graph. -/
theorem C202_fails : ¬ C202_statement := by
  rintro ⟨n, h⟩
  have := (C202_chain n n).1 (h _ sameOrder_fair (chain_prints _) (show 0 < TurtleOptions.default.width by decide) (chain_ends _))
  omega

end Rdftk
