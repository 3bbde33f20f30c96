import Verif.Lemmas.Turtle
import Verif.Spec.TurtleEnd

/-! When the recursion of the Turtle writer ends. -/

namespace Rdftk
open Spec

/-! ### Success -/

/-- Deep enough for the object. -/
def Enough (env : TurtleEnv) (o : Object) : Prop := ∃ n, ∀ m, n ≤ m → Writes (writeObject env m) o

theorem enough_all {env : TurtleEnv} {l : List Object} (h : ∀ o ∈ l, Enough env o) :
    ∃ n, ∀ m, n ≤ m → ∀ o ∈ l, Writes (writeObject env m) o := by
  induction l with
  | nil => exact ⟨0, by simp⟩
  | cons a l ih =>
    obtain ⟨n, hn⟩ := h a (by simp)
    obtain ⟨k, hk⟩ := ih fun o ho => h o (by simp [ho])
    refine ⟨max n k, fun m hm o ho => ?_⟩
    rcases List.mem_cons.1 ho with rfl | ho
    · exact hn m (by omega)
    · exact hk m (by omega) o ho

theorem enough_of_blanks {env : TurtleEnv} {o : Object} (hp : Printable env o)
    (hb : ∀ b, HasBlank o b → Enough env (.blank b)) : Enough env o := by
  induction hp with
  | blank b => exact hb b (.self b)
  | res i h =>
    obtain ⟨s, hs⟩ := h
    refine ⟨1, fun m hm w f d _ => ?_⟩
    obtain ⟨k, rfl⟩ : ∃ k, m = k + 1 := ⟨m - 1, by omega⟩
    exact ⟨s, by simp [writeObject, writeObjectStep, Step.run, hs]⟩
  | lit l h =>
    obtain ⟨s, hs⟩ := h
    refine ⟨1, fun m hm w f d _ => ?_⟩
    obtain ⟨k, rfl⟩ : ∃ k, m = k + 1 := ⟨m - 1, by omega⟩
    exact ⟨s, by simp [writeObject, writeObjectStep, Step.run, hs]⟩
  | coll c _ ih =>
    obtain ⟨n, hn⟩ := enough_all fun o ho => ih o ho fun b h => hb b (.member c o b ho h)
    refine ⟨n + 1, fun m hm w f d hw => ?_⟩
    obtain ⟨k, rfl⟩ : ∃ k, m = k + 1 := ⟨m - 1, by omega⟩
    exact writeCollection_ex (hn k (by omega)) hw

theorem writeProperties_ex {env : TurtleEnv} {wo : Nat → TurtleFlags → Object → Step} {w d : Nat}
    {b : Str} {f : TurtleFlags} (hfair : env.orders.Fair) (hg : GraphPrints env)
    (h : ∀ p o, Stmt.mk (.blank b) p o ∈ env.graph.stmts → Writes wo o)
    (hs : env.graph.containsSubject (.blank b)) (hw : 0 < w) :
    ∃ t, writeProperties env wo w f b d = .ok (t, d) := by
  have := writePredicates_ex (f := f) (d := d + w) hfair hg.1
    (fun p o hm => ⟨(hg.2 _ p o hm).2.1, h p o hm⟩) hs hw (by omega)
  rw [Nat.add_sub_cancel] at this
  exact Step.andThen_ex (Step.andThen_ex (Step.andThen_ex (Step.andThen_ex (d₁ := d + w) ⟨_, rfl⟩ ⟨_, rfl⟩)
    this) ⟨_, rfl⟩) ⟨_, rfl⟩

theorem enough_undescribed {env : TurtleEnv} {b : Str}
    (hs : env.opts.nest = true → env.graph.containsSubject (.blank b) = false) :
    Enough env (.blank b) := by
  refine ⟨1, fun m hm w f d _ => ?_⟩
  obtain ⟨k, rfl⟩ : ∃ k, m = k + 1 := ⟨m - 1, by omega⟩
  by_cases hn : env.opts.nest
  · simp [writeObject, writeObjectStep, hn, hs hn, Step.text]
  · simp [writeObject, writeObjectStep, hn, Step.text]

theorem enough_blank {env : TurtleEnv} (hfair : env.orders.Fair) (hg : GraphPrints env) {b : Str}
    (ha : Acc (Points env.graph) b) : Enough env (.blank b) := by
  induction ha with
  | intro b _ ih =>
    by_cases hs : env.graph.containsSubject (.blank b)
    swap
    · exact enough_undescribed fun _ => by simpa using hs
    by_cases hn : env.opts.nest
    swap
    · exact enough_undescribed fun h => absurd h hn
    have h1 : ∀ t ∈ env.graph.stmts.filter (fun t : Stmt => t.subject == .blank b),
        Enough env t.object := by
      rintro ⟨s, p, o⟩ ht
      simp [Stmt.subject] at ht
      obtain ⟨ht, rfl⟩ := ht
      refine enough_of_blanks (hg.2 _ p o ht).2.2 fun c hc => ?_
      by_cases hcs : env.graph.containsSubject (.blank c)
      · exact ih c ⟨⟨p, o, ht, hc⟩, containsSubject_iff.1 hcs⟩
      · exact enough_undescribed fun _ => by simpa using hcs
    obtain ⟨n, hn'⟩ := enough_all (env := env)
      (l := (env.graph.stmts.filter (fun t : Stmt => t.subject == .blank b)).map Stmt.object)
      (fun o ho => by
        obtain ⟨t, ht, rfl⟩ := List.mem_map.1 ho
        exact h1 t ht)
    refine ⟨n + 1, fun m hm w f d hw => ?_⟩
    obtain ⟨k, rfl⟩ : ∃ k, m = k + 1 := ⟨m - 1, by omega⟩
    simp only [writeObject, writeObjectStep, hn, hs, if_true]
    exact writeProperties_ex hfair hg (fun p o hm' => hn' k (by omega) o
      (List.mem_map.2 ⟨_, List.mem_filter.2 ⟨hm', by simp [Stmt.subject]⟩, rfl⟩)) hs hw

theorem enough_graph {env : TurtleEnv} (hfair : env.orders.Fair) (hg : GraphPrints env)
    (ha : env.opts.nest = true → NoEndlessChain env.graph) :
    ∃ n, ∀ m, n ≤ m → ∀ s p o, Stmt.mk s p o ∈ env.graph.stmts → Writes (writeObject env m) o := by
  have h1 : ∀ t ∈ env.graph.stmts, Enough env t.object := by
    rintro ⟨s, p, o⟩ ht
    refine enough_of_blanks (hg.2 _ p o ht).2.2 fun c hc => ?_
    by_cases hn : env.opts.nest
    · exact enough_blank hfair hg (ha hn c)
    · exact enough_undescribed fun h => absurd h hn
  obtain ⟨n, h⟩ := enough_all (env := env) (l := env.graph.stmts.map Stmt.object) (fun o ho => by
    obtain ⟨t, ht, rfl⟩ := List.mem_map.1 ho
    exact h1 t ht)
  exact ⟨n, fun m hm s p o ho => h m hm o (List.mem_map.2 ⟨_, ho, rfl⟩)⟩

theorem writeBlock_ex {env : TurtleEnv} (hfair : env.orders.Fair) (hg : GraphPrints env) {n w : Nat}
    (hw : 0 < w) (h : ∀ s p o, Stmt.mk s p o ∈ env.graph.stmts → Writes (writeObject env n) o)
    {s : Subject} (hs : env.graph.containsSubject s) (d : Nat) :
    ∃ t, writeBlock env n w s d = .ok (t, d) := by
  have h1 := writePredicates_ex (f := .none) (d := d + w) hfair hg.1
    (fun p o hm => ⟨(hg.2 _ p o hm).2.1, h s p o hm⟩) hs hw (by omega)
  rw [Nat.add_sub_cancel] at h1
  refine Step.andThen_ex (Step.andThen_ex (d₁ := d + w) ?_ h1) ⟨_, rfl⟩
  obtain ⟨p, o, hm⟩ := containsSubject_iff.1 hs
  have h2 := (hg.2 s p o hm).1
  unfold writeSubject
  refine Step.andThen_ex (d₁ := d) ?_ ⟨_, rfl⟩
  cases s with
  | blank b =>
    by_cases h0 : d = 0
    · simp [h0]
    · simp [h0, Step.nop]
  | res i => obtain ⟨s, hs⟩ := h2; exact ⟨s, by simp [Step.run, hs]⟩
  | stmt _ => exact h2.elim

theorem mem_subjects_iff {g : Graph} {s : Subject} : s ∈ g.subjects ↔ g.containsSubject s := by
  rw [containsSubject_iff]
  unfold Graph.subjects
  rw [mem_setOf, List.mem_map]
  constructor
  · rintro ⟨⟨s', p, o⟩, hm, rfl⟩; exact ⟨p, o, hm⟩
  · rintro ⟨p, o, hm⟩; exact ⟨_, hm, rfl⟩

theorem mem_nodeSubjects {g : Graph} {s : Subject} :
    s ∈ g.nodeSubjects ↔ g.containsSubject s ∧ s.isBlank = false := by
  unfold Graph.nodeSubjects
  rw [mem_setOf, List.mem_filter, mem_subjects_iff]
  simp

theorem mem_blankSubjects {g : Graph} {s : Subject} :
    s ∈ g.blankSubjects ↔ g.containsSubject s ∧ s.isBlank = true := by
  unfold Graph.blankSubjects
  rw [mem_setOf, List.mem_filter, mem_subjects_iff]

theorem writeNodes_ex {env : TurtleEnv} {n w d : Nat} {l : List Subject}
    (h : ∀ s ∈ l, ∀ d, ∃ t, writeBlock env n w s d = .ok (t, d)) :
    ∃ t, writeNodes env n w l d = .ok (t, d) := by
  induction l with
  | nil => exact ⟨_, rfl⟩
  | cons s l ih => exact Step.andThen_ex (h s (by simp) d) (ih fun s hs => h s (by simp [hs]))

theorem writeBlanks_ex {env : TurtleEnv} {n w d : Nat} {l : List Subject}
    (h : ∀ s ∈ l, ∀ d, ∃ t, writeBlock env n w s d = .ok (t, d)) :
    ∃ t e, writeBlanks env n w l d = .ok (t, e) := by
  induction l generalizing d with
  | nil => exact ⟨_, _, rfl⟩
  | cons s l ih =>
    obtain ⟨t, e, h1⟩ := ih (d := 0) fun s hs => h s (by simp [hs])
    obtain ⟨t', h2⟩ := Step.andThen_ex (Step.andThen_ex (a := .reset) (d := d) (d₁ := 0) ⟨_, rfl⟩
      (h s (by simp) 0)) ⟨t, h1⟩
    exact ⟨t', e, h2⟩

theorem writeTriples_ex {env : TurtleEnv} (hfair : env.orders.Fair) (hg : GraphPrints env)
    (hw : 0 < env.opts.width) (ha : env.opts.nest = true → NoEndlessChain env.graph) :
    ∃ n, ∀ m, n ≤ m → ∃ x, writeTriples env m 0 = .ok x := by
  obtain ⟨n, hn⟩ := enough_graph hfair hg ha
  refine ⟨n, fun m hm => ?_⟩
  have hb : ∀ s, env.graph.containsSubject s → ∀ d, ∃ t, writeBlock env m env.opts.width s d = .ok (t, d) :=
    fun s hs d => writeBlock_ex hfair hg hw (hn m hm) hs d
  obtain ⟨t, e, h2⟩ := writeBlanks_ex (d := 0) (l := env.orders.subj env.graph.blankSubjects)
    (fun s hs d => hb s (mem_blankSubjects.1 ((hfair.1 _).mem_iff.1 hs)).1 d)
  obtain ⟨t', h⟩ := Step.andThen_ex (writeNodes_ex (d := 0) (l := sortedSubjects env.graph)
    (fun s hs d => hb s (mem_nodeSubjects.1 ((sortBy_perm _ _).mem_iff.1 hs)).1 d)) ⟨t, h2⟩
  exact ⟨_, h⟩

/-! ### What success needs -/

/-- The object is written once. -/
def Wrote (wo : Nat → TurtleFlags → Object → Step) (o : Object) : Prop :=
  ∃ w f d r, wo w f o d = .ok r

theorem Step.andThen_ok' {a b : Step} {d : Nat} {x : Str × Nat} (h : (a ⊹ b) d = .ok x) :
    (∃ y, a d = .ok y) ∧ ∃ d₁ y, b d₁ = .ok y := by
  obtain ⟨t, e⟩ := x
  obtain ⟨t₁, d₁, t₂, h₁, h₂, -⟩ := Step.andThen_ok.1 h
  exact ⟨⟨_, h₁⟩, d₁, _, h₂⟩

theorem writeObjects_wrote {wo : Nat → TurtleFlags → Object → Step} {w m d : Nat} {f : TurtleFlags}
    {os : List Object} {x : Str × Nat} (h : writeObjects wo w m f os d = .ok x) :
    ∀ o ∈ os, Wrote wo o := by
  induction os generalizing d x with
  | nil => simp
  | cons a os ih =>
    obtain ⟨⟨y, h1⟩, d₁, z, h2⟩ := Step.andThen_ok' h
    intro o ho
    rcases List.mem_cons.1 ho with rfl | ho
    · obtain ⟨⟨r, h3⟩, -⟩ := Step.andThen_ok' h1
      exact ⟨_, _, _, _, h3⟩
    · exact ih h2 o ho

theorem writePredicate_wrote {env : TurtleEnv} {wo : Nat → TurtleFlags → Object → Step} {w m d : Nat}
    {s : Subject} {f : TurtleFlags} {g : PredGroup} {p : Iri} {x : Str × Nat}
    (h : writePredicate env wo w s m f g p d = .ok x) :
    ∀ o ∈ env.orders.obj s p (env.graph.objectsFor s p), Wrote wo o := by
  obtain ⟨-, d₁, y, h2⟩ := Step.andThen_ok' h
  obtain ⟨l, hl, h3⟩ := Run.bind_ok.1 h2
  intro o ho
  exact writeObjects_wrote h3 o ((sortedObjects_perm hl).mem_iff.2 ho)

theorem writePredicateLoop_wrote {env : TurtleEnv} {wo : Nat → TurtleFlags → Object → Step} {w m d : Nat}
    {s : Subject} {f : TurtleFlags} {total count : Nat} {l : List (PredGroup × Iri)} {x : Str × Nat}
    (h : writePredicateLoop env wo w s m total f count l d = .ok x) :
    ∀ e ∈ l, ∀ o ∈ env.orders.obj s e.2 (env.graph.objectsFor s e.2), Wrote wo o := by
  induction l generalizing count d x with
  | nil => simp
  | cons a l ih =>
    obtain ⟨g, p⟩ := a
    obtain ⟨⟨y, h1⟩, d₁, z, h2⟩ := Step.andThen_ok' h
    intro e he
    rcases List.mem_cons.1 he with rfl | he
    · exact writePredicate_wrote h1
    · exact ih h2 e he

theorem writePredicates_wrote {env : TurtleEnv} {wo : Nat → TurtleFlags → Object → Step} {w d : Nat}
    {s : Subject} {f : TurtleFlags} {x : Str × Nat} (hfair : env.orders.Fair)
    (h : writePredicates env wo w f s d = .ok x) :
    ∀ p o, Stmt.mk s p o ∈ env.graph.stmts → Wrote wo o := by
  obtain ⟨m, -, h1⟩ := Run.bind_ok.1 h
  obtain ⟨l, hl, h2⟩ := Run.bind_ok.1 h1
  intro p o hm
  have hp := (hfair.2.1 s _).mem_iff.2 (mem_predicatesFor.2 ⟨o, hm⟩)
  exact writePredicateLoop_wrote h2 (groupOf p, p)
    ((predicateSequence_perm hl).mem_iff.2 (List.mem_map.2 ⟨p, hp, rfl⟩)) o
    ((hfair.2.2 s p _).mem_iff.2 (mem_objectsFor.2 hm))

theorem writeMembers_wrote {wo : Nat → TurtleFlags → Object → Step} {w d : Nat} {f : TurtleFlags}
    {c : List Object} {x : Str × Nat} (h : writeMembers wo w f c d = .ok x) : ∀ o ∈ c, Wrote wo o := by
  induction c generalizing d x with
  | nil => simp
  | cons a c ih =>
    obtain ⟨⟨y, h1⟩, d₁, z, h2⟩ := Step.andThen_ok' h
    intro o ho
    rcases List.mem_cons.1 ho with rfl | ho
    · obtain ⟨⟨r, h3⟩, -⟩ := Step.andThen_ok' h1
      exact ⟨_, _, _, _, h3⟩
    · exact ih h2 o ho

theorem writeCollection_wrote {env : TurtleEnv} {wo : Nat → TurtleFlags → Object → Step} {w d : Nat}
    {f : TurtleFlags} {c : List Object} {x : Str × Nat} (h : writeCollection env wo w f c d = .ok x) :
    ∀ o ∈ c, Wrote wo o := by
  unfold writeCollection at h
  split at h
  · rename_i hc; simp at hc; simp [hc]
  · obtain ⟨⟨_, h1⟩, -⟩ := Step.andThen_ok' h
    obtain ⟨⟨_, h2⟩, -⟩ := Step.andThen_ok' h1
    obtain ⟨⟨_, h3⟩, -⟩ := Step.andThen_ok' h2
    obtain ⟨⟨_, h4⟩, -⟩ := Step.andThen_ok' h3
    obtain ⟨-, _, _, h5⟩ := Step.andThen_ok' h4
    exact writeMembers_wrote h5

theorem wrote_properties {env : TurtleEnv} (hfair : env.orders.Fair) (hn : env.opts.nest = true) {n : Nat}
    {b : Str} (hs : env.graph.containsSubject (.blank b)) (h : Wrote (writeObject env (n + 1)) (.blank b)) :
    ∀ p o, Stmt.mk (.blank b) p o ∈ env.graph.stmts → Wrote (writeObject env n) o := by
  obtain ⟨w, f, d, r, h⟩ := h
  simp only [writeObject, writeObjectStep, hn, hs, if_true] at h
  obtain ⟨⟨_, h1⟩, -⟩ := Step.andThen_ok' h
  obtain ⟨⟨_, h2⟩, -⟩ := Step.andThen_ok' h1
  obtain ⟨-, _, _, h3⟩ := Step.andThen_ok' h2
  exact writePredicates_wrote hfair h3

theorem wrote_inside {env : TurtleEnv} {o : Object} {b : Str} (hb : HasBlank o b) {n : Nat}
    (h : Wrote (writeObject env n) o) : ∃ m, m ≤ n ∧ Wrote (writeObject env m) (.blank b) := by
  induction hb generalizing n with
  | self b => exact ⟨n, by omega, h⟩
  | member c o b hm _ ih =>
    cases n with
    | zero => obtain ⟨_, _, _, _, h⟩ := h; simp [writeObject] at h
    | succ n =>
      obtain ⟨w, f, d, r, h⟩ := h
      obtain ⟨m, hmn, hw⟩ := ih (writeCollection_wrote h o hm)
      exact ⟨m, by omega, hw⟩

/-- A node that starts an endless chain is never written, at any depth. -/
theorem endless {env : TurtleEnv} (hfair : env.orders.Fair) (hn : env.opts.nest = true) (n : Nat) {b : Str}
    (hs : env.graph.containsSubject (.blank b)) (ha : ¬ Acc (Points env.graph) b) :
    ¬ Wrote (writeObject env n) (.blank b) := by
  induction n using Nat.strongRecOn generalizing b with
  | _ n ih =>
    intro h
    cases n with
    | zero => obtain ⟨_, _, _, _, h⟩ := h; simp [writeObject] at h
    | succ n =>
      apply ha
      constructor
      intro c hc
      by_contra hac
      obtain ⟨⟨p, o, hm, hb⟩, hcs⟩ := hc
      obtain ⟨m, hmn, hw⟩ := wrote_inside hb (wrote_properties hfair hn hs h p o hm)
      exact ih m (by omega) (containsSubject_iff.2 hcs) hac hw

theorem writeNodes_block {env : TurtleEnv} {n w d : Nat} {l : List Subject} {x : Str × Nat}
    (h : writeNodes env n w l d = .ok x) : ∀ s ∈ l, ∃ d y, writeBlock env n w s d = .ok y := by
  induction l generalizing d x with
  | nil => simp
  | cons a l ih =>
    obtain ⟨⟨y, h1⟩, d₁, z, h2⟩ := Step.andThen_ok' h
    intro s hs
    rcases List.mem_cons.1 hs with rfl | hs
    · exact ⟨_, _, h1⟩
    · exact ih h2 s hs

theorem writeBlanks_block {env : TurtleEnv} {n w d : Nat} {l : List Subject} {x : Str × Nat}
    (h : writeBlanks env n w l d = .ok x) : ∀ s ∈ l, ∃ d y, writeBlock env n w s d = .ok y := by
  induction l generalizing d x with
  | nil => simp
  | cons a l ih =>
    obtain ⟨⟨y, h1⟩, d₁, z, h2⟩ := Step.andThen_ok' h
    intro s hs
    rcases List.mem_cons.1 hs with rfl | hs
    · obtain ⟨-, _, _, h3⟩ := Step.andThen_ok' h1
      exact ⟨_, _, h3⟩
    · exact ih h2 s hs

/-- Every subject of the graph has its block. -/
theorem writeTriples_block {env : TurtleEnv} (hfair : env.orders.Fair) {n d : Nat} {x : Str × Nat}
    (h : writeTriples env n d = .ok x) {s : Subject} (hs : env.graph.containsSubject s) :
    ∃ d y, writeBlock env n env.opts.width s d = .ok y := by
  obtain ⟨⟨y, h1⟩, d₁, z, h2⟩ := Step.andThen_ok' h
  by_cases hb : s.isBlank
  · exact writeBlanks_block h2 s ((hfair.1 _).mem_iff.2 (mem_blankSubjects.2 ⟨hs, hb⟩))
  · exact writeNodes_block h1 s ((sortBy_perm _ _).mem_iff.2 (mem_nodeSubjects.2 ⟨hs, by simpa using hb⟩))

theorem writeBlock_wrote {env : TurtleEnv} (hfair : env.orders.Fair) {n w d : Nat} {s : Subject}
    {x : Str × Nat} (h : writeBlock env n w s d = .ok x) :
    (∃ d y, writeSubject env w .none s d = .ok y) ∧
    ∀ p o, Stmt.mk s p o ∈ env.graph.stmts → Wrote (writeObject env n) o := by
  obtain ⟨⟨_, h1⟩, -⟩ := Step.andThen_ok' h
  obtain ⟨h2, _, _, h3⟩ := Step.andThen_ok' h1
  exact ⟨⟨_, h2⟩, writePredicates_wrote hfair h3⟩

/-! ### What was written can be printed -/

theorem maxLen_prints {env : TurtleEnv} {ps : List Iri} {n : Nat} (h : maxLenPredicates env ps = .ok n) :
    ∀ p ∈ ps, IriPrints env p := by
  obtain ⟨l, hl, -⟩ := Run.bind_ok.1 h
  rw [Run.mapAll_ok] at hl
  clear h
  induction hl with
  | nil => simp
  | cons a _ ih =>
    intro p hp
    rcases List.mem_cons.1 hp with rfl | hp
    · exact ⟨_, a⟩
    · exact ih p hp

theorem writeBlock_predicates {env : TurtleEnv} (hfair : env.orders.Fair) (hpad : env.opts.padding = false) {n w d : Nat}
    {s : Subject} {x : Str × Nat} (h : writeBlock env n w s d = .ok x) :
    ∀ p o, Stmt.mk s p o ∈ env.graph.stmts → IriPrints env p := by
  obtain ⟨⟨_, h1⟩, -⟩ := Step.andThen_ok' h
  obtain ⟨-, _, _, h3⟩ := Step.andThen_ok' h1
  obtain ⟨m, hm, -⟩ := Run.bind_ok.1 h3
  rw [if_neg (by simp [hpad])] at hm
  obtain ⟨k, hk, -⟩ := Run.bind_ok.1 hm
  intro p o hp
  exact maxLen_prints hk p ((hfair.2.1 s _).mem_iff.2 (mem_predicatesFor.2 ⟨o, hp⟩))

theorem run_ok {r : Run Str} {d : Nat} {x : Str × Nat} (h : Step.run r d = .ok x) : ∃ s, r = .ok s := by
  cases r with
  | ok s => exact ⟨s, rfl⟩
  | _ => simp [Step.run, Run.bind] at h

theorem wrote_printable {env : TurtleEnv} : ∀ {n : Nat} {o : Object}, Wrote (writeObject env n) o → Printable env o
  | 0, _, h => by obtain ⟨_, _, _, _, h⟩ := h; simp [writeObject] at h
  | n + 1, .blank b, _ => .blank b
  | n + 1, .res i, h => by
    obtain ⟨_, _, _, _, h⟩ := h
    exact .res i (run_ok h)
  | n + 1, .lit l, h => by
    obtain ⟨_, _, _, _, h⟩ := h
    exact .lit l (run_ok h)
  | n + 1, .coll c, h => by
    obtain ⟨_, _, _, _, h⟩ := h
    exact .coll c fun o ho => wrote_printable (writeCollection_wrote h o ho)
  | n + 1, .stmt t, h => by
    obtain ⟨_, _, _, _, h⟩ := h
    simp [writeObject, writeObjectStep] at h

/-- When a graph is written all its parts can be printed. -/
theorem written_prints {env : TurtleEnv} (hfair : env.orders.Fair) (hpad : env.opts.padding = false) {n d : Nat}
    {x : Str × Nat} (h : writeTriples env n d = .ok x) (s : Subject) (p : Iri) (o : Object)
    (hm : Stmt.mk s p o ∈ env.graph.stmts) : SubjectPrints env s ∧ IriPrints env p ∧ Printable env o := by
  obtain ⟨d, y, hblk⟩ := writeTriples_block hfair h (containsSubject_iff.2 ⟨p, o, hm⟩)
  obtain ⟨⟨d', z, hs⟩, ho⟩ := writeBlock_wrote hfair hblk
  refine ⟨?_, writeBlock_predicates hfair hpad hblk p o hm, wrote_printable (ho p o hm)⟩
  obtain ⟨⟨_, h2⟩, -⟩ := Step.andThen_ok' hs
  cases s with
  | blank b => trivial
  | res i => exact run_ok h2
  | stmt t => simp at h2

end Rdftk
