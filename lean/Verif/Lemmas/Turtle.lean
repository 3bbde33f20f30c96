import Verif.Model.Turtle
import Verif.Lemmas.Graph
import Verif.Spec.NTSafe
import Mathlib.Data.List.Forall2

/-! Lemmas about the Turtle writer: steps, sorting, when it succeeds and what success needs. -/

namespace Rdftk

/-! ### Runs and steps -/

theorem Run.bind_ok {α β : Type _} {r : Run α} {f : α → Run β} {b : β} :
    r.bind f = .ok b ↔ ∃ a, r = .ok a ∧ f a = .ok b := by
  cases r <;> simp [Run.bind]

@[simp] theorem Run.ok_bind {α β : Type _} (a : α) (f : α → Run β) : (Run.ok a).bind f = f a := rfl

theorem Step.andThen_ok {a b : Step} {d : Nat} {t : Str} {e : Nat} :
    (a ⊹ b) d = .ok (t, e) ↔
      ∃ t₁ d₁ t₂, a d = .ok (t₁, d₁) ∧ b d₁ = .ok (t₂, e) ∧ t = t₁ ++ t₂ := by
  simp only [Step.andThen, Run.bind_ok, Run.ok.injEq, Prod.mk.injEq, Prod.exists]
  constructor
  · rintro ⟨t₁, d₁, h₁, t₂, d₂, h₂, rfl, rfl⟩
    exact ⟨t₁, d₁, t₂, h₁, h₂, rfl⟩
  · rintro ⟨t₁, d₁, t₂, h₁, h₂, rfl⟩
    exact ⟨t₁, d₁, h₁, t₂, e, h₂, rfl, rfl⟩

theorem Step.andThen_eq {a b : Step} {d : Nat} {t₁ : Str} {d₁ : Nat} (h : a d = .ok (t₁, d₁))
    {t₂ : Str} {e : Nat} (h' : b d₁ = .ok (t₂, e)) : (a ⊹ b) d = .ok (t₁ ++ t₂, e) := by
  simp [Step.andThen, h, h']

/-- Success of the two parts. -/
theorem Step.andThen_ex {a b : Step} {d d₁ e : Nat} (h : ∃ t, a d = .ok (t, d₁))
    (h' : ∃ t, b d₁ = .ok (t, e)) : ∃ t, (a ⊹ b) d = .ok (t, e) := by
  obtain ⟨t, h⟩ := h
  obtain ⟨t', h'⟩ := h'
  exact ⟨_, Step.andThen_eq h h'⟩

theorem Run.mapAll_ok {α β : Type _} {f : α → Run β} {l : List α} {l' : List β} :
    Run.mapAll f l = .ok l' ↔ List.Forall₂ (fun a b => f a = .ok b) l l' := by
  induction l generalizing l' with
  | nil => cases l' <;> simp [Run.mapAll]
  | cons a l ih =>
    cases l' with
    | nil => simp [Run.mapAll, Run.bind_ok]
    | cons b l' => simp [Run.mapAll, Run.bind_ok, ih, and_assoc]

theorem Run.mapAll_ex {α β : Type _} {f : α → Run β} {l : List α} (h : ∀ a ∈ l, ∃ b, f a = .ok b) :
    ∃ l', Run.mapAll f l = .ok l' := by
  induction l with
  | nil => exact ⟨[], rfl⟩
  | cons a l ih =>
    obtain ⟨b, hb⟩ := h a (by simp)
    obtain ⟨l', hl⟩ := ih fun x hx => h x (by simp [hx])
    exact ⟨b :: l', by simp [Run.mapAll, hb, hl]⟩

theorem forall₂_map_snd {α κ : Type _} {f : α → Run (κ × α)} (hf : ∀ a b, f a = .ok b → b.2 = a)
    {l : List α} {l' : List (κ × α)} (h : List.Forall₂ (fun a b => f a = .ok b) l l') :
    l'.map (·.2) = l := by
  induction h with
  | nil => rfl
  | cons h _ ih => simp [ih, hf _ _ h]

/-! ### Sorting -/

theorem insertBy_perm {α : Type _} (le : α → α → Bool) (a : α) (l : List α) :
    (insertBy le a l).Perm (a :: l) := by
  induction l with
  | nil => exact .refl _
  | cons b l ih =>
    unfold insertBy
    split
    · exact .refl _
    · exact (ih.cons b).trans (.swap a b l)

theorem sortBy_perm {α : Type _} (le : α → α → Bool) (l : List α) : (sortBy le l).Perm l := by
  induction l with
  | nil => exact .refl _
  | cons a l ih => exact (insertBy_perm le a _).trans (ih.cons a)

theorem chunkBy_flatten {α κ : Type _} [DecidableEq κ] (key : α → κ) (l : List α) :
    ((chunkBy key l).map (·.2)).flatten = l := by
  induction l with
  | nil => rfl
  | cons a l ih =>
    unfold chunkBy
    split
    · rename_i h; rw [h] at ih; simpa using ih
    · rename_i k c r h
      rw [h] at ih
      split <;> simpa using ih

theorem chunkBy_key {α κ : Type _} [DecidableEq κ] (key : α → κ) (l : List α) :
    ∀ e ∈ chunkBy key l, ∀ a ∈ e.2, key a = e.1 := by
  induction l with
  | nil => simp [chunkBy]
  | cons a l ih =>
    unfold chunkBy
    split
    · simp
    · rename_i k c r h
      rw [h] at ih
      split
      · rename_i hk
        intro e he x hx
        simp only [List.mem_cons] at he
        rcases he with rfl | he
        · simp only [List.mem_cons] at hx
          rcases hx with rfl | hx
          · exact hk
          · exact ih (k, c) (by simp) x hx
        · exact ih e (by simp [he]) x hx
      · intro e he x hx
        simp only [List.mem_cons] at he
        rcases he with rfl | he
        · simp at hx; simp [hx]
        · exact ih e (by simpa using he) x hx

theorem sortPredicates_perm {env : TurtleEnv} {ps l : List Iri} (h : sortPredicates env ps = .ok l) :
    l.Perm ps := by
  unfold sortPredicates at h
  split at h
  · simp at h; rw [h]
  · obtain ⟨m, h1, h2⟩ := Run.bind_ok.1 h
    simp only [Run.ok.injEq] at h2
    have := forall₂_map_snd (fun a b hb => by
      cases e : compressIri env a <;> simp [predicateKey, e] at hb
      rw [← hb]) (Run.mapAll_ok.1 h1)
    rw [← h2]
    exact ((sortBy_perm _ _).map _).trans (by rw [this])

/-- The sequence of predicates: each one with its group. -/
theorem predicateSequence_perm {env : TurtleEnv} {ps : List Iri} {l : List (PredGroup × Iri)}
    (h : predicateSequence env ps = .ok l) :
    l.Perm (ps.map fun p => (groupOf p, p)) := by
  obtain ⟨m, h1, h2⟩ := Run.bind_ok.1 h
  simp only [Run.ok.injEq] at h2
  subst h2
  have key : ∀ (c : List (PredGroup × List Iri)) (m : List (List (PredGroup × Iri))),
      (∀ e ∈ c, ∀ a ∈ e.2, groupOf a = e.1) →
      List.Forall₂ (fun (e : PredGroup × List Iri) b => ((sortPredicates env e.2).bind fun l => .ok (l.map fun p => (e.1, p))) = .ok b)
        c m → m.flatten.Perm (((c.map (·.2)).flatten).map fun p => (groupOf p, p)) := by
    intro c m hk hf
    induction hf with
    | nil => exact .refl _
    | @cons e b c m he _ ih =>
      obtain ⟨l, h1, h2⟩ := Run.bind_ok.1 he
      simp only [Run.ok.injEq] at h2
      subst h2
      simp only [List.flatten_cons, List.map_cons, List.map_append]
      refine List.Perm.append ?_ (ih fun e he => hk e (by simp [he]))
      refine ((sortPredicates_perm h1).map _).trans (.of_eq ?_)
      apply List.map_congr_left
      intro p hp
      rw [hk e (by simp) p hp]
  have hp := sortBy_perm (fun a b : PredGroup × List Iri => decide (a.1.rank ≤ b.1.rank)) (chunkBy groupOf ps)
  have := key _ _ (fun e he => chunkBy_key groupOf ps e (hp.mem_iff.1 he)) (Run.mapAll_ok.1 h1)
  refine this.trans ?_
  have h3 := (hp.map (·.2)).flatten
  rw [chunkBy_flatten] at h3
  exact h3.map _

theorem sortedObjects_perm {env : TurtleEnv} {wo : Nat → TurtleFlags → Object → Step} {s : Subject}
    {p : Iri} {l : List Object} (h : sortedObjects env wo s p = .ok l) :
    l.Perm (env.orders.obj s p (env.graph.objectsFor s p)) := by
  unfold sortedObjects at h
  dsimp only at h
  split at h
  · obtain ⟨m, h1, h2⟩ := Run.bind_ok.1 h
    simp only [Run.ok.injEq] at h2
    have := forall₂_map_snd (fun a b hb => by
      obtain ⟨k, _, hk⟩ := Run.bind_ok.1 hb
      simp at hk; rw [← hk]) (Run.mapAll_ok.1 h1)
    rw [← h2]
    exact ((sortBy_perm _ _).map _).trans (by rw [this])
  · simp at h; rw [h]

/-! ### When the writer succeeds -/

/-- An object is written at any width but zero, in any state, and the indentation is kept. -/
def Writes (wo : Nat → TurtleFlags → Object → Step) (o : Object) : Prop :=
  ∀ w f d, 0 < w → ∃ t, wo w f o d = .ok (t, d)

theorem outdent_ok {w d : Nat} (hw : 0 < w) (hd : w ≤ d) : Step.outdent w d = .ok ([], d - w) := by
  unfold Step.outdent
  rw [if_neg (by omega), if_neg (by omega)]

theorem writeObjectAnd_ex {wo : Nat → TurtleFlags → Object → Step} {w m d : Nat} {f : TurtleFlags}
    {o : Object} (ho : Writes wo o) (hw : 0 < w) (hd : f.lastSubject → w ≤ d) :
    ∃ t, writeObjectAnd wo w m f o d =
      .ok (t, if f.lastPredicate && f.lastSubject then d - w else d) := by
  unfold writeObjectAnd
  refine Step.andThen_ex (ho w f d hw) ?_
  by_cases hp : f.lastPredicate
  · rw [if_pos hp]
    by_cases hs : f.lastSubject
    · simp only [hs, hp, if_true, Bool.and_self]
      refine Step.andThen_ex ⟨_, outdent_ok hw (hd hs)⟩ ?_
      by_cases h0 : d - w = 0
      · simp [h0, Step.andThen, Step.text, newLine]
      · simp [h0, Step.nop]
    · simp only [hs, hp, if_false, Bool.and_false, Bool.false_eq_true]
      refine Step.andThen_ex (d₁ := d) ⟨_, rfl⟩ ?_
      by_cases h0 : d = 0
      · simp [h0, Step.andThen, Step.text, newLine]
      · simp [h0, Step.text]
  · rw [if_neg hp]
    simp only [hp, Bool.false_and, if_false, Bool.false_eq_true]
    refine Step.andThen_ex (d₁ := d) ⟨_, rfl⟩ ?_
    split
    · exact ⟨_, rfl⟩
    · refine Step.andThen_ex (d₁ := d + w) (Step.andThen_ex (d₁ := d + w) (Step.andThen_ex (d₁ := d + w) ⟨_, rfl⟩ ⟨_, rfl⟩) ?_) ?_
      · split <;> exact ⟨_, rfl⟩
      · exact ⟨_, by rw [outdent_ok hw (by omega)]; congr 2; omega⟩

theorem writeObjects_ex {wo : Nat → TurtleFlags → Object → Step} {w m d : Nat} {f : TurtleFlags}
    {os : List Object} (ho : ∀ o ∈ os, Writes wo o) (hn : os ≠ []) (hw : 0 < w)
    (hd : f.lastSubject → w ≤ d) :
    ∃ t, writeObjects wo w m f os d = .ok (t, if f.lastSubject then d - w else d) := by
  induction os with
  | nil => exact absurd rfl hn
  | cons o os ih =>
    unfold writeObjects
    have h1 := writeObjectAnd_ex (m := m) (f := { f with
        nextBlank := firstIsBlank os
        lastPredicate := os.isEmpty }) (ho o (by simp)) hw hd
    refine Step.andThen_ex h1 ?_
    cases os with
    | nil => simp [writeObjects, Step.nop]
    | cons x os =>
      simp only [List.isEmpty_cons, Bool.false_and, if_false, Bool.false_eq_true]
      exact ih (fun o h => ho o (by simp [List.mem_cons.1 h])) (by simp)

theorem sortedObjects_ex {env : TurtleEnv} {wo : Nat → TurtleFlags → Object → Step} {s : Subject}
    {p : Iri} (h : ∀ o ∈ env.orders.obj s p (env.graph.objectsFor s p), Writes wo o) :
    ∃ l, sortedObjects env wo s p = .ok l := by
  unfold sortedObjects
  dsimp only
  split
  · obtain ⟨l, hl⟩ := Run.mapAll_ex (f := fun o => (objectSortKey wo o).bind fun k => .ok (k, o))
      (l := env.orders.obj s p (env.graph.objectsFor s p)) (fun o ho => by
        obtain ⟨t, ht⟩ := h o ho 2 { TurtleFlags.none with sorted := true } 0 (by omega)
        exact ⟨(t, o), by simp [objectSortKey, ht]⟩)
    exact ⟨_, by rw [hl]; rfl⟩
  · exact ⟨_, rfl⟩

theorem sortPredicates_ex {env : TurtleEnv} {ps : List Iri} (h : ∀ p ∈ ps, ∃ s, compressIri env p = .ok s) :
    ∃ l, sortPredicates env ps = .ok l := by
  unfold sortPredicates
  split
  · exact ⟨_, rfl⟩
  · obtain ⟨l, hl⟩ := Run.mapAll_ex (f := predicateKey env) (l := ps) (fun p hp => by
        obtain ⟨s, hs⟩ := h p hp
        exact ⟨(s, p), by simp [predicateKey, hs]⟩)
    exact ⟨_, by rw [hl]; rfl⟩

theorem predicateSequence_ex {env : TurtleEnv} {ps : List Iri} (h : ∀ p ∈ ps, ∃ s, compressIri env p = .ok s) :
    ∃ l, predicateSequence env ps = .ok l := by
  unfold predicateSequence
  obtain ⟨l, hl⟩ := Run.mapAll_ex (f := fun e : PredGroup × List Iri =>
    (sortPredicates env e.2).bind fun l => .ok (l.map fun p => (e.1, p))) (l := groupPredicates ps)
    (fun e he => by
      have he' := (sortBy_perm _ _).mem_iff.1 he
      have hm : ∀ p ∈ e.2, p ∈ ps := by
        intro p hp
        rw [← chunkBy_flatten groupOf ps]
        exact List.mem_flatten.2 ⟨e.2, List.mem_map.2 ⟨e, he', rfl⟩, hp⟩
      obtain ⟨l, hl⟩ := sortPredicates_ex fun p hp => h p (hm p hp)
      exact ⟨_, by rw [hl]; rfl⟩)
  exact ⟨_, by rw [hl]; rfl⟩

theorem writeVerb_ex {env : TurtleEnv} {g : PredGroup} {p : Iri} {m d : Nat} {f : TurtleFlags}
    (ht : ∃ s, compressIri env rdfType = .ok s) (hp : ∃ s, compressIri env p = .ok s) :
    ∃ t, writeVerb env g p m f d = .ok (t, d) := by
  obtain ⟨s, hs⟩ := ht
  obtain ⟨s', hs'⟩ := hp
  unfold writeVerb
  split
  · by_cases hA : env.opts.typeA <;> simp only [hA, if_true, if_false, Bool.false_eq_true, hs]
    all_goals
      split
      · exact ⟨_, rfl⟩
      · exact Step.andThen_ex (d₁ := d) ⟨_, rfl⟩ ⟨_, rfl⟩
  · exact Step.andThen_ex (d₁ := d) ⟨_, rfl⟩ ⟨_, by simp only [Step.run, hs']; rfl⟩

theorem writePredicate_ex {env : TurtleEnv} {wo : Nat → TurtleFlags → Object → Step} {w m d : Nat}
    {s : Subject} {f : TurtleFlags} {g : PredGroup} {p : Iri}
    (ht : ∃ s, compressIri env rdfType = .ok s) (hp : ∃ s, compressIri env p = .ok s)
    (h : ∀ o ∈ env.orders.obj s p (env.graph.objectsFor s p), Writes wo o)
    (hn : env.orders.obj s p (env.graph.objectsFor s p) ≠ []) (hw : 0 < w)
    (hd : f.lastSubject → w ≤ d) :
    ∃ t, writePredicate env wo w s m f g p d = .ok (t, if f.lastSubject then d - w else d) := by
  refine Step.andThen_ex (writeVerb_ex ht hp) ?_
  obtain ⟨l, hl⟩ := sortedObjects_ex h
  have hperm := sortedObjects_perm hl
  rw [hl]
  exact writeObjects_ex (fun o ho => h o (hperm.mem_iff.1 ho))
    (fun e => hn (by rw [e] at hperm; exact hperm.nil_eq.symm)) hw hd

theorem writePredicateLoop_ex {env : TurtleEnv} {wo : Nat → TurtleFlags → Object → Step} {w m d : Nat}
    {s : Subject} {f : TurtleFlags} {total count : Nat} {l : List (PredGroup × Iri)}
    (ht : ∃ s, compressIri env rdfType = .ok s)
    (h : ∀ e ∈ l, (∃ s, compressIri env e.2 = .ok s) ∧
      env.orders.obj s e.2 (env.graph.objectsFor s e.2) ≠ [] ∧
      ∀ o ∈ env.orders.obj s e.2 (env.graph.objectsFor s e.2), Writes wo o)
    (hn : l ≠ []) (hw : 0 < w) (hd : w ≤ d) (hc : count + l.length = total) :
    ∃ t, writePredicateLoop env wo w s m total f count l d = .ok (t, d - w) := by
  induction l generalizing count with
  | nil => exact absurd rfl hn
  | cons e l ih =>
    obtain ⟨g, p⟩ := e
    obtain ⟨h1, h2, h3⟩ := h (g, p) (by simp)
    unfold writePredicateLoop
    refine Step.andThen_ex (writePredicate_ex ht h1 h3 h2 hw fun _ => hd) ?_
    cases l with
    | nil =>
      have : (count + 1 == total) = true := by simp at hc; simp [hc]
      simp [this, writePredicateLoop, Step.nop]
    | cons e' l =>
      have : (count + 1 == total) = false := by simp at hc ⊢; omega
      simp only [this, if_false, Bool.false_eq_true]
      exact ih (fun e he => h e (by simp [List.mem_cons.1 he])) (by simp)
        (by simp at hc ⊢; omega)

theorem mem_predicatesFor {g : Graph} {s : Subject} {p : Iri} :
    p ∈ g.predicatesFor s ↔ ∃ o, Stmt.mk s p o ∈ g.stmts := by
  unfold Graph.predicatesFor
  rw [mem_setOf, List.mem_filterMap]
  constructor
  · rintro ⟨⟨s', p', o⟩, hm, h⟩
    simp only [Stmt.subject, Stmt.predicate] at h
    by_cases e : s' = s
    · subst e; simp at h; subst h; exact ⟨o, hm⟩
    · simp [e] at h
  · rintro ⟨o, h⟩
    exact ⟨_, h, by simp [Stmt.subject, Stmt.predicate]⟩

theorem mem_objectsFor {g : Graph} {s : Subject} {p : Iri} {o : Object} :
    o ∈ g.objectsFor s p ↔ Stmt.mk s p o ∈ g.stmts := by
  unfold Graph.objectsFor
  rw [mem_setOf, List.mem_filterMap]
  constructor
  · rintro ⟨⟨s', p', o'⟩, hm, h⟩
    simp only [Stmt.subject, Stmt.predicate, Stmt.object] at h
    by_cases e : s' = s ∧ p' = p
    · obtain ⟨rfl, rfl⟩ := e; simp at h; subst h; exact hm
    · simp [e] at h
  · intro h
    exact ⟨_, h, by simp [Stmt.subject, Stmt.predicate, Stmt.object]⟩

theorem containsSubject_iff {g : Graph} {s : Subject} :
    g.containsSubject s ↔ ∃ p o, Stmt.mk s p o ∈ g.stmts := by
  unfold Graph.containsSubject
  rw [List.any_eq_true]
  constructor
  · rintro ⟨⟨s', p, o⟩, hm, h⟩
    simp [Stmt.subject] at h
    subst h
    exact ⟨p, o, hm⟩
  · rintro ⟨p, o, h⟩
    exact ⟨_, h, by simp [Stmt.subject]⟩

theorem maxLen_ex {env : TurtleEnv} {ps : List Iri} (h : ∀ p ∈ ps, ∃ s, compressIri env p = .ok s) :
    ∃ n, maxLenPredicates env ps = .ok n := by
  obtain ⟨l, hl⟩ := Run.mapAll_ex h
  exact ⟨_, by unfold maxLenPredicates; rw [hl]; rfl⟩

theorem writePredicates_ex {env : TurtleEnv} {wo : Nat → TurtleFlags → Object → Step} {w d : Nat}
    {s : Subject} {f : TurtleFlags} (hfair : env.orders.Fair)
    (ht : ∃ s, compressIri env rdfType = .ok s)
    (h : ∀ p o, Stmt.mk s p o ∈ env.graph.stmts → (∃ s, compressIri env p = .ok s) ∧ Writes wo o)
    (hs : env.graph.containsSubject s) (hw : 0 < w) (hd : w ≤ d) :
    ∃ t, writePredicates env wo w f s d = .ok (t, d - w) := by
  have hp : ∀ p ∈ env.orders.pred s (env.graph.predicatesFor s), ∃ s, compressIri env p = .ok s := by
    intro p hp
    obtain ⟨o, ho⟩ := mem_predicatesFor.1 ((hfair.2.1 s _).mem_iff.1 hp)
    exact (h p o ho).1
  obtain ⟨n, hn⟩ := maxLen_ex hp
  obtain ⟨l, hl⟩ := predicateSequence_ex hp
  have hperm := predicateSequence_perm hl
  have hlen : l.length = (env.orders.pred s (env.graph.predicatesFor s)).length := by
    simpa using hperm.length_eq
  have hne : l ≠ [] := by
    intro e
    rw [e] at hlen
    obtain ⟨p, o, ho⟩ := containsSubject_iff.1 hs
    have hm : p ∈ env.orders.pred s (env.graph.predicatesFor s) :=
      (hfair.2.1 s _).mem_iff.2 (mem_predicatesFor.2 ⟨o, ho⟩)
    have := List.length_pos_of_mem hm
    simp at hlen; omega
  have key : ∀ m, ∃ t, writePredicateLoop env wo w s m
      (env.orders.pred s (env.graph.predicatesFor s)).length f 0 l d = .ok (t, d - w) := by
    intro m
    refine writePredicateLoop_ex ht (fun e he => ?_) hne hw hd (by omega)
    have he' := hperm.mem_iff.1 he
    obtain ⟨p, hp', rfl⟩ := List.mem_map.1 he'
    refine ⟨hp p hp', ?_, ?_⟩
    · obtain ⟨o, ho⟩ := mem_predicatesFor.1 ((hfair.2.1 s _).mem_iff.1 hp')
      exact List.ne_nil_of_mem ((hfair.2.2 s p _).mem_iff.2 (mem_objectsFor.2 ho))
    · intro o ho
      exact (h p o (mem_objectsFor.1 ((hfair.2.2 s p _).mem_iff.1 ho))).2
  unfold writePredicates
  simp only [hl, hn, Run.ok_bind]
  by_cases hpad : env.opts.padding <;> simp only [hpad, if_true, if_false, Run.ok_bind, Bool.false_eq_true]
  · exact key 0
  · exact key (1 + n)

theorem writeMembers_ex {wo : Nat → TurtleFlags → Object → Step} {w d : Nat} {f : TurtleFlags}
    {c : List Object} (h : ∀ o ∈ c, Writes wo o) (hw : 0 < w) :
    ∃ t, writeMembers wo w f c d = .ok (t, d) := by
  induction c with
  | nil => exact ⟨_, rfl⟩
  | cons o c ih =>
    exact Step.andThen_ex (Step.andThen_ex (h o (by simp) w f d hw) ⟨_, rfl⟩)
      (ih fun o ho => h o (by simp [ho]))

theorem writeCollection_ex {env : TurtleEnv} {wo : Nat → TurtleFlags → Object → Step} {w d : Nat}
    {f : TurtleFlags} {c : List Object} (h : ∀ o ∈ c, Writes wo o) (hw : 0 < w) :
    ∃ t, writeCollection env wo w f c d = .ok (t, d) := by
  unfold writeCollection
  split
  · exact ⟨_, rfl⟩
  · have h1 := Step.andThen_ex (a := .indent w ⊹ .text (str! "(") ⊹ newLine f) (d := d) (d₁ := d + w)
      (b := writeMembers wo w f c) (e := d + w)
      (Step.andThen_ex (Step.andThen_ex (d₁ := d + w) ⟨_, rfl⟩ ⟨_, rfl⟩) ⟨_, rfl⟩)
      (writeMembers_ex h hw)
    have ho : ∃ t, Step.outdent w (d + w) = .ok (t, d) :=
      ⟨_, by rw [outdent_ok hw (by omega)]; congr 2; omega⟩
    split
    · exact Step.andThen_ex (Step.andThen_ex (Step.andThen_ex (Step.andThen_ex h1 ho) ⟨_, rfl⟩)
        ⟨_, rfl⟩) ⟨_, rfl⟩
    · exact Step.andThen_ex (Step.andThen_ex (Step.andThen_ex (Step.andThen_ex h1 ⟨_, rfl⟩) ⟨_, rfl⟩)
        ⟨_, rfl⟩) ho

end Rdftk
