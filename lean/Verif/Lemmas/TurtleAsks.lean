import Verif.Lemmas.TurtleEnd
import Verif.Spec.TurtleAsks

/-! Where the errors and panics of the Turtle writer come from. -/

namespace Rdftk
open Spec

/-- A run that panics, fails or is too deep only if so and so, and succeeds with such results only. -/
def Only (P E D : Prop) {α : Type _} (Q : α → Prop) : Run α → Prop
  | .ok a => Q a
  | .panic => P
  | .err => E
  | .deep => D

theorem Only.bind {P E D : Prop} {α β : Type _} {Q : α → Prop} {R : β → Prop} {r : Run α} {f : α → Run β}
    (h : Only P E D Q r) (hf : ∀ a, r = .ok a → Q a → Only P E D R (f a)) : Only P E D R (r.bind f) := by
  cases r with
  | ok a => exact hf a rfl h
  | _ => exact h

theorem Only.mono {P E D : Prop} {α : Type _} {Q R : α → Prop} {r : Run α} (h : Only P E D Q r) (hq : ∀ a, r = .ok a → Q a → R a) :
    Only P E D R r := by
  cases r with
  | ok a => exact hq a rfl h
  | _ => exact h

theorem Only.andThen {P E D : Prop} {a b : Step} {d d₁ e : Nat} (h : Only P E D (fun x => x.2 = d₁) (a d))
    (h' : Only P E D (fun x => x.2 = e) (b d₁)) : Only P E D (fun x => x.2 = e) ((a ⊹ b) d) := by
  unfold Step.andThen
  refine h.bind fun x _ hx => ?_
  rw [hx]
  exact h'.bind fun y _ hy => hy

theorem Only.mapAll {P E D : Prop} {α β : Type _} {Q : β → Prop} {f : α → Run β} {l : List α} (h : ∀ a ∈ l, Only P E D Q (f a)) :
    Only P E D (fun _ => True) (Run.mapAll f l) := by
  induction l with
  | nil => trivial
  | cons a l ih =>
    exact (h a (by simp)).bind fun _ _ _ => (ih fun b hb => h b (by simp [hb])).bind fun _ _ _ => trivial

theorem Only.run {P E D : Prop} {Q : Str → Prop} {r : Run Str} {d : Nat} (h : Only P E D Q r) :
    Only P E D (fun x => x.2 = d) (Step.run r d) := h.bind fun _ _ _ => rfl

/-- An object is written at any width but zero, in any state, and the indentation is kept; or it is one of these. -/
def WritesOnly (P E D : Prop) (wo : Nat → TurtleFlags → Object → Step) (o : Object) : Prop :=
  ∀ w f d, 0 < w → Only P E D (fun x => x.2 = d) (wo w f o d)

section
variable {P E D : Prop} {env : TurtleEnv} {wo : Nat → TurtleFlags → Object → Step}

theorem outdent_only {w d : Nat} (hw : 0 < w) (hd : w ≤ d) : Only P E D (fun x => x.2 = d - w) (Step.outdent w d) := by
  rw [outdent_ok hw hd]
  rfl

theorem writeObjectAnd_only {w m d : Nat} {f : TurtleFlags}
    {o : Object} (ho : WritesOnly P E D wo o) (hw : 0 < w) (hd : f.lastSubject → w ≤ d) :
    Only P E D (fun x => x.2 = if f.lastPredicate && f.lastSubject then d - w else d) (writeObjectAnd wo w m f o d) := by
  unfold writeObjectAnd
  refine (ho w f d hw).andThen ?_
  by_cases hp : f.lastPredicate
  · rw [if_pos hp]
    by_cases hs : f.lastSubject
    · simp only [hs, hp, if_true, Bool.and_self]
      refine Only.andThen (outdent_only hw (hd hs)) ?_
      by_cases h0 : d - w = 0
      · simp [h0, Step.andThen, Step.text, newLine, Only]
      · simp [h0, Step.nop, Only]
    · simp only [hs, hp, if_false, Bool.and_false, Bool.false_eq_true]
      refine Only.andThen (d₁ := d) rfl ?_
      by_cases h0 : d = 0
      · simp [h0, Step.andThen, Step.text, newLine, Only]
      · simp [h0, Step.text, Only]
  · rw [if_neg hp]
    simp only [hp, Bool.false_and, if_false, Bool.false_eq_true]
    refine Only.andThen (d₁ := d) rfl ?_
    split
    · rfl
    · refine Only.andThen (d₁ := d + w) (Only.andThen (d₁ := d + w) (Only.andThen (d₁ := d + w) rfl rfl) ?_) ?_
      · split <;> rfl
      · have := outdent_only (P := P) (E := E) (D := D) hw (Nat.le_add_left w d)
        rwa [Nat.add_sub_cancel] at this

theorem writeObjects_only {w m d : Nat} {f : TurtleFlags}
    {os : List Object} (ho : ∀ o ∈ os, WritesOnly P E D wo o) (hn : os ≠ []) (hw : 0 < w)
    (hd : f.lastSubject → w ≤ d) :
    Only P E D (fun x => x.2 = if f.lastSubject then d - w else d) (writeObjects wo w m f os d) := by
  induction os with
  | nil => exact absurd rfl hn
  | cons o os ih =>
    unfold writeObjects
    have h1 := writeObjectAnd_only (m := m) (f := { f with
        nextBlank := firstIsBlank os
        lastPredicate := os.isEmpty }) (ho o (by simp)) hw hd
    refine h1.andThen ?_
    cases os with
    | nil => simp [writeObjects, Step.nop, Only]
    | cons x os =>
      simp only [List.isEmpty_cons, Bool.false_and, if_false, Bool.false_eq_true]
      exact ih (fun o h => ho o (by simp [List.mem_cons.1 h])) (by simp)

theorem sortedObjects_only {s : Subject} {p : Iri} (h : ∀ o ∈ env.orders.obj s p (env.graph.objectsFor s p), WritesOnly P E D wo o) :
    Only P E D (fun l => l.Perm (env.orders.obj s p (env.graph.objectsFor s p))) (sortedObjects env wo s p) := by
  have hp : ∀ l, sortedObjects env wo s p = .ok l → l.Perm (env.orders.obj s p (env.graph.objectsFor s p)) :=
    fun l => sortedObjects_perm
  refine Only.mono (Q := fun _ => True) ?_ fun l hl _ => hp l hl
  unfold sortedObjects
  dsimp only
  split
  · refine (Only.mapAll (Q := fun _ => True) fun o ho => ?_).bind fun _ _ _ => trivial
    have := h o ho 2 { TurtleFlags.none with sorted := true } 0 (by omega)
    unfold objectSortKey
    cases hk : wo 2 { TurtleFlags.none with sorted := true } o 0 with
    | ok _ => trivial
    | err => trivial
    | panic => rw [hk] at this; exact this
    | deep => rw [hk] at this; exact this
  · trivial

/-- The short form of an IRI can be looked up, with these exceptions. -/
abbrev Found (P E D : Prop) (env : TurtleEnv) (i : Iri) : Prop := Only P E D (fun _ => True) (compressIri env i)

theorem sortPredicates_only {ps : List Iri} (h : ∀ p ∈ ps, Found P E D env p) (he : ∀ p ∈ ps, 2 ≤ ps.length → compressIri env p = .err → P) :
    Only P E D (fun _ => True) (sortPredicates env ps) := by
  unfold sortPredicates
  split
  · trivial
  · rename_i hl
    refine (Only.mapAll (Q := fun _ => True) fun p hp => ?_).bind fun _ _ _ => trivial
    have h1 := h p hp
    have h2 := he p hp (by omega)
    unfold predicateKey
    cases hc : compressIri env p with
    | ok _ => trivial
    | err => exact h2 hc
    | panic => rw [Found, hc] at h1; exact h1
    | deep => rw [Found, hc] at h1; exact h1

theorem predicateSequence_only {ps : List Iri} (hnd : ps.Nodup) (h : ∀ p ∈ ps, Found P E D env p)
    (he : ∀ p ∈ ps, ∀ q ∈ ps, p ≠ q → groupOf p = groupOf q → compressIri env p = .err → P) :
    Only P E D (fun l => l.Perm (ps.map fun p => (groupOf p, p))) (predicateSequence env ps) := by
  refine Only.mono (Q := fun _ => True) ?_ fun l hl _ => predicateSequence_perm hl
  unfold predicateSequence
  refine (Only.mapAll (Q := fun _ => True) fun e hm => ?_).bind fun _ _ _ => trivial
  have hm' := (sortBy_perm _ _).mem_iff.1 hm
  have hmem : e.2 ∈ (chunkBy groupOf ps).map (·.2) := List.mem_map.2 ⟨e, hm', rfl⟩
  have hps : ∀ p ∈ e.2, p ∈ ps := by
    intro p hp
    rw [← chunkBy_flatten groupOf ps]
    exact List.mem_flatten.2 ⟨e.2, hmem, hp⟩
  have hk := chunkBy_key groupOf ps e hm'
  have hnd' : e.2.Nodup := by
    rw [← chunkBy_flatten groupOf ps] at hnd
    exact (List.sublist_flatten_of_mem hmem).nodup hnd
  refine (sortPredicates_only (fun p hp => h p (hps p hp)) fun p hp hl hc => ?_).bind fun _ _ _ => trivial
  obtain ⟨q, hq, hpq⟩ : ∃ q ∈ e.2, p ≠ q := by
    match e.2, hnd', hp, hl with
    | a :: b :: l, hnd, hp, _ =>
      have hab : a ≠ b := by intro h; simp [h] at hnd
      by_cases ha : p = a
      · exact ⟨b, by simp, ha ▸ hab⟩
      · exact ⟨a, by simp, ha⟩
  exact he p (hps p hp) q (hps q hq) hpq ((hk p hp).trans (hk q hq).symm) hc

theorem writeVerb_only {g : PredGroup} {p : Iri} {m d : Nat} {f : TurtleFlags}
    (ht : g = .type → env.opts.typeA = false → Found P E D env rdfType) (hp : Found P E D env p) :
    Only P E D (fun x => x.2 = d) (writeVerb env g p m f d) := by
  unfold writeVerb
  split
  · rename_i hg
    have hv : Only P E D (fun _ => True) (if env.opts.typeA then Run.ok (str! "a") else compressIri env rdfType) := by
      split
      · trivial
      · rename_i ha
        exact ht hg (by simpa using ha)
    dsimp only
    split
    · exact Only.run (hv.bind (R := fun _ => True) fun _ _ _ => trivial)
    · exact Only.andThen (d₁ := d) rfl (Only.run (hv.bind (R := fun _ => True) fun _ _ _ => trivial))
  · exact Only.andThen (d₁ := d) rfl (Only.run (hp.bind (R := fun _ => True) fun _ _ _ => trivial))

theorem writePredicate_only {w m d : Nat} {s : Subject} {f : TurtleFlags} {g : PredGroup} {p : Iri}
    (ht : g = .type → env.opts.typeA = false → Found P E D env rdfType) (hp : Found P E D env p)
    (h : ∀ o ∈ env.orders.obj s p (env.graph.objectsFor s p), WritesOnly P E D wo o)
    (hn : env.orders.obj s p (env.graph.objectsFor s p) ≠ []) (hw : 0 < w) (hd : f.lastSubject → w ≤ d) :
    Only P E D (fun x => x.2 = if f.lastSubject then d - w else d) (writePredicate env wo w s m f g p d) := by
  refine Only.andThen (writeVerb_only ht hp) ?_
  refine (sortedObjects_only h).bind fun l _ hperm => ?_
  exact writeObjects_only (fun o ho => h o (hperm.mem_iff.1 ho))
    (fun e => hn (by rw [e] at hperm; exact hperm.nil_eq.symm)) hw hd

theorem writePredicateLoop_only {w m d : Nat} {s : Subject} {f : TurtleFlags} {total count : Nat} {l : List (PredGroup × Iri)}
    (h : ∀ e ∈ l, (e.1 = .type → env.opts.typeA = false → Found P E D env rdfType) ∧ Found P E D env e.2 ∧
      env.orders.obj s e.2 (env.graph.objectsFor s e.2) ≠ [] ∧
      ∀ o ∈ env.orders.obj s e.2 (env.graph.objectsFor s e.2), WritesOnly P E D wo o)
    (hn : l ≠ []) (hw : 0 < w) (hd : w ≤ d) (hc : count + l.length = total) :
    Only P E D (fun x => x.2 = d - w) (writePredicateLoop env wo w s m total f count l d) := by
  induction l generalizing count with
  | nil => exact absurd rfl hn
  | cons e l ih =>
    obtain ⟨g, p⟩ := e
    obtain ⟨h0, h1, h2, h3⟩ := h (g, p) (by simp)
    unfold writePredicateLoop
    refine Only.andThen (writePredicate_only h0 h1 h3 h2 hw fun _ => hd) ?_
    cases l with
    | nil =>
      have : (count + 1 == total) = true := by simp at hc; simp [hc]
      simp [this, writePredicateLoop, Step.nop, Only]
    | cons e' l =>
      have : (count + 1 == total) = false := by simp at hc ⊢; omega
      simp only [this, if_false, Bool.false_eq_true]
      exact ih (fun e he => h e (by simp [List.mem_cons.1 he])) (by simp) (by simp at hc ⊢; omega)

/-- What can go wrong with the predicates of the graph. -/
structure PredicatesOnly (P E D : Prop) (env : TurtleEnv) : Prop where
  type : ∀ s p o, Stmt.mk s p o ∈ env.graph.stmts → groupOf p = .type → env.opts.typeA = false → Found P E D env rdfType
  found : ∀ s p o, Stmt.mk s p o ∈ env.graph.stmts → Found P E D env p
  sorted : SortedError env → P

theorem mapAll_each {α β : Type _} {f : α → Run β} {l : List α} {l' : List β} (h : Run.mapAll f l = .ok l') :
    ∀ a ∈ l, ∃ b, f a = .ok b := by
  rw [Run.mapAll_ok] at h
  induction h with
  | nil => simp
  | cons h _ ih =>
    intro a ha
    rcases List.mem_cons.1 ha with rfl | ha
    · exact ⟨_, h⟩
    · exact ih a ha

theorem writePredicates_only {w d : Nat} {s : Subject} {f : TurtleFlags} (hfair : env.orders.Fair) (hp : PredicatesOnly P E D env)
    (h : ∀ p o, Stmt.mk s p o ∈ env.graph.stmts → WritesOnly P E D wo o)
    (hs : env.graph.containsSubject s) (hw : 0 < w) (hd : w ≤ d) :
    Only P E D (fun x => x.2 = d - w) (writePredicates env wo w f s d) := by
  have hps : ∀ p ∈ env.orders.pred s (env.graph.predicatesFor s), ∃ o, Stmt.mk s p o ∈ env.graph.stmts :=
    fun p hp => mem_predicatesFor.1 ((hfair.2.1 s _).mem_iff.1 hp)
  have hf : ∀ p ∈ env.orders.pred s (env.graph.predicatesFor s), Found P E D env p := fun p h => by
    obtain ⟨o, ho⟩ := hps p h
    exact hp.found s p o ho
  unfold writePredicates
  dsimp only
  have h1 : Only P E D (fun _ => env.opts.padding = true ∨ ∀ p ∈ env.orders.pred s (env.graph.predicatesFor s), ∃ t, compressIri env p = .ok t)
      (if env.opts.padding then .ok 0 else
        (maxLenPredicates env (env.orders.pred s (env.graph.predicatesFor s))).bind fun n => .ok (1 + n)) := by
    split
    · rename_i hpad; exact .inl hpad
    · unfold maxLenPredicates
      refine Only.bind (Q := fun _ => ∀ p ∈ env.orders.pred s (env.graph.predicatesFor s), ∃ t, compressIri env p = .ok t)
        ((Only.mapAll hf).bind fun l hl _ => ?_) fun _ _ h => .inr h
      exact mapAll_each hl
  refine h1.bind fun m _ hm => ?_
  have hnd : (env.orders.pred s (env.graph.predicatesFor s)).Nodup := ((hfair.2.1 s _).nodup_iff).2 (setOf_nodup _)
  refine (predicateSequence_only hnd hf fun p hp' q hq hpq hg hc => ?_).bind fun l _ hperm => ?_
  · obtain ⟨o, ho⟩ := hps p hp'
    obtain ⟨o', ho'⟩ := hps q hq
    rcases hm with hm | hm
    · exact hp.sorted ⟨hm, s, p, o, q, o', ho, ho', hpq, hg, hc⟩
    · obtain ⟨t, ht⟩ := hm p hp'
      rw [hc] at ht; cases ht
  · have hlen : l.length = (env.orders.pred s (env.graph.predicatesFor s)).length := by simpa using hperm.length_eq
    have hne : l ≠ [] := by
      intro e
      rw [e] at hlen
      obtain ⟨p, o, ho⟩ := containsSubject_iff.1 hs
      have hm : p ∈ env.orders.pred s (env.graph.predicatesFor s) :=
        (hfair.2.1 s _).mem_iff.2 (mem_predicatesFor.2 ⟨o, ho⟩)
      have := List.length_pos_of_mem hm
      simp at hlen; omega
    refine writePredicateLoop_only (fun e he => ?_) hne hw hd (by omega)
    obtain ⟨p, hp', rfl⟩ := List.mem_map.1 (hperm.mem_iff.1 he)
    obtain ⟨o, ho⟩ := hps p hp'
    refine ⟨hp.type s p o ho, hf p hp', List.ne_nil_of_mem ((hfair.2.2 s p _).mem_iff.2 (mem_objectsFor.2 ho)), fun o ho => ?_⟩
    exact h p o (mem_objectsFor.1 ((hfair.2.2 s p _).mem_iff.1 ho))

theorem writeMembers_only {w d : Nat} {f : TurtleFlags} {c : List Object} (h : ∀ o ∈ c, WritesOnly P E D wo o) (hw : 0 < w) :
    Only P E D (fun x => x.2 = d) (writeMembers wo w f c d) := by
  induction c with
  | nil => rfl
  | cons o c ih =>
    exact Only.andThen (d₁ := d) (Only.andThen (h o (by simp) w f d hw) rfl) (ih fun o ho => h o (by simp [ho]))

theorem writeCollection_only {w d : Nat} {f : TurtleFlags} {c : List Object} (h : ∀ o ∈ c, WritesOnly P E D wo o) (hw : 0 < w) :
    Only P E D (fun x => x.2 = d) (writeCollection env wo w f c d) := by
  unfold writeCollection
  split
  · rfl
  · have h1 := Only.andThen (P := P) (E := E) (D := D) (a := .indent w ⊹ .text (str! "(") ⊹ newLine f) (d := d) (d₁ := d + w)
      (b := writeMembers wo w f c) (e := d + w)
      (Only.andThen (d₁ := d + w) (Only.andThen (d₁ := d + w) rfl rfl) rfl) (writeMembers_only h hw)
    have ho : Only P E D (fun x => x.2 = d) (Step.outdent w (d + w)) := by
      have := outdent_only (P := P) (E := E) (D := D) hw (Nat.le_add_left w d)
      rwa [Nat.add_sub_cancel] at this
    split
    · exact Only.andThen (d₁ := d) (Only.andThen (d₁ := d) (Only.andThen (d₁ := d) (Only.andThen h1 ho) rfl) rfl) rfl
    · exact Only.andThen (d₁ := d + w) (Only.andThen (d₁ := d + w) (Only.andThen (d₁ := d + w) (Only.andThen (d₁ := d + w) h1 rfl) rfl) rfl) ho

theorem writeProperties_only {w d : Nat} {b : Str} {f : TurtleFlags} (hfair : env.orders.Fair) (hp : PredicatesOnly P E D env)
    (h : ∀ p o, Stmt.mk (.blank b) p o ∈ env.graph.stmts → WritesOnly P E D wo o)
    (hs : env.graph.containsSubject (.blank b)) (hw : 0 < w) :
    Only P E D (fun x => x.2 = d) (writeProperties env wo w f b d) := by
  have := writePredicates_only (f := f) (d := d + w) hfair hp h hs hw (by omega)
  rw [Nat.add_sub_cancel] at this
  exact Only.andThen (d₁ := d) (Only.andThen (d₁ := d) (Only.andThen (Only.andThen (d₁ := d + w) rfl rfl) this) rfl) rfl

/-- What can go wrong with an object. -/
def AsksOnly (P E D : Prop) (env : TurtleEnv) (o : Object) : Prop := ∀ r, ObjectAsks env o r → Only P E D (fun _ => True) r

/-- What can go wrong with the objects of the graph. -/
def ObjectsOnly (P E D : Prop) (env : TurtleEnv) : Prop :=
  ∀ s p o, Stmt.mk s p o ∈ env.graph.stmts → AsksOnly P E D env o

theorem writeObject_only (hfair : env.orders.Fair) (hp : PredicatesOnly P E True env) (ho : ObjectsOnly P E True env) :
    ∀ (n : Nat) (o : Object), AsksOnly P E True env o → WritesOnly P E True (writeObject env n) o
  | 0, _, _ => fun _ _ _ _ => trivial
  | n + 1, .blank b, _ => by
    intro w f d hw
    simp only [writeObject, writeObjectStep]
    split
    · split
      · rename_i hs
        exact writeProperties_only hfair hp (fun p o hm => writeObject_only hfair hp ho n o (ho _ p o hm)) hs hw
      · rfl
    · rfl
  | n + 1, .res i, h => fun w f d hw => Only.run (h _ (.res i))
  | n + 1, .lit l, h => fun w f d hw => Only.run (h _ (.lit l))
  | n + 1, .coll c, h => fun w f d hw =>
    writeCollection_only (fun o hm => writeObject_only hfair hp ho n o fun r hr => h r (.member c o r hm hr)) hw
  | n + 1, .stmt t, h => fun w f d hw => h _ (.stmt t)

/-- Deep enough for the object. -/
def EnoughOnly (P E : Prop) (env : TurtleEnv) (o : Object) : Prop := ∃ n, ∀ m, n ≤ m → WritesOnly P E False (writeObject env m) o

theorem enoughOnly_all {l : List Object} (h : ∀ o ∈ l, EnoughOnly P E env o) :
    ∃ n, ∀ m, n ≤ m → ∀ o ∈ l, WritesOnly P E False (writeObject env m) o := by
  induction l with
  | nil => exact ⟨0, by simp⟩
  | cons a l ih =>
    obtain ⟨n, hn⟩ := h a (by simp)
    obtain ⟨k, hk⟩ := ih fun o ho => h o (by simp [ho])
    refine ⟨max n k, fun m hm o ho => ?_⟩
    rcases List.mem_cons.1 ho with rfl | ho
    · exact hn m (by omega)
    · exact hk m (by omega) o ho

theorem enoughOnly_of_blanks : ∀ {o : Object}, AsksOnly P E False env o → (∀ b, HasBlank o b → EnoughOnly P E env (.blank b)) →
    EnoughOnly P E env o
  | .blank b, _, hb => hb b (.self b)
  | .res i, h, _ => by
    refine ⟨1, fun m hm w f d _ => ?_⟩
    obtain ⟨k, rfl⟩ : ∃ k, m = k + 1 := ⟨m - 1, by omega⟩
    exact Only.run (h _ (.res i))
  | .lit l, h, _ => by
    refine ⟨1, fun m hm w f d _ => ?_⟩
    obtain ⟨k, rfl⟩ : ∃ k, m = k + 1 := ⟨m - 1, by omega⟩
    exact Only.run (h _ (.lit l))
  | .stmt t, h, _ => by
    refine ⟨1, fun m hm w f d _ => ?_⟩
    obtain ⟨k, rfl⟩ : ∃ k, m = k + 1 := ⟨m - 1, by omega⟩
    exact h _ (.stmt t)
  | .coll c, h, hb => by
    obtain ⟨n, hn⟩ := enoughOnly_all (l := c) fun o ho =>
      enoughOnly_of_blanks (fun r hr => h r (.member c o r ho hr)) fun b h => hb b (.member c o b ho h)
    refine ⟨n + 1, fun m hm w f d hw => ?_⟩
    obtain ⟨k, rfl⟩ : ∃ k, m = k + 1 := ⟨m - 1, by omega⟩
    exact writeCollection_only (hn k (by omega)) hw

theorem enoughOnly_undescribed {b : Str} (hs : env.opts.nest = true → env.graph.containsSubject (.blank b) = false) :
    EnoughOnly P E env (.blank b) := by
  refine ⟨1, fun m hm w f d _ => ?_⟩
  obtain ⟨k, rfl⟩ : ∃ k, m = k + 1 := ⟨m - 1, by omega⟩
  by_cases hn : env.opts.nest
  · simp [writeObject, writeObjectStep, hn, hs hn, Step.text, Only]
  · simp [writeObject, writeObjectStep, hn, Step.text, Only]

theorem enoughOnly_blank (hfair : env.orders.Fair) (hp : PredicatesOnly P E False env) (ho : ObjectsOnly P E False env) {b : Str}
    (ha : Acc (Points env.graph) b) : EnoughOnly P E env (.blank b) := by
  induction ha with
  | intro b _ ih =>
    by_cases hs : env.graph.containsSubject (.blank b)
    swap
    · exact enoughOnly_undescribed fun _ => by simpa using hs
    by_cases hn : env.opts.nest
    swap
    · exact enoughOnly_undescribed fun h => absurd h hn
    have h1 : ∀ t ∈ env.graph.stmts.filter (fun t : Stmt => t.subject == .blank b), EnoughOnly P E env t.object := by
      rintro ⟨s, p, o⟩ ht
      simp [Stmt.subject] at ht
      obtain ⟨ht, rfl⟩ := ht
      refine enoughOnly_of_blanks (ho _ p o ht) fun c hc => ?_
      by_cases hcs : env.graph.containsSubject (.blank c)
      · exact ih c ⟨⟨p, o, ht, hc⟩, containsSubject_iff.1 hcs⟩
      · exact enoughOnly_undescribed fun _ => by simpa using hcs
    obtain ⟨n, hn'⟩ := enoughOnly_all (env := env) (P := P) (E := E)
      (l := (env.graph.stmts.filter (fun t : Stmt => t.subject == .blank b)).map Stmt.object)
      (fun o ho => by
        obtain ⟨t, ht, rfl⟩ := List.mem_map.1 ho
        exact h1 t ht)
    refine ⟨n + 1, fun m hm w f d hw => ?_⟩
    obtain ⟨k, rfl⟩ : ∃ k, m = k + 1 := ⟨m - 1, by omega⟩
    simp only [writeObject, writeObjectStep, hn, hs, if_true]
    exact writeProperties_only hfair hp (fun p o hm' => hn' k (by omega) o
      (List.mem_map.2 ⟨_, List.mem_filter.2 ⟨hm', by simp [Stmt.subject]⟩, rfl⟩)) hs hw

theorem enoughOnly_graph (hfair : env.orders.Fair) (hp : PredicatesOnly P E False env) (ho : ObjectsOnly P E False env)
    (ha : env.opts.nest = true → NoEndlessChain env.graph) :
    ∃ n, ∀ m, n ≤ m → ∀ s p o, Stmt.mk s p o ∈ env.graph.stmts → WritesOnly P E False (writeObject env m) o := by
  have h1 : ∀ t ∈ env.graph.stmts, EnoughOnly P E env t.object := by
    rintro ⟨s, p, o⟩ ht
    refine enoughOnly_of_blanks (ho _ p o ht) fun c hc => ?_
    by_cases hn : env.opts.nest
    · exact enoughOnly_blank hfair hp ho (ha hn c)
    · exact enoughOnly_undescribed fun h => absurd h hn
  obtain ⟨n, h⟩ := enoughOnly_all (env := env) (P := P) (E := E) (l := env.graph.stmts.map Stmt.object) (fun o ho => by
    obtain ⟨t, ht, rfl⟩ := List.mem_map.1 ho
    exact h1 t ht)
  exact ⟨n, fun m hm s p o ho => h m hm o (List.mem_map.2 ⟨_, ho, rfl⟩)⟩

/-- What can go wrong with the subjects of the graph. -/
def SubjectsOnly (P E D : Prop) (env : TurtleEnv) : Prop :=
  ∀ s p o, Stmt.mk s p o ∈ env.graph.stmts → ∀ r, SubjectAsks env s r → Only P E D (fun _ => True) r

theorem writeBlock_only (hfair : env.orders.Fair) (hp : PredicatesOnly P E D env) (hsub : SubjectsOnly P E D env) {n w : Nat} (hw : 0 < w)
    (h : ∀ s p o, Stmt.mk s p o ∈ env.graph.stmts → WritesOnly P E D (writeObject env n) o)
    {s : Subject} (hs : env.graph.containsSubject s) (d : Nat) :
    Only P E D (fun x => x.2 = d) (writeBlock env n w s d) := by
  have h1 := writePredicates_only (f := .none) (d := d + w) hfair hp (fun p o hm => h s p o hm) hs hw (by omega)
  rw [Nat.add_sub_cancel] at h1
  refine Only.andThen (d₁ := d) (Only.andThen (d₁ := d + w) ?_ h1) rfl
  obtain ⟨p, o, hm⟩ := containsSubject_iff.1 hs
  have h2 := hsub s p o hm
  unfold writeSubject
  refine Only.andThen (d₁ := d) ?_ rfl
  cases s with
  | blank b =>
    by_cases h0 : d = 0
    · simp [h0, Only]
    · simp [h0, Step.nop, Only]
  | res i => exact Only.run (h2 _ (.res i))
  | stmt t => exact h2 _ (.stmt t)

theorem writeNodes_only {n w d : Nat} {l : List Subject} (h : ∀ s ∈ l, ∀ d, Only P E D (fun x => x.2 = d) (writeBlock env n w s d)) :
    Only P E D (fun x => x.2 = d) (writeNodes env n w l d) := by
  induction l with
  | nil => rfl
  | cons s l ih => exact Only.andThen (h s (by simp) d) (ih fun s hs => h s (by simp [hs]))

theorem writeBlanks_only {n w d : Nat} {l : List Subject} (h : ∀ s ∈ l, ∀ d, Only P E D (fun x => x.2 = d) (writeBlock env n w s d)) :
    Only P E D (fun _ => True) (writeBlanks env n w l d) := by
  induction l generalizing d with
  | nil => trivial
  | cons s l ih =>
    have h1 := Only.andThen (P := P) (E := E) (D := D) (a := .reset) (d := d) (d₁ := 0) rfl (h s (by simp) 0)
    exact h1.bind fun x _ _ => (ih fun s hs => h s (by simp [hs])).bind fun _ _ _ => trivial

theorem writeTriples_only (hfair : env.orders.Fair) (hp : PredicatesOnly P E D env) (hsub : SubjectsOnly P E D env)
    (hw : 0 < env.opts.width) {n d : Nat}
    (h : ∀ s p o, Stmt.mk s p o ∈ env.graph.stmts → WritesOnly P E D (writeObject env n) o) :
    Only P E D (fun _ => True) (writeTriples env n d) := by
  have hb : ∀ s, env.graph.containsSubject s → ∀ d, Only P E D (fun x => x.2 = d) (writeBlock env n env.opts.width s d) :=
    fun s hs d => writeBlock_only hfair hp hsub hw h hs d
  have h1 := writeNodes_only (d := d) (l := sortedSubjects env.graph)
    (fun s hs d => hb s (mem_nodeSubjects.1 ((sortBy_perm _ _).mem_iff.1 hs)).1 d)
  refine h1.bind fun x _ _ => ?_
  have h2 := writeBlanks_only (d := x.2) (l := env.orders.subj env.graph.blankSubjects)
    (fun s hs d => hb s (mem_blankSubjects.1 ((hfair.1 _).mem_iff.1 hs)).1 d)
  exact h2.bind fun _ _ _ => trivial

end

/-! ### Nothing that is looked up is too deep -/

theorem compressIri_deep {env : TurtleEnv} {i : Iri} : compressIri env i ≠ .deep := by
  unfold compressIri
  split
  · simp
  · split
    · simp
    · split <;> simp

theorem writeLiteral_deep {env : TurtleEnv} {l : Literal} : writeLiteral env l ≠ .deep := by
  have hs : turtleSuffix env l ≠ .deep := by
    unfold turtleSuffix
    split
    · rename_i t _ _
      have := compressIri_deep (env := env) (i := t.asIri)
      cases h : compressIri env t.asIri <;> simp_all [Run.bind]
    · simp
    · simp
  have hb : ((turtleSuffix env l).bind fun s => Run.ok ('"' :: escapeString env.pr l.lexicalForm ++ '"' :: s)) ≠ .deep := by
    cases h : turtleSuffix env l <;> simp_all [Run.bind]
  unfold writeLiteral
  split
  · split
    · cases env.url l.lexicalForm with
      | none => simp [Run.ofOption, Run.bind]
      | some i => exact compressIri_deep
    · split
      · simp
      · exact hb
  · exact hb

end Rdftk
