import Verif.Lemmas.TurtleEnd

/-! Order of the predicates, and the indentation after each step of the Turtle writer. -/

namespace Rdftk
open Spec

/-! ### Stable sorting by rank -/

theorem insertBy_sorted {α : Type _} (r : α → Nat) (a : α) (l : List α)
    (h : l.Pairwise fun x y => r x ≤ r y) :
    (insertBy (fun x y => decide (r x ≤ r y)) a l).Pairwise fun x y => r x ≤ r y := by
  induction l with
  | nil => simp [insertBy]
  | cons b l ih =>
    obtain ⟨h1, h2⟩ := List.pairwise_cons.1 h
    unfold insertBy
    split
    · rename_i hab
      simp at hab
      refine List.pairwise_cons.2 ⟨fun y hy => ?_, h⟩
      rcases List.mem_cons.1 hy with rfl | hy
      · exact hab
      · exact Nat.le_trans hab (h1 y hy)
    · rename_i hab
      simp at hab
      refine List.pairwise_cons.2 ⟨fun y hy => ?_, ih h2⟩
      rcases List.mem_cons.1 ((insertBy_perm _ a l).mem_iff.1 hy) with rfl | hy
      · omega
      · exact h1 y hy

theorem sortBy_sorted {α : Type _} (r : α → Nat) (l : List α) :
    (sortBy (fun x y => decide (r x ≤ r y)) l).Pairwise fun x y => r x ≤ r y := by
  induction l with
  | nil => exact .nil
  | cons a l ih => exact insertBy_sorted r a _ ih

theorem insertBy_filter {α : Type _} (r : α → Nat) (a : α) (l : List α) (k : Nat) :
    (insertBy (fun x y => decide (r x ≤ r y)) a l).filter (fun x => r x == k) =
      (a :: l).filter fun x => r x == k := by
  induction l with
  | nil => rfl
  | cons b l ih =>
    unfold insertBy
    split
    · rfl
    · rename_i hab
      simp at hab
      simp only [List.filter_cons, ih]
      by_cases h1 : r b = k
      · have : ¬ r a = k := by omega
        simp [h1, this]
      · simp [h1]

theorem sortBy_filter {α : Type _} (r : α → Nat) (l : List α) (k : Nat) :
    (sortBy (fun x y => decide (r x ≤ r y)) l).filter (fun x => r x == k) =
      l.filter fun x => r x == k := by
  induction l with
  | nil => rfl
  | cons a l ih =>
    rw [sortBy, insertBy_filter, List.filter_cons, List.filter_cons, ih]

/-- A sorted list is its parts one after the other. -/
theorem sorted_parts {α : Type _} (r : α → Nat) (l : List α) (h : l.Pairwise fun x y => r x ≤ r y)
    (n : Nat) (hn : ∀ x ∈ l, r x < n) :
    l = (List.range n).flatMap fun k => l.filter fun x => r x == k := by
  induction n generalizing l with
  | zero =>
    cases l with
    | nil => rfl
    | cons a l => exact absurd (hn a (by simp)) (by omega)
  | succ n ih =>
    rw [List.range_succ, List.flatMap_append]
    have h1 : l = l.filter (fun x => decide (r x < n)) ++ l.filter (fun x => r x == n) := by
      clear ih
      induction l with
      | nil => rfl
      | cons a l ih =>
        obtain ⟨h1, h2⟩ := List.pairwise_cons.1 h
        have ih := ih h2 fun x hx => hn x (by simp [hx])
        by_cases ha : r a < n
        · have ha' : ¬ r a = n := by omega
          simp only [List.filter_cons, ha, decide_true, if_true, List.cons_append,
            beq_iff_eq, ha', if_false]
          rw [← ih]
        · have ha' : r a = n := by have := hn a (by simp); omega
          have hl : l.filter (fun x => decide (r x < n)) = [] := by
            rw [List.filter_eq_nil_iff]
            intro x hx
            have := h1 x hx
            simp; omega
          rw [hl] at ih
          rw [List.filter_cons_of_neg (by simpa using ha), List.filter_cons_of_pos (by simpa using ha'),
            hl, List.nil_append]
          rw [List.nil_append] at ih
          rw [← ih]
    have h2 := ih (l.filter fun x => decide (r x < n)) (h.filter _) (by simp)
    have h3 : ((List.range n).flatMap fun k => (l.filter fun x => decide (r x < n)).filter fun x => r x == k) =
        (List.range n).flatMap fun k => l.filter fun x => r x == k := by
      apply List.flatMap_congr
      intro k hk
      have hk := List.mem_range.1 hk
      rw [List.filter_filter]
      apply List.filter_congr
      intro x _
      by_cases e : r x = k
      · simp [e, hk]
      · simp [e]
    rw [h3] at h2
    simp only [List.flatMap_cons, List.flatMap_nil, List.append_nil]
    rw [← h2]
    exact h1

theorem chunkBy_filter {α κ : Type _} [DecidableEq κ] (key : α → κ) (k : κ) (l : List α) :
    ((chunkBy key l).filter fun e => e.1 == k).flatMap (·.2) = l.filter fun a => key a == k := by
  have h2 : ∀ m : List (κ × List α), (∀ e ∈ m, ∀ a ∈ e.2, key a = e.1) →
      (m.filter fun e => e.1 == k).flatMap (·.2) = ((m.map (·.2)).flatten).filter fun a => key a == k := by
    intro m hm
    induction m with
    | nil => rfl
    | cons e m ih =>
      have ih := ih fun e he => hm e (by simp [he])
      simp only [List.map_cons, List.flatten_cons, List.filter_append, ← ih, List.filter_cons]
      have he := hm e (by simp)
      by_cases hk : e.1 = k
      · simp only [hk, beq_self_eq_true, if_true, List.flatMap_cons]
        congr 1
        rw [List.filter_eq_self.2]
        intro a ha
        simp [he a ha, hk]
      · simp only [beq_iff_eq, hk, if_false]
        have : e.2.filter (fun a => key a == k) = [] := by
          rw [List.filter_eq_nil_iff]
          intro a ha
          simp [he a ha, hk]
        rw [this, List.nil_append]
  rw [h2 _ (chunkBy_key key l), chunkBy_flatten]

/-! ### Indentation -/

/-- Objects leave the indentation as it was. -/
def Keeps (wo : Nat → TurtleFlags → Object → Step) : Prop :=
  ∀ w f o d t e, wo w f o d = .ok (t, e) → e = d

theorem outdent_eq {w d : Nat} {t : Str} {e : Nat} (h : Step.outdent w d = .ok (t, e)) :
    t = [] ∧ w ≤ d ∧ e = d - w := by
  unfold Step.outdent at h
  split at h
  · simp at h
  · split at h
    · simp at h
    · simp at h; obtain ⟨rfl, rfl⟩ := h; exact ⟨rfl, by omega, rfl⟩

theorem text_eq {s : Str} {d : Nat} {t : Str} {e : Nat} (h : Step.text s d = .ok (t, e)) :
    t = s ∧ e = d := by simp [Step.text] at h; exact ⟨h.1.symm, h.2.symm⟩

theorem nop_eq {d : Nat} {t : Str} {e : Nat} (h : Step.nop d = .ok (t, e)) : t = [] ∧ e = d := by
  simp [Step.nop] at h; exact ⟨h.1, h.2.symm⟩

theorem run_eq {r : Run Str} {d : Nat} {t : Str} {e : Nat} (h : Step.run r d = .ok (t, e)) :
    r = .ok t ∧ e = d := by
  obtain ⟨s, h1, h2⟩ := Run.bind_ok.1 h
  simp at h2
  obtain ⟨rfl, rfl⟩ := h2
  exact ⟨h1, rfl⟩

theorem newLine_eq {f : TurtleFlags} {d : Nat} {t : Str} {e : Nat} (h : newLine f d = .ok (t, e)) :
    t = (if f.sorted then [' '] else '\n' :: List.replicate d ' ') ∧ e = d := by
  simp [newLine] at h; exact ⟨h.1.symm, h.2.symm⟩

theorem indent_eq {w d : Nat} {t : Str} {e : Nat} (h : Step.indent w d = .ok (t, e)) :
    t = [] ∧ e = d + w := by simp [Step.indent] at h; exact ⟨h.1, h.2.symm⟩

theorem writeObjectAnd_keeps {wo : Nat → TurtleFlags → Object → Step} (hk : Keeps wo) {w m d : Nat}
    {f : TurtleFlags} {o : Object} {t : Str} {e : Nat} (h : writeObjectAnd wo w m f o d = .ok (t, e)) :
    if f.lastPredicate && f.lastSubject then e + w = d else e = d := by
  obtain ⟨_, d₁, _, h1, h2, -⟩ := Step.andThen_ok.1 h
  obtain rfl := hk _ _ _ _ _ _ h1
  by_cases hp : f.lastPredicate
  · rw [if_pos hp] at h2
    by_cases hs : f.lastSubject
    · simp only [hs, hp, Bool.and_self, if_true] at h2 ⊢
      obtain ⟨_, d₂, _, h3, h4, -⟩ := Step.andThen_ok.1 h2
      obtain ⟨-, hle, rfl⟩ := outdent_eq h3
      split at h4
      · obtain ⟨_, _, _, h5, h6, -⟩ := Step.andThen_ok.1 h4
        have h5 := (text_eq h5).2
        have h6 := (newLine_eq h6).2
        omega
      · have := (nop_eq h4).2; omega
    · simp only [hs, hp, Bool.and_false, if_false, Bool.false_eq_true] at h2 ⊢
      obtain ⟨_, d₂, _, h3, h4, -⟩ := Step.andThen_ok.1 h2
      have h3 := (nop_eq h3).2
      split at h4
      · obtain ⟨_, _, _, h5, h6, -⟩ := Step.andThen_ok.1 h4
        have h5 := (text_eq h5).2
        have h6 := (newLine_eq h6).2
        omega
      · have := (text_eq h4).2; omega
  · rw [if_neg hp] at h2
    simp only [hp, Bool.false_and, if_false, Bool.false_eq_true] at h2 ⊢
    obtain ⟨_, d₂, _, h3, h4, -⟩ := Step.andThen_ok.1 h2
    have h3 := (text_eq h3).2
    split at h4
    · have := (nop_eq h4).2; omega
    · obtain ⟨_, d₃, _, h5, h6, -⟩ := Step.andThen_ok.1 h4
      obtain ⟨_, d₄, _, h7, h8, -⟩ := Step.andThen_ok.1 h5
      obtain ⟨_, d₅, _, h9, h10, -⟩ := Step.andThen_ok.1 h7
      have h9 := (indent_eq h9).2
      have h10 := (newLine_eq h10).2
      have h6 := outdent_eq h6
      have : d₃ = d₄ := by
        split at h8
        · exact (text_eq h8).2
        · exact (nop_eq h8).2
      omega

theorem writeObjects_keeps {wo : Nat → TurtleFlags → Object → Step} (hk : Keeps wo) {w m d : Nat}
    {f : TurtleFlags} {os : List Object} (hn : os ≠ []) {t : Str} {e : Nat}
    (h : writeObjects wo w m f os d = .ok (t, e)) : if f.lastSubject then e + w = d else e = d := by
  induction os generalizing d t with
  | nil => exact absurd rfl hn
  | cons o os ih =>
    obtain ⟨_, d₁, _, h1, h2, -⟩ := Step.andThen_ok.1 h
    have h1 := writeObjectAnd_keeps hk h1
    cases os with
    | nil =>
      have h2 := (nop_eq h2).2
      subst h2
      simpa using h1
    | cons x os =>
      simp only [List.isEmpty_cons, Bool.false_and, if_false, Bool.false_eq_true] at h1
      subst h1
      exact ih (by simp) h2

theorem writeVerb_keeps {env : TurtleEnv} {g : PredGroup} {p : Iri} {m d : Nat} {f : TurtleFlags}
    {t : Str} {e : Nat} (h : writeVerb env g p m f d = .ok (t, e)) : e = d := by
  unfold writeVerb at h
  dsimp only at h
  split at h
  · split at h
    · exact (run_eq h).2
    · obtain ⟨_, _, _, h1, h2, -⟩ := Step.andThen_ok.1 h
      rw [(run_eq h2).2, (newLine_eq h1).2]
  · obtain ⟨_, _, _, h1, h2, -⟩ := Step.andThen_ok.1 h
    rw [(run_eq h2).2, (newLine_eq h1).2]

theorem writePredicateLoop_keeps {env : TurtleEnv} {wo : Nat → TurtleFlags → Object → Step} (hk : Keeps wo)
    {w m d : Nat} {s : Subject} {f : TurtleFlags} {total count : Nat} {l : List (PredGroup × Iri)}
    (ho : ∀ e ∈ l, env.orders.obj s e.2 (env.graph.objectsFor s e.2) ≠ [])
    (hn : l ≠ []) (hc : count + l.length = total) {t : Str} {e : Nat}
    (h : writePredicateLoop env wo w s m total f count l d = .ok (t, e)) : e + w = d := by
  induction l generalizing count d t with
  | nil => exact absurd rfl hn
  | cons a l ih =>
    obtain ⟨g, p⟩ := a
    obtain ⟨_, d₁, _, h1, h2, -⟩ := Step.andThen_ok.1 h
    obtain ⟨_, d₂, _, h3, h4, -⟩ := Step.andThen_ok.1 h1
    have h3 := writeVerb_keeps h3
    obtain ⟨os, hos, h5⟩ := Run.bind_ok.1 h4
    have hperm := sortedObjects_perm hos
    have h6 := writeObjects_keeps hk (fun e => ho (g, p) (by simp) (by
      rw [e] at hperm; exact hperm.nil_eq.symm)) h5
    cases l with
    | nil =>
      have : (count + 1 == total) = true := by simp at hc; simp [hc]
      simp only [this, if_true] at h6
      have := (nop_eq h2).2
      omega
    | cons b l =>
      have : (count + 1 == total) = false := by simp at hc ⊢; omega
      simp only [this, if_false, Bool.false_eq_true] at h6
      have := ih (fun e he => ho e (by simp [List.mem_cons.1 he])) (by simp) (by simp at hc ⊢; omega) h2
      omega

theorem writePredicates_keeps {env : TurtleEnv} {wo : Nat → TurtleFlags → Object → Step} (hk : Keeps wo)
    (hfair : env.orders.Fair) {w d : Nat} {s : Subject} {f : TurtleFlags}
    (hs : env.graph.containsSubject s) {t : Str} {e : Nat}
    (h : writePredicates env wo w f s d = .ok (t, e)) : e + w = d := by
  obtain ⟨m, -, h1⟩ := Run.bind_ok.1 h
  obtain ⟨l, hl, h2⟩ := Run.bind_ok.1 h1
  have hperm := predicateSequence_perm hl
  have hlen : l.length = (env.orders.pred s (env.graph.predicatesFor s)).length := by
    simpa using hperm.length_eq
  refine writePredicateLoop_keeps hk (fun e he => ?_) ?_ (by omega) h2
  · obtain ⟨p, hp', rfl⟩ := List.mem_map.1 (hperm.mem_iff.1 he)
    obtain ⟨o, ho⟩ := mem_predicatesFor.1 ((hfair.2.1 s _).mem_iff.1 hp')
    exact List.ne_nil_of_mem ((hfair.2.2 s p _).mem_iff.2 (mem_objectsFor.2 ho))
  · intro e
    rw [e] at hlen
    obtain ⟨p, o, ho⟩ := containsSubject_iff.1 hs
    have hm : p ∈ env.orders.pred s (env.graph.predicatesFor s) :=
      (hfair.2.1 s _).mem_iff.2 (mem_predicatesFor.2 ⟨o, ho⟩)
    have := List.length_pos_of_mem hm
    simp at hlen; omega

theorem writeMembers_keeps {wo : Nat → TurtleFlags → Object → Step} (hk : Keeps wo) {w d : Nat}
    {f : TurtleFlags} {c : List Object} {t : Str} {e : Nat} (h : writeMembers wo w f c d = .ok (t, e)) :
    e = d := by
  induction c generalizing d t with
  | nil => exact (nop_eq h).2
  | cons o c ih =>
    obtain ⟨_, d₁, _, h1, h2, -⟩ := Step.andThen_ok.1 h
    obtain ⟨_, d₂, _, h3, h4, -⟩ := Step.andThen_ok.1 h1
    rw [ih h2, (text_eq h4).2, hk _ _ _ _ _ _ h3]

theorem writeObject_keeps {env : TurtleEnv} (hfair : env.orders.Fair) (n : Nat) :
    Keeps (writeObject env n) := by
  induction n with
  | zero => intro w f o d t e h; simp [writeObject] at h
  | succ n ih =>
    intro w f o d t e h
    cases o with
    | blank b =>
      simp only [writeObject, writeObjectStep] at h
      split at h
      · split at h
        · rename_i hs
          obtain ⟨_, d₁, _, h1, h2, -⟩ := Step.andThen_ok.1 h
          obtain ⟨_, d₂, _, h3, h4, -⟩ := Step.andThen_ok.1 h1
          obtain ⟨_, d₃, _, h5, h6, -⟩ := Step.andThen_ok.1 h3
          obtain ⟨_, d₄, _, h7, h8, -⟩ := Step.andThen_ok.1 h5
          have a := (text_eq h2).2
          have b := (newLine_eq h4).2
          have c := writePredicates_keeps ih hfair hs h6
          have d := (indent_eq h7).2
          have e := (text_eq h8).2
          omega
        · exact (text_eq h).2
      · exact (text_eq h).2
    | res i => exact (run_eq h).2
    | lit l => exact (run_eq h).2
    | stmt s => simp [writeObject, writeObjectStep] at h
    | coll c =>
      simp only [writeObject, writeObjectStep, writeCollection] at h
      split at h
      · exact (text_eq h).2
      · obtain ⟨_, d₁, _, h1, h2, -⟩ := Step.andThen_ok.1 h
        obtain ⟨_, d₂, _, h3, h4, -⟩ := Step.andThen_ok.1 h1
        obtain ⟨_, d₃, _, h5, h6, -⟩ := Step.andThen_ok.1 h3
        obtain ⟨_, d₄, _, h7, h8, -⟩ := Step.andThen_ok.1 h5
        obtain ⟨_, d₅, _, h9, h10, -⟩ := Step.andThen_ok.1 h7
        obtain ⟨_, d₆, _, h11, h12, -⟩ := Step.andThen_ok.1 h9
        obtain ⟨_, d₇, _, h13, h14, -⟩ := Step.andThen_ok.1 h11
        have a := (text_eq h4).2
        have b := (newLine_eq h6).2
        have c := writeMembers_keeps ih h10
        have d := (newLine_eq h12).2
        have e := (text_eq h14).2
        have g := (indent_eq h13).2
        by_cases ho : env.opts.outdentColl
        · simp only [ho, if_true] at h2 h8
          have i := outdent_eq h8
          have j := (nop_eq h2).2
          omega
        · simp only [ho, if_false, Bool.false_eq_true] at h2 h8
          have i := outdent_eq h2
          have j := (nop_eq h8).2
          omega

end Rdftk
