import Verif.Props.TurtleNested
import Verif.Lemmas.SkosDocument

/-! C69, continued: graphs whose Turtle text does not depend on the order in which sets are visited. -/

namespace Rdftk

open Spec

theorem insertBy_pairwise {α : Type} {le : α → α → Bool} (ht : ∀ a b c, le a b = true → le b c = true → le a c = true)
    (hl : ∀ a b, (le a b || le b a) = true) (a : α) (l : List α) (h : l.Pairwise fun x y => le x y = true) :
    (insertBy le a l).Pairwise fun x y => le x y = true := by
  induction l with
  | nil => exact List.pairwise_singleton _ _
  | cons b l ih =>
    rw [insertBy]
    rw [List.pairwise_cons] at h
    split
    · rename_i h1
      refine List.pairwise_cons.2 ⟨?_, List.pairwise_cons.2 h⟩
      intro c hc
      rcases List.mem_cons.1 hc with rfl | hc
      · exact h1
      · exact ht _ _ _ h1 (h.1 c hc)
    · rename_i h1
      refine List.pairwise_cons.2 ⟨?_, ih h.2⟩
      intro c hc
      have hp : (insertBy le a l).Perm (a :: l) := by
        clear ih h h1 hc
        induction l with
        | nil => exact .refl _
        | cons d l ih =>
          rw [insertBy]
          split
          · exact .refl _
          · exact (ih.cons d).trans (.swap _ _ _)
      rcases List.mem_cons.1 (hp.mem_iff.1 hc) with rfl | hc
      · have := hl c b
        rw [Bool.eq_false_iff.2 h1, Bool.false_or] at this
        exact this
      · exact h.1 c hc

theorem sortBy_pairwise {α : Type} {le : α → α → Bool} (ht : ∀ a b c, le a b = true → le b c = true → le a c = true)
    (hl : ∀ a b, (le a b || le b a) = true) (l : List α) : (sortBy le l).Pairwise fun x y => le x y = true := by
  induction l with
  | nil => exact .nil
  | cons a l ih => exact insertBy_pairwise ht hl a _ ih

theorem sortBy_congr {α : Type} {le : α → α → Bool} (ht : ∀ a b c, le a b = true → le b c = true → le a c = true)
    (hl : ∀ a b, (le a b || le b a) = true) {l l' : List α} (hp : l.Perm l')
    (ha : ∀ a ∈ l, ∀ b ∈ l, le a b = true → le b a = true → a = b) : sortBy le l = sortBy le l' := by
  refine List.Perm.eq_of_pairwise ?_ (sortBy_pairwise ht hl l) (sortBy_pairwise ht hl l')
    ((sortBy_perm _ _).trans (hp.trans (sortBy_perm _ _).symm))
  intro a b h1 h2
  exact ha a ((sortBy_perm _ _).mem_iff.1 h1) b (hp.mem_iff.2 ((sortBy_perm _ _).mem_iff.1 h2))

theorem keyLe_trans {α : Type} (a b c : Str × α) : keyLe a b = true → keyLe b c = true → keyLe a c = true := cmpStr_order.le_trans _ _ _
theorem keyLe_total {α : Type} (a b : Str × α) : (keyLe a b || keyLe b a) = true := cmpStr_order.le_total _ _
theorem keyLe_antisymm {α : Type} {a b : Str × α} (h1 : keyLe a b = true) (h2 : keyLe b a = true) : a.1 = b.1 := by
  unfold keyLe at h1 h2
  rw [cmpStr_order.swap a.1 b.1] at h2
  rw [← cmpStr_order.eq_iff]
  generalize cmpStr a.1 b.1 = x at *
  cases x <;> simp_all [Ordering.swap]

/-- C69, subjects: those that are no blank nodes are written in their order, each once, whatever the order of sets. -/
theorem C69_subjects (env : TurtleEnv) (n : Nat) :
    ∃ ss : List Subject, ss.Nodup ∧ (ss.Pairwise fun a b => Subject.cmp a b = .lt) ∧
      (∀ s, s ∈ ss ↔ (∃ t ∈ env.graph.stmts, t.subject = s) ∧ ¬∃ b, s = .blank b) ∧
      writeTriples env n = (writeNodes env n env.opts.width ss ⊹
        writeBlanks env n env.opts.width (env.orders.subj env.graph.blankSubjects)) := by
  have hn : (sortedSubjects env.graph).Nodup := (sortBy_perm _ _).nodup_iff.2 (C29_projections env.graph).2.2.2.1
  refine ⟨sortedSubjects env.graph, hn, ?_, fun s => ?_, rfl⟩
  · have h1 := sortBy_pairwise (le := fun a b => Subject.cmp a b != .gt) (fun _ _ _ => Subject.cmp_order.le_trans _ _ _)
      (fun _ _ => Subject.cmp_order.le_total _ _) env.graph.nodeSubjects
    refine h1.imp₂ ?_ hn
    intro a b h2 h3
    have := (Subject.cmp_order.eq_iff a b).not.2 h3
    generalize Subject.cmp a b = x at *
    cases x <;> simp_all
  · exact (sortBy_perm _ _).mem_iff.trans ((C29_projections env.graph).2.2.1 s)

theorem mapAll_perm_text {α β : Type} {f : α → Run β} {l l' : List α} (hp : l.Perm l') : ∀ {bs : List β}, Run.mapAll f l = .ok bs →
    ∃ bs', Run.mapAll f l' = .ok bs' ∧ bs.Perm bs' := by
  induction hp with
  | nil => exact fun h => ⟨_, h, .refl _⟩
  | cons a _ ih =>
    intro bs h
    simp only [Run.mapAll] at h ⊢
    cases h1 : f a with
    | ok b =>
      rw [h1] at h
      simp only [Run.bind] at h ⊢
      rename_i l1 l2 _
      cases h2 : Run.mapAll f l1 with
      | ok cs =>
        rw [h2] at h
        obtain ⟨cs', h3, h4⟩ := ih h2
        rw [h3]
        simp only [Run.ok.injEq] at h
        subst h
        exact ⟨_, rfl, h4.cons b⟩
      | err => rw [h2] at h; cases h
      | panic => rw [h2] at h; cases h
      | deep => rw [h2] at h; cases h
    | err => rw [h1] at h; cases h
    | panic => rw [h1] at h; cases h
    | deep => rw [h1] at h; cases h
  | swap a b l =>
    intro bs h
    simp only [Run.mapAll] at h ⊢
    cases h1 : f a <;> cases h2 : f b <;> cases h3 : Run.mapAll f l <;> rw [h1, h2, h3] at h <;> simp only [Run.bind] at h <;>
      first
        | cases h; exact ⟨_, rfl, .swap _ _ _⟩
        | cases h
  | trans _ _ ih1 ih2 =>
    intro bs h
    obtain ⟨cs, h1, h2⟩ := ih1 h
    obtain ⟨ds, h3, h4⟩ := ih2 h1
    exact ⟨ds, h3, h2.trans h4⟩

theorem mapAll_both {α β : Type} {f : α → Run β} : ∀ {l : List α} {bs : List β}, Run.mapAll f l = .ok bs →
    (∀ b ∈ bs, ∃ a ∈ l, f a = .ok b) ∧ ∀ a ∈ l, ∃ b ∈ bs, f a = .ok b := by
  intro l
  induction l with
  | nil => intro bs h; cases h; exact ⟨fun _ h => (List.not_mem_nil h).elim, fun _ h => (List.not_mem_nil h).elim⟩
  | cons a l ih =>
    intro bs h
    simp only [Run.mapAll] at h
    cases h1 : f a with
    | ok b =>
      rw [h1] at h
      simp only [Run.bind] at h
      cases h2 : Run.mapAll f l with
      | ok cs =>
        rw [h2] at h
        simp only [Run.ok.injEq] at h
        subst h
        obtain ⟨h3, h4⟩ := ih h2
        refine ⟨fun c hc => ?_, fun c hc => ?_⟩
        · rcases List.mem_cons.1 hc with rfl | hc
          · exact ⟨a, .head _, h1⟩
          · obtain ⟨x, h5, h6⟩ := h3 c hc
            exact ⟨x, .tail _ h5, h6⟩
        · rcases List.mem_cons.1 hc with rfl | hc
          · exact ⟨b, .head _, h1⟩
          · obtain ⟨x, h5, h6⟩ := h4 c hc
            exact ⟨x, .tail _ h5, h6⟩
      | err => rw [h2] at h; cases h
      | panic => rw [h2] at h; cases h
      | deep => rw [h2] at h; cases h
    | err => rw [h1] at h; cases h
    | panic => rw [h1] at h; cases h
    | deep => rw [h1] at h; cases h

theorem perm_short {α : Type} {l l' : List α} (hp : l.Perm l') (h : l.length ≤ 1) : l = l' := by
  match l, h with
  | [], _ => exact (List.nil_perm.1 hp).symm
  | [a], _ => exact List.singleton_perm.1 hp

theorem sortPredicates_settled {env : TurtleEnv} {ps ps' : List Iri} (hp : ps.Perm ps')
    (hv : ∀ p ∈ ps, ∀ q ∈ ps, ∀ t, compressIri env p = .ok t → compressIri env q = .ok t → p = q) {l : List Iri}
    (h : sortPredicates env ps = .ok l) : sortPredicates env ps' = .ok l := by
  unfold sortPredicates at h ⊢
  rw [← hp.length_eq]
  split at h
  · rename_i h1
    rw [if_pos h1, ← perm_short hp (by omega)]
    exact h
  · rename_i h1
    rw [if_neg h1]
    cases h2 : Run.mapAll (predicateKey env) ps with
    | ok bs =>
      rw [h2] at h
      obtain ⟨bs', h3, h4⟩ := mapAll_perm_text hp h2
      rw [h3]
      simp only [Run.bind, Run.ok.injEq] at h ⊢
      rw [← h]
      congr 1
      refine (sortBy_congr keyLe_trans keyLe_total h4 ?_).symm
      have hkey : ∀ a ∈ bs, a.2 ∈ ps ∧ compressIri env a.2 = .ok a.1 := by
        intro a ha
        obtain ⟨p, h5, h6⟩ := (mapAll_both h2).1 a ha
        unfold predicateKey at h6
        split at h6 <;> cases h6
        rename_i h7
        exact ⟨h5, h7⟩
      intro a ha b hb h5 h6
      have h7 := keyLe_antisymm h5 h6
      have h8 := hv a.2 (hkey a ha).1 b.2 (hkey b hb).1 a.1 (hkey a ha).2 (h7 ▸ (hkey b hb).2)
      exact Prod.ext h7 h8
    | err => rw [h2] at h; cases h
    | panic => rw [h2] at h; cases h
    | deep => rw [h2] at h; cases h

theorem chunkBy_one {α κ : Type} [DecidableEq κ] (key : α → κ) (k : κ) : ∀ (l : List α), l ≠ [] → (∀ a ∈ l, key a = k) →
    chunkBy key l = [(k, l)] := by
  intro l
  induction l with
  | nil => intro h; exact absurd rfl h
  | cons a l ih =>
    intro _ h
    rw [chunkBy]
    cases l with
    | nil => rw [chunkBy, h a (.head _)]
    | cons b l =>
      rw [ih (by simp) fun x hx => h x (.tail _ hx)]
      simp [h a (.head _)]

theorem chunkBy_each {α κ : Type} [DecidableEq κ] (key : α → κ) : ∀ (l : List α), l.Nodup → (∀ a ∈ l, ∀ b ∈ l, key a = key b → a = b) →
    chunkBy key l = l.map fun a => (key a, [a]) := by
  intro l
  induction l with
  | nil => intro _ _; rfl
  | cons a l ih =>
    intro hn h
    rw [List.nodup_cons] at hn
    rw [chunkBy, ih hn.2 fun x hx y hy => h x (.tail _ hx) y (.tail _ hy)]
    cases l with
    | nil => rfl
    | cons b l =>
      simp only [List.map_cons]
      rw [if_neg]
      intro h1
      have := h a (.head _) b (.tail _ (.head _)) h1
      subst this
      exact hn.1 (.head _)

/-- The predicates of a subject are in one group, or in as many groups as there are predicates. -/
def OneOrEach (ps : List Iri) : Prop :=
  (∀ p ∈ ps, ∀ q ∈ ps, groupOf p = groupOf q) ∨ ∀ p ∈ ps, ∀ q ∈ ps, groupOf p = groupOf q → p = q

theorem rank_inj {a b : PredGroup} (h : a.rank = b.rank) : a = b := by
  cases a <;> cases b <;> first | rfl | (simp [PredGroup.rank] at h)

theorem predicateSequence_settled {env : TurtleEnv} {ps ps' : List Iri} (hp : ps.Perm ps') (hn : ps.Nodup) (hg : OneOrEach ps)
    (hv : ∀ p ∈ ps, ∀ q ∈ ps, ∀ t, compressIri env p = .ok t → compressIri env q = .ok t → p = q)
    {l : List (PredGroup × Iri)} (h : predicateSequence env ps = .ok l) : predicateSequence env ps' = .ok l := by
  by_cases he : ps = []
  · subst he
    rw [List.nil_perm.1 hp]
    exact h
  unfold predicateSequence groupPredicates at h ⊢
  rcases hg with hg | hg
  · obtain ⟨p₀, h0⟩ := List.exists_mem_of_ne_nil _ he
    have he' : ps' ≠ [] := by
      rintro rfl
      exact he (List.perm_nil.1 hp)
    rw [chunkBy_one groupOf (groupOf p₀) ps he fun a ha => hg a ha p₀ h0] at h
    rw [chunkBy_one groupOf (groupOf p₀) ps' he' fun a ha => hg a (hp.mem_iff.2 ha) p₀ h0]
    simp only [sortBy, insertBy, Run.mapAll] at h ⊢
    cases h1 : sortPredicates env ps with
    | ok m =>
      rw [h1] at h
      rw [sortPredicates_settled hp hv h1]
      exact h
    | err => rw [h1] at h; cases h
    | panic => rw [h1] at h; cases h
    | deep => rw [h1] at h; cases h
  · rw [chunkBy_each groupOf ps hn hg] at h
    rw [chunkBy_each groupOf ps' (hp.nodup_iff.1 hn) fun a ha b hb => hg a (hp.mem_iff.2 ha) b (hp.mem_iff.2 hb)]
    rw [← sortBy_congr (le := fun a b : PredGroup × List Iri => decide (a.1.rank ≤ b.1.rank)) ?_ ?_ (hp.map _) ?_]
    · exact h
    · intro a b c
      simp only [decide_eq_true_eq]
      omega
    · intro a b
      simp only [Bool.or_eq_true, decide_eq_true_eq]
      omega
    · intro a ha b hb h1 h2
      simp only [decide_eq_true_eq] at h1 h2
      obtain ⟨p, hp1, rfl⟩ := List.mem_map.1 ha
      obtain ⟨q, hq1, rfl⟩ := List.mem_map.1 hb
      rw [hg p hp1 q hq1 (rank_inj (by simp only at h1 h2; omega))]

theorem maxLen_perm {env : TurtleEnv} {ps ps' : List Iri} (hp : ps.Perm ps') {m : Nat} (h : maxLenPredicates env ps = .ok m) :
    maxLenPredicates env ps' = .ok m := by
  unfold maxLenPredicates at h ⊢
  cases h1 : Run.mapAll (compressIri env) ps with
  | ok bs =>
    rw [h1] at h
    obtain ⟨bs', h2, h3⟩ := mapAll_perm_text hp h1
    rw [h2]
    simp only [Run.bind, Run.ok.injEq] at h ⊢
    rw [← h]
    exact h3.symm.foldl_eq' (fun x _ y _ z => by omega) 0
  | err => rw [h1] at h; cases h
  | panic => rw [h1] at h; cases h
  | deep => rw [h1] at h; cases h

/-- What one step writes, the other does. -/
def SameText (a b : Step) : Prop := ∀ d r, a d = .ok r → b d = .ok r

theorem SameText.refl (a : Step) : SameText a a := fun _ _ h => h

theorem SameText.andThen {a b c d : Step} (h1 : SameText a b) (h2 : SameText c d) : SameText (a ⊹ c) (b ⊹ d) := by
  intro k r h
  unfold Step.andThen at h ⊢
  cases h3 : a k with
  | ok x =>
    rw [h3] at h
    rw [h1 k x h3]
    simp only [Run.bind] at h ⊢
    cases h4 : c x.2 with
    | ok y =>
      rw [h4] at h
      rw [h2 _ y h4]
      exact h
    | err => rw [h4] at h; cases h
    | panic => rw [h4] at h; cases h
    | deep => rw [h4] at h; cases h
  | err => rw [h3] at h; cases h
  | panic => rw [h3] at h; cases h
  | deep => rw [h3] at h; cases h

/-- The graph leaves no choice but the order of sets, and that does not matter: there is at most one blank node among the
subjects, the predicates of a subject are in one group or in as many groups as there are predicates, and different
predicates of a subject, and different objects of a subject and a predicate, are written differently. -/
structure Settled (env : TurtleEnv) : Prop where
  blank : env.graph.blankSubjects.length ≤ 1
  groups : ∀ s, OneOrEach (env.graph.predicatesFor s)
  verbs : ∀ s, ∀ p ∈ env.graph.predicatesFor s, ∀ q ∈ env.graph.predicatesFor s, ∀ t,
    compressIri env p = .ok t → compressIri env q = .ok t → p = q
  objects : ∀ s p, ∀ a ∈ env.graph.objectsFor s p, ∀ b ∈ env.graph.objectsFor s p, a ≠ b → ∀ n,
    writeObject env n 2 { TurtleFlags.none with sorted := true } a 0 ≠ .err ∧
    ∀ x y, writeObject env n 2 { TurtleFlags.none with sorted := true } a 0 = .ok x →
      writeObject env n 2 { TurtleFlags.none with sorted := true } b 0 = .ok y → x.1 ≠ y.1

section
variable {env : TurtleEnv} {o' : Orders}

theorem SameText.bind {a b : Run Nat} {f g : Nat → Step} (h1 : ∀ m, a = .ok m → b = .ok m) (h2 : ∀ m, SameText (f m) (g m)) :
    SameText (fun d => a.bind fun m => f m d) (fun d => b.bind fun m => g m d) := by
  intro d r h
  cases h3 : a with
  | ok m =>
    simp only [h3, Run.bind] at h
    simp only [h1 m h3, Run.bind]
    exact h2 m d r h
  | err => simp only [h3, Run.bind] at h; cases h
  | panic => simp only [h3, Run.bind] at h; cases h
  | deep => simp only [h3, Run.bind] at h; cases h

theorem sortedObjects_settled {wo wo' : Nat → TurtleFlags → Object → Step} (hf : env.orders.Fair) (hf' : o'.Fair) (s : Subject) (p : Iri)
    (hs : ∀ a ∈ env.graph.objectsFor s p, ∀ b ∈ env.graph.objectsFor s p, a ≠ b →
      wo 2 { TurtleFlags.none with sorted := true } a 0 ≠ .err ∧
      ∀ x y, wo 2 { TurtleFlags.none with sorted := true } a 0 = .ok x →
        wo 2 { TurtleFlags.none with sorted := true } b 0 = .ok y → x.1 ≠ y.1)
    (hwo : ∀ w f o, SameText (wo w f o) (wo' w f o)) (os : List Object)
    (h : sortedObjects env wo s p = .ok os) :
    sortedObjects { env with orders := o' } wo' s p = .ok os := by
  have hp : (env.orders.obj s p (env.graph.objectsFor s p)).Perm (o'.obj s p (env.graph.objectsFor s p)) :=
    (hf.2.2 s p _).trans (hf'.2.2 s p _).symm
  have hmem : ∀ a ∈ env.orders.obj s p (env.graph.objectsFor s p), a ∈ env.graph.objectsFor s p := fun a ha =>
    (hf.2.2 s p _).mem_iff.1 ha
  have hnd : (env.orders.obj s p (env.graph.objectsFor s p)).Nodup :=
    (hf.2.2 s p _).nodup_iff.2 ((C29_projections env.graph).2.2.2.2.2.2.2.2.2.2.2.2.2 s p)
  unfold sortedObjects at h ⊢
  simp only at h ⊢
  rw [← hp.length_eq]
  split at h
  · rename_i h1
    rw [if_pos h1]
    generalize hl : env.orders.obj s p (env.graph.objectsFor s p) = l at *
    have hother : ∀ a ∈ l, ∃ b ∈ l, a ≠ b := by
      intro a ha
      match l, h1 with
      | x :: y :: l, _ =>
        by_cases e : a = x
        · refine ⟨y, .tail _ (.head _), ?_⟩
          rintro rfl
          subst e
          simp at hnd
        · exact ⟨x, .head _, e⟩
    have hk : ∀ a ∈ l, ∀ k, objectSortKey wo a = .ok k →
        (∃ x, wo 2 { TurtleFlags.none with sorted := true } a 0 = .ok x ∧ x.1 = k) ∧
        objectSortKey wo' a = .ok k := by
      intro a ha k hk
      obtain ⟨b, hb, hab⟩ := hother a ha
      have hne := (hs a (hmem a ha) b (hmem b hb) hab).1
      unfold objectSortKey at hk ⊢
      split at hk
      · rename_i x hx
        rw [hwo _ _ _ _ _ hx]
        simp only [Run.ok.injEq] at hk
        exact ⟨⟨x, hx, hk⟩, congrArg Run.ok hk⟩
      · rename_i hx
        exact absurd hx hne
      · cases hk
      · cases hk
    cases h2 : Run.mapAll (fun o => (objectSortKey wo o).bind fun k => .ok (k, o)) l with
    | ok bs =>
      rw [h2] at h
      have hkey : ∀ a ∈ bs, a.2 ∈ l ∧ objectSortKey wo a.2 = .ok a.1 := by
        intro a ha
        obtain ⟨x, h5, h6⟩ := (mapAll_both h2).1 a ha
        cases h7 : objectSortKey wo x with
        | ok k => rw [h7] at h6; simp only [Run.bind, Run.ok.injEq] at h6; subst h6; exact ⟨h5, h7⟩
        | err => rw [h7] at h6; cases h6
        | panic => rw [h7] at h6; cases h6
        | deep => rw [h7] at h6; cases h6
      have h3 : Run.mapAll (fun o => (objectSortKey wo' o).bind fun k => .ok (k, o)) l = .ok bs := by
        rw [← h2]
        have : ∀ l', (∀ a ∈ l', a ∈ l) → Run.mapAll (fun o => (objectSortKey wo' o).bind fun k => .ok (k, o)) l' =
            Run.mapAll (fun o => (objectSortKey wo o).bind fun k => .ok (k, o)) l' := by
          intro l'
          induction l' with
          | nil => intro _; rfl
          | cons a l' ih =>
            intro hl'
            rw [Run.mapAll, Run.mapAll, ih fun x hx => hl' x (.tail _ hx)]
            obtain ⟨b, hb, h6⟩ := (mapAll_both h2).2 a (hl' a (.head _))
            cases h7 : objectSortKey wo a with
            | ok k => rw [(hk a (hl' a (.head _)) k h7).2]
            | err => rw [h7] at h6; cases h6
            | panic => rw [h7] at h6; cases h6
            | deep => rw [h7] at h6; cases h6
        exact this l fun _ h => h
      obtain ⟨bs', h4, h5⟩ := mapAll_perm_text hp h3
      rw [h4]
      simp only [Run.bind, Run.ok.injEq] at h ⊢
      rw [← h]
      congr 1
      refine (sortBy_congr keyLe_trans keyLe_total h5 ?_).symm
      intro a ha b hb h6 h7
      have h8 := keyLe_antisymm h6 h7
      refine Prod.ext h8 (Classical.byContradiction fun hne => ?_)
      obtain ⟨⟨x, hx, hx'⟩, -⟩ := hk a.2 (hkey a ha).1 a.1 (hkey a ha).2
      obtain ⟨⟨y, hy, hy'⟩, -⟩ := hk b.2 (hkey b hb).1 b.1 (hkey b hb).2
      exact (hs a.2 (hmem _ (hkey a ha).1) b.2 (hmem _ (hkey b hb).1) hne).2 x y hx hy (by rw [hx', hy', h8])
    | err => rw [h2] at h; cases h
    | panic => rw [h2] at h; cases h
    | deep => rw [h2] at h; cases h
  · rename_i h1
    rw [if_neg h1]
    rw [← perm_short hp (by omega)]
    exact h

theorem writeObjects_settled {wo wo' : Nat → TurtleFlags → Object → Step} (hwo : ∀ w f o, SameText (wo w f o) (wo' w f o))
    (w m : Nat) (f : TurtleFlags) (os : List Object) : SameText (writeObjects wo w m f os) (writeObjects wo' w m f os) := by
  induction os with
  | nil => exact .refl _
  | cons o os ih =>
    refine SameText.andThen ?_ ih
    exact SameText.andThen (hwo _ _ _) (.refl _)

theorem compressIri_orders (env : TurtleEnv) (o' : Orders) (i : Iri) : compressIri { env with orders := o' } i = compressIri env i := rfl
theorem writeLiteral_orders (env : TurtleEnv) (o' : Orders) (l : Literal) :
    writeLiteral { env with orders := o' } l = writeLiteral env l := rfl
theorem maxLen_orders (env : TurtleEnv) (o' : Orders) (ps : List Iri) :
    maxLenPredicates { env with orders := o' } ps = maxLenPredicates env ps := rfl
theorem predicateSequence_orders (env : TurtleEnv) (o' : Orders) (ps : List Iri) :
    predicateSequence { env with orders := o' } ps = predicateSequence env ps := rfl

theorem writePredicates_settled (hs : Settled env) (hf : env.orders.Fair) (hf' : o'.Fair) {wo wo' : Nat → TurtleFlags → Object → Step}
    (ho : ∀ s p, ∀ a ∈ env.graph.objectsFor s p, ∀ b ∈ env.graph.objectsFor s p, a ≠ b →
      wo 2 { TurtleFlags.none with sorted := true } a 0 ≠ .err ∧
      ∀ x y, wo 2 { TurtleFlags.none with sorted := true } a 0 = .ok x →
        wo 2 { TurtleFlags.none with sorted := true } b 0 = .ok y → x.1 ≠ y.1)
    (hwo : ∀ w f o, SameText (wo w f o) (wo' w f o))
    (w : Nat) (f : TurtleFlags) (s : Subject) :
    SameText (writePredicates env wo w f s)
      (writePredicates { env with orders := o' } wo' w f s) := by
  have hp : (env.orders.pred s (env.graph.predicatesFor s)).Perm (o'.pred s (env.graph.predicatesFor s)) :=
    (hf.2.1 s _).trans (hf'.2.1 s _).symm
  have hmem : ∀ a, a ∈ env.orders.pred s (env.graph.predicatesFor s) ↔ a ∈ env.graph.predicatesFor s := fun a =>
    (hf.2.1 s _).mem_iff
  have hnd : (env.orders.pred s (env.graph.predicatesFor s)).Nodup :=
    (hf.2.1 s _).nodup_iff.2 ((C29_projections env.graph).2.2.2.2.2.2.2.2.2.2.2.1 s)
  have hone : OneOrEach (env.orders.pred s (env.graph.predicatesFor s)) := by
    have := hs.groups s
    unfold OneOrEach at this ⊢
    simpa only [hmem] using this
  have hv : ∀ p ∈ env.orders.pred s (env.graph.predicatesFor s), ∀ q ∈ env.orders.pred s (env.graph.predicatesFor s), ∀ t,
      compressIri env p = .ok t → compressIri env q = .ok t → p = q := by
    simpa only [hmem] using hs.verbs s
  unfold writePredicates
  intro d r h
  simp only at h ⊢
  rw [maxLen_orders, predicateSequence_orders, ← hp.length_eq]
  have h1 : ∀ m, ((if env.opts.padding then .ok 0 else (maxLenPredicates env (env.orders.pred s (env.graph.predicatesFor s))).bind
      fun n => .ok (1 + n)) : Run Nat) = .ok m → ((if env.opts.padding then .ok 0 else (maxLenPredicates env (o'.pred s (env.graph.predicatesFor s))).bind
      fun n => .ok (1 + n)) : Run Nat) = .ok m := by
    intro m hm
    split
    · rename_i h2
      rw [if_pos h2] at hm
      exact hm
    · rename_i h2
      rw [if_neg h2] at hm
      cases h3 : maxLenPredicates env (env.orders.pred s (env.graph.predicatesFor s)) with
      | ok k =>
        rw [h3] at hm
        rw [maxLen_perm hp h3]
        exact hm
      | err => rw [h3] at hm; cases hm
      | panic => rw [h3] at hm; cases hm
      | deep => rw [h3] at hm; cases hm
  generalize hX : ((if env.opts.padding then .ok 0 else (maxLenPredicates env (env.orders.pred s (env.graph.predicatesFor s))).bind
      fun n => .ok (1 + n)) : Run Nat) = X at h h1
  cases X with
  | ok m =>
    rw [h1 m rfl]
    simp only [Run.bind] at h ⊢
    cases h2 : predicateSequence env (env.orders.pred s (env.graph.predicatesFor s)) with
    | ok l =>
      rw [h2] at h
      rw [predicateSequence_settled hp hnd hone hv h2]
      simp only at h ⊢
      have loop : ∀ (l : List (PredGroup × Iri)) (c total : Nat),
          SameText (writePredicateLoop env wo w s m total f c l)
            (writePredicateLoop { env with orders := o' } wo' w s m total f c l) := by
        intro l
        induction l with
        | nil => intro c total; exact .refl _
        | cons e l ih =>
          intro c total
          obtain ⟨g, p⟩ := e
          refine SameText.andThen ?_ (ih _ _)
          refine SameText.andThen (.refl _) ?_
          intro d r hd
          simp only at hd ⊢
          cases h3 : sortedObjects env wo s p with
          | ok os =>
            rw [h3] at hd
            rw [sortedObjects_settled hf hf' s p (ho s p) hwo os h3]
            exact writeObjects_settled hwo _ _ _ os d r hd
          | err => rw [h3] at hd; cases hd
          | panic => rw [h3] at hd; cases hd
          | deep => rw [h3] at hd; cases hd
      exact loop l _ _ d r h
    | err => rw [h2] at h; cases h
    | panic => rw [h2] at h; cases h
    | deep => rw [h2] at h; cases h
  | err => cases h
  | panic => cases h
  | deep => cases h

theorem writeObjectStep_settled (hs : Settled env) (hf : env.orders.Fair) (hf' : o'.Fair) {wo wo' : Nat → TurtleFlags → Object → Step}
    (ho : ∀ s p, ∀ a ∈ env.graph.objectsFor s p, ∀ b ∈ env.graph.objectsFor s p, a ≠ b →
      wo 2 { TurtleFlags.none with sorted := true } a 0 ≠ .err ∧
      ∀ x y, wo 2 { TurtleFlags.none with sorted := true } a 0 = .ok x →
        wo 2 { TurtleFlags.none with sorted := true } b 0 = .ok y → x.1 ≠ y.1)
    (ih : ∀ w f o, SameText (wo w f o) (wo' w f o)) (w : Nat) (f : TurtleFlags) (o : Object) :
    SameText (writeObjectStep env wo w f o) (writeObjectStep { env with orders := o' } wo' w f o) := by
  cases o with
  | blank b =>
    simp only [writeObjectStep]
    split
    · split
      · exact SameText.andThen (SameText.andThen (SameText.andThen (.refl _) (writePredicates_settled hs hf hf' ho ih w f _)) (.refl _)) (.refl _)
      · exact .refl _
    · exact .refl _
  | res i =>
    simp only [writeObjectStep, compressIri_orders]
    exact .refl _
  | lit l =>
    simp only [writeObjectStep, writeLiteral_orders]
    exact .refl _
  | stmt s =>
    simp only [writeObjectStep]
    exact .refl _
  | coll c =>
    simp only [writeObjectStep, writeCollection]
    split
    · exact .refl _
    · have hm : ∀ os : List Object, SameText (writeMembers wo w f os) (writeMembers wo' w f os) := by
        intro os
        induction os with
        | nil => exact .refl _
        | cons o os ih2 => exact SameText.andThen (SameText.andThen (ih _ _ _) (.refl _)) ih2
      exact SameText.andThen (SameText.andThen (SameText.andThen (SameText.andThen (SameText.andThen (.refl _) (hm c)) (.refl _)) (.refl _))
        (.refl _)) (.refl _)

theorem writeObject_settled (hs : Settled env) (hf : env.orders.Fair) (hf' : o'.Fair) : ∀ (n w : Nat) (f : TurtleFlags) (o : Object),
    SameText (writeObject env n w f o) (writeObject { env with orders := o' } n w f o) := by
  intro n
  induction n with
  | zero => intro w f o d r h; cases h
  | succ n ih =>
    intro w f o
    rw [writeObject, writeObject]
    exact writeObjectStep_settled hs hf hf' (fun s p a ha b hb hab => hs.objects s p a ha b hb hab n) ih w f o

end

/-- C69 for graphs that leave no choice: whatever the order in which sets are visited, the text is the same. -/
theorem C69_text_partial (pr : Char → Bool) (url : Str → Option Iri) (sty : IriStyle) (opts : TurtleOptions) (o o' : Orders)
    (gen : Nat → Str) (k n : Nat) (g : Graph) (s : Str) (hfair : o.Fair) (hfair' : o'.Fair)
    (hs : Settled ⟨pr, url, sty, opts, denest gen k g, o⟩) (h : writeTurtle pr url sty opts o gen k n g = .ok s) :
    writeTurtle pr url sty opts o' gen k n g = .ok s := by
  generalize henv : (⟨pr, url, sty, opts, denest gen k g, o⟩ : TurtleEnv) = env at hs
  have hf : env.orders.Fair := by rw [← henv]; exact hfair
  have hblock : ∀ s, SameText (writeBlock env n env.opts.width s) (writeBlock { env with orders := o' } n env.opts.width s) := fun s =>
    SameText.andThen (SameText.andThen (.refl _) (writePredicates_settled hs hf hfair' (fun s p a ha b hb hab => hs.objects s p a ha b hb hab n)
      (writeObject_settled hs hf hfair' n) _ _ s)) (.refl _)
  have hnodes : ∀ ss, SameText (writeNodes env n env.opts.width ss) (writeNodes { env with orders := o' } n env.opts.width ss) := by
    intro ss
    induction ss with
    | nil => exact .refl _
    | cons s ss ih => exact SameText.andThen (hblock s) ih
  have hblanks : ∀ ss, SameText (writeBlanks env n env.opts.width ss) (writeBlanks { env with orders := o' } n env.opts.width ss) := by
    intro ss
    induction ss with
    | nil => exact .refl _
    | cons s ss ih => exact SameText.andThen (SameText.andThen (.refl _) (hblock s)) ih
  have hb : env.orders.subj env.graph.blankSubjects = o'.subj env.graph.blankSubjects :=
    perm_short ((hf.1 _).trans (hfair'.1 _).symm) (by rw [(hf.1 _).length_eq]; exact hs.blank)
  have htriples : SameText (writeTriples env n) (writeTriples { env with orders := o' } n) := by
    refine SameText.andThen (hnodes _) ?_
    have := hblanks (env.orders.subj env.graph.blankSubjects)
    rw [hb] at this ⊢
    exact this
  have hall := SameText.andThen (.refl (Step.text (writeBase sty opts) ⊹ .text (writePrefixes sty opts g.mappings))) htriples
  unfold writeTurtle at h ⊢
  simp only at h ⊢
  have e : (⟨pr, url, sty, opts, denest gen k g, o'⟩ : TurtleEnv) = { env with orders := o' } := by rw [← henv]
  rw [henv] at h
  rw [e]
  generalize hX : (Step.text (writeBase sty opts) ⊹ .text (writePrefixes sty opts g.mappings) ⊹ writeTriples env n) 0 = X at h
  cases X with
  | ok x => rw [hall 0 x hX]; exact h
  | err => cases h
  | panic => cases h
  | deep => cases h

/-- C69, the simplest case: at most one blank node among the subjects, one predicate for each subject and one object for
each subject and predicate. -/
theorem C69_single_partial (pr : Char → Bool) (url : Str → Option Iri) (sty : IriStyle) (opts : TurtleOptions) (o o' : Orders)
    (gen : Nat → Str) (k n : Nat) (g : Graph) (s : Str) (hfair : o.Fair) (hfair' : o'.Fair)
    (hb : (denest gen k g).blankSubjects.length ≤ 1)
    (h1 : ∀ t ∈ (denest gen k g).stmts, ∀ t' ∈ (denest gen k g).stmts, t.subject = t'.subject → t = t')
    (h : writeTurtle pr url sty opts o gen k n g = .ok s) : writeTurtle pr url sty opts o' gen k n g = .ok s := by
  have hp : ∀ s, ∀ p ∈ (denest gen k g).predicatesFor s, ∀ q ∈ (denest gen k g).predicatesFor s, p = q := by
    intro s p hp q hq
    obtain ⟨x, hx⟩ := mem_predicatesFor.1 hp
    obtain ⟨y, hy⟩ := mem_predicatesFor.1 hq
    have := h1 _ hx _ hy rfl
    cases this
    rfl
  refine C69_text_partial pr url sty opts o o' gen k n g s hfair hfair' ⟨hb, ?_, ?_, ?_⟩ h
  · exact fun s => .inr fun p h2 q h3 _ => hp s p h2 q h3
  · exact fun s p h2 q h3 _ _ _ => hp s p h2 q h3
  · intro s p a ha b hb' hab
    have := h1 _ (mem_objectsFor.1 ha) _ (mem_objectsFor.1 hb') rfl
    cases this
    exact absurd rfl hab

end Rdftk
