import Verif.Spec.PegDepth
import Verif.Lemmas.PegBack

/-! How deep the calls of the parser are nested. -/

namespace Rdftk

open PegGrammar Spec

/-- What is known of a number of calls that is enough, and is handed down. -/
structure DepthBound (T : Nat) (P : PegMode → Peg GRule → Str → Nat → Prop) : Prop where
  rule : ∀ {m i s d}, P m (.rule i) s d → ∃ d', d = d' + 1 ∧ P ((commonGrammar.body i).1.mode m) (commonGrammar.body i).2 s d'
  seq : ∀ {m a b s d}, P m (.seq a b) s d → ∃ d', d = d' + 1 ∧ P m a s d' ∧ (∀ q, m = .free → P .atomic commonGrammar.skipper q d') ∧
    ∀ n l q q', commonGrammar.run T n m a s = some (some (l, q)) → q' <:+ q → P m b q' d'
  alt : ∀ {m a b s d}, P m (.alt a b) s d → ∃ d', d = d' + 1 ∧ P m a s d' ∧ P m b s d'
  opt : ∀ {m a s d}, P m (.opt a) s d → ∃ d', d = d' + 1 ∧ P m a s d'
  star : ∀ {m a s d}, P m (.star a) s d → ∃ d', d = d' + 1 ∧ P m a s d' ∧
    ∀ n l q, commonGrammar.run T n m a s = some (some (l, q)) → P m (.more a) q d'
  more : ∀ {m a s d}, P m (.more a) s d → ∃ d', d = d' + 1 ∧ (∀ q, m = .free → P .atomic commonGrammar.skipper q d') ∧
    ∀ q', q' <:+ s → P m a q' d' ∧ ∀ n l q, commonGrammar.run T n m a q' = some (some (l, q)) → P m (.more a) q (d' + 1)
  not : ∀ {m a s d}, P m (.not a) s d → ∃ d', d = d' + 1 ∧ P m a s d'
  look : ∀ {m a s d}, P m (.look a) s d → ∃ d', d = d' + 1 ∧ P m a s d'

theorem more_some {T n : Nat} {m : PegMode} {a : Peg GRule} {s : Str} : commonGrammar.run T n m (.more a) s ≠ some none := by
  cases n with
  | zero => intro h; cases h
  | succ n =>
    intro h
    rw [PegGrammar.run] at h
    cases (other_none h).2

theorem DepthBound.within {T : Nat} {P : PegMode → Peg GRule → Str → Nat → Prop} (hP : DepthBound T P) (n : Nat) :
    ∀ {m e s x d}, commonGrammar.run T n m e s = some x → P m e s d → CallsWithin commonGrammar T d m e s x := by
  induction n with
  | zero => intro m e s x d h; cases h
  | succ n ih =>
    intro m e s x d h hp
    have skips : ∀ {s y d}, (if m = .free then commonGrammar.run T n .atomic commonGrammar.skipper s else some (some ([], s))) = some y →
        (∀ q, m = .free → P .atomic commonGrammar.skipper q d) → ∃ l' q', y = some (l', q') ∧ q' <:+ s ∧
          (m = .free → CallsWithin commonGrammar T d .atomic commonGrammar.skipper s (some (l', q'))) ∧ (m ≠ .free → l' = [] ∧ q' = s) := by
      intro s y d h1 h2
      split at h1
      · rename_i hm
        have := run_skip h1
        subst this
        exact ⟨[], skip false s, rfl, skip_suffix _ s, fun _ => ih h1 (h2 _ hm), fun h => absurd hm h⟩
      · rename_i hm
        cases h1
        exact ⟨[], s, rfl, List.suffix_refl s, fun h => absurd h hm, fun _ => ⟨rfl, rfl⟩⟩
    cases e with
    | str t => exact .leaf (by simpa [PegGrammar.run] using h)
    | istr t => exact .leaf (by simpa [PegGrammar.run] using h)
    | range lo hi => exact .leaf (by cases s <;> simpa [PegGrammar.run] using h)
    | any => exact .leaf (by cases s <;> simpa [PegGrammar.run] using h)
    | soi => exact .leaf (by simpa [PegGrammar.run] using h)
    | eoi => exact .leaf (by simpa [PegGrammar.run] using h)
    | rule i =>
      obtain ⟨d, rfl, h1⟩ := hP.rule hp
      rw [PegGrammar.run] at h
      split at h
      · cases h
      · rename_i e; cases h; exact CallsWithin.rule (x := none) (ih e h1)
      · rename_i l r e; cases h; exact CallsWithin.rule (x := some (l, r)) (ih e h1)
    | seq a b =>
      obtain ⟨d, rfl, h1, h2, h3⟩ := hP.seq hp
      rw [PegGrammar.run] at h
      cases ha : commonGrammar.run T n m a s with
      | none => simp [ha, PegRes.next] at h
      | some y =>
        cases y with
        | none => simp [ha, PegRes.next] at h; subst h; exact .seq_none (ih ha h1)
        | some y =>
          obtain ⟨l, q⟩ := y
          cases hs : (if m = .free then commonGrammar.run T n .atomic commonGrammar.skipper q else some (some ([], q))) with
          | none => simp [ha, PegRes.next, hs] at h
          | some z =>
            obtain ⟨l', q', rfl, h4, h5, h6⟩ := skips hs h2
            cases hb : commonGrammar.run T n m b q' with
            | none => simp [ha, PegRes.next, hs, hb] at h
            | some w =>
              have := CallsWithin.seq (ih ha h1) h5 h6 (ih hb (h3 _ _ _ _ ha h4))
              cases w with
              | none => simp [ha, PegRes.next, hs, hb] at h; subst h; exact this
              | some w => obtain ⟨k, r⟩ := w; simp [ha, PegRes.next, hs, hb] at h; subst h; exact this
    | alt a b =>
      obtain ⟨d, rfl, h1, h2⟩ := hP.alt hp
      rw [PegGrammar.run] at h
      cases ha : commonGrammar.run T n m a s with
      | none => simp [ha, PegRes.other] at h
      | some y =>
        cases y with
        | none => simp only [ha, PegRes.other] at h; exact .right (ih ha h1) (ih h h2)
        | some y => simp [ha, PegRes.other] at h; subst h; exact .left (ih ha h1)
    | opt a =>
      obtain ⟨d, rfl, h1⟩ := hP.opt hp
      rw [PegGrammar.run] at h
      cases ha : commonGrammar.run T n m a s with
      | none => simp [ha, PegRes.other] at h
      | some y =>
        have := CallsWithin.opt (ih ha h1)
        cases y with
        | none => simp [ha, PegRes.other] at h; subst h; exact this
        | some y => simp [ha, PegRes.other] at h; subst h; exact this
    | star a =>
      obtain ⟨d, rfl, h1, h2⟩ := hP.star hp
      rw [PegGrammar.run] at h
      cases ha : commonGrammar.run T n m a s with
      | none => simp [ha, PegRes.other, PegRes.next] at h
      | some y =>
        cases y with
        | none => simp [ha, PegRes.other, PegRes.next] at h; subst h; exact .star_none (ih ha h1)
        | some y =>
          obtain ⟨l, q⟩ := y
          cases hb : commonGrammar.run T n m (.more a) q with
          | none => simp [ha, PegRes.other, PegRes.next, hb] at h
          | some w =>
            cases w with
            | none => exact absurd hb more_some
            | some w =>
              obtain ⟨k, r⟩ := w
              simp [ha, PegRes.other, PegRes.next, hb] at h
              subst h
              exact CallsWithin.star (ih ha h1) (ih hb (h2 _ _ _ ha))
    | more a =>
      obtain ⟨d, rfl, h1, h2⟩ := hP.more hp
      rw [PegGrammar.run] at h
      cases hs : (if m = .free then commonGrammar.run T n .atomic commonGrammar.skipper s else some (some ([], s))) with
      | none => simp [PegRes.other, PegRes.next, hs] at h
      | some z =>
        obtain ⟨l', q', rfl, h4, h5, h6⟩ := skips hs h1
        cases ha : commonGrammar.run T n m a q' with
        | none => simp [PegRes.other, PegRes.next, hs, ha] at h
        | some y =>
          cases y with
          | none => simp [PegRes.other, PegRes.next, hs, ha] at h; subst h; exact .more_none h5 h6 (ih ha (h2 _ h4).1)
          | some y =>
            obtain ⟨l, q⟩ := y
            cases hb : commonGrammar.run T n m (.more a) q with
            | none => simp [PegRes.other, PegRes.next, hs, ha, hb] at h
            | some w =>
              cases w with
              | none => exact absurd hb more_some
              | some w =>
                obtain ⟨k, r⟩ := w
                simp [PegRes.other, PegRes.next, hs, ha, hb] at h
                subst h
                exact CallsWithin.more h5 h6 (ih ha (h2 _ h4).1) (ih hb ((h2 _ h4).2 _ _ _ ha))
    | not a =>
      obtain ⟨d, rfl, h1⟩ := hP.not hp
      rw [PegGrammar.run] at h
      split at h
      · cases h
      · rename_i e; cases h; exact CallsWithin.not (ih e h1)
      · rename_i e; cases h; exact CallsWithin.not (ih e h1)
    | look a =>
      obtain ⟨d, rfl, h1⟩ := hP.look hp
      rw [PegGrammar.run] at h
      split at h
      · cases h
      · rename_i e; cases h; exact CallsWithin.look (ih e h1)
      · rename_i e; cases h; exact CallsWithin.look (ih e h1)

/-! ### Depths that do not depend on the text -/

/-- The depth is enough for the expression whatever the text is. -/
def Peg.flat : Nat → PegMode → Peg GRule → Bool
  | 0, _, e => match e with
    | .str _ => true | .istr _ => true | .range _ _ => true | .any => true | .soi => true | .eoi => true | _ => false
  | d + 1, m, e => match e with
    | .rule i => Peg.flat d ((commonGrammar.body i).1.mode m) (commonGrammar.body i).2
    | .seq a b => Peg.flat d m a && Peg.flat d m b && (m != .free || Peg.flat d .atomic commonGrammar.skipper)
    | .alt a b => Peg.flat d m a && Peg.flat d m b
    | .opt a => Peg.flat d m a
    | .star a => Peg.flat d m a && Peg.flat d m (.more a)
    | .more a => Peg.flat d m a && (m != .free || Peg.flat d .atomic commonGrammar.skipper)
    | .not a => Peg.flat d m a
    | .look a => Peg.flat d m a
    | _ => true

theorem flat_bound (T : Nat) : DepthBound T fun m e _ d => ∃ d0 ≤ d, Peg.flat d0 m e = true where
  rule := by
    rintro m i s d ⟨d0, h1, h2⟩
    cases d0 with
    | zero => cases h2
    | succ d0 => exact ⟨d - 1, by omega, d0, by omega, h2⟩
  seq := by
    rintro m a b s d ⟨d0, h1, h2⟩
    cases d0 with
    | zero => cases h2
    | succ d0 =>
      simp only [Peg.flat, Bool.and_eq_true] at h2
      refine ⟨d - 1, by omega, ⟨d0, by omega, h2.1.1⟩, fun q hm => ⟨d0, by omega, ?_⟩, fun _ _ _ _ _ _ => ⟨d0, by omega, h2.1.2⟩⟩
      simpa [hm] using h2.2
  alt := by
    rintro m a b s d ⟨d0, h1, h2⟩
    cases d0 with
    | zero => cases h2
    | succ d0 =>
      simp only [Peg.flat, Bool.and_eq_true] at h2
      exact ⟨d - 1, by omega, ⟨d0, by omega, h2.1⟩, ⟨d0, by omega, h2.2⟩⟩
  opt := by
    rintro m a s d ⟨d0, h1, h2⟩
    cases d0 with
    | zero => cases h2
    | succ d0 => exact ⟨d - 1, by omega, d0, by omega, h2⟩
  star := by
    rintro m a s d ⟨d0, h1, h2⟩
    cases d0 with
    | zero => cases h2
    | succ d0 =>
      simp only [Peg.flat, Bool.and_eq_true] at h2
      exact ⟨d - 1, by omega, ⟨d0, by omega, h2.1⟩, fun _ _ _ _ => ⟨d0, by omega, h2.2⟩⟩
  more := by
    rintro m a s d ⟨d0, h1, h2⟩
    cases d0 with
    | zero => cases h2
    | succ d0 =>
      have h3 := h2
      simp only [Peg.flat, Bool.and_eq_true] at h2
      refine ⟨d - 1, by omega, fun q hm => ⟨d0, by omega, ?_⟩, fun _ _ => ⟨⟨d0, by omega, h2.1⟩, fun _ _ _ _ => ⟨d0 + 1, by omega, h3⟩⟩⟩
      simpa [hm] using h2.2
  not := by
    rintro m a s d ⟨d0, h1, h2⟩
    cases d0 with
    | zero => cases h2
    | succ d0 => exact ⟨d - 1, by omega, d0, by omega, h2⟩
  look := by
    rintro m a s d ⟨d0, h1, h2⟩
    cases d0 with
    | zero => cases h2
    | succ d0 => exact ⟨d - 1, by omega, d0, by omega, h2⟩

theorem flat_within {T d : Nat} {m : PegMode} {e : Peg GRule} {s : Str} {x : PegRes GRule} (hf : Peg.flat d m e = true)
    (h : commonGrammar.Reads T m e s x) : CallsWithin commonGrammar T d m e s x := by
  obtain ⟨n, h⟩ := h
  exact (flat_bound T).within n h ⟨d, Nat.le_refl _, hf⟩

/-! ### What is counted is what happens -/

theorem Skips.of {T : Nat} {m : PegMode} {s q' : Str} {l' : List (Pair GRule)}
    (h : m = .free → commonGrammar.Reads T .atomic commonGrammar.skipper s (some (l', q'))) (h' : m ≠ .free → l' = [] ∧ q' = s) :
    commonGrammar.Skips T m s l' q' := by
  unfold PegGrammar.Skips
  split
  · rename_i hm; exact h hm
  · rename_i hm; exact h' hm

theorem Spec.CallsWithin.reads {T d : Nat} {m : PegMode} {e : Peg GRule} {s : Str} {x : PegRes GRule} (h : CallsWithin commonGrammar T d m e s x) :
    commonGrammar.Reads T m e s x := by
  induction h with
  | leaf h => exact ⟨1, h⟩
  | rule _ ih => exact reads_rule ih
  | seq_none _ ih => exact reads_seq_none ih
  | seq _ _ h' _ iha ihs ihb => exact reads_seq iha (Skips.of ihs h') ihb
  | left _ ih => exact reads_alt_left ih
  | right _ _ iha ihb => exact reads_alt_right iha ihb
  | opt _ ih => exact reads_opt ih
  | star_none _ ih => exact reads_star_none ih
  | star _ _ iha ihb => exact reads_star iha ihb
  | more_none _ h' _ ihs iha => exact reads_more_none (Skips.of ihs h') iha
  | more _ h' _ _ ihs iha ihb => exact reads_more (Skips.of ihs h') iha ihb
  | not _ ih => exact reads_not ih
  | look _ ih =>
    rename_i x _
    have := reads_look ih
    cases x <;> exact this

/-! ### Depths that grow with the text -/

/-- How deep an expression is between the rules it calls. -/
def Peg.size : Peg GRule → Nat
  | .rule _ => 1
  | .seq a b => max (a.size) (max b.size 12) + 1
  | .alt a b => max a.size b.size + 1
  | .opt a => a.size + 1
  | .star a => max a.size 12 + 2
  | .more a => max a.size 12 + 1
  | .not a => a.size + 1
  | .look a => a.size + 1
  | _ => 0


theorem Peg.size_body (i : GRule) : (commonGrammar.body i).2.size ≤ 21 := by cases i <;> decide +kernel

theorem flat_skipper : Peg.flat 12 .atomic commonGrammar.skipper = true := by decide +kernel

/-- The depth is enough for the expression and the text. -/
def Grows (m : PegMode) (e : Peg GRule) (s : Str) (d : Nat) : Prop :=
  (∃ d0 ≤ d, Peg.flat d0 m e = true) ∨ ∃ k, k ≤ 13 ∧ e.fine GRule.nullable GRule.rank 13 k = true ∧ s.length * 273 + k * 21 + e.size ≤ d

theorem Grows.skip {d : Nat} (h : 12 ≤ d) (q : Str) : Grows .atomic commonGrammar.skipper q d := .inl ⟨12, h, flat_skipper⟩

set_option maxRecDepth 8000 in
theorem grows_bound (T : Nat) : DepthBound T Grows where
  rule := by
    rintro m i s d (h | ⟨k, h1, h2, h3⟩)
    · obtain ⟨d, rfl, h'⟩ := (flat_bound T).rule (s := s) h
      exact ⟨d, rfl, .inl h'⟩
    · have h4 := Peg.size_body i
      have h5 : GRule.rank i < k := by simpa [Peg.fine] using h2
      simp only [Peg.size] at h3
      exact ⟨d - 1, by omega, .inr ⟨GRule.rank i, by omega, commonGrammar_ends.fine i, by omega⟩⟩
  seq := by
    rintro m a b s d (h | ⟨k, h1, h2, h3⟩)
    · obtain ⟨d, rfl, ha, hs, hb⟩ := (flat_bound T).seq (s := s) h
      exact ⟨d, rfl, .inl ha, fun q hm => .inl (hs q hm), fun n l q q' h h' => .inl (hb n l q q' h h')⟩
    · simp only [Peg.fine, Bool.and_eq_true] at h2
      simp only [Peg.size] at h3
      refine ⟨d - 1, by omega, .inr ⟨k, h1, h2.1, by omega⟩, fun q _ => Grows.skip (by omega) q, fun n l q q' h h' => .inr ?_⟩
      have hl := run_left commonGrammar_ends.null h
      have h4 := hl.1.length_le
      have h5 := h'.length_le
      split at h2
      · exact ⟨k, h1, h2.2, by omega⟩
      · rename_i hn
        have h6 := hl.2 (by simpa using hn)
        exact ⟨13, Nat.le_refl _, h2.2, by omega⟩
  alt := by
    rintro m a b s d (h | ⟨k, h1, h2, h3⟩)
    · obtain ⟨d, rfl, ha, hb⟩ := (flat_bound T).alt (s := s) h
      exact ⟨d, rfl, .inl ha, .inl hb⟩
    · simp only [Peg.fine, Bool.and_eq_true] at h2
      simp only [Peg.size] at h3
      exact ⟨d - 1, by omega, .inr ⟨k, h1, h2.1, by omega⟩, .inr ⟨k, h1, h2.2, by omega⟩⟩
  opt := by
    rintro m a s d (h | ⟨k, h1, h2, h3⟩)
    · obtain ⟨d, rfl, ha⟩ := (flat_bound T).opt (s := s) h
      exact ⟨d, rfl, .inl ha⟩
    · simp only [Peg.size] at h3
      exact ⟨d - 1, by omega, .inr ⟨k, h1, h2, by omega⟩⟩
  star := by
    rintro m a s d (h | ⟨k, h1, h2, h3⟩)
    · obtain ⟨d, rfl, ha, hb⟩ := (flat_bound T).star (s := s) h
      exact ⟨d, rfl, .inl ha, fun n l q h => .inl (hb n l q h)⟩
    · have h2' := h2
      simp only [Peg.fine, Bool.and_eq_true] at h2
      simp only [Peg.size] at h3
      refine ⟨d - 1, by omega, .inr ⟨k, h1, h2.1, by omega⟩, fun n l q h => .inr ⟨k, h1, h2', ?_⟩⟩
      have h4 := (run_left commonGrammar_ends.null h).1.length_le
      simp only [Peg.size]
      omega
  more := by
    rintro m a s d (h | ⟨k, h1, h2, h3⟩)
    · obtain ⟨d, rfl, hs, hf⟩ := (flat_bound T).more (s := s) h
      exact ⟨d, rfl, fun q hm => .inl (hs q hm), fun q' h' => ⟨.inl (hf q' h').1, fun n l q hr => .inl ((hf q' h').2 n l q hr)⟩⟩
    · have h2' := h2
      simp only [Peg.fine, Bool.and_eq_true] at h2
      simp only [Peg.size] at h3
      refine ⟨d - 1, by omega, fun q _ => Grows.skip (by omega) q, fun q' h' => ?_⟩
      have h5 := h'.length_le
      refine ⟨.inr ⟨k, h1, h2.1, by omega⟩, fun n l q h => .inr ⟨k, h1, h2', ?_⟩⟩
      have h4 := (run_left commonGrammar_ends.null h).1.length_le
      simp only [Peg.size]
      omega
  not := by
    rintro m a s d (h | ⟨k, h1, h2, h3⟩)
    · obtain ⟨d, rfl, ha⟩ := (flat_bound T).not (s := s) h
      exact ⟨d, rfl, .inl ha⟩
    · simp only [Peg.size] at h3
      exact ⟨d - 1, by omega, .inr ⟨k, h1, h2, by omega⟩⟩
  look := by
    rintro m a s d (h | ⟨k, h1, h2, h3⟩)
    · obtain ⟨d, rfl, ha⟩ := (flat_bound T).look (s := s) h
      exact ⟨d, rfl, .inl ha⟩
    · simp only [Peg.size] at h3
      exact ⟨d - 1, by omega, .inr ⟨k, h1, h2, by omega⟩⟩

theorem linear_within {T : Nat} {m : PegMode} {i : GRule} {s : Str} {x : PegRes GRule} (h : commonGrammar.Reads T m (.rule i) s x) :
    CallsWithin commonGrammar T (273 * (s.length + 1) + 1) m (.rule i) s x := by
  obtain ⟨n, h⟩ := h
  refine (grows_bound T).within n h (.inr ⟨13, Nat.le_refl _, ?_, by simp only [Peg.size]; omega⟩)
  simpa [Peg.fine] using commonGrammar_ends.below i

/-! ### Depths of texts without brackets -/

/-- The expression begins with one of the words. -/
def Peg.opens (ws : List Str) : Peg GRule → Bool
  | .str t => ws.contains t
  | _ => false

/-- The depth is enough for the expression on texts without the words: what follows such a word is not looked at. -/
def Peg.flatBut (ws : List Str) : Nat → PegMode → Peg GRule → Bool
  | 0, _, e => match e with
    | .str _ => true | .istr _ => true | .range _ _ => true | .any => true | .soi => true | .eoi => true | _ => false
  | d + 1, m, e => match e with
    | .rule i => Peg.flatBut ws d ((commonGrammar.body i).1.mode m) (commonGrammar.body i).2
    | .seq a b => Peg.flatBut ws d m a && (a.opens ws || Peg.flatBut ws d m b) && (m != .free || decide (12 ≤ d))
    | .alt a b => Peg.flatBut ws d m a && Peg.flatBut ws d m b
    | .opt a => Peg.flatBut ws d m a
    | .star a => Peg.flatBut ws d m a && Peg.flatBut ws d m (.more a)
    | .more a => Peg.flatBut ws d m a && (m != .free || decide (12 ≤ d))
    | .not a => Peg.flatBut ws d m a
    | .look a => Peg.flatBut ws d m a
    | _ => true

theorem Spec.Lacks.suffix {ws : List Str} {s q : Str} (h : Lacks ws s) (hq : q <:+ s) : Lacks ws q :=
  fun w hw hi => h w hw (hi.trans hq.isInfix)

/-- The depth is enough for the expression on this text. -/
def LacksFlat (ws : List Str) (m : PegMode) (e : Peg GRule) (s : Str) (d : Nat) : Prop :=
  (∃ d0 ≤ d, Peg.flat d0 m e = true) ∨ (Lacks ws s ∧ ∃ d0 ≤ d, Peg.flatBut ws d0 m e = true)

theorem LacksFlat.skip {ws : List Str} {d : Nat} (h : 12 ≤ d) (q : Str) : LacksFlat ws .atomic commonGrammar.skipper q d := .inl ⟨12, h, flat_skipper⟩

theorem lacks_bound (T : Nat) (ws : List Str) : DepthBound T (LacksFlat ws) where
  rule := by
    rintro m i s d (h | ⟨hl, d0, h1, h2⟩)
    · obtain ⟨d, rfl, h'⟩ := (flat_bound T).rule (s := s) h
      exact ⟨d, rfl, .inl h'⟩
    · cases d0 with
      | zero => cases h2
      | succ d0 => exact ⟨d - 1, by omega, .inr ⟨hl, d0, by omega, h2⟩⟩
  seq := by
    rintro m a b s d (h | ⟨hl, d0, h1, h2⟩)
    · obtain ⟨d, rfl, ha, hs, hb⟩ := (flat_bound T).seq (s := s) h
      exact ⟨d, rfl, .inl ha, fun q hm => .inl (hs q hm), fun n l q q' h h' => .inl (hb n l q q' h h')⟩
    · cases d0 with
      | zero => cases h2
      | succ d0 =>
        simp only [Peg.flatBut, Bool.and_eq_true, Bool.or_eq_true, decide_eq_true_eq] at h2
        refine ⟨d - 1, by omega, .inr ⟨hl, d0, by omega, h2.1.1⟩, fun q hm => LacksFlat.skip ?_ q, fun n l q q' h h' => ?_⟩
        · have := h2.2
          simp [hm] at this
          omega
        · have hq := (run_left commonGrammar_ends.null h).1
          rcases h2.1.2 with ho | hb
          · exfalso
            cases a with
            | str t =>
              cases n with
              | zero => cases h
              | succ n =>
                simp only [PegGrammar.run, Option.some.injEq, Option.map_eq_some_iff, Prod.mk.injEq] at h
                obtain ⟨r, h, -, rfl⟩ := h
                refine hl t (by simpa [Peg.opens] using ho) ?_
                rw [stripPrefix_eq h]
                exact (List.prefix_append t r).isInfix
            | _ => simp [Peg.opens] at ho
          · exact .inr ⟨hl.suffix (h'.trans hq), d0, by omega, hb⟩
  alt := by
    rintro m a b s d (h | ⟨hl, d0, h1, h2⟩)
    · obtain ⟨d, rfl, ha, hb⟩ := (flat_bound T).alt (s := s) h
      exact ⟨d, rfl, .inl ha, .inl hb⟩
    · cases d0 with
      | zero => cases h2
      | succ d0 =>
        simp only [Peg.flatBut, Bool.and_eq_true] at h2
        exact ⟨d - 1, by omega, .inr ⟨hl, d0, by omega, h2.1⟩, .inr ⟨hl, d0, by omega, h2.2⟩⟩
  opt := by
    rintro m a s d (h | ⟨hl, d0, h1, h2⟩)
    · obtain ⟨d, rfl, ha⟩ := (flat_bound T).opt (s := s) h
      exact ⟨d, rfl, .inl ha⟩
    · cases d0 with
      | zero => cases h2
      | succ d0 => exact ⟨d - 1, by omega, .inr ⟨hl, d0, by omega, h2⟩⟩
  star := by
    rintro m a s d (h | ⟨hl, d0, h1, h2⟩)
    · obtain ⟨d, rfl, ha, hb⟩ := (flat_bound T).star (s := s) h
      exact ⟨d, rfl, .inl ha, fun n l q h => .inl (hb n l q h)⟩
    · cases d0 with
      | zero => cases h2
      | succ d0 =>
        simp only [Peg.flatBut, Bool.and_eq_true] at h2
        exact ⟨d - 1, by omega, .inr ⟨hl, d0, by omega, h2.1⟩,
          fun n l q h => .inr ⟨hl.suffix (run_left commonGrammar_ends.null h).1, d0, by omega, h2.2⟩⟩
  more := by
    rintro m a s d (h | ⟨hl, d0, h1, h2⟩)
    · obtain ⟨d, rfl, hs, hf⟩ := (flat_bound T).more (s := s) h
      exact ⟨d, rfl, fun q hm => .inl (hs q hm), fun q' h' => ⟨.inl (hf q' h').1, fun n l q hr => .inl ((hf q' h').2 n l q hr)⟩⟩
    · cases d0 with
      | zero => cases h2
      | succ d0 =>
        have h3 := h2
        simp only [Peg.flatBut, Bool.and_eq_true, Bool.or_eq_true, decide_eq_true_eq] at h2
        refine ⟨d - 1, by omega, fun q hm => LacksFlat.skip ?_ q, fun q' h' => ⟨.inr ⟨hl.suffix h', d0, by omega, h2.1⟩,
          fun n l q h => .inr ⟨(hl.suffix h').suffix (run_left commonGrammar_ends.null h).1, d0 + 1, by omega, h3⟩⟩⟩
        have := h2.2
        simp [hm] at this
        omega
  not := by
    rintro m a s d (h | ⟨hl, d0, h1, h2⟩)
    · obtain ⟨d, rfl, ha⟩ := (flat_bound T).not (s := s) h
      exact ⟨d, rfl, .inl ha⟩
    · cases d0 with
      | zero => cases h2
      | succ d0 => exact ⟨d - 1, by omega, .inr ⟨hl, d0, by omega, h2⟩⟩
  look := by
    rintro m a s d (h | ⟨hl, d0, h1, h2⟩)
    · obtain ⟨d, rfl, ha⟩ := (flat_bound T).look (s := s) h
      exact ⟨d, rfl, .inl ha⟩
    · cases d0 with
      | zero => cases h2
      | succ d0 => exact ⟨d - 1, by omega, .inr ⟨hl, d0, by omega, h2⟩⟩

theorem lacks_within {T d : Nat} {ws : List Str} {m : PegMode} {e : Peg GRule} {s : Str} {x : PegRes GRule} (hf : Peg.flatBut ws d m e = true)
    (hl : Lacks ws s) (h : commonGrammar.Reads T m e s x) : CallsWithin commonGrammar T d m e s x := by
  obtain ⟨n, h⟩ := h
  exact (lacks_bound T ws).within n h (.inr ⟨hl, d, Nat.le_refl _, hf⟩)

/-! ### Depths that are needed -/

/-- Every run of the one expression contains a run of the other, that many calls further down. -/
def Goes (T k : Nat) (e : Peg GRule) (s : Str) (e' : Peg GRule) (s' : Str) : Prop :=
  ∀ d x, CallsWithin commonGrammar T d .free e s x → ∃ d' x', d' + k ≤ d ∧ CallsWithin commonGrammar T d' .free e' s' x'

variable {T : Nat} {a b e e' : Peg GRule} {s s' q : Str}

theorem Goes.refl : Goes T 0 e s e s := fun d x h => ⟨d, x, Nat.le_refl _, h⟩

theorem Goes.trans {k k' : Nat} {e'' : Peg GRule} {s'' : Str} (h : Goes T k e s e' s') (h' : Goes T k' e' s' e'' s'') : Goes T (k + k') e s e'' s'' := by
  intro d x hx
  obtain ⟨d1, x1, h1, h2⟩ := h d x hx
  obtain ⟨d2, x2, h3, h4⟩ := h' d1 x1 h2
  exact ⟨d2, x2, by omega, h4⟩

theorem Goes.rule {i : GRule} {k : Nat} (hk : (commonGrammar.body i).1.mode .free = .free) (h : Goes T k (commonGrammar.body i).2 s e' s') :
    Goes T (k + 1) (.rule i) s e' s' := by
  intro d x hx
  cases hx with
  | leaf h => simp [PegGrammar.run] at h
  | rule hx =>
    rw [hk] at hx
    obtain ⟨d1, x1, h1, h2⟩ := h _ _ hx
    exact ⟨d1, x1, by omega, h2⟩

theorem Goes.first {k : Nat} (h : Goes T k a s e' s') : Goes T (k + 1) (.seq a b) s e' s' := by
  intro d x hx
  cases hx with
  | leaf h => simp [PegGrammar.run, PegRes.next] at h
  | seq_none hx =>
    obtain ⟨d1, x1, h1, h2⟩ := h _ _ hx
    exact ⟨d1, x1, by omega, h2⟩
  | seq hx _ _ _ =>
    obtain ⟨d1, x1, h1, h2⟩ := h _ _ hx
    exact ⟨d1, x1, by omega, h2⟩

theorem Goes.then {k : Nat} (ha : Acc T a s q) (h : Goes T k b (skip false q) e' s') : Goes T (k + 1) (.seq a b) s e' s' := by
  intro d x hx
  obtain ⟨l, ha⟩ := ha
  cases hx with
  | leaf h => simp [PegGrammar.run, PegRes.next] at h
  | seq_none hx => cases ha.det hx.reads
  | seq hx hs _ hb =>
    cases ha.det hx.reads
    obtain ⟨n, hs⟩ := (hs rfl).reads
    cases run_skip hs
    obtain ⟨d1, x1, h1, h2⟩ := h _ _ hb
    exact ⟨d1, x1, by omega, h2⟩

theorem Goes.left {k : Nat} (h : Goes T k a s e' s') : Goes T (k + 1) (.alt a b) s e' s' := by
  intro d x hx
  cases hx with
  | leaf h => simp [PegGrammar.run, PegRes.other] at h
  | left hx =>
    obtain ⟨d1, x1, h1, h2⟩ := h _ _ hx
    exact ⟨d1, x1, by omega, h2⟩
  | right hx _ =>
    obtain ⟨d1, x1, h1, h2⟩ := h _ _ hx
    exact ⟨d1, x1, by omega, h2⟩

theorem Goes.right {k : Nat} (ha : Rej T a s) (h : Goes T k b s e' s') : Goes T (k + 1) (.alt a b) s e' s' := by
  intro d x hx
  cases hx with
  | leaf h => simp [PegGrammar.run, PegRes.other] at h
  | left hx => cases ha.det hx.reads
  | right _ hx =>
    obtain ⟨d1, x1, h1, h2⟩ := h _ _ hx
    exact ⟨d1, x1, by omega, h2⟩

theorem Goes.star {k : Nat} (h : Goes T k a s e' s') : Goes T (k + 1) (.star a) s e' s' := by
  intro d x hx
  cases hx with
  | leaf h => simp [PegGrammar.run, PegRes.other, PegRes.next] at h
  | star_none hx =>
    obtain ⟨d1, x1, h1, h2⟩ := h _ _ hx
    exact ⟨d1, x1, by omega, h2⟩
  | star hx _ =>
    obtain ⟨d1, x1, h1, h2⟩ := h _ _ hx
    exact ⟨d1, x1, by omega, h2⟩

theorem Goes.opt {k : Nat} (h : Goes T k a s e' s') : Goes T (k + 1) (.opt a) s e' s' := by
  intro d x hx
  cases hx with
  | leaf h => simp [PegGrammar.run, PegRes.other] at h
  | opt hx =>
    obtain ⟨d1, x1, h1, h2⟩ := h _ _ hx
    exact ⟨d1, x1, by omega, h2⟩

theorem rej_list {w : Str} : Rej T (.rule .iri) ('(' :: w) ∧ Rej T (.rule .blankNode) ('(' :: w) ∧ Rej T (.rule .turtleLiteral) ('(' :: w) :=
  ⟨rej_iri (by decide) (by decide) (by decide) (by decide) (pIriRef_head (by decide)), rej_blank (by decide) (by decide),
    rej_turtleLiteral (by decide) (by decide) (by simp)⟩

/-- A list in a list is nine calls further down. -/
theorem goes_list {w : Str} : Goes T 9 (.rule .collection) ('(' :: '(' :: w) (.rule .collection) ('(' :: w) := by
  obtain ⟨h1, h2, h3⟩ := rej_list (T := T) (w := w)
  refine Goes.rule rfl (Goes.then (q := '(' :: w) (acc_str (r := '(' :: w) rfl) (Goes.first (Goes.star ?_)))
  rw [skip_solid ⟨'(', w, rfl, by decide, by decide⟩]
  exact Goes.rule rfl (Goes.right h1 (Goes.right h2 (Goes.right h3 (Goes.left Goes.refl))))

theorem goes_lists {w : Str} (n : Nat) : Goes T (9 * n) (.rule .collection) (List.replicate n '(' ++ '(' :: w) (.rule .collection) ('(' :: w) := by
  induction n with
  | zero => exact Goes.refl
  | succ n ih =>
    have h : Goes T 9 (.rule .collection) (List.replicate (n + 1) '(' ++ '(' :: w) (.rule .collection) (List.replicate n '(' ++ '(' :: w) := by
      cases n with
      | zero => exact goes_list
      | succ n => exact goes_list
    have := h.trans ih
    rwa [show 9 + 9 * n = 9 * (n + 1) by omega] at this

end Rdftk
