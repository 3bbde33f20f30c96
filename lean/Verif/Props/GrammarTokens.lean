import Verif.Lemmas.PegTokens
import Verif.Props.GrammarTurtle

/-! The tokens of Turtle in the grammar of the code and in the recommendation. -/

namespace Rdftk

open PegGrammar Spec

/-! ### C189 -/

/-- **C189.** The rule for numbers reads the longest number of the recommendation at the start of the text, of whatever kind, and makes the
pair of this kind. -/
theorem C189_longest (T : Nat) (s : Str) (l : List (Pair GRule)) (r : Str) :
    commonGrammar.Reads T .free (.rule .NumericLiteral) s (some (l, r)) ↔
    ∃ k t, l = [.mk (some .NumericLiteral) t [.mk (some k) t []]] ∧ s = t ++ r ∧ NumberText k t ∧
      ∀ k' t' r', s = t' ++ r' → NumberText k' t' → t'.length ≤ t.length := by
  rcases number_found T s with ⟨k, t, r', e, ht, hl, hr⟩ | ⟨hn, hr⟩
  · constructor
    · intro h
      have := Option.some.inj (h.det hr)
      cases this
      exact ⟨k, t, rfl, e, ht, hl⟩
    · rintro ⟨k', t', rfl, e', ht', hl'⟩
      have h1 := hl _ _ _ e' ht'
      have h2 := hl' _ _ _ e ht
      have ht2 : t' = t := (List.append_inj (e' ▸ e) (by omega)).1
      subst ht2
      have : r' = r := (List.append_inj (e ▸ e') rfl).2
      subst this
      rw [number_kind ht' ht]
      exact hr
  · constructor
    · intro h
      cases h.det hr
    · rintro ⟨k, t, -, e, ht, -⟩
      exact absurd ht (hn k t r e)

/-- C189: where no number stands, none is read. -/
theorem C189_none (T : Nat) (s : Str) :
    commonGrammar.Reads T .free (.rule .NumericLiteral) s none ↔ ∀ k t r, s = t ++ r → ¬ NumberText k t := by
  rcases number_found T s with ⟨k, t, r', e, ht, hl, hr⟩ | ⟨hn, hr⟩
  · constructor
    · intro h; cases h.det hr
    · intro h; exact absurd ht (h k t r' e)
  · exact ⟨fun _ => hn, fun _ => hr⟩

/-- C189: a number is of one kind only. -/
theorem C189_kinds (k k' : GRule) (t : Str) (h : NumberText k t) (h' : NumberText k' t) : k = k' := number_kind h h'

example : NumberText .Double (str! "-1.e5") ∧ NumberText .Decimal (str! ".5") ∧ NumberText .Integer (str! "+007") := by
  refine ⟨.inl ⟨rfl, ['-'], ['1'], [], ['e', '5'], .inr (.inr rfl), by simp [DigitsText], by simp [DigitsText],
    ⟨'e', [], ['5'], .inl rfl, .inl rfl, by simp [DigitsText], by simp, rfl⟩, .inl ⟨by simp, rfl⟩⟩,
    .inr (.inl ⟨rfl, [], [], ['5'], .inl rfl, by simp [DigitsText], by simp [DigitsText], by simp, rfl⟩),
    .inr (.inr ⟨rfl, ['+'], (str! "007"), .inr (.inl rfl), by simp [DigitsText], by simp, rfl⟩)⟩

/-! ### C190 -/

/-- A name: the head, then the tail as far as it goes. -/
theorem reads_word {T : Nat} {i : GRule} {a e : Peg GRule} {hf : Str → Option Str} {u x r : Str} (hk : (commonGrammar.body i).1 = .atomic)
    (hb : (commonGrammar.body i).2 = .seq a (.star e)) (ha : Does T a hf) (hu : hf (u ++ (x ++ r)) = some (x ++ r))
    (he : commonGrammar.Reads T .atomic (.star e) (x ++ r) (some ([], r))) :
    commonGrammar.Reads T .free (.rule i) (u ++ (x ++ r)) (some ([.mk (some i) (u ++ x) []], r)) := by
  have h1 : commonGrammar.Reads T .atomic (commonGrammar.body i).2 (u ++ (x ++ r)) (some ([], r)) := by
    rw [hb]
    have h0 := ha (u ++ (x ++ r))
    rw [hu] at h0
    refine reads_seq_atomic h0 (fun q hq => ?_) (fun l q hq => ?_) (fun hq => ?_)
    · cases hq; exact he
    · cases hq; rfl
    · cases hq
  refine (reads_rule (g := commonGrammar) (i := i) (m := .free) (x := some ([], r)) (by rw [hk]; exact h1)).cast ?_
  have : textRead (u ++ (x ++ r)) r = u ++ x := by rw [← List.append_assoc]; exact textRead_append _ r
  rw [hk]
  simp [PegKind.makes, this]

/-- C190, the full statement: the prefixes and the local names of the recommendation are read as one word each. -/
def C190_statement : Prop :=
  (∀ (T : Nat) (c : Char) (us r : Str), PrefixWord c us → WordEnds r →
    commonGrammar.Reads T .free (.rule .PN_PREFIX) (c :: (us ++ r)) (some ([.mk (some .PN_PREFIX) (c :: us) []], r))) ∧
  ∀ (T : Nat) (u : Str) (us : List Str) (r : Str), LocalWord u us → WordEnds r → (∀ q, r ≠ ':' :: q) →
    commonGrammar.Reads T .free (.rule .PN_LOCAL) (u ++ (us.flatten ++ r)) (some ([.mk (some .PN_LOCAL) (u ++ us.flatten) []], r))

theorem flatten_map (us : Str) : (us.map fun c => [c]).flatten = us := by
  induction us with
  | nil => rfl
  | cons c us ih => rw [List.map_cons, List.flatten_cons, ih]; rfl

theorem dots_map (us : Str) : [['.'], ['.']] <:+: us.map (fun c => [c]) ↔ ['.', '.'] <:+: us := by
  constructor
  · rintro ⟨a, b, e⟩
    have := congrArg List.flatten e
    refine ⟨a.flatten, b.flatten, ?_⟩
    rw [flatten_map] at this
    simpa using this
  · rintro ⟨a, b, e⟩
    exact ⟨a.map fun c => [c], b.map fun c => [c], by rw [← e]; simp⟩

/-- C190 for prefixes, exactly: those without two dots in a row are read as one word. -/
theorem C190_prefix_iff (T : Nat) (c : Char) (us r : Str) (h : PrefixWord c us) (hr : WordEnds r) :
    commonGrammar.Reads T .free (.rule .PN_PREFIX) (c :: (us ++ r)) (some ([.mk (some .PN_PREFIX) (c :: us) []], r)) ↔
    ¬ ['.', '.'] <:+: us := by
  obtain ⟨hc, hus, hl⟩ := h
  have hu : ∀ v ∈ us.map (fun c => [c]), (∃ c, isPnChars c = true ∧ v = [c]) ∨ v = ['.'] := by
    intro v hv
    obtain ⟨d, hd, rfl⟩ := List.mem_map.1 hv
    rcases hus d hd with h | rfl
    · exact .inl ⟨d, h, rfl⟩
    · exact .inr rfl
  have hone : ∀ x, oneRest isPnCharsBase ([c] ++ x) = some x := fun x => by simp [oneRest, hc]
  constructor
  · intro h hd
    obtain ⟨a, u, b, e, hn, hs⟩ := (prefix_parts hr).stops (T := T) does_prefixTail _ (fun v hv => (hu v hv).imp id .inr)
      (.inl ((dots_map us).2 hd)) (fun _ _ h => h)
    rw [flatten_map] at hs
    have e2 : us ++ r = a.flatten ++ (u ++ (b.flatten ++ r)) := by
      rw [← flatten_map us, e]; simp
    rw [e2] at hs h
    have h2 := reads_word (i := .PN_PREFIX) (u := [c]) (x := a.flatten) rfl rfl one_pnBase.does (hone _) hs
    have := h.det h2
    have := congrArg List.length (congrArg Prod.snd (Option.some.inj this))
    simp at this
    exact hn (List.length_eq_zero_iff.1 (by omega))
  · intro hd
    have hs := (prefix_parts hr).whole (T := T) does_prefixTail (us.map fun c => [c]) hu (by
      rw [List.getLast?_map]
      intro e
      obtain ⟨d, hd, e⟩ := Option.map_eq_some_iff.1 e
      cases e
      exact hl hd) (fun h => hd ((dots_map us).1 h))
    rw [flatten_map] at hs
    exact reads_word (i := .PN_PREFIX) (u := [c]) (x := us) rfl rfl one_pnBase.does (hone _) hs

/-- What the first part of a local name leaves. -/
def headRest (s : Str) : Option Str := (oneRest (fun c => isPnCharsU c || (c == ':' || isAsciiDigit c)) s).or ((percentRest s).or (escapeRest s))

theorem does_head {T : Nat} : Does T (.alt (.rule .PN_CHARS_U) (.alt (.str [':']) (.alt .asciiDigit (.rule .PLX)))) headRest := by
  refine (one_pnU.does.alt ((one_chr ':').does.alt (One.ascii_digit.does.alt does_plx))).congr fun s => ?_
  cases s with
  | nil => rfl
  | cons c s =>
    cases h1 : isPnCharsU c <;> cases h2 : (c == ':') <;> cases h3 : isAsciiDigit c <;> simp [headRest, oneRest, h1, h2, h3]

/-- C190 for local names, exactly: those without two dots in a row and without an escaped quote are read as one word. -/
theorem C190_local_iff (T : Nat) (u : Str) (us : List Str) (r : Str) (h : LocalWord u us) (hr : WordEnds r) (h0 : ∀ q, r ≠ ':' :: q) :
    commonGrammar.Reads T .free (.rule .PN_LOCAL) (u ++ (us.flatten ++ r)) (some ([.mk (some .PN_LOCAL) (u ++ us.flatten) []], r)) ↔
    (¬ [['.'], ['.']] <:+: us) ∧ ['\\', '\''] ∉ u :: us := by
  obtain ⟨hh, hus, hl⟩ := h
  have hp := local_parts hr h0
  have hqr : ∀ q, r ≠ '\'' :: q := by
    rcases hr with rfl | ⟨c, q, rfl, -, -, -, -, hc⟩
    · simp
    · intro q' e; cases e; exact hc rfl
  have hu : ∀ v ∈ us, GoodPart v ∨ v = ['\\', '\''] ∨ v = ['.'] := by
    intro v hv
    rcases hus v hv with h | rfl
    · by_cases hb : v = ['\\', '\'']
      · exact .inr (.inl hb)
      · exact .inl ⟨h, hb⟩
    · exact .inr (.inr rfl)
  have hnone : ∀ x, PlxText u → oneRest (fun c => isPnCharsU c || (c == ':' || isAsciiDigit c)) (u ++ x) = none := by
    rintro x (⟨a, b, -, -, rfl⟩ | ⟨c, -, rfl⟩)
    · simp [oneRest, show isPnCharsU '%' = false from by decide, show isAsciiDigit '%' = false from by decide]
    · simp [oneRest, show isPnCharsU '\\' = false from by decide, show isAsciiDigit '\\' = false from by decide]
  have hone : u ≠ ['\\', '\''] → ∀ x, headRest (u ++ x) = some x := by
    intro hn x
    rcases hh with ⟨c, hc, rfl⟩ | hh
    · have : (isPnCharsU c || (c == ':' || isAsciiDigit c)) = true := by simpa using hc
      simp [headRest, oneRest, this]
    · rw [headRest, hnone x hh, Option.none_or]
      exact plx_read hh hn
  by_cases hub : u = ['\\', '\'']
  · constructor
    · intro h
      exfalso
      have hb : headRest (u ++ (us.flatten ++ r)) = none := by
        rw [headRest, hnone _ (.inr ⟨'\'', by decide, hub⟩), Option.none_or, hub]
        exact plx_unread (flatten_no_quote hqr us hus)
      have h1 : commonGrammar.Reads T .atomic (commonGrammar.body .PN_LOCAL).2 (u ++ (us.flatten ++ r)) none := by
        have := does_head (T := T) (u ++ (us.flatten ++ r))
        rw [hb] at this
        exact reads_seq_none this
      have h2 : commonGrammar.Reads T .free (.rule .PN_LOCAL) (u ++ (us.flatten ++ r)) none :=
        reads_rule (g := commonGrammar) (i := .PN_LOCAL) (m := .free) (x := none) h1
      cases h.det h2
    · rintro ⟨-, h⟩
      exact absurd (List.mem_cons.2 (.inl hub.symm)) h
  · constructor
    · intro h
      refine Classical.byContradiction fun hc => ?_
      have hd : [['.'], ['.']] <:+: us ∨ ∃ v ∈ us, v = ['\\', '\''] := by
        by_cases h1 : [['.'], ['.']] <:+: us
        · exact .inl h1
        · right
          refine ⟨_, ?_, rfl⟩
          refine Classical.byContradiction fun hm => hc ⟨h1, fun hm' => ?_⟩
          rcases List.mem_cons.1 hm' with e | e
          · exact hub e.symm
          · exact hm e
      obtain ⟨a, v, b, e, hn, hs⟩ := hp.stops (T := T) does_localTail us hu hd (fun v hg hb => hg.2 hb)
      have e2 : us.flatten ++ r = a.flatten ++ (v ++ (b.flatten ++ r)) := by rw [e]; simp
      rw [e2] at hs h
      have h2 := reads_word (i := .PN_LOCAL) (u := u) (x := a.flatten) rfl rfl does_head (hone hub _) hs
      have := h.det h2
      have := congrArg List.length (congrArg Prod.snd (Option.some.inj this))
      simp at this
      exact hn (List.length_eq_zero_iff.1 (by omega))
    · rintro ⟨h1, h2⟩
      have hs := hp.whole (T := T) does_localTail us (fun v hv => by
        rcases hu v hv with h | h | h
        · exact .inl h
        · exact absurd (List.mem_cons_of_mem _ (h ▸ hv)) h2
        · exact .inr h) hl h1
      exact reads_word (i := .PN_LOCAL) (u := u) (x := us.flatten) rfl rfl does_head (hone hub _) hs

/-- C190 fails for a prefix with two dots. -/
theorem C190_fails : ¬ C190_statement := by
  intro h
  have := h.1 0 'a' (str! "..b") [] ⟨by decide, by decide, by decide⟩ (.inl rfl)
  exact (C190_prefix_iff 0 'a' (str! "..b") [] ⟨by decide, by decide, by decide⟩ (.inl rfl)).1 this ⟨[], ['b'], rfl⟩

/-- C190 fails for a local name with an escaped quote. -/
theorem C190_fails_quote : ∃ u us, LocalWord u us ∧
    ¬ commonGrammar.Reads 0 .free (.rule .PN_LOCAL) (u ++ us.flatten) (some ([.mk (some .PN_LOCAL) (u ++ us.flatten) []], [])) := by
  have hw : LocalWord ['a'] [['\\', '\'']] :=
    ⟨.inl ⟨'a', .inl (by decide), rfl⟩, fun v hv => .inl (by
      rw [List.mem_singleton.1 hv]; exact .inr (.inr ⟨'\'', by decide, rfl⟩)), by decide⟩
  refine ⟨['a'], [['\\', '\'']], hw, fun h => ?_⟩
  have := (C190_local_iff 0 _ _ [] hw (.inl rfl) (by simp)).1 (by simpa using h)
  exact this.2 (by simp)

example : PrefixWord 'e' (str! "x.y") ∧ ¬ ['.', '.'] <:+: (str! "x.y") ∧ WordEnds (str! ":") ∧
    LocalWord ['a'] [['.'], ['%', '4', '1'], ['\\', '.'], [':']] := by
  refine ⟨⟨by decide, by decide, by decide⟩, by decide, .inr ⟨':', [], rfl, by decide, by decide, by decide, by decide, by decide⟩,
    .inl ⟨'a', .inl (by decide), rfl⟩, ?_, by decide⟩
  intro v hv
  simp only [List.mem_cons, List.not_mem_nil, or_false] at hv
  rcases hv with rfl | rfl | rfl | rfl
  · exact .inr rfl
  · exact .inl (.inr (.inl ⟨'4', '1', .inl (by decide), .inl (by decide), rfl⟩))
  · exact .inl (.inr (.inr ⟨'.', by decide, rfl⟩))
  · exact .inl (.inl ⟨':', .inr rfl, rfl⟩)

end Rdftk
