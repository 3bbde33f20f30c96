import Verif.Model.Chrono
import Verif.Props.Literal

/-!
C151: literals of `chrono::Duration`.
-/

namespace Rdftk

open Spec

/-- The value in nanoseconds. -/
def Delta.total (d : Delta) : Int := d.secs * 10 ^ 9 + d.nanos

theorem neg_total (d : Delta) (h : d.ok) : d.neg.total = - d.total ∧ d.neg.ok := by
  unfold Delta.neg Delta.total Delta.ok at *
  split
  · rename_i h0; simp [h0]; omega
  · constructor
    · simp only
      have : ((10 ^ 9 - d.nanos : Nat) : Int) = 10 ^ 9 - (d.nanos : Int) := by omega
      rw [this]
      omega
    · simp only; omega

/-- The zeros at the end do not count. -/
theorem trim_spec (n : Nat) : ∀ f, 0 < f → f < 10 ^ n → (Delta.trim n f).1 * 10 ^ (n - (Delta.trim n f).2) = f ∧
    0 < (Delta.trim n f).2 ∧ (Delta.trim n f).2 ≤ n ∧ (Delta.trim n f).1 < 10 ^ (Delta.trim n f).2 := by
  induction n with
  | zero => intro f h1 h2; simp at h2; omega
  | succ n ih =>
    intro f h1 h2
    simp only [Delta.trim]
    split
    · rename_i h3
      have h4 : 0 < f / 10 := by omega
      have h5 : f / 10 < 10 ^ n := by rw [Nat.pow_succ] at h2; omega
      obtain ⟨a, b, c, d⟩ := ih (f / 10) h4 h5
      refine ⟨?_, b, by omega, d⟩
      rw [show n + 1 - (Delta.trim n (f / 10)).2 = (n - (Delta.trim n (f / 10)).2) + 1 by omega, Nat.pow_succ,
        ← Nat.mul_assoc, a]
      omega
    · exact ⟨by simp, by simp, by simp, h2⟩

theorem ofDigits_zeros (k : Nat) (s : Str) :
    Nat.ofDigitChars 10 (List.replicate k '0' ++ s) 0 = Nat.ofDigitChars 10 s 0 := by
  induction k with
  | zero => rfl
  | succ k ih =>
    rw [List.replicate_succ, List.cons_append, Nat.ofDigitChars_cons]
    exact ih

theorem padZeros_spec (n f : Nat) (h0 : 0 < n) (h : f < 10 ^ n) : (Delta.padZeros n f).length = n ∧
    (Delta.padZeros n f).all Char.isDigit = true ∧ Nat.ofDigitChars 10 (Delta.padZeros n f) 0 = f := by
  have hl : (Nat.toDigits 10 f).length ≤ n := (Nat.length_toDigits_le_iff (by decide) h0).2 h
  refine ⟨by simp [Delta.padZeros]; omega, ?_, ?_⟩
  · simp only [Delta.padZeros, List.all_append, Bool.and_eq_true, List.all_eq_true]
    refine ⟨fun c hc => ?_, fun c hc => Nat.isDigit_of_mem_toDigits (by decide) (by decide) hc⟩
    rw [List.eq_of_mem_replicate hc]; decide
  · rw [Delta.padZeros, ofDigits_zeros, Nat.ofDigitChars_ten_toDigits]

theorem magnitude_spec (d : Delta) (h : d.ok) (h0 : 0 ≤ d.secs) :
    (if 'P' :: d.magnitude = ['P', '0', 'D'] then some (0 : Int) else (durationNanos ('P' :: d.magnitude)).map Int.ofNat) =
      some d.total := by
  obtain ⟨s, n⟩ := d
  obtain ⟨s, rfl⟩ := Int.eq_ofNat_of_zero_le h0
  have ht : intText (s : Int) = Nat.toDigits 10 s := by simp [intText]
  have dig : ∀ n, (Nat.toDigits 10 n).all Char.isDigit = true := by
    intro n; rw [List.all_eq_true]
    intro c hc; exact Nat.isDigit_of_mem_toDigits (by decide) (by decide) hc
  have nodot : ∀ n, '.' ∉ Nat.toDigits 10 n := by
    intro n hm
    have := Nat.isDigit_of_mem_toDigits (by decide) (by decide) hm; revert this; decide
  have ssuf : ∀ s : Str, stripSuffix (s ++ ['S']) 'S' = some s := by
    intro s; simp [stripSuffix]
  have ne : ∀ n, Nat.toDigits 10 n ≠ [] := fun n => Nat.toDigits_ne_nil
  unfold Delta.magnitude
  simp only [ht]
  split
  · rename_i hz
    obtain ⟨h1, rfl⟩ := hz
    have : s = 0 := by omega
    subst this
    simp [Delta.total]
  · rename_i hz
    rw [if_neg (by simp)]
    split
    · rename_i hn
      obtain ⟨t1, t2, t3, t4⟩ := trim_spec 9 n hn h
      obtain ⟨p1, p2, p3⟩ := padZeros_spec _ _ t2 t4
      have pne : Delta.padZeros (Delta.trim 9 n).2 (Delta.trim 9 n).1 ≠ [] := by
        intro e; rw [e] at p1; simp at p1; omega
      rw [show 'P' :: ('T' :: Nat.toDigits 10 s ++ '.' :: Delta.padZeros (Delta.trim 9 n).2 (Delta.trim 9 n).1 ++ ['S']) =
        'P' :: 'T' :: ((Nat.toDigits 10 s ++ '.' :: Delta.padZeros (Delta.trim 9 n).2 (Delta.trim 9 n).1) ++ ['S']) by simp]
      simp only [durationNanos, stripPrefix, if_true, ssuf, splitFirst_append (nodot _), ne, dig, p1, p2, p3, pne, t3,
        ne_eq, not_false_eq_true, and_self, Nat.ofDigitChars_ten_toDigits, t1, Option.map_some, Delta.total]
      simp
    · rename_i hn
      have : n = 0 := by omega
      subst this
      rw [show 'P' :: ('T' :: Nat.toDigits 10 s ++ [] ++ ['S']) = 'P' :: 'T' :: (Nat.toDigits 10 s ++ ['S']) by simp]
      simp only [durationNanos, stripPrefix, if_true, ssuf, splitFirst_not_mem (nodot _), ne, dig,
        ne_eq, not_false_eq_true, and_self, Nat.ofDigitChars_ten_toDigits, Option.map_some, Delta.total]
      simp

/-- C151: the text of every duration of `chrono`, negative ones included, denotes the duration. -/
theorem C151_denotes (d : Delta) (h : d.ok) : signedNanos d.text = some d.total := by
  unfold Delta.text
  split
  · rename_i hs
    obtain ⟨h1, h2⟩ := neg_total d h
    have h3 : 0 ≤ d.neg.secs := by
      unfold Delta.neg; split <;> simp <;> omega
    simp only [signedNanos]
    rw [magnitude_spec _ h2 h3, h1]
    simp
  · rename_i hs
    have := magnitude_spec d h (by omega)
    exact this

theorem delta_inj {d e : Delta} (hd : d.ok) (he : e.ok) (h : d.total = e.total) : d = e := by
  obtain ⟨a, b⟩ := d
  obtain ⟨a', b'⟩ := e
  simp only [Delta.total, Delta.ok] at *
  have : a = a' := by omega
  subst this
  have : b = b' := by omega
  rw [this]

theorem delta_ascii (d : Delta) : ∀ c ∈ d.text, 0x20 ≤ c.toNat ∧ c.toNat < 0x7F ∧ c ≠ '"' ∧ c ≠ '\\' := by
  have dig : ∀ n, ∀ c ∈ Nat.toDigits 10 n, 0x20 ≤ c.toNat ∧ c.toNat < 0x7F ∧ c ≠ '"' ∧ c ≠ '\\' := fun n => toDigits_ascii
  have hm : ∀ d : Delta, ∀ c ∈ d.magnitude, 0x20 ≤ c.toNat ∧ c.toNat < 0x7F ∧ c ≠ '"' ∧ c ≠ '\\' := by
    intro d c hc
    unfold Delta.magnitude at hc
    split at hc
    · revert c; decide
    · simp only [List.cons_append, List.mem_cons, List.mem_append, List.not_mem_nil, or_false] at hc
      rcases hc with rfl | (hc | hc) | rfl
      · decide
      · exact intText_ascii _ c hc
      · split at hc
        · rcases List.mem_cons.1 hc with rfl | hc
          · decide
          · rcases List.mem_append.1 hc with hc | hc
            · rw [List.eq_of_mem_replicate hc]; decide
            · exact dig _ c hc
        · cases hc
      · decide
  intro c hc
  unfold Delta.text at hc
  split at hc
  · rcases List.mem_cons.1 hc with rfl | hc
    · decide
    rcases List.mem_cons.1 hc with rfl | hc
    · decide
    exact hm _ c hc
  · rcases List.mem_cons.1 hc with rfl | hc
    · decide
    exact hm _ c hc

/-- C151: a literal made of a duration of `chrono` compares equal to that duration and to no other. -/
theorem C151_equals (pr : Char → Bool) (hp : AsciiPrintable pr) (d e : Delta) (hd : d.ok) (he : e.ok) :
    (Literal.ofDelta pr d).eqDelta e = true ↔ d = e := by
  have hx : (Literal.ofDelta pr d).lexicalForm = d.text := escape_ascii hp (delta_ascii d)
  constructor
  · intro h
    simp only [Literal.eqDelta, Bool.and_eq_true, beq_iff_eq, hx] at h
    apply delta_inj hd he
    have h1 := C151_denotes d hd
    rw [h.1, C151_denotes e he] at h1
    exact (Option.some.inj h1).symm
  · rintro rfl
    simp only [Literal.eqDelta, hx, beq_self_eq_true, Bool.true_and]
    simp [Literal.ofDelta, Literal.withDataType]

/-- C151: literals of different durations are different. -/
theorem C151_injective (pr : Char → Bool) (d e : Delta) (hd : d.ok) (he : e.ok)
    (h : Literal.ofDelta pr d = Literal.ofDelta pr e) : d = e := by
  have h1 : d.text = e.text := C17_injective pr _ _ (congrArg Literal.lexicalForm h)
  apply delta_inj hd he
  have h2 := C151_denotes d hd
  rw [h1, C151_denotes e he] at h2
  exact (Option.some.inj h2).symm

/-- The duration of the standard library with the same value. -/
def Delta.toStd (d : Delta) : Duration := ⟨d.secs.toNat, d.nanos⟩

/-- C151: for a duration that both libraries have, the two literals have the same text exactly when
there are no nanoseconds but some seconds, or at least a tenth of a second of them and the last of
the nine decimals is not zero. -/
theorem C151_std (pr : Char → Bool) (d : Delta) (hd : d.ok) (h0 : 0 ≤ d.secs) :
    Literal.ofDuration pr d.toStd = Literal.ofDelta pr d ↔
      (d.nanos = 0 ∧ d.secs ≠ 0) ∨ (10 ^ 8 ≤ d.nanos ∧ d.nanos % 10 ≠ 0) := by
  have hl : Literal.ofDuration pr d.toStd = Literal.ofDelta pr d ↔ d.toStd.text = d.text := by
    constructor
    · intro h
      exact C17_injective pr _ _ (congrArg Literal.lexicalForm h)
    · intro h
      simp [Literal.ofDuration, Literal.ofDelta, h]
  rw [hl]
  obtain ⟨s, n⟩ := d
  obtain ⟨s, rfl⟩ := Int.eq_ofNat_of_zero_le h0
  have ht : intText (s : Int) = Nat.toDigits 10 s := by simp [intText]
  have hneg : ¬ ((s : Int) < 0) := by omega
  simp only [Delta.ok] at hd
  simp only [Delta.toStd, Duration.text, Delta.text, hneg, if_false, Delta.magnitude, ht, Int.toNat_natCast]
  by_cases hn : n = 0
  · subst hn
    by_cases hs : s = 0
    · subst hs; simp
    · simp [hs]
  · have hn' : 0 < n := by omega
    obtain ⟨t1, t2, t3, t4⟩ := trim_spec 9 n hn' hd
    obtain ⟨p1, p2, p3⟩ := padZeros_spec _ _ t2 t4
    simp only [hn, hn', ne_eq, not_false_eq_true, if_true, and_false, if_false, false_and, false_or]
    have key : Nat.toDigits 10 n = Delta.padZeros (Delta.trim 9 n).2 (Delta.trim 9 n).1 ↔ 10 ^ 8 ≤ n ∧ ¬ n % 10 = 0 := by
      constructor
      · intro h
        have h1 : (Delta.trim 9 n).1 = n := by
          rw [← p3, ← h, Nat.ofDigitChars_ten_toDigits]
        have h2 : ¬ n % 10 = 0 := by
          intro h3
          have h4 : (Delta.trim 9 n).1 = (Delta.trim 8 (n / 10)).1 := by simp [Delta.trim, h3]
          obtain ⟨u1, -, -, -⟩ := trim_spec 8 (n / 10) (by omega) (by omega)
          have h5 : (Delta.trim 8 (n / 10)).1 ≤ n / 10 := by
            have : 0 < 10 ^ (8 - (Delta.trim 8 (n / 10)).2) := Nat.pow_pos (by decide)
            have := Nat.le_mul_of_pos_right (Delta.trim 8 (n / 10)).1 this
            rwa [u1] at this
          omega
        refine ⟨?_, h2⟩
        have h3 : (Delta.trim 9 n).2 = 9 := by simp [Delta.trim, h2]
        have h4 : (Nat.toDigits 10 n).length = 9 := by rw [h, p1, h3]
        refine Classical.byContradiction fun h5 => ?_
        have := (Nat.length_toDigits_le_iff (b := 10) (n := n) (k := 8) (by decide) (by decide)).2 (by omega)
        omega
      · rintro ⟨h1, h2⟩
        have h3 : Delta.trim 9 n = (n, 9) := by simp [Delta.trim, h2]
        have h4 : ¬ (Nat.toDigits 10 n).length ≤ 8 := by
          intro h5
          have := (Nat.length_toDigits_le_iff (b := 10) (n := n) (k := 8) (by decide) (by decide)).1 h5
          omega
        rw [h3]
        simp only [Delta.padZeros]
        rw [show 9 - (Nat.toDigits 10 n).length = 0 by omega]
        rfl
    rw [← key]
    simp

/-- C151: a literal of a duration of the standard library compares equal to the same duration of
`chrono` exactly when the two have the same text. -/
theorem C151_across (pr : Char → Bool) (hp : AsciiPrintable pr) (d : Delta) (hd : d.ok) (h0 : 0 ≤ d.secs) :
    (Literal.ofDuration pr d.toStd).eqDelta d = true ↔
      (d.nanos = 0 ∧ d.secs ≠ 0) ∨ (10 ^ 8 ≤ d.nanos ∧ d.nanos % 10 ≠ 0) := by
  rw [← C151_std pr d hd h0]
  have hx : (Literal.ofDelta pr d).lexicalForm = d.text := escape_ascii hp (delta_ascii d)
  constructor
  · intro h
    simp only [Literal.eqDelta, Bool.and_eq_true, beq_iff_eq] at h
    have h1 : escapeString pr d.toStd.text = escapeString pr d.text := h.1.trans hx.symm
    simp only [Literal.ofDuration, Literal.ofDelta, Literal.withDataType, h1]
  · intro h
    rw [h]
    exact (C151_equals pr hp d d hd hd).2 rfl

/-- C151: a literal of a duration of `chrono` never compares equal to a duration of the standard
library. -/
theorem C151_not_std (pr : Char → Bool) (hp : AsciiPrintable pr) (d : Delta) (e : Duration) :
    (Literal.ofDelta pr d).eqDuration e = false := by
  have hx : (Literal.ofDelta pr d).lexicalForm = d.text := escape_ascii hp (delta_ascii d)
  refine Bool.eq_false_iff.2 fun h => ?_
  simp only [Literal.eqDuration, Bool.and_eq_true, beq_iff_eq, hx] at h
  have h1 : 'P' ∈ d.text := by unfold Delta.text; split <;> simp
  rw [h.1] at h1
  have := Nat.isDigit_of_mem_toDigits (by decide) (by decide) h1
  revert this; decide

/-- Half a second less than nothing. -/
example : (⟨-1, 500000000⟩ : Delta).ok ∧ (⟨-1, 500000000⟩ : Delta).text = str! "-PT0.5S" := by
  refine ⟨by simp [Delta.ok], ?_⟩
  decide +kernel

end Rdftk
