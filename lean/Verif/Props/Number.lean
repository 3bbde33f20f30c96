import Verif.Spec.Number
import Verif.Lemmas.Literal
import Mathlib.Tactic.Ring
import Mathlib.Tactic.FieldSimp
import Mathlib.Tactic.Linarith

/-! Properties of literals from floating point and decimal numbers. -/

namespace Rdftk
open Spec

theorem digitChar_ascii {c : Char} (h : c.isDigit = true) :
    0x20 ≤ c.toNat ∧ c.toNat < 0x7F ∧ c ≠ '"' ∧ c ≠ '\\' := by
  simp only [Char.isDigit, Bool.and_eq_true, decide_eq_true_eq, ge_iff_le] at h
  have h1 : 48 ≤ c.toNat := h.1
  have h2 : c.toNat ≤ 57 := h.2
  refine ⟨by omega, by omega, ?_, ?_⟩ <;> (rintro rfl; revert h1 h2; decide)

theorem not_digit {c : Char} (hc : c.isDigit = false) {s : Str} (h : Digits s) : c ∉ s := fun hm => by
  rw [h c hm] at hc; cases hc

/-- Printed digits start with a digit and have no sign. -/
theorem fltDigits_sign {digits : Nat → Str} (hd : FltDigits digits) (n : Nat) :
    ∃ c s, digits n = c :: s ∧ c.isDigit = true := by
  obtain ⟨a, b, e, ha, hda, _⟩ := hd.form n
  cases a with
  | nil => exact absurd rfl ha
  | cons c a => exact ⟨c, a ++ b, by rw [e]; rfl, hda c (by simp)⟩

theorem Flt.text_ascii {digits : Nat → Str} (hd : FltDigits digits) (v : Flt) :
    ∀ c ∈ v.text digits, 0x20 ≤ c.toNat ∧ c.toNat < 0x7F ∧ c ≠ '"' ∧ c ≠ '\\' := by
  have hs : ∀ n : Bool, ∀ c ∈ signText n, 0x20 ≤ c.toNat ∧ c.toNat < 0x7F ∧ c ≠ '"' ∧ c ≠ '\\' := by decide
  intro c hc
  cases v with
  | nan => exact (by decide : ∀ c ∈ str! "NaN", 0x20 ≤ c.toNat ∧ c.toNat < 0x7F ∧ c ≠ '"' ∧ c ≠ '\\') c hc
  | inf n =>
    rcases List.mem_append.1 hc with hc | hc
    · exact hs n c hc
    · exact (by decide : ∀ c ∈ str! "inf", 0x20 ≤ c.toNat ∧ c.toNat < 0x7F ∧ c ≠ '"' ∧ c ≠ '\\') c hc
  | fin n m =>
    rcases List.mem_append.1 hc with hc | hc
    · exact hs n c hc
    · obtain ⟨a, b, e, _, ha, hb⟩ := hd.form m
      rw [e] at hc
      rcases List.mem_append.1 hc with hc | hc
      · exact digitChar_ascii (ha c hc)
      · rcases hb with rfl | ⟨b', rfl, _, hb⟩
        · cases hc
        · rcases List.mem_cons.1 hc with rfl | hc
          · decide
          · exact digitChar_ascii (hb c hc)

theorem Flt.text_inj {digits : Nat → Str} (hd : FltDigits digits) {v w : Flt} (h : v.text digits = w.text digits) :
    v = w := by
  have key : ∀ n, digits n ≠ str! "NaN" ∧ digits n ≠ str! "inf" ∧ (∀ s, digits n ≠ '-' :: s) := by
    intro n
    obtain ⟨c, s, e, hc⟩ := fltDigits_sign hd n
    refine ⟨?_, ?_, ?_⟩ <;> intros <;> rw [e] <;> intro h <;> cases h <;> cases hc
  cases v with
  | nan =>
    cases w with
    | nan => rfl
    | inf n => cases n <;> cases h
    | fin n m =>
      cases n with
      | false => exact absurd h.symm (key m).1
      | true => cases h
  | inf n =>
    cases w with
    | nan => cases n <;> cases h
    | inf k => cases n <;> cases k <;> first | rfl | cases h
    | fin k m =>
      cases n <;> cases k
      · exact absurd h.symm (key m).2.1
      · cases h
      · exact absurd h.symm ((key m).2.2 _)
      · exact absurd (List.cons.inj h).2.symm (key m).2.1
  | fin n m =>
    cases w with
    | nan =>
      cases n with
      | false => exact absurd h (key m).1
      | true => cases h
    | inf k =>
      cases n <;> cases k
      · exact absurd h (key m).2.1
      · exact absurd h ((key m).2.2 _)
      · cases h
      · exact absurd (List.cons.inj h).2 (key m).2.1
    | fin k j =>
      cases n <;> cases k
      · rw [hd.inj m j h]
      · exact absurd h ((key m).2.2 _)
      · exact absurd h.symm ((key j).2.2 _)
      · rw [hd.inj m j (List.cons.inj h).2]

theorem ofFlt_lexical {pr : Char → Bool} (hp : AsciiPrintable pr) {digits : Nat → Str} (hd : FltDigits digits)
    (k : FltKind) (v : Flt) : (Literal.ofFlt pr digits k v).lexicalForm = v.text digits :=
  escape_ascii hp (v.text_ascii hd)

/-! ### C91 -/

/-- C91, the full statement: a literal made of a float equals a float exactly if the floats are equal. -/
def C91_statement : Prop :=
  ∀ (pr : Char → Bool) (digits : Nat → Str) (k : FltKind) (v w : Flt), AsciiPrintable pr → FltDigits digits →
    ((Literal.ofFlt pr digits k v).eqFlt digits k w = true ↔ fltEq v w)

/-- C91, exactly: a literal made of a float equals a float if and only if they are the same value, where
NaN is the same as NaN and the zeros are two. -/
theorem C91_iff (pr : Char → Bool) (digits : Nat → Str) (k : FltKind) (v w : Flt) (hp : AsciiPrintable pr)
    (hd : FltDigits digits) : (Literal.ofFlt pr digits k v).eqFlt digits k w = true ↔ v = w := by
  simp only [Literal.eqFlt, ofFlt_lexical hp hd, Bool.and_eq_true, beq_iff_eq]
  constructor
  · exact fun h => Flt.text_inj hd h.1
  · rintro rfl; exact ⟨rfl, rfl⟩

/-- Digits for floats, for witnesses. -/
theorem digits_flt : FltDigits (Nat.toDigits 10) where
  form n := ⟨_, [], (List.append_nil _).symm, by simp,
    fun _ h => Nat.isDigit_of_mem_toDigits (by decide) (by decide) h, .inl rfl⟩
  inj _ _ := toDigits_inj

/-- C91 fails: the literal of NaN equals NaN. -/
theorem C91_fails : ¬ C91_statement := fun h =>
  (h (fun _ => true) (Nat.toDigits 10) .f64 .nan .nan (fun _ _ _ => rfl) digits_flt).1
    ((C91_iff _ _ _ _ _ (fun _ _ _ => rfl) digits_flt).2 rfl)

/-- C91 fails for the zeros, which are equal: the literal of one never equals the other. -/
theorem C91_fails_zero (pr : Char → Bool) (digits : Nat → Str) (k : FltKind) (neg : Bool) (hp : AsciiPrintable pr)
    (hd : FltDigits digits) :
    fltEq (.fin neg 0) (.fin (!neg) 0) ∧ (Literal.ofFlt pr digits k (.fin neg 0)).eqFlt digits k (.fin (!neg) 0) = false := by
  refine ⟨⟨rfl, .inr rfl⟩, ?_⟩
  rw [← Bool.not_eq_true, C91_iff _ _ _ _ _ hp hd]
  cases neg <;> decide

/-- C91, what holds: except for NaN and two zeros. -/
theorem C91_partial (pr : Char → Bool) (digits : Nat → Str) (k : FltKind) (v w : Flt) (hp : AsciiPrintable pr)
    (hd : FltDigits digits) (hn : v ≠ .nan ∨ w ≠ .nan) (hz : ∀ a b, ¬ (v = .fin a 0 ∧ w = .fin b 0 ∧ a ≠ b)) :
    (Literal.ofFlt pr digits k v).eqFlt digits k w = true ↔ fltEq v w := by
  rw [C91_iff _ _ _ _ _ hp hd]
  constructor
  · rintro rfl
    cases v with
    | nan => simp at hn
    | inf _ => rfl
    | fin _ _ => exact ⟨rfl, .inl rfl⟩
  · cases v <;> cases w <;> simp only [fltEq, false_imp_iff, imp_self]
    · rintro rfl; rfl
    · rename_i a m b n
      rintro ⟨rfl, rfl | rfl⟩
      · rfl
      · by_cases e : a = b
        · rw [e]
        · exact absurd ⟨rfl, rfl, e⟩ (hz a b)

/-- C91: a literal made of an `f64` never equals an `f32`, nor the other way round. -/
theorem C91_kinds (pr : Char → Bool) (digits digits' : Nat → Str) (k k' : FltKind) (v w : Flt) (h : k ≠ k') :
    (Literal.ofFlt pr digits k v).eqFlt digits' k' w = false := by
  cases k <;> cases k' <;> first | exact absurd rfl h | simp [Literal.eqFlt, Literal.ofFlt, Literal.withDataType, FltKind.dataType]

/-! ### C92 -/

/-- C92, the full statement: the lexical form of a literal made of a float is one of its data type. -/
def C92_statement : Prop :=
  ∀ (pr : Char → Bool) (digits : Nat → Str) (k : FltKind) (v : Flt), AsciiPrintable pr → FltDigits digits →
    DoubleText (Literal.ofFlt pr digits k v).lexicalForm

/-- C92, exactly: it is for every float that is not infinite. -/
theorem C92_iff (pr : Char → Bool) (digits : Nat → Str) (k : FltKind) (v : Flt) (hp : AsciiPrintable pr)
    (hd : FltDigits digits) :
    DoubleText (Literal.ofFlt pr digits k v).lexicalForm ↔ ∀ neg, v ≠ .inf neg := by
  rw [ofFlt_lexical hp hd]
  have hsign : ∀ b : Bool, Sign (signText b) := by
    intro b; cases b
    · exact .inl rfl
    · exact .inr (.inl rfl)
  cases v with
  | nan => exact iff_of_true (.inr (.inr (.inr rfl))) (by simp)
  | fin b m =>
    refine iff_of_true (.inl ⟨_, _, rfl, hsign b, ?_⟩) (by simp)
    obtain ⟨x, y, e, hx, hdx, rfl | ⟨z, rfl, _, hz⟩⟩ := hd.form m
    · exact .inl ⟨by rw [e]; simpa using hx, by rw [e]; simpa using hdx⟩
    · exact .inr ⟨x, z, e, hdx, hz, .inl hx⟩
  | inf b =>
    refine iff_of_false ?_ (by simp)
    intro h
    have ne : ∀ n : Str, Numeral n → ∃ c, c ∈ n.head? ∧ (c.isDigit = true ∨ c = '.') := by
      rintro n (⟨hn, hd⟩ | ⟨x, y, rfl, hx, _, _⟩)
      · cases n with
        | nil => exact absurd rfl hn
        | cons c n => exact ⟨c, rfl, .inl (hd c (by simp))⟩
      · cases x with
        | nil => exact ⟨_, rfl, .inr rfl⟩
        | cons c x => exact ⟨c, rfl, .inl (hx c (by simp))⟩
    have key : ∀ sg n r : Str, Sign sg → Numeral n → Flt.text digits (.inf b) ≠ sg ++ n ++ r := by
      intro sg n r hs hn e
      obtain ⟨c, hc, hc'⟩ := ne n hn
      cases n with
      | nil => cases hc
      | cons d n =>
        cases hc
        rcases hs with rfl | rfl | rfl <;> cases b <;> simp [Flt.text, signText] at e <;>
          (obtain ⟨rfl, _⟩ := e; revert hc'; decide)
    rcases h with ⟨sg, n, e, h1, h2⟩ | ⟨sg, n, c, sg', n', e, h1, h2, _⟩ | ⟨sg, e, h1⟩ | e
    · exact key sg n [] h1 h2 (by simpa using e)
    · exact key sg n (c :: sg' ++ n') h1 h2 (by simpa using e)
    · rcases h1 with rfl | rfl | rfl <;> cases b <;> cases e
    · cases b <;> cases e

/-- C92 fails for infinity, which is printed `inf` and not `INF`. -/
theorem C92_fails : ¬ C92_statement := fun h =>
  (C92_iff (fun _ => true) (Nat.toDigits 10) .f64 (.inf false) (fun _ _ _ => rfl) digits_flt).1
    (h _ _ _ _ (fun _ _ _ => rfl) digits_flt) false rfl

/-! ### C93, C94 -/

theorem digitsValue_append (a b : Str) : digitsValue (a ++ b) = digitsValue a * 10 ^ b.length + digitsValue b := by
  unfold digitsValue
  rw [Nat.ofDigitChars_append, Nat.ofDigitChars_eq_ofDigitChars_zero (l := b)]
  ring

/-- All digits of a decimal, with those before the point and those after it. -/
theorem decimal_digits (m s : Nat) : ∃ a b : Str,
    padLeft (s + 1) (Nat.toDigits 10 m) = a ++ b ∧ a ≠ [] ∧ b.length = s ∧ Digits a ∧ Digits b ∧
    digitsValue a * 10 ^ s + digitsValue b = m ∧
    (padLeft (s + 1) (Nat.toDigits 10 m)).take ((padLeft (s + 1) (Nat.toDigits 10 m)).length - s) = a ∧
    (padLeft (s + 1) (Nat.toDigits 10 m)).drop ((padLeft (s + 1) (Nat.toDigits 10 m)).length - s) = b := by
  generalize hd : padLeft (s + 1) (Nat.toDigits 10 m) = d
  have hlen : s + 1 ≤ d.length := by rw [← hd]; simp [padLeft]; omega
  have hdig : Digits d := by
    rw [← hd]
    intro c hc
    rcases List.mem_append.1 hc with hc | hc
    · rw [(List.mem_replicate.1 hc).2]; decide
    · exact Nat.isDigit_of_mem_toDigits (by decide) (by decide) hc
  have hval : digitsValue d = m := by
    rw [← hd]
    simp [padLeft, digitsValue, Nat.ofDigitChars_append, Nat.ofDigitChars_replicate_zero]
  refine ⟨d.take (d.length - s), d.drop (d.length - s), (List.take_append_drop _ _).symm, ?_, ?_, ?_, ?_, ?_, rfl, rfl⟩
  · intro e
    have := congrArg List.length e
    simp at this
    omega
  · simp; omega
  · exact fun c hc => hdig c (List.mem_of_mem_take hc)
  · exact fun c hc => hdig c (List.mem_of_mem_drop hc)
  · have e := digitsValue_append (d.take (d.length - s)) (d.drop (d.length - s))
    rw [List.take_append_drop, hval] at e
    have hl : (d.drop (d.length - s)).length = s := by simp; omega
    rw [hl] at e
    exact e.symm

theorem decimal_text (d : Decimal) : ∃ a b : Str, a ≠ [] ∧ b.length = d.scale ∧ Digits a ∧ Digits b ∧
    digitsValue a * 10 ^ d.scale + digitsValue b = d.mantissa ∧
    d.text = signText d.neg ++ (a ++ if d.scale = 0 then [] else '.' :: b) := by
  obtain ⟨a, b, _, h2, h3, h4, h5, h6, h7, h8⟩ := decimal_digits d.mantissa d.scale
  refine ⟨a, b, h2, h3, h4, h5, h6, ?_⟩
  unfold Decimal.text
  simp only [h7, h8]
  split <;> simp

theorem decimal_ascii (d : Decimal) : ∀ c ∈ d.text, 0x20 ≤ c.toNat ∧ c.toNat < 0x7F ∧ c ≠ '"' ∧ c ≠ '\\' := by
  obtain ⟨a, b, _, _, ha, hb, _, e⟩ := decimal_text d
  have hs : ∀ n : Bool, ∀ c ∈ signText n, 0x20 ≤ c.toNat ∧ c.toNat < 0x7F ∧ c ≠ '"' ∧ c ≠ '\\' := by decide
  intro c hc
  rw [e] at hc
  rcases List.mem_append.1 hc with hc | hc
  · exact hs _ c hc
  · rcases List.mem_append.1 hc with hc | hc
    · exact digitChar_ascii (ha c hc)
    · split at hc
      · cases hc
      · rcases List.mem_cons.1 hc with rfl | hc
        · decide
        · exact digitChar_ascii (hb c hc)

theorem ofDecimal_lexical {pr : Char → Bool} (hp : AsciiPrintable pr) (d : Decimal) :
    (Literal.ofDecimal pr d).lexicalForm = d.text := escape_ascii hp (decimal_ascii d)

theorem decimal_text_inj {d e : Decimal} (h : d.text = e.text) : d = e := by
  obtain ⟨a, b, ha, hb, hda, hdb, hv, ht⟩ := decimal_text d
  obtain ⟨a', b', ha', hb', hda', hdb', hv', ht'⟩ := decimal_text e
  rw [ht, ht'] at h
  have hsign : ∀ (x y : Str), a ++ x ≠ '-' :: y := by
    intro x y e
    cases a with
    | nil => exact ha rfl
    | cons c a => cases e; have := hda '-' (by simp); revert this; decide
  have hsign' : ∀ (x y : Str), a' ++ x ≠ '-' :: y := by
    intro x y e
    cases a' with
    | nil => exact ha' rfl
    | cons c a => cases e; have := hda' '-' (by simp); revert this; decide
  have hneg : d.neg = e.neg ∧ (a ++ if d.scale = 0 then [] else '.' :: b) = (a' ++ if e.scale = 0 then [] else '.' :: b') := by
    revert h
    cases d.neg <;> cases e.neg <;> simp only [signText, if_true, Bool.false_eq_true, if_false, List.nil_append,
      List.cons_append, reduceCtorEq, false_and, imp_false, true_and, imp_self, List.cons.injEq]
    · exact hsign _ _
    · exact fun h => hsign' _ _ h.symm
  obtain ⟨hn, h⟩ := hneg
  have dot : ∀ {x : Str}, Digits x → '.' ∉ x := fun hx => not_digit (by decide) hx
  have h' := congrArg (splitFirst '.') h
  have hs : a = a' ∧ d.scale = e.scale ∧ b = b' := by
    have nil : ∀ {x : Str}, x.length = 0 → x = [] := List.length_eq_zero_iff.1
    by_cases h0 : d.scale = 0 <;> by_cases h0' : e.scale = 0
    · simp only [h0, h0', if_true, List.append_nil] at h
      refine ⟨h, h0.trans h0'.symm, ?_⟩
      rw [nil (hb.trans h0), nil (hb'.trans h0')]
    · simp only [h0, h0', if_true, if_false, List.append_nil] at h'
      rw [splitFirst_append (dot hda'), splitFirst_not_mem (dot hda)] at h'
      cases h'
    · simp only [h0, h0', if_true, if_false, List.append_nil] at h'
      rw [splitFirst_append (dot hda), splitFirst_not_mem (dot hda')] at h'
      cases h'
    · simp only [h0, h0', if_false] at h'
      rw [splitFirst_append (dot hda), splitFirst_append (dot hda')] at h'
      simp only [Prod.mk.injEq, Option.some.injEq] at h'
      obtain ⟨rfl, rfl⟩ := h'
      exact ⟨rfl, hb.symm.trans hb', rfl⟩
  obtain ⟨rfl, hsc, rfl⟩ := hs
  rw [hsc] at hv
  cases d; cases e
  simp only at hn hsc hv hv'
  simp [hn, hsc, ← hv, ← hv']

/-- C93, the full statement: a literal made of a decimal equals a decimal exactly if the numbers are equal. -/
def C93_statement : Prop :=
  ∀ (pr : Char → Bool) (d e : Decimal), AsciiPrintable pr →
    ((Literal.ofDecimal pr d).eqDecimal e = true ↔ decimalValue d = decimalValue e)

/-- C93, exactly: a literal made of a decimal equals a decimal if and only if they have the same sign,
digits and scale. -/
theorem C93_iff (pr : Char → Bool) (d e : Decimal) (hp : AsciiPrintable pr) :
    (Literal.ofDecimal pr d).eqDecimal e = true ↔ d = e := by
  simp only [Literal.eqDecimal, ofDecimal_lexical hp, Bool.and_eq_true, beq_iff_eq]
  constructor
  · exact fun h => decimal_text_inj h.1
  · rintro rfl; exact ⟨rfl, rfl⟩

/-- C93 fails: the literal of 1 does not equal 1.0. -/
theorem C93_fails : ¬ C93_statement := fun h => by
  have := (h (fun _ => true) ⟨false, 1, 0⟩ ⟨false, 10, 1⟩ fun _ _ _ => rfl).2 (by decide +kernel)
  rw [C93_iff _ _ _ fun _ _ _ => rfl] at this
  cases this

/-- C93 fails for every number: with one more digit it is equal and its literal is not. -/
theorem C93_fails_scale (pr : Char → Bool) (d : Decimal) (hp : AsciiPrintable pr) :
    decimalValue d = decimalValue ⟨d.neg, d.mantissa * 10, d.scale + 1⟩ ∧
    (Literal.ofDecimal pr d).eqDecimal ⟨d.neg, d.mantissa * 10, d.scale + 1⟩ = false := by
  constructor
  · have h : (10 : Rat) ^ d.scale ≠ 0 := pow_ne_zero _ (by decide)
    simp only [decimalValue]
    push_cast
    rw [pow_succ]
    field_simp
  · rw [← Bool.not_eq_true, C93_iff _ _ _ hp]
    intro e
    have := congrArg Decimal.scale e
    simp at this

/-- C93, what holds: equal literals are of equal numbers, and for decimals of one scale and sign the
converse is true. -/
theorem C93_partial (pr : Char → Bool) (d e : Decimal) (hp : AsciiPrintable pr) :
    ((Literal.ofDecimal pr d).eqDecimal e = true → decimalValue d = decimalValue e) ∧
    (d.scale = e.scale → d.neg = e.neg →
      ((Literal.ofDecimal pr d).eqDecimal e = true ↔ decimalValue d = decimalValue e)) := by
  rw [C93_iff _ _ _ hp]
  refine ⟨fun h => by rw [h], fun hs hn => ⟨fun h => by rw [h], fun h => ?_⟩⟩
  simp only [decimalValue, hs, hn] at h
  have h10 : (10 : Rat) ^ e.scale ≠ 0 := pow_ne_zero _ (by decide)
  have hm : (d.mantissa : Rat) = e.mantissa := by
    have h := congrArg (· * (10 : Rat) ^ e.scale) h
    simp only [div_mul_cancel₀ _ h10] at h
    split at h <;> linarith
  cases d; cases e
  simp only at hs hn hm
  simp [hs, hn, Nat.cast_injective (R := Rat) hm]

/-- C94: the lexical form of a literal made of a decimal is an `xsd:decimal` text that denotes the number. -/
theorem C94_denotes (pr : Char → Bool) (d : Decimal) (hp : AsciiPrintable pr) :
    (Literal.ofDecimal pr d).dataType = some .decimal ∧
    DecimalDenotes (Literal.ofDecimal pr d).lexicalForm (decimalValue d) := by
  refine ⟨rfl, ?_⟩
  rw [ofDecimal_lexical hp]
  obtain ⟨a, b, ha, hb, hda, hdb, hv, ht⟩ := decimal_text d
  have h10 : (10 : Rat) ^ d.scale ≠ 0 := pow_ne_zero _ (by decide)
  have hu : DecimalDenotes (a ++ if d.scale = 0 then [] else '.' :: b) ((d.mantissa : Rat) / 10 ^ d.scale) := by
    by_cases h0 : d.scale = 0
    · simp only [h0, if_true, List.append_nil, pow_zero, div_one]
      rw [h0, List.length_eq_zero_iff.1 (hb.trans h0)] at hv
      have : digitsValue a = d.mantissa := by rw [← hv]; simp [digitsValue]
      rw [← this]
      exact .whole a ha hda
    · simp only [h0, if_false]
      have : (d.mantissa : Rat) / 10 ^ d.scale = digitsValue a + (digitsValue b : Rat) / 10 ^ b.length := by
        rw [hb, ← hv]
        push_cast
        field_simp
      rw [this]
      exact .point a b hda hdb (.inl ha)
  rw [ht]
  unfold decimalValue
  have hh : ∀ x : Str, ∀ c ∈ (a ++ x).head?, c ≠ '+' ∧ c ≠ '-' := by
    intro x c hc
    cases a with
    | nil => exact absurd rfl ha
    | cons y a =>
      cases hc
      have := hda c (by simp)
      constructor <;> (rintro rfl; revert this; decide)
  cases d.neg with
  | false => simpa [signText] using hu
  | true =>
    have := DecimalDenotes.minus (hh _) hu
    simp only [signText, if_true, List.cons_append, List.nil_append]
    convert this using 1
    ring

/-- A decimal below one, below zero. -/
example : (Literal.ofDecimal (fun _ => true) ⟨true, 5, 3⟩).lexicalForm = str! "-0.005" := by decide +kernel

/-- Zeros of a float print differently. -/
example : Flt.text (Nat.toDigits 10) (.fin true 0) = str! "-0" := by decide +kernel

end Rdftk
