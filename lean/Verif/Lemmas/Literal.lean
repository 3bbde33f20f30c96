import Verif.Model.Literal
import Verif.Spec.Escape
import Verif.Lemmas.Cmp
import Verif.Lemmas.Names
import Verif.Lemmas.Iri

/-! Helper lemmas about literals. -/

namespace Rdftk

open Spec

theorem hexDigit_digitChar : ∀ d < 16, hexDigit d.digitChar = some d ∧ d.digitChar ≠ '}' ∧
    d.digitChar ≠ '"' ∧ d.digitChar ≠ '\\' := by decide

theorem toDigits_mem {b n : Nat} (hb : 1 < b) {c : Char} (h : c ∈ Nat.toDigits b n) :
    ∃ d < b, c = d.digitChar := by
  induction n using Nat.strongRecOn with
  | ind n ih =>
    rw [Nat.toDigits_eq_if hb] at h
    split at h
    · simp at h; exact ⟨n, by assumption, h⟩
    · rcases List.mem_append.1 h with h | h
      · exact ih (n / b) (Nat.div_lt_self (by omega) hb) h
      · simp at h; exact ⟨n % b, Nat.mod_lt _ (by omega), h⟩

theorem unescape_hex (n : Nat) : ∀ (r : Str),
    ∃ f, ∀ acc, unescape (.hex acc) (hexLower n ++ r) = unescape (.hex (acc * f + n)) r := by
  unfold hexLower
  induction n using Nat.strongRecOn with
  | ind n ih =>
    intro r
    rw [Nat.toDigits_eq_if (by decide)]
    split
    · rename_i hlt
      obtain ⟨h1, h2, _⟩ := hexDigit_digitChar n hlt
      refine ⟨16, fun acc => ?_⟩
      simp [unescape, h1, h2]
    · rename_i hge
      obtain ⟨f, hf⟩ := ih (n / 16) (by omega) ([(n % 16).digitChar] ++ r)
      refine ⟨f * 16, fun acc => ?_⟩
      rw [List.append_assoc, hf]
      obtain ⟨h1, h2, _⟩ := hexDigit_digitChar (n % 16) (by omega)
      simp only [List.cons_append, List.nil_append, unescape, h1, h2, if_false]
      congr 2
      rw [Nat.add_mul, Nat.mul_assoc]; omega

theorem unescape_escapeChar (pr : Char → Bool) (c : Char) (r : Str) :
    unescape .text (escapeChar pr c ++ r) = (unescape .text r).map (c :: ·) := by
  unfold escapeChar
  split
  · rename_i h; subst h; rfl
  split
  · rename_i h; subst h; rfl
  split
  · rename_i h; subst h; rfl
  split
  · rename_i h; subst h; rfl
  split
  · rename_i h; subst h; rfl
  split
  · rename_i h; subst h; rfl
  split
  · rename_i h _; simp [unescape, h]
  · obtain ⟨f, hf⟩ := unescape_hex c.toNat ('}' :: r)
    have hv : c.toNat.isValidChar := c.valid
    simp only [List.append_assoc, List.cons_append, List.nil_append, unescape]
    simp [hf, unescape, hv]

theorem unescape_escapeString (pr : Char → Bool) (s : Str) :
    unescape .text (escapeString pr s) = some s := by
  induction s with
  | nil => rfl
  | cons c s ih =>
    simp only [escapeString, List.flatMap_cons] at ih ⊢
    rw [unescape_escapeChar, ih]; rfl

theorem hexLower_mem {n : Nat} {c : Char} (h : c ∈ hexLower n) : c ≠ '}' ∧ c ≠ '"' ∧ c ≠ '\\' := by
  obtain ⟨d, hd, rfl⟩ := toDigits_mem (by decide) h
  exact (hexDigit_digitChar d hd).2

theorem noBareQuote_append {ds : Str} (h : ∀ c ∈ ds, c ≠ '"' ∧ c ≠ '\\') (r : Str) :
    noBareQuote false (ds ++ r) = noBareQuote false r := by
  induction ds with
  | nil => rfl
  | cons d ds ih =>
    have hd := h d (by simp)
    simp [noBareQuote, hd.1, hd.2, ih (fun c hc => h c (by simp [hc]))]

theorem noBareQuote_escapeChar (pr : Char → Bool) (c : Char) (r : Str) :
    noBareQuote false (escapeChar pr c ++ r) = noBareQuote false r := by
  unfold escapeChar
  split
  · rfl
  split
  · rfl
  split
  · rfl
  split
  · rfl
  split
  · rfl
  split
  · rfl
  split
  · rename_i h1 h2 _; simp [noBareQuote, h1, h2]
  · have h1 : ∀ x ∈ hexLower c.toNat ++ ['}'], x ≠ '"' ∧ x ≠ '\\' := by
      intro x hx
      rcases List.mem_append.1 hx with hx | hx
      · exact (hexLower_mem hx).2
      · simp at hx; subst hx; decide
    have : ['\\', 'u', '{'] ++ hexLower c.toNat ++ ['}'] ++ r =
        '\\' :: 'u' :: '{' :: ((hexLower c.toNat ++ ['}']) ++ r) := by simp
    rw [this]
    simp only [noBareQuote]
    simp [noBareQuote, -List.append_assoc]
    rw [noBareQuote_append h1]

theorem noBareQuote_escapeString (pr : Char → Bool) (s : Str) :
    noBareQuote false (escapeString pr s) = true := by
  induction s with
  | nil => rfl
  | cons c s ih =>
    simp only [escapeString, List.flatMap_cons] at ih ⊢
    rw [noBareQuote_escapeChar, ih]

theorem readQuoted_of_noBareQuote (b : Bool) (s r : Str) (h : noBareQuote b s = true) :
    readQuoted b (s ++ '"' :: r) = some (s, r) := by
  induction s generalizing b with
  | nil => cases b <;> simp_all [noBareQuote, readQuoted]
  | cons c s ih =>
    cases b with
    | true =>
      simp only [noBareQuote] at h
      simp [readQuoted, ih false h]
    | false =>
      simp only [noBareQuote] at h
      split at h
      · cases h
      · rename_i hc
        simp [readQuoted, hc, ih _ h]

theorem escapeChar_ne {pr : Char → Bool} {c x : Char} (hx : x = '\n' ∨ x = '\r' ∨ x = '\t' ∨ x = '\x00') :
    x ∉ escapeChar pr c := by
  have key : ∀ d < 16, d.digitChar ≠ '\n' ∧ d.digitChar ≠ '\r' ∧ d.digitChar ≠ '\t' ∧
      d.digitChar ≠ '\x00' := by decide
  have hl : x ∉ hexLower c.toNat := by
    intro hm
    obtain ⟨d, hd, rfl⟩ := toDigits_mem (by decide) hm
    have := key d hd
    rcases hx with h | h | h | h <;> simp_all
  unfold escapeChar
  have h1 : x ≠ '\\' ∧ x ≠ '0' ∧ x ≠ 't' ∧ x ≠ 'r' ∧ x ≠ 'n' ∧ x ≠ '"' ∧ x ≠ 'u' ∧ x ≠ '{' ∧ x ≠ '}' := by
    rcases hx with rfl | rfl | rfl | rfl <;> decide
  obtain ⟨a1, a2, a3, a4, a5, a6, a7, a8, a9⟩ := h1
  split
  · simp [a1, a2]
  split
  · simp [a1, a3]
  split
  · simp [a1, a4]
  split
  · simp [a1, a5]
  split
  · simp [a1, a6]
  split
  · simp [a1]
  split
  · rename_i h0 ht hr hn _ _ _
    simp only [List.mem_singleton]
    rintro rfl
    rcases hx with h | h | h | h
    · exact hn h
    · exact hr h
    · exact ht h
    · exact h0 h
  · simp [a1, a7, a8, a9, hl]

theorem escapeChar_id {pr : Char → Bool} {c : Char} (hp : pr c = true) (h : 0x20 ≤ c.toNat)
    (hq : c ≠ '"') (hb : c ≠ '\\') : escapeChar pr c = [c] := by
  have h0 : c ≠ '\x00' := by rintro rfl; revert h; decide
  have h1 : c ≠ '\t' := by rintro rfl; revert h; decide
  have h2 : c ≠ '\r' := by rintro rfl; revert h; decide
  have h3 : c ≠ '\n' := by rintro rfl; revert h; decide
  simp [escapeChar, hp, hq, hb, h0, h1, h2, h3]

/-- What is left unchanged by escaping. -/
def plainChar (pr : Char → Bool) (c : Char) : Prop := escapeChar pr c = [c]

theorem escapeChar_length {pr : Char → Bool} {c : Char} :
    escapeChar pr c = [c] ∨ 2 ≤ (escapeChar pr c).length := by
  unfold escapeChar
  repeat' split
  all_goals simp

theorem escapeString_id_iff (pr : Char → Bool) (s : Str) :
    escapeString pr s = s ↔ ∀ c ∈ s, escapeChar pr c = [c] := by
  constructor
  · intro h
    have len : ∀ t : Str, t.length ≤ (escapeString pr t).length := by
      intro t
      induction t with
      | nil => simp [escapeString]
      | cons c t ih =>
        simp only [escapeString, List.flatMap_cons, List.length_append, List.length_cons] at ih ⊢
        rcases escapeChar_length (pr := pr) (c := c) with h | h
        · rw [h, List.length_singleton]; omega
        · omega
    induction s with
    | nil => simp
    | cons c s ih =>
      simp only [escapeString, List.flatMap_cons] at h ih
      rcases escapeChar_length (pr := pr) (c := c) with h1 | h1
      · rw [h1] at h
        simp at h
        intro x hx
        rcases List.mem_cons.1 hx with rfl | hx
        · exact h1
        · exact ih h x hx
      · have := congrArg List.length h
        have hl := len s
        simp only [escapeString] at hl
        simp only [List.length_append, List.length_cons] at this
        omega
  · intro h
    induction s with
    | nil => rfl
    | cons c s ih =>
      simp only [escapeString, List.flatMap_cons] at ih ⊢
      rw [h c (by simp), ih (fun x hx => h x (by simp [hx]))]; rfl

/-! ### Orders -/

theorem Iri.cmp_order : TotalOrder (fun a b : Iri => cmpStr a.text b.text) :=
  cmpStr_order.comap Iri.text (fun a b h => by cases a; cases b; simp_all)

theorem cmpOption_order {α : Type _} {cmp : α → α → Ordering} (h : TotalOrder cmp) :
    TotalOrder (cmpOption cmp) where
  eq_iff a b := by cases a <;> cases b <;> simp [cmpOption, h.eq_iff]
  swap a b := by
    cases a <;> cases b <;> simp [cmpOption]
    exact h.swap _ _
  trans a b c := by
    cases a <;> cases b <;> cases c <;> simp [cmpOption]
    exact h.trans _ _ _

/-- Lexicographic composition of two orders on views of a value. -/
theorem then_order {α β γ : Type _} {c1 : β → β → Ordering} {c2 : γ → γ → Ordering}
    (h1 : TotalOrder c1) (h2 : TotalOrder c2) (f : α → β) (g : α → γ)
    (inj : ∀ a b, f a = f b → g a = g b → a = b) :
    TotalOrder (fun a b => (c1 (f a) (f b)).then (c2 (g a) (g b))) where
  eq_iff a b := by
    rw [then_eq_eq, h1.eq_iff, h2.eq_iff]
    exact ⟨fun h => inj a b h.1 h.2, fun h => by rw [h]; simp⟩
  swap a b := by rw [then_swap, ← h1.swap, ← h2.swap]
  trans a b c := by
    simp only [then_eq_lt]
    rintro (p | ⟨p, p'⟩) (q | ⟨q, q'⟩)
    · exact .inl (h1.trans _ _ _ p q)
    · rw [h1.eq_iff] at q; rw [← q]; exact .inl p
    · rw [h1.eq_iff] at p; rw [p]; exact .inl q
    · rw [h1.eq_iff] at p q; rw [p, ← q]
      exact .inr ⟨h1.refl _, h2.trans _ _ _ p' q'⟩

/-- `DataType.cmp` as a comparison of rank and then of the IRI of `other`. -/
def DataType.otherText : DataType → Str
  | .other i => i.text
  | _ => []

theorem DataType.rank_inj {a b : DataType} (h : a.rank = b.rank)
    (h' : a.otherText = b.otherText) : a = b := by
  cases a <;> cases b <;> first | rfl | (simp [rank] at h; done) | skip
  rename_i i j; cases i; cases j; simp [otherText] at h'; rw [h']

theorem DataType.cmp_eq (a b : DataType) :
    a.cmp b = (compare a.rank b.rank).then (cmpStr a.otherText b.otherText) := by
  cases a <;> cases b <;> rfl

theorem DataType.cmp_order : TotalOrder DataType.cmp := by
  have := then_order cmpNat_order cmpStr_order DataType.rank DataType.otherText
    (fun a b => DataType.rank_inj)
  have e : DataType.cmp = fun a b => (compare a.rank b.rank).then (cmpStr a.otherText b.otherText) := by
    funext a b; exact DataType.cmp_eq a b
  rw [e]; exact this

theorem Literal.cmp_order : TotalOrder Literal.cmp := by
  have h := then_order (cmpOption_order cmpStr_order) cmpStr_order
    (fun p : Option Str × Str => p.1) (fun p => p.2) (fun a b h1 h2 => Prod.ext h1 h2)
  exact then_order (cmpOption_order DataType.cmp_order) h Literal.dataType
    (fun l => (l.language, l.lexicalForm)) (fun a b h1 h2 => by
      cases a; cases b; simp at h1 h2; simp [h1, h2])

/-! ### Numbers -/

theorem intText_inj {a b : Int} (h : intText a = intText b) : a = b := by
  have nodash : ∀ n, '-' ∉ Nat.toDigits 10 n := by
    intro n hm
    have := Nat.isDigit_of_mem_toDigits (by decide) (by decide) hm
    revert this; decide
  have nocons : ∀ n m, Nat.toDigits 10 n ≠ '-' :: Nat.toDigits 10 m := by
    intro n m e
    exact nodash n (by rw [e]; simp)
  cases a with
  | ofNat a =>
    cases b with
    | ofNat b => simp only [intText] at h; rw [toDigits_inj h]
    | negSucc b => exact absurd h (nocons _ _)
  | negSucc a =>
    cases b with
    | ofNat b => exact absurd h.symm (nocons _ _)
    | negSucc b =>
      simp only [intText, List.cons.injEq, true_and] at h
      have := toDigits_inj h
      congr 1; omega

/-- A printer of plain ASCII: `pr` as the standard library has it on ASCII. -/
def AsciiPrintable (pr : Char → Bool) : Prop := ∀ c : Char, 0x20 ≤ c.toNat → c.toNat < 0x7F → pr c = true

theorem escape_ascii {pr : Char → Bool} (hp : AsciiPrintable pr) {s : Str}
    (h : ∀ c ∈ s, 0x20 ≤ c.toNat ∧ c.toNat < 0x7F ∧ c ≠ '"' ∧ c ≠ '\\') :
    escapeString pr s = s := by
  rw [escapeString_id_iff]
  intro c hc
  obtain ⟨h1, h2, h3, h4⟩ := h c hc
  exact escapeChar_id (hp c h1 h2) h1 h3 h4

theorem toDigits_ascii {n : Nat} : ∀ c ∈ Nat.toDigits 10 n,
    0x20 ≤ c.toNat ∧ c.toNat < 0x7F ∧ c ≠ '"' ∧ c ≠ '\\' := by
  intro c hc
  obtain ⟨d, hd, rfl⟩ := toDigits_mem (by decide) hc
  have : ∀ d < 10, 0x20 ≤ d.digitChar.toNat ∧ d.digitChar.toNat < 0x7F ∧ d.digitChar ≠ '"' ∧
    d.digitChar ≠ '\\' := by decide
  exact this d hd

theorem intText_ascii (v : Int) : ∀ c ∈ intText v,
    0x20 ≤ c.toNat ∧ c.toNat < 0x7F ∧ c ≠ '"' ∧ c ≠ '\\' := by
  cases v with
  | ofNat n => exact toDigits_ascii
  | negSucc n =>
    intro c hc
    rcases List.mem_cons.1 hc with rfl | hc
    · decide
    · exact toDigits_ascii c hc

theorem boolText_ascii (b : Bool) : ∀ c ∈ boolText b,
    0x20 ≤ c.toNat ∧ c.toNat < 0x7F ∧ c ≠ '"' ∧ c ≠ '\\' := by
  cases b <;> decide

/-! ### Hex -/

theorem hexByte_ok : ∀ b : Fin 256, hexPair (hexByte b) = some b.val ∧
    ∀ c ∈ hexByte b, 0x20 ≤ c.toNat ∧ c.toNat < 0x7F ∧ c ≠ '"' ∧ c ≠ '\\' ∧ c ≠ ' ' := by
  decide +kernel

theorem splitOnChar_none {c : Char} {s : Str} (h : c ∉ s) : splitOnChar c s = [s] := by
  induction s with
  | nil => rfl
  | cons d s ih =>
    simp only [List.mem_cons, not_or] at h
    simp [splitOnChar, Ne.symm h.1, ih h.2]

theorem hexEncode_ascii (v : List (Fin 256)) : ∀ c ∈ hexEncode v,
    0x20 ≤ c.toNat ∧ c.toNat < 0x7F ∧ c ≠ '"' ∧ c ≠ '\\' ∧ c ≠ ' ' := by
  intro c hc
  simp only [hexEncode, List.mem_flatMap] at hc
  obtain ⟨b, _, hb⟩ := hc
  exact (hexByte_ok b).2 c hb

theorem hexDecode_hexEncode (v : List (Fin 256)) :
    hexDecode (hexEncode v) =
      if v.length = 1 then .ok (v.map (·.val)) else .error (.hexDecoder (hexEncode v) 0) := by
  have hs : ' ' ∉ hexEncode v := fun h => (hexEncode_ascii v ' ' h).2.2.2.2 rfl
  unfold hexDecode
  rw [splitOnChar_none hs]
  simp only [hexDecodePieces]
  match v with
  | [] => rfl
  | [b] =>
    have : hexEncode [b] = hexByte b := by simp [hexEncode]
    simp [this, (hexByte_ok b).1, Except.map]
  | a :: b :: v =>
    have hl : 4 ≤ (hexEncode (a :: b :: v)).length := by
      simp [hexEncode, hexByte]
    have : hexPair (hexEncode (a :: b :: v)) = none := by
      generalize hexEncode (a :: b :: v) = t at hl
      match t with
      | [] | [_] | [_, _] => simp at hl
      | _ :: _ :: _ :: _ => rfl
    simp [this]

end Rdftk
