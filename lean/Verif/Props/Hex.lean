import Verif.Props.Literal
import Mathlib.Data.List.Forall2

/-! C20: what is decoded as hexadecimal. -/

namespace Rdftk

open Spec

/-- A hexadecimal digit and its value. -/
def HexDigitIs (c : Char) (v : Nat) : Prop :=
  (c ∈ (str! "0123456789abcdef") ∧ (str! "0123456789abcdef").idxOf c = v) ∨
  (c ∈ (str! "ABCDEF") ∧ 10 + (str! "ABCDEF").idxOf c = v)

/-- A piece of a text and the byte it is decoded to: two digits, or a plus sign and one. -/
def HexPieceIs (p : Str) (b : Nat) : Prop :=
  (∃ c d x y, p = [c, d] ∧ HexDigitIs c x ∧ HexDigitIs d y ∧ b = 16 * x + y) ∨ ∃ d, p = ['+', d] ∧ HexDigitIs d b

theorem hexVal_iff (c : Char) (v : Nat) : hexVal c = some v ↔ HexDigitIs c v := by
  constructor
  · intro h
    have hc : c.toNat < 128 := by
      unfold hexVal inRange at h
      split at h
      · rename_i h1; simp at h1; omega
      split at h
      · rename_i h1; simp at h1; omega
      split at h
      · rename_i h1; simp at h1; omega
      · cases h
    have key : ∀ n : Fin 128, ∀ v, hexVal (Char.ofNat n) = some v → HexDigitIs (Char.ofNat n) v := by
      intro n
      have : ∀ n : Fin 128, hexVal (Char.ofNat n) = none ∨ ∃ v, v < 16 ∧ hexVal (Char.ofNat n) = some v ∧
          ((Char.ofNat n ∈ (str! "0123456789abcdef") ∧ (str! "0123456789abcdef").idxOf (Char.ofNat n) = v) ∨
          (Char.ofNat n ∈ (str! "ABCDEF") ∧ 10 + (str! "ABCDEF").idxOf (Char.ofNat n) = v)) := by decide +kernel
      intro v hv
      rcases this n with h | ⟨w, -, h, h'⟩
      · rw [h] at hv; cases hv
      · rw [h] at hv; cases hv; exact h'
    have e : Char.ofNat c.toNat = c := Char.ofNat_toNat c
    have := key ⟨c.toNat, hc⟩ v (by simp only [e]; exact h)
    simpa only [e] using this
  · have k1 : ∀ c ∈ (str! "0123456789abcdef"), hexVal c = some ((str! "0123456789abcdef").idxOf c) := by decide +kernel
    have k2 : ∀ c ∈ (str! "ABCDEF"), hexVal c = some (10 + (str! "ABCDEF").idxOf c) := by decide +kernel
    rintro (⟨h, rfl⟩ | ⟨h, rfl⟩)
    · exact k1 c h
    · exact k2 c h

theorem hexPair_iff (p : Str) (b : Nat) : hexPair p = some b ↔ HexPieceIs p b := by
  constructor
  · intro h
    match p, h with
    | [c, d], h =>
      simp only [hexPair] at h
      split at h
      · rename_i hc
        subst hc
        exact .inr ⟨d, rfl, (hexVal_iff _ _).1 h⟩
      · split at h
        · rename_i x y hx hy
          cases h
          exact .inl ⟨c, d, x, y, rfl, (hexVal_iff _ _).1 hx, (hexVal_iff _ _).1 hy, by omega⟩
        · cases h
  · rintro (⟨c, d, x, y, rfl, hx, hy, rfl⟩ | ⟨d, rfl, h⟩)
    · rw [← hexVal_iff] at hx hy
      have hc : c ≠ '+' := by
        rintro rfl
        revert hx
        have : hexVal '+' = none := by decide
        rw [this]; simp
      simp only [hexPair, hc, if_false, hx, hy, Option.some.injEq]
      omega
    · simp only [hexPair, if_true]
      exact (hexVal_iff _ _).2 h

theorem splitOnChar_ne_nil (c : Char) (s : Str) : splitOnChar c s ≠ [] := by
  induction s with
  | nil => simp [splitOnChar]
  | cons d s ih =>
    simp only [splitOnChar]
    split
    · simp
    · split <;> simp

/-- The pieces of a text between the occurrences of a character. -/
theorem splitOnChar_iff (c : Char) (s : Str) (ps : List Str) :
    splitOnChar c s = ps ↔ ps ≠ [] ∧ (∀ p ∈ ps, c ∉ p) ∧ [c].intercalate ps = s := by
  induction s generalizing ps with
  | nil =>
    simp only [splitOnChar]
    constructor
    · rintro rfl
      simp
    · rintro ⟨h1, h2, h3⟩
      match ps, h1, h3 with
      | [p], _, h3 => simp at h3; rw [h3]
      | p :: q :: r, _, h3 => simp [List.intercalate_cons_cons] at h3
  | cons d s ih =>
    simp only [splitOnChar]
    by_cases hd : d = c
    · subst hd
      simp only [if_true]
      constructor
      · rintro rfl
        obtain ⟨h1, h2, h3⟩ := (ih _).1 rfl
        refine ⟨by simp, by simpa using h2, ?_⟩
        cases h : splitOnChar d s with
        | nil => exact absurd h h1
        | cons q r => rw [h] at h3; rw [List.intercalate_cons_cons, h3]; rfl
      · rintro ⟨h1, h2, h3⟩
        match ps, h1, h3 with
        | [p], _, h3 =>
          simp at h3
          subst h3
          exact absurd (List.mem_cons_self) (h2 _ List.mem_cons_self)
        | p :: q :: r, _, h3 =>
          rw [List.intercalate_cons_cons] at h3
          cases p with
          | nil =>
            simp at h3
            rw [(ih (q :: r)).2 ⟨by simp, fun p hp => h2 p (List.mem_cons_of_mem _ hp), h3⟩]
          | cons x p =>
            simp at h3
            exact absurd (by rw [h3.1]; simp) (h2 _ List.mem_cons_self)
    · simp only [hd, if_false]
      constructor
      · rintro rfl
        obtain ⟨h1, h2, h3⟩ := (ih _).1 rfl
        cases h : splitOnChar c s with
        | nil => exact absurd h h1
        | cons q r =>
          rw [h] at h2 h3
          simp only
          refine ⟨by simp, ?_, ?_⟩
          · intro p hp
            rcases List.mem_cons.1 hp with rfl | hp
            · simp only [List.mem_cons, not_or]
              exact ⟨fun e => hd e.symm, h2 q List.mem_cons_self⟩
            · exact h2 p (List.mem_cons_of_mem _ hp)
          · cases r with
            | nil => simp at h3 ⊢; exact h3
            | cons y r => rw [List.intercalate_cons_cons] at h3 ⊢; simp [← h3]
      · rintro ⟨h1, h2, h3⟩
        match ps, h1, h3 with
        | [] :: r, _, h3 =>
          cases r with
          | nil => simp at h3
          | cons y r => rw [List.intercalate_cons_cons] at h3; simp at h3; exact absurd h3.1.symm hd
        | (x :: q) :: r, _, h3 =>
          have e : x = d ∧ [c].intercalate (q :: r) = s := by
            cases r with
            | nil => simpa using h3
            | cons y r => rw [List.intercalate_cons_cons] at h3 ⊢; simpa using h3
          obtain ⟨rfl, e⟩ := e
          rw [(ih (q :: r)).2 ⟨by simp, ?_, e⟩]
          intro p hp
          rcases List.mem_cons.1 hp with rfl | hp
          · exact fun h => h2 _ List.mem_cons_self (List.mem_cons_of_mem _ h)
          · exact h2 p (List.mem_cons_of_mem _ hp)

theorem hexPieces_ok (k : Nat) (ps : List Str) (bs : List Nat) :
    hexDecodePieces k ps = .ok bs ↔ List.Forall₂ HexPieceIs ps bs := by
  induction ps generalizing k bs with
  | nil => cases bs <;> simp [hexDecodePieces]
  | cons p ps ih =>
    simp only [hexDecodePieces]
    cases h : hexPair p with
    | none =>
      simp only [reduceCtorEq, false_iff]
      intro hf
      cases hf with
      | cons h1 _ => rw [← hexPair_iff, h] at h1; cases h1
    | some b =>
      simp only
      constructor
      · intro e
        cases e1 : hexDecodePieces (k + 1) ps with
        | error x => rw [e1] at e; cases e
        | ok cs =>
          rw [e1] at e
          cases e
          exact .cons ((hexPair_iff _ _).1 h) ((ih _ _).1 e1)
      · intro hf
        cases hf with
        | cons h1 h2 =>
          rw [← hexPair_iff, h] at h1
          cases h1
          rw [(ih (k + 1) _).2 h2]
          rfl

theorem hexPieces_error (k : Nat) (ps : List Str) (e : LiteralError) :
    hexDecodePieces k ps = .error e ↔ ∃ good bs p rest, ps = good ++ p :: rest ∧ List.Forall₂ HexPieceIs good bs ∧
      (∀ b, ¬ HexPieceIs p b) ∧ e = .hexDecoder p (k + good.length) := by
  induction ps generalizing k with
  | nil => simp [hexDecodePieces]
  | cons p ps ih =>
    simp only [hexDecodePieces]
    cases h : hexPair p with
    | none =>
      have hn : ∀ b, ¬ HexPieceIs p b := fun b hb => by rw [← hexPair_iff, h] at hb; cases hb
      simp only [Except.error.injEq]
      constructor
      · rintro rfl
        exact ⟨[], [], p, ps, rfl, .nil, hn, rfl⟩
      · rintro ⟨good, bs, q, rest, h1, h2, h3, rfl⟩
        cases h2 with
        | nil => simp at h1; simp [h1]
        | cons h4 _ => simp at h1; rw [← h1.1] at h4; exact absurd h4 (hn _)
    | some b =>
      have hb := (hexPair_iff _ _).1 h
      simp only
      have : (Except.map (fun x => b :: x) (hexDecodePieces (k + 1) ps) = .error e) ↔ hexDecodePieces (k + 1) ps = .error e := by
        cases hexDecodePieces (k + 1) ps <;> simp [Except.map]
      rw [this, ih]
      constructor
      · rintro ⟨good, bs, q, rest, rfl, h2, h3, rfl⟩
        exact ⟨p :: good, b :: bs, q, rest, rfl, .cons hb h2, h3, by simp; omega⟩
      · rintro ⟨good, bs, q, rest, h1, h2, h3, rfl⟩
        cases h2 with
        | nil => simp at h1; rw [← h1.1] at h3; exact absurd hb (h3 _)
        | @cons x y xs ys h4 h5 =>
          simp at h1
          exact ⟨xs, ys, q, rest, h1.2, h5, h3, by simp; omega⟩

/-- C20, exactly, what a literal of type `xsd:hexBinary` is decoded to: its text consists of pieces with a space between any two, each
of two digits or a plus sign and a digit, and the bytes are theirs. -/
theorem C20_decode_iff (decode : Str → Option (List Nat)) (l : Literal) (h : l.dataType = some .hexBinary) (bs : List Nat) :
    l.tryBytes decode = .ok bs ↔
      ∃ ps, ps ≠ [] ∧ (∀ p ∈ ps, ' ' ∉ p) ∧ [' '].intercalate ps = l.lexicalForm ∧ List.Forall₂ HexPieceIs ps bs := by
  simp only [Literal.tryBytes, h, hexDecode, hexPieces_ok]
  constructor
  · intro hf
    obtain ⟨h1, h2, h3⟩ := (splitOnChar_iff ' ' l.lexicalForm _).1 rfl
    exact ⟨_, h1, h2, h3, hf⟩
  · rintro ⟨ps, h1, h2, h3, h4⟩
    rw [(splitOnChar_iff ' ' l.lexicalForm ps).2 ⟨h1, h2, h3⟩]
    exact h4

/-- C20, exactly, the error: it names the first piece that is no byte, and how many were before it. -/
theorem C20_error_iff (decode : Str → Option (List Nat)) (l : Literal) (h : l.dataType = some .hexBinary) (e : LiteralError) :
    l.tryBytes decode = .error e ↔
      ∃ good bs p rest, (∀ q ∈ good ++ p :: rest, ' ' ∉ q) ∧ [' '].intercalate (good ++ p :: rest) = l.lexicalForm ∧
        List.Forall₂ HexPieceIs good bs ∧ (∀ b, ¬ HexPieceIs p b) ∧ e = .hexDecoder p good.length := by
  simp only [Literal.tryBytes, h, hexDecode, hexPieces_error]
  constructor
  · rintro ⟨good, bs, p, rest, h1, h2, h3, rfl⟩
    obtain ⟨-, h5, h6⟩ := (splitOnChar_iff ' ' l.lexicalForm _).1 h1
    exact ⟨good, bs, p, rest, h5, h6, h2, h3, by simp⟩
  · rintro ⟨good, bs, p, rest, h1, h2, h3, h4, rfl⟩
    exact ⟨good, bs, p, rest, (splitOnChar_iff ' ' l.lexicalForm _).2 ⟨by simp, h1, h2⟩, h3, h4, by simp⟩

/-- C20: literals that are of neither type are no bytes, and those of the other are what the decoder makes of them. -/
theorem C20_others (decode : Str → Option (List Nat)) (l : Literal) :
    (l.dataType ≠ some .hexBinary → l.dataType ≠ some .base64Binary → l.tryBytes decode = .error .invalidTypeCoercion) ∧
    (l.dataType = some .base64Binary → ∀ bs, l.tryBytes decode = .ok bs ↔ decode l.lexicalForm = some bs) := by
  constructor
  · intro h1 h2
    unfold Literal.tryBytes
    split
    · rename_i h; exact absurd h h2
    · rename_i h; exact absurd h h1
    · rfl
  · intro h bs
    simp only [Literal.tryBytes, h]
    cases decode l.lexicalForm <;> simp

example : (⟨str! "0A ff +7", some .hexBinary, none⟩ : Literal).tryBytes (fun _ => none) = .ok [10, 255, 7] := by decide

end Rdftk
