import Verif.Spec.JsonText
import Verif.Lemmas.Json

/-! The reader of JSON texts accepts the grammar and nothing else. -/

namespace Rdftk
open Spec

/-! ### Characters -/

theorem jWs_iff {c : Char} : jWs c = true ↔ c.toNat = 0x20 ∨ c.toNat = 0x09 ∨ c.toNat = 0x0A ∨ c.toNat = 0x0D := by
  have h : ∀ d : Char, c = d ↔ c.toNat = d.toNat := fun d => ⟨fun h => by rw [h], fun h => Char.toNat_inj.1 h⟩
  simp only [jWs, Bool.or_eq_true, beq_iff_eq, h]
  simp only [show (' ').toNat = 0x20 from rfl, show ('\n').toNat = 0x0A from rfl, show ('\t').toNat = 0x09 from rfl,
    show ('\r').toNat = 0x0D from rfl]
  omega

theorem blank_ws {w : Str} : JsonBlank w ↔ w.all jWs = true := by
  rw [List.all_eq_true]
  exact forall_congr' fun c => imp_congr_right fun _ => jWs_iff.symm

theorem hexDigit_iff {c : Char} {n : Nat} : HexDigit c n ↔ hexVal c = some n := by
  unfold HexDigit hexVal inRange
  simp only [Bool.and_eq_true, decide_eq_true_eq]
  split
  · simp only [Option.some.injEq]; omega
  · split
    · simp only [Option.some.injEq]; omega
    · split
      · simp only [Option.some.injEq]; omega
      · simp only [reduceCtorEq, iff_false]; omega

theorem hexDigit_lt {c : Char} {n : Nat} (h : HexDigit c n) : n < 16 := by
  unfold HexDigit at h; omega

theorem hex4_append {h r : Str} {v : Nat} (hh : HexFour h v) : jHex4 (h ++ r) = some v := by
  obtain ⟨a, b, c, d, i, j, k, l, rfl, h1, h2, h3, h4, rfl⟩ := hh
  rw [hexDigit_iff] at h1 h2 h3 h4
  simp [jHex4, isHexDigit, h1, h2, h3, h4, hexNumber]
  omega

theorem hex4_sound {s : Str} {v : Nat} (h : jHex4 s = some v) : ∃ t r, s = t ++ r ∧ t.length = 4 ∧ HexFour t v := by
  match s, h with
  | a :: b :: c :: d :: r, h =>
    simp only [jHex4] at h
    split at h
    · rename_i hd
      simp only [Bool.and_eq_true, isHexDigit, Option.isSome_iff_exists] at hd
      obtain ⟨⟨⟨⟨i, h1⟩, j, h2⟩, k, h3⟩, l, h4⟩ := hd
      refine ⟨[a, b, c, d], r, rfl, rfl, a, b, c, d, i, j, k, l, rfl, hexDigit_iff.2 h1, hexDigit_iff.2 h2,
        hexDigit_iff.2 h3, hexDigit_iff.2 h4, ?_⟩
      simp [hexNumber, h1, h2, h3, h4] at h
      omega
    · cases h

theorem hexFour_length {h : Str} {v : Nat} (hh : HexFour h v) : h.length = 4 := by
  obtain ⟨a, b, c, d, i, j, k, l, rfl, _⟩ := hh; rfl

theorem hexFour_lt {h : Str} {v : Nat} (hh : HexFour h v) : v < 0x10000 := by
  obtain ⟨a, b, c, d, i, j, k, l, rfl, h1, h2, h3, h4, rfl⟩ := hh
  have := hexDigit_lt h1; have := hexDigit_lt h2; have := hexDigit_lt h3; have := hexDigit_lt h4
  omega

theorem char_range (c : Char) : c.toNat < 0xD800 ∨ (0xDFFF < c.toNat ∧ c.toNat < 0x110000) := c.valid

theorem ofNat_toNat_valid {n : Nat} (h : n < 0xD800 ∨ (0xDFFF < n ∧ n < 0x110000)) : (Char.ofNat n).toNat = n := by
  have : n.isValidChar := h
  simp [Char.ofNat, this, Char.toNat, Char.ofNatAux]

/-! ### Strings -/

theorem escape_table {e c : Char} (h : (e, c.toNat) ∈ jsonEscapes) (r : Str) : jEscape (e :: r) = some (c, 1) := by
  have hc : ∀ n, c.toNat = n → c = Char.ofNat n := fun n h => by rw [← h, Char.ofNat_toNat]
  simp only [jsonEscapes, List.mem_cons, Prod.mk.injEq, List.not_mem_nil, or_false] at h
  rcases h with ⟨rfl, h⟩ | ⟨rfl, h⟩ | ⟨rfl, h⟩ | ⟨rfl, h⟩ | ⟨rfl, h⟩ | ⟨rfl, h⟩ | ⟨rfl, h⟩ | ⟨rfl, h⟩ <;>
    · rw [hc _ h]; rfl

theorem jString_complete {t s : Str} (h : JsonChars t s) (r : Str) : jString 0 (t ++ '"' :: r) = some (s, r) := by
  induction h with
  | nil => simp [jString]
  | @plain c t s h1 h2 h3 _ ih =>
    have n1 : c ≠ '"' := fun e => h1 (by rw [e]; rfl)
    have n2 : c ≠ '\\' := fun e => h2 (by rw [e]; rfl)
    simp only [List.cons_append, jString, if_neg n1, if_neg n2, if_neg (show ¬c.toNat < 0x20 by omega), ih]
    rfl
  | @escape e c t s h _ ih =>
    have := jString_escape (a := [e]) (s := t ++ '"' :: r) (d := c) (escape_table h _)
    simp only [List.cons_append, List.nil_append] at this ⊢
    rw [this, ih]
    rfl
  | @unicode h v c t s hh hc _ ih =>
    have hr := char_range c
    have he : jEscape (('u' :: h) ++ (t ++ '"' :: r)) = some (c, ('u' :: h).length) := by
      simp only [List.cons_append, jEscape, jUnicode, hex4_append hh]
      rw [if_neg (by omega), if_neg (by omega), ← hc, Char.ofNat_toNat]
      simp [hexFour_length hh]
    have := jString_escape he
    simp only [List.cons_append, List.append_assoc] at this ⊢
    rw [this, ih]
    rfl
  | @pair h h' v w c t s hh hh' h1 h2 h3 h4 hc _ ih =>
    have he : jEscape (('u' :: (h ++ '\\' :: 'u' :: h')) ++ (t ++ '"' :: r)) =
        some (c, ('u' :: (h ++ '\\' :: 'u' :: h')).length) := by
      simp only [List.cons_append, List.append_assoc, jEscape, jUnicode, hex4_append hh]
      rw [if_neg (by omega), if_pos ⟨h1, h2⟩]
      have e : (h ++ '\\' :: 'u' :: (h' ++ (t ++ '"' :: r))).drop 4 = '\\' :: 'u' :: (h' ++ (t ++ '"' :: r)) := by
        rw [← hexFour_length hh, List.drop_left]
      rw [e]
      simp only [hex4_append hh']
      rw [if_pos ⟨h3, h4⟩, ← hc, Char.ofNat_toNat]
      simp [hexFour_length hh, hexFour_length hh']
    have := jString_escape he
    simp only [List.cons_append, List.append_assoc] at this ⊢
    rw [this, ih]
    rfl

theorem jEscape_sound {s : Str} {d : Char} {n : Nat} (h : jEscape s = some (d, n)) :
    ∃ a r, s = a ++ r ∧ a.length = n ∧ ∀ t u, JsonChars t u → JsonChars ('\\' :: (a ++ t)) (d :: u) := by
  unfold jEscape at h
  split at h
  case h_9 r =>
    obtain ⟨⟨c, k⟩, hu, hx⟩ := Option.map_eq_some_iff.1 h
    simp only [Prod.mk.injEq] at hx
    obtain ⟨rfl, rfl⟩ := hx
    unfold jUnicode at hu
    split at hu
    · cases hu
    · rename_i v hv
      obtain ⟨q, r', rfl, hl, hq⟩ := hex4_sound hv
      split at hu
      · cases hu
      · split at hu
        · rename_i h1 h2
          rw [← hl, List.drop_left] at hu
          split at hu
          · rename_i r''
            split at hu
            · cases hu
            · rename_i w hw
              obtain ⟨q', r''', rfl, hl', hq'⟩ := hex4_sound hw
              split at hu
              · rename_i h3
                simp only [Option.some.injEq, Prod.mk.injEq] at hu
                obtain ⟨rfl, rfl⟩ := hu
                refine ⟨'u' :: (q ++ '\\' :: 'u' :: q'), r''', by simp, by simp [hl, hl'], fun t u ht => ?_⟩
                have := JsonChars.pair (c := Char.ofNat (0x10000 + (v - 0xD800) * 0x400 + (w - 0xDC00))) hq hq' h2.1 h2.2 h3.1 h3.2 (ofNat_toNat_valid (by omega)) ht
                simpa using this
              · cases hu
          · cases hu
        · rename_i h1 h2
          simp only [Option.some.injEq, Prod.mk.injEq] at hu
          obtain ⟨rfl, rfl⟩ := hu
          have := hexFour_lt hq
          refine ⟨'u' :: q, r', rfl, by simp [hl], fun t u ht => ?_⟩
          have := JsonChars.unicode (c := Char.ofNat v) hq (ofNat_toNat_valid (by omega)) ht
          simpa using this
  case h_10 => cases h
  all_goals
    cases h
    exact ⟨[_], _, rfl, rfl, fun t u ht => .escape (by decide) ht⟩

theorem jString_sound {x : Str} {k : Nat} {s r : Str} (h : jString k x = some (s, r)) :
    ∃ a t, x = a ++ (t ++ '"' :: r) ∧ a.length = k ∧ JsonChars t s := by
  induction x generalizing k s with
  | nil => cases k <;> simp [jString] at h
  | cons c x ih =>
    cases k with
    | succ k =>
      obtain ⟨a, t, rfl, rfl, ht⟩ := ih h
      exact ⟨c :: a, t, rfl, rfl, ht⟩
    | zero =>
      simp only [jString] at h
      split at h
      · rename_i hc
        cases h
        exact ⟨[], [], by simp [hc], rfl, .nil⟩
      · split at h
        · rename_i hc hb
          split at h
          · cases h
          · rename_i d n he
            obtain ⟨⟨u, r'⟩, hu, hx⟩ := Option.map_eq_some_iff.1 h
            cases hx
            obtain ⟨a, t, e, hl, ht⟩ := ih hu
            obtain ⟨a', r'', e', hl', hj⟩ := jEscape_sound he
            have : a = a' := by
              have e2 := e.symm.trans e'
              exact (List.append_inj e2 (by omega)).1
            subst this
            refine ⟨[], '\\' :: (a ++ t), by simp [hb, e], rfl, hj t u ht⟩
        · split at h
          · cases h
          · rename_i hq hb hl
            obtain ⟨⟨u, r'⟩, hu, hx⟩ := Option.map_eq_some_iff.1 h
            cases hx
            obtain ⟨a, t, e, hl', ht⟩ := ih hu
            have : a = [] := List.length_eq_zero_iff.1 hl'
            subst this
            refine ⟨[], c :: t, by simp [e], rfl, .plain ?_ ?_ (by omega) ht⟩
            · intro h; exact hq (Char.toNat_inj.1 h)
            · intro h; exact hb (Char.toNat_inj.1 h)

/-! ### Numbers -/

theorem jDigit_iff {c : Char} : isAsciiDigit c = true ↔ 0x30 ≤ c.toNat ∧ c.toNat ≤ 0x39 := by
  simp [isAsciiDigit, inRange]

/-- The text cannot continue a number. -/
def NumEnd (r : Str) : Prop :=
  ∀ c, r.head? = some c → isAsciiDigit c = false ∧ c ≠ '.' ∧ c ≠ 'e' ∧ c ≠ 'E'

theorem jDigits_complete {ds r : Str} (h : ds ≠ []) (hd : JsonDigits ds)
    (hr : ∀ c, r.head? = some c → isAsciiDigit c = false) : jDigits (ds ++ r) = some (ds, r) := by
  have ha : ∀ c ∈ ds, isAsciiDigit c = true := fun c hc => jDigit_iff.2 (hd c hc)
  have e : r.takeWhile isAsciiDigit = [] ∧ r.dropWhile isAsciiDigit = r := by
    cases r with
    | nil => exact ⟨rfl, rfl⟩
    | cons c r =>
      have := hr c rfl
      exact ⟨List.takeWhile_cons_of_neg (by simp [this]), List.dropWhile_cons_of_neg (by simp [this])⟩
  unfold jDigits
  rw [List.takeWhile_append_of_pos ha, List.dropWhile_append_of_pos ha, e.1, e.2, List.append_nil]
  rw [if_neg (by simpa using h)]

theorem jDigits_sound {s a r : Str} (h : jDigits s = some (a, r)) : s = a ++ r ∧ a ≠ [] ∧ JsonDigits a := by
  unfold jDigits at h
  split at h
  · cases h
  · rename_i hne
    cases h
    refine ⟨List.takeWhile_append_dropWhile.symm, by simpa using hne, fun c hc => ?_⟩
    exact jDigit_iff.1 (List.all_eq_true.1 List.all_takeWhile c hc)

theorem jInt_complete {a r : Str} (h : JsonInt a) (hr : ∀ c, r.head? = some c → isAsciiDigit c = false) :
    jInt (a ++ r) = some (a, r) := by
  rcases h with rfl | ⟨h1, h2, h3⟩
  · rfl
  · rw [← jDigits_complete h2 h3 hr]
    cases a with
    | nil => exact absurd rfl h2
    | cons c a =>
      have hc : c ≠ '0' := fun e => h1 (by rw [e]; rfl)
      simp only [List.cons_append]
      unfold jInt
      split
      · rename_i e; injection e with e; exact absurd e hc
      · rfl

theorem jInt_sound {s a r : Str} (h : jInt s = some (a, r)) : s = a ++ r ∧ JsonInt a := by
  unfold jInt at h
  split at h
  · cases h; exact ⟨rfl, .inl rfl⟩
  · rename_i hn
    obtain ⟨rfl, h2, h3⟩ := jDigits_sound h
    refine ⟨rfl, .inr ⟨?_, h2, h3⟩⟩
    intro e
    cases a with
    | nil => cases e
    | cons c a => cases e; exact hn _ rfl

theorem jFrac_complete {f r : Str} (h : JsonFrac f) (hr : ∀ c, r.head? = some c → isAsciiDigit c = false ∧ c ≠ '.') :
    jFrac (f ++ r) = some (f, r) := by
  rcases h with rfl | ⟨ds, rfl, h2, h3⟩
  · unfold jFrac
    split
    · rename_i e
      simp only [List.nil_append] at e
      exact absurd rfl (hr '.' (by rw [e]; rfl)).2
    · rfl
  · simp only [List.cons_append, jFrac, jDigits_complete h2 h3 fun c hc => (hr c hc).1]
    rfl

theorem jFrac_sound {s f r : Str} (h : jFrac s = some (f, r)) : s = f ++ r ∧ JsonFrac f := by
  unfold jFrac at h
  split at h
  · obtain ⟨⟨ds, r'⟩, hd, hx⟩ := Option.map_eq_some_iff.1 h
    cases hx
    obtain ⟨rfl, h2, h3⟩ := jDigits_sound hd
    exact ⟨rfl, .inr ⟨ds, rfl, h2, h3⟩⟩
  · cases h; exact ⟨rfl, .inl rfl⟩

theorem jExp_complete {f r : Str} (h : JsonExp f) (hr : NumEnd r) : jExp (f ++ r) = some (f, r) := by
  rcases h with rfl | ⟨e, sign, ds, rfl, he, hs, h2, h3⟩
  · cases r with
    | nil => rfl
    | cons c r =>
      obtain ⟨-, -, n1, n2⟩ := hr c rfl
      simp only [List.nil_append, jExp, if_neg (show ¬(c = 'e' ∨ c = 'E') by simp [n1, n2])]
  · have hd := jDigits_complete h2 h3 fun c hc => (hr c hc).1
    rcases hs with rfl | rfl | rfl
    · cases ds with
      | nil => exact absurd rfl h2
      | cons d ds =>
        have h4 := h3 d List.mem_cons_self
        have n1 : d ≠ '+' := by rintro rfl; revert h4; decide
        have n2 : d ≠ '-' := by rintro rfl; revert h4; decide
        simp only [List.cons_append, List.nil_append] at hd ⊢
        simp only [jExp, if_pos he, if_neg (show ¬(d = '+' ∨ d = '-') by simp [n1, n2]), hd]
        rfl
    · simp only [List.cons_append, List.nil_append, jExp, if_pos he, hd]
      rfl
    · simp only [List.cons_append, List.nil_append, jExp, if_pos he, hd]
      rfl

theorem jExp_sound {s f r : Str} (h : jExp s = some (f, r)) : s = f ++ r ∧ JsonExp f := by
  unfold jExp at h
  split at h
  · split at h
    · rename_i he
      split at h
      · rename_i d s'
        split at h
        · rename_i hd
          obtain ⟨⟨ds, r'⟩, hx, hy⟩ := Option.map_eq_some_iff.1 h
          cases hy
          obtain ⟨rfl, h2, h3⟩ := jDigits_sound hx
          refine ⟨rfl, .inr ⟨_, [d], ds, rfl, he, .inr ?_, h2, h3⟩⟩
          rcases hd with rfl | rfl
          · exact .inl rfl
          · exact .inr rfl
        · obtain ⟨⟨ds, r'⟩, hx, hy⟩ := Option.map_eq_some_iff.1 h
          cases hy
          obtain ⟨e, h2, h3⟩ := jDigits_sound hx
          exact ⟨by rw [e]; rfl, .inr ⟨_, [], ds, rfl, he, .inl rfl, h2, h3⟩⟩
      · cases h
    · cases h; exact ⟨rfl, .inl rfl⟩
  · cases h; exact ⟨rfl, .inl rfl⟩

theorem exp_head {f r : Str} (h : JsonExp f) (hr : NumEnd r) :
    ∀ c, (f ++ r).head? = some c → isAsciiDigit c = false ∧ c ≠ '.' := by
  intro c hc
  rcases h with rfl | ⟨e, sign, ds, rfl, he, -⟩
  · exact ⟨(hr c hc).1, (hr c hc).2.1⟩
  · cases hc
    rcases he with rfl | rfl <;> decide

theorem frac_head {f r : Str} (h : JsonFrac f) (hr : ∀ c, r.head? = some c → isAsciiDigit c = false) :
    ∀ c, (f ++ r).head? = some c → isAsciiDigit c = false := by
  intro c hc
  rcases h with rfl | ⟨ds, rfl, -⟩
  · exact hr c hc
  · cases hc; decide

theorem jUnsigned_complete {i f x r : Str} (hi : JsonInt i) (hf : JsonFrac f) (hx : JsonExp x) (hr : NumEnd r) :
    jUnsigned (i ++ (f ++ (x ++ r))) = some (i ++ (f ++ x), r) := by
  have h1 := exp_head hx hr
  have h2 := frac_head hf fun c hc => (h1 c hc).1
  simp only [jUnsigned, jInt_complete hi h2, jFrac_complete hf h1, jExp_complete hx hr]
  simp

theorem jUnsigned_sound {s t r : Str} (h : jUnsigned s = some (t, r)) :
    s = t ++ r ∧ ∃ i f x, t = i ++ (f ++ x) ∧ JsonInt i ∧ JsonFrac f ∧ JsonExp x := by
  unfold jUnsigned at h
  split at h
  · cases h
  · rename_i a s1 hi
    split at h
    · cases h
    · rename_i b s2 hf
      obtain ⟨⟨x, r'⟩, hx, hy⟩ := Option.map_eq_some_iff.1 h
      cases hy
      obtain ⟨rfl, h1⟩ := jInt_sound hi
      obtain ⟨rfl, h2⟩ := jFrac_sound hf
      obtain ⟨rfl, h3⟩ := jExp_sound hx
      exact ⟨by simp, a, b, x, by simp, h1, h2, h3⟩

theorem int_head {i r : Str} (h : JsonInt i) : ∃ c t, i ++ r = c :: t ∧ isAsciiDigit c = true := by
  rcases h with rfl | ⟨-, h2, h3⟩
  · exact ⟨'0', r, rfl, by decide⟩
  · cases i with
    | nil => exact absurd rfl h2
    | cons c i => exact ⟨c, i ++ r, rfl, jDigit_iff.2 (h3 c List.mem_cons_self)⟩

theorem num_head {t : Str} (h : JsonNum t) : ∃ c u, t = c :: u ∧ (c = '-' ∨ isAsciiDigit c = true) := by
  obtain ⟨m, i, f, x, rfl, hm, hi, -⟩ := h
  rcases hm with rfl | rfl
  · obtain ⟨c, u, e, hc⟩ := int_head (r := f ++ x) hi
    exact ⟨c, u, e, .inr hc⟩
  · exact ⟨'-', _, rfl, .inl rfl⟩

theorem jNumber_complete {t r : Str} (h : JsonNum t) (hr : NumEnd r) : jNumber (t ++ r) = some (.num t, r) := by
  obtain ⟨m, i, f, x, rfl, hm, hi, hf, hx⟩ := h
  have hu := jUnsigned_complete hi hf hx hr
  rcases hm with rfl | rfl
  · obtain ⟨c, u, e, hc⟩ := int_head (r := f ++ (x ++ r)) hi
    simp only [List.nil_append, List.append_assoc]
    unfold jNumber
    split
    · rename_i e2
      rw [e] at e2
      injection e2 with e2
      rw [e2] at hc
      exact absurd hc (by decide)
    · rw [hu]; rfl
  · simp only [List.cons_append, List.nil_append, List.append_assoc, jNumber, hu]
    rfl

theorem jNumber_sound {s r : Str} {v : Json} (h : jNumber s = some (v, r)) :
    ∃ t, s = t ++ r ∧ JsonNum t ∧ v = .num t := by
  unfold jNumber at h
  split at h
  all_goals
    obtain ⟨⟨x, r'⟩, hx, hy⟩ := Option.map_eq_some_iff.1 h
    cases hy
    obtain ⟨rfl, i, f, y, rfl, h1, h2, h3⟩ := jUnsigned_sound hx
  · exact ⟨_, rfl, ⟨['-'], i, f, y, rfl, .inr rfl, h1, h2, h3⟩, rfl⟩
  · exact ⟨_, rfl, ⟨[], i, f, y, rfl, .inl rfl, h1, h2, h3⟩, rfl⟩

/-! ### Maps -/

theorem mem_mapPut_iff {α : Type _} {k : Str} {v : α} {m : List (Str × α)} (hs : SortedKeys m) (k' : Str) (v' : α) :
    (k', v') ∈ mapPut k v m ↔ if k' = k then v' = v else (k', v') ∈ m := by
  induction m with
  | nil => simp only [mapPut, List.mem_singleton, Prod.mk.injEq, List.not_mem_nil]; grind
  | cons x m ih =>
    obtain ⟨a, b⟩ := x
    unfold SortedKeys at hs
    rw [List.pairwise_cons] at hs
    have ih := ih hs.2
    have hne : ∀ w, (a, w) ∉ m := by
      intro w hw
      have := hs.1 _ hw
      rw [cmpStr_order.refl] at this
      cases this
    unfold mapPut
    split <;> rename_i hc
    · have hk : ∀ w, (k, w) ∉ (a, b) :: m := by
        intro w hw
        rcases List.mem_cons.1 hw with e | hw
        · cases e; rw [cmpStr_order.refl] at hc; cases hc
        · have := cmpStr_order.trans _ _ _ hc (hs.1 _ hw)
          rw [cmpStr_order.refl] at this
          cases this
      rw [List.mem_cons, Prod.mk.injEq]
      grind
    · rw [cmpStr_eq] at hc
      subst hc
      simp only [List.mem_cons, Prod.mk.injEq]
      grind
    · have hk : k ≠ a := by
        rintro rfl
        rw [cmpStr_order.refl] at hc; cases hc
      simp only [List.mem_cons, Prod.mk.injEq, ih]
      grind

theorem lastOf_snoc (l : List (Str × Json)) (k k' : Str) (v : Json) :
    lastOf k' (l ++ [(k, v)]) = if k' = k then some v else lastOf k' l := by
  unfold lastOf
  rw [List.reverse_append]
  simp only [List.reverse_cons, List.reverse_nil, List.nil_append, List.singleton_append, List.find?_cons]
  by_cases h : k' = k
  · simp [h]
  · have : (k == k') = false := by simpa using Ne.symm h
    simp only [this, if_neg h]

theorem mapOf_mapAll (l : List (Str × Json)) : MapOf l (mapAll [] l) := by
  rcases List.eq_nil_or_concat l with rfl | ⟨l', ⟨k, v⟩, e⟩
  · exact ⟨List.Pairwise.nil, fun k v => by simp [mapAll, lastOf]⟩
  · rw [List.concat_eq_append] at e
    have hlt : l'.length < l.length := by rw [e]; simp
    have ih := mapOf_mapAll l'
    subst e
    have hm : mapAll [] (l' ++ [(k, v)]) = mapPut k v (mapAll [] l') := by simp [mapAll]
    rw [hm]
    refine ⟨sorted_mapPut ih.1, fun k' v' => ?_⟩
    rw [mem_mapPut_iff ih.1, lastOf_snoc]
    split
    · simp [eq_comm]
    · exact ih.2 k' v'
  termination_by l.length

theorem mapOf_unique {l m m' : List (Str × Json)} (h : MapOf l m) (h' : MapOf l m') : m = m' := by
  refine sorted_unique h.1 h'.1 ?_
  have nd : ∀ {m : List (Str × Json)}, (m.Pairwise fun a b => cmpStr a.1 b.1 = .lt) → m.Nodup :=
    fun h => (sorted_nodup h).of_map _
  rw [List.perm_ext_iff_of_nodup (nd h.1) (nd h'.1)]
  rintro ⟨k, v⟩
  rw [h.2, h'.2]

/-! ### Values -/

theorem skip_split (s : Str) : ∃ a, s = a ++ jSkip s ∧ JsonBlank a :=
  ⟨s.takeWhile jWs, List.takeWhile_append_dropWhile.symm, blank_ws.2 List.all_takeWhile⟩

theorem skip_end {s : Str} (h : jSkip s = []) : JsonBlank s := by
  obtain ⟨a, e, ha⟩ := skip_split s
  rw [h, List.append_nil] at e
  rw [e]; exact ha

theorem jScalar_sound {s r : Str} {v : Json} (d : Nat) (h : jScalar s = some (v, r)) :
    ∃ t, s = t ++ r ∧ JsonVal d t v := by
  unfold jScalar at h
  split at h
  · obtain ⟨⟨x, r'⟩, hx, hy⟩ := Option.map_eq_some_iff.1 h
    cases hy
    obtain ⟨a, t, e, hl, ht⟩ := jString_sound hx
    have : a = [] := List.length_eq_zero_iff.1 hl
    subst this
    exact ⟨_, by rw [e]; simp, .str ht⟩
  · cases h; exact ⟨_, rfl, .null⟩
  · cases h; exact ⟨_, rfl, .yes⟩
  · cases h; exact ⟨_, rfl, .no⟩
  · obtain ⟨t, rfl, ht, rfl⟩ := jNumber_sound h
    exact ⟨t, rfl, .num ht⟩

/-- What is read by `p` is a value of depth `d` after white space. -/
def SoundValue (d : Nat) (p : Str → Option (Json × Str)) : Prop :=
  ∀ s v r, p s = some (v, r) → ∃ a t, s = a ++ (t ++ r) ∧ JsonBlank a ∧ JsonVal d t v

theorem jElems_sound {d : Nat} {p : Str → Option (Json × Str)} (hp : SoundValue d p) {n : Nat} {s r : Str}
    {l : List Json} (h : jElems p n s = some (l, r)) : ∃ t, s = t ++ ']' :: r ∧ JsonElems d t l := by
  induction n generalizing s l with
  | zero => cases h
  | succ n ih =>
    simp only [jElems] at h
    split at h
    · cases h
    · rename_i v r1 hv
      obtain ⟨a, t, rfl, ha, ht⟩ := hp _ _ _ hv
      obtain ⟨b, eb, hb⟩ := skip_split r1
      split at h
      · rename_i r2 e
        cases h
        exact ⟨a ++ (t ++ b), by rw [eb, e]; simp, .one ha ht hb⟩
      · rename_i r2 e
        obtain ⟨⟨l', r'⟩, hx, hy⟩ := Option.map_eq_some_iff.1 h
        cases hy
        obtain ⟨u, rfl, hu⟩ := ih hx
        exact ⟨a ++ (t ++ (b ++ ',' :: u)), by rw [eb, e]; simp, .more ha ht hb hu⟩
      · cases h

theorem jMembers_sound {d : Nat} {p : Str → Option (Json × Str)} (hp : SoundValue d p) {n : Nat} {s r : Str}
    {m m' : List (Str × Json)} (h : jMembers p n m s = some (m', r)) :
    ∃ t l, s = t ++ '}' :: r ∧ JsonMembers d t l ∧ m' = mapAll m l := by
  induction n generalizing s m with
  | zero => cases h
  | succ n ih =>
    simp only [jMembers] at h
    obtain ⟨a, ea, ha⟩ := skip_split s
    split at h
    · rename_i r1 e1
      split at h
      · cases h
      · rename_i k r2 hk
        obtain ⟨z, kt, ek, hl, hkt⟩ := jString_sound hk
        have : z = [] := List.length_eq_zero_iff.1 hl
        subst this
        obtain ⟨b, eb, hb⟩ := skip_split r2
        split at h
        · rename_i r3 e3
          split at h
          · cases h
          · rename_i v r4 hv
            obtain ⟨c, t, rfl, hc, ht⟩ := hp _ _ _ hv
            obtain ⟨x, ex, hx⟩ := skip_split r4
            split at h
            · rename_i r5 e5
              cases h
              refine ⟨_, _, ?_, .one ha hkt hb hc ht hx, rfl⟩
              rw [ea, e1, ek, eb, e3, ex, e5]; simp
            · rename_i r5 e5
              obtain ⟨u, l, rfl, hu, rfl⟩ := ih h
              refine ⟨_, _, ?_, .more ha hkt hb hc ht hx hu, rfl⟩
              rw [ea, e1, ek, eb, e3, ex, e5]; simp
            · cases h
        · cases h
    · cases h

theorem jValue_sound (d : Nat) : SoundValue d (jValue d) := by
  induction d with
  | zero =>
    intro s v r h
    obtain ⟨a, ea, ha⟩ := skip_split s
    simp only [jValue] at h
    split at h
    · cases h
    · cases h
    · obtain ⟨t, et, ht⟩ := jScalar_sound 0 h
      exact ⟨a, t, by rw [ea, et], ha, ht⟩
  | succ d ih =>
    intro s v r h
    obtain ⟨a, ea, ha⟩ := skip_split s
    simp only [jValue] at h
    split at h
    · rename_i r1 e1
      obtain ⟨b, eb, hb⟩ := skip_split r1
      split at h
      · rename_i r2 e2
        cases h
        exact ⟨a, _, by rw [ea, e1, eb, e2]; simp, ha, .emptyArr hb⟩
      · obtain ⟨⟨l, r'⟩, hx, hy⟩ := Option.map_eq_some_iff.1 h
        cases hy
        obtain ⟨t, et, ht⟩ := jElems_sound ih hx
        have hbt : JsonElems d (b ++ t) l := by
          cases ht with
          | one h1 h2 h3 =>
            rw [← List.append_assoc]
            exact .one (fun c hc => (List.mem_append.1 hc).elim (hb c) (h1 c)) h2 h3
          | more h1 h2 h3 h4 =>
            rw [← List.append_assoc]
            exact .more (fun c hc => (List.mem_append.1 hc).elim (hb c) (h1 c)) h2 h3 h4
        exact ⟨a, _, by rw [ea, e1, eb, et]; simp, ha, .arr hbt⟩
    · rename_i r1 e1
      obtain ⟨b, eb, hb⟩ := skip_split r1
      split at h
      · rename_i r2 e2
        cases h
        exact ⟨a, _, by rw [ea, e1, eb, e2]; simp, ha, .emptyObj hb⟩
      · obtain ⟨⟨l, r'⟩, hx, hy⟩ := Option.map_eq_some_iff.1 h
        cases hy
        obtain ⟨t, l', et, ht, rfl⟩ := jMembers_sound ih hx
        have hbt : JsonMembers d (b ++ t) l' := by
          cases ht with
          | one h1 h2 h3 h4 h5 h6 =>
            rw [← List.append_assoc]
            exact .one (fun c hc => (List.mem_append.1 hc).elim (hb c) (h1 c)) h2 h3 h4 h5 h6
          | more h1 h2 h3 h4 h5 h6 h7 =>
            rw [← List.append_assoc]
            exact .more (fun c hc => (List.mem_append.1 hc).elim (hb c) (h1 c)) h2 h3 h4 h5 h6 h7
        exact ⟨a, _, by rw [ea, e1, eb, et]; simp, ha, .obj hbt (mapOf_mapAll l')⟩
    · obtain ⟨t, et, ht⟩ := jScalar_sound (d + 1) h
      exact ⟨a, t, by rw [ea, et], ha, ht⟩

theorem digit_facts {c : Char} (h : isAsciiDigit c = true) :
    jWs c = false ∧ c ≠ ']' ∧ c ≠ '}' ∧ c ≠ '[' ∧ c ≠ '{' ∧ c ≠ '"' ∧ c ≠ 'n' ∧ c ≠ 't' ∧ c ≠ 'f' := by
  rw [jDigit_iff] at h
  refine ⟨?_, ?_, ?_, ?_, ?_, ?_, ?_, ?_, ?_⟩
  · rw [Bool.eq_false_iff, ne_eq, jWs_iff]; omega
  all_goals rintro rfl; revert h; decide

theorem num_facts {t : Str} (h : JsonNum t) : ∃ c u, t = c :: u ∧
    jWs c = false ∧ c ≠ ']' ∧ c ≠ '}' ∧ c ≠ '[' ∧ c ≠ '{' ∧ c ≠ '"' ∧ c ≠ 'n' ∧ c ≠ 't' ∧ c ≠ 'f' := by
  obtain ⟨c, u, rfl, hc⟩ := num_head h
  refine ⟨c, u, rfl, ?_⟩
  rcases hc with rfl | hc
  · decide
  · exact digit_facts hc

theorem val_head {d : Nat} {t : Str} {v : Json} (h : JsonVal d t v) :
    ∃ c u, t = c :: u ∧ jWs c = false ∧ c ≠ ']' ∧ c ≠ '}' := by
  cases h with
  | num h => obtain ⟨c, u, e, h1, h2, h3, -⟩ := num_facts h; exact ⟨c, u, e, h1, h2, h3⟩
  | _ => exact ⟨_, _, rfl, by decide⟩

theorem jValue_scalar {d : Nat} {c : Char} {u : Str} (h1 : jWs c = false) (h2 : c ≠ '[') (h3 : c ≠ '{') :
    jValue d (c :: u) = jScalar (c :: u) := by
  cases d <;>
  · simp only [jValue]
    rw [jSkip_solid h1]
    split
    · rename_i e; injection e with e; exact absurd e h2
    · rename_i e; injection e with e; exact absurd e h3
    · rfl

theorem jScalar_number {c : Char} {u : Str} (h1 : c ≠ '"') (h2 : c ≠ 'n') (h3 : c ≠ 't') (h4 : c ≠ 'f') :
    jScalar (c :: u) = jNumber (c :: u) := by
  unfold jScalar
  split
  · rename_i e; injection e with e; exact absurd e h1
  · rename_i e; injection e with e; exact absurd e h2
  · rename_i e; injection e with e; exact absurd e h3
  · rename_i e; injection e with e; exact absurd e h4
  · rfl

theorem elems_length {d : Nat} {t : Str} {l : List Json} (h : JsonElems d t l) : l.length ≤ t.length := by
  induction l generalizing t with
  | nil => cases h
  | cons v l ih =>
    cases h with
    | one _ h _ =>
      obtain ⟨c, u, rfl, -⟩ := val_head h
      simp only [List.length_cons, List.length_append, List.length_nil]; omega
    | more _ _ _ h =>
      have := ih h
      simp only [List.length_cons, List.length_append]; omega

theorem members_length {d : Nat} {t : Str} {l : List (Str × Json)} (h : JsonMembers d t l) : l.length ≤ t.length := by
  induction l generalizing t with
  | nil => cases h
  | cons v l ih =>
    cases h with
    | one => simp only [List.length_cons, List.length_append, List.length_nil]; omega
    | more _ _ _ _ _ _ h =>
      have := ih h
      simp only [List.length_cons, List.length_append]; omega

theorem elems_skip {d : Nat} {t : Str} {l : List Json} (h : JsonElems d t l) (r : Str) :
    ∃ c u, jSkip (t ++ r) = c :: u ∧ c ≠ ']' ∧ l.length ≤ (c :: u).length := by
  cases h with
  | one ha h _ =>
    obtain ⟨c, u, rfl, h1, h2, -⟩ := val_head h
    simp only [List.append_assoc, List.cons_append]
    rw [jSkip_ws (blank_ws.1 ha), jSkip_solid h1]
    exact ⟨c, _, rfl, h2, by simp⟩
  | more ha h _ hu =>
    have := elems_length hu
    obtain ⟨c, u, rfl, h1, h2, -⟩ := val_head h
    simp only [List.append_assoc, List.cons_append]
    rw [jSkip_ws (blank_ws.1 ha), jSkip_solid h1]
    refine ⟨c, _, rfl, h2, ?_⟩
    simp only [List.length_cons, List.length_append]; omega

theorem members_skip {d : Nat} {t : Str} {l : List (Str × Json)} (h : JsonMembers d t l) (r : Str) :
    ∃ c u, jSkip (t ++ r) = c :: u ∧ c ≠ '}' ∧ l.length ≤ (c :: u).length := by
  cases h with
  | one ha h =>
    simp only [List.append_assoc, List.cons_append]
    rw [jSkip_ws (blank_ws.1 ha), jSkip_solid (by decide)]
    exact ⟨_, _, rfl, by decide, by simp⟩
  | more ha _ _ _ _ _ hu =>
    have := members_length hu
    simp only [List.append_assoc, List.cons_append]
    rw [jSkip_ws (blank_ws.1 ha), jSkip_solid (by decide)]
    refine ⟨_, _, rfl, by decide, ?_⟩
    simp only [List.length_cons, List.length_append]; omega

theorem jElems_skip (d n : Nat) (s : Str) : jElems (jValue d) n (jSkip s) = jElems (jValue d) n s := by
  cases n <;> simp only [jElems, jValue_skip]

theorem jMembers_skip (d n : Nat) (m : List (Str × Json)) (s : Str) :
    jMembers (jValue d) n m (jSkip s) = jMembers (jValue d) n m s := by
  cases n <;> simp only [jMembers, jSkip_skip]

/-- What may follow a value. -/
def Follow (r : Str) : Prop := ∀ c, r.head? = some c → jWs c = true ∨ c = ',' ∨ c = ']' ∨ c = '}'

theorem follow_num {r : Str} (h : Follow r) : NumEnd r := by
  intro c hc
  rcases h c hc with h | rfl | rfl | rfl
  · rw [jWs_iff] at h
    refine ⟨?_, ?_, ?_, ?_⟩
    · rw [Bool.eq_false_iff, ne_eq, jDigit_iff]; omega
    all_goals rintro rfl; revert h; decide
  all_goals decide

theorem follow_blank {w r : Str} (hw : JsonBlank w) (h : Follow r) : Follow (w ++ r) := by
  intro c hc
  cases w with
  | nil => exact h c hc
  | cons x w =>
    cases hc
    exact .inl (jWs_iff.2 (hw _ List.mem_cons_self))

theorem follow_cons {c : Char} {r : Str} (h : c = ',' ∨ c = ']' ∨ c = '}') : Follow (c :: r) := by
  intro x hx
  cases hx
  exact .inr h

mutual
theorem jValue_complete {d : Nat} {t : Str} {v : Json} (h : JsonVal d t v) (r : Str) (hr : Follow r) :
    jValue d (t ++ r) = some (v, r) := by
  match h with
  | .null => cases d <;> rfl
  | .yes => cases d <;> rfl
  | .no => cases d <;> rfl
  | .num hn =>
    have hc := jNumber_complete hn (follow_num hr)
    obtain ⟨c, u, rfl, h1, -, -, h4, h5, h6, h7, h8, h9⟩ := num_facts hn
    rw [List.cons_append] at hc ⊢
    rw [jValue_scalar h1 h4 h5, jScalar_number h6 h7 h8 h9, hc]
  | .str hs =>
    rw [List.cons_append, jValue_scalar (by decide) (by decide) (by decide)]
    have := jString_complete hs r
    simp only [List.append_assoc, List.cons_append, List.nil_append, jScalar, this]
    rfl
  | .emptyArr hw =>
    simp only [List.cons_append, List.append_assoc, List.nil_append, jValue]
    rw [jSkip_solid (by decide)]
    simp only [jSkip_ws (blank_ws.1 hw)]
    rw [jSkip_solid (by decide)]
    rfl
  | .arr he =>
    obtain ⟨c, u, e, h1, h2⟩ := elems_skip he (']' :: r)
    simp only [List.cons_append, List.append_assoc, List.nil_append]
    rw [jValue_arr e h1, ← e, jElems_skip, jElems_complete he r _ (by rw [e]; exact h2)]
    rfl
  | .emptyObj hw =>
    simp only [List.cons_append, List.append_assoc, List.nil_append, jValue]
    rw [jSkip_solid (by decide)]
    simp only [jSkip_ws (blank_ws.1 hw)]
    rw [jSkip_solid (by decide)]
    rfl
  | .obj he hm =>
    obtain ⟨c, u, e, h1, h2⟩ := members_skip he ('}' :: r)
    simp only [List.cons_append, List.append_assoc, List.nil_append]
    rw [jValue_obj e h1, ← e, jMembers_skip, jMembers_complete he r _ _ (by rw [e]; exact h2),
      mapOf_unique hm (mapOf_mapAll _)]
    rfl
theorem jElems_complete {d : Nat} {t : Str} {l : List Json} (h : JsonElems d t l) (r : Str) (n : Nat)
    (hn : l.length ≤ n) : jElems (jValue d) n (t ++ ']' :: r) = some (l, r) := by
  match h, n with
  | .one _ _ _, 0 => simp at hn
  | .more _ _ _ _, 0 => simp at hn
  | .one ha hv hb, n + 1 =>
    have hx := jValue_complete hv _ (follow_blank hb (follow_cons (r := r) (.inr (.inl rfl))))
    simp only [List.append_assoc, jElems, jValue_ws d (blank_ws.1 ha), hx, jSkip_ws (blank_ws.1 hb)]
    rw [jSkip_solid (by decide)]
    rfl
  | .more (u := u) ha hv hb hu, n + 1 =>
    have hx := jValue_complete hv _ (follow_blank hb (follow_cons (r := u ++ ']' :: r) (.inl rfl)))
    have ih := jElems_complete hu r n (by simpa using hn)
    simp only [List.append_assoc, List.cons_append, jElems, jValue_ws d (blank_ws.1 ha), hx,
      jSkip_ws (blank_ws.1 hb)]
    rw [jSkip_solid (by decide)]
    simp only [ih]
    rfl
theorem jMembers_complete {d : Nat} {t : Str} {l : List (Str × Json)} (h : JsonMembers d t l) (r : Str) (n : Nat)
    (m : List (Str × Json)) (hn : l.length ≤ n) :
    jMembers (jValue d) n m (t ++ '}' :: r) = some (mapAll m l, r) := by
  match h, n with
  | .one _ _ _ _ _ _, 0 => simp at hn
  | .more _ _ _ _ _ _ _, 0 => simp at hn
  | .one ha hk hb hc hv hb', n + 1 =>
    have hx := jValue_complete hv _ (follow_blank hb' (follow_cons (r := r) (.inr (.inr rfl))))
    simp only [List.append_assoc, List.cons_append, jMembers, jSkip_ws (blank_ws.1 ha)]
    rw [jSkip_solid (by decide)]
    simp only [jString_complete hk, jSkip_ws (blank_ws.1 hb)]
    rw [jSkip_solid (by decide)]
    simp only [jValue_ws d (blank_ws.1 hc), hx, jSkip_ws (blank_ws.1 hb')]
    rw [jSkip_solid (by decide)]
    rfl
  | .more (u := u) (s := s) (v := v) ha hk hb hc hv hb' hu, n + 1 =>
    have hx := jValue_complete hv _ (follow_blank hb' (follow_cons (r := u ++ '}' :: r) (.inl rfl)))
    have ih := jMembers_complete hu r n (mapPut s v m) (by simpa using hn)
    simp only [List.append_assoc, List.cons_append, jMembers, jSkip_ws (blank_ws.1 ha)]
    rw [jSkip_solid (by decide)]
    simp only [jString_complete hk, jSkip_ws (blank_ws.1 hb)]
    rw [jSkip_solid (by decide)]
    simp only [jValue_ws d (blank_ws.1 hc), hx, jSkip_ws (blank_ws.1 hb')]
    rw [jSkip_solid (by decide)]
    exact ih
end

theorem jParse_iff (s : Str) (v : Json) : jParse s = some v ↔ JsonText 127 s v := by
  constructor
  · intro h
    unfold jParse at h
    split at h
    · rename_i w r hv
      split at h
      · rename_i hr
        cases h
        obtain ⟨a, t, rfl, ha, ht⟩ := jValue_sound 127 _ _ _ hv
        exact ⟨a, t, r, rfl, ha, ht, skip_end hr⟩
      · cases h
    · cases h
  · rintro ⟨a, t, b, rfl, ha, ht, hb⟩
    have hf : Follow b := by
      have := follow_blank (r := []) hb (by intro c hc; cases hc)
      simpa using this
    unfold jParse
    rw [jValue_ws 127 (blank_ws.1 ha), jValue_complete ht b hf]
    have : jSkip b = [] := by
      have := jSkip_ws (s := []) (blank_ws.1 hb)
      rw [List.append_nil] at this
      exact this
    simp [this]

mutual
theorem val_mono (d : Nat) (t : Str) (v : Json) (h : JsonVal d t v) (e : Nat) (he : d ≤ e) : JsonVal e t v := by
  match h, e with
  | .null, _ => exact .null
  | .yes, _ => exact .yes
  | .no, _ => exact .no
  | .num h, _ => exact .num h
  | .str h, _ => exact .str h
  | .emptyArr h, e + 1 => exact .emptyArr h
  | .arr h, e + 1 => exact .arr (elems_mono _ _ _ h e (by omega))
  | .emptyObj h, e + 1 => exact .emptyObj h
  | .obj h hm, e + 1 => exact .obj (members_mono _ _ _ h e (by omega)) hm
theorem elems_mono (d : Nat) (t : Str) (l : List Json) (h : JsonElems d t l) (e : Nat) (he : d ≤ e) :
    JsonElems e t l := by
  match h with
  | .one h1 h2 h3 => exact .one h1 (val_mono _ _ _ h2 e he) h3
  | .more h1 h2 h3 h4 => exact .more h1 (val_mono _ _ _ h2 e he) h3 (elems_mono _ _ _ h4 e he)
theorem members_mono (d : Nat) (t : Str) (l : List (Str × Json)) (h : JsonMembers d t l) (e : Nat) (he : d ≤ e) :
    JsonMembers e t l := by
  match h with
  | .one h1 h2 h3 h4 h5 h6 => exact .one h1 h2 h3 h4 (val_mono _ _ _ h5 e he) h6
  | .more h1 h2 h3 h4 h5 h6 h7 =>
    exact .more h1 h2 h3 h4 (val_mono _ _ _ h5 e he) h6 (members_mono _ _ _ h7 e he)
end

end Rdftk
