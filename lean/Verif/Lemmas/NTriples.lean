import Verif.Model.NTriples
import Verif.Spec.NTriples
import Verif.Lemmas.Grammar
import Verif.Lemmas.Graph

/-! Lemmas about the N-Triples grammar. -/

namespace Rdftk

open Spec

/-! ### Skipping -/

theorem skip_nil (b : Bool) : skip b [] = [] := by cases b <;> rfl

theorem skip_true_body {body : Str} {nl : Char} {s : Str} (h1 : '\r' ∉ body) (h2 : '\n' ∉ body)
    (h : isNewline nl = true) : skip true (body ++ nl :: s) = skip false s := by
  induction body with
  | nil => simp [skip, h]
  | cons c cs ih =>
    simp only [List.mem_cons, not_or] at h1 h2
    have : isNewline c = false := by
      simp [isNewline, Ne.symm h1.1, Ne.symm h2.1]
    simp only [List.cons_append, skip, this, Bool.false_eq_true, if_false]
    exact ih h1.2 h2.2

theorem skip_true_last {body : Str} (h1 : '\r' ∉ body) (h2 : '\n' ∉ body) :
    skip true body = [] := by
  induction body with
  | nil => rfl
  | cons c cs ih =>
    simp only [List.mem_cons, not_or] at h1 h2
    have : isNewline c = false := by
      simp [isNewline, Ne.symm h1.1, Ne.symm h2.1]
    simp only [skip, this, Bool.false_eq_true, if_false]
    exact ih h1.2 h2.2

theorem isWs_iff (c : Char) : isWs c = true ↔ c ∈ (str! " \t\r\n") := by
  simp [isWs, isNewline, or_assoc]

theorem skip_gap {g : Str} (h : Gap g) (s : Str) : skip false (g ++ s) = skip false s := by
  induction h with
  | nil => rfl
  | @ws c g hc _ ih =>
    simp only [List.cons_append, skip, (isWs_iff c).2 hc, if_true, ih]
  | @comment body nl g h1 h2 hn _ ih =>
    have hnl : isNewline nl = true := by
      simp only [List.mem_cons, List.not_mem_nil, or_false] at hn
      rcases hn with rfl | rfl <;> rfl
    have e : ('#' :: (body ++ nl :: g)) ++ s = '#' :: (body ++ nl :: (g ++ s)) := by simp
    have hw : isWs '#' = false := by decide
    rw [e]
    simp only [skip, hw, Bool.false_eq_true, if_false, if_true]
    rw [skip_true_body h1 h2 hnl, ih]

theorem skip_lastGap {g : Str} (h : LastGap g) : skip false g = [] := by
  obtain ⟨g, c, hg, rfl, rfl | ⟨body, h1, h2, rfl⟩⟩ := h
  · rw [skip_gap hg]; rfl
  · rw [skip_gap hg]
    have hw : isWs '#' = false := by decide
    simp only [skip, hw, Bool.false_eq_true, if_false, if_true]
    exact skip_true_last h1 h2

/-- The text starts with something that is not skipped. -/
def Solid (s : Str) : Prop := ∃ c r, s = c :: r ∧ isWs c = false ∧ c ≠ '#'

theorem skip_solid {s : Str} (h : Solid s) : skip false s = s := by
  obtain ⟨c, r, rfl, h1, h2⟩ := h
  simp [skip, h1, h2]

theorem solid_cons {c : Char} {r : Str} (h : (isWs c || c == '#') = false) : Solid (c :: r) := by
  simp only [Bool.or_eq_false_iff, beq_eq_false_iff_ne] at h
  exact ⟨c, r, rfl, h.1, h.2⟩

theorem skip_gap_solid {g s : Str} (hg : Gap g) (h : Solid s) : skip false (g ++ s) = s := by
  rw [skip_gap hg, skip_solid h]

theorem skip_idem (b : Bool) (s : Str) : skip false (skip b s) = skip b s := by
  induction s generalizing b with
  | nil => cases b <;> rfl
  | cons c s ih =>
    cases b with
    | true => simp only [skip]; split <;> exact ih _
    | false =>
      simp only [skip]
      split
      · exact ih _
      · split
        · exact ih _
        · rename_i h1 h2; simp [skip, h1, h2]

/-- The text starts with white space or a comment. -/
def Sep (s : Str) : Prop := ∃ c r, s = c :: r ∧ (isWs c = true ∨ c = '#')

theorem sep_gap {g s : Str} (h : Gap g) (hne : g ≠ []) : Sep (g ++ s) := by
  cases h with
  | nil => exact absurd rfl hne
  | @ws c g hc _ => exact ⟨c, _, rfl, .inl ((isWs_iff c).2 hc)⟩
  | comment _ _ _ _ => exact ⟨'#', _, rfl, .inr rfl⟩

theorem sep_class {c : Char} (h : isWs c = true ∨ c = '#') :
    isPnChars c = false ∧ c ≠ '.' ∧ isAsciiAlpha c = false ∧ c ≠ '-' ∧ isAsciiAlnum c = false := by
  rw [isWs_iff] at h
  simp only [List.mem_cons, List.not_mem_nil, or_false] at h
  rcases h with (rfl | rfl | rfl | rfl) | rfl <;> decide

/-! ### Repetition -/

theorem rep_pass (step : Str → Option Nat) (a s : Str) :
    rep step a.length (a ++ s) = (a ++ (rep step 0 s).1, (rep step 0 s).2) := by
  induction a with
  | nil => cases h : rep step 0 s with | mk x y => simp [h]
  | cons c a ih => simp [rep, ih]

theorem rep_stop {step : Str → Option Nat} {s : Str} (h : step s = none) : rep step 0 s = ([], s) := by
  cases s with
  | nil => rfl
  | cons c s => simp [rep, h]

theorem rep_step {step : Str → Option Nat} {c : Char} {a s : Str}
    (h : step (c :: a ++ s) = some (c :: a).length) :
    rep step 0 (c :: a ++ s) = (c :: a ++ (rep step 0 s).1, (rep step 0 s).2) := by
  have h' : step (c :: (a ++ s)) = some (a.length + 1) := h
  simp only [List.cons_append, rep, h', Nat.add_sub_cancel, rep_pass]

theorem rep_tokens {step : Str → Option Nat} {P : Str → Prop} {Q : Str → Prop}
    (h1 : ∀ t r, P t → Q r → t ≠ [] ∧ step (t ++ r) = some t.length)
    (h2 : ∀ t r, P t → Q (t ++ r)) (ts : List Str) (hts : ∀ t ∈ ts, P t) {rest : Str} (hq : Q rest)
    (hr : step rest = none) : rep step 0 (ts.flatten ++ rest) = (ts.flatten, rest) := by
  suffices h : Q (ts.flatten ++ rest) ∧ rep step 0 (ts.flatten ++ rest) = (ts.flatten, rest) from h.2
  induction ts with
  | nil => exact ⟨by simpa using hq, by simpa using rep_stop hr⟩
  | cons t ts ih =>
    have ⟨iq, ir⟩ := ih fun t h => hts t (List.mem_cons_of_mem _ h)
    have hp := hts t List.mem_cons_self
    have e : (t :: ts).flatten ++ rest = t ++ (ts.flatten ++ rest) := by simp
    rw [e]
    refine ⟨h2 _ _ hp, ?_⟩
    obtain ⟨hne, hs⟩ := h1 t _ hp iq
    cases t with
    | nil => exact absurd rfl hne
    | cons c a => rw [rep_step hs, ir]; simp

theorem rep_join (step : Str → Option Nat) (k : Nat) (s : Str) :
    (rep step k s).1 ++ (rep step k s).2 = s := by
  induction s generalizing k with
  | nil => cases k <;> rfl
  | cons c s ih =>
    cases k with
    | succ k => simp [rep, ih]
    | zero =>
      simp only [rep]
      split
      · rfl
      · simp [ih]

/-! ### Characters -/

theorem hexVal_eq (c : Char) : hexVal c = hexDigitValue c := by
  by_cases h : c.toNat < 128
  · have : ∀ n < 128, hexVal (Char.ofNat n) = hexDigitValue (Char.ofNat n) := by decide
    have := this _ h
    rwa [Char.ofNat_toNat] at this
  · have e1 : hexVal c = none := by
      unfold hexVal inRange
      rw [if_neg, if_neg, if_neg] <;> simp <;> omega
    have mem : ∀ l : Str, (∀ x ∈ l, x.toNat < 128) → l.idxOf? c = none := by
      intro l hl
      rw [List.idxOf?_eq_none_iff]
      intro hc
      exact h (hl c hc)
    rw [e1, hexDigitValue, mem _ (by decide), mem _ (by decide)]
    rfl

theorem isHexDigit_iff (c : Char) : isHexDigit c = true ↔ Hex c := by
  simp [isHexDigit, Hex, hexVal_eq]

theorem hexNumber_foldl (ds : Str) (n : Nat) :
    ds.foldl (fun n c => n * 16 + (hexVal c).getD 0) n = n * 16 ^ ds.length + hexValue ds := by
  induction ds generalizing n with
  | nil => simp [hexValue]
  | cons c ds ih =>
    simp only [List.foldl_cons, ih, hexValue, List.length_cons, ← hexVal_eq, Nat.pow_succ, Nat.add_mul]
    have : n * 16 * 16 ^ ds.length = n * (16 ^ ds.length * 16) := by
      rw [Nat.mul_assoc, Nat.mul_comm 16]
    omega

theorem hexNumber_eq (ds : Str) : hexNumber ds = hexValue ds := by
  simp [hexNumber, hexNumber_foldl]

theorem takeWhile_hex {ds : Str} (h : ∀ c ∈ ds, Hex c) (r : Str) :
    ds.length ≤ ((ds ++ r).takeWhile isHexDigit).length := by
  rw [List.takeWhile_append_of_pos fun c hc => (isHexDigit_iff c).2 (h c hc)]
  simp

theorem ucharLen_of {ds t : Str} (h : UcharOf ds t) (r : Str) :
    ucharLen (t ++ r) = some t.length ∧ t.length = ds.length + 2 := by
  obtain ⟨hd, ⟨hl, rfl⟩ | ⟨hl, rfl⟩⟩ := h
  · have := takeWhile_hex hd r
    refine ⟨?_, by simp⟩
    simp only [List.cons_append, ucharLen]
    rw [if_pos (by omega)]
    simp [hl]
  · have := takeWhile_hex hd r
    refine ⟨?_, by simp⟩
    simp only [List.cons_append, ucharLen]
    rw [if_pos (by omega)]
    simp [hl]

theorem take_takeWhile {p : Char → Bool} {n : Nat} {r : Str} (h : n ≤ (r.takeWhile p).length) :
    ∃ a b, r = a ++ b ∧ a.length = n ∧ ∀ c ∈ a, p c = true := by
  refine ⟨(r.takeWhile p).take n, (r.takeWhile p).drop n ++ r.dropWhile p, ?_, ?_, ?_⟩
  · rw [← List.append_assoc, List.take_append_drop, List.takeWhile_append_dropWhile]
  · simp [h]
  · intro c hc
    exact List.all_eq_true.1 (List.all_takeWhile (p := p) (l := r)) c (List.mem_of_mem_take hc)

theorem ucharLen_some {s : Str} {n : Nat} (h : ucharLen s = some n) :
    ∃ ds t r, UcharOf ds t ∧ s = t ++ r ∧ n = t.length := by
  unfold ucharLen at h
  split at h
  · split at h
    · rename_i r hl
      obtain ⟨a, b, rfl, ha, hh⟩ := take_takeWhile hl
      injection h with h
      refine ⟨a, '\\' :: 'U' :: a, b, ⟨fun c hc => (isHexDigit_iff c).1 (hh c hc), .inr ⟨ha, rfl⟩⟩, rfl, ?_⟩
      simp [← h, ha]
    · cases h
  · split at h
    · rename_i r hl
      obtain ⟨a, b, rfl, ha, hh⟩ := take_takeWhile hl
      injection h with h
      refine ⟨a, '\\' :: 'u' :: a, b, ⟨fun c hc => (isHexDigit_iff c).1 (hh c hc), .inl ⟨ha, rfl⟩⟩, rfl, ?_⟩
      simp [← h, ha]
    · cases h
  · cases h

theorem iriPlain_iff (c : Char) : (iriExcluded c = false ∧ c ≠ '<') ↔ IriPlain c := by
  simp only [iriExcluded, IriPlain, Bool.or_eq_false_iff, decide_eq_false_iff_not, Nat.not_le,
    List.mem_cons, List.not_mem_nil, or_false, not_or]
  grind

theorem iriCharLen_plain {c : Char} (h : IriPlain c) (s : Str) : iriCharLen (c :: s) = some 1 := by
  simp [iriCharLen, ((iriPlain_iff c).2 h).1]

theorem uchar_head {ds t : Str} (h : UcharOf ds t) : ∃ a, t = '\\' :: a := by
  obtain ⟨_, ⟨_, rfl⟩ | ⟨_, rfl⟩⟩ := h
  · exact ⟨_, rfl⟩
  · exact ⟨_, rfl⟩

theorem rep_iri {a : Str} (h : IriText a) (r : Str) :
    rep iriCharLen 0 (a ++ '>' :: r) = (a, '>' :: r) := by
  obtain ⟨ts, hts, rfl⟩ := h
  refine rep_tokens (Q := fun _ => True) ?_ (fun _ _ _ => trivial) ts hts trivial ?_
  · rintro t r (⟨c, hc, rfl⟩ | ⟨ds, hu⟩) _
    · exact ⟨by simp, iriCharLen_plain hc r⟩
    · obtain ⟨a, rfl⟩ := uchar_head hu
      refine ⟨by simp, ?_⟩
      have := (ucharLen_of hu r).1
      simp only [List.cons_append] at this ⊢
      simp only [iriCharLen]
      rw [if_pos (by decide)]
      exact this
  · simp only [iriCharLen]
    rw [if_pos (by decide)]
    rfl

theorem pIriRef_text {a : Str} (h : IriText a) (r : Str) :
    pIriRef ('<' :: (a ++ '>' :: r)) = some (a, r) := by
  simp [pIriRef, rep_iri h]

theorem echarLen_of {t : Str} (h : Echar t) (r : Str) :
    echarLen (t ++ r) = some 2 ∧ ucharLen (t ++ r) = none := by
  obtain ⟨c, hc, rfl⟩ := h
  constructor
  · simp only [List.cons_append, List.nil_append, echarLen, if_pos hc]
  · simp only [List.mem_cons, List.not_mem_nil, or_false] at hc
    rcases hc with rfl | rfl | rfl | rfl | rfl | rfl | rfl | rfl <;> rfl

theorem rep_quote {a : Str} (h : QuoteText a) (r : Str) :
    rep quoteCharLen 0 (a ++ '"' :: r) = (a, '"' :: r) := by
  obtain ⟨ts, hts, rfl⟩ := h
  refine rep_tokens (Q := fun _ => True) ?_ (fun _ _ _ => trivial) ts hts trivial ?_
  · rintro t r (⟨c, hc, rfl⟩ | ⟨ds, hu⟩ | he) _
    · refine ⟨by simp, ?_⟩
      simp only [List.cons_append, List.nil_append, quoteCharLen]
      rw [if_neg]
      · rfl
      · intro hm; apply hc
        simp only [List.mem_cons, List.not_mem_nil, or_false] at hm ⊢
        grind
    · have := (ucharLen_of hu r).1
      obtain ⟨a, rfl⟩ := uchar_head hu
      refine ⟨by simp, ?_⟩
      simp only [List.cons_append] at this ⊢
      simp only [quoteCharLen]
      rw [if_pos (by decide), this]
      rfl
    · have ⟨h1, h2⟩ := echarLen_of he r
      obtain ⟨c, hc, rfl⟩ := he
      refine ⟨by simp, ?_⟩
      simp only [List.cons_append, List.nil_append] at h1 h2 ⊢
      simp only [quoteCharLen]
      rw [if_pos (by decide), h1, h2]
      rfl
  · simp only [quoteCharLen]
    rw [if_pos (by decide)]
    rfl

theorem pString_text {a : Str} (h : QuoteText a) (r : Str) :
    pString ('"' :: (a ++ '"' :: r)) = some (a, r) := by
  simp [pString, rep_quote h]

/-! ### Labels and language tags -/

/-- Every character continues a label: a dot is followed by another one. -/
def tailOk : Str → Bool
  | [] => true
  | [c] => isPnChars c
  | c :: d :: s => (isPnChars c || (c == '.' && isPnChars d)) && tailOk (d :: s)

theorem rep_tail {a rest : Str} (h : tailOk a = true) (hr : Sep rest) :
    rep labelTailLen 0 (a ++ rest) = (a, rest) := by
  induction a with
  | nil =>
    obtain ⟨c, r, rfl, hc⟩ := hr
    obtain ⟨h1, h2, _⟩ := sep_class hc
    exact rep_stop (by simp [labelTailLen, h1, h2])
  | cons c a ih =>
    have hstep : labelTailLen (c :: (a ++ rest)) = some 1 ∧ tailOk a = true := by
      cases a with
      | nil =>
        simp only [tailOk] at h
        simp [labelTailLen, h, tailOk]
      | cons d a =>
        simp only [tailOk, Bool.and_eq_true, Bool.or_eq_true, beq_iff_eq] at h
        obtain ⟨h1 | ⟨rfl, h1⟩, h2⟩ := h
        · simp [labelTailLen, h1, h2]
        · have : isPnChars '.' = false := by decide
          simp [labelTailLen, this, h1, h2]
    simp [rep, hstep.1, ih hstep.2]

theorem tailOk_of {mid : Str} {last : Char} (h1 : ∀ x ∈ mid, PN_CHARS x ∨ x = '.')
    (h2 : PN_CHARS last) (h3 : SingleDots (mid ++ [last])) : tailOk (mid ++ [last]) = true := by
  induction mid with
  | nil => simpa [tailOk] using (isPnChars_iff last).2 h2
  | cons c mid ih =>
    have ih := ih (fun x hx => h1 x (List.mem_cons_of_mem _ hx))
      (fun a b e => h3 (c :: a) b (by simp [e]))
    have hc := h1 c List.mem_cons_self
    cases mid with
    | nil =>
      simp only [List.cons_append, List.nil_append, tailOk] at ih ⊢
      rcases hc with hc | rfl
      · simp [(isPnChars_iff c).2 hc, ih]
      · simp [ih]
    | cons d mid =>
      simp only [List.cons_append, tailOk] at ih ⊢
      rcases hc with hc | rfl
      · simp [(isPnChars_iff c).2 hc]
        simpa using ih
      · have hd := h1 d (by simp)
        rcases hd with hd | rfl
        · simp [(isPnChars_iff d).2 hd]
          simpa using ih
        · exact absurd rfl (h3 [] (mid ++ [last]))

theorem label_cases {l : Str} (h : Label l) :
    ∃ c a, l = c :: a ∧ (isPnCharsU c || isAsciiDigit c) = true ∧ tailOk a = true := by
  obtain ⟨⟨c, hc, h⟩, hd⟩ := h
  have hc' : (isPnCharsU c || isAsciiDigit c) = true := by
    rw [Bool.or_eq_true, isPnCharsU_iff, isAsciiDigit_iff]; exact hc
  rcases h with rfl | ⟨mid, last, rfl, h1, h2⟩
  · exact ⟨c, [], rfl, hc', rfl⟩
  · refine ⟨c, mid ++ [last], rfl, hc', tailOk_of h1 h2 ?_⟩
    intro a b e
    exact hd (c :: a) b (by simp [e])

theorem pLabel_text {l rest : Str} (h : Label l) (hr : Sep rest) :
    pLabel ('_' :: ':' :: (l ++ rest)) = some ('_' :: ':' :: l, rest) := by
  obtain ⟨c, a, rfl, hc, ha⟩ := label_cases h
  simp only [List.cons_append, pLabel, hc, if_true, rep_tail ha hr]

theorem isAsciiAlpha_iff (c : Char) : isAsciiAlpha c = true ↔ Alpha c := by
  simp [isAsciiAlpha, Alpha, InRanges, inRange]

theorem isAsciiAlnum_iff (c : Char) : isAsciiAlnum c = true ↔ Alnum c := by
  rw [isAsciiAlnum, Bool.or_eq_true, isAsciiAlpha_iff, isAsciiDigit_iff]; rfl

/-- The text does not go on with a letter or digit. -/
def NoAlnum (s : Str) : Prop := ∀ c r, s = c :: r → isAsciiAlnum c = false

theorem takeWhile_all_stop {p : Char → Bool} {a r : Str} (h : ∀ c ∈ a, p c = true)
    (hr : ∀ c s, r = c :: s → p c = false) : (a ++ r).takeWhile p = a ∧ (a ++ r).dropWhile p = r := by
  rw [List.takeWhile_append_of_pos h, List.dropWhile_append_of_pos h]
  cases r with
  | nil => simp
  | cons c s => simp [hr c s rfl]

theorem rep_subTags {subs : List Str} (h : ∀ t ∈ subs, t ≠ [] ∧ ∀ c ∈ t, Alnum c) {rest : Str}
    (hr : Sep rest) :
    rep subTagLen 0 (subs.flatMap (fun t => '-' :: t) ++ rest) =
      (subs.flatMap (fun t => '-' :: t), rest) := by
  have e : subs.flatMap (fun t => '-' :: t) = (subs.map fun t => '-' :: t).flatten := by
    rw [List.flatMap]
  rw [e]
  refine rep_tokens (P := fun t => ∃ u, t = '-' :: u ∧ u ≠ [] ∧ ∀ c ∈ u, Alnum c)
    (Q := NoAlnum) ?_ ?_ _ ?_ ?_ ?_
  · rintro t r ⟨u, rfl, hne, hu⟩ hq
    refine ⟨by simp, ?_⟩
    have := (takeWhile_all_stop (p := isAsciiAlnum) (fun c hc => (isAsciiAlnum_iff c).2 (hu c hc)) hq).1
    simp only [List.cons_append, subTagLen, this]
    rw [if_neg (by simpa using hne)]
    rfl
  · rintro t r ⟨u, rfl, _, _⟩ c s e
    simp only [List.cons_append, List.cons.injEq] at e
    rw [← e.1]; decide
  · intro t ht
    obtain ⟨u, hu, rfl⟩ := List.mem_map.1 ht
    exact ⟨u, rfl, h u hu⟩
  · obtain ⟨c, r, rfl, hc⟩ := hr
    intro c' r' e
    injection e with e1 e2
    subst e1
    exact (sep_class hc).2.2.2.2
  · obtain ⟨c, r, rfl, hc⟩ := hr
    have := (sep_class hc).2.2.2.1
    unfold subTagLen
    split
    · rename_i e; injection e with e1 e2; exact absurd e1 this
    · rfl

theorem pLangTag_text {t rest : Str} (h : LangTag t) (hr : Sep rest) :
    pLangTag ('@' :: (t ++ rest)) = some (t, rest) := by
  obtain ⟨a, subs, rfl, hne, ha, hs⟩ := h
  have hstop : ∀ c s, subs.flatMap (fun t => '-' :: t) ++ rest = c :: s → isAsciiAlpha c = false := by
    intro c s e
    cases subs with
    | nil =>
      obtain ⟨d, r, rfl, hd⟩ := hr
      simp only [List.flatMap_nil, List.nil_append, List.cons.injEq] at e
      rw [← e.1]; exact (sep_class hd).2.2.1
    | cons x xs =>
      simp only [List.flatMap_cons, List.cons_append, List.cons.injEq] at e
      rw [← e.1]; decide
  have := takeWhile_all_stop (p := isAsciiAlpha) (fun c hc => (isAsciiAlpha_iff c).2 (ha c hc)) hstop
  rw [← List.append_assoc] at this
  simp only [pLangTag, this.1, this.2, rep_subTags hs hr]
  rw [if_neg (by simpa using hne)]

/-! ### Statements -/

/-- The match of a term. -/
def Spec.Term.raw : Term → RNode
  | .iri i => .iri i
  | .blank l => .blank ('_' :: ':' :: l)

/-- The match of a suffix. -/
def Spec.Suffix.raw : Suffix → RSuffix
  | .none => .none
  | .lang t => .lang t
  | .type i => .type i

/-- The match of an object. -/
def Spec.Obj.raw : Obj → RObject
  | .term t => .node t.raw
  | .lit a x => .lit a x.raw

/-- The match of a statement. -/
def Spec.Line.raw (l : Line) : RLine := ⟨l.s.raw, l.p, l.o.raw, l.g.map Term.raw⟩

theorem pSubject_text {t : Term} {rest : Str} (h : t.Valid) (ho : t.Open → Sep rest) :
    pSubject (t.text ++ rest) = some (t.raw, rest) := by
  cases t with
  | iri i =>
    have e : (Term.iri i).text ++ rest = '<' :: (i ++ '>' :: rest) := by simp [Term.text]
    rw [e, pSubject, pIriRef_text h]
    rfl
  | blank l =>
    have e : (Term.blank l).text ++ rest = '_' :: ':' :: (l ++ rest) := by simp [Term.text]
    have h1 : pIriRef ('_' :: ':' :: (l ++ rest)) = none := by
      simp [pIriRef]
    simp only [e, pSubject, h1, pBlank, pLabel_text h (ho trivial)]
    rfl

theorem term_solid (t : Term) (rest : Str) :
    ∃ c r, t.text ++ rest = c :: r ∧ (c = '<' ∨ c = '_') := by
  cases t with
  | iri i => exact ⟨'<', _, rfl, .inl rfl⟩
  | blank l => exact ⟨'_', _, rfl, .inr rfl⟩

theorem skip_term {g : Str} (hg : Gap g) (t : Term) (rest : Str) :
    skip false (g ++ (t.text ++ rest)) = t.text ++ rest := by
  apply skip_gap_solid hg
  obtain ⟨c, r, e, hc⟩ := term_solid t rest
  rw [e]
  rcases hc with rfl | rfl <;> exact solid_cons (by decide)

theorem pSuffix_none {c : Char} {r : Str} (h1 : c ≠ '@') (h2 : c ≠ '^') :
    pSuffix (c :: r) = (.none, c :: r) := by
  have e1 : pLangTag (c :: r) = none := by
    unfold pLangTag
    split
    · rename_i e; injection e with e _; exact absurd e h1
    · rfl
  simp [pSuffix, e1, stripPrefix, Ne.symm h2]

theorem pObject_text {o : Obj} {g : Gaps} {rest : Str} (h : o.Valid)
    (hg1 : Gap g.beforeSuffix) (hg2 : Gap g.insideType) (ho : o.Open → Sep rest)
    (hrest : ∃ c r, skip false rest = c :: r ∧ c ≠ '@' ∧ c ≠ '^') :
    ∃ r', pObject (o.text g ++ rest) = some (o.raw, r') ∧ skip false r' = skip false rest := by
  cases o with
  | term t =>
    refine ⟨rest, ?_, rfl⟩
    simp only [Obj.text, pObject, pSubject_text h ho]
    rfl
  | lit a x =>
    obtain ⟨ha, hx⟩ := h
    have hs : ∀ s, pSubject ('"' :: s) = none := by
      intro s
      simp [pSubject, pIriRef, pBlank, pLabel, pAnon]
    cases x with
    | none =>
      obtain ⟨c, r, e, h1, h2⟩ := hrest
      refine ⟨skip false rest, ?_, skip_idem _ _⟩
      have et : (Obj.lit a .none).text g ++ rest = '"' :: (a ++ '"' :: rest) := by simp [Obj.text]
      rw [et, pObject, hs, pString_text ha]
      simp only [e, pSuffix_none h1 h2]
      rfl
    | lang t =>
      refine ⟨rest, ?_, rfl⟩
      have et : (Obj.lit a (.lang t)).text g ++ rest =
          '"' :: (a ++ '"' :: (g.beforeSuffix ++ '@' :: (t ++ rest))) := by
        simp [Obj.text, Suffix.text]
      have e2 : skip false (g.beforeSuffix ++ '@' :: (t ++ rest)) = '@' :: (t ++ rest) :=
        skip_gap_solid hg1 (solid_cons (by decide))
      rw [et, pObject, hs, pString_text ha]
      simp only [e2, pSuffix, pLangTag_text hx (ho trivial)]
      rfl
    | type i =>
      refine ⟨rest, ?_, rfl⟩
      have et : (Obj.lit a (.type i)).text g ++ rest =
          '"' :: (a ++ '"' :: (g.beforeSuffix ++ '^' :: '^' :: (g.insideType ++ '<' :: (i ++ '>' :: rest)))) := by
        simp [Obj.text, Suffix.text]
      have e2 : skip false (g.beforeSuffix ++ '^' :: '^' :: (g.insideType ++ '<' :: (i ++ '>' :: rest))) =
          '^' :: '^' :: (g.insideType ++ '<' :: (i ++ '>' :: rest)) :=
        skip_gap_solid hg1 (solid_cons (by decide))
      have e3 : skip false (g.insideType ++ '<' :: (i ++ '>' :: rest)) = '<' :: (i ++ '>' :: rest) :=
        skip_gap_solid hg2 (solid_cons (by decide))
      have e4 : ∀ s, pLangTag ('^' :: s) = none := by intro s; simp [pLangTag]
      rw [et, pObject, hs, pString_text ha]
      simp [e2, pSuffix, e4, stripPrefix, e3, pIriRef_text hx]
      rfl

theorem obj_solid (o : Obj) (g : Gaps) (rest : Str) : Solid (o.text g ++ rest) := by
  cases o with
  | term t =>
    obtain ⟨c, r, e, hc⟩ := term_solid t rest
    simp only [Obj.text, e]
    rcases hc with rfl | rfl <;> exact solid_cons (by decide)
  | lit a x => cases x <;> exact solid_cons (by decide)

/-- What follows the object of a statement. -/
theorem afterO_rest {g : Gaps} {l : Line} (hg : g.Valid l) (rest : Str) :
    ∃ c r, skip false (g.afterO ++ (graphText g l.g ++ '.' :: rest)) = c :: r ∧ c ≠ '@' ∧ c ≠ '^' := by
  rw [skip_gap hg.2.2.1]
  cases l.g with
  | none => exact ⟨'.', rest, skip_solid (solid_cons (by decide)), by decide, by decide⟩
  | some t =>
    obtain ⟨c, r, e, hc⟩ := term_solid t (g.afterG ++ '.' :: rest)
    have e' : graphText g (some t) ++ '.' :: rest = c :: r := by
      rw [← e]; simp [graphText]
    rw [e']
    rcases hc with rfl | rfl <;>
      exact ⟨_, r, skip_solid (solid_cons (by decide)), by decide, by decide⟩

theorem pTerms_text {g : Gaps} {l : Line} (hl : l.Valid) (hg : g.Valid l) (rest : Str) :
    ∃ r', pTerms (l.text g ++ rest) = some ((l.s.raw, l.p, l.o.raw), r') ∧
      skip false r' = skip false (graphText g l.g ++ '.' :: (g.afterEnd ++ rest)) := by
  have e : l.text g ++ rest = l.s.text ++ (g.afterS ++ '<' :: (l.p ++ '>' :: (g.afterP ++
      (l.o.text g ++ (g.afterO ++ (graphText g l.g ++ '.' :: (g.afterEnd ++ rest))))))) := by
    simp [Line.text]
  obtain ⟨h1, h2, h3, _⟩ := hl
  have hg' := hg
  obtain ⟨g1, g2, g3, g4, g5, g6, g7, o1, o2, o3⟩ := hg
  obtain ⟨r', hr, hr2⟩ := pObject_text (o := l.o) (g := g)
    (rest := g.afterO ++ (graphText g l.g ++ '.' :: (g.afterEnd ++ rest))) h3 g5 g6
    (fun ho => sep_gap g3 (o2 ho)) (afterO_rest hg' _)
  refine ⟨r', ?_, by rw [hr2, skip_gap g3]⟩
  rw [e, pTerms, pSubject_text h1 fun ho => sep_gap g1 (o1 ho)]
  simp only [skip_gap_solid g1 (solid_cons (c := '<') (by decide)), pIriRef_text h2,
    skip_gap_solid g2 (obj_solid l.o g _), hr]

theorem pTriple_text {g : Gaps} {l : Line} (hl : l.Valid) (hg : g.Valid l) (hn : l.g = none)
    (rest : Str) : pTriple (l.text g ++ rest) = some (l.raw, g.afterEnd ++ rest) := by
  obtain ⟨r', h1, h2⟩ := pTerms_text hl hg rest
  simp only [hn, graphText, List.nil_append] at h2
  rw [skip_solid (solid_cons (c := '.') (by decide))] at h2
  simp [pTriple, h1, pEnd, h2, Line.raw, hn]

theorem pSubject_dot (s : Str) : pSubject ('.' :: s) = none := by
  simp [pSubject, pIriRef, pBlank, pLabel, pAnon]

theorem pQuad_text {g : Gaps} {l : Line} (hl : l.Valid) (hg : g.Valid l)
    (rest : Str) : pQuad (l.text g ++ rest) = some (l.raw, g.afterEnd ++ rest) := by
  obtain ⟨r', h1, h2⟩ := pTerms_text hl hg rest
  cases hn : l.g with
  | none =>
    simp only [hn, graphText, List.nil_append] at h2
    rw [skip_solid (solid_cons (c := '.') (by decide))] at h2
    simp [pQuad, h1, pEnd, h2, Line.raw, hn, pSubject_dot]
  | some t =>
    obtain ⟨_, _, _, g4, _, _, _, _, _, o3⟩ := hg
    have e : graphText g (some t) ++ '.' :: (g.afterEnd ++ rest) =
        t.text ++ (g.afterG ++ '.' :: (g.afterEnd ++ rest)) := by simp [graphText]
    have e3 := skip_term .nil t (g.afterG ++ '.' :: (g.afterEnd ++ rest))
    rw [List.nil_append] at e3
    rw [hn, e, e3] at h2
    have hv : t.Valid := hl.2.2.2 t (by simp [hn])
    have e2 := pSubject_text (rest := g.afterG ++ '.' :: (g.afterEnd ++ rest)) hv
      fun ho => sep_gap g4 (o3 t (by simp [hn]) ho)
    simp [pQuad, h1, h2, e2, pEnd, skip_gap_solid g4 (solid_cons (c := '.') (by decide)), Line.raw, hn]

theorem pLines_text {p : Str → Option (RLine × Str)} {ok : Line → Prop}
    (hp : ∀ g l rest, ok l → Line.Valid l → Gaps.Valid g l →
      p (l.text g ++ rest) = some (l.raw, g.afterEnd ++ rest))
    (hnil : p [] = none) {last : Str} (hlast : LastGap last) :
    ∀ (ls : List (Gaps × Line)), (∀ x ∈ ls, ok x.2 ∧ x.2.Valid ∧ x.1.Valid x.2) → ∀ n, ls.length ≤ n →
      pLines p n (skip false (linesText ls ++ last)) = (ls.map fun x => x.2.raw, []) := by
  intro ls
  induction ls with
  | nil =>
    intro _ n _
    simp only [linesText, List.nil_append, skip_lastGap hlast, List.map_nil]
    cases n with
    | zero => rfl
    | succ n => simp [pLines, hnil]
  | cons x ls ih =>
    intro h n hn
    obtain ⟨g, l⟩ := x
    obtain ⟨h1, h2, h3⟩ := h (g, l) List.mem_cons_self
    cases n with
    | zero => simp at hn
    | succ n =>
      have hs : skip false (linesText ((g, l) :: ls) ++ last) = l.text g ++ (linesText ls ++ last) := by
        have e : linesText ((g, l) :: ls) ++ last = l.s.text ++ (g.afterS ++ '<' :: (l.p ++ '>' :: (g.afterP ++
            (l.o.text g ++ (g.afterO ++ (graphText g l.g ++ '.' :: (g.afterEnd ++ (linesText ls ++ last)))))))) := by
          simp [Line.text, linesText]
        have := skip_term .nil l.s (g.afterS ++ '<' :: (l.p ++ '>' :: (g.afterP ++
            (l.o.text g ++ (g.afterO ++ (graphText g l.g ++ '.' :: (g.afterEnd ++ (linesText ls ++ last))))))))
        rw [List.nil_append] at this
        rw [e, this]
        simp [Line.text]
      rw [hs, pLines, hp g l _ h1 h2 h3]
      simp only [skip_gap h3.2.2.2.2.2.2.1]
      rw [ih (fun x hx => h x (List.mem_cons_of_mem _ hx)) n (by simpa using hn)]
      rfl

theorem linesText_length (ls : List (Gaps × Line)) : ls.length ≤ (linesText ls).length := by
  induction ls with
  | nil => simp
  | cons x ls ih =>
    have : 1 ≤ (x.2.text x.1).length := by simp [Line.text]; omega
    simp only [linesText, List.length_append, List.length_cons]
    omega

theorem pDoc_text {p : Str → Option (RLine × Str)} {ok : Line → Prop}
    (hp : ∀ g l rest, ok l → Line.Valid l → Gaps.Valid g l →
      p (l.text g ++ rest) = some (l.raw, g.afterEnd ++ rest))
    (hnil : p [] = none) {first last : Str} (hfirst : Gap first) (hlast : LastGap last)
    (ls : List (Gaps × Line)) (h : ∀ x ∈ ls, ok x.2 ∧ x.2.Valid ∧ x.1.Valid x.2) :
    pDoc p (first ++ (linesText ls ++ last)) = some (ls.map fun x => x.2.raw) := by
  have := pLines_text hp hnil hlast ls h (first ++ (linesText ls ++ last)).length (by
    have := linesText_length ls
    simp only [List.length_append]
    omega)
  simp only [pDoc, skip_gap hfirst, this]

theorem pDoc_triples {first last : Str} (hfirst : Gap first) (hlast : LastGap last)
    (ls : List (Gaps × Line)) (h : ∀ x ∈ ls, x.2.g = none ∧ x.2.Valid ∧ x.1.Valid x.2) :
    pDoc pTriple (first ++ (linesText ls ++ last)) = some (ls.map fun x => x.2.raw) :=
  pDoc_text (ok := fun l => l.g = none) (fun _ _ rest h1 h2 h3 => pTriple_text h2 h3 h1 rest)
    (by simp [pTriple, pTerms, pSubject, pIriRef, pBlank, pLabel, pAnon]) hfirst hlast ls h

theorem pDoc_quads {first last : Str} (hfirst : Gap first) (hlast : LastGap last)
    (ls : List (Gaps × Line)) (h : ∀ x ∈ ls, x.2.Valid ∧ x.1.Valid x.2) :
    pDoc pQuad (first ++ (linesText ls ++ last)) = some (ls.map fun x => x.2.raw) :=
  pDoc_text (ok := fun _ => True) (fun _ _ rest _ h2 h3 => pQuad_text h2 h3 rest)
    (by simp [pQuad, pTerms, pSubject, pIriRef, pBlank, pLabel, pAnon]) hfirst hlast ls
    fun x hx => ⟨trivial, h x hx⟩

end Rdftk
