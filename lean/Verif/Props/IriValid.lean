import Verif.Props.IriEdit
import Verif.Spec.IriValid

/-! Properties C61 and C99: what is encoded in fragments and paths, and whether that is enough. -/

namespace Rdftk

open Spec

/-- C61: the characters encoded in fragments and in paths are those of the URL standard. -/
theorem C61_sets (c : Char) :
    (isFragEscaped c = true ↔ fragmentSet c.toNat) ∧ (isPathEscaped c = true ↔ pathSet c.toNat) := by
  have key : ∀ d : Char, c = d ↔ c.toNat = d.toNat := fun d =>
    ⟨fun h => by rw [h], fun h => by
      have := congrArg Char.ofNat h
      simpa using this⟩
  have h1 : isFragEscaped c = true ↔ fragmentSet c.toNat := by
    simp only [isFragEscaped, isCtlOrNonAscii, fragmentSet, Bool.or_eq_true, decide_eq_true_eq, beq_iff_eq, key]
    simp only [show ' '.toNat = 0x20 from rfl, show '"'.toNat = 0x22 from rfl, show '<'.toNat = 0x3C from rfl,
      show '>'.toNat = 0x3E from rfl, show '`'.toNat = 0x60 from rfl]
    omega
  refine ⟨h1, ?_⟩
  simp only [isPathEscaped, pathSet, Bool.or_eq_true, h1, beq_iff_eq, key]
  simp only [show '#'.toNat = 0x23 from rfl, show '?'.toNat = 0x3F from rfl, show '{'.toNat = 0x7B from rfl,
    show '}'.toNat = 0x7D from rfl]
  constructor
  · rintro ((((h | h) | h) | h) | h) <;> simp [h]
  · rintro (h | h | h | h | h) <;> simp [h]

/-- C61: so are those encoded in opaque paths. -/
theorem C61_opaque (c : Char) : isCtlOrNonAscii c = true ↔ controlSet c.toNat := by
  simp only [isCtlOrNonAscii, controlSet, Bool.or_eq_true, decide_eq_true_eq]
  omega

theorem pctText_plain {ok : Char → Bool} {c : Char} (hc : c ≠ '%') (s : Str) :
    pctText ok (c :: s) = (ok c && pctText ok s) := by
  have h := pctText.eq_3 ok c s fun a b t h => absurd h hc
  rw [h, bne_iff_ne.2 hc, Bool.true_and]

theorem pctText_bytes {ok : Char → Bool} (bs : List Nat) (hb : ∀ b ∈ bs, b < 256) (s : Str) :
    pctText ok (bs.flatMap pctByte ++ s) = pctText ok s := by
  have hex : ∀ n < 16, isHexOf (hexUpper n) = true := by decide
  induction bs with
  | nil => rfl
  | cons b bs ih =>
    have h1 := hb b (List.mem_cons_self ..)
    simp only [List.flatMap_cons, pctByte, List.cons_append, List.nil_append, List.append_assoc]
    rw [pctText, hex _ (by omega), hex _ (by omega)]
    simpa [pctByte] using ih fun b hb' => hb b (List.mem_cons_of_mem _ hb')

/-- Encoding makes of a text one of the grammar exactly when all characters that it leaves are in
the grammar. -/
theorem pctText_encode {ok esc : Char → Bool} (he : esc '%' = false) (hx : ∀ c, isHexOf c = true → esc c = false)
    (s : Str) : pctText ok (pctEncode esc s) = pctText (fun c => esc c || ok c) s := by
  have main : ∀ n, ∀ s : Str, s.length ≤ n → pctText ok (pctEncode esc s) = pctText (fun c => esc c || ok c) s := by
    intro n
    induction n with
    | zero => intro s h; cases s with
      | nil => rfl
      | cons => cases h
    | succ n ih =>
      intro s h
      cases s with
      | nil => rfl
      | cons c s =>
        simp only [List.length_cons] at h
        by_cases hc : c = '%'
        · subst hc
          have e1 : pctEncode esc ('%' :: s) = '%' :: pctEncode esc s := by simp [pctEncode, he]
          rw [e1]
          have first : ∀ (d : Char) (t : Str), isHexOf d = false → ∃ d' t', pctEncode esc (d :: t) = d' :: t' ∧ isHexOf d' = false := by
            intro d t hd
            unfold pctEncode
            rw [List.flatMap_cons]
            by_cases hd' : esc d = true
            · rw [if_pos hd', pctChar]
              cases hb : utf8Bytes d.toNat with
              | nil => exact absurd hb (utf8Bytes_ne_nil _)
              | cons b bs => exact ⟨'%', _, rfl, by decide⟩
            · rw [if_neg hd']
              exact ⟨d, _, rfl, hd⟩
          have keep : ∀ (d : Char) (t : Str), isHexOf d = true → pctEncode esc (d :: t) = d :: pctEncode esc t := by
            intro d t hd
            simp [pctEncode, hx d hd]
          have nil : pctEncode esc [] = [] := rfl
          cases s with
          | nil => rfl
          | cons a s =>
            by_cases ha : isHexOf a = true
            · rw [keep a s ha]
              cases s with
              | nil => simp [pctText, nil]
              | cons b s =>
                by_cases hb : isHexOf b = true
                · rw [keep b s hb, pctText, pctText, ih s (by simp only [List.length_cons] at h; omega)]
                · obtain ⟨d, t, e, hd⟩ := first b s (by simpa using hb)
                  rw [e, pctText, pctText, hd, Bool.eq_false_iff.2 hb]
                  simp
            · obtain ⟨d, t, e, hd⟩ := first a s (by simpa using ha)
              rw [e]
              have l : ∀ (ok : Char → Bool) (x : Char) (y : Str), isHexOf x = false → pctText ok ('%' :: x :: y) = false := by
                intro ok x y hx
                cases y with
                | nil => simp [pctText]
                | cons z y => rw [pctText, hx]; rfl
              rw [l _ _ _ hd, l _ _ _ (by simpa using ha)]
        · rw [pctText_plain hc, ← ih s (by omega)]
          have e1 : pctEncode esc (c :: s) = (if esc c then pctChar c else [c]) ++ pctEncode esc s := by
            simp [pctEncode]
          rw [e1]
          by_cases hc' : esc c = true
          · rw [if_pos hc', hc', pctChar, pctText_bytes _ (utf8Bytes_eq c).2]
            simp
          · rw [if_neg hc', List.cons_append, List.nil_append, pctText_plain hc, Bool.eq_false_iff.2 hc']
            simp
  exact main _ s (Nat.le_refl _)

/-- C99: an IRI whose fragment or path is replaced has a fragment and a path by the grammar. -/
def C99_statement : Prop :=
  ∀ (i : Iri) (f p : Str), i.wf = true → i.isOpaque = false → (∃ t, p = '/' :: t) →
    isFragmentText (((i.withNewFragment f).fragment).getD []) = true ∧
    ((stripPrefix ['/', '/'] i.path = none → stripPrefix ['/', '/'] p = none) →
      isPathText (i.withNewPath p).path = true)

/-- A percent sign stands before two hexadecimal digits, and no character satisfies the predicate. -/
def pctFree (bad : Char → Bool) : Str → Bool := pctText fun c => !bad c

theorem esc_hex : ∀ c, isHexOf c = true → isFragEscaped c = false ∧ isPathEscaped c = false := by
  intro c h
  have h1 := C61_sets c
  have hn : (0x41 ≤ c.toNat ∧ c.toNat ≤ 0x46) ∨ (0x61 ≤ c.toNat ∧ c.toNat ≤ 0x66) ∨ (0x30 ≤ c.toNat ∧ c.toNat ≤ 0x39) := by
    simp only [isHexOf, Bool.or_eq_true, Bool.and_eq_true, decide_eq_true_eq] at h
    omega
  constructor
  · rw [Bool.eq_false_iff]
    intro e
    have := h1.1.1 e
    unfold fragmentSet at this
    omega
  · rw [Bool.eq_false_iff]
    intro e
    have := h1.2.1 e
    unfold pathSet fragmentSet at this
    omega

theorem pctText_congr {ok ok' : Char → Bool} (h : ∀ c, c ≠ '%' → ok c = ok' c) (s : Str) : pctText ok s = pctText ok' s := by
  have main : ∀ n, ∀ s : Str, s.length ≤ n → pctText ok s = pctText ok' s := by
    intro n
    induction n with
    | zero => intro s hs; cases s with
      | nil => rfl
      | cons => cases hs
    | succ n ih =>
      intro s hs
      cases s with
      | nil => rfl
      | cons c s =>
        simp only [List.length_cons] at hs
        by_cases hc : c = '%'
        · subst hc
          cases s with
          | nil => rfl
          | cons a s =>
            cases s with
            | nil => simp [pctText]
            | cons b s =>
              simp only [List.length_cons] at hs
              rw [pctText, pctText, ih s (by omega)]
        · rw [pctText_plain hc, pctText_plain hc, h c hc, ih s (by omega)]
  exact main _ s (Nat.le_refl _)

theorem char_cases {P : Char → Prop} (hi : ∀ c : Char, 0x7F ≤ c.toNat → P c) (lo : ∀ n < 0x7F, P (Char.ofNat n)) : ∀ c, P c := by
  intro c
  by_cases h : c.toNat < 0x7F
  · have := lo c.toNat h
    rwa [Char.ofNat_toNat] at this
  · exact hi c (by omega)

/-- C99: the fragment is by the grammar exactly when the given text has percent signs only before
two hexadecimal digits and none of the characters `# [ ] ^ { | }` and the backslash. -/
theorem C99_fragment_iff (i : Iri) (f : Str) :
    isFragmentText (((i.withNewFragment f).fragment).getD []) =
      pctFree (fun c => isUnwise c || c == '#' || c == '{' || c == '}') f := by
  rw [(withNewFragment_spec i f).2.2.2]
  show pctText _ (pctEncode isFragEscaped f) = _
  rw [pctText_encode (by decide) fun c h => (esc_hex c h).1]
  refine pctText_congr (fun c => ?_) f
  refine char_cases (P := fun c => c ≠ '%' → (isFragEscaped c || (isPchar c || c == '/' || c == '?')) =
    !(isUnwise c || c == '#' || c == '{' || c == '}')) (fun c hc _ => ?_) (by decide) c
  have h1 : isFragEscaped c = true := (C61_sets c).1.2 (by unfold fragmentSet; omega)
  have ne : ∀ d : Char, d.toNat < 0x7F → (c == d) = false := fun d hd => by
    rw [beq_eq_false_iff_ne]
    intro e
    rw [e] at hc
    omega
  have h2 : isUnwise c = false := by
    simp only [isUnwise, List.contains_cons, ne _ (show '['.toNat < 0x7F by decide), ne _ (show ']'.toNat < 0x7F by decide),
      ne _ (show '^'.toNat < 0x7F by decide), ne _ (show '|'.toNat < 0x7F by decide),
      ne _ (show '\\'.toNat < 0x7F by decide), List.contains_nil, Bool.or_false]
  rw [h1, h2, ne '#' (by decide), ne '{' (by decide), ne '}' (by decide)]
  rfl

/-- C99: the path of a hierarchical IRI is by the grammar exactly when the given text has percent
signs only before two hexadecimal digits and none of the characters `[ ] ^ |` and the backslash. -/
theorem C99_path_iff (i : Iri) (hw : i.wf = true) (ho : i.isOpaque = false) (p : Str) (h1 : ∃ t, p = '/' :: t)
    (h2 : stripPrefix ['/', '/'] i.path = none → stripPrefix ['/', '/'] p = none) :
    isPathText (i.withNewPath p).path = pctFree isUnwise p := by
  rw [(C60_path i hw ho p h1 h2).2.1]
  show pctText _ (pctEncode isPathEscaped p) = _
  rw [pctText_encode (by decide) fun c h => (esc_hex c h).2]
  refine pctText_congr (fun c => ?_) p
  refine char_cases (P := fun c => c ≠ '%' → (isPathEscaped c || (isPchar c || c == '/')) = !isUnwise c)
    (fun c hc _ => ?_) (by decide) c
  have h1 : isPathEscaped c = true := (C61_sets c).2.2 (by unfold pathSet fragmentSet; omega)
  have ne : ∀ d : Char, d.toNat < 0x7F → (c == d) = false := fun d hd => by
    rw [beq_eq_false_iff_ne]
    intro e
    rw [e] at hc
    omega
  have h2 : isUnwise c = false := by
    simp only [isUnwise, List.contains_cons, ne _ (show '['.toNat < 0x7F by decide), ne _ (show ']'.toNat < 0x7F by decide),
      ne _ (show '^'.toNat < 0x7F by decide), ne _ (show '|'.toNat < 0x7F by decide),
      ne _ (show '\\'.toNat < 0x7F by decide), List.contains_nil, Bool.or_false]
  rw [h1, h2]
  rfl

/-- C99 fails: a brace in a fragment is left as it is. -/
theorem C99_fails : ¬C99_statement := fun h => by
  have := (h ⟨str! "http://h/p"⟩ (str! "{") (str! "/") (by decide) (by decide) ⟨_, rfl⟩).1
  rw [C99_fragment_iff] at this
  exact absurd this (by decide)

/-- C99 fails: a percent sign alone is left as it is. -/
theorem C99_fails_percent : ¬C99_statement := fun h => by
  have := (h ⟨str! "http://h/p"⟩ (str! "100%") (str! "/") (by decide) (by decide) ⟨_, rfl⟩).1
  rw [C99_fragment_iff] at this
  exact absurd this (by decide)

/-- C99 fails: a bracket in a path is left as it is. -/
theorem C99_fails_path : ¬C99_statement := fun h => by
  have := (h ⟨str! "http://h/p"⟩ [] (str! "/[") (by decide) (by decide) ⟨_, rfl⟩).2 (fun _ => by decide)
  rw [C99_path_iff _ (by decide) (by decide) _ ⟨_, rfl⟩ (fun _ => by decide)] at this
  exact absurd this (by decide)

example : pctFree (fun c => isUnwise c || c == '#' || c == '{' || c == '}') (str! "a é%41/?\"") = true ∧
    isFragmentText (pctEncode isFragEscaped (str! "a é%41/?\"")) = true := by decide

end Rdftk
