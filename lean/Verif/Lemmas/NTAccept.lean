import Verif.Spec.NTAccept
import Verif.Lemmas.NTEval

/-! Every text that is matched has the form of `Spec/NTAccept.lean`. -/

namespace Rdftk

open Spec

theorem lastGap_of {g : Str} (h : Gap g) : LastGap g := ⟨g, [], h, by simp, .inl rfl⟩

theorem isNewline_iff (c : Char) : isNewline c = true ↔ c ∈ (str! "\r\n") := by
  simp [isNewline]

theorem newline_ws {c : Char} (h : c ∈ (str! "\r\n")) : c ∈ (str! " \t\r\n") := by
  simp at h ⊢; grind

/-- What is skipped is a gap, or all that is left. -/
theorem skip_inv (b : Bool) (s : Str) :
    (b = false → (∃ g, Gap g ∧ s = g ++ skip false s) ∨ (skip false s = [] ∧ LastGap s)) ∧
    (b = true → (∃ a nl g, '\r' ∉ a ∧ '\n' ∉ a ∧ nl ∈ (str! "\r\n") ∧ Gap g ∧ s = a ++ nl :: (g ++ skip true s)) ∨
      (skip true s = [] ∧ ((∃ a nl g, '\r' ∉ a ∧ '\n' ∉ a ∧ nl ∈ (str! "\r\n") ∧ LastGap g ∧ s = a ++ nl :: g) ∨
        ('\r' ∉ s ∧ '\n' ∉ s)))) := by
  induction s generalizing b with
  | nil =>
    refine ⟨fun _ => .inl ⟨[], .nil, rfl⟩, fun _ => .inr ⟨rfl, .inr (by simp)⟩⟩
  | cons c s ih =>
    constructor
    · rintro rfl
      by_cases hw : isWs c = true
      · have e : skip false (c :: s) = skip false s := by simp [skip, hw]
        rw [e]
        rcases (ih false).1 rfl with ⟨g, hg, h⟩ | ⟨h, g, d, hg, h', hd⟩
        · refine .inl ⟨c :: g, .ws ((isWs_iff c).1 hw) hg, ?_⟩
          conv => lhs; rw [h]
          rfl
        · exact .inr ⟨h, c :: g, d, .ws ((isWs_iff c).1 hw) hg, by simp [h'], hd⟩
      · by_cases hc : c = '#'
        · subst hc
          have e : skip false ('#' :: s) = skip true s := by simp [skip, hw]
          rw [e]
          rcases (ih true).2 rfl with ⟨a, nl, g, h1, h2, h3, hg, h⟩ | ⟨h, ⟨a, nl, g, h1, h2, h3, ⟨g', d, hg', hgd, hd⟩, h'⟩ | h'⟩
          · refine .inl ⟨'#' :: (a ++ nl :: g), .comment h1 h2 h3 hg, ?_⟩
            conv => lhs; rw [h]
            simp
          · exact .inr ⟨h, '#' :: (a ++ nl :: g'), d, .comment h1 h2 h3 hg', by simp [h', hgd], hd⟩
          · exact .inr ⟨h, [], '#' :: s, .nil, rfl, .inr ⟨s, h'.1, h'.2, rfl⟩⟩
        · have e : skip false (c :: s) = c :: s := by simp [skip, hw, hc]
          rw [e]
          exact .inl ⟨[], .nil, rfl⟩
    · rintro rfl
      by_cases hn : isNewline c = true
      · have e : skip true (c :: s) = skip false s := by simp [skip, hn]
        rw [e]
        rcases (ih false).1 rfl with ⟨g, hg, h⟩ | ⟨h, hl⟩
        · refine .inl ⟨[], c, g, by simp, by simp, (isNewline_iff c).1 hn, hg, ?_⟩
          conv => lhs; rw [h]
          rfl
        · exact .inr ⟨h, .inl ⟨[], c, s, by simp, by simp, (isNewline_iff c).1 hn, hl, rfl⟩⟩
      · have e : skip true (c :: s) = skip true s := by simp [skip, hn]
        rw [e]
        have hc : '\r' ≠ c ∧ '\n' ≠ c := by
          constructor
          · rintro rfl; exact hn rfl
          · rintro rfl; exact hn rfl
        rcases (ih true).2 rfl with ⟨a, nl, g, h1, h2, h3, hg, h⟩ | ⟨h, ⟨a, nl, g, h1, h2, h3, hg, h'⟩ | h'⟩
        · refine .inl ⟨c :: a, nl, g, by simp [h1, hc], by simp [h2, hc], h3, hg, ?_⟩
          conv => lhs; rw [h]
          rfl
        · exact .inr ⟨h, .inl ⟨c :: a, nl, g, by simp [h1, hc], by simp [h2, hc], h3, hg, by simp [h']⟩⟩
        · exact .inr ⟨h, .inr ⟨by simp [h'.1, hc], by simp [h'.2, hc]⟩⟩

theorem skip_some {s : Str} {c : Char} {r : Str} (h : skip false s = c :: r) : ∃ g, Gap g ∧ s = g ++ c :: r := by
  rcases (skip_inv false s).1 rfl with ⟨g, hg, e⟩ | ⟨e, -⟩
  · exact ⟨g, hg, by rw [← h]; exact e⟩
  · rw [h] at e; cases e

theorem skip_none {s : Str} (h : skip false s = []) : LastGap s := by
  rcases (skip_inv false s).1 rfl with ⟨g, hg, e⟩ | ⟨-, e⟩
  · rw [h, List.append_nil] at e; exact e ▸ lastGap_of hg
  · exact e

/-- A repetition matches a sequence of what its step matches. -/
theorem rep_inv {step : Str → Option Nat} {P : Str → Prop}
    (hstep : ∀ s n, step s = some n → ∃ t r, P t ∧ s = t ++ r ∧ n = t.length ∧ t ≠ []) (s : Str) :
    Tokens P (rep step 0 s).1 := by
  generalize hn : s.length = n
  induction n using Nat.strongRecOn generalizing s with
  | _ n ih =>
    cases s with
    | nil => exact ⟨[], by simp, rfl⟩
    | cons c s =>
      cases h : step (c :: s) with
      | none => rw [rep_stop h]; exact ⟨[], by simp, rfl⟩
      | some k =>
        obtain ⟨t, r, hp, e, rfl, hne⟩ := hstep _ _ h
        cases t with
        | nil => exact absurd rfl hne
        | cons d t =>
          have h' : step (d :: t ++ r) = some (d :: t).length := by rw [← e]; exact h
          rw [e, rep_step h']
          obtain ⟨ts, hts, h2⟩ := ih r.length (by
            rw [← hn, e]; simp; omega) r rfl
          refine ⟨(d :: t) :: ts, ?_, by simp [h2]⟩
          intro x hx
          rcases List.mem_cons.1 hx with rfl | hx
          · exact hp
          · exact hts x hx

theorem iriCharLen_inv {s : Str} {n : Nat} (h : iriCharLen s = some n) :
    ∃ t r, ((∃ c, (IriPlain c ∨ c = '<') ∧ t = [c]) ∨ Uchar t) ∧ s = t ++ r ∧ n = t.length ∧ t ≠ [] := by
  cases s with
  | nil => cases h
  | cons c s =>
    simp only [iriCharLen] at h
    by_cases hc : iriExcluded c = true
    · rw [if_pos hc] at h
      obtain ⟨ds, t, r, hu, e, hn⟩ := ucharLen_some h
      obtain ⟨a, ha⟩ := uchar_head hu
      exact ⟨t, r, .inr ⟨ds, hu⟩, e, hn, by simp [ha]⟩
    · rw [if_neg hc] at h
      refine ⟨[c], s, .inl ⟨c, ?_, rfl⟩, rfl, (Option.some.inj h).symm, by simp⟩
      by_cases hl : c = '<'
      · exact .inr hl
      · exact .inl ((iriPlain_iff c).1 ⟨by simpa using hc, hl⟩)

theorem pIriRef_inv {s i r : Str} (h : pIriRef s = some (i, r)) :
    LooseIri i ∧ s = '<' :: (i ++ ['>']) ++ r := by
  refine ⟨?_, by rw [pIriRef_join h]; simp⟩
  unfold pIriRef at h
  split at h
  · rename_i s'
    have := rep_inv (step := iriCharLen) (fun _ _ => iriCharLen_inv) s'
    split at h
    · rename_i a r' e
      simp only [Option.some.injEq, Prod.mk.injEq] at h
      rw [e] at this
      rw [← h.1]
      exact this
    · cases h
  · cases h

theorem echarLen_inv {s : Str} {n : Nat} (h : echarLen s = some n) :
    ∃ t r, Echar t ∧ s = t ++ r ∧ n = t.length ∧ t ≠ [] := by
  unfold echarLen at h
  split at h
  · rename_i c r
    split at h
    · rename_i hc
      exact ⟨['\\', c], r, ⟨c, hc, rfl⟩, rfl, (Option.some.inj h).symm, by simp⟩
    · cases h
  · cases h

theorem quoteCharLen_inv {s : Str} {n : Nat} (h : quoteCharLen s = some n) :
    ∃ t r, ((∃ c, c ∉ (str! "\"\\\n\r") ∧ t = [c]) ∨ Uchar t ∨ Echar t) ∧ s = t ++ r ∧ n = t.length ∧ t ≠ [] := by
  cases s with
  | nil => cases h
  | cons c s =>
    simp only [quoteCharLen] at h
    by_cases hc : c ∈ (str! "\"\\\r\n")
    · rw [if_pos hc] at h
      cases hu : ucharLen (c :: s) with
      | some k =>
        obtain ⟨ds, t, r, hu', e, hn⟩ := ucharLen_some hu
        rw [hu] at h
        obtain rfl := Option.some.inj h
        obtain ⟨a, ha⟩ := uchar_head hu'
        exact ⟨t, r, .inr (.inl ⟨ds, hu'⟩), e, hn, by simp [ha]⟩
      | none =>
        rw [hu] at h
        obtain ⟨t, r, h1, h2⟩ := echarLen_inv h
        exact ⟨t, r, .inr (.inr h1), h2⟩
    · rw [if_neg hc] at h
      refine ⟨[c], s, .inl ⟨c, ?_, rfl⟩, rfl, (Option.some.inj h).symm, by simp⟩
      simp at hc ⊢
      grind

theorem pString_inv {s a r : Str} (h : pString s = some (a, r)) : QuoteText a ∧ s = '"' :: (a ++ '"' :: r) := by
  unfold pString at h
  split at h
  · rename_i s'
    have h1 := rep_inv (step := quoteCharLen) (fun _ _ => quoteCharLen_inv) s'
    have h2 := rep_join quoteCharLen 0 s'
    split at h
    · rename_i a' r' e
      simp only [Option.some.injEq, Prod.mk.injEq] at h
      obtain ⟨rfl, rfl⟩ := h
      rw [e] at h1 h2
      exact ⟨h1, by simp at h2; rw [h2]⟩
    · cases h
  · cases h

theorem tailOk_rep (s : Str) : tailOk (rep labelTailLen 0 s).1 = true := by
  induction s with
  | nil => rfl
  | cons c s ih =>
    cases h : labelTailLen (c :: s) with
    | none => rw [rep_stop h]; rfl
    | some n =>
      have hn : n = 1 ∧ (isPnChars c = true ∨ (c = '.' ∧ ∃ d s', s = d :: s' ∧ isPnChars d = true)) := by
        simp only [labelTailLen] at h
        split at h
        · exact ⟨(Option.some.inj h).symm, .inl ‹_›⟩
        · split at h
          · rename_i hdot
            split at h
            · split at h
              · exact ⟨(Option.some.inj h).symm, .inr ⟨hdot, _, _, rfl, ‹_›⟩⟩
              · cases h
            · cases h
          · cases h
      obtain ⟨rfl, hc⟩ := hn
      have e : rep labelTailLen 0 (c :: s) = (c :: (rep labelTailLen 0 s).1, (rep labelTailLen 0 s).2) := by
        simp [rep, h]
      rw [e]
      rcases hc with hc | ⟨rfl, d, s', rfl, hd⟩
      · cases hr : (rep labelTailLen 0 s).1 with
        | nil => simp [tailOk, hc]
        | cons x xs => rw [hr] at ih; simp [tailOk, hc, ih]
      · have hs : labelTailLen (d :: s') = some 1 := by simp [labelTailLen, hd]
        have e' : (rep labelTailLen 0 (d :: s')).1 = d :: (rep labelTailLen 0 s').1 := by simp [rep, hs]
        rw [e'] at ih ⊢
        simp [tailOk, hd, ih]

theorem label_of_tailOk {c : Char} {a : Str} (hc : (isPnCharsU c || isAsciiDigit c) = true)
    (h : tailOk a = true) : Label (c :: a) := by
  have hc' : PN_CHARS_U c ∨ Digit c := by
    rw [← isPnCharsU_iff, ← isAsciiDigit_iff]; simpa using hc
  have hdot : c ≠ '.' := by rintro rfl; revert hc; decide
  have key : ∀ a : Str, tailOk a = true → (∀ x ∈ a, PN_CHARS x ∨ x = '.') ∧
      (∀ l ∈ a.getLast?, PN_CHARS l) ∧ SingleDots a := by
    intro a
    induction a with
    | nil => intro _; exact ⟨by simp, by simp, fun x y => by simp⟩
    | cons d a ih =>
      intro h
      cases a with
      | nil =>
        simp only [tailOk] at h
        have hd := (isPnChars_iff d).1 h
        refine ⟨by simp [hd], by simp [hd], fun x y => ?_⟩
        intro e
        have := congrArg List.length e
        simp at this
        omega
      | cons f a =>
        simp only [tailOk, Bool.and_eq_true, Bool.or_eq_true, beq_iff_eq] at h
        obtain ⟨h1, h2⟩ := h
        obtain ⟨i1, i2, i3⟩ := ih h2
        refine ⟨?_, by simpa using i2, ?_⟩
        · intro x hx
          rcases List.mem_cons.1 hx with rfl | hx
          · rcases h1 with h1 | ⟨h1, -⟩
            · exact .inl ((isPnChars_iff x).1 h1)
            · exact .inr h1
          · exact i1 x hx
        · intro x y e
          cases x with
          | nil =>
            simp only [List.nil_append, List.cons.injEq] at e
            obtain ⟨rfl, rfl, -⟩ := e
            have : isPnChars '.' = false := by decide
            simp [this] at h1
          | cons z x =>
            simp only [List.cons_append, List.cons.injEq] at e
            exact i3 x y e.2
  obtain ⟨k1, k2, k3⟩ := key a h
  refine ⟨⟨c, hc', ?_⟩, ?_⟩
  · rcases List.eq_nil_or_concat a with rfl | ⟨m, l, rfl⟩
    · exact .inl rfl
    · refine .inr ⟨m, l, by simp, fun x hx => k1 x (by simp [hx]), k2 l (by simp)⟩
  · intro x y e
    cases x with
    | nil =>
      simp only [List.nil_append, List.cons.injEq] at e
      exact hdot e.1
    | cons z x =>
      simp only [List.cons_append, List.cons.injEq] at e
      exact k3 x y e.2

theorem pLabel_inv {s b r : Str} (h : pLabel s = some (b, r)) :
    (∃ l, Label l ∧ b = '_' :: ':' :: l) ∧ s = b ++ r := by
  unfold pLabel at h
  split at h
  · rename_i c s'
    split at h
    · rename_i hc
      simp only [Option.some.injEq, Prod.mk.injEq] at h
      obtain ⟨rfl, rfl⟩ := h
      refine ⟨⟨_, label_of_tailOk hc (tailOk_rep s'), rfl⟩, ?_⟩
      simp [rep_join labelTailLen 0 s']
    · cases h
  · cases h

theorem pAnon_inv {s b r : Str} (h : pAnon s = some (b, r)) :
    (∃ g, Gap g ∧ b = '[' :: (g ++ [']'])) ∧ s = b ++ r := by
  unfold pAnon at h
  split at h
  · rename_i s'
    split at h
    · rename_i r' e
      simp only [Option.some.injEq, Prod.mk.injEq] at h
      obtain ⟨rfl, rfl⟩ := h
      obtain ⟨g, hg, rfl⟩ := skip_some e
      have : (g ++ ']' :: r').take ((g ++ ']' :: r').length - r'.length) = g ++ [']'] := by
        have : (g ++ ']' :: r').length - r'.length = (g ++ [']']).length := by simp; omega
        rw [this, show g ++ ']' :: r' = (g ++ [']']) ++ r' by simp, List.take_left]
      rw [this]
      exact ⟨⟨g, hg, rfl⟩, by simp⟩
    · cases h
  · cases h

theorem pSubject_inv {s r : Str} {n : RNode} (h : pSubject s = some (n, r)) :
    ∃ t, NodeText n t ∧ s = t ++ r := by
  unfold pSubject at h
  split at h
  · rename_i i r' e
    simp only [Option.some.injEq, Prod.mk.injEq] at h
    obtain ⟨rfl, rfl⟩ := h
    obtain ⟨h1, h2⟩ := pIriRef_inv e
    exact ⟨_, ⟨h1, rfl⟩, h2⟩
  · simp only [Option.map_eq_some_iff, Prod.mk.injEq] at h
    obtain ⟨⟨b, r'⟩, h1, h2, h3⟩ := h
    subst h2 h3
    unfold pBlank at h1
    cases hl : pLabel s with
    | some x =>
      rw [hl] at h1
      obtain rfl := Option.some.inj h1
      obtain ⟨h2, h3⟩ := pLabel_inv hl
      exact ⟨b, ⟨rfl, .inl h2⟩, h3⟩
    | none =>
      rw [hl] at h1
      obtain ⟨h2, h3⟩ := pAnon_inv h1
      exact ⟨b, ⟨rfl, .inr h2⟩, h3⟩

theorem takeWhile_mem {p : Char → Bool} {s : Str} {c : Char} (h : c ∈ s.takeWhile p) : p c = true :=
  List.all_eq_true.1 (List.all_takeWhile (p := p) (l := s)) c h

theorem pLangTag_inv {s t r : Str} (h : pLangTag s = some (t, r)) : LangTag t ∧ s = '@' :: t ++ r := by
  unfold pLangTag at h
  split at h
  · rename_i s'
    dsimp only at h
    split at h
    · cases h
    · rename_i hne
      simp only [Option.some.injEq, Prod.mk.injEq] at h
      obtain ⟨rfl, rfl⟩ := h
      have h1 := rep_inv (step := subTagLen)
        (P := fun t => ∃ u, t = '-' :: u ∧ u ≠ [] ∧ ∀ c ∈ u, Alnum c) (by
          intro s n h
          unfold subTagLen at h
          split at h
          · rename_i s
            split at h
            · cases h
            · rename_i hu
              refine ⟨'-' :: s.takeWhile isAsciiAlnum, s.dropWhile isAsciiAlnum, ⟨_, rfl, ?_, ?_⟩, ?_, ?_, by simp⟩
              · simpa using hu
              · intro c hc
                exact (isAsciiAlnum_iff c).1 (takeWhile_mem hc)
              · simp
              · simpa using (Option.some.inj h).symm
          · cases h) (s'.dropWhile isAsciiAlpha)
      obtain ⟨ts, hts, e⟩ := h1
      refine ⟨⟨s'.takeWhile isAsciiAlpha, ts.map List.tail, ?_, by simpa using hne, ?_, ?_⟩, ?_⟩
      · rw [e, List.flatMap_map]
        congr 1
        clear e
        induction ts with
        | nil => rfl
        | cons t ts ih =>
          obtain ⟨u, rfl, -⟩ := hts t List.mem_cons_self
          simp [ih fun x hx => hts x (List.mem_cons_of_mem _ hx)]
      · intro c hc
        exact (isAsciiAlpha_iff c).1 (takeWhile_mem hc)
      · intro t ht
        obtain ⟨t', ht', rfl⟩ := List.mem_map.1 ht
        obtain ⟨u, rfl, h2, h3⟩ := hts t' ht'
        exact ⟨h2, h3⟩
      · have := rep_join subTagLen 0 (s'.dropWhile isAsciiAlpha)
        simp only [List.cons_append, List.append_assoc, this, List.takeWhile_append_dropWhile]
  · cases h

theorem pObject_inv {s r : Str} {o : RObject} (h : pObject s = some (o, r)) (hr : ∃ c r', skip false r = c :: r') :
    ∃ t g r', ObjectText o t ∧ Gap g ∧ s = t ++ g ++ r' ∧ skip false r = skip false r' ∧ (r' = r ∨ r' = skip false r) := by
  unfold pObject at h
  split at h
  · rename_i n r' e
    simp only [Option.some.injEq, Prod.mk.injEq] at h
    obtain ⟨rfl, rfl⟩ := h
    obtain ⟨t, h1, h2⟩ := pSubject_inv e
    exact ⟨t, [], r', h1, .nil, by simp [h2], rfl, .inl rfl⟩
  · split at h
    · rename_i a r' e
      dsimp only at h
      simp only [Option.some.injEq, Prod.mk.injEq] at h
      obtain ⟨rfl, rfl⟩ := h
      obtain ⟨h1, rfl⟩ := pString_inv e
      have hsuf : (pSuffix (skip false r')).1 = .none ∧ (pSuffix (skip false r')).2 = skip false r' ∨
          ∃ u, SuffixText (pSuffix (skip false r')).1 u ∧ r' = u ++ (pSuffix (skip false r')).2 := by
        unfold pSuffix
        split
        · rename_i t r'' e'
          right
          obtain ⟨h2, h3⟩ := pLangTag_inv e'
          obtain ⟨g, hg, h4⟩ := skip_some h3
          exact ⟨g ++ '@' :: t, ⟨h2, g, hg, rfl⟩, by rw [h4]; simp⟩
        · split
          · rename_i r'' e''
            split
            · rename_i i r3 e3
              right
              have h2 := stripPrefix_join e''
              obtain ⟨g, hg, h4⟩ := skip_some h2
              obtain ⟨h5, h6⟩ := pIriRef_inv e3
              obtain ⟨g', hg', h7⟩ := skip_some h6
              refine ⟨_, ⟨h5, g, g', hg, hg', rfl⟩, ?_⟩
              rw [h4, h7]
              simp
            · exact .inl ⟨rfl, rfl⟩
          · exact .inl ⟨rfl, rfl⟩
      rcases hsuf with ⟨h2, h3⟩ | ⟨u, h2, h3⟩
      · rw [h3, skip_idem] at hr
        obtain ⟨c, r'', hr⟩ := hr
        obtain ⟨g, hg, h4⟩ := skip_some hr
        refine ⟨'"' :: (a ++ ['"']), g, c :: r'', ?_, hg, ?_, ?_, ?_⟩
        · rw [h2]
          exact ⟨h1, [], rfl, rfl⟩
        · rw [h4]; simp
        · rw [h3, ← hr, skip_idem]
        · right; rw [h3, skip_idem, hr]
      · refine ⟨'"' :: (a ++ '"' :: u), [], (pSuffix (skip false r')).2, ⟨h1, u, h2, rfl⟩, .nil, ?_, rfl, .inl rfl⟩
        conv => lhs; rw [h3]
        simp
    · cases h

theorem gap_append {a b : Str} (ha : Gap a) (hb : Gap b) : Gap (a ++ b) := by
  induction ha with
  | nil => exact hb
  | ws h _ ih => exact .ws h ih
  | comment h1 h2 h3 _ ih => simpa using Gap.comment h1 h2 h3 ih

theorem pTerms_inv {s r : Str} {a : RNode} {b : Str} {c : RObject} (h : pTerms s = some ((a, b, c), r))
    {d : Char} {r₂ : Str} (hr : skip false r = d :: r₂) (g : Option RNode) :
    ∃ t gap, TermsText ⟨a, b, c, g⟩ t ∧ Gap gap ∧ s = t ++ gap ++ d :: r₂ := by
  unfold pTerms at h
  split at h
  · cases h
  · rename_i a' r1 e1
    split at h
    · cases h
    · rename_i b' r2 e2
      split at h
      · cases h
      · rename_i c' r3 e3
        simp only [Option.some.injEq, Prod.mk.injEq] at h
        obtain ⟨⟨rfl, rfl, rfl⟩, rfl⟩ := h
        obtain ⟨t1, h1, rfl⟩ := pSubject_inv e1
        obtain ⟨h2, h3⟩ := pIriRef_inv e2
        obtain ⟨g1, hg1, h4⟩ := skip_some h3
        obtain ⟨t3, g3, r', h5, hg3, h6, h7, h8⟩ := pObject_inv e3 ⟨_, _, hr⟩
        have hne : ∃ x y, t3 ++ g3 ++ r' = x :: y := by
          cases hh : t3 ++ g3 ++ r' with
          | cons x y => exact ⟨x, y, rfl⟩
          | nil =>
            rw [hh] at h6
            rw [h6] at e3
            cases e3
        obtain ⟨x, y, hxy⟩ := hne
        obtain ⟨g2, hg2, h9⟩ := skip_some (h6.trans hxy)
        obtain ⟨g4, hg4, h10⟩ := skip_some (h7.symm.trans hr)
        refine ⟨t1 ++ g1 ++ '<' :: (b' ++ '>' :: (g2 ++ t3)), g3 ++ g4,
          ⟨h2, t1, g1, g2, t3, h1, hg1, hg2, h5, rfl⟩, gap_append hg3 hg4, ?_⟩
        rw [h4, h9, ← hxy, h10]
        simp

theorem pEnd_inv {s r : Str} (h : pEnd s = some r) : skip false s = '.' :: r := by
  unfold pEnd at h
  split at h
  · rename_i r' e
    rw [e, Option.some.inj h]
  · cases h

theorem pTriple_inv {s r : Str} {l : RLine} (h : pTriple s = some (l, r)) : ∃ t, TripleText l t ∧ s = t ++ r := by
  unfold pTriple at h
  split at h
  · cases h
  · rename_i a b c r' e
    simp only [Option.map_eq_some_iff, Prod.mk.injEq] at h
    obtain ⟨r'', h1, rfl, rfl⟩ := h
    obtain ⟨t, g, h2, hg, rfl⟩ := pTerms_inv e (pEnd_inv h1) none
    exact ⟨_, ⟨rfl, t, g, h2, hg, rfl⟩, by simp⟩

theorem nodeText_cons {n : RNode} {t : Str} (h : NodeText n t) : ∃ c u, t = c :: u := by
  cases n with
  | iri i => exact ⟨_, _, h.2⟩
  | blank b =>
    obtain ⟨-, ⟨l, -, h⟩ | ⟨g, -, h⟩⟩ := h
    · exact ⟨_, _, h⟩
    · exact ⟨_, _, h⟩

theorem pQuad_inv {s r : Str} {l : RLine} (h : pQuad s = some (l, r)) : ∃ t, QuadText l t ∧ s = t ++ r := by
  unfold pQuad at h
  split at h
  · cases h
  · rename_i a b c r' e
    split at h
    · rename_i n r2 e2
      simp only [Option.map_eq_some_iff, Prod.mk.injEq] at h
      obtain ⟨r'', h1, rfl, rfl⟩ := h
      obtain ⟨v, h3, h4⟩ := pSubject_inv e2
      obtain ⟨x, v', rfl⟩ := nodeText_cons h3
      obtain ⟨t, g, h2, hg, rfl⟩ := pTerms_inv e h4 (some n)
      obtain ⟨g2, hg2, rfl⟩ := skip_some (pEnd_inv h1)
      exact ⟨_, .inr ⟨n, t, g, x :: v', g2, rfl, h2, hg, h3, hg2, rfl⟩, by simp⟩
    · simp only [Option.map_eq_some_iff, Prod.mk.injEq] at h
      obtain ⟨r'', h1, rfl, rfl⟩ := h
      obtain ⟨t, g, h2, hg, rfl⟩ := pTerms_inv e (pEnd_inv h1) none
      exact ⟨_, .inl ⟨rfl, t, g, h2, hg, rfl⟩, by simp⟩

theorem pLines_inv {p : Str → Option (RLine × Str)} {one : RLine → Str → Prop}
    (hp : ∀ s l r, p s = some (l, r) → ∃ t, one l t ∧ t ≠ [] ∧ s = t ++ r) (n : Nat) (s : Str) {ls : List RLine}
    (h : pLines p n (skip false s) = (ls, [])) : LinesText one ls s := by
  induction n generalizing s ls with
  | zero =>
    simp only [pLines, Prod.mk.injEq] at h
    rw [← h.1]
    exact .last (skip_none h.2)
  | succ n ih =>
    simp only [pLines] at h
    split at h
    · simp only [Prod.mk.injEq] at h
      rw [← h.1]
      exact .last (skip_none h.2)
    · rename_i l r e
      simp only [Prod.mk.injEq] at h
      obtain ⟨rfl, h2⟩ := h
      obtain ⟨t, h3, hne, h4⟩ := hp _ _ _ e
      obtain ⟨c, t', rfl⟩ : ∃ c t', t = c :: t' := by
        cases t with
        | nil => exact absurd rfl hne
        | cons c t' => exact ⟨c, t', rfl⟩
      obtain ⟨g, hg, h5⟩ := skip_some h4
      have := ih r (ls := (pLines p n (skip false r)).1) (Prod.ext rfl h2)
      rw [h5]
      exact .line hg h3 this

end Rdftk
