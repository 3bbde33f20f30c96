import Verif.Lemmas.NTAccept

/-! A text is matched exactly if it has the form of `Spec/NTAccept.lean` and each label is as long as
it can be. -/

namespace Rdftk

open Spec

/-! ### Labels -/

theorem labelTailLen_none (r : Str) : labelTailLen r = none ↔ LabelEnds r := by
  have hd : isPnChars '.' = false := by decide
  cases r with
  | nil => simp [labelTailLen, LabelEnds]
  | cons c s =>
    simp only [labelTailLen, LabelEnds]
    by_cases hc : isPnChars c = true
    · simp only [hc, if_true, reduceCtorEq, false_iff]
      intro h
      exact h.1 c s rfl ((isPnChars_iff c).1 hc)
    · have hc' : ¬ PN_CHARS c := fun h => hc ((isPnChars_iff c).2 h)
      simp only [hc, Bool.false_eq_true, if_false]
      by_cases he : c = '.'
      · subst he
        rw [if_pos rfl]
        cases s with
        | nil => simp [hc']
        | cons d s =>
          by_cases hd : isPnChars d = true
          · simp only [hd, if_true, reduceCtorEq, false_iff]
            intro h
            exact h.2 d s rfl ((isPnChars_iff d).1 hd)
          · have hd' : ¬ PN_CHARS d := fun h => hd ((isPnChars_iff d).2 h)
            simp [hd, hc', hd']
      · rw [if_neg he]
        simp only [true_iff]
        refine ⟨?_, ?_⟩
        · rintro c' s' e; injection e with e _; exact e ▸ hc'
        · rintro c' s' e; injection e with e _; exact absurd e he

theorem labelTailLen_one {s : Str} {n : Nat} (h : labelTailLen s = some n) : n = 1 := by
  cases s with
  | nil => cases h
  | cons c s =>
    simp only [labelTailLen] at h
    split at h
    · exact (Option.some.inj h).symm
    · split at h
      · split at h
        · split at h
          · exact (Option.some.inj h).symm
          · cases h
        · cases h
      · cases h

theorem rep_label_ends (s : Str) : LabelEnds (rep labelTailLen 0 s).2 := by
  rw [← labelTailLen_none]
  induction s with
  | nil => rfl
  | cons c s ih =>
    cases h : labelTailLen (c :: s) with
    | none => rw [rep_stop h]; exact h
    | some n =>
      obtain rfl := labelTailLen_one h
      simp only [rep, h]
      exact ih

theorem rep_tail_ends {a rest : Str} (h : tailOk a = true) (hr : LabelEnds rest) :
    rep labelTailLen 0 (a ++ rest) = (a, rest) := by
  induction a with
  | nil => exact rep_stop ((labelTailLen_none rest).2 hr)
  | cons c a ih =>
    have hstep : labelTailLen (c :: (a ++ rest)) = some 1 ∧ tailOk a = true := by
      cases a with
      | nil =>
        simp only [tailOk] at h
        simp [labelTailLen, h, tailOk]
      | cons d a =>
        simp only [tailOk, Bool.and_eq_true, Bool.or_eq_true, beq_iff_eq] at h
        obtain ⟨h1 | ⟨rfl, h1⟩, h2⟩ := h
        · simp [labelTailLen, h1, h2]
        · have : isPnChars '.' = false := by decide
          simp [labelTailLen, this, h1, h2]
    simp [rep, hstep.1, ih hstep.2]

theorem pLabel_ends {l rest : Str} (h : Label l) (hr : LabelEnds rest) :
    pLabel ('_' :: ':' :: (l ++ rest)) = some ('_' :: ':' :: l, rest) := by
  obtain ⟨c, a, rfl, hc, ha⟩ := label_cases h
  simp only [List.cons_append, pLabel, hc, if_true, rep_tail_ends ha hr]

/-! ### Nodes -/

theorem rep_loose {a : Str} (h : LooseIri a) (r : Str) :
    rep iriCharLen 0 (a ++ '>' :: r) = (a, '>' :: r) := by
  obtain ⟨ts, hts, rfl⟩ := h
  refine rep_tokens (Q := fun _ => True) ?_ (fun _ _ _ => trivial) ts hts trivial ?_
  · rintro t r (⟨c, hc, rfl⟩ | ⟨ds, hu⟩) _
    · refine ⟨by simp, ?_⟩
      rcases hc with hc | rfl
      · exact iriCharLen_plain hc r
      · simp only [List.cons_append, iriCharLen]
        rw [if_neg (by decide)]
        rfl
    · obtain ⟨a, rfl⟩ := uchar_head hu
      refine ⟨by simp, ?_⟩
      have := (ucharLen_of hu r).1
      simp only [List.cons_append] at this ⊢
      simp only [iriCharLen]
      rw [if_pos (by decide)]
      exact this
  · simp only [iriCharLen]
    rw [if_pos (by decide)]
    rfl

theorem pIriRef_loose {a : Str} (h : LooseIri a) (r : Str) :
    pIriRef ('<' :: (a ++ '>' :: r)) = some (a, r) := by
  simp [pIriRef, rep_loose h]

theorem pAnon_text {g : Str} (h : Gap g) (r : Str) :
    pAnon ('[' :: (g ++ ']' :: r)) = some ('[' :: (g ++ [']']), r) := by
  have e : skip false (g ++ ']' :: r) = ']' :: r := skip_gap_solid h (solid_cons (by decide))
  have : (g ++ ']' :: r).take ((g ++ ']' :: r).length - r.length) = g ++ [']'] := by
    have : (g ++ ']' :: r).length - r.length = (g ++ [']']).length := by simp; omega
    rw [this, show g ++ ']' :: r = (g ++ [']']) ++ r by simp, List.take_left]
  simp only [pAnon, e, this]

theorem pSubject_node {n : RNode} {t rest : Str} (h : NodeText n t) (he : NodeEnds n rest) :
    pSubject (t ++ rest) = some (n, rest) := by
  cases n with
  | iri i =>
    obtain ⟨h1, rfl⟩ := h
    have e : '<' :: (i ++ ['>']) ++ rest = '<' :: (i ++ '>' :: rest) := by simp
    rw [e, pSubject, pIriRef_loose h1]
  | blank b =>
    obtain ⟨rfl, ⟨l, hl, rfl⟩ | ⟨g, hg, rfl⟩⟩ := h
    · have h1 : pIriRef ('_' :: ':' :: (l ++ rest)) = none := by simp [pIriRef]
      simp only [List.cons_append, pSubject, h1, pBlank, pLabel_ends hl he]
      rfl
    · have e : '[' :: (g ++ [']']) ++ rest = '[' :: (g ++ ']' :: rest) := by simp
      have h1 : pIriRef ('[' :: (g ++ ']' :: rest)) = none := by simp [pIriRef]
      have h2 : pLabel ('[' :: (g ++ ']' :: rest)) = none := by simp [pLabel]
      rw [e]
      simp only [pSubject, h1, pBlank, h2, pAnon_text hg]
      rfl

theorem pSubject_ends {s r : Str} {n : RNode} (h : pSubject s = some (n, r)) : NodeEnds n r := by
  unfold pSubject at h
  split at h
  · simp only [Option.some.injEq, Prod.mk.injEq] at h
    rw [← h.1]; trivial
  · simp only [Option.map_eq_some_iff, Prod.mk.injEq] at h
    obtain ⟨⟨b, r'⟩, h1, h2, h3⟩ := h
    subst h2 h3
    unfold pBlank at h1
    cases hl : pLabel s with
    | some x =>
      rw [hl] at h1
      obtain rfl := Option.some.inj h1
      unfold pLabel at hl
      split at hl
      · split at hl
        · simp only [Option.some.injEq, Prod.mk.injEq] at hl
          rw [← hl.1, ← hl.2]
          exact rep_label_ends _
        · cases hl
      · cases hl
    | none =>
      rw [hl] at h1
      obtain ⟨⟨g, -, rfl⟩, -⟩ := pAnon_inv h1
      trivial

/-! ### Language tags and objects -/

/-- The text does not go on with a language tag. -/
def TagEnds (r : Str) : Prop := ∀ c s, r = c :: s → isAsciiAlnum c = false ∧ c ≠ '-'

theorem rep_subTags_ends {subs : List Str} (h : ∀ t ∈ subs, t ≠ [] ∧ ∀ c ∈ t, Alnum c) {rest : Str}
    (hr : TagEnds rest) :
    rep subTagLen 0 (subs.flatMap (fun t => '-' :: t) ++ rest) =
      (subs.flatMap (fun t => '-' :: t), rest) := by
  have e : subs.flatMap (fun t => '-' :: t) = (subs.map fun t => '-' :: t).flatten := by
    rw [List.flatMap]
  rw [e]
  refine rep_tokens (P := fun t => ∃ u, t = '-' :: u ∧ u ≠ [] ∧ ∀ c ∈ u, Alnum c)
    (Q := NoAlnum) ?_ ?_ _ ?_ ?_ ?_
  · rintro t r ⟨u, rfl, hne, hu⟩ hq
    refine ⟨by simp, ?_⟩
    have := (takeWhile_all_stop (p := isAsciiAlnum) (fun c hc => (isAsciiAlnum_iff c).2 (hu c hc)) hq).1
    simp only [List.cons_append, subTagLen, this]
    rw [if_neg (by simpa using hne)]
    rfl
  · rintro t r ⟨u, rfl, _, _⟩ c s e
    simp only [List.cons_append, List.cons.injEq] at e
    rw [← e.1]; decide
  · intro t ht
    obtain ⟨u, hu, rfl⟩ := List.mem_map.1 ht
    exact ⟨u, rfl, h u hu⟩
  · intro c r e
    exact (hr c r e).1
  · unfold subTagLen
    split
    · exact absurd rfl (hr _ _ rfl).2
    · rfl

theorem pLangTag_ends {t rest : Str} (h : LangTag t) (hr : TagEnds rest) :
    pLangTag ('@' :: (t ++ rest)) = some (t, rest) := by
  obtain ⟨a, subs, rfl, hne, ha, hs⟩ := h
  have hstop : ∀ c s, subs.flatMap (fun t => '-' :: t) ++ rest = c :: s → isAsciiAlpha c = false := by
    intro c s e
    cases subs with
    | nil =>
      have := (hr c s (by simpa using e)).1
      simp only [isAsciiAlnum, Bool.or_eq_false_iff] at this
      exact this.1
    | cons x xs =>
      simp only [List.flatMap_cons, List.cons_append, List.cons.injEq] at e
      rw [← e.1]; decide
  have := takeWhile_all_stop (p := isAsciiAlpha) (fun c hc => (isAsciiAlpha_iff c).2 (ha c hc)) hstop
  rw [← List.append_assoc] at this
  simp only [pLangTag, this.1, this.2, rep_subTags_ends hs hr]
  rw [if_neg (by simpa using hne)]

/-- What may follow an object: a gap and then a dot or a node. -/
def AfterObject (r : Str) : Prop := ∃ g c s, Gap g ∧ r = g ++ c :: s ∧ (c = '.' ∨ c = '<' ∨ c = '_' ∨ c = '[')

theorem afterObject_tag {r : Str} (h : AfterObject r) : TagEnds r := by
  obtain ⟨g, c, s, hg, rfl, hc⟩ := h
  intro d u e
  by_cases hne : g = []
  · subst hne
    simp only [List.nil_append, List.cons.injEq] at e
    rw [← e.1]
    rcases hc with rfl | rfl | rfl | rfl <;> decide
  · obtain ⟨d', r', e', h⟩ := sep_gap (s := c :: s) hg hne
    rw [e] at e'
    injection e' with e1 e2
    subst e1
    have := sep_class h
    exact ⟨this.2.2.2.2, this.2.2.2.1⟩

theorem afterObject_skip {r : Str} (h : AfterObject r) : ∃ c s, skip false r = c :: s ∧ c ≠ '@' ∧ c ≠ '^' := by
  obtain ⟨g, c, s, hg, rfl, hc⟩ := h
  refine ⟨c, s, ?_, ?_⟩
  · apply skip_gap_solid hg
    rcases hc with rfl | rfl | rfl | rfl <;> exact solid_cons (by decide)
  · rcases hc with rfl | rfl | rfl | rfl <;> decide

theorem pObject_object {o : RObject} {t rest : Str} (h : ObjectText o t) (he : ObjectEnds o rest) (hr : AfterObject rest) :
    ∃ r', pObject (t ++ rest) = some (o, r') ∧ skip false r' = skip false rest := by
  cases o with
  | node n =>
    refine ⟨rest, ?_, rfl⟩
    simp only [pObject, pSubject_node h he]
  | lit a x =>
    obtain ⟨ha, u, hu, rfl⟩ := h
    have hs : ∀ s, pSubject ('"' :: s) = none := by
      intro s
      simp [pSubject, pIriRef, pBlank, pLabel, pAnon]
    have et : '"' :: (a ++ '"' :: u) ++ rest = '"' :: (a ++ '"' :: (u ++ rest)) := by simp
    rw [et, pObject, hs, pString_text ha]
    cases x with
    | none =>
      obtain rfl := hu
      obtain ⟨c, r, e, h1, h2⟩ := afterObject_skip hr
      refine ⟨skip false rest, ?_, skip_idem _ _⟩
      simp only [List.nil_append, e, pSuffix_none h1 h2]
    | lang tag =>
      obtain ⟨h1, g, hg, rfl⟩ := hu
      refine ⟨rest, ?_, rfl⟩
      have e2 : skip false (g ++ '@' :: tag ++ rest) = '@' :: (tag ++ rest) := by
        rw [List.append_assoc]
        exact skip_gap_solid hg (solid_cons (by decide))
      simp only [e2, pSuffix, pLangTag_ends h1 (afterObject_tag hr)]
    | type i =>
      obtain ⟨h1, g, g', hg, hg', rfl⟩ := hu
      refine ⟨rest, ?_, rfl⟩
      have e1 : g ++ '^' :: '^' :: (g' ++ '<' :: (i ++ ['>'])) ++ rest = g ++ '^' :: '^' :: (g' ++ '<' :: (i ++ '>' :: rest)) := by
        simp
      have e2 : skip false (g ++ '^' :: '^' :: (g' ++ '<' :: (i ++ '>' :: rest))) = '^' :: '^' :: (g' ++ '<' :: (i ++ '>' :: rest)) :=
        skip_gap_solid hg (solid_cons (by decide))
      have e3 : skip false (g' ++ '<' :: (i ++ '>' :: rest)) = '<' :: (i ++ '>' :: rest) :=
        skip_gap_solid hg' (solid_cons (by decide))
      have e4 : ∀ s, pLangTag ('^' :: s) = none := by intro s; simp [pLangTag]
      rw [e1]
      simp [e2, pSuffix, e4, stripPrefix, e3, pIriRef_loose h1]

theorem nodeText_head {n : RNode} {t : Str} (h : NodeText n t) : ∃ c u, t = c :: u ∧ (c = '<' ∨ c = '_' ∨ c = '[') := by
  cases n with
  | iri i => exact ⟨_, _, h.2, .inl rfl⟩
  | blank b =>
    obtain ⟨-, ⟨l, -, h⟩ | ⟨g, -, h⟩⟩ := h
    · exact ⟨_, _, h, .inr (.inl rfl)⟩
    · exact ⟨_, _, h, .inr (.inr rfl)⟩

theorem objectText_solid {o : RObject} {t : Str} (h : ObjectText o t) (r : Str) : Solid (t ++ r) := by
  cases o with
  | node n =>
    obtain ⟨c, u, rfl, hc⟩ := nodeText_head h
    rcases hc with rfl | rfl | rfl <;> exact solid_cons (by decide)
  | lit a x =>
    obtain ⟨-, u, -, rfl⟩ := h
    exact solid_cons (by decide)

/-- A label before a gap and a bracket ends. -/
theorem labelEnds_gap {g : Str} (hg : Gap g) (r : Str) : LabelEnds (g ++ '<' :: r) := by
  rw [← labelTailLen_none]
  have key : ∀ c s, isPnChars c = false → c ≠ '.' → labelTailLen (c :: s) = none := by
    intro c s h1 h2
    simp [labelTailLen, h1, h2]
  by_cases hne : g = []
  · subst hne
    exact key _ _ (by decide) (by decide)
  · obtain ⟨c, s, e, h⟩ := sep_gap (s := '<' :: r) hg hne
    rw [e]
    have := sep_class h
    exact key _ _ this.1 this.2.1

theorem nodeEnds_of {n : RNode} {r : Str} (h : LabelEnds r) : NodeEnds n r := by
  unfold NodeEnds
  split
  · exact h
  · trivial

/-! ### Statements -/

theorem pTerms_at {l : RLine} {u rest : Str} (h : TermsText l u) (he : ObjectEnds l.object rest) (hr : AfterObject rest) :
    ∃ r', pTerms (u ++ rest) = some ((l.subject, l.predicate, l.object), r') ∧ skip false r' = skip false rest := by
  obtain ⟨h1, s, g₁, g₂, o, h2, hg₁, hg₂, h3, rfl⟩ := h
  obtain ⟨r', h4, h5⟩ := pObject_object h3 he hr
  refine ⟨r', ?_, h5⟩
  have e : s ++ g₁ ++ '<' :: (l.predicate ++ '>' :: (g₂ ++ o)) ++ rest =
      s ++ (g₁ ++ '<' :: (l.predicate ++ '>' :: (g₂ ++ (o ++ rest)))) := by simp
  rw [e, pTerms, pSubject_node h2 (nodeEnds_of (labelEnds_gap hg₁ _))]
  simp only [skip_gap_solid hg₁ (solid_cons (c := '<') (by decide)), pIriRef_loose h1,
    skip_gap_solid hg₂ (objectText_solid h3 rest), h4]

theorem pTriple_at {l : RLine} {t r : Str} (h : TripleAt l t r) : pTriple (t ++ r) = some (l, r) := by
  obtain ⟨hn, u, g, h1, hg, rfl, h2⟩ := h
  obtain ⟨r', h3, h4⟩ := pTerms_at h1 h2 ⟨g, '.', r, hg, rfl, .inl rfl⟩
  rw [skip_gap_solid hg (solid_cons (by decide))] at h4
  have e : u ++ g ++ ['.'] ++ r = u ++ (g ++ '.' :: r) := by simp
  rw [e]
  obtain ⟨a, b, c, d⟩ := l
  obtain rfl : d = none := hn
  simp [pTriple, h3, pEnd, h4]

theorem pQuad_at {l : RLine} {t r : Str} (h : QuadAt l t r) : pQuad (t ++ r) = some (l, r) := by
  rcases h with ⟨hn, u, g, h1, hg, rfl, h2⟩ | ⟨n, u, g₁, v, g₂, hn, h1, hg₁, hv, hg₂, rfl, h2, h3⟩
  · obtain ⟨r', h3, h4⟩ := pTerms_at h1 h2 ⟨g, '.', r, hg, rfl, .inl rfl⟩
    rw [skip_gap_solid hg (solid_cons (by decide))] at h4
    have e : u ++ g ++ ['.'] ++ r = u ++ (g ++ '.' :: r) := by simp
    rw [e]
    obtain ⟨a, b, c, d⟩ := l
    obtain rfl : d = none := hn
    simp [pQuad, h3, pEnd, h4, pSubject_dot]
  · have hv' := nodeText_head hv
    obtain ⟨c, v', ev, hc⟩ := hv'
    have ha : AfterObject (g₁ ++ (v ++ (g₂ ++ '.' :: r))) :=
      ⟨g₁, c, v' ++ (g₂ ++ '.' :: r), hg₁, by rw [ev]; simp, .inr hc⟩
    obtain ⟨r', h4, h5⟩ := pTerms_at h1 h2 ha
    have hs : Solid (v ++ (g₂ ++ '.' :: r)) := by
      rw [ev]
      rcases hc with rfl | rfl | rfl <;> exact solid_cons (by decide)
    rw [skip_gap_solid hg₁ hs] at h5
    have e : u ++ g₁ ++ v ++ g₂ ++ ['.'] ++ r = u ++ (g₁ ++ (v ++ (g₂ ++ '.' :: r))) := by simp
    rw [e]
    obtain ⟨a, b, o, d⟩ := l
    obtain rfl : d = some n := hn
    simp [pQuad, h4, h5, pSubject_node hv h3, pEnd, skip_gap_solid hg₂ (solid_cons (c := '.') (by decide))]

theorem pLines_at {p : Str → Option (RLine × Str)} {one : RLine → Str → Str → Prop}
    (hp : ∀ l t r, one l t r → p (t ++ r) = some (l, r) ∧ Solid (t ++ r) ∧ t ≠ []) (hnil : p [] = none)
    {ls : List RLine} {s : Str} (h : LinesAt one ls s) (n : Nat) (hn : s.length ≤ n) :
    pLines p n (skip false s) = (ls, []) := by
  induction h generalizing n with
  | last hl =>
    rw [skip_lastGap hl]
    cases n with
    | zero => rfl
    | succ n => simp [pLines, hnil]
  | @line l ls g t r hg ho _ ih =>
    obtain ⟨h1, h2, h3⟩ := hp _ _ _ ho
    have hlen : 0 < t.length := List.length_pos_iff.2 h3
    simp only [List.length_append] at hn
    cases n with
    | zero => omega
    | succ n =>
      rw [skip_gap_solid hg h2, pLines, h1]
      simp only
      rw [ih n (by omega)]

theorem pDoc_at {p : Str → Option (RLine × Str)} {one : RLine → Str → Str → Prop}
    (hp : ∀ l t r, one l t r → p (t ++ r) = some (l, r) ∧ Solid (t ++ r) ∧ t ≠ []) (hnil : p [] = none)
    {ls : List RLine} {s : Str} (h : LinesAt one ls s) : pDoc p s = some ls := by
  simp only [pDoc, pLines_at hp hnil h s.length (Nat.le_refl _)]

/-! ### The other direction -/

theorem pObject_ends {s r : Str} {o : RObject} (h : pObject s = some (o, r)) : ObjectEnds o r := by
  unfold pObject at h
  split at h
  · rename_i n r' e
    simp only [Option.some.injEq, Prod.mk.injEq] at h
    obtain ⟨rfl, rfl⟩ := h
    exact pSubject_ends e
  · split at h
    · dsimp only at h
      simp only [Option.some.injEq, Prod.mk.injEq] at h
      rw [← h.1]; trivial
    · cases h

theorem pTerms_ends {s r : Str} {a : RNode} {b : Str} {c : RObject} (h : pTerms s = some ((a, b, c), r))
    {d : Char} {r₂ : Str} (hr : skip false r = d :: r₂) (g : Option RNode) :
    ∃ t gap, TermsText ⟨a, b, c, g⟩ t ∧ Gap gap ∧ s = t ++ gap ++ d :: r₂ ∧ ObjectEnds c (gap ++ d :: r₂) := by
  unfold pTerms at h
  split at h
  · cases h
  · rename_i a' r1 e1
    split at h
    · cases h
    · rename_i b' r2 e2
      split at h
      · cases h
      · rename_i c' r3 e3
        simp only [Option.some.injEq, Prod.mk.injEq] at h
        obtain ⟨⟨rfl, rfl, rfl⟩, rfl⟩ := h
        obtain ⟨t1, h1, rfl⟩ := pSubject_inv e1
        obtain ⟨h2, h3⟩ := pIriRef_inv e2
        obtain ⟨g1, hg1, h4⟩ := skip_some h3
        have hends := pObject_ends e3
        obtain ⟨t3, g3, r', h5, hg3, h6, h7, h8⟩ := pObject_inv e3 ⟨_, _, hr⟩
        have hne : ∃ x y, t3 ++ g3 ++ r' = x :: y := by
          cases hh : t3 ++ g3 ++ r' with
          | cons x y => exact ⟨x, y, rfl⟩
          | nil =>
            rw [hh] at h6
            rw [h6] at e3
            cases e3
        obtain ⟨x, y, hxy⟩ := hne
        obtain ⟨g2, hg2, h9⟩ := skip_some (h6.trans hxy)
        obtain ⟨g4, hg4, h10⟩ := skip_some (h7.symm.trans hr)
        refine ⟨t1 ++ g1 ++ '<' :: (b' ++ '>' :: (g2 ++ t3)), g3 ++ g4,
          ⟨h2, t1, g1, g2, t3, h1, hg1, hg2, h5, rfl⟩, gap_append hg3 hg4, ?_, ?_⟩
        · rw [h4, h9, ← hxy, h10]
          simp
        · cases c' with
          | lit => trivial
          | node n =>
            have hn : pSubject (skip false r2) = some (n, r3) := by
              unfold pObject at e3
              split at e3
              · rename_i n' r'' e
                simp only [Option.some.injEq, Prod.mk.injEq, RObject.node.injEq] at e3
                rw [e, e3.1, e3.2]
              · split at e3
                · simp at e3
                · cases e3
            obtain ⟨t', h11, h12⟩ := pSubject_inv hn
            have ht : t3 = t' := by
              cases n with
              | iri i => rw [h5.2, h11.2]
              | blank b => rw [← h5.1, ← h11.1]
            subst ht
            rw [h6, List.append_assoc] at h12
            have := List.append_cancel_left h12
            rw [h10] at this
            rw [List.append_assoc, this]
            exact hends

theorem pTriple_at_inv {s r : Str} {l : RLine} (h : pTriple s = some (l, r)) : ∃ t, TripleAt l t r ∧ s = t ++ r := by
  unfold pTriple at h
  split at h
  · cases h
  · rename_i a b c r' e
    simp only [Option.map_eq_some_iff, Prod.mk.injEq] at h
    obtain ⟨r'', h1, rfl, rfl⟩ := h
    obtain ⟨t, g, h2, hg, rfl, h3⟩ := pTerms_ends e (pEnd_inv h1) none
    exact ⟨_, ⟨rfl, t, g, h2, hg, rfl, h3⟩, by simp⟩

theorem pQuad_at_inv {s r : Str} {l : RLine} (h : pQuad s = some (l, r)) : ∃ t, QuadAt l t r ∧ s = t ++ r := by
  unfold pQuad at h
  split at h
  · cases h
  · rename_i a b c r' e
    split at h
    · rename_i n r2 e2
      simp only [Option.map_eq_some_iff, Prod.mk.injEq] at h
      obtain ⟨r'', h1, rfl, rfl⟩ := h
      have hends := pSubject_ends e2
      obtain ⟨v, h3, h4⟩ := pSubject_inv e2
      obtain ⟨x, v', rfl⟩ := nodeText_cons h3
      obtain ⟨t, g, h2, hg, rfl, h5⟩ := pTerms_ends e h4 (some n)
      obtain ⟨g2, hg2, rfl⟩ := skip_some (pEnd_inv h1)
      exact ⟨_, .inr ⟨n, t, g, x :: v', g2, rfl, h2, hg, h3, hg2, rfl, h5, hends⟩, by simp⟩
    · simp only [Option.map_eq_some_iff, Prod.mk.injEq] at h
      obtain ⟨r'', h1, rfl, rfl⟩ := h
      obtain ⟨t, g, h2, hg, rfl, h3⟩ := pTerms_ends e (pEnd_inv h1) none
      exact ⟨_, .inl ⟨rfl, t, g, h2, hg, rfl, h3⟩, by simp⟩

theorem pLines_at_inv {p : Str → Option (RLine × Str)} {one : RLine → Str → Str → Prop}
    (hp : ∀ s l r, p s = some (l, r) → ∃ t, one l t r ∧ t ≠ [] ∧ s = t ++ r) (n : Nat) (s : Str) {ls : List RLine}
    (h : pLines p n (skip false s) = (ls, [])) : LinesAt one ls s := by
  induction n generalizing s ls with
  | zero =>
    simp only [pLines, Prod.mk.injEq] at h
    rw [← h.1]
    exact .last (skip_none h.2)
  | succ n ih =>
    simp only [pLines] at h
    split at h
    · simp only [Prod.mk.injEq] at h
      rw [← h.1]
      exact .last (skip_none h.2)
    · rename_i l r e
      simp only [Prod.mk.injEq] at h
      obtain ⟨rfl, h2⟩ := h
      obtain ⟨t, h3, hne, h4⟩ := hp _ _ _ e
      obtain ⟨c, t', rfl⟩ : ∃ c t', t = c :: t' := by
        cases t with
        | nil => exact absurd rfl hne
        | cons c t' => exact ⟨c, t', rfl⟩
      obtain ⟨g, hg, h5⟩ := skip_some h4
      have := ih r (ls := (pLines p n (skip false r)).1) (Prod.ext rfl h2)
      rw [h5]
      exact .line hg h3 this

end Rdftk
