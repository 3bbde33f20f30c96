import Verif.Lemmas.PegNtDoc

/-! Documents of N-Triples under the rules of Turtle, TriG and N3. -/

namespace Rdftk

open PegGrammar

variable {T : Nat} {s r r' : Str} {a b : Peg GRule}

/-- The expression reads up to the rest. -/
def Acc (T : Nat) (e : Peg GRule) (s r : Str) : Prop := ∃ l, commonGrammar.Reads T .free e s (some (l, r))

/-- The expression reads nothing of the text. -/
def Rej (T : Nat) (e : Peg GRule) (s : Str) : Prop := commonGrammar.Reads T .free e s none

theorem Acc.seq (ha : Acc T a s r) (hb : Acc T b (skip false r) r') : Acc T (.seq a b) s r' := by
  obtain ⟨l, ha⟩ := ha; obtain ⟨k, hb⟩ := hb
  exact ⟨_, reads_seq ha (skips_free r) hb⟩

theorem Rej.seq (ha : Rej T a s) : Rej T (.seq a b) s := reads_seq_none ha

theorem Acc.seq_rej (ha : Acc T a s r) (hb : Rej T b (skip false r)) : Rej T (.seq a b) s := by
  obtain ⟨l, ha⟩ := ha
  exact reads_seq ha (skips_free r) hb

theorem Acc.left (ha : Acc T a s r) : Acc T (.alt a b) s r := by
  obtain ⟨l, ha⟩ := ha
  exact ⟨l, reads_alt_left ha⟩

theorem Rej.right (ha : Rej T a s) (hb : Acc T b s r) : Acc T (.alt a b) s r := by
  obtain ⟨l, hb⟩ := hb
  exact ⟨l, reads_alt_right ha hb⟩

theorem Rej.alt (ha : Rej T a s) (hb : Rej T b s) : Rej T (.alt a b) s := reads_alt_right ha hb

theorem Acc.opt (ha : Acc T a s r) : Acc T (.opt a) s r := by
  obtain ⟨l, ha⟩ := ha
  exact ⟨l, reads_opt ha⟩

theorem Rej.opt (ha : Rej T a s) : Acc T (.opt a) s s := ⟨[], reads_opt ha⟩

theorem Rej.star (ha : Rej T a s) : Acc T (.star a) s s := ⟨[], reads_star_none ha⟩

theorem Acc.star (ha : Acc T a s r) (hb : Acc T (.more a) r r') : Acc T (.star a) s r' := by
  obtain ⟨l, ha⟩ := ha; obtain ⟨k, hb⟩ := hb
  exact ⟨_, reads_star ha hb⟩

theorem Rej.more (ha : Rej T a (skip false s)) : Acc T (.more a) s s := ⟨[], reads_more_none (skips_free s) ha⟩

theorem Acc.more (ha : Acc T a (skip false s) r) (hb : Acc T (.more a) r r') : Acc T (.more a) s r' := by
  obtain ⟨l, ha⟩ := ha; obtain ⟨k, hb⟩ := hb
  exact ⟨_, reads_more (skips_free s) ha hb⟩

theorem Acc.rule {i : GRule} (hk : (commonGrammar.body i).1.mode .free = .free) (h : Acc T (commonGrammar.body i).2 s r) : Acc T (.rule i) s r := by
  obtain ⟨l, h⟩ := h
  exact ⟨_, reads_rule (m := .free) (by rw [hk]; exact h)⟩

theorem Rej.rule {i : GRule} (hk : (commonGrammar.body i).1.mode .free = .free) (h : Rej T (commonGrammar.body i).2 s) : Rej T (.rule i) s :=
  reads_rule (g := commonGrammar) (i := i) (m := .free) (x := none) (by rw [hk]; exact h)

theorem rej_str {t : Str} (h : stripPrefix t s = none) : Rej T (.str t) s := (reads_str t).cast (by rw [h]; rfl)

theorem rej_istr {t : Str} (h : stripPrefixI t s = none) : Rej T (.istr t) s := (reads_istr t).cast (by rw [h]; rfl)

theorem acc_str {t : Str} (h : stripPrefix t s = some r) : Acc T (.str t) s r := ⟨[], (reads_str t).cast (by rw [h]; rfl)⟩

/-- What does not begin with the character is not read by a text that does. -/
theorem rej_chr {c d : Char} {t u : Str} (h : c ≠ d) : Rej T (.str (c :: t)) (d :: u) := rej_str (by simp [stripPrefix, h])

theorem rej_nil {c : Char} {t : Str} : Rej T (.str (c :: t)) [] := rej_str rfl

theorem acc_iri {i : Str} (h : pIriRef s = some (i, r)) : Acc T (.rule .iri) s r :=
  Acc.rule rfl (Acc.left ⟨_, (reads_iri s).cast (by rw [h]; rfl)⟩)

/-- What is before a colon in a name. -/
theorem rej_pn_prefix {c : Char} {u : Str} (h : isPnCharsBase c = false) : Rej T (.rule .PN_PREFIX) (c :: u) := by
  have : commonGrammar.Reads T .atomic (commonGrammar.body .PN_PREFIX).2 (c :: u) none :=
    reads_seq_none ((one_pnBase (c :: u)).cast (by simp [gOneOf, h]))
  exact reads_rule (g := commonGrammar) (i := GRule.PN_PREFIX) (m := .free) (x := none) this

theorem rej_ns {c : Char} {u : Str} (h : isPnCharsBase c = false) (h1 : c ≠ ':') (h2 : isWs c = false) (h3 : c ≠ '#') :
    Rej T (.rule .PNAME_NS) (c :: u) :=
  Rej.rule rfl (Acc.seq_rej (Rej.opt (rej_pn_prefix h)) (by rw [show skip false (c :: u) = c :: u by simp [skip, h2, h3]]; exact rej_chr (Ne.symm h1)))

theorem rej_name {c : Char} {u : Str} (h : isPnCharsBase c = false) (h1 : c ≠ ':') (h2 : isWs c = false) (h3 : c ≠ '#') :
    Rej T (.rule .prefixedName) (c :: u) :=
  Rej.rule rfl (Rej.alt (Rej.rule rfl (Rej.seq (rej_ns h h1 h2 h3))) (rej_ns h h1 h2 h3))

theorem rej_iri {c : Char} {u : Str} (h : isPnCharsBase c = false) (h1 : c ≠ ':') (h2 : isWs c = false) (h3 : c ≠ '#')
    (h4 : pIriRef (c :: u) = none) : Rej T (.rule .iri) (c :: u) :=
  Rej.rule rfl (Rej.alt ((reads_iri _).cast (by rw [h4]; rfl)) (rej_name h h1 h2 h3))

theorem pIriRef_head {c : Char} {u : Str} (h : c ≠ '<') : pIriRef (c :: u) = none := by
  unfold pIriRef
  split
  · simp_all
  · rfl

theorem pBlank_head {x : Str × Str} (h : pBlank s = some x) : ∃ c u, s = c :: u ∧ (c = '_' ∨ c = '[') := by
  unfold pBlank at h
  rw [Option.or_eq_some_iff] at h
  rcases h with h | ⟨_, h⟩
  · unfold pLabel at h
    split at h
    · exact ⟨_, _, rfl, .inl rfl⟩
    · cases h
  · unfold pAnon at h
    split at h
    · exact ⟨_, _, rfl, .inr rfl⟩
    · cases h

theorem pIriRef_some_head {x : Str × Str} (h : pIriRef s = some x) : ∃ u, s = '<' :: u := by
  unfold pIriRef at h
  split at h
  · exact ⟨_, rfl⟩
  · cases h

theorem pString_head {x : Str × Str} (h : pString s = some x) : ∃ u, s = '"' :: u := by
  unfold pString at h
  split at h
  · exact ⟨_, rfl⟩
  · cases h

/-- A node is an IRI or a blank node of the other languages. -/
theorem node_cases {n : RNode} (h : pSubject s = some (n, r)) :
    (∃ i, pIriRef s = some (i, r)) ∨ (Rej T (.rule .iri) s ∧ Acc T (.rule .blankNode) s r) := by
  unfold pSubject at h
  split at h
  · rename_i i q e
    simp only [Option.some.injEq, Prod.mk.injEq] at h
    exact .inl ⟨i, by rw [← h.2]; exact e⟩
  · rename_i e
    simp only [Option.map_eq_some_iff] at h
    obtain ⟨⟨t, q⟩, h1, h2⟩ := h
    simp only [Prod.mk.injEq] at h2
    obtain ⟨_, rfl⟩ := h2
    refine .inr ⟨?_, _, (reads_blank s).cast (y := some ([blankPair t], q)) (by rw [h1]; rfl)⟩
    obtain ⟨c, u, rfl, rfl | rfl⟩ := pBlank_head h1
    · exact rej_iri (by decide) (by decide) (by decide) (by decide) e
    · exact rej_iri (by decide) (by decide) (by decide) (by decide) e

/-- The first character of a node, of an object. -/
theorem pSubject_head {x : RNode × Str} (h : pSubject s = some x) : ∃ c u, s = c :: u ∧ (c = '<' ∨ c = '_' ∨ c = '[') := by
  unfold pSubject at h
  split at h
  · rename_i e
    obtain ⟨u, rfl⟩ := pIriRef_some_head e
    exact ⟨_, _, rfl, .inl rfl⟩
  · simp only [Option.map_eq_some_iff] at h
    obtain ⟨y, h1, _⟩ := h
    obtain ⟨c, u, rfl, hc⟩ := pBlank_head h1
    exact ⟨c, u, rfl, .inr hc⟩

theorem pObject_head {x : RObject × Str} (h : pObject s = some x) : ∃ c u, s = c :: u ∧ (c = '<' ∨ c = '_' ∨ c = '[' ∨ c = '"') := by
  unfold pObject at h
  split at h
  · rename_i e
    obtain ⟨c, u, rfl, hc⟩ := pSubject_head e
    exact ⟨c, u, rfl, by grind⟩
  · cases e : pString s with
    | some y =>
      obtain ⟨u, rfl⟩ := pString_head e
      exact ⟨_, _, rfl, by simp⟩
    | none => rw [e] at h; cases h

theorem skip_dot {u : Str} : skip false ('.' :: u) = '.' :: u := by simp [skip, isWs, isNewline]

/-- A literal that the end of a statement follows. -/
theorem acc_literal {t u : Str} {x : RSuffix} (h : pString s = some (t, r)) (hx : pSuffix (skip false r) = (x, r')) (hd : skip false r' = '.' :: u) :
    Acc T (.rule .turtleLiteral) s r' := by
  obtain ⟨w, rfl⟩ := pString_head h
  have hq : ∀ v, r ≠ '"' :: v := by
    rintro v rfl
    have e : skip false ('"' :: v) = '"' :: v := by simp [skip, isWs, isNewline]
    rw [e] at hx
    have e2 : pSuffix ('"' :: v) = (.none, '"' :: v) := by simp [pSuffix, pLangTag, stripPrefix]
    rw [e2] at hx
    cases hx
    rw [e] at hd
    simp at hd
  have hj := pString_join h
  have hlong : stripPrefix ['"', '"', '"'] ('"' :: w) = none := by
    cases hp : stripPrefix ['"', '"', '"'] ('"' :: w) with
    | none => rfl
    | some v =>
      exfalso
      have e := stripPrefix_eq hp
      rw [e] at h
      simp only [List.cons_append, List.nil_append] at h
      have : pString ('"' :: '"' :: '"' :: v) = some ([], '"' :: v) := by
        simp [pString, rep, quoteCharLen, ucharLen, echarLen, stripPrefix]
      rw [this] at h
      simp only [Option.some.injEq, Prod.mk.injEq] at h
      exact hq v h.2.symm
  have hstr : Acc T (.rule .turtleString) ('"' :: w) r := by
    refine Acc.rule rfl (Rej.right ?_ (Rej.right ?_ (Acc.left ?_)))
    · exact reads_rule (g := commonGrammar) (i := GRule.STRING_LITERAL_LONG_SINGLE_QUOTE) (m := .free) (x := none)
        (reads_seq_none ((reads_str _).cast (by simp [stripPrefix])))
    · exact reads_rule (g := commonGrammar) (i := GRule.STRING_LITERAL_LONG_QUOTE) (m := .free) (x := none)
        (reads_seq_none ((reads_str _).cast (by rw [hlong]; rfl)))
    · exact ⟨_, (reads_string _).cast (by rw [h]; rfl)⟩
  refine Acc.rule rfl (Acc.left (Acc.rule rfl (Acc.seq hstr ?_)))
  unfold pSuffix at hx
  split at hx
  · rename_i t q e
    cases hx
    exact Acc.opt (Acc.left ⟨_, (reads_langTag _).cast (by rw [e]; rfl)⟩)
  · rename_i e
    have hl : Rej T (.rule .LANGTAG) (skip false r) := (reads_langTag _).cast (by rw [e]; rfl)
    have hnone : ∀ q, skip false r = q → skip false q = '.' :: u → Acc T
        (.opt (.alt (.rule .LANGTAG) (.seq (.str ['^', '^']) (.rule .iri)))) (skip false r) q := by
      intro q hq hq'
      subst hq
      rw [skip_idem] at hq'
      exact Rej.opt (Rej.alt hl (Rej.seq (by rw [hq']; exact rej_chr (by decide))))
    split at hx
    · rename_i q e2
      split at hx
      · rename_i i q' e3
        cases hx
        exact Acc.opt (Rej.right hl (Acc.seq (acc_str e2) (acc_iri e3)))
      · cases hx; exact hnone _ rfl hd
    · cases hx; exact hnone _ rfl hd

/-- An object that the end of a statement follows. -/
theorem object_cases {o : RObject} {u : Str} (h : pObject s = some (o, r)) (hd : skip false r = '.' :: u) :
    (∃ i, pIriRef s = some (i, r)) ∨ (Rej T (.rule .iri) s ∧ Acc T (.rule .blankNode) s r) ∨
      (Rej T (.rule .iri) s ∧ Rej T (.rule .blankNode) s ∧ Acc T (.rule .turtleLiteral) s r ∧ ∃ w, s = '"' :: w) := by
  unfold pObject at h
  split at h
  · rename_i n q e
    simp only [Option.some.injEq, Prod.mk.injEq] at h
    rw [h.2] at e
    rcases node_cases (T := T) e with h | h
    · exact .inl h
    · exact .inr (.inl h)
  · rename_i e
    cases hs : pString s with
    | none => rw [hs] at h; cases h
    | some y =>
      obtain ⟨t, q⟩ := y
      rw [hs] at h
      simp only [Option.some.injEq, Prod.mk.injEq] at h
      obtain ⟨w, rfl⟩ := pString_head hs
      have hb : pBlank ('"' :: w) = none := by simp [pBlank, pLabel, pAnon]
      refine .inr (.inr ⟨rej_iri (by decide) (by decide) (by decide) (by decide) (pIriRef_head (by decide)), ?_, ?_, w, rfl⟩)
      · exact (reads_blank _).cast (by rw [hb]; rfl)
      · exact acc_literal hs (x := (pSuffix (skip false q)).1) (by rw [← h.2]) hd

theorem pTriple_parts {l : RLine} (h : pTriple s = some (l, r)) : ∃ a b c r1 r2 r3, pSubject s = some (a, r1) ∧
    pIriRef (skip false r1) = some (b, r2) ∧ pObject (skip false r2) = some (c, r3) ∧ skip false r3 = '.' :: r := by
  unfold pTriple pTerms at h
  cases h1 : pSubject s with
  | none => simp [h1] at h
  | some x1 =>
    obtain ⟨a, r1⟩ := x1
    rw [h1] at h; simp only at h
    cases h2 : pIriRef (skip false r1) with
    | none => simp [h2] at h
    | some x2 =>
      obtain ⟨b, r2⟩ := x2
      rw [h2] at h; simp only at h
      cases h3 : pObject (skip false r2) with
      | none => simp [h3] at h
      | some x3 =>
        obtain ⟨c, r3⟩ := x3
        rw [h3] at h; simp only [Option.map_eq_some_iff] at h
        obtain ⟨q, h4, h5⟩ := h
        simp only [Prod.mk.injEq] at h5
        refine ⟨a, b, c, r1, r2, r3, rfl, h2, h3, ?_⟩
        unfold pEnd at h4
        split at h4
        · rename_i e
          cases h4; rw [e, h5.2]
        · cases h4

theorem acc_end {u : Str} : Acc T (.rule .END_OF_STATEMENT) ('.' :: u) u := Acc.rule rfl (acc_str rfl)

/-- No directive begins like a subject. -/
theorem rej_directives {x : RNode × Str} (h : pSubject s = some x) : Rej T (.rule .prefixID) s ∧ Rej T (.rule .base) s ∧
    Rej T (.rule .sparqlPrefix) s ∧ Rej T (.rule .sparqlBase) s := by
  obtain ⟨c, u, rfl, hc⟩ := pSubject_head h
  refine ⟨Rej.rule rfl (Rej.seq (rej_chr ?_)), Rej.rule rfl (Rej.seq (rej_chr ?_)), Rej.rule rfl (Rej.seq (rej_istr ?_)),
    Rej.rule rfl (Rej.seq (rej_istr ?_))⟩
  · rcases hc with rfl | rfl | rfl <;> decide
  · rcases hc with rfl | rfl | rfl <;> decide
  · rcases hc with rfl | rfl | rfl <;> rfl
  · rcases hc with rfl | rfl | rfl <;> rfl

theorem rej_directive {x : RNode × Str} (h : pSubject s = some x) : Rej T (.rule .directive) s := by
  obtain ⟨h1, h2, h3, h4⟩ := rej_directives (T := T) h
  exact Rej.rule rfl (Rej.alt h1 (Rej.alt h2 (Rej.alt h3 h4)))

theorem acc_turtleObject {o : RObject} {u : Str} (h : pObject s = some (o, r)) (hd : skip false r = '.' :: u) : Acc T (.rule .turtleObject) s r := by
  refine Acc.rule rfl ?_
  rcases object_cases (T := T) h hd with ⟨i, h⟩ | ⟨h1, h2⟩ | ⟨h1, h2, h3, _⟩
  · exact Acc.left (acc_iri h)
  · exact Rej.right h1 (Acc.left h2)
  · exact Rej.right h1 (Rej.right h2 (Acc.left h3))

/-- What comes after the subject in Turtle. -/
theorem acc_predicateObjectList {b : Str} {c : RObject} {r1 r2 r3 : Str} (h2 : pIriRef r1 = some (b, r2))
    (h3 : pObject (skip false r2) = some (c, r3)) (h4 : skip false r3 = '.' :: r) : Acc T (.rule .predicateObjectList) r1 ('.' :: r) := by
  have ho : Acc T (.rule .objectList) (skip false r2) ('.' :: r) := by
    refine Acc.rule rfl (Acc.seq (acc_turtleObject h3 h4) ?_)
    rw [h4]
    exact Rej.star (Rej.seq (rej_chr (by decide)))
  refine Acc.rule rfl (Acc.seq (Acc.rule rfl (Acc.seq (Acc.rule rfl (Acc.left (Acc.rule rfl (acc_iri h2)))) ho)) ?_)
  rw [skip_dot]
  exact Rej.star (Rej.seq (rej_chr (by decide)))

theorem acc_turtle {l : RLine} (h : pTriple s = some (l, r)) : Acc T (.rule .statement) s r := by
  obtain ⟨a, b, c, r1, r2, r3, h1, h2, h3, h4⟩ := pTriple_parts h
  have hs : Acc T (.rule .turtleSubject) s r1 := by
    refine Acc.rule rfl ?_
    rcases node_cases (T := T) h1 with ⟨i, h⟩ | ⟨h1, h2⟩
    · exact Acc.left (acc_iri h)
    · exact Rej.right h1 (Acc.left h2)
  refine Acc.rule rfl (Rej.right (rej_directive h1) (Acc.seq (Acc.rule rfl (Acc.left (Acc.seq hs (acc_predicateObjectList h2 h3 h4)))) ?_))
  rw [skip_dot]
  exact acc_end

theorem acc_trig {l : RLine} (h : pTriple s = some (l, r)) : Acc T (.alt (.rule .directive) (.rule .block)) s r := by
  obtain ⟨a, b, c, r1, r2, r3, h1, h2, h3, h4⟩ := pTriple_parts h
  have hs : Acc T (.rule .labelOrSubject) s r1 := by
    refine Acc.rule rfl ?_
    rcases node_cases (T := T) h1 with ⟨i, h⟩ | ⟨h1, h2⟩
    · exact Acc.left (acc_iri h)
    · exact Rej.right h1 h2
  refine Rej.right (rej_directive h1) (Acc.rule rfl (Acc.left (Acc.rule rfl (Acc.seq hs (Rej.right (Rej.rule rfl (Rej.seq ?_))
    (Acc.seq (acc_predicateObjectList h2 h3 h4) ?_))))))
  · obtain ⟨u, hu⟩ := pIriRef_some_head h2
    rw [hu]; exact rej_chr (by decide)
  · rw [skip_dot]; exact acc_end

/-- A term of N3 that no mark of a path follows. -/
theorem acc_expression {c : Char} {u : Str} (h : Acc T (.rule .pathItem) s r) (hc : skip false r = c :: u) (h1 : c ≠ '!') (h2 : c ≠ '^') :
    Acc T (.rule .expression) s (c :: u) := by
  refine Acc.rule rfl (Acc.rule rfl (Acc.seq h ?_))
  rw [hc]
  exact Rej.opt (Rej.alt (Rej.seq (rej_chr (Ne.symm h1))) (Rej.seq (rej_chr (Ne.symm h2))))

theorem skip_self {c : Char} {u : Str} (h : skip false r = c :: u) : skip false (c :: u) = c :: u := by rw [← h, skip_idem]

theorem acc_n3 {l : RLine} (h : pTriple s = some (l, r)) :
    Acc T (.alt (.seq (.rule .n3Statement) (.rule .END_OF_STATEMENT)) (.rule .sparqlDirective)) s r := by
  obtain ⟨a, b, c, r1, r2, r3, h1, h2, h3, h4⟩ := pTriple_parts h
  obtain ⟨d1, d2, _, _⟩ := rej_directives (T := T) h1
  obtain ⟨u1, e1⟩ := pIriRef_some_head h2
  obtain ⟨c2, u2, e2, hc2⟩ := pObject_head h3
  have hs : Acc T (.rule .n3Subject) s ('<' :: u1) := by
    refine Acc.rule rfl (acc_expression (r := r1) (Acc.rule rfl ?_) e1 (by decide) (by decide))
    rcases node_cases (T := T) h1 with ⟨i, h⟩ | ⟨h1, h2⟩
    · exact Acc.left (acc_iri h)
    · exact Rej.right h1 (Acc.left h2)
  have hp : Acc T (.rule .n3Verb) ('<' :: u1) (c2 :: u2) := by
    refine Acc.rule rfl (Acc.left (Acc.rule rfl (Acc.left (acc_expression (r := r2) (Acc.rule rfl (Acc.left (acc_iri (e1 ▸ h2)))) e2 ?_ ?_))))
    · rcases hc2 with rfl | rfl | rfl | rfl <;> decide
    · rcases hc2 with rfl | rfl | rfl | rfl <;> decide
  have ho : Acc T (.rule .n3Object) (c2 :: u2) ('.' :: r) := by
    refine Acc.rule rfl (acc_expression (r := r3) (Acc.rule rfl ?_) h4 (by decide) (by decide))
    rw [← e2]
    rcases object_cases (T := T) h3 h4 with ⟨i, h⟩ | ⟨h1, h2⟩ | ⟨h1, h2, h3, w, hw⟩
    · exact Acc.left (acc_iri h)
    · exact Rej.right h1 (Acc.left h2)
    · refine Rej.right h1 (Rej.right h2 (Rej.right ?_ (Rej.right ?_ (Rej.right ?_ (Acc.left h3)))))
      · rw [hw]
        refine Rej.rule rfl (reads_rule (g := commonGrammar) (i := GRule.QUICK_VAR_NAME) (m := .free) (x := none) (reads_seq_none
          ((reads_str _).cast (by simp [stripPrefix]))))
      · rw [hw]; exact Rej.rule rfl (Rej.seq (rej_chr (by decide)))
      · rw [hw]; exact Rej.rule rfl (Rej.seq (rej_chr (by decide)))
  have hl : Acc T (.rule .n3ObjectList) (c2 :: u2) ('.' :: r) := by
    refine Acc.rule rfl (Acc.seq ho ?_)
    rw [skip_dot]
    exact Rej.star (Rej.seq (rej_chr (by decide)))
  have hpo : Acc T (.rule .n3PredicateObjectList) ('<' :: u1) ('.' :: r) := by
    refine Acc.rule rfl (Acc.seq hp (Acc.seq (r := '.' :: r) ?_ ?_))
    · rw [skip_self e2]; exact hl
    · rw [skip_dot]; exact Rej.star (Rej.seq (rej_chr (by decide)))
  refine Acc.left (Acc.seq (r := '.' :: r) (Acc.rule rfl (Rej.right (Rej.rule rfl (Rej.alt d1 d2)) (Acc.rule rfl (Acc.seq hs ?_)))) ?_)
  · rw [skip_self e1]; exact Acc.opt hpo
  · rw [skip_dot]; exact acc_end

/-! ### Documents -/

/-- What is not nullable reads nothing of nothing. -/
theorem rej_empty {e : Peg GRule} (hn : e.nullable GRule.nullable = false) (hf : e.fine GRule.nullable GRule.rank 13 13 = true) : Rej T e [] := by
  obtain ⟨x, h⟩ := commonGrammar_ends.reads_aux (total := T) (fun _ => True) (fun _ _ _ => trivial)
    (fun m _ s => commonGrammar_ends.skips ⟨rfl, rfl⟩ m s) 0 13 (Nat.le_refl _) e .free [] trivial (by simp) hf
  cases x with
  | none => exact h
  | some y =>
    obtain ⟨n, h⟩ := h
    have := (PegGrammar.run_left commonGrammar_ends.null h).2 hn
    simp at this

theorem acc_more {e : Peg GRule} (hn : e.nullable GRule.nullable = false) (hf : e.fine GRule.nullable GRule.rank 13 13 = true)
    {p : Str → Option (RLine × Str)} (hp : ∀ {s l r}, p s = some (l, r) → Acc T e s r) (n : Nat) (s : Str)
    (h : (pLines p n (skip false s)).2 = []) : ∃ r, Acc T (.more e) s r ∧ skip false r = [] := by
  induction n generalizing s with
  | zero => exact ⟨s, Rej.more (by rw [show skip false s = [] from h]; exact rej_empty hn hf), h⟩
  | succ n ih =>
    cases hl : p (skip false s) with
    | none =>
      simp only [pLines, hl] at h
      exact ⟨s, Rej.more (by rw [h]; exact rej_empty hn hf), h⟩
    | some y =>
      obtain ⟨l, q⟩ := y
      simp only [pLines, hl] at h
      obtain ⟨r, h1, h2⟩ := ih q h
      exact ⟨r, Acc.more (hp hl) h1, h2⟩

/-- A document of lines is read by every other rule of documents that reads the lines. -/
theorem acc_doc {d : GRule} {e : Peg GRule} (hn : e.nullable GRule.nullable = false) (hf : e.fine GRule.nullable GRule.rank 13 13 = true)
    (hd : commonGrammar.body d = (.normal, .seq .soi (.seq (.star e) .eoi))) {p : Str → Option (RLine × Str)}
    (hp : ∀ {T s l r}, p s = some (l, r) → Acc T e s r) {ls : List RLine} (h : pDoc p s = some ls) : Acc s.length (.rule d) s [] := by
  have h' : (pLines p s.length (skip false s)).2 = [] := by
    unfold pDoc at h
    split at h
    · rename_i e; rw [e]
    · cases h
  have hstar : ∃ r, Acc s.length (.star e) (skip false s) r ∧ skip false r = [] := by
    cases hk : s.length with
    | zero =>
      rw [hk] at h'
      have h' : skip false s = [] := h'
      rw [h']
      exact ⟨[], Rej.star (rej_empty hn hf), rfl⟩
    | succ k =>
      rw [hk] at h'
      cases hl : p (skip false s) with
      | none =>
        simp only [pLines, hl] at h'
        rw [h']
        exact ⟨[], Rej.star (rej_empty hn hf), rfl⟩
      | some y =>
        obtain ⟨l, q⟩ := y
        simp only [pLines, hl] at h'
        obtain ⟨r, h1, h2⟩ := acc_more hn hf (hp (T := k + 1)) k q h'
        exact ⟨r, Acc.star (hp hl) h1, h2⟩
  obtain ⟨r, h1, h2⟩ := hstar
  refine Acc.rule (by rw [hd]; rfl) ?_
  rw [hd]
  refine Acc.seq (r := s) ⟨[], reads_soi.cast (by simp)⟩ (Acc.seq h1 ?_)
  rw [h2]
  exact ⟨[.mk none [] []], reads_eoi.cast (by simp)⟩

end Rdftk
