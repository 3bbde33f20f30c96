import Verif.Lemmas.PegTurtle
import Verif.Lemmas.NTExact

/-! What the rules of Turtle, TriG and N3 refuse, and what they read in another way. -/

namespace Rdftk

open PegGrammar Spec

variable {T : Nat} {s r r' : Str} {a b : Peg GRule}

theorem skips_atomic {g : PegGrammar GRule} : g.Skips T .atomic s [] s := by simp [Skips]

/-- A document whose first part is refused is refused. -/
theorem rej_doc {d : GRule} {e : Peg GRule} (hd : commonGrammar.body d = (.normal, .seq .soi (.seq (.star e) .eoi)))
    (hs : skip false s ≠ []) (h : Rej s.length e (skip false s)) : Rej s.length (.rule d) s := by
  refine Rej.rule (by rw [hd]; rfl) ?_
  rw [hd]
  refine Acc.seq_rej (r := s) ⟨[], reads_soi.cast (by simp)⟩ (Acc.seq_rej (Rej.star h) ?_)
  rw [skip_idem]
  refine (reads_eoi (g := commonGrammar)).cast ?_
  cases hk : skip false s with
  | nil => exact absurd hk hs
  | cons c u => rfl

/-- What reads a text and refuses it is nothing. -/
theorem Acc.not_rej (h : Acc T a s r) (h' : Rej T a s) : False := by
  obtain ⟨l, h⟩ := h
  exact Option.some_ne_none _ (h.det h')

theorem acc_prefixID_head (h : Acc T (.rule .prefixID) s r) : ∃ u, s = '@' :: u := by
  cases hs : stripPrefix (str! "@prefix") s with
  | none => exact (h.not_rej (Rej.rule rfl (Rej.seq (rej_str hs)))).elim
  | some u => exact ⟨_, stripPrefix_eq hs⟩

theorem rej_end (h : pEnd r = none) : Rej T (.rule .END_OF_STATEMENT) (skip false r) := (reads_end_skip r).cast (by rw [h]; rfl)

/-- In N3 a prefix directive with one dot is refused. -/
theorem rej_n3_prefix (h : Acc s.length (.rule .prefixID) s r) (hr : pEnd r = none) : Rej s.length (.rule .n3Doc) s := by
  obtain ⟨u, hu⟩ := acc_prefixID_head h
  have hk : skip false s = s := by rw [hu]; rfl
  refine rej_doc (e := .alt (.seq (.rule .n3Statement) (.rule .END_OF_STATEMENT)) (.rule .sparqlDirective)) rfl (by rw [hk, hu]; simp) ?_
  rw [hk]
  refine Rej.alt (Acc.seq_rej (Acc.rule rfl (Acc.left (Acc.rule rfl (Acc.left h)))) (rej_end hr)) ?_
  rw [hu]
  exact Rej.rule rfl (Rej.alt (Rej.rule rfl (Rej.seq (rej_istr rfl))) (Rej.rule rfl (Rej.seq (rej_istr rfl))))

/-- In TriG nothing begins with a quoted triple. -/
theorem rej_trig_quoted {u : Str} (h : skip false s = '<' :: u) (hi : pIriRef ('<' :: u) = none) : Rej s.length (.rule .trigDoc) s := by
  refine rej_doc (e := .alt (.rule .directive) (.rule .block)) rfl (by rw [h]; simp) ?_
  rw [h]
  have hn : Rej s.length (.rule .labelOrSubject) ('<' :: u) :=
    Rej.rule rfl (Rej.alt (rej_iri (by decide) (by decide) (by decide) (by decide) hi)
      ((reads_blank _).cast (by rw [show pBlank ('<' :: u) = none by simp [pBlank, pLabel, pAnon]]; rfl)))
  refine Rej.alt (Rej.rule rfl ?_) (Rej.rule rfl ?_)
  · exact Rej.alt (Rej.rule rfl (Rej.seq (rej_chr (by decide)))) (Rej.alt (Rej.rule rfl (Rej.seq (rej_chr (by decide))))
      (Rej.alt (Rej.rule rfl (Rej.seq (rej_istr rfl))) (Rej.rule rfl (Rej.seq (rej_istr rfl)))))
  · refine Rej.alt (Rej.rule rfl (Rej.seq hn)) (Rej.alt (Rej.rule rfl (Rej.seq (rej_chr (by decide)))) (Rej.alt (Rej.rule rfl (Rej.alt ?_ ?_))
      (Rej.rule rfl (Rej.seq (rej_chr (by decide))))))
    · exact Rej.seq (Rej.rule rfl (Rej.seq (rej_chr (by decide))))
    · exact Rej.seq (Rej.rule rfl (Rej.seq (rej_chr (by decide))))

/-! ### Literals that are not there -/

theorem reads_not_digit {c : Char} {u : Str} (h : isAsciiDigit c = false) : commonGrammar.Reads T .atomic Peg.asciiDigit (c :: u) none :=
  (One.ascii_digit (c :: u)).cast (by simp [gOneOf, h])

theorem reads_not_digit_nil : commonGrammar.Reads T .atomic Peg.asciiDigit [] none := (One.ascii_digit []).cast rfl

/-- The text begins with no digit. -/
def NoDigit : Str → Prop
  | [] => True
  | c :: _ => isAsciiDigit c = false

theorem reads_noDigit (h : NoDigit s) : commonGrammar.Reads T .atomic Peg.asciiDigit s none := by
  cases s with
  | nil => exact reads_not_digit_nil
  | cons c u => exact reads_not_digit h

theorem rej_numeric {c : Char} {u : Str} (h : isAsciiDigit c = false) (h1 : c ≠ '+') (h2 : c ≠ '-') (h3 : c = '.' → NoDigit u) :
    Rej T (.rule .NumericLiteral) (c :: u) := by
  have sign : commonGrammar.Reads T .atomic (.opt (.rule .SIGN)) (c :: u) (some ([], c :: u)) := by
    refine reads_opt (x := none) (reads_rule_atomic (by decide) (reads_alt_right ?_ ?_))
    · exact (one_chr '+' _).cast (by simp [gOneOf, h1])
    · exact (one_chr '-' _).cast (by simp [gOneOf, h2])
  have digit := reads_not_digit (T := T) (u := u) h
  have star : commonGrammar.Reads T .atomic (.star Peg.asciiDigit) (c :: u) (some ([], c :: u)) := reads_star_none digit
  have dot : ∀ e : Peg GRule, commonGrammar.Reads T .atomic (.seq (.str ['.']) (.seq (.seq Peg.asciiDigit (.star Peg.asciiDigit)) e)) (c :: u) none := by
    intro e
    by_cases hc : c = '.'
    · subst hc
      exact reads_seq (x := none) ((one_chr '.' _).cast (y := some ([], u)) (by simp [gOneOf])) skips_atomic
        (reads_seq_none (reads_seq_none (reads_noDigit (h3 rfl))))
    · exact reads_seq_none ((one_chr '.' _).cast (by simp [gOneOf, hc]))
  have dot' : commonGrammar.Reads T .atomic (.seq (.str ['.']) (.seq Peg.asciiDigit (.star Peg.asciiDigit))) (c :: u) none := by
    by_cases hc : c = '.'
    · subst hc
      exact reads_seq (x := none) ((one_chr '.' _).cast (y := some ([], u)) (by simp [gOneOf])) skips_atomic
        (reads_seq_none (reads_noDigit (h3 rfl)))
    · exact reads_seq_none ((one_chr '.' _).cast (by simp [gOneOf, hc]))
  refine Rej.rule rfl (Rej.alt ?_ (Rej.alt ?_ ?_))
  · refine reads_rule (g := commonGrammar) (i := GRule.Double) (m := .free) (x := none) (reads_seq (x := none) sign skips_atomic ?_)
    exact reads_alt_right (reads_seq_none (reads_seq_none digit)) (reads_alt_right (dot _) (reads_seq_none (reads_seq_none digit)))
  · refine reads_rule (g := commonGrammar) (i := GRule.Decimal) (m := .free) (x := none) (reads_seq (x := none) sign skips_atomic ?_)
    exact reads_seq (x := none) star skips_atomic dot'
  · refine reads_rule (g := commonGrammar) (i := GRule.Integer) (m := .free) (x := none) (reads_seq (x := none) sign skips_atomic ?_)
    exact reads_seq_none digit

theorem rej_turtleLiteral {c : Char} {u : Str} (h : isAsciiDigit c = false) (hc : c ∉ (str! "+-\"'tf")) (h3 : c = '.' → NoDigit u) :
    Rej T (.rule .turtleLiteral) (c :: u) := by
  simp only [List.mem_cons, List.not_mem_nil, or_false, not_or] at hc
  obtain ⟨c1, c2, c3, c4, c5, c6⟩ := hc
  refine Rej.rule rfl (Rej.alt (Rej.rule rfl (Rej.seq (Rej.rule rfl (Rej.alt ?_ (Rej.alt ?_ (Rej.alt ?_ ?_)))))) (Rej.alt (rej_numeric h c1 c2 h3)
    (Rej.rule rfl (Rej.alt (rej_chr (Ne.symm c5)) (rej_chr (Ne.symm c6))))))
  · exact reads_rule (g := commonGrammar) (i := GRule.STRING_LITERAL_LONG_SINGLE_QUOTE) (m := .free) (x := none)
      (reads_seq_none ((reads_str _).cast (by simp [stripPrefix, Ne.symm c4])))
  · exact reads_rule (g := commonGrammar) (i := GRule.STRING_LITERAL_LONG_QUOTE) (m := .free) (x := none)
      (reads_seq_none ((reads_str _).cast (by simp [stripPrefix, Ne.symm c3])))
  · exact reads_rule (g := commonGrammar) (i := GRule.STRING_LITERAL_QUOTE) (m := .free) (x := none)
      (reads_seq_none ((reads_str _).cast (by simp [stripPrefix, Ne.symm c3])))
  · exact reads_rule (g := commonGrammar) (i := GRule.STRING_LITERAL_SINGLE_QUOTE) (m := .free) (x := none)
      (reads_seq_none ((reads_str _).cast (by simp [stripPrefix, Ne.symm c4])))

theorem rej_blank {c : Char} {u : Str} (h1 : c ≠ '_') (h2 : c ≠ '[') : Rej T (.rule .blankNode) (c :: u) := by
  have : pBlank (c :: u) = none := by
    cases h : pBlank (c :: u) with
    | none => rfl
    | some x =>
      obtain ⟨d, v, e, hd⟩ := pBlank_head h
      simp only [List.cons.injEq] at e
      obtain ⟨rfl, rfl⟩ := e
      rcases hd with rfl | rfl <;> contradiction
  exact (reads_blank _).cast (by rw [this]; rfl)

/-- A character that no term of N3 begins with. -/
theorem rej_pathItem {c : Char} {u : Str} (h : isAsciiDigit c = false) (hb : isPnCharsBase c = false) (hw : isWs c = false)
    (hc : c ∉ (str! "+-\"'tf.<:#_[?({")) : Rej T (.rule .pathItem) (c :: u) := by
  simp only [List.mem_cons, List.not_mem_nil, or_false, not_or] at hc
  obtain ⟨c1, c2, c3, c4, c5, c6, c7, c8, c9, c10, c11, c12, c13, c14, c15⟩ := hc
  refine Rej.rule rfl (Rej.alt (rej_iri hb c9 hw c10 (pIriRef_head c8)) (Rej.alt (rej_blank c11 c12) (Rej.alt (Rej.rule rfl ?_)
    (Rej.alt (Rej.rule rfl (Rej.seq (rej_chr (Ne.symm c14)))) (Rej.alt (Rej.rule rfl (Rej.seq (rej_chr (Ne.symm c12)))) (Rej.alt
      (rej_turtleLiteral h (by simp [*]) (fun e => absurd e c7)) (Rej.rule rfl (Rej.seq (rej_chr (Ne.symm c15))))))))))
  exact reads_rule (g := commonGrammar) (i := GRule.QUICK_VAR_NAME) (m := .free) (x := none) (reads_seq_none
    ((reads_str _).cast (by simp [stripPrefix, Ne.symm c13])))

theorem rej_expression {c : Char} {u : Str} (h : isAsciiDigit c = false) (hb : isPnCharsBase c = false) (hw : isWs c = false)
    (hc : c ∉ (str! "+-\"'tf.<:#_[?({")) : Rej T (.rule .expression) (c :: u) :=
  Rej.rule rfl (Rej.rule rfl (Rej.seq (rej_pathItem h hb hw hc)))

/-! ### The arrow of N3 -/

/-- The arrow is read as an equals sign. -/
theorem acc_arrow {u : Str} : Acc T (.rule .n3Verb) ('=' :: u) u := by
  refine Acc.rule rfl (Rej.right (Rej.rule rfl (Rej.alt (rej_expression (by decide) (by decide) (by decide) (by decide))
    (Rej.seq (rej_chr (by decide))))) (Rej.right (rej_chr (by decide)) (Rej.right (Rej.seq (rej_chr (by decide)))
    (Rej.right (Rej.seq (rej_chr (by decide))) (Acc.left (acc_str rfl))))))

theorem rej_arrow {u : Str} : Rej T (.rule .n3PredicateObjectList) ('=' :: '>' :: u) :=
  Rej.rule rfl (Acc.seq_rej acc_arrow (Rej.seq (Rej.rule rfl (Rej.seq (Rej.rule rfl (rej_expression (c := '>') (by decide) (by decide)
    (by decide) (by decide)))))))

theorem rej_sparql {c : Char} {u : Str} (h : c ∉ (str! "bBpP")) : Rej T (.rule .sparqlBase) (c :: u) ∧ Rej T (.rule .sparqlPrefix) (c :: u) := by
  have key : ∀ d ∈ (str! "BP"), asciiLower d ≠ asciiLower c := by
    intro d hd e
    simp only [List.mem_cons, List.not_mem_nil, or_false, not_or] at h hd
    have hl : asciiLower c = 'b' ∨ asciiLower c = 'p' := by
      rcases hd with rfl | rfl
      · exact .inl (e ▸ (by decide))
      · exact .inr (e ▸ (by decide))
    unfold asciiLower at hl
    split at hl
    · rename_i hr
      simp only [inRange, Bool.and_eq_true, decide_eq_true_eq] at hr
      have hv : (Char.ofNat (c.toNat + 32)).toNat = c.toNat + 32 := by
        rw [Char.ofNat, dif_pos (by simp [Nat.isValidChar]; omega)]
        rfl
      rcases hl with hl | hl
      · rw [hl] at hv
        exact h.2.1 (Char.toNat_inj.1 (by rw [show ('B' : Char).toNat = 66 from rfl]; rw [show ('b' : Char).toNat = 98 from rfl] at hv; omega))
      · rw [hl] at hv
        exact h.2.2.2 (Char.toNat_inj.1 (by rw [show ('P' : Char).toNat = 80 from rfl]; rw [show ('p' : Char).toNat = 112 from rfl] at hv; omega))
    · grind
  refine ⟨Rej.rule rfl (Rej.seq (rej_istr ?_)), Rej.rule rfl (Rej.seq (rej_istr ?_))⟩
  · have := key 'B' (by decide)
    simp [stripPrefixI, this]
  · have := key 'P' (by decide)
    simp [stripPrefixI, this]

theorem rej_n3_arrow {c : Char} {v u : Str} (hs : skip false s = c :: v) (hc : c ∉ (str! "@bBpP")) (h : Acc s.length (.rule .n3Subject) (c :: v) r)
    (hr : skip false r = '=' :: '>' :: u) : Rej s.length (.rule .n3Doc) s := by
  simp only [List.mem_cons, List.not_mem_nil, or_false, not_or] at hc
  refine rej_doc (e := .alt (.seq (.rule .n3Statement) (.rule .END_OF_STATEMENT)) (.rule .sparqlDirective)) rfl (by rw [hs]; simp) ?_
  rw [hs]
  have hd : Rej s.length (.rule .n3Directive) (c :: v) :=
    Rej.rule rfl (Rej.alt (Rej.rule rfl (Rej.seq (rej_chr (Ne.symm hc.1)))) (Rej.rule rfl (Rej.seq (rej_chr (Ne.symm hc.1)))))
  obtain ⟨h1, h2⟩ := rej_sparql (T := s.length) (c := c) (u := v) (by simp [hc])
  refine Rej.alt (Acc.seq_rej (r := '=' :: '>' :: u) (Acc.rule rfl (Rej.right hd (Acc.rule rfl (Acc.seq h ?_)))) ?_) (Rej.rule rfl (Rej.alt h1 h2))
  · rw [hr]; exact Rej.opt rej_arrow
  · exact Rej.rule rfl (rej_chr (by decide))

/-! ### Names -/

theorem reads_chars {e : Peg GRule} {P : Char → Prop} (h : ∀ c u, P c → commonGrammar.Reads T .atomic e (c :: u) (some ([], u))) {t : Str}
    (ht : commonGrammar.Reads T .atomic e t none) (x : Str) (hx : ∀ c ∈ x, P c) : commonGrammar.Reads T .atomic (.more e) (x ++ t) (some ([], t)) := by
  induction x with
  | nil => exact reads_more_none skips_atomic ht
  | cons c x ih => exact reads_more skips_atomic (h c (x ++ t) (hx c (by simp))) (ih fun d hd => hx d (by simp [hd]))

theorem reads_chars_star {e : Peg GRule} {P : Char → Prop} (h : ∀ c u, P c → commonGrammar.Reads T .atomic e (c :: u) (some ([], u))) {t : Str}
    (ht : commonGrammar.Reads T .atomic e t none) (x : Str) (hx : ∀ c ∈ x, P c) : commonGrammar.Reads T .atomic (.star e) (x ++ t) (some ([], t)) := by
  cases x with
  | nil => exact reads_star_none ht
  | cons c x => exact reads_star (h c (x ++ t) (hx c (by simp))) (reads_chars h ht x fun d hd => hx d (by simp [hd]))

/-- A character that ends every name. -/
def EndsName (c : Char) : Prop := isPnChars c = false ∧ c ≠ '.'

theorem reads_prefixTail {c : Char} {u : Str} (h : isPnChars c = true) : commonGrammar.Reads T .atomic (.rule .PN_PREFIX_TAIL) (c :: u) (some ([], u)) :=
  reads_rule_atomic (by decide) (reads_alt_left ((one_pn _).cast (by simp [gOneOf, h])))

theorem reads_prefixTail_none {c : Char} {u : Str} (h : EndsName c) : commonGrammar.Reads T .atomic (.rule .PN_PREFIX_TAIL) (c :: u) none :=
  reads_rule_atomic (by decide) (reads_alt_right ((one_pn _).cast (by simp [gOneOf, h.1])) (reads_seq_none (reads_look (x := none)
    (reads_seq_none ((one_chr '.' _).cast (by simp [gOneOf, h.2]))))))

theorem acc_prefix {c d : Char} {p u : Str} (hc : isPnCharsBase c = true) (hp : ∀ e ∈ p, isPnChars e = true) (hd : EndsName d) :
    Acc T (.rule .PN_PREFIX) (c :: (p ++ d :: u)) (d :: u) := by
  refine ⟨_, reads_rule (g := commonGrammar) (i := GRule.PN_PREFIX) (m := .free) (reads_seq (l := []) (r := p ++ d :: u) ((one_pnBase _).cast ?_)
    skips_atomic (reads_chars_star (fun c u h => reads_prefixTail h) (reads_prefixTail_none hd) p hp))⟩
  simp [gOneOf, hc]

theorem endsName_ws {c : Char} (h : isWs c = true ∨ c = ':' ∨ c = '#') : EndsName c := by
  rw [isWs_iff] at h
  simp only [List.mem_cons, List.not_mem_nil, or_false] at h
  rcases h with (rfl | rfl | rfl | rfl) | rfl | rfl <;> exact ⟨by decide, by decide⟩

theorem gap_head {g : Str} (h : Gap g) : g = [] ∨ ∃ c u, g = c :: u ∧ (isWs c = true ∨ c = '#') := by
  cases h with
  | nil => exact .inl rfl
  | ws hc _ => exact .inr ⟨_, _, rfl, .inl (by rw [isWs_iff]; exact hc)⟩
  | comment => exact .inr ⟨_, _, rfl, .inr rfl⟩

/-- White space and comments are allowed between the prefix and the colon. -/
theorem acc_ns {c : Char} {p g u : Str} (hc : isPnCharsBase c = true) (hp : ∀ e ∈ p, isPnChars e = true) (hg : Gap g) :
    Acc T (.rule .PNAME_NS) (c :: (p ++ (g ++ ':' :: u))) u := by
  have hcolon : Acc T (.str [':']) (skip false (g ++ ':' :: u)) u := by
    rw [skip_gap hg, show skip false (':' :: u) = ':' :: u by simp [skip, isWs, isNewline]]
    exact acc_str rfl
  refine Acc.rule rfl (Acc.seq (r := g ++ ':' :: u) (Acc.opt ?_) hcolon)
  rcases gap_head hg with rfl | ⟨d, v, rfl, hd⟩
  · exact acc_prefix hc hp (endsName_ws (.inr (.inl rfl)))
  · exact acc_prefix hc hp (endsName_ws (by grind))

theorem reads_plx_none {c : Char} {u : Str} (h1 : c ≠ '%') (h2 : c ≠ '\\') : commonGrammar.Reads T .atomic (.rule .PLX) (c :: u) none :=
  reads_rule_atomic (by decide) (reads_alt_right
    (reads_rule_atomic (by decide) (reads_seq_none ((reads_str _).cast (by simp [stripPrefix, Ne.symm h1]))))
    (reads_rule_atomic (by decide) (reads_seq_none ((reads_str _).cast (by simp [stripPrefix, Ne.symm h2])))))

theorem reads_localChars {c : Char} {u : Str} (h : isPnChars c = true) : commonGrammar.Reads T .atomic (.rule .PN_LOCAL_CHARS) (c :: u) (some ([], u)) :=
  reads_rule_atomic (by decide) (reads_alt_left ((one_pn _).cast (by simp [gOneOf, h])))

theorem reads_localTail {c : Char} {u : Str} (h : isPnChars c = true) : commonGrammar.Reads T .atomic (.rule .PN_LOCAL_TAIL) (c :: u) (some ([], u)) :=
  reads_rule_atomic (by decide) (reads_alt_left (reads_localChars h))

theorem reads_localTail_none {c : Char} {u : Str} (h : EndsName c) (h1 : c ∉ (str! ":%\\")) :
    commonGrammar.Reads T .atomic (.rule .PN_LOCAL_TAIL) (c :: u) none := by
  simp only [List.mem_cons, List.not_mem_nil, or_false, not_or] at h1
  refine reads_rule_atomic (by decide) (reads_alt_right (reads_rule_atomic (by decide) (reads_alt_right ((one_pn _).cast (by simp [gOneOf, h.1]))
    (reads_alt_right ((one_chr ':' _).cast (by simp [gOneOf, h1.1])) (reads_plx_none h1.2.1 h1.2.2)))) (reads_seq_none (reads_look (x := none)
    (reads_seq_none ((one_chr '.' _).cast (by simp [gOneOf, h.2]))))))

theorem acc_local {c d : Char} {x u : Str} (hc : isPnCharsU c = true) (hx : ∀ e ∈ x, isPnChars e = true) (hd : EndsName d) (h1 : d ∉ (str! ":%\\")) :
    Acc T (.rule .PN_LOCAL) (c :: (x ++ d :: u)) (d :: u) := by
  refine ⟨_, reads_rule (g := commonGrammar) (i := GRule.PN_LOCAL) (m := .free) (reads_seq (l := []) (r := x ++ d :: u)
    (reads_alt_left ((one_pnU _).cast ?_)) skips_atomic (reads_chars_star (fun c u h => reads_localTail h) (reads_localTail_none hd h1) x hx))⟩
  simp [gOneOf, hc]

/-- A prefix, white space, a colon and a local name are one name. -/
theorem acc_name {c e d : Char} {p g x u : Str} (hc : isPnCharsBase c = true) (hp : ∀ e ∈ p, isPnChars e = true) (hg : Gap g)
    (he : isPnCharsU e = true) (hx : ∀ e ∈ x, isPnChars e = true) (hd : EndsName d) (h1 : d ∉ (str! ":%\\")) :
    Acc T (.rule .iri) (c :: (p ++ (g ++ ':' :: e :: (x ++ d :: u)))) (d :: u) := by
  have hi : pIriRef (c :: (p ++ (g ++ ':' :: e :: (x ++ d :: u)))) = none := pIriRef_head (by rintro rfl; revert hc; decide)
  have hs : skip false (e :: (x ++ d :: u)) = e :: (x ++ d :: u) := by
    refine skip_solid ⟨e, _, rfl, ?_, ?_⟩
    · cases hw : isWs e
      · rfl
      · rw [isWs_iff] at hw
        simp only [List.mem_cons, List.not_mem_nil, or_false] at hw
        rcases hw with rfl | rfl | rfl | rfl <;> revert he <;> decide
    · rintro rfl; revert he; decide
  refine Acc.rule rfl (Rej.right ((reads_iri _).cast (by rw [hi]; rfl)) (Acc.rule rfl (Acc.left (Acc.rule rfl (Acc.seq (acc_ns hc hp hg) ?_)))))
  rw [hs]
  exact acc_local he hx hd h1

/-- A predicate `a` with a prefixed name behind it. -/
theorem rej_turtle_a {i x : Str} {e : Char} (hi : LooseIri i) (he : isPnCharsU e = true) (hx : ∀ e ∈ x, isPnChars e = true) :
    Rej T (.rule .statement) ('<' :: (i ++ '>' :: ' ' :: 'a' :: ' ' :: ':' :: e :: (x ++ [' ', '.']))) := by
  have h0 := pIriRef_loose hi (' ' :: 'a' :: ' ' :: ':' :: e :: (x ++ [' ', '.']))
  have hsub : pSubject ('<' :: (i ++ '>' :: ' ' :: 'a' :: ' ' :: ':' :: e :: (x ++ [' ', '.']))) =
      some (.iri i, ' ' :: 'a' :: ' ' :: ':' :: e :: (x ++ [' ', '.'])) := by unfold pSubject; rw [h0]
  have hg : Gap [' '] := .ws (by decide) .nil
  have hname : Acc T (.rule .iri) ('a' :: ' ' :: ':' :: e :: (x ++ [' ', '.'])) [' ', '.'] := 
    acc_name (T := T) (c := 'a') (p := []) (g := [' ']) (u := ['.']) (d := ' ') (by decide) (by simp) hg he hx
      (endsName_ws (.inl (by decide))) (by decide)
  have hobj : Rej T (.rule .objectList) ['.'] := by
    refine Rej.rule rfl (Rej.seq (Rej.rule rfl (Rej.alt (rej_iri (by decide) (by decide) (by decide) (by decide) rfl) (Rej.alt
      (rej_blank (by decide) (by decide)) (Rej.alt (rej_turtleLiteral (by decide) (by decide) (fun _ => trivial)) (Rej.alt
      (Rej.rule rfl (Rej.seq (rej_chr (by decide)))) (Rej.alt (Rej.rule rfl (Rej.seq (rej_chr (by decide)))) (Rej.rule rfl (Rej.seq
      (rej_chr (by decide)))))))))))
  have hpo : Rej T (.rule .predicateObjectList) ('a' :: ' ' :: ':' :: e :: (x ++ [' ', '.'])) :=
    Rej.rule rfl (Rej.seq (Rej.rule rfl (Acc.seq_rej (Acc.rule rfl (Acc.left (Acc.rule rfl hname))) hobj)))
  refine Rej.rule rfl (Rej.alt (rej_directive hsub) (Rej.seq (Rej.rule rfl (Rej.alt (Acc.seq_rej (Acc.rule rfl (Acc.left (acc_iri h0))) ?_)
    (Rej.seq (Rej.rule rfl (Rej.seq (rej_chr (by decide)))))))))
  exact hpo

/-! ### Long strings -/

/-- A character that is read as itself in a long string. -/
def LongPlain (c : Char) : Prop := c ∉ (str! "\"\\\r\n")

theorem reads_longNot {c : Char} {u : Str} (h : LongPlain c) : commonGrammar.Reads T .atomic (.rule .LONG_QUOTE_CHAR) (c :: u) (some ([], u)) := by
  simp only [LongPlain, List.mem_cons, List.not_mem_nil, or_false, not_or] at h
  refine reads_rule_atomic (by decide) (reads_alt_left (reads_seq (x := some ([], u)) (l := []) ((reads_not (x := none) ?_).cast (by rfl)) skips_atomic
    reads_any))
  exact reads_alt_right ((reads_str _).cast (by simp [stripPrefix, Ne.symm h.1])) (reads_alt_right
    ((reads_str _).cast (by simp [stripPrefix, Ne.symm h.2.1])) (reads_alt_right ((reads_str _).cast (by simp [stripPrefix, Ne.symm h.2.2.1]))
      ((reads_str _).cast (by simp [stripPrefix, Ne.symm h.2.2.2]))))

theorem reads_long_stop {u : Str} (h : u = ['"', '"', '"'] ++ r ∨ u = '\r' :: r ∨ u = '\n' :: r) :
    commonGrammar.Reads T .atomic (.rule .LONG_QUOTE_CHAR) u none := by
  have hnot : commonGrammar.Reads T .atomic (.alt (.str (str! "\"\"\"")) (.alt (.str (str! "\\")) (.alt (.str (str! "\r")) (.str (str! "\n"))))) u
      (some ([], r)) := by
    rcases h with rfl | rfl | rfl
    · exact reads_alt_left ((reads_str _).cast (by simp [stripPrefix]))
    · exact reads_alt_right ((reads_str _).cast (by simp [stripPrefix])) (reads_alt_right ((reads_str _).cast (by simp [stripPrefix]))
        (reads_alt_left ((reads_str _).cast (by simp [stripPrefix]))))
    · exact reads_alt_right ((reads_str _).cast (by simp [stripPrefix])) (reads_alt_right ((reads_str _).cast (by simp [stripPrefix]))
        (reads_alt_right ((reads_str _).cast (by simp [stripPrefix])) ((reads_str _).cast (by simp [stripPrefix]))))
  refine reads_rule_atomic (by decide) (reads_alt_right (reads_seq_none ((reads_not hnot).cast rfl)) (reads_alt_right ((reads_uchar _).cast ?_)
    ((reads_echar _).cast ?_)))
  · rcases h with rfl | rfl | rfl <;> simp [ucharLen, stripPrefix]
  · rcases h with rfl | rfl | rfl <;> simp [echarLen]

theorem reads_long_inner {t u : Str} (ht : ∀ c ∈ t, LongPlain c) (h : u = ['"', '"', '"'] ++ r ∨ u = '\r' :: r ∨ u = '\n' :: r) :
    ∃ l, commonGrammar.Reads T .compound (.rule .LONG_QUOTE_INNER) (t ++ u) (some (l, u)) := by
  exact ⟨_, reads_rule (g := commonGrammar) (i := GRule.LONG_QUOTE_INNER) (m := .compound)
    (reads_chars_star (fun c u h => reads_longNot h) (reads_long_stop h) t ht)⟩

theorem acc_long {t : Str} (ht : ∀ c ∈ t, LongPlain c) :
    Acc T (.rule .STRING_LITERAL_LONG_QUOTE) (['"', '"', '"'] ++ (t ++ (['"', '"', '"'] ++ r))) r := by
  obtain ⟨l, h⟩ := reads_long_inner (T := T) ht (.inl (rfl : ['"', '"', '"'] ++ r = _))
  exact ⟨_, reads_rule (g := commonGrammar) (i := GRule.STRING_LITERAL_LONG_QUOTE) (m := .free) (reads_seq (m := .compound) (l := [])
    (r := t ++ (['"', '"', '"'] ++ r)) ((reads_str _).cast (by simp [stripPrefix])) (skips_compound _) (reads_seq (m := .compound) h (skips_compound _)
    ((reads_str _).cast (y := some ([], r)) (by simp [stripPrefix]))))⟩

theorem rej_long {t : Str} {c : Char} (ht : ∀ c ∈ t, LongPlain c) (hc : c = '\r' ∨ c = '\n') :
    Rej T (.rule .STRING_LITERAL_LONG_QUOTE) (['"', '"', '"'] ++ (t ++ c :: r)) := by
  obtain ⟨l, h⟩ := reads_long_inner (T := T) (u := c :: r) (r := r) ht (by rcases hc with rfl | rfl <;> simp)
  exact reads_rule (g := commonGrammar) (i := GRule.STRING_LITERAL_LONG_QUOTE) (m := .free) (x := none) (reads_seq (x := none) (m := .compound) (l := [])
    (r := t ++ c :: r) ((reads_str _).cast (by simp [stripPrefix])) (skips_compound _) (reads_seq (x := none) (m := .compound) h (skips_compound _)
    ((reads_str _).cast (y := none) (by rcases hc with rfl | rfl <;> simp [stripPrefix]))))

end Rdftk
