import Verif.Lemmas.PegDeparts
import Verif.Lemmas.PegTokens
import Verif.Lemmas.TurtleText
import Verif.Spec.TurtleLayout
import Verif.Spec.TurtleGrammar

/-! What the Turtle writer lays out, under the rules of Turtle. -/

namespace Rdftk

open PegGrammar Spec

variable {T : Nat} {s r r' u : Str} {a b : Peg GRule}

/-- Something that ends every term follows. -/
def Brk (u : Str) : Prop := ∃ c w, u = c :: w ∧ (c = ' ' ∨ c = ',' ∨ c = '\n')

/-- What follows an object. -/
def Fol (u : Str) : Prop := Brk u ∧ ∃ c w, skip false u = c :: w ∧ c ∉ (str! "@^:")

theorem pn_solid {c : Char} (h : isPnChars c = true) : isWs c = false ∧ c ≠ '#' ∧ c ≠ '<' ∧ c ≠ ':' ∧ c ≠ ']' := by
  refine ⟨?_, ?_, ?_, ?_, ?_⟩
  · cases hw : isWs c
    · rfl
    · rw [isWs_iff] at hw
      simp only [List.mem_cons, List.not_mem_nil, or_false] at hw
      rcases hw with rfl | rfl | rfl | rfl <;> revert h <;> decide
  all_goals rintro rfl; revert h; decide

theorem base_pn {c : Char} (h : isPnCharsBase c = true) : isPnChars c = true := by simp [isPnChars, isPnCharsU, h]

theorem u_pn {c : Char} (h : isPnCharsU c = true) : isPnChars c = true := by simp [isPnChars, h]

theorem brk_ends (h : c = ' ' ∨ c = ',' ∨ c = '\n') : EndsName c ∧ c ∉ (str! ":%\\") := by
  rcases h with rfl | rfl | rfl <;> exact ⟨⟨by decide, by decide⟩, by decide⟩

/-! ### IRIs -/

/-- A text that begins a term. -/
def Begins (v : Str) : Prop := ∃ c w, v = c :: w ∧ isWs c = false ∧ c ≠ '#' ∧ c ≠ ']'

theorem Begins.skip {v : Str} (h : Begins v) (u : Str) : skip false (v ++ u) = v ++ u := by
  obtain ⟨c, w, rfl, h1, h2, -⟩ := h
  exact skip_solid ⟨c, w ++ u, rfl, h1, h2⟩

theorem Spec.GIriText.begins {v : Str} (h : GIriText v) : Begins v := by
  rcases h with ⟨i, -, rfl⟩ | ⟨p, x, hp, -, rfl⟩
  · exact ⟨'<', _, rfl, by decide, by decide, by decide⟩
  · rcases hp with rfl | ⟨c, q, rfl, hc, -⟩
    · exact ⟨':', _, rfl, by decide, by decide, by decide⟩
    · have := pn_solid (base_pn hc)
      exact ⟨c, _, rfl, this.1, this.2.1, this.2.2.2.2⟩

theorem rej_iriref {c : Char} {w : Str} (hc : c ≠ '<') : Rej T (.rule .IRIREF) (c :: w) := (reads_iri _).cast (by rw [pIriRef_head hc]; rfl)

theorem acc_colon {w : Str} : Acc T (.rule .PNAME_NS) (':' :: w) w := by
  refine Acc.rule rfl (Acc.seq (Rej.opt (rej_pn_prefix (by decide))) ?_)
  rw [show skip false (':' :: w) = ':' :: w by simp [skip, isWs, isNewline]]
  exact acc_str rfl

theorem acc_iriText {v : Str} (h : GIriText v) (hu : Brk u) : Acc T (.rule .iri) (v ++ u) u := by
  rcases h with ⟨i, hi, rfl⟩ | ⟨p, x, hp, ⟨e, y, rfl, he, hy⟩, rfl⟩
  · exact acc_iri (by simpa using pIriRef_loose hi u)
  · obtain ⟨d, w, rfl, hd⟩ := hu
    obtain ⟨h1, h2⟩ := brk_ends hd
    rcases hp with rfl | ⟨c, q, rfl, hc, hq⟩
    · have hs : skip false (e :: (y ++ d :: w)) = e :: (y ++ d :: w) :=
        skip_solid ⟨e, _, rfl, (pn_solid (u_pn he)).1, (pn_solid (u_pn he)).2.1⟩
      simp only [List.nil_append, List.cons_append]
      refine Acc.rule rfl (Rej.right (rej_iriref (by decide)) (Acc.rule rfl (Acc.left (Acc.rule rfl (Acc.seq acc_colon ?_)))))
      rw [hs]; exact acc_local he hy h1 h2
    · have := acc_name (T := T) (c := c) (p := q) (g := []) (e := e) (x := y) (u := w) hc hq .nil he hy h1 h2
      simpa using this

/-- A word without a colon is no IRI. -/
theorem rej_word {c : Char} {p : Str} (hc : isPnCharsBase c = true) (hp : ∀ e ∈ p, isPnChars e = true) (hu : Brk u)
    {d : Char} {w : Str} (hs : skip false u = d :: w) (hd : d ≠ ':') : Rej T (.rule .iri) (c :: (p ++ u)) := by
  have hns : Rej T (.rule .PNAME_NS) (c :: (p ++ u)) := by
    obtain ⟨d', w', rfl, hd'⟩ := hu
    refine Rej.rule rfl (Acc.seq_rej (Acc.opt (acc_prefix hc hp (brk_ends hd').1)) ?_)
    rw [hs]; exact rej_chr (Ne.symm hd)
  have hi : pIriRef (c :: (p ++ u)) = none := pIriRef_head (pn_solid (base_pn hc)).2.2.1
  exact Rej.rule rfl (Rej.alt ((reads_iri _).cast (by rw [hi]; rfl)) (Rej.rule rfl (Rej.alt (Rej.rule rfl (Rej.seq hns)) hns)))

/-! ### Subjects -/

theorem lower_ne_colon {a : Char} (ha : a ∈ (str! "BASEPREFIX")) : asciiLower a ≠ asciiLower ':' := by
  simp only [List.mem_cons, List.not_mem_nil, or_false] at ha
  rcases ha with rfl | rfl | rfl | rfl | rfl | rfl | rfl | rfl | rfl | rfl <;> decide

theorem stripPrefixI_colon {t p w : Str} (ht : ∀ a ∈ t, asciiLower a ≠ asciiLower ':') (h : stripPrefixI t (p ++ ':' :: w) = some r) :
    ∃ q, q <:+ p ∧ r = q ++ ':' :: w := by
  induction t generalizing p with
  | nil => exact ⟨p, List.suffix_refl _, by simpa [stripPrefixI] using h.symm⟩
  | cons a t ih =>
    cases p with
    | nil => simp [stripPrefixI, ht a (by simp)] at h
    | cons b p =>
      simp only [List.cons_append, stripPrefixI] at h
      split at h
      · obtain ⟨q, h1, h2⟩ := ih (fun a ha => ht a (by simp [ha])) h
        exact ⟨q, h1.trans (List.suffix_cons _ _), h2⟩
      · cases h

/-- A prefixed name is no directive. -/
theorem rej_directive_name {p x : Str} (hp : NamePrefix p) (hx : NameLocal x) : Rej T (.rule .directive) (p ++ ':' :: (x ++ u)) := by
  have hall : ∀ e ∈ p, isPnChars e = true := by
    rcases hp with rfl | ⟨c, q, rfl, hc, hq⟩
    · simp
    · simpa [base_pn hc] using hq
  obtain ⟨e, y, rfl, he, hy⟩ := hx
  have he' := pn_solid (u_pn he)
  have hsk : ∀ v, skip false (e :: v) = e :: v := fun v => skip_solid ⟨e, v, rfl, he'.1, he'.2.1⟩
  have hat : ∃ c w, p ++ ':' :: (e :: y ++ u) = c :: w ∧ c ≠ '@' := by
    rcases hp with rfl | ⟨c, q, rfl, hc, hq⟩
    · exact ⟨_, _, rfl, by decide⟩
    · exact ⟨c, _, rfl, by rintro rfl; revert hc; decide⟩
  refine Rej.rule rfl (Rej.alt ?_ (Rej.alt ?_ (Rej.alt ?_ ?_)))
  · obtain ⟨c, w, e, hc⟩ := hat
    rw [e]; exact Rej.rule rfl (Rej.seq (rej_chr (Ne.symm hc)))
  · obtain ⟨c, w, e, hc⟩ := hat
    rw [e]; exact Rej.rule rfl (Rej.seq (rej_chr (Ne.symm hc)))
  · cases h : stripPrefixI (str! "PREFIX") (p ++ ':' :: (e :: y ++ u)) with
    | none => exact Rej.rule rfl (Rej.seq (rej_istr h))
    | some r =>
      obtain ⟨q, hq, rfl⟩ := stripPrefixI_colon (fun a ha => lower_ne_colon (by simp at ha ⊢; grind)) h
      refine Rej.rule rfl (Acc.seq_rej (r := q ++ ':' :: (e :: y ++ u)) ⟨[], (reads_istr _).cast (by rw [h]; rfl)⟩ ?_)
      cases q with
      | nil =>
        rw [show skip false ([] ++ ':' :: (e :: y ++ u)) = ':' :: e :: (y ++ u) by simp [skip, isWs, isNewline]]
        refine Acc.seq_rej acc_colon ?_
        rw [hsk]; exact rej_iriref he'.2.2.1
      | cons c q =>
        have hc := hall c (hq.subset (by simp))
        have hc' := pn_solid hc
        rw [List.cons_append, skip_solid ⟨c, _, rfl, hc'.1, hc'.2.1⟩]
        cases hb : isPnCharsBase c
        · exact Rej.seq (rej_ns hb hc'.2.2.2.1 hc'.1 hc'.2.1)
        · refine Acc.seq_rej (r := e :: (y ++ u)) ?_ ?_
          · simpa using acc_ns (T := T) (g := []) (u := e :: (y ++ u)) hb (fun e he => hall e (hq.subset (by simp [he]))) .nil
          · rw [hsk]; exact rej_iriref he'.2.2.1
  · cases h : stripPrefixI (str! "BASE") (p ++ ':' :: (e :: y ++ u)) with
    | none => exact Rej.rule rfl (Rej.seq (rej_istr h))
    | some r =>
      obtain ⟨q, hq, rfl⟩ := stripPrefixI_colon (fun a ha => lower_ne_colon (by simp at ha ⊢; grind)) h
      refine Rej.rule rfl (Acc.seq_rej (r := q ++ ':' :: (e :: y ++ u)) ⟨[], (reads_istr _).cast (by rw [h]; rfl)⟩ ?_)
      cases q with
      | nil =>
        rw [show skip false ([] ++ ':' :: (e :: y ++ u)) = ':' :: e :: (y ++ u) by simp [skip, isWs, isNewline]]
        exact rej_iriref (by decide)
      | cons c q =>
        have hc' := pn_solid (hall c (hq.subset (by simp)))
        rw [List.cons_append, skip_solid ⟨c, _, rfl, hc'.1, hc'.2.1⟩]
        exact rej_iriref hc'.2.2.1

/-- The subject of a block, after the line end before it. -/
def SubjTok (v : Str) : Prop := Begins v ∧ ∀ T u, Brk u → Rej T (.rule .directive) (v ++ u) ∧ Acc T (.rule .turtleSubject) (v ++ u) u

theorem subj_iri {v : Str} (h : GIriText v) : SubjTok v := by
  refine ⟨h.begins, fun T u hu => ⟨?_, Acc.rule rfl (Acc.left (acc_iriText h hu))⟩⟩
  rcases h with ⟨i, hi, rfl⟩ | ⟨p, x, hp, hx, rfl⟩
  · exact rej_directive (x := (.iri i, u)) (by
      have := pIriRef_loose hi u
      simp only [List.cons_append, List.append_assoc, List.nil_append]
      unfold pSubject; rw [this])
  · simpa using rej_directive_name (T := T) (u := u) hp hx

theorem label_brk {l : Str} (h : Label l) (hu : Brk u) : pLabel ('_' :: ':' :: (l ++ u)) = some ('_' :: ':' :: l, u) := by
  refine pLabel_ends h ?_
  obtain ⟨c, w, rfl, hc⟩ := hu
  constructor
  · intro d s e
    cases e
    rw [← isPnChars_iff]
    rcases hc with rfl | rfl | rfl <;> decide
  · intro d s e
    cases e
    rcases hc with h | h | h <;> simp at h

theorem acc_label {l : Str} (h : Label l) (hu : Brk u) : Rej T (.rule .iri) ('_' :: ':' :: (l ++ u)) ∧
    Acc T (.rule .blankNode) ('_' :: ':' :: (l ++ u)) u := by
  refine ⟨rej_iri (by decide) (by decide) (by decide) (by decide) (pIriRef_head (by decide)), ⟨[blankPair ('_' :: ':' :: l)], (reads_blank _).cast ?_⟩⟩
  rw [pBlank, label_brk h hu]; rfl

theorem subj_label {l : Str} (h : Label l) : SubjTok ('_' :: ':' :: l) := by
  refine ⟨⟨'_', _, rfl, by decide, by decide, by decide⟩, fun T u hu => ⟨?_, ?_⟩⟩
  · refine rej_directive (x := (.blank ('_' :: ':' :: l), u)) ?_
    have h1 : pIriRef ('_' :: ':' :: l ++ u) = none := pIriRef_head (by decide)
    unfold pSubject
    rw [h1]
    simp only [pBlank, List.cons_append]
    rw [label_brk h hu]; rfl
  · obtain ⟨h1, h2⟩ := acc_label (T := T) h hu
    exact Acc.rule rfl (Rej.right h1 (Acc.left h2))

/-! ### Objects -/

/-- A text that is read as an object, up to a gap. -/
def ObjTok (v : Str) : Prop := Begins v ∧ ∀ T u, Fol u → ∃ r, Acc T (.rule .turtleObject) (v ++ u) r ∧ skip false r = skip false u

theorem obj_iri {v : Str} (h : GIriText v) : ObjTok v := ⟨h.begins, fun _ u hu => ⟨u, Acc.rule rfl (Acc.left (acc_iriText h hu.1)), rfl⟩⟩

theorem obj_label {l : Str} (h : Label l) : ObjTok ('_' :: ':' :: l) :=
  ⟨⟨'_', _, rfl, by decide, by decide, by decide⟩, fun T u hu => by
    obtain ⟨h1, h2⟩ := acc_label (T := T) h hu.1
    exact ⟨u, Acc.rule rfl (Rej.right h1 (Acc.left h2)), rfl⟩⟩

theorem obj_anon : ObjTok (str! "[]") :=
  ⟨⟨'[', _, rfl, by decide, by decide, by decide⟩, fun T u _ => ⟨u, Acc.rule rfl (Rej.right
    (rej_iri (by decide) (by decide) (by decide) (by decide) (pIriRef_head (by decide)))
    (Acc.left ⟨_, (reads_blank _).cast (y := some ([blankPair (str! "[]")], u)) (by simp [pBlank, pLabel, pAnon, skip, isWs, isNewline])⟩)), rfl⟩⟩

/-! ### Literals -/

theorem rej_strings {c : Char} {w : Str} (h1 : c ≠ '"') (h2 : c ≠ '\'') : Rej T (.rule .turtleRdfLiteral) (c :: w) := by
  refine Rej.rule rfl (Rej.seq (Rej.rule rfl (Rej.alt ?_ (Rej.alt ?_ (Rej.alt ?_ ?_)))))
  · exact reads_rule (g := commonGrammar) (i := GRule.STRING_LITERAL_LONG_SINGLE_QUOTE) (m := .free) (x := none)
      (reads_seq_none ((reads_str _).cast (by simp [stripPrefix, Ne.symm h2])))
  · exact reads_rule (g := commonGrammar) (i := GRule.STRING_LITERAL_LONG_QUOTE) (m := .free) (x := none)
      (reads_seq_none ((reads_str _).cast (by simp [stripPrefix, Ne.symm h1])))
  · exact reads_rule (g := commonGrammar) (i := GRule.STRING_LITERAL_QUOTE) (m := .free) (x := none)
      (reads_seq_none ((reads_str _).cast (by simp [stripPrefix, Ne.symm h1])))
  · exact reads_rule (g := commonGrammar) (i := GRule.STRING_LITERAL_SINGLE_QUOTE) (m := .free) (x := none)
      (reads_seq_none ((reads_str _).cast (by simp [stripPrefix, Ne.symm h2])))

theorem acc_turtleString {q : Str} (h : QuoteText q) (hr : ∀ v, r ≠ '"' :: v) : Acc T (.rule .turtleString) ('"' :: (q ++ '"' :: r)) r := by
  have hp := pString_text h r
  have hlong : stripPrefix ['"', '"', '"'] ('"' :: (q ++ '"' :: r)) = none := by
    cases hp' : stripPrefix ['"', '"', '"'] ('"' :: (q ++ '"' :: r)) with
    | none => rfl
    | some v =>
      exfalso
      have e := stripPrefix_eq hp'
      rw [e] at hp
      simp only [List.cons_append, List.nil_append] at hp
      have : pString ('"' :: '"' :: '"' :: v) = some ([], '"' :: v) := by
        simp [pString, rep, quoteCharLen, ucharLen, echarLen, stripPrefix]
      rw [this] at hp
      simp only [Option.some.injEq, Prod.mk.injEq] at hp
      exact hr v hp.2.symm
  refine Acc.rule rfl (Rej.right ?_ (Rej.right ?_ (Acc.left ?_)))
  · exact reads_rule (g := commonGrammar) (i := GRule.STRING_LITERAL_LONG_SINGLE_QUOTE) (m := .free) (x := none)
      (reads_seq_none ((reads_str _).cast (by simp [stripPrefix])))
  · exact reads_rule (g := commonGrammar) (i := GRule.STRING_LITERAL_LONG_QUOTE) (m := .free) (x := none)
      (reads_seq_none ((reads_str _).cast (by rw [hlong]; rfl)))
  · exact ⟨_, (reads_string _).cast (by rw [hp]; rfl)⟩

/-- A literal is read, and what stands before literals among the objects is not. -/
def LitAt (T : Nat) (s r : Str) : Prop := Rej T (.rule .iri) s ∧ Rej T (.rule .blankNode) s ∧ Acc T (.rule .turtleLiteral) s r

theorem LitAt.obj (h : LitAt T s r) : Acc T (.rule .turtleObject) s r := Acc.rule rfl (Rej.right h.1 (Rej.right h.2.1 (Acc.left h.2.2)))

/-- The literals that are written as their own text, without the brackets of an IRI. -/
def LitTok (v : Str) : Prop := Begins v ∧ ∀ T u, Fol u → ∃ r, LitAt T (v ++ u) r ∧ skip false r = skip false u

theorem LitTok.obj {v : Str} (h : LitTok v) : ObjTok v := ⟨h.1, fun T u hu => by
  obtain ⟨r, h1, h2⟩ := h.2 T u hu
  exact ⟨r, h1.obj, h2⟩⟩

/-- A literal that begins with a quote. -/
theorem obj_quoted {w : Str} (h : Acc T (.rule .turtleRdfLiteral) ('"' :: w) u) : LitAt T ('"' :: w) u :=
  ⟨rej_iri (by decide) (by decide) (by decide) (by decide) (pIriRef_head (by decide)), rej_blank (by decide) (by decide), Acc.rule rfl (Acc.left h)⟩

theorem begins_quote (w : Str) : Begins ('"' :: w) := ⟨'"', w, rfl, by decide, by decide, by decide⟩

theorem brk_quote (hu : Brk u) : ∀ v, u ≠ '"' :: v := by
  rintro v rfl
  obtain ⟨c, w, e, hc⟩ := hu
  cases e
  simp at hc

/-- A string without suffix leaves the gap behind it to what follows. -/
theorem acc_string {q : Str} (h : QuoteText q) (hu : Fol u) :
    LitAt T ('"' :: (q ++ '"' :: u)) (skip false u) := by
  refine obj_quoted (Acc.rule rfl (Acc.seq (acc_turtleString h (brk_quote hu.1)) (Rej.opt (Rej.alt ?_ (Rej.seq ?_)))))
  · obtain ⟨-, c, w, e, hc⟩ := hu
    rw [e]
    refine (reads_langTag _).cast ?_
    rw [show pLangTag (c :: w) = none by
      simp only [List.mem_cons, List.not_mem_nil, or_false, not_or] at hc
      simp [pLangTag, hc.1]]
    rfl
  · obtain ⟨-, c, w, e, hc⟩ := hu
    rw [e]
    refine rej_chr ?_
    rintro rfl
    simp at hc

theorem obj_tagged {q t : Str} (h : QuoteText q) (ht : LangTag t) (hu : Brk u) :
    LitAt T ('"' :: (q ++ '"' :: '@' :: (t ++ u))) u := by
  refine obj_quoted (Acc.rule rfl (Acc.seq (acc_turtleString h (by simp)) (Acc.opt (Acc.left ?_))))
  rw [show skip false ('@' :: (t ++ u)) = '@' :: (t ++ u) by simp [skip, isWs, isNewline]]
  refine ⟨[Pair.mk (some GRule.LANGTAG) ('@' :: t) []], (reads_langTag _).cast ?_⟩
  rw [pLangTag_ends ht]
  · rfl
  · obtain ⟨c, w, rfl, hc⟩ := hu
    intro d s e
    cases e
    rcases hc with rfl | rfl | rfl <;> decide

theorem obj_typed {q i : Str} (h : QuoteText q) (hi : GIriText i) (hu : Brk u) :
    LitAt T ('"' :: (q ++ '"' :: '^' :: '^' :: (i ++ u))) u := by
  refine obj_quoted (Acc.rule rfl (Acc.seq (acc_turtleString h (by simp)) (Acc.opt (Rej.right ?_ (Acc.seq (r := i ++ u) (acc_str ?_) ?_)))))
  · rw [show skip false ('^' :: '^' :: (i ++ u)) = '^' :: '^' :: (i ++ u) by simp [skip, isWs, isNewline]]
    exact (reads_langTag _).cast (by rw [show pLangTag ('^' :: '^' :: (i ++ u)) = none from rfl]; rfl)
  · simp [skip, isWs, isNewline, stripPrefix]
  · rw [hi.begins.skip]
    exact acc_iriText hi hu

/-! ### Numbers and truth values -/

theorem number_head {k : GRule} {t : Str} (hk : NumberText k t) :
    ∃ c w, t = c :: w ∧ (isAsciiDigit c = true ∨ c = '+' ∨ c = '-' ∨ c = '.') := by
  have hs : ∀ {a x : Str}, SignText a → (∃ c w, x = c :: w ∧ (isAsciiDigit c = true ∨ c = '.')) →
      ∃ c w, a ++ x = c :: w ∧ (isAsciiDigit c = true ∨ c = '+' ∨ c = '-' ∨ c = '.') := by
    rintro a x (rfl | rfl | rfl) ⟨c, w, rfl, h⟩
    · exact ⟨c, w, rfl, h.imp id (fun h => .inr (.inr h))⟩
    · exact ⟨_, _, rfl, by simp⟩
    · exact ⟨_, _, rfl, by simp⟩
  have hd : ∀ {d x : Str}, DigitsText d → d ≠ [] → ∃ c w, d ++ x = c :: w ∧ (isAsciiDigit c = true ∨ c = '.') := by
    intro d x h hn
    cases d with
    | nil => exact absurd rfl hn
    | cons c d => exact ⟨c, _, rfl, .inl ((digit_iff c).2 (h c (by simp)))⟩
  rcases hk with ⟨-, a, d, e, x, ha, h1, -, -, ⟨hn, rfl⟩ | ⟨-, rfl⟩ | ⟨hn, rfl⟩⟩ | ⟨-, a, d, e, ha, h1, -, -, rfl⟩ | ⟨-, a, d, ha, h1, hn, rfl⟩
  · exact hs ha (hd h1 hn)
  · exact hs ha ⟨_, _, rfl, .inr rfl⟩
  · exact hs ha (hd h1 hn)
  · by_cases hn : d = []
    · subst hn; exact hs ha ⟨_, _, rfl, .inr rfl⟩
    · exact hs ha (hd h1 hn)
  · exact hs ha (by simpa using hd (x := []) h1 hn)

theorem acc_number {k : GRule} {t : Str} (hk : NumberText k t) : LitTok t := by
  have hc := number_head hk
  obtain ⟨c, w, e, hc⟩ := hc
  have hne : ∀ x ∈ (str! ":#]<_[\"'"), c ≠ x := by
    intro x hx hcx
    subst hcx
    simp only [List.mem_cons, List.not_mem_nil, or_false] at hx
    rcases hx with rfl | rfl | rfl | rfl | rfl | rfl | rfl | rfl <;> revert hc <;> decide
  have hws : isWs c = false := by
    cases hw : isWs c
    · rfl
    · rw [isWs_iff] at hw
      simp only [List.mem_cons, List.not_mem_nil, or_false] at hw
      rcases hw with rfl | rfl | rfl | rfl <;> revert hc <;> decide
  have hbase : isPnCharsBase c = false := by
    cases hb : isPnCharsBase c
    · rfl
    · exfalso
      rcases hc with hc | rfl | rfl | rfl
      · simp only [isAsciiDigit, inRange, Bool.and_eq_true, decide_eq_true_eq] at hc
        simp only [isPnCharsBase, isAsciiAlpha, inRange, Bool.or_eq_true, Bool.and_eq_true, decide_eq_true_eq] at hb
        omega
      · revert hb; decide
      · revert hb; decide
      · revert hb; decide
  refine ⟨⟨c, w, e, hws, hne _ (by simp), hne _ (by simp)⟩, fun T u hu => ⟨u, ?_, rfl⟩⟩
  have h := acc_numberText (T := T) hk hu.1
  rw [e, List.cons_append] at h
  rw [e, List.cons_append]
  exact ⟨rej_iri hbase (hne _ (by simp)) hws (hne _ (by simp)) (pIriRef_head (hne _ (by simp))), rej_blank (hne _ (by simp)) (hne _ (by simp)),
    Acc.rule rfl (Rej.right (rej_strings (hne _ (by simp)) (hne _ (by simp))) (Acc.left h))⟩

theorem acc_bool {c : Char} {p : Str} (h : c :: p = (str! "true") ∨ c :: p = (str! "false")) : LitTok (c :: p) := by
  have hc : c = 't' ∨ c = 'f' := by rcases h with h | h <;> cases h <;> simp
  have hp : ∀ e ∈ p, isPnChars e = true := by rcases h with h | h <;> cases h <;> decide
  have hb : isPnCharsBase c = true := by rcases hc with rfl | rfl <;> decide
  refine ⟨⟨c, p, rfl, by rcases hc with rfl | rfl <;> exact ⟨by decide, by decide, by decide⟩⟩, fun T u hu => ⟨u, ?_, rfl⟩⟩
  obtain ⟨hu, d, w, hs, hd⟩ := hu
  rw [List.cons_append]
  refine ⟨rej_word hb hp hu hs ?_, rej_blank ?_ ?_, Acc.rule rfl (Rej.right (rej_strings ?_ ?_)
    (Rej.right (rej_numeric ?_ ?_ ?_ ?_) (Acc.rule rfl ?_)))⟩
  · rintro rfl; simp at hd
  all_goals try (rcases hc with rfl | rfl <;> decide)
  · rcases hc with rfl | rfl <;> simp
  · rcases h with h | h <;> cases h
    · exact Acc.left (acc_str (by simp [stripPrefix]))
    · exact Rej.right (rej_chr (by decide)) (acc_str (by simp [stripPrefix]))

theorem lit_quoted {v q : Str} (hq : QuoteText q) (h : v = '"' :: (q ++ ['"']) ∨ (∃ t, LangTag t ∧ v = '"' :: (q ++ '"' :: '@' :: t)) ∨
    ∃ i, GIriText i ∧ v = '"' :: (q ++ '"' :: '^' :: '^' :: i)) : LitTok v := by
  rcases h with rfl | ⟨t, ht, rfl⟩ | ⟨i, hi, rfl⟩
  · refine ⟨begins_quote _, fun T u hu => ⟨skip false u, ?_, skip_idem _ _⟩⟩
    simpa using acc_string (T := T) hq hu
  · refine ⟨begins_quote _, fun T u hu => ⟨u, ?_, rfl⟩⟩
    simpa using obj_tagged (T := T) hq ht hu.1
  · refine ⟨begins_quote _, fun T u hu => ⟨u, ?_, rfl⟩⟩
    simpa using obj_typed (T := T) hq hi hu.1

theorem obj_literal {v : Str} (h : GLiteralText v) : ObjTok v := by
  rcases h with ⟨q, hq, h⟩ | ⟨k, hk⟩ | rfl | rfl | h
  · exact (lit_quoted hq h).obj
  · exact (acc_number hk).obj
  · exact (acc_bool (.inl rfl)).obj
  · exact (acc_bool (.inr rfl)).obj
  · exact obj_iri h

/-! ### Repetitions -/

/-- Parts that are read one after the other. -/
theorem acc_more_list {α : Type _} {e : Peg GRule} {f : α → Str} {Q : Str → Prop} {xs : List α} (hu : Q u)
    (hq : ∀ x ∈ xs, ∀ v, Q v → Q (f x ++ v))
    (hx : ∀ x ∈ xs, ∀ v, Q v → ∃ r, Acc T e (skip false (f x ++ v)) r ∧ skip false r = skip false v)
    (he : Rej T e (skip false u)) (s : Str) (hs : skip false s = skip false (xs.flatMap f ++ u)) :
    ∃ r, Acc T (.more e) s r ∧ skip false r = skip false u := by
  induction xs generalizing s with
  | nil => exact ⟨s, Rej.more (by rw [hs]; exact he), hs⟩
  | cons x xs ih =>
    have hQ : Q (xs.flatMap f ++ u) := by
      have : ∀ l : List α, (∀ y ∈ l, y ∈ x :: xs) → Q (l.flatMap f ++ u) := by
        intro l
        induction l with
        | nil => intro _; simpa using hu
        | cons y l ihl =>
          intro h
          rw [List.flatMap_cons, List.append_assoc]
          exact hq y (h y (by simp)) _ (ihl fun z hz => h z (by simp [hz]))
      exact this xs fun y hy => by simp [hy]
    rw [List.flatMap_cons, List.append_assoc] at hs
    obtain ⟨r1, h1, h2⟩ := hx x (by simp) _ hQ
    obtain ⟨r2, h3, h4⟩ := ih (fun y hy => hq y (by simp [hy])) (fun y hy => hx y (by simp [hy])) r1 h2
    exact ⟨r2, Acc.more (by rw [hs]; exact h1) h3, h4⟩

theorem acc_star_list {α : Type _} {e : Peg GRule} {f : α → Str} {Q : Str → Prop} {xs : List α} (hu : Q u)
    (hq : ∀ x ∈ xs, ∀ v, Q v → Q (f x ++ v))
    (hx : ∀ x ∈ xs, ∀ v, Q v → ∃ r, Acc T e (skip false (f x ++ v)) r ∧ skip false r = skip false v)
    (he : Rej T e (skip false u)) (s : Str) (hs : skip false s = skip false (xs.flatMap f ++ u)) :
    ∃ r, Acc T (.star e) (skip false s) r ∧ skip false r = skip false u := by
  cases xs with
  | nil => exact ⟨skip false s, Rej.star (by rw [hs]; exact he), by rw [skip_idem]; exact hs⟩
  | cons x xs =>
    have hQ : Q (xs.flatMap f ++ u) := by
      have : ∀ l : List α, (∀ y ∈ l, y ∈ x :: xs) → Q (l.flatMap f ++ u) := by
        intro l
        induction l with
        | nil => intro _; simpa using hu
        | cons y l ihl =>
          intro h
          rw [List.flatMap_cons, List.append_assoc]
          exact hq y (h y (by simp)) _ (ihl fun z hz => h z (by simp [hz]))
      exact this xs fun y hy => by simp [hy]
    rw [List.flatMap_cons, List.append_assoc] at hs
    obtain ⟨r1, h1, h2⟩ := hx x (by simp) _ hQ
    obtain ⟨r2, h3, h4⟩ := acc_more_list hu (fun y hy => hq y (by simp [hy])) (fun y hy => hx y (by simp [hy])) he r1 h2
    exact ⟨r2, Acc.star (by rw [hs]; exact h1) h3, h4⟩

/-! ### Predicates and objects -/

/-- Spaces and line ends. -/
def Blank (g : Str) : Prop := ∀ c ∈ g, c = ' ' ∨ c = '\n'

theorem Blank.skip {g : Str} (h : Blank g) (u : Str) : skip false (g ++ u) = skip false u := by
  refine skip_gap ?_ u
  induction g with
  | nil => exact .nil
  | cons c g ih =>
    exact .ws (by rcases h c (by simp) with rfl | rfl <;> decide) (ih fun d hd => h d (by simp [hd]))

theorem blank_newLine (d : Nat) : Blank (onNewLine d) := by
  intro c hc
  simp only [onNewLine, List.mem_cons, List.mem_replicate] at hc
  rcases hc with rfl | ⟨-, rfl⟩ <;> simp

theorem blank_spaces (n : Nat) : Blank (List.replicate n ' ') := by
  intro c hc
  simp only [List.mem_replicate] at hc
  simp [hc.2]

theorem Blank.append {g g' : Str} (h : Blank g) (h' : Blank g') : Blank (g ++ g') := by
  intro c hc
  rcases List.mem_append.1 hc with hc | hc
  · exact h c hc
  · exact h' c hc

/-- What is left after a predicate with its objects. -/
def After (u : Str) : Prop := Brk u ∧ ∃ c w, skip false u = c :: w ∧ c ∈ (str! ";.]")

theorem After.fol (h : After u) : Fol u := by
  obtain ⟨h1, c, w, h2, h3⟩ := h
  exact ⟨h1, c, w, h2, by simp at h3 ⊢; grind⟩

/-- A predicate with the white space around it. -/
def VerbTok (t : Str) (colon : Bool) : Prop := ∃ g v n, t = g ++ (v ++ List.replicate (n + 1) ' ') ∧ (Blank g ∧ g ≠ []) ∧ Begins v ∧
  ∀ T u, Brk u → (colon = false → ∃ c w, skip false u = c :: w ∧ c ≠ ':') → Acc T (.rule .verb) (v ++ u) u

/-- The objects of a predicate, the second and further ones with the comma before them. -/
theorem acc_objectList {o : Str} {os : List (Str × Str)} (ho : ObjTok o) (hos : ∀ x ∈ os, Blank x.1 ∧ ObjTok x.2) (hu : After u) :
    ∃ r, Acc T (.rule .objectList) (o ++ (os.flatMap (fun x => ',' :: (x.1 ++ x.2)) ++ u)) r ∧ skip false r = skip false u := by
  have hQ : ∀ l : List (Str × Str), Fol (l.flatMap (fun x => ',' :: (x.1 ++ x.2)) ++ u) := by
    intro l
    cases l with
    | nil => exact hu.fol
    | cons x l =>
      exact ⟨⟨',', _, rfl, by simp⟩, ',', _, skip_solid ⟨',', _, rfl, by decide, by decide⟩, by simp⟩
  obtain ⟨r1, h1, h2⟩ := ho.2 T _ (hQ os)
  obtain ⟨r2, h3, h4⟩ := acc_star_list (T := T) (e := .seq (.str [',']) (.rule .turtleObject)) (f := fun x : Str × Str => ',' :: (x.1 ++ x.2))
    (Q := Fol) (xs := os) hu.fol (fun x hx v hv => ⟨⟨',', _, rfl, by simp⟩, ',', _, skip_solid ⟨',', _, rfl, by decide, by decide⟩, by simp⟩)
    (fun x hx v hv => by
      obtain ⟨r, h1, h2⟩ := (hos x hx).2.2 T v hv
      refine ⟨r, ?_, h2⟩
      rw [List.cons_append, skip_solid ⟨',', _, rfl, by decide, by decide⟩]
      refine Acc.seq (r := x.1 ++ x.2 ++ v) (acc_str rfl) ?_
      rw [List.append_assoc, (hos x hx).1.skip, (hos x hx).2.1.skip]
      exact h1)
    (by
      obtain ⟨-, c, w, e, hc⟩ := hu
      rw [e]
      exact Rej.seq (rej_chr (by rintro rfl; simp at hc))) r1 h2
  exact ⟨r2, Acc.rule rfl (Acc.seq h1 h3), h4⟩

/-- A predicate with its objects: the text of the predicate, the first object and the others. -/
structure Clause where
  verb : Str
  first : Str
  rest : List (Str × Str)

def Clause.text (c : Clause) : Str := c.verb ++ (c.first ++ c.rest.flatMap (fun x => ',' :: (x.1 ++ x.2)))

def Clause.Ok (c : Clause) : Prop := (∃ colon, VerbTok c.verb colon ∧ (colon = false → c.first.head? ≠ some ':')) ∧ ObjTok c.first ∧
  ∀ x ∈ c.rest, Blank x.1 ∧ ObjTok x.2

theorem acc_clause {c : Clause} (h : c.Ok) (hu : After u) :
    ∃ r, Acc T (.rule .verbObjectList) (skip false (c.text ++ u)) r ∧ skip false r = skip false u := by
  obtain ⟨⟨colon, ⟨g, v, n, hv, ⟨hg, -⟩, hb, hverb⟩, hcol⟩, hf, hr⟩ := h
  obtain ⟨r, h1, h2⟩ := acc_objectList (T := T) hf hr hu
  refine ⟨r, ?_, h2⟩
  have e : c.text ++ u = g ++ (v ++ (List.replicate (n + 1) ' ' ++ (c.first ++ (c.rest.flatMap (fun x => ',' :: (x.1 ++ x.2)) ++ u)))) := by
    simp [Clause.text, hv]
  rw [e, hg.skip, hb.skip]
  refine Acc.rule rfl (Acc.seq (hverb T _ ⟨' ', _, by rw [List.replicate_succ]; rfl, by simp⟩ fun hc => ?_) ?_)
  · rw [(blank_spaces _).skip, hf.1.skip]
    obtain ⟨d, w, e, -⟩ := hf.1
    refine ⟨d, _, by rw [e]; rfl, ?_⟩
    rintro rfl
    exact hcol hc (by rw [e]; rfl)
  · rw [(blank_spaces _).skip, hf.1.skip]
    exact h1

theorem acc_clauses {c : Clause} {cs : List Clause} (h : c.Ok) (hs : ∀ x ∈ cs, x.Ok) (hu : Brk u)
    (hd : ∃ d w, skip false u = d :: w ∧ (d = '.' ∨ d = ']')) :
    ∃ r, Acc T (.rule .predicateObjectList) (skip false (c.text ++ (cs.flatMap (fun x => ' ' :: ';' :: x.text) ++ u))) r ∧
      skip false r = skip false u := by
  have hu' : After u := by
    obtain ⟨d, w, e, hd⟩ := hd
    exact ⟨hu, d, w, e, by rcases hd with rfl | rfl <;> simp⟩
  have hsemi : ∀ w : Str, After (' ' :: ';' :: w) := fun w => ⟨⟨' ', _, rfl, by simp⟩, ';', w, by simp [skip, isWs, isNewline], by simp⟩
  have hQ : After (cs.flatMap (fun x => ' ' :: ';' :: x.text) ++ u) := by
    cases cs with
    | nil => exact hu'
    | cons x l => exact hsemi _
  obtain ⟨r1, h1, h2⟩ := acc_clause (T := T) h hQ
  obtain ⟨r2, h3, h4⟩ := acc_star_list (T := T) (e := .seq (.str [';']) (.opt (.rule .verbObjectList))) (f := fun x : Clause => ' ' :: ';' :: x.text)
    (Q := After) (xs := cs) hu' (fun x hx v hv => hsemi _)
    (fun x hx v hv => by
      obtain ⟨r, h1, h2⟩ := acc_clause (T := T) (hs x hx) hv
      refine ⟨r, ?_, h2⟩
      rw [show skip false (' ' :: ';' :: x.text ++ v) = ';' :: (x.text ++ v) by simp [skip, isWs, isNewline]]
      exact Acc.seq (acc_str rfl) (Acc.opt h1))
    (by
      obtain ⟨c, w, e, hc⟩ := hd
      rw [e]
      exact Rej.seq (rej_chr (by rintro rfl; simp at hc))) r1 h2
  exact ⟨r2, Acc.rule rfl (Acc.seq h1 h3), h4⟩

/-! ### Nested blank nodes and collections -/

theorem obj_nested {c : Clause} {cs : List Clause} {d : Nat} (h : c.Ok) (hs : ∀ x ∈ cs, x.Ok) :
    ObjTok ('[' :: (c.text ++ (cs.flatMap (fun x => ' ' :: ';' :: x.text) ++ (onNewLine d ++ [']'])))) := by
  refine ⟨⟨'[', _, rfl, by decide, by decide, by decide⟩, fun T u hu => ⟨u, ?_, rfl⟩⟩
  have he : skip false (onNewLine d ++ ']' :: u) = ']' :: u := by
    rw [(blank_newLine d).skip, skip_solid ⟨']', u, rfl, by decide, by decide⟩]
  obtain ⟨r, h1, h2⟩ := acc_clauses (T := T) (u := onNewLine d ++ ']' :: u) h hs ⟨'\n', _, rfl, by simp⟩ ⟨']', u, he, by simp⟩
  rw [he] at h2
  have hb : pAnon ('[' :: (c.text ++ (cs.flatMap (fun x => ' ' :: ';' :: x.text) ++ (onNewLine d ++ ']' :: u)))) = none := by
    obtain ⟨⟨colon, ⟨g, v, n, hv, ⟨hg, -⟩, hb, -⟩, -⟩, -⟩ := h
    have e : skip false (c.text ++ (cs.flatMap (fun x => ' ' :: ';' :: x.text) ++ (onNewLine d ++ ']' :: u))) =
        v ++ (List.replicate (n + 1) ' ' ++ (c.first ++ (c.rest.flatMap (fun x => ',' :: (x.1 ++ x.2)) ++
          (cs.flatMap (fun x => ' ' :: ';' :: x.text) ++ (onNewLine d ++ ']' :: u))))) := by
      rw [show c.text = g ++ (v ++ (List.replicate (n + 1) ' ' ++ (c.first ++ c.rest.flatMap (fun x => ',' :: (x.1 ++ x.2))))) by
        simp [Clause.text, hv]]
      simp only [List.append_assoc]
      rw [hg.skip, hb.skip]
    simp only [pAnon]
    rw [e]
    obtain ⟨k, w, rfl, -, -, hk⟩ := hb
    simp only [List.cons_append]
    split
    · rename_i h; simp at h; exact absurd h.1 hk
    · rfl
  have e : ('[' :: (c.text ++ (cs.flatMap (fun x => ' ' :: ';' :: x.text) ++ (onNewLine d ++ [']'])))) ++ u =
      '[' :: (c.text ++ (cs.flatMap (fun x => ' ' :: ';' :: x.text) ++ (onNewLine d ++ ']' :: u))) := by simp
  rw [e]
  refine Acc.rule rfl (Rej.right (rej_iri (by decide) (by decide) (by decide) (by decide) (pIriRef_head (by decide))) (Rej.right ?_
    (Rej.right (rej_turtleLiteral (by decide) (by decide) (by simp)) (Rej.right (Rej.rule rfl (Rej.seq (rej_chr (by decide)))) (Acc.left
      (Acc.rule rfl (Acc.seq (acc_str rfl) (Acc.seq h1 ?_))))))))
  · exact (reads_blank _).cast (by rw [pBlank, hb]; simp [pLabel])
  · rw [h2]; exact acc_str rfl

theorem obj_none : ObjTok (str! "()") := by
  refine ⟨⟨'(', _, rfl, by decide, by decide, by decide⟩, fun T u hu => ⟨u, ?_, rfl⟩⟩
  have hs : ∀ w : Str, skip false (')' :: w) = ')' :: w := fun w => skip_solid ⟨')', w, rfl, by decide, by decide⟩
  simp only [List.cons_append, List.nil_append]
  refine Acc.rule rfl (Rej.right (rej_iri (by decide) (by decide) (by decide) (by decide) (pIriRef_head (by decide))) (Rej.right
    (rej_blank (by decide) (by decide)) (Rej.right (rej_turtleLiteral (by decide) (by decide) (by simp)) (Acc.left
      (Acc.rule rfl (Acc.seq (acc_str rfl) ?_))))))
  rw [hs]
  refine Acc.seq (Rej.star (Rej.rule rfl ?_)) (by rw [hs]; exact acc_str rfl)
  exact Rej.alt (rej_iri (by decide) (by decide) (by decide) (by decide) (pIriRef_head (by decide))) (Rej.alt
    (rej_blank (by decide) (by decide)) (Rej.alt (rej_turtleLiteral (by decide) (by decide) (by simp)) (Rej.alt
      (Rej.rule rfl (Rej.seq (rej_chr (by decide)))) (Rej.alt (Rej.rule rfl (Rej.seq (rej_chr (by decide))))
        (Rej.rule rfl (Rej.seq (rej_chr (by decide))))))))

theorem rej_object_close {w : Str} : Rej T (.rule .turtleObject) (')' :: w) :=
  Rej.rule rfl (Rej.alt (rej_iri (by decide) (by decide) (by decide) (by decide) (pIriRef_head (by decide))) (Rej.alt
    (rej_blank (by decide) (by decide)) (Rej.alt (rej_turtleLiteral (by decide) (by decide) (by simp)) (Rej.alt
      (Rej.rule rfl (Rej.seq (rej_chr (by decide)))) (Rej.alt (Rej.rule rfl (Rej.seq (rej_chr (by decide))))
        (Rej.rule rfl (Rej.seq (rej_chr (by decide)))))))))

theorem obj_one {t : Str} {d e : Nat} (h : ObjTok t) : ObjTok ('(' :: (onNewLine d ++ (t ++ (onNewLine e ++ [')'])))) := by
  refine ⟨⟨'(', _, rfl, by decide, by decide, by decide⟩, fun T u hu => ⟨u, ?_, rfl⟩⟩
  have hs : skip false (onNewLine e ++ ')' :: u) = ')' :: u := by
    rw [(blank_newLine e).skip, skip_solid ⟨')', u, rfl, by decide, by decide⟩]
  obtain ⟨r, h1, h2⟩ := h.2 T (onNewLine e ++ ')' :: u) ⟨⟨'\n', _, rfl, by simp⟩, ')', u, hs, by simp⟩
  rw [show ('(' :: (onNewLine d ++ (t ++ (onNewLine e ++ [')'])))) ++ u = '(' :: (onNewLine d ++ (t ++ (onNewLine e ++ ')' :: u))) by simp]
  refine Acc.rule rfl (Rej.right (rej_iri (by decide) (by decide) (by decide) (by decide) (pIriRef_head (by decide))) (Rej.right
    (rej_blank (by decide) (by decide)) (Rej.right (rej_turtleLiteral (by decide) (by decide) (by simp)) (Acc.left
      (Acc.rule rfl (Acc.seq (acc_str rfl) ?_))))))
  rw [(blank_newLine d).skip, h.1.skip]
  refine Acc.seq (Acc.star h1 (Rej.more (by rw [h2, hs]; exact rej_object_close))) ?_
  rw [h2, hs]
  exact acc_str rfl

end Rdftk
