import Verif.Lemmas.PegDeparts
import Verif.Spec.N3Text

/-! Statements and formulas of N3 under the rules of the grammar. -/

namespace Rdftk

open PegGrammar Spec

variable {T : Nat} {s r r' u : Str} {a b : Peg GRule}

theorem skip_lead {c : Char} {w : Str} (h1 : isWs c = false) (h2 : c ≠ '#') : skip false (c :: w) = c :: w := skip_solid ⟨c, w, rfl, h1, h2⟩

theorem skip_sp (u : Str) : skip false (' ' :: u) = skip false u := by simp [skip, isWs, isNewline]

/-- What a term begins with. -/
theorem Spec.N3Term.head {a : Str} (h : N3Term a) : ∃ c w, a = c :: w ∧ (c = '<' ∨ c = '{') := by
  cases h with
  | iri _ => exact ⟨_, _, rfl, .inl rfl⟩
  | formula _ => exact ⟨_, _, rfl, .inr rfl⟩

theorem Spec.N3Term.skip {a : Str} (h : N3Term a) (u : Str) : skip false (a ++ u) = a ++ u := by
  obtain ⟨c, w, rfl, rfl | rfl⟩ := h.head <;> exact skip_lead (by decide) (by decide)

/-- Where no IRI begins, what begins with its bracket is no term. -/
theorem rej_angle {w : Str} (h : pIriRef ('<' :: w) = none) : Rej T (.rule .expression) ('<' :: w) := by
  refine Rej.rule rfl (Rej.rule rfl (Rej.seq (Rej.rule rfl (Rej.alt (rej_iri (by decide) (by decide) (by decide) (by decide) h)
    (Rej.alt (rej_blank (by decide) (by decide)) (Rej.alt (Rej.rule rfl ?_) (Rej.alt (Rej.rule rfl (Rej.seq (rej_chr (by decide))))
    (Rej.alt (Rej.rule rfl (Rej.seq (rej_chr (by decide)))) (Rej.alt (rej_turtleLiteral (by decide) (by decide) (by simp))
      (Rej.rule rfl (Rej.seq (rej_chr (by decide)))))))))))))
  exact reads_rule (g := commonGrammar) (i := GRule.QUICK_VAR_NAME) (m := .free) (x := none) (reads_seq_none
    ((reads_str _).cast (by simp [stripPrefix])))

/-- A formula is a term of a path. -/
theorem acc_brace {w : Str} (h : Acc T (.rule .formula) ('{' :: w) r) : Acc T (.rule .pathItem) ('{' :: w) r := by
  refine Acc.rule rfl (Rej.right (rej_iri (by decide) (by decide) (by decide) (by decide) (pIriRef_head (by decide)))
    (Rej.right (rej_blank (by decide) (by decide)) (Rej.right (Rej.rule rfl ?_) (Rej.right (Rej.rule rfl (Rej.seq (rej_chr (by decide))))
    (Rej.right (Rej.rule rfl (Rej.seq (rej_chr (by decide)))) (Rej.right (rej_turtleLiteral (by decide) (by decide) (by simp)) h))))))
  exact reads_rule (g := commonGrammar) (i := GRule.QUICK_VAR_NAME) (m := .free) (x := none) (reads_seq_none
    ((reads_str _).cast (by simp [stripPrefix])))

theorem rej_n3_at {c : Char} {w : Str} (h : c ≠ '@') : Rej T (.rule .n3Directive) (c :: w) :=
  Rej.rule rfl (Rej.alt (Rej.rule rfl (Rej.seq (rej_chr (Ne.symm h)))) (Rej.rule rfl (Rej.seq (rej_chr (Ne.symm h)))))

/-- A verb before white space and a term. -/
theorem acc_n3Verb {v b : Str} (hv : N3Verb v) (hb : N3Term b) :
    ∃ r, Acc T (.rule .n3Verb) (v ++ ' ' :: (b ++ u)) r ∧ skip false r = b ++ u := by
  rcases hv with rfl | rfl | ⟨i, hi, rfl⟩
  · exact ⟨' ' :: (b ++ u), acc_arrow, by rw [skip_sp, hb.skip]⟩
  · refine ⟨' ' :: (b ++ u), ?_, by rw [skip_sp, hb.skip]⟩
    have hn : pIriRef ('<' :: '=' :: ' ' :: (b ++ u)) = none := by
      have e1 : iriExcluded '=' = false := by decide
      have e2 : iriExcluded ' ' = true := by decide
      simp [pIriRef, rep, iriCharLen, ucharLen, stripPrefix, e1, e2]
    exact Acc.rule rfl (Rej.right (Rej.rule rfl (Rej.alt (rej_angle hn) (Rej.seq (rej_str rfl)))) (Rej.right (rej_chr (by decide))
      (Rej.right (Rej.seq (rej_chr (by decide))) (Rej.right (Rej.seq (rej_chr (by decide))) (Rej.right (rej_chr (by decide))
        (Acc.left (acc_str rfl)))))))
  · obtain ⟨c, w, e, hc⟩ := hb.head
    have hk : skip false (' ' :: (b ++ u)) = c :: (w ++ u) := by rw [skip_sp, hb.skip, e]; rfl
    refine ⟨c :: (w ++ u), ?_, by rw [skip_self hk, e]; rfl⟩
    refine Acc.rule rfl (Acc.left (Acc.rule rfl (Acc.left (acc_expression (r := ' ' :: (b ++ u)) (Acc.rule rfl (Acc.left (acc_iri (i := i) ?_))) hk ?_ ?_))))
    · have := pIriRef_loose hi (' ' :: (b ++ u))
      simpa using this
    · rcases hc with rfl | rfl <;> decide
    · rcases hc with rfl | rfl <;> decide

theorem rej_content_close {w : Str} : Rej T (.rule .formulaContent) ('}' :: w) := by
  obtain ⟨h1, h2⟩ := rej_sparql (T := T) (c := '}') (u := w) (by decide)
  exact Rej.rule rfl (Rej.alt (Rej.seq (Rej.rule rfl (Rej.alt (rej_n3_at (by decide)) (Rej.rule rfl (Rej.seq (Rej.rule rfl
    (rej_expression (by decide) (by decide) (by decide) (by decide)))))))) (Rej.seq (Rej.alt h2 h1)))

/-- A statement of two terms that are read. -/
theorem acc_n3Statement {a v b : Str} (ha : N3Term a) (hv : N3Verb v) (hb : N3Term b)
    (h1 : ∀ {t c w}, skip false t = c :: w → c ≠ '!' → c ≠ '^' → Acc T (.rule .expression) (a ++ t) (c :: w))
    (h2 : ∀ {t c w}, skip false t = c :: w → c ≠ '!' → c ≠ '^' → Acc T (.rule .expression) (b ++ t) (c :: w)) (u : Str) :
    Acc T (.rule .n3Statement) (a ++ ' ' :: (v ++ ' ' :: (b ++ ' ' :: '.' :: u))) ('.' :: u) := by
  obtain ⟨ca, wa, ea, hca⟩ := ha.head
  obtain ⟨r, hr, hk⟩ := acc_n3Verb (T := T) (u := ' ' :: '.' :: u) hv hb
  have hvh : ∃ c w, v = c :: w ∧ (c = '=' ∨ c = '<') := by
    rcases hv with rfl | rfl | ⟨i, hi, rfl⟩
    · exact ⟨_, _, rfl, .inl rfl⟩
    · exact ⟨_, _, rfl, .inr rfl⟩
    · exact ⟨_, _, rfl, .inr rfl⟩
  obtain ⟨cv, wv, ev, hcv⟩ := hvh
  have hkv : skip false (' ' :: (v ++ ' ' :: (b ++ ' ' :: '.' :: u))) = cv :: (wv ++ ' ' :: (b ++ ' ' :: '.' :: u)) := by
    rw [skip_sp, ev]
    rcases hcv with rfl | rfl <;> exact skip_lead (by decide) (by decide)
  have hs := h1 hkv (by rcases hcv with rfl | rfl <;> decide) (by rcases hcv with rfl | rfl <;> decide)
  have ho := h2 (t := ' ' :: '.' :: u) (c := '.') (w := u) (by rw [skip_sp, skip_dot]) (by decide) (by decide)
  have hd : Rej T (.rule .n3Directive) (a ++ ' ' :: (v ++ ' ' :: (b ++ ' ' :: '.' :: u))) := by
    rw [ea]; exact rej_n3_at (by rcases hca with rfl | rfl <;> decide)
  refine Acc.rule rfl (Rej.right hd (Acc.rule rfl (Acc.seq (Acc.rule rfl hs) (Acc.opt (Acc.rule rfl (Acc.seq (r := r) ?_ (Acc.seq (r := '.' :: u) ?_ ?_)))))))
  · rw [skip_self hkv]
    rw [ev] at hr
    simpa using hr
  · rw [hk]
    refine Acc.rule rfl (Acc.seq (Acc.rule rfl ho) ?_)
    rw [skip_dot]
    exact Rej.star (Rej.seq (rej_chr (by decide)))
  · rw [skip_dot]; exact Rej.star (Rej.seq (rej_chr (by decide)))

mutual

theorem acc_n3Term {a t : Str} {c : Char} {w : Str} : N3Term a → skip false t = c :: w → c ≠ '!' → c ≠ '^' →
    Acc T (.rule .expression) (a ++ t) (c :: w)
  | .iri (i := i) hi, hk, h1, h2 => by
    refine acc_expression (r := t) (Acc.rule rfl (Acc.left (acc_iri (i := i) ?_))) hk h1 h2
    simpa using pIriRef_loose hi t
  | .formula (b := b) hb, hk, h1, h2 => by
    refine acc_expression (r := t) ?_ hk h1 h2
    have := acc_n3Body (u := t) hb
    refine acc_brace (w := (b ++ ['}']) ++ t) (Acc.rule rfl (Acc.seq (r := (b ++ ['}']) ++ t) (acc_str rfl) (Acc.seq (r := '}' :: t) ?_ ?_)))
    · have e : skip false ((b ++ ['}']) ++ t) = b ++ '}' :: t := by
        rw [List.append_assoc]
        cases hb with
        | nil => exact skip_lead (by decide) (by decide)
        | cons ha _ _ _ => rw [List.append_assoc, ha.skip]; simp
      rw [e]; exact this
    · rw [skip_lead (by decide) (by decide)]
      exact acc_str rfl

theorem acc_n3Body {b u : Str} : N3Body b → Acc T (.opt (.rule .formulaContent)) (b ++ '}' :: u) ('}' :: u)
  | .nil => Rej.opt rej_content_close
  | .cons (a := a) (v := v) (b := b) (c := c) ha hv hb hc => by
    have h := acc_n3Statement (T := T) ha hv hb (fun h1 h2 h3 => acc_n3Term ha h1 h2 h3) (fun h1 h2 h3 => acc_n3Term hb h1 h2 h3) (c ++ '}' :: u)
    have hr := acc_n3Body (u := u) hc
    have e : skip false (c ++ '}' :: u) = c ++ '}' :: u := by
      cases hc with
      | nil => exact skip_lead (by decide) (by decide)
      | cons ha _ _ _ => rw [List.append_assoc, ha.skip]
    simp only [List.append_assoc, List.cons_append]
    refine Acc.opt (Acc.rule rfl (Acc.left (Acc.seq h (Acc.opt (Acc.seq (r := c ++ '}' :: u) ?_ ?_)))))
    · rw [skip_dot]; exact acc_str rfl
    · rw [e]; exact hr

end

/-- A list of statements, under the star of a document. -/
theorem acc_n3More {b : Str} (h : N3Body b) : Acc T (.star (.alt (.seq (.rule .n3Statement) (.rule .END_OF_STATEMENT)) (.rule .sparqlDirective))) b [] ∧
    Acc T (.more (.alt (.seq (.rule .n3Statement) (.rule .END_OF_STATEMENT)) (.rule .sparqlDirective))) b [] := by
  generalize hl : b.length = n
  induction n using Nat.strongRecOn generalizing b with
  | ind n ih =>
    cases h with
    | nil => exact ⟨Rej.star (rej_empty (by decide) (by decide)), Rej.more (rej_empty (by decide) (by decide))⟩
    | @cons a v b c ha hv hb hc =>
      have h := acc_n3Statement (T := T) ha hv hb (fun h1 h2 h3 => acc_n3Term ha h1 h2 h3) (fun h1 h2 h3 => acc_n3Term hb h1 h2 h3) c
      have h1 : Acc T (.alt (.seq (.rule .n3Statement) (.rule .END_OF_STATEMENT)) (.rule .sparqlDirective))
          (a ++ ' ' :: (v ++ ' ' :: (b ++ ' ' :: '.' :: c))) c := by
        refine Acc.left (Acc.seq h ?_)
        rw [skip_dot]; exact acc_end
      have h2 := (ih c.length (by rw [← hl]; simp; omega) hc rfl).2
      refine ⟨Acc.star h1 h2, Acc.more ?_ h2⟩
      rw [ha.skip]; exact h1

theorem acc_n3Doc {b : Str} (h : N3Body b) : Acc b.length (.rule .n3Doc) b [] := by
  refine Acc.rule rfl (Acc.seq (r := b) ⟨[], reads_soi.cast (by simp)⟩ (Acc.seq (r := []) ?_ ⟨[.mk none [] []], reads_eoi.cast (by simp [skip])⟩))
  have : skip false b = b := by
    cases h with
    | nil => simp [skip]
    | cons ha _ _ _ => rw [ha.skip]
  rw [this]
  exact (acc_n3More h).1

end Rdftk
