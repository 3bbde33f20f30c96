import Verif.Lemmas.PegStar

/-! Printed statements under the rules of N3. -/

namespace Rdftk

open PegGrammar Spec

variable {T : Nat} {s r u : Str}

theorem rej_quickVar {c : Char} {w : Str} (h : c ≠ '?') : Rej T (.rule .quickVar) (c :: w) :=
  Rej.rule rfl (reads_rule (g := commonGrammar) (i := GRule.QUICK_VAR_NAME) (m := .free) (x := none)
    (reads_seq_none ((reads_str _).cast (by simp [stripPrefix, Ne.symm h]))))

theorem rej_formula {c : Char} {w : Str} (h : c ≠ '{') : Rej T (.rule .formula) (c :: w) := Rej.rule rfl (Rej.seq (rej_chr (Ne.symm h)))

/-- A quoted statement is no item of N3. -/
theorem rej_item_quote {w : Str} : Rej T (.rule .expression) ('<' :: '<' :: ' ' :: w) :=
  Rej.rule rfl (Rej.rule rfl (Rej.seq (Rej.rule rfl (Rej.alt rej_iri_quote (Rej.alt (rej_blank (by decide) (by decide)) (Rej.alt (rej_quickVar (by decide))
    (Rej.alt (rej_coll (by decide)) (Rej.alt (rej_props (by decide)) (Rej.alt rej_lit_quote (rej_formula (by decide))))))))))) 

theorem rej_item_close {w : Str} : Rej T (.rule .expression) ('>' :: w) :=
  rej_expression (by decide) (by decide) (by decide) (by decide)

/-- A printed object that is no quoted statement. -/
theorem item_object {o : Object} (h : ObjectShows o) (hs : ∀ t, o ≠ .stmt t) (hu : Fol u) {c : Char} {w : Str} (hc : skip false u = c :: w)
    (hn : c ≠ '!' ∧ c ≠ '^') :
    (ObjectQuotes o → Acc T (.rule .expression) (o.display .bare false ++ u) (c :: w)) ∧
    (¬ ObjectQuotes o → Rej T (.rule .expression) (o.display .bare false ++ u)) := by
  have hit : ∀ {s r : Str}, skip false r = skip false u → Acc T (.rule .pathItem) s r → Acc T (.rule .expression) s (c :: w) :=
    fun hr h => acc_expression h (by rw [hr, hc]) hn.1 hn.2
  cases o with
  | blank b =>
    obtain ⟨h1, h2⟩ := acc_label (T := T) (show Label b from h) hu.1
    exact ⟨fun _ => hit rfl (Acc.rule rfl (Rej.right h1 (Acc.left h2))), fun hq => absurd trivial hq⟩
  | res i =>
    have e : Object.display .bare false (.res i) = '<' :: (i.text ++ ['>']) := by simp [Object.display, Iri.fmt]
    rw [e]
    exact ⟨fun _ => hit rfl (Acc.rule rfl (Acc.left (acc_bracketed h))), fun hq => absurd trivial hq⟩
  | lit l =>
    refine ⟨fun _ => ?_, fun hq => absurd trivial hq⟩
    rcases Spec.PlainLiteral.cases h with ⟨h1, d, v, e, hd, -⟩ | ⟨i, hi, h⟩
    · obtain ⟨r, ⟨h2, h3, h4⟩, h5⟩ := h1.2 T u hu
      simp only [List.mem_cons, List.not_mem_nil, or_false, not_or] at hd
      have e' : Object.display .bare false (.lit l) = l.display .bare false := rfl
      rw [e']
      refine hit h5 (Acc.rule rfl (Rej.right h2 (Rej.right h3 (Rej.right ?_ (Rej.right ?_ (Rej.right ?_ (Acc.left h4)))))))
      · rw [e]; exact rej_quickVar hd.2.2.2.2.2.2.1
      · rw [e]; exact rej_coll hd.2.2.2.2.2.2.2.1
      · rw [e]; exact rej_props hd.2.2.2.2.2.2.2.2.1
    · have e : Object.display .bare false (.lit l) = '<' :: (i ++ ['>']) := by simpa [Object.display] using h
      rw [e]
      exact hit rfl (Acc.rule rfl (Acc.left (acc_bracketed hi)))
  | coll os =>
    have hos := objects_fact os h
    have h1 : ∀ w, Rej T (.rule .iri) ('(' :: w) := fun w => rej_iri (by decide) (by decide) (by decide) (by decide) (pIriRef_head (by decide))
    have h2 : ∀ w, Rej T (.rule .blankNode) ('(' :: w) := fun w => rej_blank (by decide) (by decide)
    rw [coll_text]
    exact ⟨fun hq => hit rfl (Acc.rule rfl (Rej.right (h1 _) (Rej.right (h2 _) (Rej.right (rej_quickVar (by decide)) (Acc.left ((list_coll hos u).1 hq)))))),
      fun hq => Rej.rule rfl (Rej.rule rfl (Rej.seq (Rej.rule rfl (Rej.alt (h1 _) (Rej.alt (h2 _) (Rej.alt (rej_quickVar (by decide)) (Rej.alt
        ((list_coll hos u).2 hq) (Rej.alt (rej_props (by decide)) (Rej.alt (rej_turtleLiteral (by decide) (by decide) (by simp))
          (rej_formula (by decide))))))))))) ⟩
  | stmt t => exact absurd rfl (hs t)

abbrev n3Line : Peg GRule := .alt (.seq (.rule .n3Statement) (.rule .END_OF_STATEMENT)) (.rule .sparqlDirective)

/-- What follows a subject on its own. -/
theorem rej_n3Line {c d : Char} {v w : Str} (hs : c = '_' ∨ c = '<') (h : Acc T (.rule .n3Subject) (c :: v) r) (hr : skip false r = d :: w) (hd : d ≠ '.')
    (hp : Rej T (.rule .n3PredicateObjectList) (d :: w)) : Rej T n3Line (c :: v) := by
  have hx : c ≠ '@' := by rcases hs with rfl | rfl <;> decide
  obtain ⟨h1, h2⟩ := rej_sparql (T := T) (c := c) (u := v) (by rcases hs with rfl | rfl <;> decide)
  have hdir : Rej T (.rule .n3Directive) (c :: v) :=
    Rej.rule rfl (Rej.alt (Rej.rule rfl (Rej.seq (rej_chr (Ne.symm hx)))) (Rej.rule rfl (Rej.seq (rej_chr (Ne.symm hx)))))
  refine Rej.alt (Acc.seq_rej (r := d :: w) (Acc.rule rfl (Rej.right hdir (Acc.rule rfl (Acc.seq h ?_)))) ?_) (Rej.rule rfl (Rej.alt h1 h2))
  · rw [hr]; exact Rej.opt hp
  · rw [skip_self hr]; exact Rej.rule rfl (rej_chr (Ne.symm hd))

theorem rej_n3Line_subject {c : Char} {v : Str} (hs : c = '_' ∨ c = '<') (h : Rej T (.rule .expression) (c :: v)) : Rej T n3Line (c :: v) := by
  have hx : c ≠ '@' := by rcases hs with rfl | rfl <;> decide
  obtain ⟨h1, h2⟩ := rej_sparql (T := T) (c := c) (u := v) (by rcases hs with rfl | rfl <;> decide)
  have hdir : Rej T (.rule .n3Directive) (c :: v) :=
    Rej.rule rfl (Rej.alt (Rej.rule rfl (Rej.seq (rej_chr (Ne.symm hx)))) (Rej.rule rfl (Rej.seq (rej_chr (Ne.symm hx)))))
  exact Rej.alt (Rej.seq (Rej.rule rfl (Rej.alt hdir (Rej.rule rfl (Rej.seq (Rej.rule rfl h)))))) (Rej.rule rfl (Rej.alt h1 h2))

theorem acc_n3Line {c : Char} {v w : Str} (hs : c = '_' ∨ c = '<') (h : Acc T (.rule .n3Subject) (c :: v) r)
    (hp : Acc T (.rule .n3PredicateObjectList) (skip false r) ('.' :: w)) : Acc T n3Line (c :: v) w := by
  have hx : c ≠ '@' := by rcases hs with rfl | rfl <;> decide
  have hdir : Rej T (.rule .n3Directive) (c :: v) :=
    Rej.rule rfl (Rej.alt (Rej.rule rfl (Rej.seq (rej_chr (Ne.symm hx)))) (Rej.rule rfl (Rej.seq (rej_chr (Ne.symm hx)))))
  refine Acc.left (Acc.seq (r := '.' :: w) (Acc.rule rfl (Rej.right hdir (Acc.rule rfl (Acc.seq h (Acc.opt hp))))) ?_)
  rw [skip_dot]; exact acc_end

/-- No verb begins with a closing bracket. -/
theorem rej_pol_close {w : Str} : Rej T (.rule .n3PredicateObjectList) ('>' :: w) :=
  Rej.rule rfl (Rej.seq (Rej.rule rfl (Rej.alt (Rej.rule rfl (Rej.alt rej_item_close (Rej.seq (rej_chr (by decide))))) (Rej.alt (rej_chr (by decide))
    (Rej.alt (Rej.seq (rej_chr (by decide))) (Rej.alt (Rej.seq (rej_chr (by decide))) (Rej.alt (rej_chr (by decide)) (Rej.alt (rej_chr (by decide))
      (rej_chr (by decide)))))))))) 

theorem n3_verb {d : Char} {v : Str} (h : Acc T (.rule .iri) s r) (hr : skip false r = d :: v) (hd : d ≠ '!' ∧ d ≠ '^') :
    Acc T (.rule .n3Verb) s (d :: v) :=
  Acc.rule rfl (Acc.left (Acc.rule rfl (Acc.left (acc_expression (Acc.rule rfl (Acc.left h)) hr hd.1 hd.2))))

theorem rej_pol_object {d : Char} {v : Str} (h : Acc T (.rule .iri) s r) (hr : skip false r = d :: v) (hd : d ≠ '!' ∧ d ≠ '^')
    (ho : Rej T (.rule .expression) (d :: v)) : Rej T (.rule .n3PredicateObjectList) s := by
  refine Rej.rule rfl (Acc.seq_rej (n3_verb h hr hd) ?_)
  rw [skip_self hr]
  exact Rej.seq (Rej.rule rfl (Rej.seq (Rej.rule rfl ho)))

theorem acc_pol {d : Char} {v w : Str} (h : Acc T (.rule .iri) s r) (hr : skip false r = d :: v) (hd : d ≠ '!' ∧ d ≠ '^')
    (ho : Acc T (.rule .expression) (d :: v) ('.' :: w)) : Acc T (.rule .n3PredicateObjectList) s ('.' :: w) := by
  refine Acc.rule rfl (Acc.seq (n3_verb h hr hd) ?_)
  rw [skip_self hr]
  refine Acc.seq (r := '.' :: w) (Acc.rule rfl (Acc.seq (Acc.rule rfl ho) ?_)) ?_
  · rw [skip_dot]; exact Rej.star (Rej.seq (rej_chr (by decide)))
  · rw [skip_dot]; exact Rej.star (Rej.seq (rej_chr (by decide)))

/-- A printed subject. -/
theorem item_subject (sty : IriStyle) {s : Subject} (h : SubjectShows s) {v : Str} :
    (∃ t, s = .stmt t ∧ Rej T (.rule .expression) (s.display sty ++ v)) ∨
    ((∀ t, s ≠ .stmt t) ∧ ((∀ w, v = ' ' :: '<' :: w → Acc T (.rule .n3Subject) (s.display sty ++ v) ('<' :: w)) ∨
      (sty = .bracketed ∧ Acc T (.rule .n3Subject) (s.display sty ++ v) ('>' :: v)))) := by
  cases s with
  | stmt t =>
    refine .inl ⟨t, rfl, ?_⟩
    simp only [Subject.display, List.append_assoc, List.cons_append, List.nil_append]
    exact rej_item_quote
  | blank b =>
    refine .inr ⟨by simp, .inl ?_⟩
    rintro w rfl
    obtain ⟨h1, h2⟩ := acc_label (T := T) (u := ' ' :: '<' :: w) (show Label b from h) ⟨' ', _, rfl, .inl rfl⟩
    exact Acc.rule rfl (acc_expression (Acc.rule rfl (Rej.right h1 (Acc.left h2))) (by rw [skip_sp, skip_lt]) (by decide) (by decide))
  | res i =>
    refine .inr ⟨by simp, ?_⟩
    cases sty with
    | bare =>
      refine .inl ?_
      rintro w rfl
      have e : Subject.display .bare (.res i) = '<' :: (i.text ++ ['>']) := by simp [Subject.display, Iri.fmt]
      rw [e]
      exact Acc.rule rfl (acc_expression (Acc.rule rfl (Acc.left (acc_bracketed h))) (by rw [skip_sp, skip_lt]) (by decide) (by decide))
    | bracketed =>
      refine .inr ⟨rfl, ?_⟩
      have e : Subject.display .bracketed (.res i) = '<' :: (i.fmt .bracketed ++ ['>']) := by simp [Subject.display]
      rw [e]
      exact Acc.rule rfl (acc_expression (Acc.rule rfl (Acc.left (acc_twice h))) (skip_lead (by decide) (by decide)) (by decide) (by decide))

/-- A printed statement under the rules of N3. -/
theorem n3_top (sty : IriStyle) {s : Subject} {p : Iri} {o : Object} (h : StmtShows (.mk s p o)) (u : Str) :
    ((sty = .bare ∧ (∀ t, s ≠ .stmt t) ∧ (∀ t, o ≠ .stmt t) ∧ ObjectQuotes o) → Acc T n3Line ((Stmt.mk s p o).display sty ++ ' ' :: '.' :: u) u) ∧
    (¬ (sty = .bare ∧ (∀ t, s ≠ .stmt t) ∧ (∀ t, o ≠ .stmt t) ∧ ObjectQuotes o) → Rej T n3Line ((Stmt.mk s p o).display sty ++ ' ' :: '.' :: u)) := by
  have e : (Stmt.mk s p o).display sty ++ ' ' :: '.' :: u = s.display sty ++ ' ' :: ('<' :: (p.fmt sty ++ ['>']) ++ ' ' ::
      (o.display sty false ++ ' ' :: '.' :: u)) := by simp [Stmt.display]
  have hdot : ∀ u, skip false (' ' :: '.' :: u) = '.' :: u := by intro u; rw [skip_sp]; exact skip_lead (by decide) (by decide)
  have hgt : ∀ w, skip false ('>' :: w) = '>' :: w := fun w => skip_lead (by decide) (by decide)
  have hf : Fol (' ' :: '.' :: u) := ⟨⟨' ', _, rfl, .inl rfl⟩, '.', _, hdot u, by decide⟩
  obtain ⟨hs, hp, ho⟩ := h
  rw [e]
  obtain ⟨c, v, ec, hcc⟩ := display_begins sty s
  rcases item_subject (T := T) sty hs (v := ' ' :: ('<' :: (p.fmt sty ++ ['>']) ++ ' ' :: (o.display sty false ++ ' ' :: '.' :: u))) with
    ⟨t, rfl, hr⟩ | ⟨hns, ha | ⟨rfl, ha⟩⟩
  · refine ⟨fun hq => absurd rfl (hq.2.1 t), fun _ => ?_⟩
    rw [ec, List.cons_append] at hr ⊢
    exact rej_n3Line_subject hcc hr
  · have ha := ha _ rfl
    rw [ec, List.cons_append] at ha ⊢
    have hsk : ∀ w, skip false ('<' :: w) = '<' :: w := skip_lt
    cases sty with
    | bracketed =>
      exact ⟨fun hq => absurd hq.1 (by simp), fun _ => rej_n3Line hcc ha (hsk _) (by decide)
        (rej_pol_object (acc_twice hp) (hgt _) ⟨by decide, by decide⟩ rej_item_close)⟩
    | bare =>
      have hp' : ∀ w, Acc T (.rule .iri) ('<' :: (p.text ++ ['>']) ++ w) w := fun w => acc_bracketed hp
      by_cases hos : ∃ t, o = .stmt t
      · obtain ⟨t, rfl⟩ := hos
        obtain ⟨w, ew⟩ : ∃ w, Object.display .bare false (.stmt t) = '<' :: '<' :: ' ' :: w := ⟨_, by simp only [Object.display, List.cons_append]; rfl⟩
        refine ⟨fun hq => absurd rfl (hq.2.2.1 t), fun _ => rej_n3Line hcc ha (hsk _) (by decide)
          (rej_pol_object (hp' _) (v := '<' :: ' ' :: (w ++ ' ' :: '.' :: u)) ?_ ⟨by decide, by decide⟩ rej_item_quote)⟩
        rw [ew, skip_sp]
        exact skip_lt _
      · have hos : ∀ t, o ≠ .stmt t := fun t ht => hos ⟨t, ht⟩
        obtain ⟨⟨d, w, ed, hd, hw⟩, -⟩ := object_fact o ho
        have hi := item_object (T := T) ho hos hf (hdot u) ⟨by decide, by decide⟩
        have hn : d ≠ '!' ∧ d ≠ '^' := ⟨fun e => hd (by simp [e]), fun e => hd (by simp [e])⟩
        have hsk2 : skip false (' ' :: (o.display .bare false ++ ' ' :: '.' :: u)) = d :: (w ++ ' ' :: '.' :: u) := by
          rw [ed, skip_sp]
          exact skip_lead hw fun e => hd (by simp [e])
        rw [ed, List.cons_append] at hi
        refine ⟨fun hq => acc_n3Line hcc ha ?_, fun hq => rej_n3Line hcc ha (hsk _) (by decide)
          (rej_pol_object (hp' _) hsk2 hn (hi.2 fun h => hq ⟨rfl, hns, hos, h⟩))⟩
        rw [hsk]
        exact acc_pol (hp' _) hsk2 hn (hi.1 hq.2.2.2)
  · refine ⟨fun hq => absurd hq.1 (by simp), fun _ => ?_⟩
    rw [ec, List.cons_append] at ha ⊢
    exact rej_n3Line hcc ha (hgt _) (by decide) rej_pol_close

theorem n3_doc (h : Acc s.length (.star n3Line) (skip false s) r) (hr : skip false r = []) : Acc s.length (.rule .n3Doc) s [] := by
  refine Acc.rule rfl (Acc.seq (r := s) ⟨[], reads_soi.cast (by simp)⟩ (Acc.seq h ?_))
  rw [hr]; exact ⟨[.mk none [] []], reads_eoi.cast (by simp)⟩

theorem n3_undoc (h : Acc s.length (.star n3Line) (skip false s) r) (hr : skip false r ≠ []) : Rej s.length (.rule .n3Doc) s := by
  refine Rej.rule rfl (Acc.seq_rej (r := s) ⟨[], reads_soi.cast (by simp)⟩ (Acc.seq_rej h ?_))
  exact reads_eoi.cast (by simp [hr])

/-- What N3 makes of statements on lines of their own. -/
theorem n3_more (ts : List Stmt) (h : ∀ t ∈ ts, StmtShows t) :
    ∃ r, Acc T (.more n3Line) ('\n' :: ts.flatMap fun t => t.display .bare ++ str! " .\n") r ∧
      (skip false r = [] ↔ ∀ t ∈ ts, (∀ x, t.subject ≠ .stmt x) ∧ (∀ x, t.object ≠ .stmt x) ∧ ObjectQuotes t.object) := by
  have hnl : ∀ w, skip false ('\n' :: w) = skip false w := fun w => by simp [skip, isWs, isNewline]
  induction ts with
  | nil =>
    have e : skip false ['\n'] = [] := by simp [skip, isWs, isNewline]
    exact ⟨['\n'], Rej.more (by rw [List.flatMap_nil, e]; exact rej_empty (by decide) (by decide)), by simp [e]⟩
  | cons t ts ih =>
    obtain ⟨r, h1, h2⟩ := ih fun x hx => h x (by simp [hx])
    cases t with
    | mk s p o =>
      have ht := h (.mk s p o) (by simp)
      have e : ((Stmt.mk s p o :: ts).flatMap fun t => t.display .bare ++ str! " .\n") =
          (Stmt.mk s p o).display .bare ++ ' ' :: '.' :: '\n' :: ts.flatMap fun t => t.display .bare ++ str! " .\n" := by simp [List.flatMap_cons]
      have hsk : ∀ w, skip false ((Stmt.mk s p o).display .bare ++ w) = (Stmt.mk s p o).display .bare ++ w := by
        intro w
        have := display_solid .bare s (' ' :: ('<' :: (p.fmt .bare ++ ['>']) ++ ' ' :: (o.display .bare false ++ w)))
        simpa [Stmt.display] using this
      rw [e]
      have ht' := n3_top (T := T) .bare ht ('\n' :: ts.flatMap fun t => t.display .bare ++ str! " .\n")
      by_cases hq : (∀ x, s ≠ .stmt x) ∧ (∀ x, o ≠ .stmt x) ∧ ObjectQuotes o
      · refine ⟨r, Acc.more ?_ h1, h2.trans ?_⟩
        · rw [hnl, hsk]; exact ht'.1 ⟨rfl, hq⟩
        · simp only [List.mem_cons, forall_eq_or_imp]
          exact ⟨fun h => ⟨hq, h⟩, fun h => h.2⟩
      · refine ⟨_, Rej.more (by rw [hnl, hsk]; exact ht'.2 fun h => hq h.2), ?_⟩
        constructor
        · intro hh
          rw [hnl, hsk] at hh
          simp at hh
        · intro hh; exact absurd (hh (.mk s p o) (by simp)) hq

theorem n3_lines (ts : List Stmt) (h : ∀ t ∈ ts, StmtShows t) :
    ∃ r, Acc T (.star n3Line) (skip false (ts.flatMap fun t => t.display .bare ++ str! " .\n")) r ∧
      (skip false r = [] ↔ ∀ t ∈ ts, (∀ x, t.subject ≠ .stmt x) ∧ (∀ x, t.object ≠ .stmt x) ∧ ObjectQuotes t.object) := by
  cases ts with
  | nil => exact ⟨[], by simpa [skip] using Rej.star (rej_empty (T := T) (e := n3Line) (by decide) (by decide)), by simp [skip]⟩
  | cons t ts =>
    obtain ⟨r, h1, h2⟩ := n3_more (T := T) ts fun x hx => h x (by simp [hx])
    cases t with
    | mk s p o =>
      have ht := h (.mk s p o) (by simp)
      have e : ((Stmt.mk s p o :: ts).flatMap fun t => t.display .bare ++ str! " .\n") =
          (Stmt.mk s p o).display .bare ++ ' ' :: '.' :: '\n' :: ts.flatMap fun t => t.display .bare ++ str! " .\n" := by simp [List.flatMap_cons]
      have hsk : ∀ w, skip false ((Stmt.mk s p o).display .bare ++ w) = (Stmt.mk s p o).display .bare ++ w := by
        intro w
        have := display_solid .bare s (' ' :: ('<' :: (p.fmt .bare ++ ['>']) ++ ' ' :: (o.display .bare false ++ w)))
        simpa [Stmt.display] using this
      have ht' := n3_top (T := T) .bare ht ('\n' :: ts.flatMap fun t => t.display .bare ++ str! " .\n")
      rw [e, hsk]
      by_cases hq : (∀ x, s ≠ .stmt x) ∧ (∀ x, o ≠ .stmt x) ∧ ObjectQuotes o
      · refine ⟨r, Acc.star (ht'.1 ⟨rfl, hq⟩) h1, h2.trans ?_⟩
        simp only [List.mem_cons, forall_eq_or_imp]
        exact ⟨fun h => ⟨hq, h⟩, fun h => h.2⟩
      · refine ⟨_, Rej.star (ht'.2 fun h => hq h.2), ?_⟩
        constructor
        · intro hh
          rw [hsk] at hh
          simp at hh
        · intro hh; exact absurd (hh (.mk s p o) (by simp)) hq

end Rdftk
