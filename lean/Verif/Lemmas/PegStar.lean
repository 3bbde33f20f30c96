import Verif.Lemmas.PegTrig
import Verif.Spec.StarText

/-! Printed statements under the rules of Turtle. -/

namespace Rdftk

open PegGrammar Spec

variable {T : Nat} {s r u : Str}

/-- A document of TriG from its parts. -/
theorem trig_doc (h : Acc s.length (.star (.alt (.rule .directive) (.rule .block))) (skip false s) r) (hr : skip false r = []) :
    Acc s.length (.rule .trigDoc) s [] := by
  refine Acc.rule rfl (Acc.seq (r := s) ⟨[], reads_soi.cast (by simp)⟩ (Acc.seq h ?_))
  rw [hr]; exact ⟨[.mk none [] []], reads_eoi.cast (by simp)⟩

theorem rej_iri_quote {w : Str} : Rej T (.rule .iri) ('<' :: '<' :: ' ' :: w) :=
  rej_iri (by decide) (by decide) (by decide) (by decide) rfl

theorem rej_lit_quote {w : Str} : Rej T (.rule .turtleLiteral) ('<' :: w) := rej_turtleLiteral (by decide) (by decide) (by simp)

theorem rej_coll {c : Char} {w : Str} (h : c ≠ '(') : Rej T (.rule .collection) (c :: w) := Rej.rule rfl (Rej.seq (rej_chr (Ne.symm h)))

theorem rej_props {c : Char} {w : Str} (h : c ≠ '[') : Rej T (.rule .blankNodePropertyList) (c :: w) := Rej.rule rfl (Rej.seq (rej_chr (Ne.symm h)))

theorem rej_tripleX {c : Char} {w : Str} (h : c ≠ '<') : Rej T (.rule .tripleX) (c :: w) := Rej.rule rfl (Rej.seq (rej_chr (Ne.symm h)))

/-- A quoted statement as the first part of a statement. -/
theorem subject_quote {w : Str} : (Acc T (.rule .tripleX) ('<' :: '<' :: ' ' :: w) r → Acc T (.rule .turtleSubject) ('<' :: '<' :: ' ' :: w) r ∧
      Acc T (.rule .subjectX) ('<' :: '<' :: ' ' :: w) r ∧ Acc T (.rule .turtleObject) ('<' :: '<' :: ' ' :: w) r ∧
      Acc T (.rule .objectX) ('<' :: '<' :: ' ' :: w) r) ∧
    (Rej T (.rule .tripleX) ('<' :: '<' :: ' ' :: w) → Rej T (.rule .turtleSubject) ('<' :: '<' :: ' ' :: w) ∧
      Rej T (.rule .subjectX) ('<' :: '<' :: ' ' :: w) ∧ Rej T (.rule .turtleObject) ('<' :: '<' :: ' ' :: w) ∧
      Rej T (.rule .objectX) ('<' :: '<' :: ' ' :: w)) := by
  have h1 : Rej T (.rule .blankNode) ('<' :: '<' :: ' ' :: w) := rej_blank (by decide) (by decide)
  have h2 : Rej T (.rule .collection) ('<' :: '<' :: ' ' :: w) := rej_coll (by decide)
  have h3 : Rej T (.rule .blankNodePropertyList) ('<' :: '<' :: ' ' :: w) := rej_props (by decide)
  exact ⟨fun h => ⟨Acc.rule rfl (Rej.right rej_iri_quote (Rej.right h1 (Rej.right h2 h))), Acc.rule rfl (Rej.right rej_iri_quote (Rej.right h1 h)),
      Acc.rule rfl (Rej.right rej_iri_quote (Rej.right h1 (Rej.right rej_lit_quote (Rej.right h2 (Rej.right h3 h))))),
      Acc.rule rfl (Rej.right rej_iri_quote (Rej.right h1 (Rej.right rej_lit_quote h)))⟩,
    fun h => ⟨Rej.rule rfl (Rej.alt rej_iri_quote (Rej.alt h1 (Rej.alt h2 h))), Rej.rule rfl (Rej.alt rej_iri_quote (Rej.alt h1 h)),
      Rej.rule rfl (Rej.alt rej_iri_quote (Rej.alt h1 (Rej.alt rej_lit_quote (Rej.alt h2 (Rej.alt h3 h))))),
      Rej.rule rfl (Rej.alt rej_iri_quote (Rej.alt h1 (Rej.alt rej_lit_quote h)))⟩⟩

/-- A list is no part of a quoted statement. -/
theorem rej_objectX_list {w : Str} : Rej T (.rule .objectX) ('(' :: w) := Rej.rule rfl (Rej.alt
  (rej_iri (by decide) (by decide) (by decide) (by decide) (pIriRef_head (by decide))) (Rej.alt (rej_blank (by decide) (by decide))
    (Rej.alt (rej_turtleLiteral (by decide) (by decide) (by simp)) (rej_tripleX (by decide)))))

/-- A list as an object. -/
theorem object_list {w : Str} : (Acc T (.rule .collection) ('(' :: w) r → Acc T (.rule .turtleObject) ('(' :: w) r) ∧
    (Rej T (.rule .collection) ('(' :: w) → Rej T (.rule .turtleObject) ('(' :: w)) := by
  have h1 : Rej T (.rule .iri) ('(' :: w) := rej_iri (by decide) (by decide) (by decide) (by decide) (pIriRef_head (by decide))
  have h2 : Rej T (.rule .blankNode) ('(' :: w) := rej_blank (by decide) (by decide)
  have h3 : Rej T (.rule .turtleLiteral) ('(' :: w) := rej_turtleLiteral (by decide) (by decide) (by simp)
  exact ⟨fun h => Acc.rule rfl (Rej.right h1 (Rej.right h2 (Rej.right h3 (Acc.left h)))),
    fun h => Rej.rule rfl (Rej.alt h1 (Rej.alt h2 (Rej.alt h3 (Rej.alt h (Rej.alt (rej_props (by decide)) (rej_tripleX (by decide)))))))⟩

/-- The printed form of a quoted statement. -/
def quoteText (t : Stmt) : Str := '<' :: '<' :: ' ' :: (t.display .bare ++ [' ', '>', '>'])

/-- What holds of a subject as it is printed. -/
structure SubjFact (s : Subject) : Prop where
  head : ∃ c w, s.display .bare = c :: w ∧ (c = '_' ∨ c = '<')
  good : SubjectQuotes s → ∀ T u, Brk u → Acc T (.rule .turtleSubject) (s.display .bare ++ u) u ∧ Acc T (.rule .subjectX) (s.display .bare ++ u) u
  bad : ¬ SubjectQuotes s → ∀ T u, Rej T (.rule .turtleSubject) (s.display .bare ++ u) ∧ Rej T (.rule .subjectX) (s.display .bare ++ u)

/-- What holds of an object as it is printed. -/
structure ObjFact (o : Object) : Prop where
  head : ∃ c w, o.display .bare false = c :: w ∧ c ∉ (str! "@^:#])!") ∧ isWs c = false
  good : ObjectQuotes o → ∀ T u, Fol u → ∃ r, Acc T (.rule .turtleObject) (o.display .bare false ++ u) r ∧ skip false r = skip false u
  bad : ¬ ObjectQuotes o → ∀ T u, Fol u → Rej T (.rule .turtleObject) (o.display .bare false ++ u)
  goodX : ((∀ c, o ≠ .coll c) ∧ ObjectQuotes o) → ∀ T u, Fol u →
    ∃ r, Acc T (.rule .objectX) (o.display .bare false ++ u) r ∧ skip false r = skip false u
  badX : ¬ ((∀ c, o ≠ .coll c) ∧ ObjectQuotes o) → ∀ T u, Fol u → Rej T (.rule .objectX) (o.display .bare false ++ u)

/-- What holds of a statement that is quoted. -/
structure StmtFact (t : Stmt) : Prop where
  good : StmtQuotes t → ∀ T u, Acc T (.rule .tripleX) (quoteText t ++ u) u
  bad : ¬ StmtQuotes t → ∀ T u, Rej T (.rule .tripleX) (quoteText t ++ u)

theorem SubjFact.skip {x : Subject} (h : SubjFact x) (u : Str) : skip false (x.display .bare ++ u) = x.display .bare ++ u := by
  obtain ⟨c, w, e, hc⟩ := h.head
  rw [e]
  rcases hc with rfl | rfl <;> exact skip_lead (by decide) (by decide)

theorem ObjFact.skip {x : Object} (h : ObjFact x) (u : Str) : skip false (x.display .bare false ++ u) = x.display .bare false ++ u := by
  obtain ⟨c, w, e, hc, hw⟩ := h.head
  rw [e]
  refine skip_lead hw ?_
  rintro rfl
  simp at hc

theorem label_fact {b : Str} (h : Label b) : SubjFact (.blank b) ∧ ObjFact (.blank b) := by
  refine ⟨⟨⟨'_', _, rfl, .inl rfl⟩, fun _ T u hu => ?_, fun hn => absurd trivial hn⟩,
    ⟨⟨'_', _, rfl, by decide, by decide⟩, fun _ T u hu => ?_, fun hn => absurd trivial hn, fun _ T u hu => ?_, fun hn => absurd ⟨by simp, trivial⟩ hn⟩⟩
  · obtain ⟨h1, h2⟩ := acc_label (T := T) h hu
    exact ⟨Acc.rule rfl (Rej.right h1 (Acc.left h2)), Acc.rule rfl (Rej.right h1 (Acc.left h2))⟩
  · obtain ⟨h1, h2⟩ := acc_label (T := T) h hu.1
    exact ⟨u, Acc.rule rfl (Rej.right h1 (Acc.left h2)), rfl⟩
  · obtain ⟨h1, h2⟩ := acc_label (T := T) h hu.1
    exact ⟨u, Acc.rule rfl (Rej.right h1 (Acc.left h2)), rfl⟩

theorem acc_bracketed {i : Str} (h : LooseIri i) : Acc T (.rule .iri) ('<' :: (i ++ ['>']) ++ u) u := by
  refine acc_iri (i := i) ?_
  simpa using pIriRef_loose h u

theorem iri_fact {i : Iri} (h : LooseIri i.text) : SubjFact (.res i) ∧ ObjFact (.res i) := by
  have e1 : Subject.display .bare (.res i) = '<' :: (i.text ++ ['>']) := by simp [Subject.display, Iri.fmt]
  have e2 : Object.display .bare false (.res i) = '<' :: (i.text ++ ['>']) := by simp [Object.display, Iri.fmt]
  refine ⟨⟨⟨'<', _, e1, .inr rfl⟩, fun _ T u hu => ?_, fun hn => absurd trivial hn⟩,
    ⟨⟨'<', _, e2, by decide, by decide⟩, fun _ T u hu => ?_, fun hn => absurd trivial hn, fun _ T u hu => ?_, fun hn => absurd ⟨by simp, trivial⟩ hn⟩⟩
  · rw [e1]; exact ⟨Acc.rule rfl (Acc.left (acc_bracketed h)), Acc.rule rfl (Acc.left (acc_bracketed h))⟩
  · rw [e2]; exact ⟨u, Acc.rule rfl (Acc.left (acc_bracketed h)), rfl⟩
  · rw [e2]; exact ⟨u, Acc.rule rfl (Acc.left (acc_bracketed h)), rfl⟩

theorem litTok_fact {l : Literal} (h : LitTok (l.display .bare false)) (hh : ∃ c w, l.display .bare false = c :: w ∧ c ∉ (str! "@^:#])!") ∧ isWs c = false) :
    ObjFact (.lit l) := by
  refine ⟨hh, fun _ T u hu => h.obj.2 T u hu, fun hn => absurd trivial hn, fun _ T u hu => ?_, fun hn => absurd ⟨by simp, trivial⟩ hn⟩
  obtain ⟨r, ⟨h1, h2, h3⟩, h4⟩ := h.2 T u hu
  exact ⟨r, Acc.rule rfl (Rej.right h1 (Rej.right h2 (Acc.left h3))), h4⟩

/-- A literal is printed as a literal of the grammar or as an IRI in brackets. -/
theorem Spec.PlainLiteral.cases {v : Str} (h : PlainLiteral v) : (LitTok v ∧ ∃ c w, v = c :: w ∧ c ∉ (str! "@^:#])?([{<!") ∧ isWs c = false) ∨
    ∃ i, LooseIri i ∧ v = '<' :: (i ++ ['>']) := by
  rcases h with ⟨q, hq, h⟩ | ⟨k, hk⟩ | rfl | rfl | h
  · refine .inl ⟨lit_quoted hq h, ?_⟩
    rcases h with h | ⟨t, -, h⟩ | ⟨i, -, h⟩ <;> exact ⟨'"', _, h, by decide, by decide⟩
  · refine .inl ⟨acc_number hk, ?_⟩
    obtain ⟨c, w, e, hc⟩ := number_head hk
    obtain ⟨c', w', e', hw, -⟩ := (acc_number hk).1
    rw [e] at e'
    cases e'
    refine ⟨c, w, e, ?_, hw⟩
    simp only [List.mem_cons, List.not_mem_nil, or_false]
    rintro (rfl | rfl | rfl | rfl | rfl | rfl | rfl | rfl | rfl | rfl | rfl | rfl) <;> revert hc <;> decide
  · exact .inl ⟨acc_bool (.inl rfl), 't', _, rfl, by decide, by decide⟩
  · exact .inl ⟨acc_bool (.inr rfl), 'f', _, rfl, by decide, by decide⟩
  · exact .inr h

theorem lit_fact {l : Literal} (h : PlainLiteral (l.display .bare false)) : ObjFact (.lit l) := by
  rcases h.cases with ⟨h1, c, w, e, hc, hw⟩ | ⟨i, hi, h⟩
  · exact litTok_fact h1 ⟨c, w, e, by simp at hc ⊢; simp [hc], hw⟩
  · have e : Object.display .bare false (.lit l) = '<' :: (i ++ ['>']) := by simpa [Object.display] using h
    refine ⟨⟨'<', _, e, by decide, by decide⟩, fun _ T u hu => ?_, fun hn => absurd trivial hn, fun _ T u hu => ?_, fun hn => absurd ⟨by simp, trivial⟩ hn⟩
    · rw [e]; exact ⟨u, Acc.rule rfl (Acc.left (acc_bracketed hi)), rfl⟩
    · rw [e]; exact ⟨u, Acc.rule rfl (Acc.left (acc_bracketed hi)), rfl⟩

/-- A quoted statement from its parts. -/
theorem quoted_fact {s : Subject} {p : Iri} {o : Object} (hs : SubjFact s) (hp : LooseIri p.text) (ho : ObjFact o) : StmtFact (.mk s p o) := by
  have e : ∀ u, quoteText (.mk s p o) ++ u = '<' :: '<' :: ' ' :: (s.display .bare ++ ' ' :: ('<' :: (p.text ++ ['>']) ++ ' ' ::
      (o.display .bare false ++ ' ' :: '>' :: '>' :: u))) := by
    intro u; simp [quoteText, Stmt.display, Iri.fmt]
  have hf : ∀ u, Fol (' ' :: '>' :: '>' :: u) := fun u =>
    ⟨⟨' ', _, rfl, .inl rfl⟩, '>', _, by rw [skip_sp]; exact skip_lead (by decide) (by decide), by decide⟩
  have h0 : ∀ T w, Acc T (.str (str! "<<")) ('<' :: '<' :: ' ' :: w) (' ' :: w) := fun T w => acc_str rfl
  have hlt : ∀ w, skip false (' ' :: ('<' :: (p.text ++ ['>']) ++ w)) = '<' :: (p.text ++ ['>']) ++ w := by
    intro w; rw [skip_sp]; exact skip_lead (by decide) (by decide)
  constructor
  · rintro ⟨h1, h2⟩ T u
    rw [e]
    refine Acc.rule rfl (Acc.seq (h0 _ _) ?_)
    rw [skip_sp, hs.skip]
    refine Acc.seq (hs.good h1 T _ ⟨' ', _, rfl, .inl rfl⟩).2 ?_
    rw [hlt]
    refine Acc.seq (Acc.rule rfl (acc_bracketed hp)) ?_
    rw [skip_sp, ho.skip]
    obtain ⟨r, h3, h4⟩ := ho.goodX h2 T _ (hf u)
    refine Acc.seq h3 ?_
    rw [h4, skip_sp, show skip false ('>' :: '>' :: u) = '>' :: '>' :: u from skip_lead (by decide) (by decide)]
    exact acc_str rfl
  · intro hn T u
    rw [e]
    refine Rej.rule rfl (Acc.seq_rej (h0 _ _) ?_)
    rw [skip_sp, hs.skip]
    by_cases h1 : SubjectQuotes s
    · refine Acc.seq_rej (hs.good h1 T _ ⟨' ', _, rfl, .inl rfl⟩).2 ?_
      rw [hlt]
      refine Acc.seq_rej (Acc.rule rfl (acc_bracketed hp)) ?_
      rw [skip_sp, ho.skip]
      exact Rej.seq (ho.badX (fun h2 => hn ⟨h1, h2⟩) T _ (hf u))
    · exact Rej.seq (hs.bad h1 T _).2

theorem quote_fact {t : Stmt} (h : StmtFact t) : SubjFact (.stmt t) ∧ ObjFact (.stmt t) := by
  have e1 : Subject.display .bare (.stmt t) = quoteText t := by simp [Subject.display, quoteText]
  have e2 : Object.display .bare false (.stmt t) = quoteText t := by simp [Object.display, quoteText]
  have hx : ∀ u, quoteText t ++ u = '<' :: '<' :: ' ' :: (t.display .bare ++ [' ', '>', '>'] ++ u) := fun u => rfl
  refine ⟨⟨⟨'<', _, e1, .inr rfl⟩, fun hq T u _ => ?_, fun hn T u => ?_⟩,
    ⟨⟨'<', _, e2, by decide, by decide⟩, fun hq T u _ => ?_, fun hn T u _ => ?_, fun hq T u _ => ?_, fun hn T u _ => ?_⟩⟩
  · have := subject_quote.1 (h.good hq T u)
    rw [e1]; exact ⟨this.1, this.2.1⟩
  · have := (subject_quote (r := u)).2 (h.bad hn T u)
    rw [e1]; exact ⟨this.1, this.2.1⟩
  · have := subject_quote.1 (h.good hq T u)
    rw [e2]; exact ⟨u, this.2.2.1, rfl⟩
  · have := (subject_quote (r := u)).2 (h.bad hn T u)
    rw [e2]; exact this.2.2.1
  · have := subject_quote.1 (h.good hq.2 T u)
    rw [e2]; exact ⟨u, this.2.2.2, rfl⟩
  · have := (subject_quote (r := u)).2 (h.bad (fun hq => hn ⟨by simp, hq⟩) T u)
    rw [e2]; exact this.2.2.2

/-! ### Lists -/

/-- The members as they are printed, and the end of the list. -/
def membersText (os : List Object) (u : Str) : Str := joinSpace (Object.displayAll .bare os) ++ ' ' :: ')' :: u

theorem membersText_cons (o : Object) (os : List Object) (u : Str) : ∃ v, membersText (o :: os) u = o.display .bare false ++ v ∧
    skip false v = skip false (membersText os u) ∧ ∃ w, v = ' ' :: w := by
  cases os with
  | nil => exact ⟨' ' :: ')' :: u, by simp [membersText, Object.displayAll, joinSpace], by simp [membersText, Object.displayAll, joinSpace], _, rfl⟩
  | cons o' os => exact ⟨' ' :: membersText (o' :: os) u, by simp [membersText, Object.displayAll, joinSpace], skip_space _, _, rfl⟩

theorem membersText_head (os : List Object) (h : ∀ o ∈ os, ObjFact o) (u : Str) : ∃ c w, skip false (membersText os u) = c :: w ∧ c ∉ (str! "@^:") := by
  cases os with
  | nil => exact ⟨')', u, by simp [membersText, Object.displayAll, joinSpace, skip, isWs, isNewline], by decide⟩
  | cons o os =>
    obtain ⟨v, e, -⟩ := membersText_cons o os u
    obtain ⟨c, w, e', hc, -⟩ := (h o (by simp)).head
    rw [e, (h o (by simp)).skip, e']
    exact ⟨c, w ++ v, rfl, by simp at hc ⊢; simp [hc]⟩

theorem members_fol {o : Object} {os : List Object} {u v : Str} (h : ∀ o ∈ os, ObjFact o) (hv : skip false v = skip false (membersText os u))
    (hw : ∃ w, v = ' ' :: w) : Fol v := by
  obtain ⟨w, rfl⟩ := hw
  obtain ⟨c, w', e, hc⟩ := membersText_head os h u
  exact ⟨⟨' ', w, rfl, .inl rfl⟩, c, w', by rw [hv, e], hc⟩

theorem objectsQuote_iff (os : List Object) : ObjectsQuote os ↔ ∀ o ∈ os, ObjectQuotes o := by
  induction os with
  | nil => simp [ObjectsQuote]
  | cons o os ih => simp [ObjectsQuote, ih]

theorem members_more (os : List Object) (h : ∀ o ∈ os, ObjFact o) (u s : Str) (hs : skip false s = skip false (membersText os u)) :
    ∃ r, Acc T (.more (.rule .turtleObject)) s r ∧ ((ObjectsQuote os ∧ skip false r = ')' :: u) ∨ (¬ ObjectsQuote os ∧ ∃ c w, skip false r = c :: w ∧ c ≠ ')')) := by
  induction os generalizing s with
  | nil =>
    have e : skip false (membersText [] u) = ')' :: u := by simp [membersText, Object.displayAll, joinSpace, skip, isWs, isNewline]
    exact ⟨s, Rej.more (by rw [hs, e]; exact rej_object_close), .inl ⟨trivial, by rw [hs, e]⟩⟩
  | cons o os ih =>
    obtain ⟨v, e, hv, hw⟩ := membersText_cons o os u
    have ho := h o (by simp)
    have hos : ∀ o ∈ os, ObjFact o := fun x hx => h x (by simp [hx])
    have hf := members_fol (o := o) hos hv hw
    rw [e, ho.skip] at hs
    by_cases hq : ObjectQuotes o
    · obtain ⟨r, h1, h2⟩ := ho.good hq T v hf
      obtain ⟨r', h3, h4⟩ := ih hos r (by rw [h2, hv])
      refine ⟨r', Acc.more (by rw [hs]; exact h1) h3, ?_⟩
      simpa [ObjectsQuote, hq] using h4
    · obtain ⟨c, w, e', hc, -⟩ := ho.head
      refine ⟨s, Rej.more (by rw [hs]; exact ho.bad hq T v hf), .inr ⟨fun hh => hq hh.1, c, w ++ v, by rw [hs, e']; rfl, ?_⟩⟩
      rintro rfl
      simp at hc

theorem members_star (os : List Object) (h : ∀ o ∈ os, ObjFact o) (u : Str) :
    ∃ r, Acc T (.star (.rule .turtleObject)) (skip false (membersText os u)) r ∧
      ((ObjectsQuote os ∧ skip false r = ')' :: u) ∨ (¬ ObjectsQuote os ∧ ∃ c w, skip false r = c :: w ∧ c ≠ ')')) := by
  cases os with
  | nil =>
    have e : skip false (membersText [] u) = ')' :: u := by simp [membersText, Object.displayAll, joinSpace, skip, isWs, isNewline]
    exact ⟨')' :: u, by rw [e]; exact Rej.star rej_object_close, .inl ⟨trivial, skip_lead (by decide) (by decide)⟩⟩
  | cons o os =>
    obtain ⟨v, e, hv, hw⟩ := membersText_cons o os u
    have ho := h o (by simp)
    have hos : ∀ o ∈ os, ObjFact o := fun x hx => h x (by simp [hx])
    have hf := members_fol (o := o) hos hv hw
    rw [e, ho.skip]
    by_cases hq : ObjectQuotes o
    · obtain ⟨r, h1, h2⟩ := ho.good hq T v hf
      obtain ⟨r', h3, h4⟩ := members_more (T := T) os hos u r (by rw [h2, hv])
      refine ⟨r', Acc.star h1 h3, ?_⟩
      simpa [ObjectsQuote, hq] using h4
    · obtain ⟨c, w, e', hc, -⟩ := ho.head
      refine ⟨_, Rej.star (ho.bad hq T v hf), .inr ⟨fun hh => hq hh.1, c, w ++ v, by rw [ho.skip, e']; rfl, ?_⟩⟩
      rintro rfl
      simp at hc

/-- A list as it is printed. -/
theorem list_coll {os : List Object} (h : ∀ o ∈ os, ObjFact o) (u : Str) :
    (ObjectsQuote os → Acc T (.rule .collection) ('(' :: ' ' :: membersText os u) u) ∧
    (¬ ObjectsQuote os → Rej T (.rule .collection) ('(' :: ' ' :: membersText os u)) := by
  obtain ⟨r, h1, h2⟩ := members_star (T := T) os h u
  constructor
  · intro hq
    rcases h2 with ⟨-, h2⟩ | ⟨h2, -⟩
    · refine Acc.rule rfl (Acc.seq (r := ' ' :: membersText os u) (acc_str rfl) ?_)
      rw [skip_space]
      refine Acc.seq h1 ?_
      rw [h2]; exact acc_str rfl
    · exact absurd hq h2
  · intro hn
    rcases h2 with ⟨h2, -⟩ | ⟨-, c, w, h2, hc⟩
    · exact absurd h2 hn
    · refine Rej.rule rfl (Acc.seq_rej (r := ' ' :: membersText os u) (acc_str rfl) ?_)
      rw [skip_space]
      refine Acc.seq_rej h1 ?_
      rw [h2]; exact rej_chr (Ne.symm hc)

theorem coll_text (os : List Object) (u : Str) : Object.display .bare false (.coll os) ++ u = '(' :: ' ' :: membersText os u := by
  simp [Object.display, membersText]

theorem list_fact {os : List Object} (h : ∀ o ∈ os, ObjFact o) : ObjFact (.coll os) := by
  refine ⟨⟨'(', _, rfl, by decide, by decide⟩, fun hq T u _ => ⟨u, ?_, rfl⟩, fun hn T u _ => ?_, fun hq => absurd rfl (hq.1 os), fun _ T u _ => ?_⟩
  · rw [coll_text]; exact object_list.1 ((list_coll h u).1 hq)
  · rw [coll_text]; exact (object_list (r := u)).2 ((list_coll h u).2 hn)
  · rw [coll_text]; exact rej_objectX_list

/-! ### All terms -/

mutual
theorem subject_fact : ∀ s : Subject, SubjectShows s → SubjFact s
  | .blank _, h => (label_fact h).1
  | .res _, h => (iri_fact h).1
  | .stmt t, h => (quote_fact (stmt_fact t h)).1
theorem stmt_fact : ∀ t : Stmt, StmtShows t → StmtFact t
  | .mk s _ o, h => quoted_fact (subject_fact s h.1) h.2.1 (object_fact o h.2.2)
theorem object_fact : ∀ o : Object, ObjectShows o → ObjFact o
  | .blank _, h => (label_fact h).2
  | .res _, h => (iri_fact h).2
  | .lit _, h => lit_fact h
  | .coll c, h => list_fact (objects_fact c h)
  | .stmt t, h => (quote_fact (stmt_fact t h)).2
theorem objects_fact : ∀ os : List Object, ObjectsShow os → ∀ o ∈ os, ObjFact o
  | [], _ => by simp
  | o :: os, h => by
    have h1 := object_fact o h.1
    have h2 := objects_fact os h.2
    intro x hx
    rcases List.mem_cons.1 hx with rfl | hx
    · exact h1
    · exact h2 x hx
end

/-! ### Brackets of their own -/

theorem loose_lt {i : Str} (h : LooseIri i) : LooseIri ('<' :: i) := by
  obtain ⟨ts, h1, e⟩ := h
  exact ⟨['<'] :: ts, by
    intro t ht
    rcases List.mem_cons.1 ht with rfl | ht
    · exact .inl ⟨'<', .inr rfl, rfl⟩
    · exact h1 t ht, by rw [e]; rfl⟩

/-- An IRI with two pairs of brackets is read up to the last of them. -/
theorem acc_twice {i : Iri} (h : LooseIri i.text) : Acc T (.rule .iri) ('<' :: (i.fmt .bracketed ++ ['>']) ++ u) ('>' :: u) := by
  refine acc_iri (i := '<' :: i.text) ?_
  simpa [Iri.fmt] using pIriRef_loose (loose_lt h) ('>' :: u)

theorem rej_close {e : GRule} (he : e ∈ [GRule.turtleSubject, .turtlePredicate, .turtleObject, .objectX]) {w : Str} : Rej T (.rule e) ('>' :: w) := by
  have h1 : Rej T (.rule .iri) ('>' :: w) := rej_iri (by decide) (by decide) (by decide) (by decide) (pIriRef_head (by decide))
  have h2 : Rej T (.rule .blankNode) ('>' :: w) := rej_blank (by decide) (by decide)
  have h3 : Rej T (.rule .turtleLiteral) ('>' :: w) := rej_turtleLiteral (by decide) (by decide) (by simp)
  have h4 : Rej T (.rule .tripleX) ('>' :: w) := rej_tripleX (by decide)
  simp only [List.mem_cons, List.not_mem_nil, or_false] at he
  rcases he with rfl | rfl | rfl | rfl
  · exact Rej.rule rfl (Rej.alt h1 (Rej.alt h2 (Rej.alt (rej_coll (by decide)) h4)))
  · exact Rej.rule rfl h1
  · exact Rej.rule rfl (Rej.alt h1 (Rej.alt h2 (Rej.alt h3 (Rej.alt (rej_coll (by decide)) (Rej.alt (rej_props (by decide)) h4)))))
  · exact Rej.rule rfl (Rej.alt h1 (Rej.alt h2 (Rej.alt h3 h4)))

theorem rej_twice_list {p : Iri} (hp : LooseIri p.text) {w : Str} :
    Rej T (.rule .predicateObjectList) ('<' :: (p.fmt .bracketed ++ ['>']) ++ ' ' :: w) := by
  refine Rej.rule rfl (Rej.seq (Rej.rule rfl (Acc.seq_rej (Acc.rule rfl (Acc.left (Acc.rule rfl (acc_twice hp)))) ?_)))
  rw [show skip false ('>' :: ' ' :: w) = '>' :: ' ' :: w from skip_lead (by decide) (by decide)]
  exact Rej.rule rfl (Rej.seq (rej_close (by simp)))

mutual
/-- A subject printed with brackets of its own is read up to its end, up to the last bracket, or not at all. -/
theorem subject_twice : ∀ s : Subject, SubjectShows s → ∀ T v,
    (∃ r, Acc T (.rule .turtleSubject) (s.display .bracketed ++ ' ' :: v) r ∧ Acc T (.rule .subjectX) (s.display .bracketed ++ ' ' :: v) r ∧
      (r = ' ' :: v ∨ r = '>' :: ' ' :: v)) ∨
    (Rej T (.rule .turtleSubject) (s.display .bracketed ++ ' ' :: v) ∧ Rej T (.rule .subjectX) (s.display .bracketed ++ ' ' :: v))
  | .blank b, h => fun T v => .inl ⟨_, ((label_fact h).1.good trivial T _ ⟨' ', v, rfl, .inl rfl⟩).1, ((label_fact h).1.good trivial T _ ⟨' ', v, rfl, .inl rfl⟩).2, .inl rfl⟩
  | .res i, h => fun T v => by
    have e : Subject.display .bracketed (.res i) = '<' :: (i.fmt .bracketed ++ ['>']) := by simp [Subject.display]
    rw [e]
    exact .inl ⟨_, Acc.rule rfl (Acc.left (acc_twice h)), Acc.rule rfl (Acc.left (acc_twice h)), .inr rfl⟩
  | .stmt t, h => fun T v => by
    have e : Subject.display .bracketed (.stmt t) ++ ' ' :: v = '<' :: '<' :: ' ' :: (t.display .bracketed ++ ' ' :: '>' :: '>' :: ' ' :: v) := by
      simp [Subject.display]
    have := (subject_quote (r := v)).2 (stmt_twice t h T (' ' :: '>' :: '>' :: ' ' :: v))
    rw [e]
    exact .inr ⟨this.1, this.2.1⟩
/-- A statement printed with brackets of its own is not quoted. -/
theorem stmt_twice : ∀ t : Stmt, StmtShows t → ∀ T u, Rej T (.rule .tripleX) ('<' :: '<' :: ' ' :: (t.display .bracketed ++ u))
  | .mk s p o, h => fun T u => by
    have e : (Stmt.mk s p o).display .bracketed ++ u = s.display .bracketed ++ ' ' :: ('<' :: (p.fmt .bracketed ++ ['>']) ++ ' ' ::
        (o.display .bracketed false ++ u)) := by simp [Stmt.display]
    rw [e]
    refine Rej.rule rfl (Acc.seq_rej (r := ' ' :: _) (acc_str rfl) ?_)
    have hhead : ∃ c w, s.display .bracketed = c :: w ∧ (c = '_' ∨ c = '<') := by
      cases s with
      | blank b => exact ⟨'_', _, rfl, .inl rfl⟩
      | res i => exact ⟨'<', _, rfl, .inr rfl⟩
      | stmt t => exact ⟨'<', _, by simp only [Subject.display, List.cons_append]; rfl, .inr rfl⟩
    have hsk : ∀ w, skip false (s.display .bracketed ++ w) = s.display .bracketed ++ w := by
      obtain ⟨c, w, e, hc⟩ := hhead
      intro w
      rw [e]
      rcases hc with rfl | rfl <;> exact skip_lead (by decide) (by decide)
    rw [skip_sp, hsk]
    rcases subject_twice s h.1 T ('<' :: (p.fmt .bracketed ++ ['>']) ++ ' ' :: (o.display .bracketed false ++ u)) with ⟨r, -, h2, rfl | rfl⟩ | ⟨-, h2⟩
    · refine Acc.seq_rej h2 ?_
      rw [skip_sp, show skip false ('<' :: (p.fmt .bracketed ++ ['>']) ++ ' ' :: (o.display .bracketed false ++ u)) = _ from skip_lead (by decide) (by decide)]
      refine Acc.seq_rej (Acc.rule rfl (acc_twice h.2.1)) ?_
      rw [show ∀ w, skip false ('>' :: w) = '>' :: w from fun w => skip_lead (by decide) (by decide)]
      exact Rej.seq (rej_close (by simp))
    · refine Acc.seq_rej h2 ?_
      rw [show ∀ w, skip false ('>' :: w) = '>' :: w from fun w => skip_lead (by decide) (by decide)]
      exact Rej.seq (rej_close (by simp))
    · exact Rej.seq h2
end

theorem display_begins (sty : IriStyle) (s : Subject) : ∃ c w, s.display sty = c :: w ∧ (c = '_' ∨ c = '<') := by
  cases s with
  | blank b => exact ⟨'_', _, rfl, .inl rfl⟩
  | res i => exact ⟨'<', _, rfl, .inr rfl⟩
  | stmt t => exact ⟨'<', _, by simp only [Subject.display, List.cons_append]; rfl, .inr rfl⟩

theorem display_solid (sty : IriStyle) (s : Subject) (u : Str) : skip false (s.display sty ++ u) = s.display sty ++ u := by
  obtain ⟨c, w, e, hc⟩ := display_begins sty s
  rw [e]
  rcases hc with rfl | rfl <;> exact skip_lead (by decide) (by decide)

theorem display_no_props (sty : IriStyle) (s : Subject) (u : Str) : Rej T (.rule .blankNodePropertyList) (s.display sty ++ u) ∧
    Rej T (.rule .directive) (s.display sty ++ u) := by
  obtain ⟨c, w, e, hc⟩ := display_begins sty s
  rw [e]
  rcases hc with rfl | rfl <;> exact ⟨rej_props (by decide), rej_no_directive (by decide)⟩

/-- A statement printed with brackets of its own is none of the grammar. -/
theorem rej_stmt_twice {s : Subject} {p : Iri} {o : Object} (h : StmtShows (.mk s p o)) (u : Str) :
    Rej T (.rule .statement) ((Stmt.mk s p o).display .bracketed ++ u) := by
  have e : (Stmt.mk s p o).display .bracketed ++ u = s.display .bracketed ++ ' ' :: ('<' :: (p.fmt .bracketed ++ ['>']) ++ ' ' ::
      (o.display .bracketed false ++ u)) := by simp [Stmt.display]
  rw [e]
  obtain ⟨h1, h2⟩ := display_no_props (T := T) .bracketed s (' ' :: ('<' :: (p.fmt .bracketed ++ ['>']) ++ ' ' :: (o.display .bracketed false ++ u)))
  refine Rej.rule rfl (Rej.alt h2 (Rej.seq (Rej.rule rfl (Rej.alt ?_ (Rej.seq h1)))))
  rcases subject_twice s h.1 T ('<' :: (p.fmt .bracketed ++ ['>']) ++ ' ' :: (o.display .bracketed false ++ u)) with ⟨r, h3, -, rfl | rfl⟩ | ⟨h3, -⟩
  · refine Acc.seq_rej h3 ?_
    rw [skip_sp, show skip false ('<' :: (p.fmt .bracketed ++ ['>']) ++ ' ' :: (o.display .bracketed false ++ u)) = _ from skip_lead (by decide) (by decide)]
    exact rej_twice_list h.2.1
  · refine Acc.seq_rej h3 ?_
    rw [show ∀ w, skip false ('>' :: w) = '>' :: w from fun w => skip_lead (by decide) (by decide)]
    exact rej_closing
  · exact Rej.seq h3

/-- The predicate and the object of a statement are read up to the next sign behind them. -/
theorem list_shown {p : Iri} {o : Object} (hp : LooseIri p.text) (ho : ObjFact o) (h2 : ObjectQuotes o) (hu : Fol u)
    {c : Char} {w : Str} (hc : skip false u = c :: w) (hn : c ≠ ',' ∧ c ≠ ';') :
    Acc T (.rule .predicateObjectList) ('<' :: (p.text ++ ['>']) ++ ' ' :: (o.display .bare false ++ u)) (c :: w) := by
  obtain ⟨r, h4, h5⟩ := ho.good h2 T _ hu
  have h6 : skip false r = c :: w := by rw [h5, hc]
  have h7 : skip false (c :: w) = c :: w := by rw [← hc, skip_idem]
  refine Acc.rule rfl (Acc.seq (r := c :: w) (Acc.rule rfl (Acc.seq (Acc.rule rfl (Acc.left (Acc.rule rfl (acc_bracketed hp)))) ?_)) ?_)
  · rw [skip_sp, ho.skip]
    refine Acc.rule rfl (Acc.seq h4 ?_)
    rw [h6]; exact Rej.star (Rej.seq (rej_chr (Ne.symm hn.1)))
  · rw [h7]; exact Rej.star (Rej.seq (rej_chr (Ne.symm hn.2)))

/-- They are not read if the object is not. -/
theorem list_unshown {p : Iri} {o : Object} (hp : LooseIri p.text) (ho : ObjFact o) (h2 : ¬ ObjectQuotes o) (hu : Fol u) :
    Rej T (.rule .predicateObjectList) ('<' :: (p.text ++ ['>']) ++ ' ' :: (o.display .bare false ++ u)) := by
  refine Rej.rule rfl (Rej.seq (Rej.rule rfl (Acc.seq_rej (Acc.rule rfl (Acc.left (Acc.rule rfl (acc_bracketed hp)))) ?_)))
  rw [skip_sp, ho.skip]
  exact Rej.rule rfl (Rej.seq (ho.bad h2 T _ hu))

theorem skip_predicate {p : Str} (w : Str) : skip false (' ' :: ('<' :: (p ++ ['>']) ++ w)) = '<' :: (p ++ ['>']) ++ w := by
  rw [skip_sp]; exact skip_lead (by decide) (by decide)

/-- A statement printed without brackets of its own is read up to the next sign behind it. -/
theorem triples_shown {s : Subject} {p : Iri} {o : Object} (h : StmtShows (.mk s p o)) (h1 : SubjectQuotes s) (h2 : ObjectQuotes o) (hu : Fol u)
    {c : Char} {w : Str} (hc : skip false u = c :: w) (hn : c ≠ ',' ∧ c ≠ ';') : Acc T (.rule .triples) ((Stmt.mk s p o).display .bare ++ u) (c :: w) := by
  have e : (Stmt.mk s p o).display .bare ++ u = s.display .bare ++ ' ' :: ('<' :: (p.text ++ ['>']) ++ ' ' ::
      (o.display .bare false ++ u)) := by simp [Stmt.display, Iri.fmt]
  rw [e]
  refine Acc.rule rfl (Acc.left (Acc.seq ((subject_fact s h.1).good h1 T _ ⟨' ', _, rfl, .inl rfl⟩).1 ?_))
  rw [skip_predicate]
  exact list_shown h.2.1 (object_fact o h.2.2) h2 hu hc hn

/-- A statement printed without brackets of its own, with the dot behind it. -/
theorem stmt_shown {s : Subject} {p : Iri} {o : Object} (h : StmtShows (.mk s p o)) :
    (SubjectQuotes s ∧ ObjectQuotes o → StmtTok ((Stmt.mk s p o).display .bare ++ [' ', '.'])) ∧
    (¬ (SubjectQuotes s ∧ ObjectQuotes o) → ∀ T u, Rej T (.rule .statement) ((Stmt.mk s p o).display .bare ++ [' ', '.'] ++ u)) := by
  have e : ∀ u, (Stmt.mk s p o).display .bare ++ [' ', '.'] ++ u = s.display .bare ++ ' ' :: ('<' :: (p.text ++ ['>']) ++ ' ' ::
      (o.display .bare false ++ ' ' :: '.' :: u)) := by intro u; simp [Stmt.display, Iri.fmt]
  have hs := subject_fact s h.1
  have ho := object_fact o h.2.2
  have hdot : ∀ u, skip false (' ' :: '.' :: u) = '.' :: u := by intro u; rw [skip_sp]; exact skip_lead (by decide) (by decide)
  have hf : ∀ u, Fol (' ' :: '.' :: u) := fun u => ⟨⟨' ', _, rfl, .inl rfl⟩, '.', _, hdot u, by decide⟩
  have hlt : ∀ w, skip false (' ' :: ('<' :: (p.text ++ ['>']) ++ w)) = '<' :: (p.text ++ ['>']) ++ w := by
    intro w; rw [skip_sp]; exact skip_lead (by decide) (by decide)
  constructor
  · rintro ⟨h1, h2⟩ T u
    refine ⟨u, ?_, rfl⟩
    obtain ⟨-, h3⟩ := display_no_props (T := T) .bare s (' ' :: ('<' :: (p.text ++ ['>']) ++ ' ' :: (o.display .bare false ++ ' ' :: '.' :: u)))
    have h4 := triples_shown (T := T) h h1 h2 (hf u) (hdot u) ⟨by decide, by decide⟩
    have e' := e u
    rw [List.append_assoc] at e'
    rw [show (Stmt.mk s p o).display .bare ++ ' ' :: '.' :: u = _ from e'] at h4
    rw [e, display_solid]
    refine Acc.rule rfl (Rej.right h3 (Acc.seq (r := '.' :: u) h4 ?_))
    rw [show skip false ('.' :: u) = '.' :: u from skip_lead (by decide) (by decide)]
    exact acc_end
  · intro hn T u
    rw [e]
    obtain ⟨h1, h2⟩ := display_no_props (T := T) .bare s (' ' :: ('<' :: (p.text ++ ['>']) ++ ' ' :: (o.display .bare false ++ ' ' :: '.' :: u)))
    refine Rej.rule rfl (Rej.alt h2 (Rej.seq (Rej.rule rfl (Rej.alt ?_ (Rej.seq h1)))))
    by_cases hq : SubjectQuotes s
    · refine Acc.seq_rej (hs.good hq T _ ⟨' ', _, rfl, .inl rfl⟩).1 ?_
      rw [skip_predicate]
      exact list_unshown h.2.1 ho (fun h2 => hn ⟨hq, h2⟩) (hf u)
    · exact Rej.seq (hs.bad hq T _).1

/-! ### Graphs of TriG -/

/-- The statements of a graph. -/
theorem acc_block (dot : Bool) (t : Stmt) (ts : List Stmt) (h : ∀ x ∈ t :: ts, StmtShows x ∧ SubjectQuotes x.subject ∧ ObjectQuotes x.object) (u : Str) :
    ∃ r, Acc T (.rule .triplesBlock) (blockText dot (t :: ts) ++ '}' :: u) r ∧ skip false r = '}' :: u := by
  have hclose : skip false ('}' :: u) = '}' :: u := skip_lead (by decide) (by decide)
  have hnl : skip false ('\n' :: '}' :: u) = '}' :: u := by rw [← hclose]; simp [skip, isWs, isNewline]
  have hdot : ∀ w, skip false (' ' :: '.' :: w) = '.' :: w := by intro w; rw [skip_sp]; exact skip_lead (by decide) (by decide)
  have hd : ∀ w, skip false ('.' :: w) = '.' :: w := fun w => skip_lead (by decide) (by decide)
  have hf : ∀ w, Fol (' ' :: '.' :: w) := fun w => ⟨⟨' ', _, rfl, .inl rfl⟩, '.', _, hdot w, by decide⟩
  induction ts generalizing t with
  | nil =>
    obtain ⟨h1, h2, h3⟩ := h t (by simp)
    cases t with
    | mk s p o =>
    cases dot with
    | true =>
      have h4 := triples_shown (T := T) h1 h2 h3 (hf ('\n' :: '}' :: u)) (hdot _) ⟨by decide, by decide⟩
      refine ⟨'}' :: u, ?_, hclose⟩
      rw [show blockText true [Stmt.mk s p o] ++ '}' :: u = (Stmt.mk s p o).display .bare ++ ' ' :: '.' :: '\n' :: '}' :: u by simp [blockText]]
      refine Acc.rule rfl (Acc.seq h4 ?_)
      rw [hd]
      refine Acc.opt (Acc.seq acc_end ?_)
      rw [hnl]
      exact Rej.opt rej_triplesBlock
    | false =>
      have h4 := triples_shown (T := T) (u := '\n' :: '}' :: u) h1 h2 h3 ⟨⟨'\n', _, rfl, .inr (.inr rfl)⟩, '}', u, hnl, by decide⟩ hnl ⟨by decide, by decide⟩
      refine ⟨'}' :: u, ?_, hclose⟩
      rw [show blockText false [Stmt.mk s p o] ++ '}' :: u = (Stmt.mk s p o).display .bare ++ '\n' :: '}' :: u by simp [blockText]]
      refine Acc.rule rfl (Acc.seq h4 ?_)
      rw [hclose]
      exact Rej.opt (Rej.seq (Rej.rule rfl (rej_chr (by decide))))
  | cons t' ts ih =>
    obtain ⟨h1, h2, h3⟩ := h t (by simp)
    obtain ⟨r, h5, h6⟩ := ih t' (fun x hx => h x (by simp [List.mem_cons.1 hx]))
    have hsk : skip false ('\n' :: (blockText dot (t' :: ts) ++ '}' :: u)) = blockText dot (t' :: ts) ++ '}' :: u := by
      have hb : ∃ v, blockText dot (t' :: ts) ++ '}' :: u = t'.subject.display .bare ++ v := by
        cases t' with
        | mk s p o =>
          cases ts with
          | nil => cases dot <;> exact ⟨_, by simp only [blockText, Stmt.display, List.append_assoc]; rfl⟩
          | cons t'' ts => exact ⟨_, by simp only [blockText, Stmt.display, List.append_assoc]; rfl⟩
      obtain ⟨v, e⟩ := hb
      rw [e, ← display_solid .bare t'.subject v]
      simp [skip, isWs, isNewline, display_solid]
    cases t with
    | mk s p o =>
    refine ⟨r, ?_, h6⟩
    have h4 := triples_shown (T := T) h1 h2 h3 (hf ('\n' :: (blockText dot (t' :: ts) ++ '}' :: u))) (hdot _) ⟨by decide, by decide⟩
    rw [show blockText dot (Stmt.mk s p o :: t' :: ts) ++ '}' :: u = (Stmt.mk s p o).display .bare ++ ' ' :: '.' :: '\n' :: (blockText dot (t' :: ts) ++ '}' :: u) by
      simp [blockText]]
    refine Acc.rule rfl (Acc.seq h4 ?_)
    rw [hd]
    refine Acc.opt (Acc.seq acc_end ?_)
    rw [hsk]
    exact Acc.opt h5

theorem rej_block_rest {c : Char} {w : Str} (h : c = '_' ∨ c = '<') :
    Rej T (.alt (.rule .wrappedGraph) (.alt (.rule .triples2) (.rule .namedGraph))) (c :: w) := by
  rcases h with rfl | rfl <;>
    exact Rej.alt (rej_wrapped (by decide)) (Rej.alt (rej_triples2 (by decide) (by decide)) (Rej.rule rfl (Rej.seq (rej_chr (by decide)))))

/-- A printed statement outside of all graphs of TriG. -/
theorem trig_top (sty : IriStyle) {s : Subject} {p : Iri} {o : Object} (h : StmtShows (.mk s p o)) (u : Str) :
    ((sty = .bare ∧ (∀ t, s ≠ .stmt t) ∧ ObjectQuotes o) →
      Acc T (.alt (.rule .directive) (.rule .block)) ((Stmt.mk s p o).display sty ++ ' ' :: '.' :: u) u) ∧
    (¬ (sty = .bare ∧ (∀ t, s ≠ .stmt t) ∧ ObjectQuotes o) →
      Rej T (.alt (.rule .directive) (.rule .block)) ((Stmt.mk s p o).display sty ++ ' ' :: '.' :: u)) := by
  have e : (Stmt.mk s p o).display sty ++ ' ' :: '.' :: u = s.display sty ++ ' ' :: ('<' :: (p.fmt sty ++ ['>']) ++ ' ' ::
      (o.display sty false ++ ' ' :: '.' :: u)) := by simp [Stmt.display]
  have hdot : ∀ u, skip false (' ' :: '.' :: u) = '.' :: u := by intro u; rw [skip_sp]; exact skip_lead (by decide) (by decide)
  have hf : Fol (' ' :: '.' :: u) := ⟨⟨' ', _, rfl, .inl rfl⟩, '.', _, hdot u, by decide⟩
  have hd := (display_no_props (T := T) sty s (' ' :: ('<' :: (p.fmt sty ++ ['>']) ++ ' ' :: (o.display sty false ++ ' ' :: '.' :: u)))).2
  have hw : ∀ w, Rej T (.rule .wrappedGraph) ('<' :: (p.fmt sty ++ ['>']) ++ w) := fun w => rej_wrapped (by decide)
  rw [e]
  obtain ⟨c, v, ec, hcc⟩ := display_begins sty s
  have hrest : Rej T (.alt (.rule .wrappedGraph) (.alt (.rule .triples2) (.rule .namedGraph)))
      (s.display sty ++ ' ' :: ('<' :: (p.fmt sty ++ ['>']) ++ ' ' :: (o.display sty false ++ ' ' :: '.' :: u))) := by
    rw [ec]; exact rej_block_rest hcc
  have ho := object_fact o h.2.2
  have hlabel : ∀ v, (∀ t, s ≠ .stmt t) →
      Acc T (.rule .labelOrSubject) (s.display sty ++ ' ' :: v) (' ' :: v) ∨
      (sty = .bracketed ∧ Acc T (.rule .labelOrSubject) (s.display sty ++ ' ' :: v) ('>' :: ' ' :: v)) := by
    intro v hs
    cases s with
    | blank b =>
      obtain ⟨h1, h2⟩ := acc_label (T := T) (u := ' ' :: v) h.1 ⟨' ', v, rfl, .inl rfl⟩
      exact .inl (Acc.rule rfl (Rej.right h1 h2))
    | res i =>
      cases sty with
      | bare =>
        have e1 : Subject.display .bare (.res i) = '<' :: (i.text ++ ['>']) := by simp [Subject.display, Iri.fmt]
        rw [e1]; exact .inl (Acc.rule rfl (Acc.left (acc_bracketed h.1)))
      | bracketed =>
        have e1 : Subject.display .bracketed (.res i) = '<' :: (i.fmt .bracketed ++ ['>']) := by simp [Subject.display]
        rw [e1]; exact .inr ⟨rfl, Acc.rule rfl (Acc.left (acc_twice h.1))⟩
    | stmt t => exact absurd rfl (hs t)
  constructor
  · rintro ⟨rfl, hs, hq⟩
    refine Rej.right hd (Acc.rule rfl (Acc.left ?_))
    rcases hlabel _ hs with h1 | ⟨h1, -⟩
    · refine Acc.rule rfl (Acc.seq h1 ?_)
      rw [skip_predicate]
      refine Rej.right (hw _) (Acc.seq (list_shown h.2.1 ho hq hf (hdot u) ⟨by decide, by decide⟩) ?_)
      rw [show skip false ('.' :: u) = '.' :: u from skip_lead (by decide) (by decide)]
      exact acc_end
    · cases h1
  · intro hn
    refine Rej.alt hd (Rej.rule rfl (Rej.alt (Rej.rule rfl ?_) hrest))
    by_cases hs : ∀ t, s ≠ .stmt t
    · rcases hlabel _ hs with h1 | ⟨rfl, h1⟩
      · refine Acc.seq_rej h1 ?_
        rw [skip_predicate]
        refine Rej.alt (hw _) (Rej.seq ?_)
        cases sty with
        | bare => exact list_unshown h.2.1 ho (fun hq => hn ⟨rfl, hs, hq⟩) hf
        | bracketed => exact rej_twice_list h.2.1
      · refine Acc.seq_rej h1 ?_
        rw [show ∀ w, skip false ('>' :: w) = '>' :: w from fun w => skip_lead (by decide) (by decide)]
        exact Rej.alt (rej_wrapped (by decide)) (Rej.seq rej_closing)
    · cases s with
      | blank b => exact absurd (by simp) hs
      | res i => exact absurd (by simp) hs
      | stmt t =>
        refine Rej.seq ?_
        have e1 : ∀ w, Subject.display sty (.stmt t) ++ w = '<' :: '<' :: ' ' :: (t.display sty ++ ' ' :: '>' :: '>' :: w) := by
          intro w; simp [Subject.display]
        rw [e1]
        exact Rej.rule rfl (Rej.alt rej_iri_quote (rej_blank (by decide) (by decide)))

/-- A graph of TriG with statements. -/
theorem acc_wrapped_block (dot : Bool) (ts : List Stmt) (h : ∀ x ∈ ts, StmtShows x ∧ SubjectQuotes x.subject ∧ ObjectQuotes x.object) (u : Str) :
    Acc T (.rule .wrappedGraph) ('{' :: '\n' :: (blockText dot ts ++ '}' :: u)) u := by
  cases ts with
  | nil => exact acc_wrapped
  | cons t ts =>
    obtain ⟨r, h1, h2⟩ := acc_block (T := T) dot t ts h u
    have hsk : skip false ('\n' :: (blockText dot (t :: ts) ++ '}' :: u)) = blockText dot (t :: ts) ++ '}' :: u := by
      have hb : ∃ v, blockText dot (t :: ts) ++ '}' :: u = t.subject.display .bare ++ v := by
        cases t with
        | mk s p o =>
          cases ts with
          | nil => cases dot <;> exact ⟨_, by simp only [blockText, Stmt.display, List.append_assoc]; rfl⟩
          | cons t'' ts => exact ⟨_, by simp only [blockText, Stmt.display, List.append_assoc]; rfl⟩
      obtain ⟨v, e⟩ := hb
      rw [e, ← display_solid .bare t.subject v]
      simp [skip, isWs, isNewline, display_solid]
    refine Acc.rule rfl (Acc.seq (acc_str rfl) ?_)
    rw [hsk]
    refine Acc.seq (Acc.opt h1) ?_
    rw [h2]; exact acc_str rfl

/-- A graph of TriG with its name, with or without the keyword. -/
theorem acc_graph_block (k dot : Bool) (n : Option GraphName) (hn : GraphNameOk n) (ts : List Stmt)
    (h : ∀ x ∈ ts, StmtShows x ∧ SubjectQuotes x.subject ∧ ObjectQuotes x.object) (u : Str) :
    Acc T (.alt (.rule .directive) (.rule .block)) (trigGraphText k dot n ts ++ u) ('\n' :: u) ∧
      skip false (trigGraphText k dot n ts ++ u) = trigGraphText k dot n ts ++ u := by
  have hw := acc_wrapped_block (T := T) dot ts h ('\n' :: u)
  cases n with
  | none =>
    have e : trigGraphText k dot none ts ++ u = '{' :: '\n' :: (blockText dot ts ++ '}' :: '\n' :: u) := by simp [trigGraphText]
    rw [e]
    exact ⟨Rej.right (rej_no_directive (by decide)) (Acc.rule rfl (Rej.right (Rej.rule rfl (Rej.seq (Rej.rule rfl (Rej.alt
      (rej_iri (by decide) (by decide) (by decide) (by decide) (pIriRef_head (by decide))) (rej_blank (by decide) (by decide))))))
        (Acc.left hw))), skip_lead (by decide) (by decide)⟩
  | some n =>
    have hb : skip false (' ' :: '{' :: '\n' :: (blockText dot ts ++ '}' :: '\n' :: u)) = '{' :: '\n' :: (blockText dot ts ++ '}' :: '\n' :: u) := by
      rw [skip_sp]; exact skip_lead (by decide) (by decide)
    obtain ⟨c, w, ec, hc⟩ := display_head .bare n
    have hsk : ∀ v, skip false (n.display .bare ++ v) = n.display .bare ++ v := by
      intro v; rw [ec]; rcases hc with rfl | rfl <;> exact skip_lead (by decide) (by decide)
    have h2 : Acc T (.rule .labelOrSubject) (n.display .bare ++ ' ' :: '{' :: '\n' :: (blockText dot ts ++ '}' :: '\n' :: u))
        (' ' :: '{' :: '\n' :: (blockText dot ts ++ '}' :: '\n' :: u)) := by
      rcases display_cases (T := T) .bare hn ('{' :: '\n' :: (blockText dot ts ++ '}' :: '\n' :: u)) with ⟨-, h2⟩ | ⟨h1, -⟩
      · exact h2
      · exact absurd (by cases n <;> simp [OneLabel]) h1
    cases k with
    | true =>
      have e : trigGraphText true dot (some n) ts ++ u = n.display .bare ++ ' ' :: '{' :: '\n' :: (blockText dot ts ++ '}' :: '\n' :: u) := by simp [trigGraphText]
      rw [e]
      refine ⟨Rej.right ?_ (Acc.rule rfl (Acc.left (Acc.rule rfl (Acc.seq h2 ?_)))), hsk _⟩
      · rw [ec]; rcases hc with rfl | rfl <;> exact rej_no_directive (by decide)
      · rw [hb]; exact Acc.left hw
    | false =>
      have e : trigGraphText false dot (some n) ts ++ u = (str! "GRAPH ") ++ (n.display .bare ++ ' ' :: '{' :: '\n' :: (blockText dot ts ++ '}' :: '\n' :: u)) := by
        simp [trigGraphText]
      have h0 : Rej T (.rule .labelOrSubject) ((str! "GRAPH ") ++ (n.display .bare ++ ' ' :: '{' :: '\n' :: (blockText dot ts ++ '}' :: '\n' :: u))) := by
        rw [ec]; exact rej_graph_word hc
      rw [e]
      refine ⟨Rej.right (rej_no_directive (by decide)) (Acc.rule rfl (Rej.right (Rej.rule rfl (Rej.seq h0)) (Rej.right (rej_wrapped (by decide))
        (Rej.right (rej_triples2 (by decide) (by decide)) (Acc.rule rfl (Acc.seq (r := ' ' :: (n.display .bare ++ ' ' :: '{' :: '\n' ::
          (blockText dot ts ++ '}' :: '\n' :: u))) (acc_str rfl) (Acc.seq (r := ' ' :: '{' :: '\n' :: (blockText dot ts ++ '}' :: '\n' :: u)) ?_ ?_))))))),
        skip_lead (by decide) (by decide)⟩
      · rw [skip_sp, hsk]; exact h2
      · rw [hb]; exact hw

end Rdftk
