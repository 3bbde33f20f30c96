import Verif.Lemmas.XmlNested
import Verif.Lemmas.XmlUnique
import Verif.Props.Exact

/-! RDF/XML in which blank nodes are nested: C80; and what a document says is unique: C75. -/

namespace Rdftk

open Spec

/-- C75, that a document says one list of statements, but for how data types are held: `Spec.RdfXml` is a function of the
events. -/
theorem C75_unique (gen : Nat → Str) (n : Nat) (evs : List XmlIn) (T T' : List Stmt) (h : RdfXml gen n evs T)
    (h' : RdfXml gen n evs T') : List.Forall₂ SameStmt T T' := rdfXml_unique h h'

/-- C80, what is said: with the labels of the graph for the nodes without labels, the statements that IRIs lead to, and
nothing else. -/
theorem C80_says (gen : Nat → Str) (n : Nat) (enc : Str) (o : Orders) (hf : o.Fair) (d : Nat) (g : Graph)
    (hg : XmlGraph o (g.simplify gen n).1) (es : List XmlOut) (he : writeXml gen n .bare false enc o d g = .ok es)
    (gen' : Nat → Str) (hgen : ∀ i j, gen' i = gen' j → i = j) (k : Nat) :
    ∃ ins T σ, deliver es = some ins ∧ RdfXml gen' k ins T ∧
      ∀ y, (∃ x ∈ T, relabelStmt σ x = y) ↔
        y ∈ (g.simplify gen n).1.stmts ∧ Reached (g.simplify gen n).1.stmts y.subject := by
  obtain ⟨ins, h1, h2⟩ := writeXml_said hf hg he
  obtain ⟨m, τ, T, h3, h4⟩ := h2 gen' hgen k
  obtain ⟨σ, hσ⟩ := named_exists hgen k τ
  exact ⟨ins, T, σ, h1, h3, (h4.whole hf hσ).exact⟩

theorem same_mem {T T' : List Stmt} (h : List.Forall₂ SameStmt T T') : (∀ t ∈ T, ∃ t' ∈ T', SameStmt t t') ∧
    ∀ t' ∈ T', ∃ t ∈ T, SameStmt t t' := by
  induction h with
  | nil => simp
  | @cons a b l m h _ ih =>
    constructor
    · intro t ht
      rcases List.mem_cons.1 ht with rfl | ht
      · exact ⟨b, by simp, h⟩
      · obtain ⟨t', h1, h2⟩ := ih.1 t ht
        exact ⟨t', by simp [h1], h2⟩
    · intro t ht
      rcases List.mem_cons.1 ht with rfl | ht
      · exact ⟨a, by simp, h⟩
      · obtain ⟨t', h1, h2⟩ := ih.2 t ht
        exact ⟨t', by simp [h1], h2⟩

theorem SameObject.blank_left {o : Object} {b : Str} (h : SameObject (.blank b) o) : o = .blank b := by
  rcases h with h | ⟨l, l', h, -, -⟩
  · exact h.symm
  · cases h

theorem SameObject.blank_right {o : Object} {b : Str} (h : SameObject o (.blank b)) : o = .blank b := by
  rcases h with h | ⟨l, l', -, h, -⟩
  · exact h
  · cases h

/-- C80, exactly when: every statement is about an IRI or a node that one leads to, and no blank node is the object of two
statements. -/
theorem C80_iff (gen : Nat → Str) (n : Nat) (enc : Str) (o : Orders) (hf : o.Fair) (d : Nat) (g : Graph)
    (hg : XmlGraph o (g.simplify gen n).1) (es : List XmlOut) (he : writeXml gen n .bare false enc o d g = .ok es)
    (gen' : Nat → Str) (hgen : ∀ i j, gen' i = gen' j → i = j) (k : Nat) :
    SaysRenamed gen' k es (g.simplify gen n).1.stmts ↔
      (∀ st ∈ (g.simplify gen n).1.stmts, Reached (g.simplify gen n).1.stmts st.subject) ∧
      OneParent (g.simplify gen n).1.stmts := by
  obtain ⟨ins, h1, h2⟩ := writeXml_said hf hg he
  obtain ⟨m, τ, T, h3, h4⟩ := h2 gen' hgen k
  obtain ⟨σ, hσ⟩ := named_exists hgen k τ
  have hW := h4.whole hf hσ
  generalize (g.simplify gen n).1.stmts = L at hW
  constructor
  · rintro ⟨ins', T', f, e1, e2, hi, hT⟩
    rw [h1] at e1
    cases e1
    obtain ⟨s1, s2⟩ := same_mem (rdfXml_unique h3 e2)
    have back : ∀ {x}, Reached T x → ∀ s, (∀ b, s = .blank b → LabelIn L b) → relabelSubject f s = x → Reached L s := by
      intro x hx
      induction hx with
      | iri i =>
        intro s _ e
        cases s with
        | res j => exact .iri j
        | _ => cases e
      | @step x p b _ hm ih =>
        intro s hs e
        obtain ⟨⟨y, q, z⟩, ht', h5, h6, h7⟩ := s1 _ hm
        simp only [Stmt.subject, Stmt.predicate, Stmt.object] at h5 h6 h7
        obtain rfl := h7.blank_left
        subst h5 h6
        obtain ⟨⟨s0, p0, o0⟩, hst, e0⟩ := (hT _).1 ht'
        simp only [Stmt.mk.injEq, Stmt.subject, Stmt.predicate, Stmt.object] at e0
        obtain ⟨e3, rfl, e5⟩ := e0
        obtain ⟨c, rfl, hc⟩ := relabelObject_blank e5
        have hr := ih s0 (fun b hb => ⟨_, hst, .inl hb⟩) e3
        cases s with
        | blank c' =>
          simp only [relabelSubject, Subject.blank.injEq] at e
          obtain rfl := hi c' c (hs c' rfl) ⟨_, hst, .inr rfl⟩ (e.trans hc.symm)
          exact .step hr hst
        | _ => cases e
    constructor
    · intro st hst
      obtain ⟨t, ht, h5, -, -⟩ := s2 _ ((hT _).2 ⟨st, hst, rfl⟩)
      refine back (hW.all_reached t ht) st.subject (fun b hb => ⟨st, hst, .inl hb⟩) ?_
      rw [h5]
      rfl
    · intro t ht t' ht' b e e'
      obtain ⟨u, hu, a1, a2, a3⟩ := s2 _ ((hT _).2 ⟨t, ht, rfl⟩)
      obtain ⟨u', hu', b1, b2, b3⟩ := s2 _ ((hT _).2 ⟨t', ht', rfl⟩)
      obtain ⟨s, p, x⟩ := t
      obtain ⟨s', p', x'⟩ := t'
      simp only [Stmt.subject, Stmt.predicate, Stmt.object] at *
      subst e e'
      obtain rfl := hW.oneParent u hu u' hu' _ a3.blank_right b3.blank_right
      have hs : s = s' := by
        have h := a1.symm.trans b1
        cases s with
        | blank c =>
          cases s' with
          | blank c' =>
            simp only [relabelSubject, Subject.blank.injEq] at h
            rw [hi c c' ⟨_, ht, .inl rfl⟩ ⟨_, ht', .inl rfl⟩ h]
          | _ => cases h
        | _ =>
          cases s' with
          | blank c' => cases h
          | _ => exact h
      rw [hs, a2.symm.trans b2]
  · rintro ⟨hr, hp⟩
    classical
    have pre : ∀ b, LabelIn L b → ∃ c, Reached T (.blank c) ∧ σ c = b := by
      rintro b ⟨st, hst, hb⟩
      have : Reached L (.blank b) := by
        rcases hb with hb | hb
        · rw [← hb]; exact hr st hst
        · obtain ⟨s, p, x⟩ := st
          simp only [Stmt.object] at hb
          subst hb
          exact .step (hr _ hst) hst
      obtain ⟨x, hx, e⟩ := hW.preimage this
      cases x with
      | blank c => simp only [relabelSubject, Subject.blank.injEq] at e; exact ⟨c, hx, e⟩
      | _ => cases e
    let f : Str → Str := fun b => if h : ∃ c, Reached T (.blank c) ∧ σ c = b then Classical.choose h else []
    have hf1 : ∀ b, LabelIn L b → Reached T (.blank (f b)) ∧ σ (f b) = b := by
      intro b hb
      have h := pre b hb
      simp only [f, dif_pos h]
      exact Classical.choose_spec h
    have hf2 : ∀ c, Reached T (.blank c) → f (σ c) = c := by
      intro c hc
      have h : ∃ c', Reached T (.blank c') ∧ σ c' = σ c := ⟨c, hc, rfl⟩
      simp only [f, dif_pos h]
      have := Classical.choose_spec h
      have e := hW.injective hp this.1 hc (by simp [relabelSubject, this.2])
      simpa using e
    have hback : ∀ t ∈ T, relabelStmt f (relabelStmt σ t) = t := by
      intro t ht
      have hr := hW.all_reached t ht
      obtain ⟨s, p, x⟩ := t
      simp only [Stmt.subject] at hr
      have e1 : relabelSubject f (relabelSubject σ s) = s := by
        cases s with
        | blank c => simp [relabelSubject, hf2 c hr]
        | _ => rfl
      have e2 : relabelObject f (relabelObject σ x) = x := by
        cases x with
        | blank c => simp [relabelObject, hf2 c (.step hr ht)]
        | _ => rfl
      simp [relabelStmt, Stmt.subject, Stmt.predicate, Stmt.object, e1, e2]
    refine ⟨ins, T, f, h1, h3, ?_, ?_⟩
    · intro b c hb hc e
      rw [← (hf1 b hb).2, ← (hf1 c hc).2, e]
    · intro st
      constructor
      · intro hst
        exact ⟨relabelStmt σ st, hW.sound hst, hback st hst⟩
      · rintro ⟨x, hx, rfl⟩
        obtain ⟨t, ht, rfl⟩ := (hW.exact x).2 ⟨hx, hr x hx⟩
        have := hback t ht
        show relabelStmt f (relabelStmt σ t) ∈ T
        rw [this]
        exact ht

/-! ### Where the recursion ends -/

/-- A blank node that is the object of a statement about a node. -/
def Leads (L : List Stmt) (c s : Subject) : Prop := ∃ p b, c = .blank b ∧ Stmt.mk s p (.blank b) ∈ L

theorem xmlObjects_nested {sty : IriStyle} {nested : Subject → Run (List XmlOut)} {ns name : Str} {os : List Object}
    {es : List XmlOut} (h : xmlObjects sty false nested ns name os = .ok es) {b : Str} (hb : .blank b ∈ os) :
    ∃ e, nested (.blank b) = .ok e := by
  induction os generalizing name es with
  | nil => simp at hb
  | cons x os ih =>
    obtain ⟨e1, h1, h⟩ := Run.ok_of_bind h
    obtain ⟨e2, h2, h⟩ := Run.ok_of_bind h
    rcases List.mem_cons.1 hb with rfl | hb
    · simp only [xmlProperty, Bool.false_eq_true, if_false] at h1
      obtain ⟨e, h3, -⟩ := Run.ok_of_bind h1
      exact ⟨e, h3⟩
    · exact ih h2 hb

theorem xmlPredicates_nested {sty : IriStyle} {nested : Subject → Run (List XmlOut)} {o : Orders} {g : Graph} {s : Subject}
    {ps : List Iri} {es : List XmlOut} (h : xmlPredicates sty false o g nested s ps = .ok es) {p : Iri} (hp : p ∈ ps)
    {b : Str} (hb : .blank b ∈ o.obj s p (g.objectsFor s p)) : ∃ e, nested (.blank b) = .ok e := by
  induction ps generalizing es with
  | nil => simp at hp
  | cons q ps ih =>
    simp only [xmlPredicates] at h
    split at h
    · cases h
    · obtain ⟨e1, h1, h⟩ := Run.ok_of_bind h
      obtain ⟨e2, h2, h⟩ := Run.ok_of_bind h
      rcases List.mem_cons.1 hp with rfl | hp
      · exact xmlObjects_nested h1 hb
      · exact ih h2 hp

theorem xmlSubject_acc {sty : IriStyle} {o : Orders} (hf : o.Fair) {g : Graph} {d : Nat} {s : Subject} {es : List XmlOut}
    (h : xmlSubject sty false o g d s = .ok es) : Acc (Leads g.stmts) s := by
  induction d generalizing s es with
  | zero => cases h
  | succ d ih =>
    obtain ⟨e1, h1, h⟩ := Run.ok_of_bind h
    obtain ⟨e2, h2, h⟩ := Run.ok_of_bind h
    refine ⟨s, ?_⟩
    rintro c ⟨p, b, rfl, hm⟩
    obtain ⟨e, he⟩ := xmlPredicates_nested h2 (p := p) (b := b) ((hf.2.1 s _).mem_iff.2 (xml_predicatesFor.2 ⟨_, hm⟩))
      ((hf.2.2 s p _).mem_iff.2 (xml_objectsFor.2 hm))
    exact ih he

theorem xmlObjects_done {sty : IriStyle} {nested : Subject → Run (List XmlOut)} {ns name : Str} {os : List Object}
    (hx : ∀ x ∈ os, XmlObject x) (h : ∀ b, .blank b ∈ os → ∃ e, nested (.blank b) = .ok e) :
    ∃ es, xmlObjects sty false nested ns name os = .ok es := by
  induction os generalizing name with
  | nil => exact ⟨_, rfl⟩
  | cons x os ih =>
    obtain ⟨r, hr⟩ := ih (name := (xmlElement sty ns name).1) (fun x hm => hx x (List.mem_cons_of_mem _ hm))
      (fun b hb => h b (List.mem_cons_of_mem _ hb))
    have : ∃ a, xmlProperty sty false nested (xmlElement sty ns name).1 (xmlElement sty ns name).2 x = .ok a := by
      have hx := hx x (List.mem_cons_self ..)
      cases x with
      | coll _ => exact hx.elim
      | stmt _ => exact hx.elim
      | blank b =>
        obtain ⟨e, he⟩ := h b (List.mem_cons_self ..)
        exact ⟨_, by simp only [xmlProperty, Bool.false_eq_true, if_false, he, Run.bind]; rfl⟩
      | _ => exact ⟨_, rfl⟩
    obtain ⟨a, ha⟩ := this
    exact ⟨_, by simp only [xmlObjects, ha, hr, Run.bind]; rfl⟩

theorem xmlPredicates_done {nested : Subject → Run (List XmlOut)} {o : Orders} (hf : o.Fair) {g : Graph}
    (hg : ∀ st ∈ g.stmts, XmlStmt st) {s : Subject}
    (h : ∀ p b, Stmt.mk s p (.blank b) ∈ g.stmts → ∃ e, nested (.blank b) = .ok e) {ps : List Iri}
    (hp : ∀ p ∈ ps, p ∈ g.predicatesFor s) : ∃ es, xmlPredicates .bare false o g nested s ps = .ok es := by
  induction ps with
  | nil => exact ⟨_, rfl⟩
  | cons p ps ih =>
    obtain ⟨x, hx⟩ := xml_predicatesFor.1 (hp p (List.mem_cons_self ..))
    obtain ⟨ns, name, _, h1, _⟩ := xmlProperty_names (hg _ hx).2.1
    simp only [Stmt.predicate] at h1
    obtain ⟨b, hb⟩ := ih fun p hm => hp p (List.mem_cons_of_mem _ hm)
    have mem : ∀ y ∈ o.obj s p (g.objectsFor s p), Stmt.mk s p y ∈ g.stmts := fun y hy =>
      xml_objectsFor.1 ((hf.2.2 s p _).mem_iff.1 hy)
    obtain ⟨a, ha⟩ := xmlObjects_done (sty := .bare) (nested := nested) (ns := ns) (name := name)
      (fun y hy => xmlObject_of (hg _ (mem y hy))) (fun b hb => h p b (mem _ hb))
    exact ⟨_, by simp only [xmlPredicates, h1, ha, hb, Run.bind]; rfl⟩

/-- A bound for finitely many. -/
theorem common_depth {α : Type _} (l : List α) (P : α → Nat → Prop) (h : ∀ a ∈ l, ∃ n, ∀ m, n ≤ m → P a m) :
    ∃ n, ∀ a ∈ l, ∀ m, n ≤ m → P a m := by
  induction l with
  | nil => exact ⟨0, by simp⟩
  | cons a l ih =>
    obtain ⟨n, hn⟩ := h a (List.mem_cons_self ..)
    obtain ⟨m, hm⟩ := ih fun b hb => h b (List.mem_cons_of_mem _ hb)
    refine ⟨n + m, fun b hb k hk => ?_⟩
    rcases List.mem_cons.1 hb with rfl | hb
    · exact hn k (by omega)
    · exact hm b hb k (by omega)

theorem xmlSubject_done {o : Orders} (hf : o.Fair) {g : Graph} (hg : ∀ st ∈ g.stmts, XmlStmt st) {s : Subject}
    (h : Acc (Leads g.stmts) s) (hs : ∀ t, s ≠ .stmt t) :
    ∃ n, ∀ d, n ≤ d → ∃ es, xmlSubject .bare false o g d s = .ok es := by
  induction h with
  | intro s _ ih =>
    obtain ⟨n, hn⟩ := common_depth g.stmts (fun st d => ∀ b, st.subject = s → st.object = .blank b →
        ∃ es, xmlSubject .bare false o g d (.blank b) = .ok es) (by
      rintro ⟨s', p, x⟩ hst
      simp only [Stmt.subject, Stmt.object]
      by_cases hc : s' = s ∧ ∃ b, x = .blank b
      · obtain ⟨rfl, b, rfl⟩ := hc
        obtain ⟨n, hn⟩ := ih (.blank b) ⟨p, b, rfl, hst⟩ (by intro t e; cases e)
        exact ⟨n, fun m hm c _ e => by cases e; exact hn m hm⟩
      · exact ⟨0, fun m _ b e1 e2 => absurd ⟨e1, b, e2⟩ hc⟩)
    refine ⟨n + 1, fun d hd => ?_⟩
    obtain ⟨d, rfl⟩ : ∃ e, d = e + 1 := ⟨d - 1, by omega⟩
    obtain ⟨b, hb⟩ := xmlPredicates_done hf hg (s := s) (nested := xmlSubject .bare false o g d)
      (fun p b hm => hn _ hm d (by omega) b rfl rfl) (ps := o.pred s (g.predicatesFor s))
      (fun p hp => (hf.2.1 s _).mem_iff.1 hp)
    have : ∃ a, xmlHead false s = .ok a := by
      cases s with
      | stmt t => exact absurd rfl (hs t)
      | _ => exact ⟨_, rfl⟩
    obtain ⟨a, ha⟩ := this
    exact ⟨_, by simp only [xmlSubject, ha, Run.bind]; rw [hb]⟩

/-- C80, exactly when the writer ends: no statements lead from an IRI along blank nodes without end. -/
theorem C80_ends_iff (gen : Nat → Str) (n : Nat) (enc : Str) (o : Orders) (hf : o.Fair) (g : Graph)
    (hg : ∀ st ∈ (g.simplify gen n).1.stmts, XmlStmt st) :
    (∃ d es, writeXml gen n .bare false enc o d g = .ok es) ↔
      ∀ i, Acc (Leads (g.simplify gen n).1.stmts) (.res i) := by
  generalize hg' : (g.simplify gen n).1 = g' at hg
  constructor
  · rintro ⟨d, es, he⟩ i
    simp only [writeXml, hg'] at he
    obtain ⟨b, h1, -⟩ := Run.ok_of_bind he
    by_cases hi : Subject.res i ∈ g'.subjects
    · obtain ⟨e, he, -⟩ := xmlSubjects_mem (s := .res i)
        (List.mem_filter.2 ⟨(hf.1 _).mem_iff.2 hi, by simp [Subject.isResource]⟩) h1
      exact xmlSubject_acc hf he
    · refine ⟨_, ?_⟩
      rintro c ⟨p, b, rfl, hm⟩
      exact absurd (xml_subjects.2 ⟨_, hm, rfl⟩) hi
  · intro h
    obtain ⟨d, hd⟩ := common_depth ((o.subj g'.subjects).filter fun s => false || s.isResource)
      (fun s d => ∃ es, xmlSubject .bare false o g' d s = .ok es) (by
        intro s hs
        have hs := (List.mem_filter.1 hs).2
        cases s with
        | res i => exact xmlSubject_done hf hg (h i) (by intro t e; cases e)
        | _ => simp [Subject.isResource] at hs)
    have : ∀ ss : List Subject, (∀ s ∈ ss, ∃ es, xmlSubject .bare false o g' d s = .ok es) →
        ∃ es, xmlSubjects (xmlSubject .bare false o g' d) ss = .ok es := by
      intro ss
      induction ss with
      | nil => exact fun _ => ⟨_, rfl⟩
      | cons s ss ih =>
        intro h
        obtain ⟨a, ha⟩ := h s (List.mem_cons_self ..)
        obtain ⟨b, hb⟩ := ih fun s hm => h s (List.mem_cons_of_mem _ hm)
        exact ⟨_, by simp only [xmlSubjects, ha, hb, Run.bind]; rfl⟩
    obtain ⟨b, hb⟩ := this _ fun s hs => hd s hs d (Nat.le_refl d)
    exact ⟨d, _, by simp only [writeXml, hg', hb, Run.bind]; rfl⟩

/-! A graph that is written as it is: an IRI leads to a node, which has a value. -/

/-- An IRI, a node without a name and a value. -/
def oneBlank : Graph := graphOf
  [.mk (.res ⟨str! "http://a/s"⟩) ⟨str! "http://a/p"⟩ (.blank (str! "b")),
    .mk (.blank (str! "b")) ⟨str! "http://a/p"⟩ (.lit (Literal.plain easyEnv.pr (str! "x")))]

theorem oneBlank_stmts {st : Stmt} (h : st ∈ (oneBlank.simplify blankGen 0).1.stmts) :
    st = .mk (.res ⟨str! "http://a/s"⟩) ⟨str! "http://a/p"⟩ (.blank (str! "b")) ∨
    st = .mk (.blank (str! "b")) ⟨str! "http://a/p"⟩ (.lit (Literal.plain easyEnv.pr (str! "x"))) := by
  have : st ∈ [_, _] := h
  simpa using this

theorem oneBlank_ok (o : Orders) (hf : o.Fair) : XmlGraph o (oneBlank.simplify blankGen 0).1 := by
  constructor
  · intro st hst
    rcases oneBlank_stmts hst with rfl | rfl
    · exact ⟨show XmlIri _ by unfold XmlIri; decide +kernel, sampleProperty_ok, show isNcName _ = true by decide +kernel⟩
    · exact ⟨show isNcName _ = true by decide +kernel, sampleProperty_ok, plain_ok (by decide +kernel)⟩
  · intro s p hk
    rw [(hf.2.2 s p ((oneBlank.simplify blankGen 0).1.objectsFor s p)).length_eq]
    generalize hl : (oneBlank.simplify blankGen 0).1.objectsFor s p = l
    cases l with
    | nil => simp
    | cons x l =>
      have hm : x ∈ (oneBlank.simplify blankGen 0).1.objectsFor s p := by rw [hl]; simp
      rcases oneBlank_stmts (xml_objectsFor.1 hm) with e | e <;>
      · simp only [Stmt.mk.injEq] at e
        rw [e.2.1] at hk
        exact absurd hk sampleProperty_unknown

example : ∃ d es, writeXml blankGen 0 .bare false (str! "utf-8") sameOrder d oneBlank = .ok es ∧
    SaysRenamed (fun k => List.replicate k 'a') 0 es (oneBlank.simplify blankGen 0).1.stmts := by
  obtain ⟨d, es, he⟩ := (C80_ends_iff blankGen 0 (str! "utf-8") sameOrder sameOrder_fair oneBlank
    (oneBlank_ok _ sameOrder_fair).1).2 (by
      intro i
      refine ⟨_, ?_⟩
      rintro c ⟨p, b, rfl, h⟩
      rcases oneBlank_stmts h with e | e <;> cases e
      refine ⟨_, ?_⟩
      rintro c ⟨p, b, rfl, h⟩
      rcases oneBlank_stmts h with e | e <;> cases e)
  refine ⟨d, es, he, (C80_iff _ _ _ _ sameOrder_fair _ _ (oneBlank_ok _ sameOrder_fair) _ he _
    (fun i j e => by simpa using congrArg List.length e) 0).2 ⟨?_, ?_⟩⟩
  · intro st hst
    rcases oneBlank_stmts hst with rfl | rfl
    · exact .iri _
    · exact .step (p := ⟨str! "http://a/p"⟩) (.iri ⟨str! "http://a/s"⟩) (.head _)
  · intro t ht t' ht' b e e'
    rcases oneBlank_stmts ht with rfl | rfl <;> rcases oneBlank_stmts ht' with rfl | rfl <;> first | rfl | (cases e; done) | (cases e'; done)

end Rdftk
