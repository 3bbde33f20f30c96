import Verif.Props.Cli

/-! More on C81 and C85: when RDF/XML is written in the flat style. -/

namespace Rdftk
open Spec

theorem Run.bind_ok_iff {α β : Type _} {x : Run α} {f : α → Run β} :
    (∃ b, x.bind f = .ok b) ↔ ∃ a, x = .ok a ∧ ∃ b, f a = .ok b := by
  cases x <;> simp [Run.bind]

theorem Run.bind_deep {α β : Type _} {x : Run α} {f : α → Run β} (hx : x ≠ .deep)
    (hf : ∀ a, x = .ok a → f a ≠ .deep) : x.bind f ≠ .deep := by
  cases x with
  | ok a => exact hf a rfl
  | err => simp [Run.bind]
  | panic => simp [Run.bind]
  | deep => exact absurd rfl hx

theorem Run.bind_err {α β : Type _} {x : Run α} {f : α → Run β} (hx : x ≠ .err)
    (hf : ∀ a, x = .ok a → f a ≠ .err) : x.bind f ≠ .err := by
  cases x with
  | ok a => exact hf a rfl
  | err => exact absurd rfl hx
  | panic => simp [Run.bind]
  | deep => simp [Run.bind]

theorem xmlObjects_flat {sty : IriStyle} {nested : Subject → Run (List XmlOut)} {ns name : Str} {os : List Object} :
    ((∃ es, xmlObjects sty true nested ns name os = .ok es) ↔ ∀ o ∈ os, simpleObject o = true) ∧
    xmlObjects sty true nested ns name os ≠ .deep ∧
    ((∀ o ∈ os, simpleObject o = true) → xmlObjects sty true nested ns name os ≠ .err) := by
  induction os generalizing name with
  | nil => simp [xmlObjects]
  | cons o os ih =>
    obtain ⟨h1, h2, h3⟩ := @ih (xmlElement sty ns name).1
    have hp : ∀ name ns, ((∃ es, xmlProperty sty true nested name ns o = .ok es) ↔ simpleObject o = true) ∧
        xmlProperty sty true nested name ns o ≠ .deep ∧ (simpleObject o = true → xmlProperty sty true nested name ns o ≠ .err) := by
      intro name ns
      cases o <;> simp [xmlProperty, simpleObject]
    obtain ⟨p1, p2, p3⟩ := hp (xmlElement sty ns name).1 (xmlElement sty ns name).2
    refine ⟨?_, ?_, ?_⟩
    · simp only [xmlObjects, Run.bind_ok_iff, List.forall_mem_cons, ← p1, ← h1]
      constructor
      · rintro ⟨a, ha, b, hb, _⟩; exact ⟨⟨a, ha⟩, b, hb⟩
      · rintro ⟨⟨a, ha⟩, b, hb⟩; exact ⟨a, ha, b, hb, _, rfl⟩
    · exact Run.bind_deep p2 fun _ _ => Run.bind_deep h2 fun _ _ => by simp
    · intro h
      exact Run.bind_err (p3 (h _ (List.mem_cons_self ..))) fun _ _ =>
        Run.bind_err (h3 fun o ho => h o (List.mem_cons_of_mem _ ho)) fun _ _ => by simp

theorem xmlPredicates_flat {sty : IriStyle} {o : Orders} (hf : o.Fair) {g : Graph} {nested : Subject → Run (List XmlOut)} {s : Subject}
    {ps : List Iri} :
    ((∃ es, xmlPredicates sty true o g nested s ps = .ok es) ↔
      ∀ p ∈ ps, splitUri sty p ≠ .panic ∧ ∀ x ∈ g.objectsFor s p, simpleObject x = true) ∧
    xmlPredicates sty true o g nested s ps ≠ .deep ∧
    ((∀ p ∈ ps, ∀ x ∈ g.objectsFor s p, simpleObject x = true) → xmlPredicates sty true o g nested s ps ≠ .err) := by
  induction ps with
  | nil => simp [xmlPredicates]
  | cons p ps ih =>
    obtain ⟨h1, h2, h3⟩ := ih
    have perm : ∀ x, x ∈ o.obj s p (g.objectsFor s p) ↔ x ∈ g.objectsFor s p := fun x => (hf.2.2 s p _).mem_iff
    cases hs : splitUri sty p with
    | panic => simp [xmlPredicates, hs]
    | ok a =>
      obtain ⟨ns, name⟩ := a
      obtain ⟨o1, o2, o3⟩ := @xmlObjects_flat sty nested ns name (o.obj s p (g.objectsFor s p))
      simp only [perm] at o1 o3
      simp only [xmlPredicates, hs]
      refine ⟨?_, ?_, ?_⟩
      · simp only [Run.bind_ok_iff, List.forall_mem_cons, ← o1, ← h1, hs]
        constructor
        · rintro ⟨a, ha, b, hb, _⟩; exact ⟨⟨by simp, a, ha⟩, b, hb⟩
        · rintro ⟨⟨-, a, ha⟩, b, hb⟩; exact ⟨a, ha, b, hb, _, rfl⟩
      · exact Run.bind_deep o2 fun _ _ => Run.bind_deep h2 fun _ _ => by simp
      · intro h
        exact Run.bind_err (o3 (h _ (List.mem_cons_self ..))) fun _ _ =>
          Run.bind_err (h3 fun o ho => h o (List.mem_cons_of_mem _ ho)) fun _ _ => by simp

/-- What is written of one subject. -/
theorem xmlSubject_flat {sty : IriStyle} {o : Orders} (hf : o.Fair) {g : Graph} {d : Nat} {s : Subject} :
    ((∃ es, xmlSubject sty true o g (d + 1) s = .ok es) ↔ simpleSubject s = true ∧
      ∀ st ∈ g.stmts, st.subject = s → splitUri sty st.predicate ≠ .panic ∧ simpleObject st.object = true) ∧
    xmlSubject sty true o g (d + 1) s ≠ .deep ∧
    (simpleSubject s = true → (∀ st ∈ g.stmts, st.subject = s → simpleObject st.object = true) →
      xmlSubject sty true o g (d + 1) s ≠ .err) := by
  obtain ⟨p1, p2, p3⟩ := @xmlPredicates_flat sty o hf g (xmlSubject sty true o g d) s (o.pred s (g.predicatesFor s))
  have perm : ∀ p, p ∈ o.pred s (g.predicatesFor s) ↔ p ∈ g.predicatesFor s := fun p => (hf.2.1 s _).mem_iff
  simp only [perm] at p1 p3
  have hh : ((∃ h, xmlHead true s = .ok h) ↔ simpleSubject s = true) ∧ xmlHead true s ≠ .deep ∧
      (simpleSubject s = true → xmlHead true s ≠ .err) := by
    cases s <;> simp [xmlHead, simpleSubject]
  obtain ⟨q1, q2, q3⟩ := hh
  refine ⟨?_, ?_, ?_⟩
  · simp only [xmlSubject, Run.bind_ok_iff]
    have : (∃ a, xmlHead true s = .ok a ∧ ∃ b, xmlPredicates sty true o g (xmlSubject sty true o g d) s
        (o.pred s (g.predicatesFor s)) = .ok b ∧ ∃ c, Run.ok (a :: b ++ [.stop (rdfName (str! "Description"))]) = Run.ok c) ↔
        simpleSubject s = true ∧ ∀ p ∈ g.predicatesFor s, splitUri sty p ≠ .panic ∧
          ∀ x ∈ g.objectsFor s p, simpleObject x = true := by
      rw [← q1, ← p1]
      constructor
      · rintro ⟨a, ha, b, hb, _⟩; exact ⟨⟨a, ha⟩, b, hb⟩
      · rintro ⟨⟨a, ha⟩, b, hb⟩; exact ⟨a, ha, b, hb, _, rfl⟩
    rw [this]
    refine and_congr_right fun _ => ?_
    constructor
    · rintro h ⟨s', p, x⟩ hst rfl
      have h1 := h p (xml_predicatesFor.2 ⟨x, hst⟩)
      exact ⟨h1.1, h1.2 x (xml_objectsFor.2 hst)⟩
    · intro h p hp
      obtain ⟨x, hx⟩ := xml_predicatesFor.1 hp
      exact ⟨(h _ hx rfl).1, fun y hy => (h _ (xml_objectsFor.1 hy) rfl).2⟩
  · exact Run.bind_deep q2 fun _ _ => Run.bind_deep p2 fun _ _ => by simp
  · intro h1 h2
    refine Run.bind_err (q3 h1) fun _ _ => Run.bind_err (p3 ?_) fun _ _ => by simp
    intro p hp x hx
    exact h2 _ (xml_objectsFor.1 hx) rfl

theorem xmlSubjects_all {f : Subject → Run (List XmlOut)} {ss : List Subject} :
    ((∃ es, xmlSubjects f ss = .ok es) ↔ ∀ s ∈ ss, ∃ es, f s = .ok es) ∧
    ((∀ s ∈ ss, f s ≠ .deep) → xmlSubjects f ss ≠ .deep) ∧ ((∀ s ∈ ss, f s ≠ .err) → xmlSubjects f ss ≠ .err) := by
  induction ss with
  | nil => simp [xmlSubjects]
  | cons s ss ih =>
    obtain ⟨h1, h2, h3⟩ := ih
    refine ⟨?_, ?_, ?_⟩
    · simp only [xmlSubjects, Run.bind_ok_iff, List.forall_mem_cons, ← h1]
      constructor
      · rintro ⟨a, ha, b, hb, _⟩; exact ⟨⟨a, ha⟩, b, hb⟩
      · rintro ⟨⟨a, ha⟩, b, hb⟩; exact ⟨a, ha, b, hb, _, rfl⟩
    · intro h
      exact Run.bind_deep (h _ (List.mem_cons_self ..)) fun _ _ =>
        Run.bind_deep (h2 fun o ho => h o (List.mem_cons_of_mem _ ho)) fun _ _ => by simp
    · intro h
      exact Run.bind_err (h _ (List.mem_cons_self ..)) fun _ _ =>
        Run.bind_err (h3 fun o ho => h o (List.mem_cons_of_mem _ ho)) fun _ _ => by simp

/-- C81, exactly, for the flat style: a graph is written if and only if, after expansion, no collection or statement is left
inside a statement and every predicate can be split.  The recursion ends in any case. -/
theorem C81_flat_iff (gen : Nat → Str) (n : Nat) (sty : IriStyle) (enc : Str) (o : Orders) (hf : o.Fair) (d : Nat) (g : Graph) :
    ((∃ es, writeXml gen n sty true enc o (d + 1) g = .ok es) ↔
      ∀ st ∈ (g.simplify gen n).1.stmts, simple st = true ∧ splitUri sty st.predicate ≠ .panic) ∧
    writeXml gen n sty true enc o (d + 1) g ≠ .deep ∧
    ((∀ st ∈ (g.simplify gen n).1.stmts, simple st = true) → writeXml gen n sty true enc o (d + 1) g ≠ .err) := by
  have hm : ∀ s, s ∈ (o.subj (g.simplify gen n).1.subjects).filter (fun s => true || s.isResource) ↔
      ∃ st ∈ (g.simplify gen n).1.stmts, st.subject = s := fun s => by
    rw [List.mem_filter, (hf.1 _).mem_iff, xml_subjects]
    simp
  obtain ⟨s1, s2, s3⟩ := @xmlSubjects_all (xmlSubject sty true o (g.simplify gen n).1 (d + 1))
    ((o.subj (g.simplify gen n).1.subjects).filter fun s => true || s.isResource)
  simp only [hm] at s1 s2 s3
  refine ⟨?_, ?_, ?_⟩
  · simp only [writeXml, Run.bind_ok_iff]
    have : (∃ a, xmlSubjects (xmlSubject sty true o (g.simplify gen n).1 (d + 1))
        ((o.subj (g.simplify gen n).1.subjects).filter fun s => true || s.isResource) = .ok a) ↔
        ∀ st ∈ (g.simplify gen n).1.stmts, simple st = true ∧ splitUri sty st.predicate ≠ .panic := by
      rw [s1]
      constructor
      · intro h st hst
        obtain ⟨h1, h2⟩ := (xmlSubject_flat hf).1.1 (h st.subject ⟨st, hst, rfl⟩)
        obtain ⟨h3, h4⟩ := h2 st hst rfl
        exact ⟨by simp [simple, h1, h4], h3⟩
      · rintro h s ⟨st, hst, rfl⟩
        refine (xmlSubject_flat hf).1.2 ⟨?_, fun st' hst' _ => ?_⟩
        · have := (h st hst).1; simp only [simple, Bool.and_eq_true] at this; exact this.1
        · have := h st' hst'; simp only [simple, Bool.and_eq_true] at this; exact ⟨this.2, this.1.2⟩
    rw [← this]
    constructor
    · rintro ⟨a, ha, _⟩; exact ⟨a, ha⟩
    · rintro ⟨a, ha⟩; exact ⟨a, ha, _, rfl⟩
  · exact Run.bind_deep (s2 fun s _ => (xmlSubject_flat hf).2.1) fun _ _ => by simp
  · intro h
    refine Run.bind_err (s3 ?_) fun _ _ => by simp
    rintro s ⟨st, hst, rfl⟩
    refine (xmlSubject_flat hf).2.2 ?_ fun st' hst' _ => ?_
    · have := h st hst; simp only [simple, Bool.and_eq_true] at this; exact this.1
    · have := h st' hst'; simp only [simple, Bool.and_eq_true] at this; exact this.2

/-- C81, exactly, for the flat style and ASCII predicates: the writer panics if and only if a predicate has no separator. -/
theorem C81_panics_iff (gen : Nat → Str) (n : Nat) (sty : IriStyle) (enc : Str) (o : Orders) (hf : o.Fair) (d : Nat) (g : Graph)
    (hs : ∀ st ∈ (g.simplify gen n).1.stmts, simple st = true ∧ ∀ c ∈ st.predicate.text, c.toNat < 0x80) :
    writeXml gen n sty true enc o (d + 1) g = .panic ↔
      ∃ st ∈ (g.simplify gen n).1.stmts, ∀ c ∈ st.predicate.text, ¬isSep c := by
  obtain ⟨h1, h2, h3⟩ := C81_flat_iff gen n sty enc o hf d g
  have h3 := h3 fun st hst => (hs st hst).1
  have hsplit : ∀ p : Iri, (∀ c ∈ p.text, c.toNat < 0x80) → (splitUri sty p = .panic ↔ ∀ c ∈ p.text, ¬isSep c) := by
    intro p ha
    constructor
    · intro h c hc hsep
      obtain ⟨ns, name, e⟩ := splitUri_ok (sty := sty) ha ⟨c, hc, hsep⟩
      rw [e] at h
      cases h
    · intro h
      refine splitUri_none ?_
      cases sty with
      | bare => exact h
      | bracketed =>
        intro c hc
        simp only [Iri.fmt, List.mem_cons, List.mem_append, List.not_mem_nil, or_false] at hc
        rcases hc with (rfl | hc) | rfl
        · simp [isSep]
        · exact h c hc
        · simp [isSep]
  constructor
  · intro h
    apply Classical.byContradiction
    intro hn
    obtain ⟨es, he⟩ := h1.2 fun st hst => ⟨(hs st hst).1, fun e =>
      hn ⟨st, hst, (hsplit _ (hs st hst).2).1 e⟩⟩
    rw [h] at he
    cases he
  · rintro ⟨st, hst, hsep⟩
    cases hw : writeXml gen n sty true enc o (d + 1) g with
    | ok es => exact absurd ((hsplit _ (hs st hst).2).2 hsep) (h1.1 ⟨es, hw⟩ st hst).2
    | err => exact absurd hw h3
    | panic => rfl
    | deep => exact absurd hw h2

/-- C85 for RDF/XML: after reading, the command always ends; it panics exactly if reading does, or a predicate of the graph has
no separator. -/
theorem C85_xml_iff (e : CliEnv) (s : Str) (source : Representation) (ho : e.orders.Fair)
    (hs : ∀ g, cliRead e s source = .ok g → ∀ st ∈ (g.simplify e.gen e.startWrite).1.stmts,
      simple st = true ∧ ∀ c ∈ st.predicate.text, c.toNat < 0x80) :
    (cliMain e s (.convert source .xml) = .deep ↔ cliRead e s source = .deep) ∧
    (cliMain e s (.convert source .xml) = .panic ↔ cliRead e s source = .panic ∨
      ∃ g, cliRead e s source = .ok g ∧ ∃ st ∈ (g.simplify e.gen e.startWrite).1.stmts, ∀ c ∈ st.predicate.text, ¬isSep c) := by
  cases hr : cliRead e s source with
  | ok g =>
    have h1 := C81_flat_iff e.gen e.startWrite e.sty (str! "utf-8") e.orders ho 0 g
    have h2 := C81_panics_iff e.gen e.startWrite e.sty (str! "utf-8") e.orders ho 0 g (hs g hr)
    cases hw : writeXml e.gen e.startWrite e.sty true (str! "utf-8") e.orders 1 g with
    | deep => exact absurd hw h1.2.1
    | panic => simpa [cliMain, hr, Run.bind, Run.exit, cliWrite, hw] using h2.1 hw
    | ok es =>
      rw [hw] at h2
      simp only [cliMain, hr, Run.bind, Run.exit, cliWrite, hw]
      simpa using h2
    | err => exact absurd hw (h1.2.2 fun st hst => (hs g hr st hst).1)
  | _ => simp [cliMain, hr, Run.bind, Run.exit]

/-- The IRIs and literals of blank nodes that lead to each other in a circle are converted to RDF/XML. -/
example : ∃ es, writeXml blankGen 0 .bare true (str! "utf-8") sameOrder 1 blankLoop = .ok es :=
  (C81_flat_iff blankGen 0 .bare _ sameOrder sameOrder_fair 0 blankLoop).1.2 (by decide +kernel)

end Rdftk
