import Verif.Lemmas.TurtleSize
import Verif.Props.XmlWrite

/-! How many events the RDF/XML writer makes, and when it comes to an end in the nested style. -/

namespace Rdftk
open Spec

theorem xmlObjects_size {sty : IriStyle} {flat : Bool} {nested : Subject → Run (List XmlOut)} {ns name : Str} {os : List Object}
    {lo hi : Object → Nat} (h : ∀ o nm l es, xmlProperty sty flat nested nm l o = .ok es → lo o ≤ es.length + 1 ∧ es.length + 1 ≤ hi o)
    {es : List XmlOut} (he : xmlObjects sty flat nested ns name os = .ok es) : (os.map lo).sum ≤ es.length ∧ es.length ≤ (os.map hi).sum := by
  induction os generalizing name es with
  | nil => simp only [xmlObjects, Run.ok.injEq] at he; subst he; simp
  | cons o os ih =>
    simp only [xmlObjects] at he
    obtain ⟨e1, h1, he⟩ := Run.bind_ok.1 he
    obtain ⟨e2, h2, he⟩ := Run.bind_ok.1 he
    simp only [Run.ok.injEq] at he
    subst he
    have k1 := h _ _ _ _ h1
    have k2 := ih h2
    simp only [List.map_cons, List.sum_cons, List.length_append, List.length_cons]
    omega

theorem xmlPredicates_size {sty : IriStyle} {flat : Bool} {o : Orders} (hf : o.Fair) {g : Graph} {nested : Subject → Run (List XmlOut)}
    {s : Subject} {ps : List Iri} {lo hi : Object → Nat}
    (h : ∀ o nm l es, xmlProperty sty flat nested nm l o = .ok es → lo o ≤ es.length + 1 ∧ es.length + 1 ≤ hi o)
    {es : List XmlOut} (he : xmlPredicates sty flat o g nested s ps = .ok es) :
    (ps.map fun p => ((g.objectsFor s p).map lo).sum).sum ≤ es.length ∧ es.length ≤ (ps.map fun p => ((g.objectsFor s p).map hi).sum).sum := by
  induction ps generalizing es with
  | nil => simp only [xmlPredicates, Run.ok.injEq] at he; subst he; simp
  | cons p ps ih =>
    simp only [xmlPredicates] at he
    split at he
    · cases he
    · obtain ⟨e1, h1, he⟩ := Run.bind_ok.1 he
      obtain ⟨e2, h2, he⟩ := Run.bind_ok.1 he
      simp only [Run.ok.injEq] at he
      subst he
      have k1 := xmlObjects_size h h1
      have k2 := ih h2
      rw [((hf.2.2 s p _).map lo).sum_eq, ((hf.2.2 s p _).map hi).sum_eq] at k1
      simp only [List.map_cons, List.sum_cons, List.length_append]
      omega

theorem xmlSubject_size {sty : IriStyle} {flat : Bool} {o : Orders} (hf : o.Fair) {g : Graph} {d : Nat}
    {s : Subject} {lo hi : Object → Nat}
    (h : ∀ x nm l es, xmlProperty sty flat (xmlSubject sty flat o g d) nm l x = .ok es → lo x ≤ es.length + 1 ∧ es.length + 1 ≤ hi x)
    {es : List XmlOut} (he : xmlSubject sty flat o g (d + 1) s = .ok es) :
    2 + ((stmtsAbout g s).map fun t => lo t.object).sum ≤ es.length ∧ es.length ≤ 2 + ((stmtsAbout g s).map fun t => hi t.object).sum := by
  simp only [xmlSubject] at he
  obtain ⟨e1, h1, he⟩ := Run.bind_ok.1 he
  obtain ⟨e2, h2, he⟩ := Run.bind_ok.1 he
  simp only [Run.ok.injEq] at he
  subst he
  have k := xmlPredicates_size hf h h2
  rw [((hf.2.1 s _).map _).sum_eq, ((hf.2.1 s _).map _).sum_eq, stmtsAbout_sum, stmtsAbout_sum] at k
  simp only [List.length_append, List.length_cons, List.length_nil]
  omega

/-- The flat style: two events for each statement, and one more if its object is a literal. -/
theorem xmlSubject_flat_size {sty : IriStyle} {o : Orders} (hf : o.Fair) {g : Graph} {d : Nat} {s : Subject} {es : List XmlOut}
    (he : xmlSubject sty true o g (d + 1) s = .ok es) :
    2 + 2 * (stmtsAbout g s).length ≤ es.length ∧ es.length ≤ 2 + 3 * (stmtsAbout g s).length := by
  have := xmlSubject_size hf (lo := fun _ => 2) (hi := fun _ => 3) (fun x nm l es hx => by
    cases x <;> simp only [xmlProperty, if_true, Run.ok.injEq, reduceCtorEq] at hx <;> subst hx <;> simp) he
  simpa [Nat.mul_comm] using this

/-- The nested style: two to four events for each walk. -/
theorem xmlProperty_walks {sty : IriStyle} {o : Orders} (hf : o.Fair) {g : Graph} (d : Nat) (x : Object) (nm : Str) (l : List (Str × Str))
    (es : List XmlOut) (h : xmlProperty sty false (xmlSubject sty false o g d) nm l x = .ok es) :
    2 * (walksAfter g d x).length ≤ es.length + 1 ∧ es.length + 1 ≤ 4 * (walksAfter g d x).length := by
  induction d generalizing x nm l es with
  | zero =>
    cases x with
    | blank b => simp [xmlProperty, xmlSubject, Run.bind] at h
    | _ => simp [xmlProperty, walksAfter] at h ⊢; try (subst h; simp)
  | succ d ih =>
    cases x with
    | blank b =>
      simp only [xmlProperty, Bool.false_eq_true, if_false] at h
      obtain ⟨e1, h1, h⟩ := Run.bind_ok.1 h
      simp only [Run.ok.injEq] at h
      subst h
      have k := xmlSubject_size hf ih h1
      have e2 := sum_mul (stmtsAbout g (.blank b)) (fun t => (walksAfter g d t.object).length) 2
      have e4 := sum_mul (stmtsAbout g (.blank b)) (fun t => (walksAfter g d t.object).length) 4
      simp only [Nat.mul_comm _ 2] at e2
      simp only [Nat.mul_comm _ 4] at e4
      rw [length_walksAfter]
      simp only [List.length_cons]
      omega
    | _ => simp [xmlProperty, walksAfter] at h ⊢; try (subst h; simp)

/-- The walks that start with a statement about the subject. -/
def walksOf (g : Graph) (n : Nat) (s : Subject) : List (List Stmt) :=
  (stmtsAbout g s).flatMap fun t => (walksAfter g n t.object).map (t :: ·)

theorem xmlSubject_nested_size {sty : IriStyle} {o : Orders} (hf : o.Fair) {g : Graph} {d : Nat} {s : Subject} {es : List XmlOut}
    (he : xmlSubject sty false o g (d + 1) s = .ok es) :
    2 + 2 * (walksOf g d s).length ≤ es.length ∧ es.length ≤ 2 + 4 * (walksOf g d s).length := by
  have k := xmlSubject_size hf (xmlProperty_walks hf d) he
  have e2 := sum_mul (stmtsAbout g s) (fun t => (walksAfter g d t.object).length) 2
  have e4 := sum_mul (stmtsAbout g s) (fun t => (walksAfter g d t.object).length) 4
  simp only [Nat.mul_comm _ 2] at e2
  simp only [Nat.mul_comm _ 4] at e4
  simp only [walksOf, List.length_flatMap, List.length_map]
  omega

theorem xmlSubjects_size {f : Subject → Run (List XmlOut)} {lo hi : Subject → Nat}
    (h : ∀ s es, f s = .ok es → lo s ≤ es.length ∧ es.length ≤ hi s) {ss : List Subject} {es : List XmlOut}
    (he : xmlSubjects f ss = .ok es) : (ss.map lo).sum ≤ es.length ∧ es.length ≤ (ss.map hi).sum := by
  induction ss generalizing es with
  | nil => simp only [xmlSubjects, Run.ok.injEq] at he; subst he; simp
  | cons s ss ih =>
    simp only [xmlSubjects] at he
    obtain ⟨e1, h1, he⟩ := Run.bind_ok.1 he
    obtain ⟨e2, h2, he⟩ := Run.bind_ok.1 he
    simp only [Run.ok.injEq] at he
    subst he
    have k1 := h _ _ h1
    have k2 := ih h2
    simp only [List.map_cons, List.sum_cons, List.length_append]
    omega

/-! ### When the nested style comes to an end -/

theorem xmlObjects_deepens {sty : IriStyle} {nested : Subject → Run (List XmlOut)} {ns name : Str} {os : List Object} :
    (∃ es, xmlObjects sty false nested ns name os = .ok es) ↔
      ∀ o ∈ os, simpleObject o = true ∧ ∀ b, o = .blank b → ∃ es, nested (.blank b) = .ok es := by
  induction os generalizing name with
  | nil => simp [xmlObjects]
  | cons o os ih =>
    have hp : ∀ name ns, (∃ es, xmlProperty sty false nested name ns o = .ok es) ↔
        simpleObject o = true ∧ ∀ b, o = .blank b → ∃ es, nested (.blank b) = .ok es := by
      intro name ns
      cases o <;> simp [xmlProperty, simpleObject, Run.bind_ok_iff]
    simp only [xmlObjects, Run.bind_ok_iff, List.forall_mem_cons, ← hp (xmlElement sty ns name).1 (xmlElement sty ns name).2,
      ← @ih (xmlElement sty ns name).1]
    constructor
    · rintro ⟨a, ha, b, hb, _⟩; exact ⟨⟨a, ha⟩, b, hb⟩
    · rintro ⟨⟨a, ha⟩, b, hb⟩; exact ⟨a, ha, b, hb, _, rfl⟩

theorem xmlPredicates_deepens {sty : IriStyle} {o : Orders} (hf : o.Fair) {g : Graph} {nested : Subject → Run (List XmlOut)} {s : Subject}
    {ps : List Iri} :
    (∃ es, xmlPredicates sty false o g nested s ps = .ok es) ↔
      ∀ p ∈ ps, splitUri sty p ≠ .panic ∧ ∀ x ∈ g.objectsFor s p, simpleObject x = true ∧
        ∀ b, x = .blank b → ∃ es, nested (.blank b) = .ok es := by
  induction ps with
  | nil => simp [xmlPredicates]
  | cons p ps ih =>
    have perm : ∀ x, x ∈ o.obj s p (g.objectsFor s p) ↔ x ∈ g.objectsFor s p := fun x => (hf.2.2 s p _).mem_iff
    cases hs : splitUri sty p with
    | panic => simp [xmlPredicates, hs]
    | ok a =>
      obtain ⟨ns, name⟩ := a
      have o1 := @xmlObjects_deepens sty nested ns name (o.obj s p (g.objectsFor s p))
      simp only [perm] at o1
      simp only [xmlPredicates, hs, Run.bind_ok_iff, List.forall_mem_cons, ← o1, ← ih]
      constructor
      · rintro ⟨a, ha, b, hb, _⟩; exact ⟨⟨by simp, a, ha⟩, b, hb⟩
      · rintro ⟨⟨-, a, ha⟩, b, hb⟩; exact ⟨a, ha, b, hb, _, rfl⟩

/-- A subject is written if what is said about it can be, and every blank node it leads to is written at the depth below. -/
theorem xmlSubject_deepens {sty : IriStyle} {o : Orders} (hf : o.Fair) {g : Graph} {d : Nat} {s : Subject} :
    (∃ es, xmlSubject sty false o g (d + 1) s = .ok es) ↔ simpleSubject s = true ∧
      ∀ st ∈ g.stmts, st.subject = s → (splitUri sty st.predicate ≠ .panic ∧ simpleObject st.object = true) ∧
        ∀ b, st.object = .blank b → ∃ es, xmlSubject sty false o g d (.blank b) = .ok es := by
  have p1 := @xmlPredicates_deepens sty o hf g (xmlSubject sty false o g d) s (o.pred s (g.predicatesFor s))
  have perm : ∀ p, p ∈ o.pred s (g.predicatesFor s) ↔ p ∈ g.predicatesFor s := fun p => (hf.2.1 s _).mem_iff
  simp only [perm] at p1
  have q1 : (∃ h, xmlHead false s = .ok h) ↔ simpleSubject s = true := by
    cases s <;> simp [xmlHead, simpleSubject]
  simp only [xmlSubject, Run.bind_ok_iff]
  have : (∃ a, xmlHead false s = .ok a ∧ ∃ b, xmlPredicates sty false o g (xmlSubject sty false o g d) s
      (o.pred s (g.predicatesFor s)) = .ok b ∧ ∃ c, Run.ok (a :: b ++ [.stop (rdfName (str! "Description"))]) = Run.ok c) ↔
      simpleSubject s = true ∧ ∀ p ∈ g.predicatesFor s, splitUri sty p ≠ .panic ∧
        ∀ x ∈ g.objectsFor s p, simpleObject x = true ∧ ∀ b, x = .blank b → ∃ es, xmlSubject sty false o g d (.blank b) = .ok es := by
    rw [← q1, ← p1]
    constructor
    · rintro ⟨a, ha, b, hb, _⟩; exact ⟨⟨a, ha⟩, b, hb⟩
    · rintro ⟨⟨a, ha⟩, b, hb⟩; exact ⟨a, ha, b, hb, _, rfl⟩
  rw [this]
  refine and_congr_right fun _ => ?_
  constructor
  · rintro h ⟨s', p, x⟩ hst rfl
    have h1 := h p (xml_predicatesFor.2 ⟨x, hst⟩)
    have h2 := h1.2 x (xml_objectsFor.2 hst)
    exact ⟨⟨h1.1, h2.1⟩, h2.2⟩
  · intro h p hp
    obtain ⟨x, hx⟩ := xml_predicatesFor.1 hp
    refine ⟨(h _ hx rfl).1.1, fun y hy => ?_⟩
    have := h _ (xml_objectsFor.1 hy) rfl
    exact ⟨this.1.2, this.2⟩

/-- What is written at a depth leads no deeper. -/
theorem walks_written {sty : IriStyle} {o : Orders} (hf : o.Fair) {g : Graph} {d : Nat} {s : Subject} {es : List XmlOut}
    (he : xmlSubject sty false o g (d + 1) s = .ok es) {w : List Stmt} (hw : StmtWalk g w) (hs : ∀ t ∈ w.head?, t.subject = s) :
    w ∈ walksOf g d s ∧ w.length ≤ d + 1 ∧ ∀ t ∈ w, splitUri sty t.predicate ≠ .panic ∧ simpleObject t.object = true := by
  induction w generalizing d s es with
  | nil => exact hw.elim
  | cons t c ih =>
    obtain rfl := hs t (by simp)
    obtain ⟨ht, hc⟩ := hw
    obtain ⟨-, hall⟩ := (xmlSubject_deepens hf).1 ⟨es, he⟩
    obtain ⟨h1, h2⟩ := hall t ht rfl
    rcases hc with rfl | ⟨⟨b, hb, hh⟩, hc⟩
    · refine ⟨List.mem_flatMap.2 ⟨t, mem_stmtsAbout.2 ⟨ht, rfl⟩, ?_⟩, by simp, by simpa using h1⟩
      rw [List.mem_map]
      refine ⟨[], ?_, rfl⟩
      unfold walksAfter
      split <;> simp
    · obtain ⟨e2, he2⟩ := h2 b hb
      cases d with
      | zero => simp [xmlSubject] at he2
      | succ d =>
        obtain ⟨k1, k2, k3⟩ := ih he2 hc hh
        refine ⟨List.mem_flatMap.2 ⟨t, mem_stmtsAbout.2 ⟨ht, rfl⟩, List.mem_map.2 ⟨c, ?_, rfl⟩⟩, by simpa using k2,
          List.forall_mem_cons.2 ⟨h1, k3⟩⟩
        rw [hb, walksAfter]
        exact List.mem_cons_of_mem _ k1

/-- What leads to no endless chain is written. -/
theorem walks_write {sty : IriStyle} {o : Orders} (hf : o.Fair) {g : Graph} {N : Nat} {s : Subject} (hs : simpleSubject s = true)
    (h : ∀ w, StmtWalk g w → (∀ t ∈ w.head?, t.subject = s) →
      w.length ≤ N ∧ ∀ t ∈ w, splitUri sty t.predicate ≠ .panic ∧ simpleObject t.object = true) :
    ∃ es, xmlSubject sty false o g (N + 1) s = .ok es := by
  induction N generalizing s with
  | zero =>
    refine (xmlSubject_deepens hf).2 ⟨hs, fun t ht e => ?_⟩
    have := (h [t] ⟨ht, .inl rfl⟩ (by simpa using e)).1
    simp at this
  | succ N ih =>
    refine (xmlSubject_deepens hf).2 ⟨hs, fun t ht e => ⟨(h [t] ⟨ht, .inl rfl⟩ (by simpa using e)).2 t (by simp), fun b hb => ?_⟩⟩
    refine ih rfl fun w hw hh => ?_
    have := h (t :: w) ⟨ht, .inr ⟨⟨b, hb, hh⟩, hw⟩⟩ (by simpa using e)
    exact ⟨by simpa using this.1, fun u hu => this.2 u (List.mem_cons_of_mem _ hu)⟩

end Rdftk
