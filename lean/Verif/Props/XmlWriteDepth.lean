import Verif.Spec.XmlWriteDepth
import Verif.Props.XmlNested
import Verif.Props.TurtleDepth

/-! C203: how deep the calls of the writer of RDF/XML are nested. -/

namespace Rdftk

open Spec

/-- **C203**, in full: there is a depth of calls that is enough for every graph that RDF/XML can say and in which no statements lead
along blank nodes without end. -/
def C203_statement : Prop :=
  ∃ d, ∀ (gen : Nat → Str) (n : Nat) (enc : Str) (o : Orders) (g : Graph), o.Fair → (∀ st ∈ (g.simplify gen n).1.stmts, XmlStmt st) →
    (∀ s, Acc (Leads (g.simplify gen n).1.stmts) s) → ∃ es, writeXml gen n .bare false enc o d g = .ok es

/-- Written, or in need of more depth. -/
def DoneOrDeep {α : Type} (r : Run α) : Prop := r = .deep ∨ ∃ x, r = .ok x

theorem DoneOrDeep.bind {α β : Type} {r : Run α} {f : α → Run β} (h : DoneOrDeep r) (hf : ∀ x, r = .ok x → DoneOrDeep (f x)) : DoneOrDeep (r.bind f) := by
  rcases h with rfl | ⟨x, rfl⟩
  · exact .inl rfl
  · exact hf x rfl

theorem xmlObjects_either {sty : IriStyle} {nested : Subject → Run (List XmlOut)} (h : ∀ b, DoneOrDeep (nested (.blank b))) {ns name : Str} {os : List Object}
    (hx : ∀ x ∈ os, XmlObject x) : DoneOrDeep (xmlObjects sty false nested ns name os) := by
  induction os generalizing name with
  | nil => exact .inr ⟨_, rfl⟩
  | cons x os ih =>
    refine DoneOrDeep.bind ?_ fun _ _ => DoneOrDeep.bind (ih fun x hm => hx x (List.mem_cons_of_mem _ hm)) fun _ _ => .inr ⟨_, rfl⟩
    have hx := hx x (List.mem_cons_self ..)
    cases x with
    | coll _ => exact hx.elim
    | stmt _ => exact hx.elim
    | blank b => exact DoneOrDeep.bind (h b) fun _ _ => .inr ⟨_, rfl⟩
    | _ => exact .inr ⟨_, rfl⟩

theorem xmlPredicates_either {nested : Subject → Run (List XmlOut)} (h : ∀ b, DoneOrDeep (nested (.blank b))) {o : Orders} (hf : o.Fair) {g : Graph}
    (hg : ∀ st ∈ g.stmts, XmlStmt st) {s : Subject} {ps : List Iri} (hp : ∀ p ∈ ps, p ∈ g.predicatesFor s) :
    DoneOrDeep (xmlPredicates .bare false o g nested s ps) := by
  induction ps with
  | nil => exact .inr ⟨_, rfl⟩
  | cons p ps ih =>
    obtain ⟨x, hx⟩ := xml_predicatesFor.1 (hp p (List.mem_cons_self ..))
    obtain ⟨ns, name, _, h1, _⟩ := xmlProperty_names (hg _ hx).2.1
    simp only [Stmt.predicate] at h1
    simp only [xmlPredicates, h1]
    refine DoneOrDeep.bind (xmlObjects_either h fun y hy => xmlObject_of (hg _ (xml_objectsFor.1 ((hf.2.2 s p _).mem_iff.1 hy)))) fun _ _ =>
      DoneOrDeep.bind (ih fun p hm => hp p (List.mem_cons_of_mem _ hm)) fun _ _ => .inr ⟨_, rfl⟩

theorem xmlSubject_either {o : Orders} (hf : o.Fair) {g : Graph} (hg : ∀ st ∈ g.stmts, XmlStmt st) (d : Nat) {s : Subject} (hs : ∀ t, s ≠ .stmt t) :
    DoneOrDeep (xmlSubject .bare false o g d s) := by
  induction d generalizing s with
  | zero => exact .inl rfl
  | succ d ih =>
    refine DoneOrDeep.bind ?_ fun _ _ => DoneOrDeep.bind (xmlPredicates_either (fun b => ih (by intro t e; cases e)) hf hg
      fun p hp => (hf.2.1 s _).mem_iff.1 hp) fun _ _ => .inr ⟨_, rfl⟩
    cases s with
    | stmt t => exact absurd rfl (hs t)
    | _ => exact .inr ⟨_, rfl⟩

theorem xmlSubject_iff {o : Orders} (hf : o.Fair) {g : Graph} (hg : ∀ st ∈ g.stmts, XmlStmt st) (d : Nat) {s : Subject} (hs : ∀ t, s ≠ .stmt t) :
    (∃ es, xmlSubject .bare false o g d s = .ok es) ↔ LeadsWithin g.stmts d s := by
  induction d generalizing s with
  | zero => exact ⟨(by rintro ⟨_, h⟩; cases h), False.elim⟩
  | succ d ih =>
    constructor
    · rintro ⟨es, h⟩ p b hm
      obtain ⟨e1, h1, h⟩ := Run.ok_of_bind h
      obtain ⟨e2, h2, h⟩ := Run.ok_of_bind h
      exact (ih (by intro t e; cases e)).1 (xmlPredicates_nested h2 (p := p) (b := b) ((hf.2.1 s _).mem_iff.2 (xml_predicatesFor.2 ⟨_, hm⟩))
        ((hf.2.2 s p _).mem_iff.2 (xml_objectsFor.2 hm)))
    · intro h
      obtain ⟨b, hb⟩ := xmlPredicates_done hf hg (s := s) (nested := xmlSubject .bare false o g d)
        (fun p b hm => (ih (by intro t e; cases e)).2 (h p b hm)) (ps := o.pred s (g.predicatesFor s))
        (fun p hp => (hf.2.1 s _).mem_iff.1 hp)
      have : ∃ a, xmlHead false s = .ok a := by
        cases s with
        | stmt t => exact absurd rfl (hs t)
        | _ => exact ⟨_, rfl⟩
      obtain ⟨a, ha⟩ := this
      exact ⟨_, by simp only [xmlSubject, ha, Run.bind]; rw [hb]⟩

theorem xmlSubjects_done {f : Subject → Run (List XmlOut)} {ss : List Subject} (h : ∀ s ∈ ss, ∃ es, f s = .ok es) :
    ∃ es, xmlSubjects f ss = .ok es := by
  induction ss with
  | nil => exact ⟨_, rfl⟩
  | cons s ss ih =>
    obtain ⟨a, ha⟩ := h s (List.mem_cons_self ..)
    obtain ⟨b, hb⟩ := ih fun s hm => h s (List.mem_cons_of_mem _ hm)
    exact ⟨_, by simp only [xmlSubjects, ha, hb, Run.bind]; rfl⟩

theorem xmlSubjects_either {f : Subject → Run (List XmlOut)} {ss : List Subject} (h : ∀ s ∈ ss, DoneOrDeep (f s)) : DoneOrDeep (xmlSubjects f ss) := by
  induction ss with
  | nil => exact .inr ⟨_, rfl⟩
  | cons s ss ih =>
    exact DoneOrDeep.bind (h s (List.mem_cons_self ..)) fun _ _ => DoneOrDeep.bind (ih fun s hm => h s (List.mem_cons_of_mem _ hm)) fun _ _ => .inr ⟨_, rfl⟩

/-- Exactly: the depth is enough if and only if statements about no IRI lead further. -/
theorem C203_iff (gen : Nat → Str) (n : Nat) (enc : Str) (o : Orders) (hf : o.Fair) (g : Graph) (hg : ∀ st ∈ (g.simplify gen n).1.stmts, XmlStmt st)
    (d : Nat) : (∃ es, writeXml gen n .bare false enc o d g = .ok es) ↔
      ∀ i p x, Stmt.mk (.res i) p x ∈ (g.simplify gen n).1.stmts → LeadsWithin (g.simplify gen n).1.stmts d (.res i) := by
  generalize hg' : (g.simplify gen n).1 = g' at hg
  constructor
  · rintro ⟨es, he⟩ i p x hm
    simp only [writeXml, hg'] at he
    obtain ⟨b, h1, -⟩ := Run.ok_of_bind he
    obtain ⟨e, he, -⟩ := xmlSubjects_mem (s := .res i)
      (List.mem_filter.2 ⟨(hf.1 _).mem_iff.2 (xml_subjects.2 ⟨_, hm, rfl⟩), by simp [Subject.isResource]⟩) h1
    exact (xmlSubject_iff hf hg d (by intro t e; cases e)).1 ⟨e, he⟩
  · intro h
    obtain ⟨b, hb⟩ := xmlSubjects_done (f := xmlSubject .bare false o g' d) (ss := (o.subj g'.subjects).filter fun s => false || s.isResource) (by
      intro s hs
      obtain ⟨hs1, hs2⟩ := List.mem_filter.1 hs
      cases s with
      | res i =>
        obtain ⟨⟨s, p, x⟩, hm, e⟩ := xml_subjects.1 ((hf.1 _).mem_iff.1 hs1)
        obtain rfl : s = .res i := e
        exact (xmlSubject_iff hf hg d (by intro t e; cases e)).2 (h i p x hm)
      | _ => simp [Subject.isResource] at hs2)
    exact ⟨_, by simp only [writeXml, hg', hb, Run.bind]; rfl⟩

/-- With less depth the writer goes on deeper, it ends in no other way. -/
theorem C203_deeper (gen : Nat → Str) (n : Nat) (enc : Str) (o : Orders) (hf : o.Fair) (g : Graph) (hg : ∀ st ∈ (g.simplify gen n).1.stmts, XmlStmt st)
    (d : Nat) (i : Iri) (p : Iri) (x : Object) (hm : Stmt.mk (.res i) p x ∈ (g.simplify gen n).1.stmts)
    (h : ¬ LeadsWithin (g.simplify gen n).1.stmts d (.res i)) : writeXml gen n .bare false enc o d g = .deep := by
  have : DoneOrDeep (writeXml gen n .bare false enc o d g) := by
    refine DoneOrDeep.bind (xmlSubjects_either fun s hs => xmlSubject_either hf hg d ?_) fun _ _ => .inr ⟨_, rfl⟩
    rintro t rfl
    have := (List.mem_filter.1 hs).2
    simp [Subject.isResource] at this
  rcases this with h1 | h1
  · exact h1
  · exact absurd ((C203_iff gen n enc o hf g hg d).1 h1 i p x hm) h

/-! ### How far statements can lead -/

theorem Spec.LeadsWithin.mono {L : List Stmt} {n m : Nat} {s : Subject} (h : LeadsWithin L n s) (hm : n ≤ m) : LeadsWithin L m s := by
  induction n generalizing m s with
  | zero => exact h.elim
  | succ n ih =>
    obtain ⟨k, rfl⟩ : ∃ k, m = k + 1 := ⟨m - 1, by omega⟩
    exact fun p b h1 => ih (h p b h1) (by omega)

theorem leads_within {g : Graph} (hc : ∀ s, Acc (Leads g.stmts) s) (k : Nat) (s : Subject) (seen : List Subject) (hn : seen.Nodup)
    (hs : ∀ c ∈ seen, c ∈ g.subjects ∧ Relation.TransGen (Leads g.stmts) s c) (hk : g.subjects.length ≤ seen.length + k) :
    LeadsWithin g.stmts (k + 1) s := by
  have hfresh : s ∉ seen := fun hb => acc_not_reaches (hc s) (hs s hb).2
  induction k generalizing s seen with
  | zero =>
    intro p b hm
    have hb : s ∈ g.subjects := xml_subjects.2 ⟨_, hm, rfl⟩
    have h2 : s :: seen ⊆ g.subjects := by
      intro c hc'
      rcases List.mem_cons.1 hc' with rfl | hc'
      · exact hb
      · exact (hs c hc').1
    have := (List.subperm_of_subset (List.nodup_cons.2 ⟨hfresh, hn⟩) h2).length_le
    rw [List.length_cons] at this
    omega
  | succ k ih =>
    intro p b hm
    have hb : s ∈ g.subjects := xml_subjects.2 ⟨_, hm, rfl⟩
    have hl : Leads g.stmts (.blank b) s := ⟨p, b, rfl, hm⟩
    have hs' : ∀ a ∈ s :: seen, a ∈ g.subjects ∧ Relation.TransGen (Leads g.stmts) (.blank b) a := by
      intro a ha
      rcases List.mem_cons.1 ha with rfl | ha
      · exact ⟨hb, .single hl⟩
      · exact ⟨(hs a ha).1, .head hl (hs a ha).2⟩
    exact ih (.blank b) (s :: seen) (List.nodup_cons.2 ⟨hfresh, hn⟩) hs' (by rw [List.length_cons]; omega)
      fun hb => acc_not_reaches (hc _) (hs' _ hb).2

/-- One more than there are subjects is enough. -/
theorem C203_bound (gen : Nat → Str) (n : Nat) (enc : Str) (o : Orders) (hf : o.Fair) (g : Graph) (hg : ∀ st ∈ (g.simplify gen n).1.stmts, XmlStmt st)
    (hc : ∀ s, Acc (Leads (g.simplify gen n).1.stmts) s) (d : Nat) (hd : (g.simplify gen n).1.subjects.length + 1 ≤ d) :
    ∃ es, writeXml gen n .bare false enc o d g = .ok es :=
  (C203_iff gen n enc o hf g hg d).2 fun i _ _ _ => (leads_within hc _ (.res i) [] List.nodup_nil (by simp) (by simp)).mono hd

/-- In the flat style one call is enough: more depth changes nothing. -/
theorem C203_flat (gen : Nat → Str) (n : Nat) (sty : IriStyle) (enc : Str) (o : Orders) (d : Nat) (g : Graph) :
    writeXml gen n sty true enc o (d + 1) g = writeXml gen n sty true enc o 1 g := by
  have h1 : ∀ (f f' : Subject → Run (List XmlOut)) (ns name : Str) (os : List Object),
      xmlObjects sty true f ns name os = xmlObjects sty true f' ns name os := by
    intro f f' ns name os
    induction os generalizing name with
    | nil => rfl
    | cons x os ih =>
      have : xmlProperty sty true f (xmlElement sty ns name).1 (xmlElement sty ns name).2 x =
          xmlProperty sty true f' (xmlElement sty ns name).1 (xmlElement sty ns name).2 x := by cases x <;> rfl
      simp only [xmlObjects, this, ih]
  have h2 : ∀ (f f' : Subject → Run (List XmlOut)) (g : Graph) (s : Subject) (ps : List Iri),
      xmlPredicates sty true o g f s ps = xmlPredicates sty true o g f' s ps := by
    intro f f' g s ps
    induction ps with
    | nil => rfl
    | cons p ps ih => simp only [xmlPredicates, ih, fun ns name os => h1 f f' ns name os]
  have h3 : ∀ g, xmlSubject sty true o g (d + 1) = xmlSubject sty true o g 1 := by
    intro g
    funext s
    simp only [xmlSubject]
    rw [h2]
  simp only [writeXml, h3]

/-! ### No depth is enough -/

/-- The nodes of a chain that starts with an IRI. -/
def xmlChainNode : Nat → Subject
  | 0 => .res ⟨str! "http://a/s"⟩
  | i + 1 => .blank (chainNode (i + 1))

/-- A chain of `n` statements, each about the object of the one before, the first about an IRI. -/
def xmlChain (n : Nat) : Graph :=
  graphOf ((List.range n).map fun i => .mk (xmlChainNode i) ⟨str! "http://a/p"⟩ (.blank (chainNode (i + 1))))

theorem xmlChain_stmts (gen : Nat → Str) (k n : Nat) : ((xmlChain n).simplify gen k).1.stmts = (xmlChain n).stmts := by
  refine (C34_unchanged gen k _ ?_).1
  intro t ht
  obtain ⟨i, -, rfl⟩ := List.mem_map.1 (show t ∈ (List.range n).map _ from ht)
  cases i <;> rfl

theorem mem_xmlChain {n : Nat} {s : Subject} {p : Iri} {x : Object} :
    Stmt.mk s p x ∈ (xmlChain n).stmts ↔ ∃ i < n, s = xmlChainNode i ∧ p = ⟨str! "http://a/p"⟩ ∧ x = .blank (chainNode (i + 1)) := by
  change Stmt.mk s p x ∈ (List.range n).map _ ↔ _
  simp only [List.mem_map, List.mem_range, Stmt.mk.injEq]
  constructor
  · rintro ⟨i, h, rfl, rfl, rfl⟩; exact ⟨i, h, rfl, rfl, rfl⟩
  · rintro ⟨i, h, rfl, rfl, rfl⟩; exact ⟨i, h, rfl, rfl, rfl⟩

theorem xmlChainNode_inj {i j : Nat} (h : xmlChainNode i = xmlChainNode j) : i = j := by
  cases i <;> cases j
  · rfl
  · cases h
  · cases h
  · exact chainNode_inj (Subject.blank.inj h)

theorem chainNode_name (i : Nat) : isNcName (chainNode (i + 1)) = true := by
  have : ∀ i, (List.replicate i 'b').all isNcChar = true := by
    intro i
    rw [List.all_eq_true]
    intro c hc
    rw [List.eq_of_mem_replicate hc]
    decide
  show (isNcStart 'b' && (List.replicate i 'b').all isNcChar) = true
  rw [this i]
  decide

theorem xmlChain_ok (gen : Nat → Str) (k n : Nat) : ∀ st ∈ ((xmlChain n).simplify gen k).1.stmts, XmlStmt st := by
  rw [xmlChain_stmts]
  rintro ⟨s, p, x⟩ hm
  obtain ⟨i, -, rfl, rfl, rfl⟩ := mem_xmlChain.1 hm
  refine ⟨?_, sampleProperty_ok, chainNode_name i⟩
  cases i with
  | zero => exact sampleIri_ok
  | succ i => exact chainNode_name i

theorem xmlChain_leads {n k i : Nat} (hi : i ≤ n) : LeadsWithin (xmlChain n).stmts k (xmlChainNode i) ↔ n < k + i := by
  induction k generalizing i with
  | zero => exact ⟨False.elim, fun h => by omega⟩
  | succ k ih =>
    constructor
    · intro h
      by_cases hn : i = n
      · omega
      · have := (ih (i := i + 1) (by omega)).1 (h _ _ (mem_xmlChain.2 ⟨i, by omega, rfl, rfl, rfl⟩))
        omega
    · intro h p b hm
      obtain ⟨j, hj, h1, -, h2⟩ := mem_xmlChain.1 hm
      obtain rfl := xmlChainNode_inj h1
      cases h2
      exact (ih (i := i + 1) (by omega)).2 (by omega)

theorem xmlChain_ends (n : Nat) (s : Subject) : Acc (Leads (xmlChain n).stmts) s := by
  have h : ∀ k s, (∀ i, s = xmlChainNode i → n < i + k) → Acc (Leads (xmlChain n).stmts) s := by
    intro k
    induction k with
    | zero =>
      intro s hs
      refine ⟨_, ?_⟩
      rintro c ⟨p, b, rfl, hm⟩
      obtain ⟨i, hi, h1, -⟩ := mem_xmlChain.1 hm
      have := hs i h1
      omega
    | succ k ih =>
      intro s hs
      refine ⟨_, ?_⟩
      rintro c ⟨p, b, rfl, hm⟩
      refine ih _ fun j hj => ?_
      obtain ⟨i, hi, h1, -, h2⟩ := mem_xmlChain.1 hm
      cases h2
      have := hs i h1
      have := xmlChainNode_inj (i := i + 1) hj
      omega
  exact h (n + 1) s fun i _ => by omega

/-- A chain of `n + 1` statements needs `n + 2` calls, not fewer. -/
theorem C203_chain (gen : Nat → Str) (k : Nat) (enc : Str) (o : Orders) (hf : o.Fair) (n d : Nat) :
    (∃ es, writeXml gen k .bare false enc o d (xmlChain (n + 1)) = .ok es) ↔ n + 2 ≤ d := by
  rw [C203_iff gen k enc o hf _ (xmlChain_ok gen k _), xmlChain_stmts]
  constructor
  · intro h
    have := (xmlChain_leads (n := n + 1) (i := 0) (by omega)).1 (h _ _ _ (mem_xmlChain.2 ⟨0, by omega, rfl, rfl, rfl⟩))
    omega
  · intro h i p x hm
    obtain ⟨j, hj, h1, -, -⟩ := mem_xmlChain.1 hm
    cases j with
    | zero => cases h1; exact (xmlChain_leads (i := 0) (by omega)).2 (by omega)
    | succ j => cases h1

/-- No depth is enough for every graph. -/
theorem C203_fails : ¬ C203_statement := by
  rintro ⟨d, h⟩
  have := (C203_chain blankGen 0 [] sameOrder sameOrder_fair d d).1 (h blankGen 0 [] sameOrder _ sameOrder_fair (xmlChain_ok _ _ _)
    (by rw [xmlChain_stmts]; exact xmlChain_ends _))
  omega

end Rdftk
