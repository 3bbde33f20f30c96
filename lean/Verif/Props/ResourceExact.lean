import Verif.Props.Resource

/-! Property C36: exactly which resources are turned into what they were told. -/

namespace Rdftk
open Spec

/-- The number of memberCount of a value. -/
def memberCount : RObj → Nat
  | .ress _ rs => rs.length
  | .lits _ ls => ls.length
  | _ => 0

/-- The object of the statement that is made for a value. -/
def LinkTo (gen : Nat → Str) (s : Subject) : RObj → Object → Prop
  | .res _, x => x = s.toObject
  | .lit l, x => x = .lit l
  | _, x => ∃ j, x = .blank (gen j)

/-- A statement made directly for a value: about the resource, or about the node of a container. -/
def MadeFor (gen : Nat → Str) (s : Subject) (p : Iri) (o : RObj) (t : Stmt) : Prop :=
  (t.subject = s ∧ t.predicate = p ∧ LinkTo gen s o t.object) ∨
    ∃ j, t.subject = .blank (gen j) ∧ (t.predicate = rdfType ∨ ∃ i, i < memberCount o ∧ t.predicate = rdfMember i)

/-- A statement made for a value of a resource, at any depth. -/
def MadeIn (gen : Nat → Str) (r : Resource) (t : Stmt) : Prop :=
  ∃ r', Within r r' ∧ ∃ p o, (p, o) ∈ added r' ∧ MadeFor gen r'.subject p o t

theorem literalMembers_made (b : Str) (idx : Nat) (ls : List Literal) (t : Stmt) (h : t ∈ literalMembers b idx ls) :
    t.subject = .blank b ∧ ∃ i, i < idx + ls.length ∧ t.predicate = rdfMember i := by
  induction ls generalizing idx with
  | nil => simp [literalMembers] at h
  | cons l ls ih =>
    simp only [literalMembers, List.mem_cons] at h
    rcases h with rfl | h
    · exact ⟨rfl, idx, by simp, rfl⟩
    · obtain ⟨h1, i, h2, h3⟩ := ih _ h
      exact ⟨h1, i, by simp only [List.length_cons]; omega, h3⟩

mutual
theorem Resource.flatten_made (gen : Nat → Str) (n : Nat) (r : Resource) :
    ∀ t ∈ (r.flatten gen n).1, MadeIn gen r t := by
  match r with
  | .mk s ps =>
    intro t ht
    obtain ⟨e, he, o, ho, h⟩ := flattenPreds_made gen s n ps t ht
    have ha : (e.name, o) ∈ added (.mk s ps) := List.mem_flatMap.2 ⟨e, he, List.mem_map.2 ⟨o, ho, rfl⟩⟩
    rcases h with h | ⟨r', hr, r'', hw, h⟩
    · exact ⟨_, .self _, _, _, ha, h⟩
    · exact ⟨r'', .step _ _ ha hr hw, h⟩
theorem flattenPreds_made (gen : Nat → Str) (s : Subject) (n : Nat) (ps : List PredObjs) :
    ∀ t ∈ (flattenPreds gen s n ps).1, ∃ e ∈ ps, ∃ o ∈ e.objects,
      MadeFor gen s e.name o t ∨ ∃ r ∈ inside o, MadeIn gen r t := by
  match ps with
  | [] => simp [flattenPreds]
  | po :: rest =>
    intro t ht
    simp only [flattenPreds, List.mem_append] at ht
    rcases ht with ht | ht
    · obtain ⟨o, ho, h⟩ := PredObjs.flatten_made gen s n po t ht
      exact ⟨po, by simp, o, ho, h⟩
    · obtain ⟨e, he, h⟩ := flattenPreds_made gen s _ rest t ht
      exact ⟨e, by simp [he], h⟩
theorem PredObjs.flatten_made (gen : Nat → Str) (s : Subject) (n : Nat) (po : PredObjs) :
    ∀ t ∈ (po.flatten gen s n).1, ∃ o ∈ po.objects, MadeFor gen s po.name o t ∨ ∃ r ∈ inside o, MadeIn gen r t := by
  match po with
  | .mk p os => exact flattenObjs_made gen s p n os
theorem flattenObjs_made (gen : Nat → Str) (s : Subject) (p : Iri) (n : Nat) (os : List RObj) :
    ∀ t ∈ (flattenObjs gen s p n os).1, ∃ o ∈ os, MadeFor gen s p o t ∨ ∃ r ∈ inside o, MadeIn gen r t := by
  match os with
  | [] => simp [flattenObjs]
  | o :: rest =>
    intro t ht
    simp only [flattenObjs, List.mem_append] at ht
    rcases ht with ht | ht
    · exact ⟨o, by simp, RObj.flatten_made gen s p n o t ht⟩
    · obtain ⟨e, he, h⟩ := flattenObjs_made gen s p _ rest t ht
      exact ⟨e, by simp [he], h⟩
theorem RObj.flatten_made (gen : Nat → Str) (s : Subject) (p : Iri) (n : Nat) (o : RObj) :
    ∀ t ∈ (o.flatten gen s p n).1, MadeFor gen s p o t ∨ ∃ r ∈ inside o, MadeIn gen r t := by
  intro t ht
  match o with
  | .res r =>
    simp only [RObj.flatten, List.mem_append, List.mem_singleton] at ht
    rcases ht with ht | rfl
    · exact .inr ⟨r, by simp [inside], Resource.flatten_made gen n r t ht⟩
    · exact .inl (.inl ⟨rfl, rfl, rfl⟩)
  | .lit l =>
    simp only [RObj.flatten, List.mem_singleton] at ht
    subst ht
    exact .inl (.inl ⟨rfl, rfl, rfl⟩)
  | .ress k rs =>
    simp only [RObj.flatten, List.mem_cons] at ht
    rcases ht with rfl | rfl | ht
    · exact .inl (.inl ⟨rfl, rfl, n, rfl⟩)
    · exact .inl (.inr ⟨n, rfl, .inl rfl⟩)
    · rcases flattenMembers_made gen (gen n) 0 (n + 1) rs t ht with ⟨h1, i, h2, h3⟩ | h
      · exact .inl (.inr ⟨n, h1, .inr ⟨i, by simpa [memberCount] using h2, h3⟩⟩)
      · exact .inr h
  | .lits k ls =>
    simp only [RObj.flatten, List.mem_cons] at ht
    rcases ht with rfl | rfl | ht
    · exact .inl (.inl ⟨rfl, rfl, n, rfl⟩)
    · exact .inl (.inr ⟨n, rfl, .inl rfl⟩)
    · obtain ⟨h1, i, h2, h3⟩ := literalMembers_made _ _ _ _ ht
      exact .inl (.inr ⟨n, h1, .inr ⟨i, by simpa [memberCount] using h2, h3⟩⟩)
theorem flattenMembers_made (gen : Nat → Str) (b : Str) (idx n : Nat) (rs : List Resource) :
    ∀ t ∈ (flattenMembers gen b idx n rs).1,
      (t.subject = .blank b ∧ ∃ i, i < idx + rs.length ∧ t.predicate = rdfMember i) ∨ ∃ r ∈ rs, MadeIn gen r t := by
  match rs with
  | [] => simp [flattenMembers]
  | r :: rs =>
    intro t ht
    simp only [flattenMembers, List.mem_append, List.mem_cons] at ht
    rcases ht with ht | rfl | ht
    · exact .inr ⟨r, by simp, Resource.flatten_made gen n r t ht⟩
    · exact .inl ⟨rfl, idx, by simp, rfl⟩
    · rcases flattenMembers_made gen b (idx + 1) _ rs t ht with ⟨h1, i, h2, h3⟩ | ⟨r', h1, h2⟩
      · exact .inl ⟨h1, i, by simp only [List.length_cons]; omega, h3⟩
      · exact .inr ⟨r', by simp [h1], h2⟩
end

theorem within_trans {a b c : Resource} (h : Within a b) (h' : Within b c) : Within a c := by
  induction h with
  | self => exact h'
  | step p o h hi _ ih => exact .step p o h hi (ih h')

theorem memberIri_eq (i : Nat) : memberIri i = rdfMember (i + 1) := rfl

theorem member_bound (l : List Stmt) : ∃ B, ∀ t ∈ l, ∀ i, t.predicate = rdfMember i → i < B := by
  induction l with
  | nil => exact ⟨0, by simp⟩
  | cons t l ih =>
    obtain ⟨B, h⟩ := ih
    by_cases e : ∃ k, t.predicate = rdfMember k
    · obtain ⟨k, hk⟩ := e
      refine ⟨max B (k + 1), fun u hu i hi => ?_⟩
      rcases List.mem_cons.1 hu with rfl | hu
      · have := rdfMember_inj (hk.symm.trans hi)
        omega
      · have := h u hu i hi
        omega
    · refine ⟨B, fun u hu i hi => ?_⟩
      rcases List.mem_cons.1 hu with rfl | hu
      · exact absurd ⟨i, hi⟩ e
      · exact h u hu i hi

theorem toObject_inj {a b : Subject} (h : a.toObject = b.toObject) : a = b := by
  cases a <;> cases b <;> simp_all [Subject.toObject]

theorem mem_valuesOf {sts : List Stmt} {b : Str} {p : Iri} {o : Object} :
    o ∈ valuesOf sts b p ↔ Stmt.mk (.blank b) p o ∈ sts := by
  simp only [valuesOf, List.mem_map, List.mem_filter, Bool.and_eq_true, decide_eq_true_eq]
  constructor
  · rintro ⟨⟨s, q, x⟩, ⟨h, rfl, rfl⟩, rfl⟩
    exact h
  · intro h
    exact ⟨_, ⟨h, rfl, rfl⟩, rfl⟩

/-- C36, exactly: a resource that uses no numbered predicate itself is turned into what it and all within it were told if and
only if no container within has a member and each resource that is the value of another has the same subject. -/
theorem C36_iff (gen : Nat → Str) (hg : ∀ i j, gen i = gen j → i = j) (n : Nat) (r : Resource) (hf : Fresh gen r)
    (hu : ∀ r', Within r r' → ∀ p o, (p, o) ∈ added r' → ∀ i, p ≠ rdfMember i) :
    (∀ r', Within r r' → ∀ p o, (p, o) ∈ added r' → Told (r.statements gen n) r'.subject p o) ↔
      ∀ r', Within r r' → ∀ p o, (p, o) ∈ added r' →
        memberCount o = 0 ∧ ∀ x, o = .res x → x.subject = r'.subject := by
  have made := Resource.flatten_made gen n r
  constructor
  · intro h r' hw p o ho
    constructor
    · -- from each container with members comes one with more
      obtain ⟨B, hB⟩ := member_bound (r.statements gen n)
      have grow : ∀ r', Within r r' → ∀ p o, (p, o) ∈ added r' → 0 < memberCount o →
          ∃ t ∈ r.statements gen n, t.predicate = rdfMember (memberCount o) := by
        intro r' hw p o ho hs
        have := h r' hw p o ho
        cases o with
        | res x => simp [memberCount] at hs
        | lit l => simp [memberCount] at hs
        | ress k rs =>
          simp only [memberCount] at hs ⊢
          obtain ⟨b, -, -, h3⟩ := this
          refine ⟨_, h3 (rs.length - 1) _ (List.getElem?_eq_getElem (by omega)), ?_⟩
          show memberIri _ = _
          rw [memberIri_eq]; congr 1; omega
        | lits k ls =>
          simp only [memberCount] at hs ⊢
          obtain ⟨b, -, -, h3⟩ := this
          refine ⟨_, h3 (ls.length - 1) _ (List.getElem?_eq_getElem (by omega)), ?_⟩
          show memberIri _ = _
          rw [memberIri_eq]; congr 1; omega
      have more : ∀ k, ∀ r', Within r r' → ∀ p o, (p, o) ∈ added r' → 0 < memberCount o →
          ∃ r', Within r r' ∧ ∃ p o, (p, o) ∈ added r' ∧ k < memberCount o := by
        intro k
        induction k with
        | zero => intro r' hw p o ho hs; exact ⟨r', hw, p, o, ho, hs⟩
        | succ k ih =>
          intro r' hw p o ho hs
          obtain ⟨r1, w1, p1, o1, a1, s1⟩ := ih r' hw p o ho hs
          obtain ⟨t, ht, hp⟩ := grow r1 w1 p1 o1 a1 (by omega)
          obtain ⟨r2, w2, p2, o2, a2, ⟨-, e, -⟩ | ⟨j, -, e | ⟨i, hi, e⟩⟩⟩ := made t ht
          · exact absurd (e.symm.trans hp) (hu r2 w2 p2 o2 a2 _)
          · exact absurd (e.symm.trans hp) (rdfType_ne_member _)
          · have := rdfMember_inj (e.symm.trans hp)
            exact ⟨r2, w2, p2, o2, a2, by omega⟩
      apply Classical.byContradiction
      intro hs
      obtain ⟨r1, w1, p1, o1, a1, s1⟩ := more B r' hw p o ho (by omega)
      obtain ⟨t, ht, hp⟩ := grow r1 w1 p1 o1 a1 (by omega)
      have := hB t ht _ hp
      omega
    · rintro x rfl
      have ht := h r' hw p _ ho
      have hx : Within r x := within_trans hw (.step p _ ho (by simp [inside]) (.self x))
      obtain ⟨r2, w2, p2, o2, a2, ⟨e1, -, e2⟩ | ⟨j, e, -⟩⟩ := made _ ht
      · cases o2 with
        | res y =>
          have e1 : r'.subject = r2.subject := e1
          rw [e1]
          exact toObject_inj e2
        | lit l =>
          have e2 : x.subject.toObject = .lit l := e2
          cases hsx : x.subject <;> rw [hsx] at e2 <;> cases e2
        | ress k rs =>
          obtain ⟨j, e2⟩ : ∃ j, x.subject.toObject = .blank (gen j) := e2
          exact absurd (toObject_inj (b := .blank (gen j)) e2) (hf x hx j)
        | lits k ls =>
          obtain ⟨j, e2⟩ : ∃ j, x.subject.toObject = .blank (gen j) := e2
          exact absurd (toObject_inj (b := .blank (gen j)) e2) (hf x hx j)
      · exact absurd e (hf r' hw j)
  · intro h r' hw p o ho
    obtain ⟨h1, h2⟩ := h r' hw p o ho
    cases o with
    | lit l => exact C36_literals gen hg n r r' hf hw p l ho
    | res x =>
      have := (C36_nested_partial gen hg n r r' x hf hw p ho).1
      simp only [Told]
      rw [h2 x rfl]
      exact this
    | ress k rs =>
      simp only [memberCount, List.length_eq_zero_iff] at h1
      subst h1
      obtain ⟨b, e1, e2, -⟩ := (C36_containers_partial gen hg n r r' hf hw p k).2 _ ho
      refine ⟨b, e1, ?_, by simp⟩
      have : Object.res k.iri ∈ valuesOf (r.statements gen n) b (rdf (str! "type")) := by rw [e2]; simp
      exact mem_valuesOf.1 this
    | lits k ls =>
      simp only [memberCount, List.length_eq_zero_iff] at h1
      subst h1
      obtain ⟨b, e1, e2, -⟩ := (C36_containers_partial gen hg n r r' hf hw p k).1 _ ho
      refine ⟨b, e1, ?_, by simp⟩
      have : Object.res k.iri ∈ valuesOf (r.statements gen n) b (rdf (str! "type")) := by rw [e2]; simp
      exact mem_valuesOf.1 this

/-- There are resources with nested ones that are turned into what they were told. -/
example : ((Resource.new (.res ⟨str! "a:"⟩)).insert ⟨str! "b:"⟩ (.res (.new (.res ⟨str! "a:"⟩)))).statements blankGen 0 =
    [.mk (.res ⟨str! "a:"⟩) ⟨str! "b:"⟩ (.res ⟨str! "a:"⟩)] := by decide +kernel

end Rdftk
