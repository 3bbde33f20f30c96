import Verif.Lemmas.Resource

/-! C36: the resource builder. -/

namespace Rdftk
open Spec

/-- The full property, for resources at any depth. -/
def C36_statement : Prop :=
  ∀ (gen : Nat → Str), (∀ i j, gen i = gen j → i = j) → ∀ (n : Nat) (r : Resource), Fresh gen r →
    ∀ r', Within r r' → ∀ p o, (p, o) ∈ added r' →
      Told (r.statements gen n) r'.subject p o

theorem blankGen_inj (i j : Nat) (e : blankGen i = blankGen j) : i = j := by
  simp only [blankGen, List.cons.injEq, true_and, List.append_cancel_left_eq] at e
  exact toDigits_inj e

/-- A resource without nested resources and with IRI subject is fresh. -/
theorem fresh_of_iri (gen : Nat → Str) (r : Resource) (h : ∀ r', Within r r' → ∃ i, r'.subject = .res i) :
    Fresh gen r := by
  intro r' hw j e
  obtain ⟨i, hi⟩ := h r' hw
  rw [hi] at e; cases e

/-- `a b [c]`: the statement links the resource to itself. -/
theorem C36_fails : ¬ C36_statement := by
  intro h
  let r0 : Resource := .new (.res ⟨str! "c:"⟩)
  let r : Resource := (Resource.new (.res ⟨str! "a:"⟩)).insert ⟨str! "b:"⟩ (.res r0)
  have hw : ∀ r', Within r r' → ∃ i, r'.subject = .res i := by
    intro r' hw
    cases hw with
    | self => exact ⟨_, rfl⟩
    | step p o ho hi hw =>
      simp only [r, added, Resource.insert, Resource.new, insertPred, Resource.preds,
        List.flatMap_cons, List.flatMap_nil, List.append_nil, PredObjs.objects, PredObjs.name,
        List.map_cons, List.map_nil, List.mem_singleton, Prod.mk.injEq] at ho
      obtain ⟨_, rfl⟩ := ho
      simp only [inside, List.mem_singleton] at hi
      subst hi
      cases hw with
      | self => exact ⟨_, rfl⟩
      | step p o ho hi hw => simp [r0, added, Resource.new, Resource.preds] at ho
  have := h blankGen blankGen_inj 0 r (fresh_of_iri _ _ hw) r (.self r) ⟨str! "b:"⟩ (.res r0)
    (by simp [r, added, Resource.insert, Resource.new, insertPred, Resource.preds,
      PredObjs.objects, PredObjs.name])
  revert this
  simp only [Told]
  decide +kernel

/-- Members are numbered from 0, so the last one has no number counted from 1. -/
theorem C36_fails_members : ¬ C36_statement := by
  intro h
  let v : RObj := .lits .bag [⟨str! "x", none, none⟩]
  let r : Resource := (Resource.new (.res ⟨str! "a:"⟩)).insert ⟨str! "b:"⟩ v
  have ha : ∀ p o, (p, o) ∈ added r → o = v := by
    intro p o ho
    simp only [r, added, Resource.insert, Resource.new, insertPred, Resource.preds,
      List.flatMap_cons, List.flatMap_nil, List.append_nil, PredObjs.objects, PredObjs.name,
      List.map_cons, List.map_nil, List.mem_singleton, Prod.mk.injEq] at ho
    exact ho.2
  have hw : ∀ r', Within r r' → ∃ i, r'.subject = .res i := by
    intro r' hw
    cases hw with
    | self => exact ⟨_, rfl⟩
    | step p o ho hi hw =>
      rw [ha p o ho] at hi
      simp [v, inside] at hi
  have := h blankGen blankGen_inj 0 r (fresh_of_iri _ _ hw) r (.self r) ⟨str! "b:"⟩ v
    (by simp [r, added, Resource.insert, Resource.new, insertPred, Resource.preds,
      PredObjs.objects, PredObjs.name])
  obtain ⟨b, _, _, h3⟩ := this
  have h3 := h3 0 (⟨str! "x", none, none⟩) rfl
  have hp : ∀ t ∈ r.statements blankGen 0, t.predicate ≠ memberIri 0 := by decide +kernel
  exact hp _ h3 rfl

/-- Adding a value keeps the others and the subject. -/
theorem C36_insert (p : Iri) (o : RObj) (r : Resource) :
    (added (r.insert p o)).Perm (added r ++ [(p, o)]) ∧ (r.insert p o).subject = r.subject := by
  refine ⟨added_insert p o r, ?_⟩
  cases r; rfl

theorem insertPred_names (p : Iri) (o : RObj) (ps : List PredObjs) :
    (insertPred p o ps).map PredObjs.name =
      if p ∈ ps.map PredObjs.name then ps.map PredObjs.name
      else ps.map PredObjs.name ++ [p] := by
  induction ps with
  | nil => simp [insertPred, PredObjs.name]
  | cons e ps ih =>
    cases e with
    | mk q os =>
      by_cases h : q = p
      · simp [insertPred, h, PredObjs.name]
      · have h' : ¬ p = q := fun e => h e.symm
        simp only [insertPred, h, if_false, List.map_cons, PredObjs.name, ih, List.mem_cons, h',
          false_or]
        split <;> simp

/-- A predicate has one entry, however often it is used. -/
theorem C36_entries (p : Iri) (o : RObj) (r : Resource)
    (h : (r.preds.map PredObjs.name).Nodup) :
    ((r.insert p o).preds.map PredObjs.name).Nodup := by
  cases r with
  | mk s ps =>
    simp only [Resource.insert, Resource.preds, insertPred_names] at h ⊢
    split
    · exact h
    · rename_i hn
      rw [List.nodup_append]
      exact ⟨h, by simp, fun a ha b hb e => hn (by
        rw [List.mem_singleton] at hb
        rw [← hb, ← e]; exact ha)⟩

/-- A `Predicate` adds all its values. -/
theorem C36_predicate (po : PredObjs) (r : Resource) :
    (added (r.predicate po)).Perm (added r ++ po.objects.map fun o => (po.name, o)) := by
  unfold Resource.predicate
  generalize po.objects = os
  induction os generalizing r with
  | nil => simp
  | cons o os ih =>
    rw [List.foldl_cons]
    refine (ih _).trans ?_
    rw [List.map_cons]
    refine ((added_insert po.name o r).append_right _).trans ?_
    simp

/-- A literal value, at any depth, has its statement. -/
theorem C36_literals (gen : Nat → Str) (hg : ∀ i j, gen i = gen j → i = j) (n : Nat)
    (r r' : Resource) (hf : Fresh gen r) (hw : Within r r') (p : Iri) (l : Literal)
    (h : (p, RObj.lit l) ∈ added r') :
    Stmt.mk r'.subject p (.lit l) ∈ r.statements gen n := by
  obtain ⟨m, h1⟩ := flatten_within gen hg n r r' hw hf
  have hf' : Fresh gen r' := by
    clear h1 m h
    induction hw with
    | self => exact hf
    | step p o ho hi hw ih => exact ih (hf.within ho hi)
  obtain ⟨m2, h2⟩ := flatten_part gen hg m r' hf' p _ h
  exact h1.mem (h2.mem (by simp [RObj.flatten]))

theorem Fresh.of_within {gen : Nat → Str} {r r' : Resource} (hf : Fresh gen r)
    (hw : Within r r') : Fresh gen r' := by
  induction hw with
  | self => exact hf
  | step p o ho hi hw ih => exact ih (hf.within ho hi)

/-- A container, at any depth, has a node of its own with its kind and exactly its members, the
member at position `i` (from 0) under `rdf:_i`. -/
theorem C36_containers_partial (gen : Nat → Str) (hg : ∀ i j, gen i = gen j → i = j) (n : Nat)
    (r r' : Resource) (hf : Fresh gen r) (hw : Within r r') (p : Iri) (k : ContainerKind) :
    (∀ ls, (p, RObj.lits k ls) ∈ added r' → ∃ b, Stmt.mk r'.subject p (.blank b) ∈ r.statements gen n ∧
      valuesOf (r.statements gen n) b (rdf (str! "type")) = [.res k.iri] ∧
      ∀ i, valuesOf (r.statements gen n) b (rdfMember i) = (ls[i]?.map Object.lit).toList) ∧
    (∀ rs, (p, RObj.ress k rs) ∈ added r' → ∃ b, Stmt.mk r'.subject p (.blank b) ∈ r.statements gen n ∧
      valuesOf (r.statements gen n) b (rdf (str! "type")) = [.res k.iri] ∧
      ∀ i, valuesOf (r.statements gen n) b (rdfMember i) =
        (rs[i]?.map fun x => x.subject.toObject).toList) := by
  obtain ⟨m, h1⟩ := flatten_within gen hg n r r' hw hf
  have hf' := hf.of_within hw
  have hs : ∀ j, r'.subject ≠ .blank (gen j) := fun j => hf' r' (.self _) j
  have e0 : ∀ m2 p q o, valuesOf [.mk r'.subject p o] (gen m2) q = [] := by
    intro m2 p q o
    apply valuesOf_nil_of
    intro x hx
    rw [List.mem_singleton.1 hx]
    exact hs m2
  constructor
  · intro ls h
    obtain ⟨m2, h2⟩ := flatten_part gen hg m r' hf' p _ h
    have hp := h2.trans h1
    have hv := fun q => hp.values (Nat.le_refl m2) (by simp [containersO]) q
    have e : ((RObj.lits k ls).flatten gen r'.subject p m2).1 =
        [.mk r'.subject p (.blank (gen m2))] ++ ([.mk (.blank (gen m2)) rdfType (.res k.iri)] ++
          literalMembers (gen m2) 0 ls) := rfl
    refine ⟨gen m2, hp.mem (by simp [RObj.flatten]), ?_, ?_⟩
    · refine (hv rdfType).trans ?_
      rw [e, valuesOf_append, valuesOf_append, e0, valuesOf_single]
      have : valuesOf (literalMembers (gen m2) 0 ls) (gen m2) rdfType = [] := by
        have : ∀ j, valuesOf (literalMembers (gen m2) j ls) (gen m2) rdfType = [] := by
          clear e
          clear h2 hp hv h
          induction ls with
          | nil => intro j; rfl
          | cons l ls ih =>
            intro j
            have e : literalMembers (gen m2) j (l :: ls) =
              [.mk (.blank (gen m2)) (rdfMember j) (.lit l)] ++ literalMembers (gen m2) (j + 1) ls := rfl
            rw [e, valuesOf_append, valuesOf_single, ih]
            simp [(rdfType_ne_member j).symm]
        exact this 0
      rw [this]; simp
    · intro i
      refine (hv _).trans ?_
      rw [e, valuesOf_append, valuesOf_append, e0, valuesOf_single]
      have := literalMembers_values (gen m2) 0 i ls
      rw [Nat.zero_add] at this
      rw [this]
      simp [rdfType_ne_member]
  · intro rs h
    obtain ⟨m2, h2⟩ := flatten_part gen hg m r' hf' p _ h
    have hp := h2.trans h1
    have hv := fun q => hp.values (Nat.le_refl m2) (by simp [containersO]) q
    have hfr : ∀ x ∈ rs, Fresh gen x := fun x hx => hf'.within h (by simpa [inside] using hx)
    have e : ((RObj.ress k rs).flatten gen r'.subject p m2).1 =
        [.mk r'.subject p (.blank (gen m2))] ++ ([.mk (.blank (gen m2)) rdfType (.res k.iri)] ++
          (flattenMembers gen (gen m2) 0 (m2 + 1) rs).1) := rfl
    refine ⟨gen m2, hp.mem (by simp [RObj.flatten]), ?_, ?_⟩
    · refine (hv rdfType).trans ?_
      rw [e, valuesOf_append, valuesOf_append, e0, valuesOf_single]
      have : ∀ (rs : List Resource) (j n : Nat), m2 < n → (∀ x ∈ rs, Fresh gen x) →
          valuesOf (flattenMembers gen (gen m2) j n rs).1 (gen m2) rdfType = [] := by
        intro rs
        induction rs with
        | nil => intros; rfl
        | cons x rs ih =>
          intro j n hn hx
          have e : (flattenMembers gen (gen m2) j n (x :: rs)).1 = (x.flatten gen n).1 ++
            ([.mk (.blank (gen m2)) (rdfMember j) x.subject.toObject] ++
              (flattenMembers gen (gen m2) (j + 1) (n + containers x) rs).1) := by
            simp [flattenMembers, Resource.flatten_count]
          rw [e, valuesOf_append, valuesOf_append, valuesOf_single,
            ih _ _ (by omega) (fun y hy => hx y (by simp [hy])),
            valuesOf_nil_of (l := (x.flatten gen n).1)]
          · simp [(rdfType_ne_member j).symm]
          · intro y hy
            exact (Resource.flatten_subject gen n x y hy).ne hg (hx x (by simp)) (by omega)
      rw [this rs 0 (m2 + 1) (by omega) hfr]; simp
    · intro i
      refine (hv _).trans ?_
      rw [e, valuesOf_append, valuesOf_append, e0, valuesOf_single]
      have := flattenMembers_values gen hg m2 0 i (m2 + 1) (by omega) rs hfr
      rw [Nat.zero_add] at this
      rw [this]
      simp [rdfType_ne_member]

/-- A nested resource, at any depth, has all its statements, but the link goes to the resource it
is nested in. -/
theorem C36_nested_partial (gen : Nat → Str) (hg : ∀ i j, gen i = gen j → i = j) (n : Nat)
    (r r' x : Resource) (hf : Fresh gen r) (hw : Within r r') (p : Iri)
    (h : (p, RObj.res x) ∈ added r') :
    Stmt.mk r'.subject p r'.subject.toObject ∈ r.statements gen n ∧
    ∃ m, ∀ t ∈ x.statements gen m, t ∈ r.statements gen n := by
  obtain ⟨m, h1⟩ := flatten_within gen hg n r r' hw hf
  have hf' := hf.of_within hw
  obtain ⟨m2, h2⟩ := flatten_part gen hg m r' hf' p _ h
  refine ⟨h1.mem (h2.mem (by simp [RObj.flatten])), m2, fun t ht => h1.mem (h2.mem ?_)⟩
  simp only [RObj.flatten, List.mem_append]
  exact .inl ht

/-- There are no other statements: their number is exactly that of the values, containers and
members, and each is about a resource within or a container node. -/
theorem C36_nothing_else (gen : Nat → Str) (n : Nat) (r : Resource) :
    (r.statements gen n).length = weight r ∧
    ∀ t ∈ r.statements gen n, (∃ r', Within r r' ∧ t.subject = r'.subject) ∨
      ∃ j, n ≤ j ∧ j < n + containers r ∧ t.subject = .blank (gen j) :=
  ⟨Resource.flatten_length gen n r, Resource.flatten_subject gen n r⟩

/-- Kinds have the terms of the vocabulary. -/
theorem C36_kinds (i : Iri) :
    ContainerKind.alt.iri = rdf (str! "Alt") ∧ ContainerKind.bag.iri = rdf (str! "Bag") ∧
    ContainerKind.seq.iri = rdf (str! "Seq") ∧ (ContainerKind.other i).iri = i :=
  ⟨rfl, rfl, rfl, rfl⟩

/-- C36: a resource with a name is one whose subject is an IRI; one made without a name is not. -/
theorem C36_isResource (r : Resource) : r.isResource = true ↔ ∃ i, r.subject = .res i := by
  unfold Resource.isResource
  cases r.subject <;> simp [Subject.isResource]

/-- `instance_of` makes an individual. -/
theorem C36_instance_of (i : Iri) (r : Resource) : (r.instanceOf i).isIndividual = true := by
  cases r with
  | mk s ps =>
    simp only [Resource.instanceOf, Resource.isIndividual, Resource.insert, Resource.preds]
    induction ps with
    | nil => simp [insertPred, PredObjs.name]
    | cons e ps ih =>
      cases e with
      | mk q os =>
        simp only [insertPred]
        split
        · rename_i h
          simp [PredObjs.name, h]
        · simp only [List.any_cons, ih, Bool.or_true]

/-- An individual is a resource with a value for `rdf:type`, when no entry is empty. -/
theorem C36_individual (r : Resource) (h : ∀ e ∈ r.preds, e.objects ≠ []) :
    r.isIndividual = true ↔ ∃ o, (rdf (str! "type"), o) ∈ added r := by
  simp only [Resource.isIndividual, List.any_eq_true, decide_eq_true_eq, added, List.mem_flatMap,
    List.mem_map, Prod.mk.injEq]
  constructor
  · rintro ⟨e, he, hn⟩
    obtain ⟨o, ho⟩ := List.exists_mem_of_ne_nil _ (h e he)
    exact ⟨o, e, he, o, ho, hn, rfl⟩
  · rintro ⟨o, e, he, o', _, hn, _⟩
    exact ⟨e, he, hn⟩

example : ((Resource.new (.res ⟨str! "a:"⟩)).insert ⟨str! "b:"⟩
    (.lits .seq [⟨str! "x", none, none⟩, ⟨str! "y", none, none⟩])).statements blankGen 7 =
    [.mk (.res ⟨str! "a:"⟩) ⟨str! "b:"⟩ (.blank (str! "B7")),
     .mk (.blank (str! "B7")) rdfType (.res (rdf (str! "Seq"))),
     .mk (.blank (str! "B7")) (rdf (str! "_0")) (.lit (⟨str! "x", none, none⟩)),
     .mk (.blank (str! "B7")) (rdf (str! "_1")) (.lit (⟨str! "y", none, none⟩))] := by
  decide +kernel

end Rdftk
