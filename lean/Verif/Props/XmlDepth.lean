import Verif.Spec.XmlDepth
import Verif.Props.XmlPanic

/-! C201: how deep the calls of the reader of RDF/XML are nested. -/

namespace Rdftk

open Spec

variable {env : ReadEnv} {sty : IriStyle} {gen : Nat → Str} {emit : Emit}

/-- **C201**, in full: there is a number of calls within each other that is enough for every document whose elements are closed in order. -/
def C201_statement (env : ReadEnv) (sty : IriStyle) (gen : Nat → Str) (emit : Emit) : Prop :=
  ∃ d, ∀ (n : Nat) (l r : List XmlIn) (stack : List XmlFrame) (st : XmlState), wellNested 0 (l ++ r) = true →
    XmlTaken env sty gen emit n l stack st → stack.length ≤ d

theorem openAfter_snoc (k : Nat) (l : List XmlIn) (ev : XmlIn) : openAfter k (l ++ [ev]) = openAfter (openAfter k l) [ev] := by
  induction l generalizing k with
  | nil => rfl
  | cons e l ih => cases e <;> exact ih _

theorem length_le_weights (stack : List XmlFrame) : stack.length ≤ weights stack := by
  induction stack with
  | nil => exact Nat.zero_le _
  | cons f fs ih =>
    have : 1 ≤ f.weight := by cases f <;> simp [XmlFrame.weight]
    rw [weights_cons, List.length_cons]
    omega

theorem XmlTaken.weights_le {n : Nat} {l : List XmlIn} {stack : List XmlFrame} {st : XmlState} (h : XmlTaken env sty gen emit n l stack st) :
    weights stack ≤ openAfter 0 l := by
  induction h with
  | nil => exact Nat.le_refl _
  | @snoc l stack stack' st st' ev h e ih =>
    have := xmlStep_weight e
    rw [openAfter_snoc]
    cases ev <;> simp only [openAfter] at this ⊢ <;> omega

/-- There are never more calls within each other than elements that are open. -/
theorem C201_open (n : Nat) (l : List XmlIn) (stack : List XmlFrame) (st : XmlState) (h : XmlTaken env sty gen emit n l stack st) :
    stack.length ≤ openAfter 0 l := Nat.le_trans (length_le_weights stack) h.weights_le

theorem openAfter_le_most (k : Nat) (l r : List XmlIn) : openAfter k l ≤ mostOpen k (l ++ r) := by
  induction l generalizing k with
  | nil =>
    simp only [List.nil_append, openAfter]
    induction r with
    | nil => exact Nat.le_refl _
    | cons e r ih => cases e <;> simp only [mostOpen] <;> first | exact ih | exact Nat.le_max_left ..
  | cons e l ih =>
    cases e <;> simp only [List.cons_append, openAfter, mostOpen] <;> first | exact ih _ | exact Nat.le_trans (ih _) (Nat.le_max_right ..)

/-- The nesting of the whole document is enough. -/
theorem C201_nesting (n : Nat) (l r : List XmlIn) (stack : List XmlFrame) (st : XmlState) (h : XmlTaken env sty gen emit n l stack st) :
    stack.length ≤ mostOpen 0 (l ++ r) := Nat.le_trans (C201_open n l stack st h) (openAfter_le_most 0 l r)

/-- A call that goes deeper at the next element. -/
def XmlFrame.fresh : XmlFrame → Bool
  | .subject _ => true
  | .predicate _ _ noChild => !noChild
  | .object _ _ _ _ _ _ hasCharacters => !hasCharacters
  | .literal .. => false

theorem fresh_step {f : XmlFrame} {rest : List XmlFrame} {st : XmlState} {x : XName} (hf : f.fresh = true)
    (hx : x = rdfX (str! "Description") ∨ ∃ i, nameToIri env x = .ok i) :
    ∃ f' stack' st', xmlStep env sty gen emit (f :: rest) st (.start x []) = .ok (f' :: stack', st') ∧ f'.fresh = true ∧
      stack'.length = rest.length + 1 := by
  have ha : xmlAttributes env [] = .ok ⟨none, none, none, none, none, none, []⟩ := rfl
  cases f with
  | subject base =>
    by_cases hd : x = ⟨some rdfTable.ns, str! "Description"⟩
    · refine ⟨.predicate base (.blank (gen st.count)) false, .subject base :: rest, { st with count := st.count + 1 }, ?_, rfl, rfl⟩
      simp only [xmlStep, xmlNodeElement, ha, Res.bind, xmlSubjectNode, if_pos hd, xmlPropertyAttributes, xmlBase]
      rfl
    · rcases hx with hx | ⟨i, hi⟩
      · exact absurd (hx.trans (by rw [rdfTable_ns]; rfl)) hd
      · refine ⟨.predicate base (.blank (gen st.count)) false, .subject base :: rest,
          { st with count := st.count + 1 }.insert (.blank (gen st.count)) rdfType (.res i), ?_, rfl, rfl⟩
        simp only [xmlStep, xmlNodeElement, ha, Res.bind, xmlSubjectNode, if_neg hd, hi, xmlPropertyAttributes, xmlBase]
        rfl
  | predicate base s noChild =>
    cases noChild with
    | true => cases hf
    | false => exact ⟨_, _, _, rfl, rfl, rfl⟩
  | object base s name a content he hc =>
    cases hc with
    | true => cases hf
    | false => exact ⟨_, _, _, rfl, rfl, rfl⟩
  | literal => cases hf

/-- Elements within elements need a call each. -/
theorem C201_nested (n : Nat) (xs : List XName) (h : ∀ x ∈ xs, x = rdfX (str! "Description") ∨ ∃ i, nameToIri env x = .ok i) :
    ∃ stack st, XmlTaken env sty gen emit n (.start (rdfX (str! "RDF")) [] :: xs.map (XmlIn.start · [])) stack st ∧ stack.length = xs.length + 1 := by
  suffices key : ∀ (xs : List XName) (l : List XmlIn) (f : XmlFrame) (stack : List XmlFrame) (st : XmlState),
      (∀ x ∈ xs, x = rdfX (str! "Description") ∨ ∃ i, nameToIri env x = .ok i) → XmlTaken env sty gen emit n l (f :: stack) st → f.fresh = true →
      ∃ stack' st', XmlTaken env sty gen emit n (l ++ xs.map (XmlIn.start · [])) stack' st' ∧ stack'.length = stack.length + xs.length + 1 by
    have h0 : XmlTaken env sty gen emit n [.start (rdfX (str! "RDF")) []] [.subject none] ⟨Graph.default, n⟩ := by
      refine XmlTaken.snoc (l := []) .nil ?_
      have ha : xmlAttributes env [] = .ok ⟨none, none, none, none, none, none, []⟩ := rfl
      simp only [xmlStep, ha, Res.bind]
      rw [if_pos (by rw [rdfTable_ns]; rfl)]
    obtain ⟨stack, st, h1, h2⟩ := key xs _ _ _ _ h h0 rfl
    exact ⟨stack, st, h1, by rw [h2, List.length_nil, Nat.zero_add]⟩
  intro xs
  induction xs with
  | nil => exact fun l f stack st _ h1 _ => ⟨f :: stack, st, by simpa using h1, rfl⟩
  | cons x xs ih =>
    intro l f stack st hx h1 h2
    obtain ⟨f', stack', st', h4, h5, h6⟩ := fresh_step (env := env) (sty := sty) (gen := gen) (emit := emit) (rest := stack) (st := st) h2
      (hx x (List.mem_cons_self ..))
    obtain ⟨stack'', st'', h7, h8⟩ := ih _ _ _ _ (fun y hy => hx y (List.mem_cons_of_mem _ hy)) (.snoc h1 h4) h5
    refine ⟨stack'', st'', by simpa using h7, ?_⟩
    rw [h8, h6, List.length_cons]
    omega

theorem wellNested_starts (k : Nat) (xs : List XName) (r : List XmlIn) :
    wellNested k (xs.map (XmlIn.start · []) ++ r) = wellNested (k + xs.length) r := by
  induction xs generalizing k with
  | nil => rfl
  | cons x xs ih =>
    rw [List.map_cons, List.cons_append, wellNested, ih, List.length_cons]
    congr 1; omega

theorem wellNested_stops (k : Nat) (x : XName) : wellNested k (List.replicate k (.stop x)) = true := by
  induction k with
  | zero => rfl
  | succ k ih => exact ih

/-- No number is enough, whatever the reader is given. -/
theorem C201_fails (env : ReadEnv) (sty : IriStyle) (gen : Nat → Str) (emit : Emit) : ¬ C201_statement env sty gen emit := by
  rintro ⟨d, h⟩
  obtain ⟨stack, st, h1, h2⟩ := C201_nested (env := env) (sty := sty) (gen := gen) (emit := emit) 0 (List.replicate d (rdfX (str! "Description")))
    (fun x hx => .inl (List.eq_of_mem_replicate hx))
  have := h 0 _ (List.replicate (d + 1) (.stop (rdfX (str! "RDF")))) stack st (by
    rw [List.cons_append, wellNested, wellNested_starts, List.length_replicate, Nat.zero_add, Nat.add_comm]
    exact wellNested_stops _ _) h1
  rw [h2, List.length_replicate] at this
  omega

/-- Elements within an XML literal need no call: the one that collects it stays on top until it returns. -/
theorem C201_literal (s : Subject) (name : XName) (k : Nat) (content : List XmlIn) (rest : List XmlFrame) (st : XmlState) (x : XName) (as : List XAttr) :
    xmlStep env sty gen emit (.literal s name k content :: rest) st (.start x as) =
      .ok (.literal s name (k + 1) (content ++ [.start x as]) :: rest, st) := rfl

/-- Elements after each other: two are open at a time, and two calls are enough. -/
example : mostOpen 0 [.start (rdfX (str! "RDF")) [], .start (rdfX (str! "Description")) [], .stop (rdfX (str! "Description")),
    .start (rdfX (str! "Description")) [], .stop (rdfX (str! "Description")), .stop (rdfX (str! "RDF"))] = 2 := by decide +kernel

/-- A node element in a property element in a node element: four calls. -/
example (h : ∃ i, nameToIri env ⟨some (str! "http://e/"), str! "p"⟩ = .ok i) :
    ∃ stack st, XmlTaken env sty gen emit 0 [.start (rdfX (str! "RDF")) [], .start (rdfX (str! "Description")) [],
      .start ⟨some (str! "http://e/"), str! "p"⟩ [], .start (rdfX (str! "Description")) []] stack st ∧ stack.length = 4 :=
  C201_nested 0 [rdfX (str! "Description"), ⟨some (str! "http://e/"), str! "p"⟩, rdfX (str! "Description")] (by
    intro x hx
    simp only [List.mem_cons, List.not_mem_nil, or_false] at hx
    rcases hx with rfl | rfl | rfl
    · exact .inl rfl
    · exact .inr h
    · exact .inl rfl)

end Rdftk
