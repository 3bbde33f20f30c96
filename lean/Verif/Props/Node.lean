import Verif.Lemmas.Node
import Verif.Lemmas.Names

/-! C15, C16, C37: nodes and statements. -/

namespace Rdftk

/-! ### C15 -/

/-- C15: literals. -/
theorem C15_literal : TotalOrder Literal.cmp := Literal.cmp_order
/-- C15: data types. -/
theorem C15_dataType : TotalOrder DataType.cmp := DataType.cmp_order
/-- C15: subjects, with statements nested to any depth. -/
theorem C15_subject : TotalOrder Subject.cmp := Subject.cmp_order
/-- C15: objects, with collections and statements nested to any depth. -/
theorem C15_object : TotalOrder Object.cmp := Object.cmp_order
/-- C15: collections. -/
theorem C15_collection : TotalOrder Object.cmpColl := Object.cmpColl_order
/-- C15: statements. -/
theorem C15_statement : TotalOrder Stmt.cmp := Stmt.cmp_order

/-- The documented order of the kinds of object. -/
def Object.kind : Object → Nat
  | .blank _ => 0
  | .res _ => 1
  | .lit _ => 2
  | .coll _ => 3
  | .stmt _ => 4

/-- The documented order of the kinds of subject. -/
def Subject.kind : Subject → Nat
  | .blank _ => 0
  | .res _ => 1
  | .stmt _ => 4

/-- C15: the order is that of the kinds first; a subject sorts as the object it converts to;
statements are ordered by subject, then predicate, then object; collections as lists. -/
theorem C15_order_is (o o' : Object) (s s' : Subject) (t t' : Stmt) (c c' : List Object) :
    (o.kind < o'.kind → Object.cmp o o' = .lt) ∧
    (s.kind < s'.kind → Subject.cmp s s' = .lt) ∧
    Subject.cmp s s' = Object.cmp s.toObject s'.toObject ∧
    Stmt.cmp t t' = ((Subject.cmp t.subject t'.subject).then
      ((cmpStr t.predicate.text t'.predicate.text).then (Object.cmp t.object t'.object))) ∧
    Object.cmpColl c c' = cmpList Object.cmp c c' := by
  refine ⟨?_, ?_, ?_, ?_, ?_⟩
  · intro h
    cases o <;> cases o' <;> first | rfl | (simp [Object.kind] at h; done) | simp [Object.cmp]
  · intro h
    cases s <;> cases s' <;> first | rfl | (simp [Subject.kind] at h; done) | simp [Subject.cmp]
  · cases s <;> cases s' <;> simp [Subject.cmp, Object.cmp, Subject.toObject]
  · cases t; cases t'; simp [Stmt.cmp, Stmt.subject, Stmt.predicate, Stmt.object]
  · induction c generalizing c' with
    | nil => cases c' <;> simp [Object.cmpColl, cmpList]
    | cons x c ih => cases c' <;> simp [Object.cmpColl, cmpList, ih]

example : Subject.cmp (.blank (str! "b")) (.res ⟨str! "a"⟩) = .lt ∧
    Object.cmp (.coll [.blank (str! "a"), .blank (str! "b")]) (.coll [.blank (str! "b")]) = .lt ∧
    Object.cmp (.stmt (.mk (.blank (str! "x")) ⟨str! "p"⟩ (.blank (str! "y"))))
      (.stmt (.mk (.blank (str! "x")) ⟨str! "p"⟩ (.blank (str! "x")))) = .gt := by
  decide +kernel

/-! ### C16 -/

/-- C16: a subject made an object and back is the same subject. -/
theorem C16_subject_round_trip (s : Subject) : s.toObject.toSubject = some s := by
  cases s <;> rfl

/-- C16: an object turns into a subject exactly when it is neither a literal nor a
collection, and that subject turns back into the object. -/
theorem C16_object_round_trip (o : Object) :
    (o.toSubject = none ↔ (∃ l, o = .lit l) ∨ (∃ c, o = .coll c)) ∧
    (∀ s, o.toSubject = some s → s.toObject = o) := by
  cases o <;> simp [Object.toSubject, Subject.toObject]

/-- C16: exactly one kind of subject holds, and the accessors give the value. -/
theorem C16_subject_kinds (s : Subject) :
    (s.isBlank = true ↔ ∃ b, s = .blank b) ∧ (s.isResource = true ↔ ∃ i, s = .res i) ∧
    (s.isStatement = true ↔ ∃ t, s = .stmt t) ∧
    (∀ b, s.asBlank = some b ↔ s = .blank b) ∧ (∀ i, s.asResource = some i ↔ s = .res i) ∧
    (∀ t, s.asStatement = some t ↔ s = .stmt t) ∧
    [s.isBlank, s.isResource, s.isStatement].count true = 1 := by
  cases s <;> simp [Subject.isBlank, Subject.isResource, Subject.isStatement, Subject.asBlank,
    Subject.asResource, Subject.asStatement]

/-- C16: exactly one kind of object holds, and the accessors give the value. -/
theorem C16_object_kinds (o : Object) :
    (o.isBlank = true ↔ ∃ b, o = .blank b) ∧ (o.isResource = true ↔ ∃ i, o = .res i) ∧
    (o.isLiteral = true ↔ ∃ l, o = .lit l) ∧ (o.isCollection = true ↔ ∃ c, o = .coll c) ∧
    (o.isStatement = true ↔ ∃ t, o = .stmt t) ∧
    (∀ b, o.asBlank = some b ↔ o = .blank b) ∧ (∀ i, o.asResource = some i ↔ o = .res i) ∧
    (∀ l, o.asLiteral = some l ↔ o = .lit l) ∧ (∀ c, o.asCollection = some c ↔ o = .coll c) ∧
    (∀ t, o.asStatement = some t ↔ o = .stmt t) ∧
    [o.isBlank, o.isResource, o.isLiteral, o.isCollection, o.isStatement].count true = 1 := by
  cases o <;> simp [Object.isBlank, Object.isResource, Object.isLiteral, Object.isCollection,
    Object.isStatement, Object.asBlank, Object.asResource, Object.asLiteral, Object.asCollection,
    Object.asStatement]

/-- C16: setting a component sets that component and no other; a statement is nested when
its subject or its object is a statement. -/
theorem C16_components (t : Stmt) (s : Subject) (p : Iri) (o : Object) :
    t = .mk t.subject t.predicate t.object ∧
    t.setSubject s = .mk s t.predicate t.object ∧
    t.setPredicate p = .mk t.subject p t.object ∧
    t.setObject o = .mk t.subject t.predicate o ∧
    (t.isNested = true ↔ (∃ u, t.subject = .stmt u) ∨ ∃ u, t.object = .stmt u) := by
  cases t with
  | mk s' p' o' =>
    refine ⟨rfl, rfl, rfl, rfl, ?_⟩
    cases s' <;> cases o' <;>
      simp [Stmt.isNested, Stmt.subject, Stmt.object, Subject.isStatement, Object.isStatement]

/-! ### C37 -/

/-- C37, the full statement; `v` is the test for a label without prefix. -/
def C37_statement : Prop := ∀ v : Str → Bool, (∀ l, v l = true → ':' ∉ l) →
  (∀ l b, v l = true → blankParse v (str! "_:" ++ l) = some b → blankParse v l = some b) ∧
  (∀ s b, blankParse v s = some b → ∃ l, v l = true ∧
    ∀ sty, Subject.display sty (.blank b) = str! "_:" ++ l) ∧
  (∀ m n, blankGen m = blankGen n → m = n) ∧
  (∀ s n, blankParse v s ≠ some (blankGen n))

/-- A label test: non-empty, letters and digits. -/
def alnumLabel (l : Str) : Bool := !l.isEmpty && l.all (fun c => c.isAlphanum)

/-- C37 fails in both ways, for every test that accepts a label `a` or a label `B0`:
the two spellings give different nodes, and a user may name a generated node. -/
theorem C37_fails : ¬ C37_statement := by
  intro h
  have := (h alnumLabel (by
    intro l hl hc
    simp only [alnumLabel, Bool.and_eq_true, List.all_eq_true] at hl
    have := hl.2 _ hc
    revert this; decide)).2.2.2 (str! "B0") 0
  revert this; decide +kernel

/-- C37: the same text with and without the prefix is accepted alike but is never the same
node, and the one with the prefix prints with two prefixes. -/
theorem C37_prefix_kept (v : Str → Bool) (hv : ∀ l, v l = true → ':' ∉ l) (l : Str)
    (h : v l = true) :
    blankParse v l = some l ∧ blankParse v (str! "_:" ++ l) = some (str! "_:" ++ l) ∧
    blankParse v l ≠ blankParse v (str! "_:" ++ l) ∧
    (∀ sty, Subject.display sty (.blank l) = str! "_:" ++ l ∧
      Subject.display sty (.blank (str! "_:" ++ l)) = str! "_:_:" ++ l) := by
  have h1 : stripPrefix (str! "_:") l = none := by
    have := hv l h
    match l, this with
    | [], _ => rfl
    | [c], _ => simp [stripPrefix]
    | a :: b :: r, hn =>
      simp only [List.mem_cons, not_or] at hn
      simp [stripPrefix, hn.2.1]
  refine ⟨by simp [blankParse, blankValid, h1, h], by simp [blankParse, blankValid, stripPrefix, h],
    ?_, ?_⟩
  · simp only [blankParse, blankValid, h1, h, stripPrefix, List.cons_append, List.nil_append, if_true,
      ne_eq, Option.some.injEq]
    intro e
    have := congrArg List.length e
    simp only [List.length_cons] at this; omega
  · intro sty; simp [Subject.display]

/-- C37, exactly: only if no label is accepted at all. -/
theorem C37_iff (v : Str → Bool) (hv : ∀ l, v l = true → ':' ∉ l) :
    ((∀ l b, v l = true → blankParse v (str! "_:" ++ l) = some b → blankParse v l = some b) ∧
      (∀ s b, blankParse v s = some b → ∃ l, v l = true ∧
        ∀ sty, Subject.display sty (.blank b) = str! "_:" ++ l) ∧
      (∀ m n, blankGen m = blankGen n → m = n) ∧
      (∀ s n, blankParse v s ≠ some (blankGen n))) ↔ ∀ l, v l = false := by
  constructor
  · rintro ⟨h, -⟩ l
    rw [Bool.eq_false_iff]
    intro hl
    obtain ⟨-, h2, h3, -⟩ := C37_prefix_kept v hv l hl
    exact h3 ((h l _ hl h2).trans h2.symm)
  · intro h
    have none : ∀ s, blankParse v s = none := by
      intro s
      unfold blankParse blankValid
      split <;> simp [h]
    refine ⟨fun l b hl => absurd hl (by simp [h l]), fun s b hb => absurd hb (by simp [none]), fun m n e => ?_,
      fun s n => by simp [none]⟩
    simp only [blankGen, List.cons.injEq, true_and] at e
    exact toDigits_inj e

/-- C37, what holds: texts that are accepted are kept; a label without prefix prints as `_:`
and the label, as subject and as object; generated nodes differ from each other; and a user's
label clashes with a generated node only when it is `B` and a decimal number. -/
theorem C37_labels_partial (v : Str → Bool) :
    (∀ s b, blankParse v s = some b ↔ s = b ∧
      ((∃ l, s = str! "_:" ++ l ∧ v l = true) ∨
       ((∀ l, s ≠ str! "_:" ++ l) ∧ v s = true))) ∧
    (∀ sty alt b, Subject.display sty (.blank b) = str! "_:" ++ b ∧
      Object.display sty alt (.blank b) = str! "_:" ++ b) ∧
    (∀ m n, blankGen m = blankGen n → m = n) ∧
    (∀ s n, blankParse v s = some (blankGen n) ↔ s = 'B' :: Nat.toDigits 10 n ∧ v s = true) := by
  have hsp : ∀ s r, stripPrefix (str! "_:") s = some r ↔ s = str! "_:" ++ r := by
    intro s r
    match s with
    | [] => simp [stripPrefix]
    | [c] => simp only [stripPrefix]; split <;> simp
    | a :: b :: t =>
      simp only [stripPrefix]
      split
      · split
        · rename_i h1 h2; subst h1; subst h2; simp
        · rename_i h1 h2; simp [Ne.symm h2]
      · rename_i h1; simp [Ne.symm h1]
  have hp : ∀ s b, blankParse v s = some b ↔ s = b ∧
      ((∃ l, s = str! "_:" ++ l ∧ v l = true) ∨
       ((∀ l, s ≠ str! "_:" ++ l) ∧ v s = true)) := by
    intro s b
    have hv : blankValid v s = true ↔ ((∃ l, s = str! "_:" ++ l ∧ v l = true) ∨
       ((∀ l, s ≠ str! "_:" ++ l) ∧ v s = true)) := by
      unfold blankValid
      cases hs : stripPrefix (str! "_:") s with
      | some r =>
        have e := (hsp s r).1 hs
        subst e
        simp
      | none =>
        have hn : ∀ l, s ≠ str! "_:" ++ l := fun l e => by
          rw [(hsp s l).2 e] at hs; cases hs
        simp only [hn, false_and, exists_false, false_or, ne_eq, not_false_iff, implies_true,
          true_and]
    unfold blankParse
    split
    · rename_i h; rw [← hv]; simp [h]
    · rename_i h; rw [← hv]; simp [h]
  refine ⟨hp, ?_, ?_, ?_⟩
  · intro sty alt b; simp [Subject.display, Object.display]
  · intro m n h; exact toDigits_inj (List.cons.inj h).2
  · intro s n
    rw [hp]
    constructor
    · rintro ⟨rfl, ⟨l, h, -⟩ | ⟨-, h⟩⟩
      · simp [blankGen] at h
      · exact ⟨rfl, h⟩
    · rintro ⟨rfl, h⟩
      exact ⟨rfl, .inr ⟨by simp, h⟩⟩

example : blankParse alnumLabel (str! "_:a") = some (str! "_:a") ∧
    blankParse alnumLabel (str! "a") = some (str! "a") ∧ blankGen 12 = str! "B12" ∧
    blankParse alnumLabel (str! "_:") = none := by decide +kernel

end Rdftk
