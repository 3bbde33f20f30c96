import Verif.Props.Json
import Verif.Props.NTExact

/-! RDF/JSON: exactly when reading panics (C65). -/

namespace Rdftk

open Spec

/-- A loop over the members of an array or an object, each of which may stop it. -/
def tryAll {α β : Type _} (f : β → α → Res β) (b : β) : List α → Res β
  | [] => .ok b
  | x :: xs => (f b x).bind fun b => tryAll f b xs

/-- When such a loop panics, or ends well, if for each member that does not depend on what was before. -/
theorem tryAll_iff {α β : Type _} (f : β → α → Res β) (Good Bad : α → Prop) (hb : ∀ b x, f b x = .panic ↔ Bad x)
    (hg : ∀ b x, (∃ b', f b x = .ok b') ↔ Good x) (xs : List α) (b : β) :
    (tryAll f b xs = .panic ↔ ∃ u x v, xs = u ++ x :: v ∧ (∀ y ∈ u, Good y) ∧ Bad x) ∧
    ((∃ b', tryAll f b xs = .ok b') ↔ ∀ y ∈ xs, Good y) := by
  induction xs generalizing b with
  | nil => simp [tryAll]
  | cons x xs ih =>
    constructor
    · simp only [tryAll, Res.bind_panic, hb]
      constructor
      · rintro (h | ⟨b', h1, h⟩)
        · exact ⟨[], x, xs, rfl, by simp, h⟩
        · obtain ⟨u, y, v, rfl, h2, h3⟩ := (ih b').1.1 h
          exact ⟨x :: u, y, v, rfl, by simpa using ⟨(hg b x).1 ⟨b', h1⟩, h2⟩, h3⟩
      · rintro ⟨u, y, v, e, h2, h3⟩
        cases u with
        | nil =>
          simp only [List.nil_append, List.cons.injEq] at e
          exact .inl (e.1 ▸ h3)
        | cons z u =>
          simp only [List.cons_append, List.cons.injEq] at e
          obtain ⟨rfl, rfl⟩ := e
          obtain ⟨b', h⟩ := (hg b x).2 (h2 x (by simp))
          exact .inr ⟨b', h, (ih b').1.2 ⟨u, y, v, rfl, fun w hw => h2 w (by simp [hw]), h3⟩⟩
    · simp only [tryAll, List.forall_mem_cons]
      constructor
      · rintro ⟨b', h⟩
        cases e : f b x with
        | ok c =>
          rw [e] at h
          exact ⟨(hg b x).1 ⟨c, e⟩, (ih c).2.1 ⟨b', h⟩⟩
        | err => rw [e] at h; cases h
        | panic => rw [e] at h; cases h
      · rintro ⟨h1, h2⟩
        obtain ⟨c, e⟩ := (hg b x).2 h1
        rw [e]
        exact (ih c).2.2 h2

/-- An object that is a blank node whose text has no two bytes to cut off. -/
def BadBlank (v : Json) : Prop :=
  ∃ m b, v = .obj m ∧ mapGet (str! "type") m = some (.str (str! "bnode")) ∧ mapGet (str! "value") m = some (.str b) ∧
    ¬∃ t, CutTwo b t

/-- An object that is read. -/
def GoodJsonObject (env : ReadEnv) (v : Json) : Prop := ∃ x, jsonReadObject env v = .ok x

/-- The objects of a predicate whose first that cannot be read is such a blank node. -/
def BadJsonPredicate (env : ReadEnv) (e : Str × Json) : Prop :=
  (∃ i, Iri.fromStr env.url e.1 = some i) ∧ ∃ u x v, e.2 = .arr (u ++ x :: v) ∧ (∀ y ∈ u, GoodJsonObject env y) ∧ BadBlank x

/-- A predicate that is read with its objects. -/
def GoodJsonPredicate (env : ReadEnv) (e : Str × Json) : Prop :=
  (∃ i, Iri.fromStr env.url e.1 = some i) ∧ ∃ l, e.2 = .arr l ∧ ∀ y ∈ l, GoodJsonObject env y

/-- The same for the predicates of a subject. -/
def BadJsonSubject (env : ReadEnv) (e : Str × Json) : Prop :=
  (∃ s, jsonReadKey env e.1 = .ok s) ∧
    ∃ u x v, e.2 = .obj (u ++ x :: v) ∧ (∀ y ∈ u, GoodJsonPredicate env y) ∧ BadJsonPredicate env x

/-- A subject that is read with its predicates. -/
def GoodJsonSubject (env : ReadEnv) (e : Str × Json) : Prop :=
  (∃ s, jsonReadKey env e.1 = .ok s) ∧ ∃ l, e.2 = .obj l ∧ ∀ y ∈ l, GoodJsonPredicate env y

theorem jsonReadObject_panic (env : ReadEnv) (v : Json) : jsonReadObject env v = .panic ↔ BadBlank v := by
  constructor
  · intro h
    apply Classical.byContradiction
    intro hn
    refine readObject_no_panic (env := env) (v := v) (fun b hb => ?_) h
    apply Classical.byContradiction
    intro hc
    apply hn
    cases v with
    | obj m =>
      simp only [bnodesOfObject] at hb
      split at hb
      · rename_i s w hs hw
        split at hb
        · rename_i e
          subst e
          simp only [List.mem_singleton] at hb
          subst hb
          exact ⟨m, b, rfl, hs, hw, hc⟩
        · cases hb
      · cases hb
    | _ => cases hb
  · rintro ⟨m, b, rfl, h1, h2, h3⟩
    have : dropTwoBytes b = .panic := by
      cases e : dropTwoBytes b with
      | panic => rfl
      | ok t => exact absurd ⟨t, (dropTwoBytes_iff b t).1 e⟩ h3
    have n1 : (str! "bnode") ≠ str! "literal" := by decide
    simp only [jsonReadObject, h1, jsonBlank, h2, this, if_neg n1, if_true]
    rfl

theorem jsonReadObjects_eq (env : ReadEnv) (s : Subject) (p : Iri) (g : Graph) (l : List Json) :
    jsonReadObjects env s p g l = tryAll (fun g v => (jsonReadObject env v).bind fun x => .ok (g.insert (.mk s p x))) g l := by
  induction l generalizing g with
  | nil => rfl
  | cons v l ih =>
    simp only [jsonReadObjects, tryAll]
    cases jsonReadObject env v <;> simp [Res.bind, ih]

theorem jsonReadObjects_iff (env : ReadEnv) (s : Subject) (p : Iri) (g : Graph) (l : List Json) :
    (jsonReadObjects env s p g l = .panic ↔ ∃ u x v, l = u ++ x :: v ∧ (∀ y ∈ u, GoodJsonObject env y) ∧ BadBlank x) ∧
    ((∃ g', jsonReadObjects env s p g l = .ok g') ↔ ∀ y ∈ l, GoodJsonObject env y) := by
  rw [jsonReadObjects_eq]
  refine tryAll_iff _ _ _ (fun g v => ?_) (fun g v => ?_) l g
  · rw [Res.bind_panic, jsonReadObject_panic]
    simp
  · unfold GoodJsonObject
    cases jsonReadObject env v <;> simp [Res.bind]

theorem jsonReadPredicate_iff (env : ReadEnv) (s : Subject) (g : Graph) (e : Str × Json) :
    (jsonReadPredicate env s e.1 g e.2 = .panic ↔ BadJsonPredicate env e) ∧
    ((∃ g', jsonReadPredicate env s e.1 g e.2 = .ok g') ↔ GoodJsonPredicate env e) := by
  obtain ⟨p, v⟩ := e
  unfold BadJsonPredicate GoodJsonPredicate
  cases v with
  | arr l =>
    simp only [jsonReadPredicate, Json.arr.injEq]
    cases Iri.fromStr env.url p with
    | none => simp [Res.bind, Res.ofOption]
    | some i =>
      have := jsonReadObjects_iff env s i g l
      simp only [Res.bind, Res.ofOption, Option.some.injEq, exists_eq', true_and, exists_eq_left']
      exact this
  | _ => simp [jsonReadPredicate]

theorem jsonReadPredicates_iff (env : ReadEnv) (s : Subject) (g : Graph) (l : List (Str × Json)) :
    (jsonReadPredicates env s g l = .panic ↔
      ∃ u x v, l = u ++ x :: v ∧ (∀ y ∈ u, GoodJsonPredicate env y) ∧ BadJsonPredicate env x) ∧
    ((∃ g', jsonReadPredicates env s g l = .ok g') ↔ ∀ y ∈ l, GoodJsonPredicate env y) := by
  have e : jsonReadPredicates env s g l = tryAll (fun g e => jsonReadPredicate env s e.1 g e.2) g l := by
    induction l generalizing g with
    | nil => rfl
    | cons v l ih => simp only [jsonReadPredicates, tryAll, ih]
  rw [e]
  exact tryAll_iff _ _ _ (fun g e => (jsonReadPredicate_iff env s g e).1) (fun g e => (jsonReadPredicate_iff env s g e).2) l g

theorem jsonReadKey_ne_panic (env : ReadEnv) (k : Str) : jsonReadKey env k ≠ .panic := by
  unfold jsonReadKey
  split <;> exact bind_no_panic (ofOption_no_panic _) fun _ _ => by simp

theorem jsonReadSubject_iff (env : ReadEnv) (g : Graph) (e : Str × Json) :
    (jsonReadSubject env e.1 g e.2 = .panic ↔ BadJsonSubject env e) ∧
    ((∃ g', jsonReadSubject env e.1 g e.2 = .ok g') ↔ GoodJsonSubject env e) := by
  obtain ⟨p, v⟩ := e
  unfold BadJsonSubject GoodJsonSubject
  cases v with
  | obj l =>
    simp only [jsonReadSubject, Json.obj.injEq]
    cases h : jsonReadKey env p with
    | err => simp [Res.bind]
    | panic => exact absurd h (jsonReadKey_ne_panic env p)
    | ok i =>
      have := jsonReadPredicates_iff env i g l
      simp only [Res.bind, Res.ok.injEq, exists_eq', true_and, exists_eq_left']
      exact this
  | _ => simp [jsonReadSubject]

theorem jsonReadSubjects_iff (env : ReadEnv) (g : Graph) (l : List (Str × Json)) :
    (jsonReadSubjects env g l = .panic ↔ ∃ u x v, l = u ++ x :: v ∧ (∀ y ∈ u, GoodJsonSubject env y) ∧ BadJsonSubject env x) ∧
    ((∃ g', jsonReadSubjects env g l = .ok g') ↔ ∀ y ∈ l, GoodJsonSubject env y) := by
  have e : jsonReadSubjects env g l = tryAll (fun g e => jsonReadSubject env e.1 g e.2) g l := by
    induction l generalizing g with
    | nil => rfl
    | cons v l ih => simp only [jsonReadSubjects, tryAll, ih]
  rw [e]
  exact tryAll_iff _ _ _ (fun g e => (jsonReadSubject_iff env g e).1) (fun g e => (jsonReadSubject_iff env g e).2) l g

/-- C65: reading RDF/JSON panics exactly when the first thing in the document that cannot be read is a blank node object whose
text has no two bytes to cut off. -/
theorem C65_iff (env : ReadEnv) (s : Str) : readJson env s = .panic ↔
    ∃ u x v, jParse s = some (.obj (u ++ x :: v)) ∧ (∀ y ∈ u, GoodJsonSubject env y) ∧ BadJsonSubject env x := by
  unfold readJson
  cases e : jParse s with
  | none => simp
  | some j =>
    cases j with
    | obj m =>
      simp only [jsonReadGraph, Option.some.injEq, Json.obj.injEq]
      exact (jsonReadSubjects_iff env _ m).1
    | _ => simp [jsonReadGraph]

/-- C65: a graph is read exactly from an object all of whose subjects can be read. -/
theorem C65_read_iff (env : ReadEnv) (s : Str) : (∃ g, readJson env s = .ok g) ↔
    ∃ m, jParse s = some (.obj m) ∧ ∀ y ∈ m, GoodJsonSubject env y := by
  unfold readJson
  cases e : jParse s with
  | none => simp
  | some j =>
    cases j with
    | obj m =>
      simp only [jsonReadGraph, Option.some.injEq, Json.obj.injEq, exists_eq_left']
      exact (jsonReadSubjects_iff env _ m).2
    | _ => simp [jsonReadGraph]

end Rdftk
