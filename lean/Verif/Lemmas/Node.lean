import Verif.Model.Node
import Verif.Lemmas.Literal

/-! The comparison functions of nodes are total orders; equality of nodes is decidable. -/

namespace Rdftk

theorem Iri.eq_of_text {a b : Iri} (h : a.text = b.text) : a = b := by
  cases a; cases b; simp at h; rw [h]

theorem Iri.text_eq_iff {a b : Iri} : a.text = b.text ↔ a = b :=
  ⟨Iri.eq_of_text, fun h => by rw [h]⟩

mutual
theorem Subject.cmp_eq_iff (a b : Subject) : Subject.cmp a b = .eq ↔ a = b := by
  match a, b with
  | .blank a, .blank b => simp [Subject.cmp, cmpStr_order.eq_iff]
  | .blank _, .res _ => simp [Subject.cmp]
  | .blank _, .stmt _ => simp [Subject.cmp]
  | .res _, .blank _ => simp [Subject.cmp]
  | .res a, .res b => simp [Subject.cmp, cmpStr_order.eq_iff, Iri.text_eq_iff]
  | .res _, .stmt _ => simp [Subject.cmp]
  | .stmt _, .blank _ => simp [Subject.cmp]
  | .stmt _, .res _ => simp [Subject.cmp]
  | .stmt a, .stmt b => simp [Subject.cmp, Stmt.cmp_eq_iff a b]
theorem Stmt.cmp_eq_iff (a b : Stmt) : Stmt.cmp a b = .eq ↔ a = b := by
  match a, b with
  | .mk s p o, .mk s' p' o' =>
    simp [Stmt.cmp, Subject.cmp_eq_iff s s', Object.cmp_eq_iff o o',
      cmpStr_order.eq_iff, Iri.text_eq_iff]
theorem Object.cmp_eq_iff (a b : Object) : Object.cmp a b = .eq ↔ a = b := by
  match a, b with
  | .blank a, .blank b => simp [Object.cmp, cmpStr_order.eq_iff]
  | .res a, .res b => simp [Object.cmp, cmpStr_order.eq_iff, Iri.text_eq_iff]
  | .lit a, .lit b => simp [Object.cmp, Literal.cmp_order.eq_iff]
  | .coll a, .coll b => simp [Object.cmp, Object.cmpColl_eq_iff a b]
  | .stmt a, .stmt b => simp [Object.cmp, Stmt.cmp_eq_iff a b]
  | .blank _, .res _ | .blank _, .lit _ | .blank _, .coll _ | .blank _, .stmt _
  | .res _, .blank _ | .res _, .lit _ | .res _, .coll _ | .res _, .stmt _
  | .lit _, .blank _ | .lit _, .res _ | .lit _, .coll _ | .lit _, .stmt _
  | .coll _, .blank _ | .coll _, .res _ | .coll _, .lit _ | .coll _, .stmt _
  | .stmt _, .blank _ | .stmt _, .res _ | .stmt _, .lit _ | .stmt _, .coll _ =>
    simp [Object.cmp]
theorem Object.cmpColl_eq_iff (a b : List Object) : Object.cmpColl a b = .eq ↔ a = b := by
  match a, b with
  | [], [] => simp [Object.cmpColl]
  | [], _ :: _ => simp [Object.cmpColl]
  | _ :: _, [] => simp [Object.cmpColl]
  | x :: a, y :: b =>
    simp [Object.cmpColl, Object.cmp_eq_iff x y, Object.cmpColl_eq_iff a b]
end

instance : DecidableEq Subject := fun a b =>
  decidable_of_iff _ (Subject.cmp_eq_iff a b)
instance : DecidableEq Stmt := fun a b =>
  decidable_of_iff _ (Stmt.cmp_eq_iff a b)
instance : DecidableEq Object := fun a b =>
  decidable_of_iff _ (Object.cmp_eq_iff a b)

mutual
theorem Subject.cmp_swap (a b : Subject) : Subject.cmp b a = (Subject.cmp a b).swap := by
  match a, b with
  | .blank a, .blank b => simp only [Subject.cmp]; exact cmpStr_order.swap _ _
  | .blank _, .res _ => simp [Subject.cmp]
  | .blank _, .stmt _ => simp [Subject.cmp]
  | .res _, .blank _ => simp [Subject.cmp]
  | .res a, .res b => simp only [Subject.cmp]; exact cmpStr_order.swap _ _
  | .res _, .stmt _ => simp [Subject.cmp]
  | .stmt _, .blank _ => simp [Subject.cmp]
  | .stmt _, .res _ => simp [Subject.cmp]
  | .stmt a, .stmt b => simp only [Subject.cmp]; exact Stmt.cmp_swap a b
theorem Stmt.cmp_swap (a b : Stmt) : Stmt.cmp b a = (Stmt.cmp a b).swap := by
  match a, b with
  | .mk s p o, .mk s' p' o' =>
    simp only [Stmt.cmp, then_swap, Subject.cmp_swap s s', Object.cmp_swap o o',
      cmpStr_order.swap p.text p'.text]
theorem Object.cmp_swap (a b : Object) : Object.cmp b a = (Object.cmp a b).swap := by
  match a, b with
  | .blank a, .blank b => simp only [Object.cmp]; exact cmpStr_order.swap _ _
  | .res a, .res b => simp only [Object.cmp]; exact cmpStr_order.swap _ _
  | .lit a, .lit b => simp only [Object.cmp]; exact Literal.cmp_order.swap _ _
  | .coll a, .coll b => simp only [Object.cmp]; exact Object.cmpColl_swap a b
  | .stmt a, .stmt b => simp only [Object.cmp]; exact Stmt.cmp_swap a b
  | .blank _, .res _ | .blank _, .lit _ | .blank _, .coll _ | .blank _, .stmt _
  | .res _, .blank _ | .res _, .lit _ | .res _, .coll _ | .res _, .stmt _
  | .lit _, .blank _ | .lit _, .res _ | .lit _, .coll _ | .lit _, .stmt _
  | .coll _, .blank _ | .coll _, .res _ | .coll _, .lit _ | .coll _, .stmt _
  | .stmt _, .blank _ | .stmt _, .res _ | .stmt _, .lit _ | .stmt _, .coll _ =>
    simp [Object.cmp]
theorem Object.cmpColl_swap (a b : List Object) :
    Object.cmpColl b a = (Object.cmpColl a b).swap := by
  match a, b with
  | [], [] => simp [Object.cmpColl]
  | [], _ :: _ => simp [Object.cmpColl]
  | _ :: _, [] => simp [Object.cmpColl]
  | x :: a, y :: b =>
    simp only [Object.cmpColl, then_swap, Object.cmp_swap x y, Object.cmpColl_swap a b]
end

/-- One step of transitivity for `then`. -/
theorem then_trans {α β : Type _} {c1 : α → α → Ordering} {c2 : β → β → Ordering}
    {a b c : α} {a' b' c' : β} (he : ∀ x y, c1 x y = .eq ↔ x = y)
    (h1 : c1 a b = .lt → c1 b c = .lt → c1 a c = .lt)
    (h2 : c2 a' b' = .lt → c2 b' c' = .lt → c2 a' c' = .lt)
    (p : (c1 a b).then (c2 a' b') = .lt) (q : (c1 b c).then (c2 b' c') = .lt) :
    (c1 a c).then (c2 a' c') = .lt := by
  rw [then_eq_lt] at p q ⊢
  rcases p with p | ⟨p, p'⟩ <;> rcases q with q | ⟨q, q'⟩
  · exact .inl (h1 p q)
  · rw [he] at q; rw [← q]; exact .inl p
  · rw [he] at p; rw [p]; exact .inl q
  · rw [he] at p q; rw [p, ← q]
    exact .inr ⟨(he _ _).2 rfl, h2 p' q'⟩

mutual
theorem Subject.cmp_trans (a b c : Subject) :
    Subject.cmp a b = .lt → Subject.cmp b c = .lt → Subject.cmp a c = .lt := by
  match a, b, c with
  | .blank a, .blank b, .blank c => simp only [Subject.cmp]; exact cmpStr_order.trans _ _ _
  | .res a, .res b, .res c => simp only [Subject.cmp]; exact cmpStr_order.trans _ _ _
  | .stmt a, .stmt b, .stmt c => simp only [Subject.cmp]; exact Stmt.cmp_trans a b c
  | .blank _, .blank _, .res _ | .blank _, .blank _, .stmt _
  | .blank _, .res _, .blank _ | .blank _, .res _, .res _ | .blank _, .res _, .stmt _
  | .blank _, .stmt _, .blank _ | .blank _, .stmt _, .res _ | .blank _, .stmt _, .stmt _
  | .res _, .blank _, .blank _ | .res _, .blank _, .res _ | .res _, .blank _, .stmt _
  | .res _, .res _, .blank _ | .res _, .res _, .stmt _
  | .res _, .stmt _, .blank _ | .res _, .stmt _, .res _ | .res _, .stmt _, .stmt _
  | .stmt _, .blank _, .blank _ | .stmt _, .blank _, .res _ | .stmt _, .blank _, .stmt _
  | .stmt _, .res _, .blank _ | .stmt _, .res _, .res _ | .stmt _, .res _, .stmt _
  | .stmt _, .stmt _, .blank _ | .stmt _, .stmt _, .res _ => simp [Subject.cmp]
theorem Stmt.cmp_trans (a b c : Stmt) :
    Stmt.cmp a b = .lt → Stmt.cmp b c = .lt → Stmt.cmp a c = .lt := by
  match a, b, c with
  | .mk s p o, .mk s' p' o', .mk s'' p'' o'' =>
    simp only [Stmt.cmp]
    exact then_trans (c2 := fun (x y : Iri × Object) =>
        (cmpStr x.1.text y.1.text).then (Object.cmp x.2 y.2))
      (a' := (p, o)) (b' := (p', o')) (c' := (p'', o''))
      Subject.cmp_eq_iff (Subject.cmp_trans s s' s'')
      (then_trans (c1 := fun x y : Iri => cmpStr x.text y.text) Iri.cmp_order.eq_iff
        (Iri.cmp_order.trans p p' p'') (Object.cmp_trans o o' o''))
theorem Object.cmp_trans (a b c : Object) :
    Object.cmp a b = .lt → Object.cmp b c = .lt → Object.cmp a c = .lt := by
  match a, b with
  | .blank a, .blank b =>
    match c with
    | .blank c => simp only [Object.cmp]; exact cmpStr_order.trans _ _ _
    | .res _ | .lit _ | .coll _ | .stmt _ => simp [Object.cmp]
  | .res a, .res b =>
    match c with
    | .res c => simp only [Object.cmp]; exact cmpStr_order.trans _ _ _
    | .blank _ | .lit _ | .coll _ | .stmt _ => simp [Object.cmp]
  | .lit a, .lit b =>
    match c with
    | .lit c => simp only [Object.cmp]; exact Literal.cmp_order.trans _ _ _
    | .blank _ | .res _ | .coll _ | .stmt _ => simp [Object.cmp]
  | .coll a, .coll b =>
    match c with
    | .coll c => simp only [Object.cmp]; exact Object.cmpColl_trans a b c
    | .blank _ | .res _ | .lit _ | .stmt _ => simp [Object.cmp]
  | .stmt a, .stmt b =>
    match c with
    | .stmt c => simp only [Object.cmp]; exact Stmt.cmp_trans a b c
    | .blank _ | .res _ | .lit _ | .coll _ => simp [Object.cmp]
  | .blank _, .res _ | .blank _, .lit _ | .blank _, .coll _ | .blank _, .stmt _
  | .res _, .lit _ | .res _, .coll _ | .res _, .stmt _
  | .lit _, .coll _ | .lit _, .stmt _
  | .coll _, .stmt _ => cases c <;> simp [Object.cmp]
  | .res _, .blank _
  | .lit _, .blank _ | .lit _, .res _
  | .coll _, .blank _ | .coll _, .res _ | .coll _, .lit _
  | .stmt _, .blank _ | .stmt _, .res _ | .stmt _, .lit _ | .stmt _, .coll _ =>
    simp [Object.cmp]
theorem Object.cmpColl_trans (a b c : List Object) :
    Object.cmpColl a b = .lt → Object.cmpColl b c = .lt → Object.cmpColl a c = .lt := by
  match a, b, c with
  | x :: a, y :: b, z :: c =>
    simp only [Object.cmpColl]
    exact then_trans Object.cmp_eq_iff (Object.cmp_trans x y z) (Object.cmpColl_trans a b c)
  | [], [], _ => simp [Object.cmpColl]
  | [], _ :: _, [] => simp [Object.cmpColl]
  | [], _ :: _, _ :: _ => simp [Object.cmpColl]
  | _ :: _, [], _ => simp [Object.cmpColl]
  | _ :: _, _ :: _, [] => simp [Object.cmpColl]
end

theorem Subject.cmp_order : TotalOrder Subject.cmp :=
  ⟨Subject.cmp_eq_iff, Subject.cmp_swap, Subject.cmp_trans⟩
theorem Stmt.cmp_order : TotalOrder Stmt.cmp :=
  ⟨Stmt.cmp_eq_iff, Stmt.cmp_swap, Stmt.cmp_trans⟩
theorem Object.cmp_order : TotalOrder Object.cmp :=
  ⟨Object.cmp_eq_iff, Object.cmp_swap, Object.cmp_trans⟩
theorem Object.cmpColl_order : TotalOrder Object.cmpColl :=
  ⟨Object.cmpColl_eq_iff, Object.cmpColl_swap, Object.cmpColl_trans⟩

end Rdftk
