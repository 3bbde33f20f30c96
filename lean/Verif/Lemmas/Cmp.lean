import Verif.Model.Str

/-! Comparison functions that are total orders consistent with equality. -/

namespace Rdftk

/-- What Rust's `Ord` together with `Eq` promises: a total order, consistent with
equality. -/
structure TotalOrder {α : Type _} (cmp : α → α → Ordering) : Prop where
  eq_iff : ∀ a b, cmp a b = .eq ↔ a = b
  swap : ∀ a b, cmp b a = (cmp a b).swap
  trans : ∀ a b c, cmp a b = .lt → cmp b c = .lt → cmp a c = .lt

theorem cmpNat_order : TotalOrder (compare : Nat → Nat → Ordering) where
  eq_iff a b := by simp
  swap a b := by rw [Nat.compare_swap]
  trans a b c := by
    simp only [Nat.compare_eq_lt]; omega

theorem TotalOrder.refl {α : Type _} {cmp : α → α → Ordering} (h : TotalOrder cmp) (a : α) :
    cmp a a = .eq := (h.eq_iff a a).2 rfl

theorem TotalOrder.total {α : Type _} {cmp : α → α → Ordering} (h : TotalOrder cmp) (a b : α) :
    cmp a b = .lt ∨ a = b ∨ cmp b a = .lt := by
  cases hc : cmp a b with
  | lt => exact .inl rfl
  | eq => exact .inr (.inl ((h.eq_iff a b).1 hc))
  | gt => right; right; rw [h.swap, hc]; rfl

theorem TotalOrder.comap {α β : Type _} {cmp : β → β → Ordering} (h : TotalOrder cmp)
    (f : α → β) (hf : ∀ a b, f a = f b → a = b) : TotalOrder (fun a b => cmp (f a) (f b)) where
  eq_iff a b := by
    rw [h.eq_iff]; exact ⟨hf a b, fun e => by rw [e]⟩
  swap a b := h.swap _ _
  trans a b c := h.trans _ _ _

theorem cmpChar_order : TotalOrder cmpChar :=
  cmpNat_order.comap Char.toNat (fun a b h => by
    have := congrArg Char.ofNat h
    simpa [Char.ofNat_toNat] using this)

theorem then_eq_lt {a b : Ordering} : a.then b = .lt ↔ a = .lt ∨ (a = .eq ∧ b = .lt) := by
  cases a <;> cases b <;> simp [Ordering.then]

theorem then_eq_eq {a b : Ordering} : a.then b = .eq ↔ a = .eq ∧ b = .eq := by
  cases a <;> cases b <;> simp [Ordering.then]

theorem then_swap {a b : Ordering} : (a.then b).swap = a.swap.then b.swap := by
  cases a <;> cases b <;> rfl

theorem cmpList_order {α : Type _} {cmp : α → α → Ordering} (h : TotalOrder cmp) :
    TotalOrder (cmpList cmp) where
  eq_iff a b := by
    induction a generalizing b with
    | nil => cases b <;> simp [cmpList]
    | cons x a ih =>
      cases b with
      | nil => simp [cmpList]
      | cons y b => simp only [cmpList, then_eq_eq, h.eq_iff, ih, List.cons.injEq]
  swap a b := by
    induction a generalizing b with
    | nil => cases b <;> rfl
    | cons x a ih =>
      cases b with
      | nil => rfl
      | cons y b => simp only [cmpList, then_swap, h.swap x y, ih b]
  trans a b c := by
    induction a generalizing b c with
    | nil =>
      cases b with
      | nil => simp [cmpList]
      | cons y b => cases c <;> simp [cmpList]
    | cons x a ih =>
      cases b with
      | nil => simp [cmpList]
      | cons y b =>
        cases c with
        | nil => simp [cmpList]
        | cons z c =>
          simp only [cmpList, then_eq_lt]
          rintro (h1 | ⟨h1, h1'⟩) (h2 | ⟨h2, h2'⟩)
          · exact .inl (h.trans _ _ _ h1 h2)
          · rw [h.eq_iff] at h2; subst h2; exact .inl h1
          · rw [h.eq_iff] at h1; subst h1; exact .inl h2
          · rw [h.eq_iff] at h1 h2; subst h1; subst h2
            exact .inr ⟨h.refl _, ih _ _ h1' h2'⟩

theorem cmpStr_order : TotalOrder cmpStr := cmpList_order cmpChar_order

end Rdftk
