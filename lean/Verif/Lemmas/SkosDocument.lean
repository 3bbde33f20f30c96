import Verif.Lemmas.Cmp
import Verif.Model.SkosDocument

/-! Facts about documents: stable sorting, and labels by kind. -/

namespace Rdftk

theorem filter_mergeSort {α : Type} (le : α → α → Bool) (l : List α) (p : α → Bool)
    (htrans : ∀ a b c, le a b = true → le b c = true → le a c = true) (htotal : ∀ a b, (le a b || le b a) = true)
    (hp : ∀ a b, p a = true → p b = true → le a b = true) : (l.mergeSort le).filter p = l.filter p := by
  have h1 : (l.filter p).Sublist (l.mergeSort le) := by
    apply List.sublist_mergeSort htrans htotal
    · rw [List.pairwise_iff_forall_sublist]
      intro a b hab
      have ha : a ∈ l.filter p := hab.subset (by simp)
      have hb : b ∈ l.filter p := hab.subset (by simp)
      exact hp a b (List.mem_filter.1 ha).2 (List.mem_filter.1 hb).2
    · exact List.filter_sublist
  have h2 := h1.filter p
  rw [List.filter_filter] at h2
  simp only [Bool.and_self] at h2
  refine (h2.eq_of_length ?_).symm
  exact (((List.mergeSort_perm l le).filter p).length_eq).symm

theorem labelKind_cmp_eq (a b : LabelKind) : a.cmp b = .eq ↔ a = b := by
  cases a <;> cases b <;> simp [LabelKind.cmp]
  rename_i i j
  rw [cmpStr_order.eq_iff]
  exact ⟨fun h => by cases i; cases j; simp_all, fun h => by rw [h]⟩

theorem labelKind_cmp_order : TotalOrder LabelKind.cmp where
  eq_iff := labelKind_cmp_eq
  swap a b := by
    cases a <;> cases b <;> try rfl
    exact cmpStr_order.swap _ _
  trans a b c h1 h2 := by
    cases a <;> cases b <;> cases c <;> simp_all [LabelKind.cmp]
    exact cmpStr_order.trans _ _ _ h1 h2

/-- Not greater is an order for sorting. -/
theorem TotalOrder.le_trans {α : Type _} {cmp : α → α → Ordering} (h : TotalOrder cmp) (a b c : α)
    (h1 : (cmp a b != .gt) = true) (h2 : (cmp b c != .gt) = true) : (cmp a c != .gt) = true := by
  simp only [bne_iff_ne, ne_eq] at *
  cases hab : cmp a b with
  | gt => exact absurd hab h1
  | eq => rw [h.eq_iff] at hab; subst hab; exact h2
  | lt =>
    cases hbc : cmp b c with
    | gt => exact absurd hbc h2
    | eq => rw [h.eq_iff] at hbc; subst hbc; rw [hab]; simp
    | lt => rw [h.trans _ _ _ hab hbc]; simp

theorem TotalOrder.le_total {α : Type _} {cmp : α → α → Ordering} (h : TotalOrder cmp) (a b : α) :
    ((cmp a b != .gt) || (cmp b a != .gt)) = true := by
  cases hab : cmp a b with
  | lt => rfl
  | eq => rfl
  | gt =>
    rw [h.swap, hab]; rfl

end Rdftk
