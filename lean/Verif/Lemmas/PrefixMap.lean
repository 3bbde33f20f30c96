import Verif.Model.PrefixMap
import Verif.Lemmas.Cmp

/-! Helper lemmas about prefix maps. -/

namespace Rdftk.PrefixMap

/-- The pairs are sorted by prefix and no IRI occurs twice. -/
def Inv (m : PrefixMap) : Prop :=
  m.entries.Pairwise fun a b => cmpStr a.1.text b.1.text = .lt ∧ a.2 ≠ b.2

theorem mem_insertSorted {p : Namespace} {i : Iri} {l : List (Namespace × Iri)} {e : Namespace × Iri} :
    e ∈ insertSorted p i l ↔ e = (p, i) ∨ e ∈ l := by
  induction l with
  | nil => simp [insertSorted]
  | cons x l ih =>
    unfold insertSorted
    split
    · simp
    · simp [ih, or_left_comm]

theorem pairwise_insertSorted {p : Namespace} {i : Iri} {l : List (Namespace × Iri)}
    (h : l.Pairwise fun a b => cmpStr a.1.text b.1.text = .lt ∧ a.2 ≠ b.2)
    (hp : ∀ e ∈ l, e.1 ≠ p) (hi : ∀ e ∈ l, e.2 ≠ i) :
    (insertSorted p i l).Pairwise fun a b => cmpStr a.1.text b.1.text = .lt ∧ a.2 ≠ b.2 := by
  induction l with
  | nil => simp [insertSorted]
  | cons x l ih =>
    rw [List.pairwise_cons] at h
    unfold insertSorted
    split
    · rename_i hlt
      rw [List.pairwise_cons]
      refine ⟨?_, List.pairwise_cons.2 h⟩
      intro y hy
      refine ⟨?_, fun e => hi y hy e.symm⟩
      rcases List.mem_cons.1 hy with rfl | hy
      · exact hlt
      · exact cmpStr_order.trans _ _ _ hlt (h.1 y hy).1
    · rename_i hnlt
      rw [List.pairwise_cons]
      refine ⟨?_, ih h.2 (fun e he => hp e (by simp [he])) (fun e he => hi e (by simp [he]))⟩
      intro y hy
      rcases mem_insertSorted.1 hy with rfl | hy
      · refine ⟨?_, hi x (by simp)⟩
        rcases cmpStr_order.total x.1.text p.text with h1 | h1 | h1
        · exact h1
        · exfalso; apply hp x (by simp)
          cases hx : x.1 with | mk t => cases p; rw [hx] at h1; simp at h1; rw [h1]
        · exact absurd h1 hnlt
      · exact h.1 y hy

theorem inv_insert {m : PrefixMap} (h : m.Inv) (p : Namespace) (i : Iri) : (m.insert p i).Inv := by
  apply pairwise_insertSorted
  · exact h.filter _
  · intro e he; simp at he; exact he.2.1
  · intro e he; simp at he; exact he.2.2

theorem inv_remove {m : PrefixMap} (h : m.Inv) (p : Namespace) : (m.remove p).Inv := h.filter _

theorem inv_empty : empty.Inv := List.Pairwise.nil

theorem inv_clear {m : PrefixMap} : m.clear.Inv := List.Pairwise.nil

theorem Inv.key_unique {m : PrefixMap} (h : m.Inv) {a b : Namespace × Iri} (ha : a ∈ m.entries)
    (hb : b ∈ m.entries) (e : a.1 = b.1) : a = b := by
  rcases m with ⟨l⟩
  unfold Inv at h
  simp only at *
  induction l with
  | nil => simp at ha
  | cons x l ih =>
    rw [List.pairwise_cons] at h
    have irr : ∀ y ∈ l, x.1 ≠ y.1 := by
      intro y hy he
      have := (h.1 y hy).1
      rw [he, cmpStr_order.refl] at this; cases this
    rcases List.mem_cons.1 ha with ea | ha1 <;> rcases List.mem_cons.1 hb with eb | hb1
    · rw [ea, eb]
    · exact absurd (ea ▸ e) (irr b hb1)
    · exact absurd (eb ▸ e.symm) (irr a ha1)
    · exact ih h.2 ha1 hb1

theorem Inv.val_unique {m : PrefixMap} (h : m.Inv) {a b : Namespace × Iri} (ha : a ∈ m.entries)
    (hb : b ∈ m.entries) (e : a.2 = b.2) : a = b := by
  rcases m with ⟨l⟩
  unfold Inv at h
  simp only at *
  induction l with
  | nil => simp at ha
  | cons x l ih =>
    rw [List.pairwise_cons] at h
    rcases List.mem_cons.1 ha with ea | ha1 <;> rcases List.mem_cons.1 hb with eb | hb1
    · rw [ea, eb]
    · exact absurd (ea ▸ e) (h.1 b hb1).2
    · exact absurd (eb ▸ e.symm) (h.1 a ha1).2
    · exact ih h.2 ha1 hb1

theorem getNamespace_iff {m : PrefixMap} (h : m.Inv) (p : Namespace) (i : Iri) :
    m.getNamespace p = some i ↔ (p, i) ∈ m.entries := by
  unfold getNamespace
  rw [Option.map_eq_some_iff]
  constructor
  · rintro ⟨a, ha, rfl⟩
    have h1 := List.mem_of_find?_eq_some ha
    have h2 := List.find?_some ha
    simp at h2
    subst h2; exact h1
  · intro hm
    cases hf : m.entries.find? (fun e => e.1 == p) with
    | none =>
      rw [List.find?_eq_none] at hf
      exact absurd (beq_self_eq_true p) (hf _ hm)
    | some a =>
      have h1 := List.mem_of_find?_eq_some hf
      have h2 := List.find?_some hf
      simp at h2
      have := h.key_unique h1 hm h2
      exact ⟨a, rfl, by rw [this]⟩

theorem getPrefix_iff {m : PrefixMap} (h : m.Inv) (p : Namespace) (i : Iri) :
    m.getPrefix i = some p ↔ (p, i) ∈ m.entries := by
  unfold getPrefix
  rw [Option.map_eq_some_iff]
  constructor
  · rintro ⟨a, ha, rfl⟩
    have h1 := List.mem_of_find?_eq_some ha
    have h2 := List.find?_some ha
    simp at h2
    subst h2; exact h1
  · intro hm
    cases hf : m.entries.find? (fun e => e.2 == i) with
    | none =>
      rw [List.find?_eq_none] at hf
      exact absurd (beq_self_eq_true i) (hf _ hm)
    | some a =>
      have h1 := List.mem_of_find?_eq_some hf
      have h2 := List.find?_some hf
      simp at h2
      have := h.val_unique h1 hm h2
      exact ⟨a, rfl, by rw [this]⟩

end Rdftk.PrefixMap

namespace Rdftk

theorem insertVocabulary_inv {m m' : PrefixMap} {v : Vocabulary} (h : m.Inv)
    (e : m.insertVocabulary v = some m') : m'.Inv := by
  unfold PrefixMap.insertVocabulary at e
  rw [Option.map_eq_some_iff] at e
  obtain ⟨p, _, rfl⟩ := e
  exact PrefixMap.inv_insert h _ _

theorem foldVocab_inv (ks : List Nat) (o : Option PrefixMap) (ho : ∀ m, o = some m → m.Inv)
    (m' : PrefixMap)
    (e : ks.foldl (init := o) (fun m k => do
      let m ← m
      let v ← vocabularies[k]?
      m.insertVocabulary v) = some m') : m'.Inv := by
  induction ks generalizing o with
  | nil => exact ho m' e
  | cons k ks ih =>
    refine ih _ ?_ e
    intro m hm
    cases o with
    | none => cases hm
    | some m0 =>
      cases hv : vocabularies[k]? with
      | none => simp [bind, hv] at hm
      | some v =>
        simp [bind, hv] at hm
        exact insertVocabulary_inv (ho m0 rfl) hm

end Rdftk
