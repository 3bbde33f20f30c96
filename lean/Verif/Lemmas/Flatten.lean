import Verif.Spec.Skos

/-! Walking down a relation given by lists of children. -/

namespace Rdftk

open Relation

/-- The walk of `concepts_flattened` and `collections_flattened`. -/
def flattenBy (ch : Nat → List Nat) : Nat → Nat → Option (List Nat)
  | 0, _ => none
  | n + 1, i => ((ch i).mapM fun j => (flattenBy ch n j).map (· ++ [j])).map List.flatten

/-- The walk from several places, each of which is put at the end of its own. -/
def flattenAll (ch : Nat → List Nat) (n : Nat) (l : List Nat) : Option (List Nat) :=
  (l.mapM fun j => (flattenBy ch n j).map (· ++ [j])).map List.flatten

theorem flattenBy_succ (ch : Nat → List Nat) (n i : Nat) : flattenBy ch (n + 1) i = flattenAll ch n (ch i) := rfl

theorem flattenAll_nil (ch : Nat → List Nat) (n : Nat) : flattenAll ch n [] = some [] := rfl

theorem flattenAll_cons (ch : Nat → List Nat) (n j : Nat) (l : List Nat) :
    flattenAll ch n (j :: l) = (flattenBy ch n j).bind fun a => (flattenAll ch n l).map fun b => a ++ [j] ++ b := by
  unfold flattenAll
  rw [List.mapM_cons]
  cases flattenBy ch n j with
  | none => rfl
  | some a =>
    simp only [Option.map_some, Option.bind_eq_bind, Option.bind_some]
    cases List.mapM (fun j => (flattenBy ch n j).map (· ++ [j])) l <;> simp

theorem flattenAll_mono {ch : Nat → List Nat} {n m : Nat} (hs : ∀ i l, flattenBy ch n i = some l → flattenBy ch m i = some l)
    {l r : List Nat} (h : flattenAll ch n l = some r) : flattenAll ch m l = some r := by
  induction l generalizing r with
  | nil => exact h
  | cons j l ih =>
    rw [flattenAll_cons] at h ⊢
    cases hj : flattenBy ch n j with
    | none => rw [hj] at h; cases h
    | some a =>
      rw [hj, Option.bind_some] at h
      rw [hs _ _ hj, Option.bind_some]
      cases hl : flattenAll ch n l with
      | none => rw [hl] at h; cases h
      | some b => rw [ih hl]; rw [hl] at h; exact h

theorem flattenBy_mono {ch : Nat → List Nat} {n : Nat} (k : Nat) : ∀ i l, flattenBy ch n i = some l →
    flattenBy ch (n + k) i = some l := by
  induction n with
  | zero => intro i l h; cases h
  | succ n ih =>
    intro i l h
    rw [Nat.add_right_comm, flattenBy_succ]
    rw [flattenBy_succ] at h
    exact flattenAll_mono ih h

theorem mem_flattenAll {ch : Nat → List Nat} {n : Nat}
    (hs : ∀ i l, flattenBy ch n i = some l → ∀ j, j ∈ l ↔ TransGen (fun a b => b ∈ ch a) i j)
    {l r : List Nat} (h : flattenAll ch n l = some r) (j : Nat) :
    j ∈ r ↔ ∃ i ∈ l, ReflTransGen (fun a b => b ∈ ch a) i j := by
  induction l generalizing r with
  | nil => cases h; simp
  | cons i l ih =>
    rw [flattenAll_cons] at h
    cases hj : flattenBy ch n i with
    | none => rw [hj] at h; cases h
    | some a =>
      rw [hj, Option.bind_some] at h
      cases hl : flattenAll ch n l with
      | none => rw [hl] at h; cases h
      | some b =>
        rw [hl] at h
        cases h
        simp only [List.mem_append, List.mem_singleton, ih hl, hs _ _ hj, List.mem_cons, exists_eq_or_imp]
        rw [reflTransGen_iff_eq_or_transGen]
        grind

theorem mem_flattenBy {ch : Nat → List Nat} {n : Nat} : ∀ i l, flattenBy ch n i = some l → ∀ j,
    j ∈ l ↔ TransGen (fun a b => b ∈ ch a) i j := by
  induction n with
  | zero => intro i l h; cases h
  | succ n ih =>
    intro i l h j
    rw [flattenBy_succ] at h
    rw [mem_flattenAll ih h, TransGen.head'_iff]

theorem flattenAll_isSome {ch : Nat → List Nat} {n : Nat} {l : List Nat} :
    (flattenAll ch n l).isSome ↔ ∀ i ∈ l, (flattenBy ch n i).isSome := by
  induction l with
  | nil => simp [flattenAll_nil]
  | cons i l ih =>
    rw [flattenAll_cons]
    cases h : flattenBy ch n i with
    | none => simp [h]
    | some a => simp [h, ← ih]

theorem flattenBy_of_le {ch : Nat → List Nat} {n m i : Nat} (hnm : n ≤ m) (h : (flattenBy ch n i).isSome) :
    (flattenBy ch m i).isSome := by
  obtain ⟨l, hl⟩ := Option.isSome_iff_exists.1 h
  obtain ⟨k, rfl⟩ := Nat.exists_eq_add_of_le hnm
  rw [flattenBy_mono k _ _ hl]
  rfl

/-- The walks from finitely many places end together. -/
theorem flattenAll_ends {ch : Nat → List Nat} {l : List Nat} (h : ∀ i ∈ l, ∃ n, (flattenBy ch n i).isSome) :
    ∃ n, (flattenAll ch n l).isSome := by
  simp only [flattenAll_isSome]
  induction l with
  | nil => exact ⟨0, by simp⟩
  | cons i l ih =>
    obtain ⟨n, hn⟩ := h i (by simp)
    obtain ⟨m, hm⟩ := ih fun j hj => h j (by simp [hj])
    refine ⟨max n m, fun j hj => ?_⟩
    rcases List.mem_cons.1 hj with rfl | hj
    · exact flattenBy_of_le (by omega) hn
    · exact flattenBy_of_le (by omega) (hm j hj)

/-- The walk ends exactly if there is no endless way down. -/
theorem flattenBy_ends {ch : Nat → List Nat} {i : Nat} :
    (∃ n, (flattenBy ch n i).isSome) ↔ Acc (fun b a => b ∈ ch a) i := by
  constructor
  · rintro ⟨n, hn⟩
    induction n generalizing i with
    | zero => cases hn
    | succ n ih =>
      rw [flattenBy_succ, flattenAll_isSome] at hn
      exact ⟨_, fun j hj => ih (hn j hj)⟩
  · intro h
    induction h with
    | intro i _ ih =>
      obtain ⟨n, hn⟩ := flattenAll_ends (l := ch i) fun j hj => ih j hj
      exact ⟨n + 1, by rw [flattenBy_succ]; exact hn⟩

theorem acc_irrefl {α : Type} {r : α → α → Prop} {a : α} (h : Acc r a) : ¬r a a := by
  induction h with
  | intro a _ ih => exact fun hr => ih a hr hr

/-- In a forest the walk meets nothing twice. -/
theorem flattenAll_nodup {ch : Nat → List Nat} (hn : ∀ a, (ch a).Nodup) (hu : ∀ a b j, j ∈ ch a → j ∈ ch b → a = b)
    {n : Nat} (hs : ∀ i l, flattenBy ch n i = some l → l.Nodup) {l r : List Nat}
    (h : flattenAll ch n l = some r) (hl : l.Nodup) (ha : ∀ i ∈ l, Acc (fun b a => b ∈ ch a) i)
    (hd : ∀ i ∈ l, ∀ j ∈ l, ¬TransGen (fun a b => b ∈ ch a) i j) : r.Nodup := by
  induction l generalizing r with
  | nil => cases h; simp
  | cons i l ih =>
    rw [flattenAll_cons] at h
    cases hj : flattenBy ch n i with
    | none => rw [hj] at h; cases h
    | some a =>
      rw [hj, Option.bind_some] at h
      cases hl' : flattenAll ch n l with
      | none => rw [hl'] at h; cases h
      | some b =>
        rw [hl'] at h
        cases h
        have hma := mem_flattenBy _ _ hj
        have hmb := mem_flattenAll mem_flattenBy hl'
        -- two ways up from one place: one goes on where the other ended
        have up : ∀ x y z, ReflTransGen (fun a b => b ∈ ch a) x z → ReflTransGen (fun a b => b ∈ ch a) y z →
            ReflTransGen (fun a b => b ∈ ch a) x y ∨ ReflTransGen (fun a b => b ∈ ch a) y x := by
          intro x y z hx hy
          induction hx with
          | refl => exact .inr hy
          | @tail b c hb hc ihx =>
            rcases ReflTransGen.cases_tail hy with e | ⟨d, hd1, hd2⟩
            · subst e; exact .inl (hb.tail hc)
            · have := hu _ _ _ hc hd2
              subst this
              exact ihx hd1
        have apart : ∀ k ∈ l, ∀ z, ReflTransGen (fun a b => b ∈ ch a) i z → ReflTransGen (fun a b => b ∈ ch a) k z → False := by
          intro k hk z h1 h2
          have hne : i ≠ k := fun e => (List.nodup_cons.1 hl).1 (e ▸ hk)
          rcases up _ _ _ h1 h2 with h3 | h3
          · rcases reflTransGen_iff_eq_or_transGen.1 h3 with e | e
            · exact hne e.symm
            · exact hd i (by simp) k (by simp [hk]) e
          · rcases reflTransGen_iff_eq_or_transGen.1 h3 with e | e
            · exact hne e
            · exact hd k (by simp [hk]) i (by simp) e
        show (a ++ [i] ++ b).Nodup
        rw [List.append_assoc, List.nodup_append]
        refine ⟨hs _ _ hj, ?_, ?_⟩
        · rw [List.singleton_append, List.nodup_cons]
          refine ⟨fun hi => ?_, ih hl' (List.nodup_cons.1 hl).2 (fun k hk => ha k (by simp [hk]))
            fun k hk m hm => hd k (by simp [hk]) m (by simp [hm])⟩
          obtain ⟨k, hk, hk'⟩ := (hmb i).1 hi
          exact apart k hk i .refl hk'
        · intro x hx y hy e
          subst e
          have hx' := (hma x).1 hx
          rw [List.singleton_append, List.mem_cons] at hy
          rcases hy with rfl | hy
          · exact hd x (by simp) x (by simp) hx'
          · obtain ⟨k, hk, hk'⟩ := (hmb x).1 hy
            exact apart k hk x hx'.to_reflTransGen hk'

theorem flattenBy_nodup {ch : Nat → List Nat} (hn : ∀ a, (ch a).Nodup) (hu : ∀ a b j, j ∈ ch a → j ∈ ch b → a = b)
    (hacc : ∀ i, Acc (fun b a => b ∈ ch a) i) {n : Nat} : ∀ i l, flattenBy ch n i = some l → l.Nodup := by
  induction n with
  | zero => intro i l h; cases h
  | succ n ih =>
    intro i l h
    rw [flattenBy_succ] at h
    refine flattenAll_nodup hn hu ih h (hn i) (fun j _ => hacc j) ?_
    intro j hj k hk hjk
    -- the last step into `k` comes from `i`, so `i` is below `j`
    obtain ⟨m, h1, h2⟩ := TransGen.tail'_iff.1 hjk
    have := hu _ _ _ h2 hk
    subst this
    have cyc : TransGen (fun a b => b ∈ ch a) m m := TransGen.head' hj h1
    have wf : ∀ x, Acc (fun b a => TransGen (fun a b => b ∈ ch a) a b) x := by
      intro x
      have := (hacc x).transGen
      refine Subrelation.accessible (r := TransGen fun b a => b ∈ ch a) ?_ this
      intro a b hab
      exact transGen_swap.1 hab
    exact acc_irrefl (wf m) cyc

end Rdftk
