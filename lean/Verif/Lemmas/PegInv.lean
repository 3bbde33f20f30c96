import Verif.Lemmas.PegStarN3

/-! What a reading by the grammar consists of. -/

namespace Rdftk

open PegGrammar

variable {T : Nat} {s r : Str} {a b : Peg GRule} {l : List (Pair GRule)}

/-- The expression reads up to the rest and makes these pairs. -/
def Rd (T : Nat) (e : Peg GRule) (s : Str) (l : List (Pair GRule)) (r : Str) : Prop := commonGrammar.Reads T .free e s (some (l, r))

theorem Rd.acc {e : Peg GRule} (h : Rd T e s l r) : Acc T e s r := ⟨l, h⟩

theorem Rd.rej_false {e : Peg GRule} (h : Rd T e s l r) (h' : Rej T e s) : False := Option.some_ne_none _ (h.det h')

theorem Rd.unique {e : Peg GRule} {r' : Str} (h : Rd T e s l r) (h' : Acc T e s r') : r' = r := by
  obtain ⟨k, h'⟩ := h'
  have := h.det h'
  simp only [Option.some.injEq, Prod.mk.injEq] at this
  exact this.2.symm

theorem run_skip {n : Nat} {x : PegRes GRule} (h : commonGrammar.run T n .atomic commonGrammar.skipper s = some x) : x = some ([], skip false s) :=
  Reads.det (g := commonGrammar) ⟨n, h⟩ (reads_skipper s)

theorem next_some {R : Type} {x : Option (PegRes R)} {f : Str → Option (PegRes R)} {l : List (Pair R)} {r : Str}
    (h : PegRes.next x f = some (some (l, r))) : ∃ l1 r1 l2, x = some (some (l1, r1)) ∧ f r1 = some (some (l2, r)) ∧ l = l1 ++ l2 := by
  unfold PegRes.next at h
  split at h
  · cases h
  · cases h
  · split at h
    · cases h
    · cases h
    · rename_i h2
      cases h
      exact ⟨_, _, _, rfl, h2, rfl⟩

theorem next_none {R : Type} {x : Option (PegRes R)} {f : Str → Option (PegRes R)}
    (h : PegRes.next x f = some none) : x = some none ∨ ∃ l1 r1, x = some (some (l1, r1)) ∧ f r1 = some none := by
  unfold PegRes.next at h
  split at h
  · cases h
  · exact .inl rfl
  · split at h
    · cases h
    · rename_i h2; exact .inr ⟨_, _, rfl, h2⟩
    · cases h

theorem other_some {R : Type} {x : Option (PegRes R)} {y : Unit → Option (PegRes R)} {z : List (Pair R) × Str}
    (h : PegRes.other x y = some (some z)) : x = some (some z) ∨ (x = some none ∧ y () = some (some z)) := by
  unfold PegRes.other at h
  split at h
  · exact .inr ⟨rfl, h⟩
  · exact .inl h

theorem other_none {R : Type} {x : Option (PegRes R)} {y : Unit → Option (PegRes R)}
    (h : PegRes.other x y = some none) : x = some none ∧ y () = some none := by
  unfold PegRes.other at h
  split at h
  · exact ⟨rfl, h⟩
  · rename_i hx; exact absurd h hx

theorem inv_rule {i : GRule} (hk : (commonGrammar.body i).1 = .normal) (h : Rd T (.rule i) s l r) :
    ∃ k, Rd T (commonGrammar.body i).2 s k r ∧ l = [.mk (some i) (textRead s r) k] := by
  obtain ⟨n, h⟩ := h
  cases n with
  | zero => cases h
  | succ n =>
    rw [PegGrammar.run, hk] at h
    simp only [PegKind.mode, PegKind.makes] at h
    split at h
    · cases h
    · cases h
    · rename_i k r' h'
      simp only [Option.some.injEq, Prod.mk.injEq] at h
      obtain ⟨h1, rfl⟩ := h
      exact ⟨k, ⟨n, h'⟩, by rw [← h1]; simp⟩

theorem inv_seq (h : Rd T (.seq a b) s l r) : ∃ l1 r1 l2, Rd T a s l1 r1 ∧ Rd T b (skip false r1) l2 r ∧ l = l1 ++ l2 := by
  obtain ⟨n, h⟩ := h
  cases n with
  | zero => cases h
  | succ n =>
    rw [PegGrammar.run] at h
    obtain ⟨l1, r1, l2, h1, h2, rfl⟩ := next_some h
    obtain ⟨k1, q, k2, h3, h4, rfl⟩ := next_some h2
    rw [if_pos rfl] at h3
    have := run_skip h3
    simp only [Option.some.injEq, Prod.mk.injEq] at this
    obtain ⟨rfl, rfl⟩ := this
    exact ⟨l1, r1, k2, ⟨n, h1⟩, ⟨n, h4⟩, rfl⟩

theorem inv_alt (h : Rd T (.alt a b) s l r) : Rd T a s l r ∨ (Rej T a s ∧ Rd T b s l r) := by
  obtain ⟨n, h⟩ := h
  cases n with
  | zero => cases h
  | succ n =>
    rw [PegGrammar.run] at h
    rcases other_some h with h | ⟨h1, h2⟩
    · exact .inl ⟨n, h⟩
    · exact .inr ⟨⟨n, h1⟩, ⟨n, h2⟩⟩

theorem inv_opt (h : Rd T (.opt a) s l r) : Rd T a s l r ∨ (Rej T a s ∧ l = [] ∧ r = s) := by
  obtain ⟨n, h⟩ := h
  cases n with
  | zero => cases h
  | succ n =>
    rw [PegGrammar.run] at h
    rcases other_some h with h | ⟨h1, h2⟩
    · exact .inl ⟨n, h⟩
    · simp only [Option.some.injEq, Prod.mk.injEq] at h2
      exact .inr ⟨⟨n, h1⟩, h2.1.symm, h2.2.symm⟩

theorem more_not_none {n : Nat} : commonGrammar.run T n .free (.more a) s ≠ some none := by
  cases n with
  | zero => intro h; cases h
  | succ n =>
    intro h
    rw [PegGrammar.run] at h
    cases (other_none h).2

theorem inv_star (h : Rd T (.star a) s l r) : (Rej T a s ∧ l = [] ∧ r = s) ∨
    ∃ l1 r1 l2, Rd T a s l1 r1 ∧ Rd T (.more a) r1 l2 r ∧ l = l1 ++ l2 := by
  obtain ⟨n, h⟩ := h
  cases n with
  | zero => cases h
  | succ n =>
    rw [PegGrammar.run] at h
    rcases other_some h with h | ⟨h1, h2⟩
    · obtain ⟨l1, r1, l2, h1, h2, rfl⟩ := next_some h
      exact .inr ⟨l1, r1, l2, ⟨n, h1⟩, ⟨n, h2⟩, rfl⟩
    · simp only [Option.some.injEq, Prod.mk.injEq] at h2
      rcases next_none h1 with h1 | ⟨_, _, -, h1⟩
      · exact .inl ⟨⟨n, h1⟩, h2.1.symm, h2.2.symm⟩
      · exact absurd h1 more_not_none

/-- Induction over what a repetition reads. -/
theorem more_induct {P : Str → List (Pair GRule) → Str → Prop} (stop : ∀ s, Rej T a (skip false s) → P s [] s)
    (go : ∀ s l1 r1 l2 r, Rd T a (skip false s) l1 r1 → Rd T (.more a) r1 l2 r → P r1 l2 r → P s (l1 ++ l2) r) (h : Rd T (.more a) s l r) : P s l r := by
  obtain ⟨n, h⟩ := h
  induction n generalizing s l with
  | zero => cases h
  | succ n ih =>
    rw [PegGrammar.run, if_pos rfl] at h
    rcases other_some h with h | ⟨h1, h2⟩
    · obtain ⟨k, q, l2, h1, h2, rfl⟩ := next_some h
      have := run_skip h1
      simp only [Option.some.injEq, Prod.mk.injEq] at this
      obtain ⟨rfl, rfl⟩ := this
      obtain ⟨k1, r1, k2, h3, h4, rfl⟩ := next_some h2
      exact go s k1 r1 k2 r ⟨n, h3⟩ ⟨n, h4⟩ (ih h4)
    · simp only [Option.some.injEq, Prod.mk.injEq] at h2
      obtain ⟨rfl, rfl⟩ := h2
      rcases next_none h1 with h1 | ⟨k, q, h1, h3⟩
      · cases run_skip h1
      · have := run_skip h1
        simp only [Option.some.injEq, Prod.mk.injEq] at this
        obtain ⟨rfl, rfl⟩ := this
        rcases next_none h3 with h3 | ⟨_, _, -, h3⟩
        · exact stop s ⟨n, h3⟩
        · exact absurd h3 more_not_none

theorem inv_str {t : Str} (h : Rd T (.str t) s l r) : stripPrefix t s = some r ∧ l = [] := by
  have := h.det (reads_str t)
  cases e : stripPrefix t s with
  | none => rw [e] at this; cases this
  | some x => rw [e] at this; simp at this; simp [this]

theorem inv_chr {c : Char} (h : Rd T (.str [c]) s l r) : s = c :: r ∧ l = [] := by
  obtain ⟨h1, h2⟩ := inv_str h
  cases s with
  | nil => cases h1
  | cons d s =>
    simp only [stripPrefix] at h1
    split at h1
    · rename_i hc; cases h1; exact ⟨by rw [hc], h2⟩
    · cases h1

theorem inv_eoi (h : Rd T .eoi s l r) : s = [] ∧ r = [] ∧ l = [.mk none [] []] := by
  have := h.det reads_eoi
  cases s with
  | nil => simp at this; simp [this]
  | cons c s => simp at this

end Rdftk
