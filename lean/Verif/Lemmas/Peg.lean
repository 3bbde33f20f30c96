import Verif.Model.CommonPest
import Mathlib.Data.List.Infix

/-! Runs of parsing expression grammars: depth, what is left, and when they come to an end. -/

namespace Rdftk

variable {R : Type} {g : PegGrammar R} {total : Nat}

theorem PegRes.next_some {x : Option (PegRes R)} {f : Str → Option (PegRes R)} {y : PegRes R} (h : PegRes.next x f = some y) :
    (x = some none ∧ y = none) ∨ (∃ l r, x = some (some (l, r)) ∧ ((f r = some none ∧ y = none) ∨
      ∃ k r', f r = some (some (k, r')) ∧ y = some (l ++ k, r'))) := by
  cases x with
  | none => simp [PegRes.next] at h
  | some x =>
    cases x with
    | none => left; simpa [PegRes.next] using h.symm
    | some x =>
      obtain ⟨l, r⟩ := x
      right
      refine ⟨l, r, rfl, ?_⟩
      cases hf : f r with
      | none => simp [PegRes.next, hf] at h
      | some z =>
        cases z with
        | none => left; simpa [PegRes.next, hf] using h.symm
        | some z => right; exact ⟨z.1, z.2, rfl, by simpa [PegRes.next, hf] using h.symm⟩

theorem PegRes.next_le {x x' : Option (PegRes R)} {f f' : Str → Option (PegRes R)} (hx : ∀ y, x = some y → x' = some y)
    (hf : ∀ r y, f r = some y → f' r = some y) : ∀ y, PegRes.next x f = some y → PegRes.next x' f' = some y := by
  intro y h
  rcases PegRes.next_some h with ⟨h1, rfl⟩ | ⟨l, r, h1, ⟨h2, rfl⟩ | ⟨k, r', h2, rfl⟩⟩
  · simp [PegRes.next, hx _ h1]
  · simp [PegRes.next, hx _ h1, hf _ _ h2]
  · simp [PegRes.next, hx _ h1, hf _ _ h2]

theorem PegRes.other_some {x : Option (PegRes R)} {f : Unit → Option (PegRes R)} {y : PegRes R} (h : PegRes.other x f = some y) :
    (x = some none ∧ f () = some y) ∨ (x = some y ∧ y ≠ none) := by
  unfold PegRes.other at h; grind

theorem PegRes.other_le {x x' : Option (PegRes R)} {f f' : Unit → Option (PegRes R)} (hx : ∀ y, x = some y → x' = some y)
    (hf : ∀ y, f () = some y → f' () = some y) : ∀ y, PegRes.other x f = some y → PegRes.other x' f' = some y := by
  intro y h
  rcases PegRes.other_some h with ⟨h1, h2⟩ | ⟨h1, h2⟩
  · simp [PegRes.other, hx _ h1, hf _ h2]
  · cases y with
    | none => exact absurd rfl h2
    | some y => simp [PegRes.other, hx _ h1]

theorem PegGrammar.run_succ {n : Nat} : ∀ {m : PegMode} {e : Peg R} {s : Str} {x : PegRes R},
    g.run total n m e s = some x → g.run total (n + 1) m e s = some x := by
  induction n with
  | zero => intro m e s x h; simp [PegGrammar.run] at h
  | succ n ih =>
    have hskip : ∀ m : PegMode, ∀ r y, (if m = .free then g.run total n .atomic g.skipper r else some (some ([], r))) = some y →
        (if m = .free then g.run total (n + 1) .atomic g.skipper r else some (some ([], r))) = some y := by
      intro m r y h
      split at h
      · rename_i hm; simp only [hm, if_true]; exact ih h
      · rename_i hm; simp only [hm, if_false]; exact h
    intro m e s x h
    cases e with
    | str t => simpa [PegGrammar.run] using h
    | istr t => simpa [PegGrammar.run] using h
    | range a b => cases s <;> simpa [PegGrammar.run] using h
    | any => cases s <;> simpa [PegGrammar.run] using h
    | soi => simpa [PegGrammar.run] using h
    | eoi => simpa [PegGrammar.run] using h
    | rule r => rw [PegGrammar.run] at h ⊢; grind
    | seq a b =>
      rw [PegGrammar.run] at h ⊢
      exact PegRes.next_le (fun _ => ih) (fun r => PegRes.next_le (hskip m r) (fun _ _ => ih)) _ h
    | alt a b => rw [PegGrammar.run] at h ⊢; exact PegRes.other_le (fun _ => ih) (fun _ => ih) _ h
    | opt a => rw [PegGrammar.run] at h ⊢; exact PegRes.other_le (fun _ => ih) (fun _ h => h) _ h
    | star a =>
      rw [PegGrammar.run] at h ⊢
      exact PegRes.other_le (PegRes.next_le (fun _ => ih) (fun _ _ => ih)) (fun _ h => h) _ h
    | more a =>
      rw [PegGrammar.run] at h ⊢
      exact PegRes.other_le (PegRes.next_le (hskip m s) (fun _ => PegRes.next_le (fun _ => ih) (fun _ _ => ih))) (fun _ h => h) _ h
    | not a => rw [PegGrammar.run] at h ⊢; grind
    | look a => rw [PegGrammar.run] at h ⊢; grind

theorem PegGrammar.run_mono {n k : Nat} {m : PegMode} {e : Peg R} {s : Str} {x : PegRes R}
    (h : g.run total n m e s = some x) (hk : n ≤ k) : g.run total k m e s = some x := by
  induction hk with
  | refl => exact h
  | step _ ih => exact PegGrammar.run_succ ih

theorem PegGrammar.run_det {n k : Nat} {m : PegMode} {e : Peg R} {s : Str} {x y : PegRes R}
    (h : g.run total n m e s = some x) (h' : g.run total k m e s = some y) : x = y := by
  have a := PegGrammar.run_mono h (Nat.le_max_left n k)
  have b := PegGrammar.run_mono h' (Nat.le_max_right n k)
  rw [a] at b; exact Option.some.inj b

/-! ### Runs that end -/

/-- The run ends with this. -/
def PegGrammar.Reads (g : PegGrammar R) (total : Nat) (m : PegMode) (e : Peg R) (s : Str) (x : PegRes R) : Prop :=
  ∃ n, g.run total n m e s = some x

/-- What is skipped between parts. -/
def PegGrammar.Skips (g : PegGrammar R) (total : Nat) (m : PegMode) (s : Str) (l : List (Pair R)) (r : Str) : Prop :=
  if m = .free then g.Reads total .atomic g.skipper s (some (l, r)) else l = [] ∧ r = s

variable {m : PegMode} {a b : Peg R} {s r r' : Str} {l l' : List (Pair R)} {x : PegRes R}

theorem PegGrammar.Reads.det {e : Peg R} {y : PegRes R} (h : g.Reads total m e s x) (h' : g.Reads total m e s y) : x = y := by
  obtain ⟨n, h⟩ := h; obtain ⟨k, h'⟩ := h'; exact PegGrammar.run_det h h'

theorem PegGrammar.reads_str (t : Str) : g.Reads total m (.str t) s ((stripPrefix t s).map fun r => ([], r)) := ⟨1, by simp [PegGrammar.run]⟩

theorem PegGrammar.reads_istr (t : Str) : g.Reads total m (.istr t) s ((stripPrefixI t s).map fun r => ([], r)) := ⟨1, by simp [PegGrammar.run]⟩

theorem PegGrammar.reads_range_nil {lo hi : Nat} : g.Reads total m (.range lo hi) [] none := ⟨1, by simp [PegGrammar.run]⟩

theorem PegGrammar.reads_range {lo hi : Nat} {c : Char} :
    g.Reads total m (.range lo hi) (c :: s) (if inRange lo hi c then some ([], s) else none) := ⟨1, by simp [PegGrammar.run]⟩

theorem PegGrammar.reads_any_nil : g.Reads total m .any [] none := ⟨1, by simp [PegGrammar.run]⟩

theorem PegGrammar.reads_any {c : Char} : g.Reads total m .any (c :: s) (some ([], s)) := ⟨1, by simp [PegGrammar.run]⟩

theorem PegGrammar.reads_soi : g.Reads total m .soi s (if s.length = total then some ([], s) else none) := ⟨1, by simp [PegGrammar.run]⟩

theorem PegGrammar.reads_eoi :
    g.Reads total m .eoi s (if s.isEmpty then some (if m = .atomic then [] else [.mk none [] []], s) else none) := ⟨1, by simp [PegGrammar.run]⟩

theorem PegGrammar.reads_rule {i : R} (h : g.Reads total ((g.body i).1.mode m) (g.body i).2 s x) :
    g.Reads total m (.rule i) s
      (x.map fun y => (if (g.body i).1.makes m then [.mk (some i) (textRead s y.2) y.1] else y.1, y.2)) := by
  obtain ⟨n, h⟩ := h
  refine ⟨n + 1, ?_⟩
  rw [PegGrammar.run, h]
  cases x <;> rfl

theorem PegGrammar.Skips.run (h : g.Skips total m s l r) :
    ∃ n, ∀ k, n ≤ k → (if m = .free then g.run total k .atomic g.skipper s else some (some ([], s))) = some (some (l, r)) := by
  unfold PegGrammar.Skips at h
  split at h
  · rename_i hm
    obtain ⟨n, h⟩ := h
    exact ⟨n, fun k hk => by simp only [hm, if_true]; exact PegGrammar.run_mono h hk⟩
  · rename_i hm
    obtain ⟨rfl, rfl⟩ := h
    exact ⟨0, fun k _ => by simp [hm]⟩

theorem PegGrammar.reads_seq (ha : g.Reads total m a s (some (l, r))) (hs : g.Skips total m r l' r') (hb : g.Reads total m b r' x) :
    g.Reads total m (.seq a b) s (x.map fun y => (l ++ (l' ++ y.1), y.2)) := by
  obtain ⟨n1, ha⟩ := ha; obtain ⟨n2, hs⟩ := hs.run; obtain ⟨n3, hb⟩ := hb
  refine ⟨n1 + n2 + n3 + 1, ?_⟩
  rw [PegGrammar.run, PegGrammar.run_mono ha (by omega)]
  simp only [PegRes.next]
  rw [hs _ (by omega)]
  simp only
  rw [PegGrammar.run_mono hb (by omega)]
  cases x <;> rfl

theorem PegGrammar.reads_seq_none (ha : g.Reads total m a s none) : g.Reads total m (.seq a b) s none := by
  obtain ⟨n1, ha⟩ := ha
  exact ⟨n1 + 1, by rw [PegGrammar.run, ha]; rfl⟩

theorem PegGrammar.reads_alt_left {y} (ha : g.Reads total m a s (some y)) : g.Reads total m (.alt a b) s (some y) := by
  obtain ⟨n1, ha⟩ := ha
  exact ⟨n1 + 1, by rw [PegGrammar.run, ha]; rfl⟩

theorem PegGrammar.reads_alt_right (ha : g.Reads total m a s none) (hb : g.Reads total m b s x) : g.Reads total m (.alt a b) s x := by
  obtain ⟨n1, ha⟩ := ha; obtain ⟨n2, hb⟩ := hb
  refine ⟨n1 + n2 + 1, ?_⟩
  rw [PegGrammar.run, PegGrammar.run_mono ha (by omega), PegGrammar.run_mono hb (by omega)]; rfl

theorem PegGrammar.reads_alt {y : PegRes R} (ha : g.Reads total m a s y) (hb : g.Reads total m b s x) :
    g.Reads total m (.alt a b) s (y.or x) := by
  cases y with
  | none => exact PegGrammar.reads_alt_right ha hb
  | some y => exact PegGrammar.reads_alt_left ha

theorem PegGrammar.reads_opt (ha : g.Reads total m a s x) : g.Reads total m (.opt a) s (x.or (some ([], s))) := by
  obtain ⟨n1, ha⟩ := ha
  refine ⟨n1 + 1, ?_⟩
  rw [PegGrammar.run, ha]; cases x <;> rfl

theorem PegGrammar.reads_star_none (ha : g.Reads total m a s none) : g.Reads total m (.star a) s (some ([], s)) := by
  obtain ⟨n1, ha⟩ := ha
  exact ⟨n1 + 1, by rw [PegGrammar.run, ha]; rfl⟩

theorem PegGrammar.reads_star (ha : g.Reads total m a s (some (l, r))) {k : List (Pair R)} (hb : g.Reads total m (.more a) r (some (k, r'))) :
    g.Reads total m (.star a) s (some (l ++ k, r')) := by
  obtain ⟨n1, ha⟩ := ha; obtain ⟨n2, hb⟩ := hb
  refine ⟨n1 + n2 + 1, ?_⟩
  rw [PegGrammar.run, PegGrammar.run_mono ha (by omega)]
  simp only [PegRes.next]
  rw [PegGrammar.run_mono hb (by omega)]
  rfl

theorem PegGrammar.reads_more_none (hs : g.Skips total m s l' r') (ha : g.Reads total m a r' none) :
    g.Reads total m (.more a) s (some ([], s)) := by
  obtain ⟨n1, hs⟩ := hs.run; obtain ⟨n2, ha⟩ := ha
  refine ⟨n1 + n2 + 1, ?_⟩
  rw [PegGrammar.run, hs _ (by omega)]
  simp only [PegRes.next]
  rw [PegGrammar.run_mono ha (by omega)]
  rfl

theorem PegGrammar.reads_more (hs : g.Skips total m s l' r') (ha : g.Reads total m a r' (some (l, r))) {k : List (Pair R)} {q : Str}
    (hb : g.Reads total m (.more a) r (some (k, q))) : g.Reads total m (.more a) s (some (l' ++ (l ++ k), q)) := by
  obtain ⟨n1, hs⟩ := hs.run; obtain ⟨n2, ha⟩ := ha; obtain ⟨n3, hb⟩ := hb
  refine ⟨n1 + n2 + n3 + 1, ?_⟩
  rw [PegGrammar.run, hs _ (by omega)]
  simp only [PegRes.next]
  rw [PegGrammar.run_mono ha (by omega)]
  simp only
  rw [PegGrammar.run_mono hb (by omega)]
  rfl

theorem PegGrammar.reads_not (ha : g.Reads total m a s x) : g.Reads total m (.not a) s (if x.isSome then none else some ([], s)) := by
  obtain ⟨n1, ha⟩ := ha
  exact ⟨n1 + 1, by rw [PegGrammar.run, ha]; cases x <;> rfl⟩

theorem PegGrammar.reads_look (ha : g.Reads total m a s x) : g.Reads total m (.look a) s (if x.isSome then some ([], s) else none) := by
  obtain ⟨n1, ha⟩ := ha
  exact ⟨n1 + 1, by rw [PegGrammar.run, ha]; cases x <;> rfl⟩

/-! ### What is left -/

theorem stripPrefix_eq {t s r : Str} (h : stripPrefix t s = some r) : s = t ++ r := by
  induction t generalizing s with
  | nil => simpa [stripPrefix] using h
  | cons c t ih =>
    cases s with
    | nil => simp [stripPrefix] at h
    | cons d s =>
      rw [stripPrefix] at h; split at h
      · rename_i hc; rw [hc, ih h]; rfl
      · cases h

theorem stripPrefixI_eq {t s r : Str} (h : stripPrefixI t s = some r) : ∃ u, s = u ++ r ∧ u.length = t.length := by
  induction t generalizing s with
  | nil => exact ⟨[], by simpa [stripPrefixI] using h⟩
  | cons c t ih =>
    cases s with
    | nil => simp [stripPrefixI] at h
    | cons d s =>
      rw [stripPrefixI] at h; split at h
      · obtain ⟨u, rfl, hu⟩ := ih h; exact ⟨d :: u, rfl, by simp [hu]⟩
      · cases h

/-- Whether an expression may match the empty text, given that of the rules. -/
def Peg.nullable (nul : R → Bool) : Peg R → Bool
  | .str t => t.isEmpty
  | .istr t => t.isEmpty
  | .range _ _ => false
  | .any => false
  | .rule i => nul i
  | .seq a b => a.nullable nul && b.nullable nul
  | .alt a b => a.nullable nul || b.nullable nul
  | _ => true

theorem PegGrammar.run_left {nul : R → Bool} (hn : ∀ i, nul i = false → (g.body i).2.nullable nul = false) {n : Nat} :
    ∀ {m : PegMode} {e : Peg R} {s r : Str} {l : List (Pair R)}, g.run total n m e s = some (some (l, r)) →
      r <:+ s ∧ (e.nullable nul = false → r.length < s.length) := by
  induction n with
  | zero => intro m e s r l h; simp [PegGrammar.run] at h
  | succ n ih =>
    have hskip : ∀ m : PegMode, ∀ s r l, (if m = .free then g.run total n .atomic g.skipper s else some (some ([], s))) =
        some (some (l, r)) → r <:+ s := by
      intro m s r l h
      split at h
      · exact (ih h).1
      · simp at h; rw [h.2]
    intro m e s r l h
    cases e with
    | str t =>
      simp only [PegGrammar.run, Option.some.injEq, Option.map_eq_some_iff, Prod.mk.injEq] at h
      obtain ⟨q, h1, h2, rfl⟩ := h
      rw [stripPrefix_eq h1]
      refine ⟨List.suffix_append _ _, fun he => ?_⟩
      cases t with
      | nil => simp [Peg.nullable] at he
      | cons c t => simp only [List.length_append, List.length_cons]; omega
    | istr t =>
      simp only [PegGrammar.run, Option.some.injEq, Option.map_eq_some_iff, Prod.mk.injEq] at h
      obtain ⟨q, h1, h2, rfl⟩ := h
      obtain ⟨u, rfl, hu⟩ := stripPrefixI_eq h1
      refine ⟨List.suffix_append _ _, fun he => ?_⟩
      cases t with
      | nil => simp [Peg.nullable] at he
      | cons c t => simp at hu ⊢; omega
    | range a b =>
      cases s with
      | nil => simp [PegGrammar.run] at h
      | cons c s => simp [PegGrammar.run] at h; obtain ⟨_, _, rfl⟩ := h; exact ⟨List.suffix_cons _ _, fun _ => by simp⟩
    | any =>
      cases s with
      | nil => simp [PegGrammar.run] at h
      | cons c s => simp [PegGrammar.run] at h; obtain ⟨_, rfl⟩ := h; exact ⟨List.suffix_cons _ _, fun _ => by simp⟩
    | soi => simp [PegGrammar.run] at h; obtain ⟨_, _, rfl⟩ := h; exact ⟨List.suffix_refl _, fun he => by simp [Peg.nullable] at he⟩
    | eoi => simp [PegGrammar.run] at h; obtain ⟨rfl, _, rfl⟩ := h; exact ⟨List.suffix_refl _, fun he => by simp [Peg.nullable] at he⟩
    | rule i =>
      rw [PegGrammar.run] at h
      cases hr : g.run total n ((g.body i).1.mode m) (g.body i).2 s with
      | none => simp [hr] at h
      | some x =>
        cases x with
        | none => simp [hr] at h
        | some x =>
          obtain ⟨l1, r1⟩ := x
          simp [hr] at h
          obtain ⟨_, rfl⟩ := h
          exact ⟨(ih hr).1, fun he => (ih hr).2 (hn i he)⟩
    | seq a b =>
      rw [PegGrammar.run] at h
      rcases PegRes.next_some h with ⟨_, h2⟩ | ⟨l1, r1, h1, h2⟩
      · cases h2
      rcases h2 with ⟨_, h2⟩ | ⟨k, r2, h2, h3⟩
      · cases h2
      cases h3
      rcases PegRes.next_some h2 with ⟨_, h4⟩ | ⟨l2, r3, h4, h5⟩
      · cases h4
      rcases h5 with ⟨_, h5⟩ | ⟨k, r4, h5, h6⟩
      · cases h5
      cases h6
      have a1 := ih h1; have a2 := hskip _ _ _ _ h4; have a3 := ih h5
      refine ⟨a3.1.trans (a2.trans a1.1), fun he => ?_⟩
      have b1 := a1.1.length_le; have b2 := a2.length_le; have b3 := a3.1.length_le
      simp only [Peg.nullable, Bool.and_eq_false_iff] at he
      rcases he with he | he
      · have := a1.2 he; omega
      · have := a3.2 he; omega
    | alt a b =>
      rw [PegGrammar.run] at h
      rcases PegRes.other_some h with ⟨_, h2⟩ | ⟨h1, _⟩
      · refine ⟨(ih h2).1, fun he => (ih h2).2 ?_⟩
        simp only [Peg.nullable, Bool.or_eq_false_iff] at he; exact he.2
      · refine ⟨(ih h1).1, fun he => (ih h1).2 ?_⟩
        simp only [Peg.nullable, Bool.or_eq_false_iff] at he; exact he.1
    | opt a =>
      refine ⟨?_, fun he => by simp [Peg.nullable] at he⟩
      rw [PegGrammar.run] at h
      rcases PegRes.other_some h with ⟨_, h2⟩ | ⟨h1, _⟩
      · cases h2; exact List.suffix_refl _
      · exact (ih h1).1
    | star a =>
      refine ⟨?_, fun he => by simp [Peg.nullable] at he⟩
      rw [PegGrammar.run] at h
      rcases PegRes.other_some h with ⟨_, h2⟩ | ⟨h1, _⟩
      · cases h2; exact List.suffix_refl _
      · rcases PegRes.next_some h1 with ⟨_, h4⟩ | ⟨l2, r3, h4, h5⟩
        · cases h4
        rcases h5 with ⟨_, h5⟩ | ⟨k, r4, h5, h6⟩
        · cases h5
        cases h6
        exact (ih h5).1.trans (ih h4).1
    | more a =>
      refine ⟨?_, fun he => by simp [Peg.nullable] at he⟩
      rw [PegGrammar.run] at h
      rcases PegRes.other_some h with ⟨_, h2⟩ | ⟨h1, _⟩
      · cases h2; exact List.suffix_refl _
      · rcases PegRes.next_some h1 with ⟨_, h4⟩ | ⟨l2, r3, h4, h5⟩
        · cases h4
        rcases h5 with ⟨_, h5⟩ | ⟨k, r4, h5, h6⟩
        · cases h5
        cases h6
        rcases PegRes.next_some h5 with ⟨_, h7⟩ | ⟨l5, r5, h7, h8⟩
        · cases h7
        rcases h8 with ⟨_, h8⟩ | ⟨k6, r6, h8, h9⟩
        · cases h8
        cases h9
        exact (ih h8).1.trans ((ih h7).1.trans (hskip _ _ _ _ h4))
    | not a =>
      refine ⟨?_, fun he => by simp [Peg.nullable] at he⟩
      rw [PegGrammar.run] at h
      split at h <;> cases h
      exact List.suffix_refl _
    | look a =>
      refine ⟨?_, fun he => by simp [Peg.nullable] at he⟩
      rw [PegGrammar.run] at h
      split at h <;> cases h
      exact List.suffix_refl _

/-! ### Grammars whose runs all end -/

/-- No rule calls a rule of rank `k` or more before something was read. -/
def Peg.fine (nul : R → Bool) (rank : R → Nat) (top : Nat) : Nat → Peg R → Bool
  | k, .rule i => rank i < k
  | k, .seq a b => a.fine nul rank top k && b.fine nul rank top (if a.nullable nul then k else top)
  | k, .alt a b => a.fine nul rank top k && b.fine nul rank top k
  | k, .opt a => a.fine nul rank top k
  | k, .star a => a.fine nul rank top k && !a.nullable nul
  | k, .more a => a.fine nul rank top k && !a.nullable nul
  | k, .not a => a.fine nul rank top k
  | k, .look a => a.fine nul rank top k
  | _, _ => true

theorem Peg.fine_mono {nul : R → Bool} {rank : R → Nat} {top k k' : Nat} {e : Peg R} (hk : k ≤ k')
    (h : e.fine nul rank top k = true) : e.fine nul rank top k' = true := by
  induction e generalizing k k' with
  | rule i => simp [Peg.fine] at h ⊢; omega
  | seq a b iha ihb =>
    simp only [Peg.fine, Bool.and_eq_true] at h ⊢
    refine ⟨iha hk h.1, ?_⟩
    split
    · rename_i hn; rw [if_pos hn] at h; exact ihb hk h.2
    · rename_i hn; rw [if_neg hn] at h; exact h.2
  | alt a b iha ihb => simp only [Peg.fine, Bool.and_eq_true] at h ⊢; exact ⟨iha hk h.1, ihb hk h.2⟩
  | opt a ih => simp only [Peg.fine] at h ⊢; exact ih hk h
  | star a ih => simp only [Peg.fine, Bool.and_eq_true] at h ⊢; exact ⟨ih hk h.1, h.2⟩
  | more a ih => simp only [Peg.fine, Bool.and_eq_true] at h ⊢; exact ⟨ih hk h.1, h.2⟩
  | not a ih => simp only [Peg.fine] at h ⊢; exact ih hk h
  | look a ih => simp only [Peg.fine] at h ⊢; exact ih hk h
  | _ => rfl

/-- A certificate that all runs end. -/
structure PegGrammar.Ends (g : PegGrammar R) (nul : R → Bool) (rank : R → Nat) (top : Nat) : Prop where
  null : ∀ i, nul i = false → (g.body i).2.nullable nul = false
  below : ∀ i, rank i < top
  fine : ∀ i, (g.body i).2.fine nul rank top (rank i) = true

theorem PegKind.mode_free {k : PegKind} {m : PegMode} (h : k.mode m = .free) : m = .free := by
  cases k <;> simp_all [PegKind.mode]

theorem PegGrammar.Ends.reads_aux {nul : R → Bool} {rank : R → Nat} {top : Nat} (hc : g.Ends nul rank top) (P : PegMode → Prop)
    (hP : ∀ (k : PegKind) m, P m → P (k.mode m)) (hs : ∀ m, P m → ∀ s, ∃ l r, g.Skips total m s l r) (N : Nat) :
    ∀ k, k ≤ top → ∀ (e : Peg R) m s, P m → s.length ≤ N → e.fine nul rank top k = true → ∃ x, g.Reads total m e s x := by
  have left : ∀ {m e s l r}, g.Reads total m e s (some (l, r)) → r <:+ s ∧ (e.nullable nul = false → r.length < s.length) :=
    fun ⟨_, h⟩ => PegGrammar.run_left hc.null h
  have left0 : ∀ {m : PegMode} {s l r}, g.Skips total m s l r → r.length ≤ s.length := by
    intro m s l r h
    unfold PegGrammar.Skips at h; split at h
    · exact (left h).1.length_le
    · simp [h.2]
  induction N using Nat.strongRecOn with
  | ind N ihN =>
  intro k
  induction k using Nat.strongRecOn with
  | ind k ihk =>
  intro hk e
  have moreEnds : ∀ (a : Peg R) m (s : Str), P m → s.length < N → a.fine nul rank top k = true → a.nullable nul = false →
      ∃ q, g.Reads total m (.more a) s (some q) := by
    intro a m s hm hl hf hn
    have := ihN s.length hl top (Nat.le_refl _) (.more a) m s hm (Nat.le_refl _)
      (by simp [Peg.fine, hn, Peg.fine_mono hk hf])
    obtain ⟨x, hx⟩ := this
    cases x with
    | some x => exact ⟨x, hx⟩
    | none =>
      obtain ⟨n, hx⟩ := hx
      cases n with
      | zero => simp [PegGrammar.run] at hx
      | succ n =>
        rw [PegGrammar.run] at hx
        rcases PegRes.other_some hx with ⟨_, h2⟩ | ⟨_, h2⟩
        · cases h2
        · exact absurd rfl h2
  induction e with
  | str t => intros; exact ⟨_, PegGrammar.reads_str t⟩
  | istr t => intros; exact ⟨_, PegGrammar.reads_istr t⟩
  | range lo hi =>
    intro m s _ _ _
    cases s with
    | nil => exact ⟨_, PegGrammar.reads_range_nil⟩
    | cons c s => exact ⟨_, PegGrammar.reads_range⟩
  | any =>
    intro m s _ _ _
    cases s with
    | nil => exact ⟨_, PegGrammar.reads_any_nil⟩
    | cons c s => exact ⟨_, PegGrammar.reads_any⟩
  | soi => intros; exact ⟨_, PegGrammar.reads_soi⟩
  | eoi => intros; exact ⟨_, PegGrammar.reads_eoi⟩
  | rule i =>
    intro m s hm hl hf
    simp only [Peg.fine, decide_eq_true_eq] at hf
    obtain ⟨x, hx⟩ := ihk (rank i) hf (by omega) (g.body i).2 ((g.body i).1.mode m) s (hP _ _ hm) hl (hc.fine i)
    exact ⟨_, PegGrammar.reads_rule hx⟩
  | seq a b iha ihb =>
    intro m s hm hl hf
    simp only [Peg.fine, Bool.and_eq_true] at hf
    obtain ⟨x, hx⟩ := iha m s hm hl hf.1
    cases x with
    | none => exact ⟨_, PegGrammar.reads_seq_none hx⟩
    | some x =>
      obtain ⟨l, r⟩ := x
      obtain ⟨l', r', hsk⟩ := hs m hm r
      have h1 := left hx; have h2 := left0 hsk; have h3 := h1.1.length_le
      have : ∃ y, g.Reads total m b r' y := by
        cases hn : a.nullable nul with
        | true => rw [hn, if_pos rfl] at hf; exact ihb m r' hm (by omega) hf.2
        | false =>
          rw [hn] at hf
          have h4 := h1.2 hn
          exact ihN r'.length (by omega) top (Nat.le_refl _) b m r' hm (Nat.le_refl _) (by simpa using hf.2)
      obtain ⟨y, hy⟩ := this
      exact ⟨_, PegGrammar.reads_seq hx hsk hy⟩
  | alt a b iha ihb =>
    intro m s hm hl hf
    simp only [Peg.fine, Bool.and_eq_true] at hf
    obtain ⟨x, hx⟩ := iha m s hm hl hf.1
    obtain ⟨y, hy⟩ := ihb m s hm hl hf.2
    exact ⟨_, PegGrammar.reads_alt hx hy⟩
  | opt a ih =>
    intro m s hm hl hf
    obtain ⟨x, hx⟩ := ih m s hm hl hf
    exact ⟨_, PegGrammar.reads_opt hx⟩
  | star a ih =>
    intro m s hm hl hf
    simp only [Peg.fine, Bool.and_eq_true, Bool.not_eq_true'] at hf
    obtain ⟨x, hx⟩ := ih m s hm hl hf.1
    cases x with
    | none => exact ⟨_, PegGrammar.reads_star_none hx⟩
    | some x =>
      obtain ⟨l, r⟩ := x
      have h1 := (left hx).2 hf.2
      obtain ⟨⟨q, q'⟩, hq⟩ := moreEnds a m r hm (by omega) hf.1 hf.2
      exact ⟨_, PegGrammar.reads_star hx hq⟩
  | more a ih =>
    intro m s hm hl hf
    simp only [Peg.fine, Bool.and_eq_true, Bool.not_eq_true'] at hf
    obtain ⟨l', r', hsk⟩ := hs m hm s
    have h2 := left0 hsk
    obtain ⟨x, hx⟩ := ih m r' hm (by omega) hf.1
    cases x with
    | none => exact ⟨_, PegGrammar.reads_more_none hsk hx⟩
    | some x =>
      obtain ⟨l, r⟩ := x
      have h1 := (left hx).2 hf.2
      obtain ⟨⟨q, q'⟩, hq⟩ := moreEnds a m r hm (by omega) hf.1 hf.2
      exact ⟨_, PegGrammar.reads_more hsk hx hq⟩
  | not a ih =>
    intro m s hm hl hf
    obtain ⟨x, hx⟩ := ih m s hm hl hf
    exact ⟨_, PegGrammar.reads_not hx⟩
  | look a ih =>
    intro m s hm hl hf
    obtain ⟨x, hx⟩ := ih m s hm hl hf
    exact ⟨_, PegGrammar.reads_look hx⟩

theorem PegGrammar.Ends.skips {nul : R → Bool} {rank : R → Nat} {top : Nat} (hc : g.Ends nul rank top)
    (hn : nul g.space = false ∧ nul g.comment = false) (m : PegMode) (s : Str) : ∃ l r, g.Skips total m s l r := by
  unfold PegGrammar.Skips
  split
  · have := hc.reads_aux (total := total) (fun m => m ≠ .free) (fun k m h e => h (PegKind.mode_free e))
      (fun m h s => ⟨[], s, by simp [PegGrammar.Skips, h]⟩) s.length top (Nat.le_refl _) g.skipper .atomic s (by simp) (Nat.le_refl _)
      (by simp [PegGrammar.skipper, Peg.fine, Peg.nullable, hn.1, hn.2, hc.below])
    obtain ⟨x, hx⟩ := this
    cases x with
    | some x => exact ⟨_, _, hx⟩
    | none =>
      exfalso
      obtain ⟨n, hx⟩ := hx
      cases n with
      | zero => simp [PegGrammar.run] at hx
      | succ n =>
        simp only [PegGrammar.skipper, PegGrammar.run] at hx
        have star : ∀ (a : Peg R) s, g.run total n .atomic (.star a) s ≠ some none := by
          intro a s h
          cases n with
          | zero => simp [PegGrammar.run] at h
          | succ n =>
            rw [PegGrammar.run] at h
            rcases PegRes.other_some h with ⟨_, h2⟩ | ⟨_, h2⟩
            · cases h2
            · exact absurd rfl h2
        rcases PegRes.next_some hx with ⟨h1, _⟩ | ⟨l, r, h1, ⟨h2, _⟩ | ⟨k, r', _, h3⟩⟩
        · exact star _ _ h1
        · rcases PegRes.next_some h2 with ⟨h3, _⟩ | ⟨l, r, h3, ⟨h4, _⟩ | ⟨k, r', _, h5⟩⟩
          · simp at h3
          · exact star _ _ h4
          · cases h5
        · cases h3
  · exact ⟨[], s, rfl, rfl⟩

/-- Every run ends. -/
theorem PegGrammar.Ends.reads {nul : R → Bool} {rank : R → Nat} {top : Nat} (hc : g.Ends nul rank top)
    (hn : nul g.space = false ∧ nul g.comment = false) (m : PegMode) (i : R) (s : Str) : ∃ x, g.Reads total m (.rule i) s x :=
  hc.reads_aux (fun _ => True) (fun _ _ _ => trivial) (fun m _ s => hc.skips hn m s) s.length top (Nat.le_refl _) (.rule i) m s trivial
    (Nat.le_refl _) (by simp [Peg.fine, hc.below])

/-- A rule that ends with the end of the text leaves nothing. -/
theorem PegGrammar.run_whole {n : Nat} {e f : Peg R} {s r : Str} {l : List (Pair R)}
    (h : g.run total n .free (.seq e (.seq f .eoi)) s = some (some (l, r))) : r = [] := by
  have seq : ∀ {n a b s l r}, g.run total n .free (.seq a b) s = some (some (l, r)) → ∃ n l s', g.run total n .free b s' = some (some (l, r)) := by
    intro n a b s l r h
    cases n with
    | zero => simp [PegGrammar.run] at h
    | succ n =>
      rw [PegGrammar.run] at h
      rcases PegRes.next_some h with ⟨_, h⟩ | ⟨_, _, _, ⟨_, h⟩ | ⟨_, _, h, h'⟩⟩
      · cases h
      · cases h
      · rcases PegRes.next_some h with ⟨_, h⟩ | ⟨_, q, _, ⟨_, h⟩ | ⟨k, q', h, h2⟩⟩
        · cases h
        · cases h
        · cases h'; cases h2; exact ⟨n, k, q, h⟩
  obtain ⟨n, l, s, h⟩ := seq h
  obtain ⟨n, l, s, h⟩ := seq h
  cases n with
  | zero => simp [PegGrammar.run] at h
  | succ n =>
    cases s with
    | nil => simp [PegGrammar.run] at h; exact h.2
    | cons c s => simp [PegGrammar.run] at h

end Rdftk
