import Verif.Lemmas.PegBack
import Verif.Props.NTJoin
import Verif.Props.GrammarTurtle

/-! Documents that are joined: what a rule reads does not depend on what was read before. -/

namespace Rdftk

open PegGrammar Spec

/-- The rules of whole documents. -/
def GRule.whole : GRule → Bool
  | .n3Doc | .trigDoc | .turtleStarDoc | .nquadDoc | .ntripleDoc => true
  | _ => false

/-- The expression does not ask where the text begins. -/
def innerPeg : Peg GRule → Bool
  | .str _ | .istr _ | .range _ _ | .any | .eoi => true
  | .soi => false
  | .rule i => !i.whole
  | .seq a b | .alt a b => innerPeg a && innerPeg b
  | .opt a | .star a | .more a | .not a | .look a => innerPeg a

theorem inner_body (i : GRule) (h : i.whole = false) : innerPeg (commonGrammar.body i).2 = true := by
  cases i <;> first | rfl | cases h

theorem inner_skipper : innerPeg commonGrammar.skipper = true := rfl

/-- The length of the whole text does not matter inside of a document. -/
theorem run_total (T U n : Nat) (m : PegMode) (e : Peg GRule) (s : Str) (h : innerPeg e = true) :
    commonGrammar.run T n m e s = commonGrammar.run U n m e s := by
  induction n generalizing m e s with
  | zero => rfl
  | succ n ih =>
    cases e with
    | str t => rfl
    | istr t => rfl
    | range a b => cases s <;> rfl
    | any => cases s <;> rfl
    | soi => cases h
    | eoi => rfl
    | rule i => simp only [PegGrammar.run]; rw [ih _ _ _ (inner_body i (by simpa [innerPeg] using h))]
    | seq a b =>
      simp only [innerPeg, Bool.and_eq_true] at h
      simp only [PegGrammar.run, ih _ _ _ h.1, ih _ _ _ h.2, ih _ _ _ inner_skipper]
    | alt a b =>
      simp only [innerPeg, Bool.and_eq_true] at h
      simp only [PegGrammar.run, ih _ _ _ h.1, ih _ _ _ h.2]
    | opt a => simp only [PegGrammar.run, ih _ _ _ (show innerPeg a = true from h)]
    | star a => simp only [PegGrammar.run, ih _ _ _ (show innerPeg a = true from h), ih _ _ _ (show innerPeg (.more a) = true from h)]
    | more a =>
      simp only [PegGrammar.run, ih _ _ _ (show innerPeg a = true from h), ih _ _ _ (show innerPeg (.more a) = true from h),
        ih _ _ _ inner_skipper]
    | not a => simp only [PegGrammar.run, ih _ _ _ (show innerPeg a = true from h)]
    | look a => simp only [PegGrammar.run, ih _ _ _ (show innerPeg a = true from h)]

theorem Rd.total {T : Nat} (U : Nat) {e : Peg GRule} {s r : Str} {l : List (Pair GRule)} (he : innerPeg e = true) (h : Rd T e s l r) : Rd U e s l r := by
  obtain ⟨n, h⟩ := h
  exact ⟨n, by rw [run_total U T _ _ _ _ he]; exact h⟩

theorem Rej.total {T : Nat} (U : Nat) {e : Peg GRule} {s : Str} (he : innerPeg e = true) (h : Rej T e s) : Rej U e s := by
  obtain ⟨n, h⟩ := h
  exact ⟨n, by rw [run_total U T _ _ _ _ he]; exact h⟩

variable {T : Nat} {e : Peg GRule} {s r b : Str} {l k : List (Pair GRule)}

theorem Rd.both {r' : Str} (h : Rd T e s l r) (h' : Rd T e s k r') : l = k ∧ r = r' := by
  have := h.det h'
  simpa using this

/-- The expression, once after another, reads the text until `b` is left, white space aside. -/
inductive Chain (T : Nat) (e : Peg GRule) : Str → List (Pair GRule) → Str → Prop
  | stop {s b : Str} : skip false s = skip false b → Chain T e s [] b
  | go {s q b : Str} {l k : List (Pair GRule)} : Rd T e (skip false s) l q → Chain T e q k b → Chain T e s (l ++ k) b

/-- The expression, once after another, reads the whole text. -/
def ReadsAll (T : Nat) (e : Peg GRule) (s : Str) (l : List (Pair GRule)) : Prop := ∃ q, Rd T (.star e) (skip false s) l q ∧ skip false q = []

theorem Chain.cast {s' : Str} (h : Chain T e s l b) (hs : skip false s' = skip false s) : Chain T e s' l b := by
  cases h with
  | stop h => exact .stop (hs.trans h)
  | go h1 h2 => exact .go (by rw [hs]; exact h1) h2

theorem readsAll_more : (∃ q, Rd T (.more e) s l q ∧ skip false q = []) ↔ ReadsAll T e s l := by
  constructor
  · rintro ⟨q, h, hq⟩
    refine more_induct (P := fun s l q => skip false q = [] → ReadsAll T e s l) ?_ ?_ h hq
    · intro s hs hq
      exact ⟨skip false s, reads_star_none hs, by rw [skip_idem _ _]; exact hq⟩
    · intro s l1 r1 l2 r h1 h2 _ hr
      exact ⟨r, reads_star h1 h2, hr⟩
  · rintro ⟨q, h, hq⟩
    rcases inv_star h with ⟨h1, rfl, rfl⟩ | ⟨l1, r1, l2, h1, h2, rfl⟩
    · exact ⟨s, reads_more_none (skips_free s) h1, by rw [← skip_idem _ _]; exact hq⟩
    · exact ⟨q, reads_more (skips_free s) h1 h2, hq⟩

theorem Chain.whole (h : Chain T e s l b) : ReadsAll T e s k ↔ ∃ k', k = l ++ k' ∧ ReadsAll T e b k' := by
  induction h generalizing k with
  | @stop s b h => simp [ReadsAll, h]
  | @go s q b l l' h1 h2 ih =>
    constructor
    · rintro ⟨z, h, hz⟩
      rcases inv_star h with ⟨h3, -, -⟩ | ⟨k1, r1, k2, h3, h4, rfl⟩
      · exact (h1.rej_false h3).elim
      · obtain ⟨rfl, rfl⟩ := h1.both h3
        obtain ⟨k', rfl, h5⟩ := ih.1 (readsAll_more.1 ⟨z, h4, hz⟩)
        exact ⟨k', by simp, h5⟩
    · rintro ⟨k', rfl, h5⟩
      obtain ⟨z, h6, hz⟩ := readsAll_more.2 (ih.2 ⟨k', rfl, h5⟩)
      exact ⟨z, by rw [List.append_assoc]; exact reads_star h1 h6, hz⟩

/-- What the rule of a document reads. -/
theorem doc_readsAll {d : GRule} (hd : commonGrammar.body d = (.normal, .seq .soi (.seq (.star e) .eoi))) :
    Rd s.length (.rule d) s l [] ↔ ∃ k, ReadsAll s.length e s k ∧ l = [.mk (some d) s (k ++ [.mk none [] []])] := by
  constructor
  · intro h
    obtain ⟨k, h1, rfl⟩ := inv_rule (by rw [hd]) h
    rw [hd] at h1
    obtain ⟨l1, r1, l2, h2, h3, rfl⟩ := inv_seq h1
    obtain ⟨l3, r3, l4, h4, h5, rfl⟩ := inv_seq h3
    have h2' : ([], s) = (l1, r1) := by
      have := reads_soi.det h2
      simpa using this
    cases h2'
    obtain ⟨h6, -, rfl⟩ := inv_eoi h5
    exact ⟨l3, ⟨r3, h4, h6⟩, by simp [textRead]⟩
  · rintro ⟨k, ⟨q, h1, h2⟩, rfl⟩
    have h3 : Rd s.length .soi s [] s := reads_soi.cast (by simp)
    have h4 : Rd s.length .eoi (skip false q) [.mk none [] []] [] := by rw [h2]; exact reads_eoi.cast (by simp)
    have h5 : Rd s.length (commonGrammar.body d).2 s ([] ++ (k ++ [.mk none [] []])) [] := by
      rw [hd]; exact reads_seq h3 (skips_free s) (reads_seq h1 (skips_free q) h4)
    have := reads_rule (g := commonGrammar) (m := .free) (i := d) (x := some (_, [])) (by rw [hd] at h5 ⊢; exact h5)
    refine this.cast ?_
    simp [hd, PegKind.makes, textRead]

theorem ReadsAll.total {U : Nat} (he : innerPeg e = true) (h : ReadsAll T e s l) : ReadsAll U e s l := by
  obtain ⟨q, h1, h2⟩ := h
  exact ⟨q, h1.total U he, h2⟩

/-- A document begins with what has been read of it, and goes on with a document. -/
theorem Chain.doc {d : GRule} (hd : commonGrammar.body d = (.normal, .seq .soi (.seq (.star e) .eoi))) (he : innerPeg e = true)
    (h : Chain s.length e s l b) (x : List (Pair GRule)) :
    Rd s.length (.rule d) s x [] ↔ ∃ k, x = [.mk (some d) s (l ++ k)] ∧ Rd b.length (.rule d) b [.mk (some d) b k] [] := by
  rw [doc_readsAll hd]
  constructor
  · rintro ⟨k, h1, rfl⟩
    obtain ⟨k', rfl, h2⟩ := h.whole.1 h1
    exact ⟨k' ++ [.mk none [] []], by simp, (doc_readsAll hd).2 ⟨k', h2.total he, rfl⟩⟩
  · rintro ⟨k, rfl, h1⟩
    obtain ⟨k', h2, e⟩ := (doc_readsAll hd).1 h1
    simp only [List.cons.injEq, Pair.mk.injEq, true_and, and_true] at e
    subst e
    exact ⟨l ++ k', h.whole.2 ⟨k', rfl, h2.total he⟩, by simp⟩

/-- Lines of N-Triples before any text. -/
theorem chain_lines (hp : ∀ {T s l r}, pTriple s = some (l, r) → Acc T e s r) {ls : List RLine} {a : Str} (h : LinesAt TripleAt ls a)
    (he : EndsLine a) (b : Str) : ∃ l, Chain T e (a ++ b) l b := by
  induction h with
  | last h => exact ⟨[], .stop (skip_gap (lastGap_endsLine h he) b)⟩
  | @line l ls g t r hg ho _ ih =>
    have hr : r ≠ [] := by
      rintro rfl
      obtain ⟨x, rfl⟩ := tripleAt_dot ho
      rcases he with h | ⟨z, nl, hn, e⟩
      · simp at h
      · have := List.append_inj' (s₁ := g ++ x) (t₁ := ['.']) (s₂ := z) (t₂ := [nl]) (by simpa using e) rfl
        have := this.2
        simp only [List.cons.injEq, and_true] at this
        subst this
        revert hn; decide
    obtain ⟨k, ih⟩ := ih (endsLine_tail (x := g ++ t) (by simpa using he) hr)
    obtain ⟨h1, h2, -⟩ := pTriple_one (tripleAt_more (b := b) hr ho)
    obtain ⟨j, h3⟩ := hp (T := T) h1
    refine ⟨j ++ k, .go (q := r ++ b) ?_ ih⟩
    rw [show g ++ (t ++ r) ++ b = g ++ (t ++ (r ++ b)) by simp, skip_gap_solid hg h2]
    exact h3

/-- Statements of Turtle before any text. -/
theorem Stmts.chain {t : Str} (h : Stmts t) (b s : Str) (hs : skip false s = skip false (t ++ b)) : ∃ l, Chain T (.rule .statement) s l b := by
  induction h generalizing s with
  | nil => exact ⟨[], .stop hs⟩
  | @blank g t hg _ ih => exact ih s (by rw [hs, List.append_assoc, hg.skip])
  | @stmt h t hh _ ih =>
    obtain ⟨r1, ⟨l, h1⟩, h2⟩ := hh T (t ++ b)
    obtain ⟨k, h3⟩ := ih r1 h2
    exact ⟨l ++ k, .go (by rw [hs, List.append_assoc]; exact h1) h3⟩

end Rdftk
