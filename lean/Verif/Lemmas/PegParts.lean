import Verif.Lemmas.PegN3Prefix

/-! Documents of Turtle in the hands of TriG and N3. -/

namespace Rdftk

open PegGrammar Spec

variable {s r : Str} {l : List (Pair GRule)}

theorem turtle_parts {T : Nat} (h : Rd T (.rule .turtleStarDoc) s l r) (hT : T = s.length) : ∃ k t q, l = [.mk (some .turtleStarDoc) t k] ∧
    skip false q = [] ∧ (∃ ls, Rd T (.star (.rule .statement)) (skip false s) ls q ∧ k = ls ++ [.mk none [] []]) := by
  obtain ⟨k, h1, rfl⟩ := inv_rule rfl h
  obtain ⟨l1, r1, l2, h2, h3, rfl⟩ := inv_seq h1
  obtain ⟨l3, r3, l4, h4, h5, rfl⟩ := inv_seq h3
  have h2' : ([] , s) = (l1, r1) := by
    have := reads_soi.det h2
    simpa [hT] using this
  cases h2'
  obtain ⟨h6, -, rfl⟩ := inv_eoi h5
  exact ⟨_, _, _, rfl, h6, _, h4, rfl⟩

theorem under_doc {xs : List GRule} {x : GRule} {t : Str} {ls : List (Pair GRule)} :
    Under (.turtleStarDoc :: x :: xs) [.mk (some .turtleStarDoc) t (ls ++ [.mk none [] []])] ↔ Under (x :: xs) ls := by
  rw [under_one, under_append, under_one]; simp

theorem trig_undoc (h : Acc s.length (.star (.alt (.rule .directive) (.rule .block))) (skip false s) r) (hr : skip false r ≠ []) :
    Rej s.length (.rule .trigDoc) s := by
  refine Rej.rule rfl (Acc.seq_rej (r := s) ⟨[], reads_soi.cast (by simp)⟩ (Acc.seq_rej h ?_))
  exact reads_eoi.cast (by simp [hr])

theorem trig_of_turtle (h : Rd s.length (.rule .turtleStarDoc) s l []) :
    (Acc s.length (.rule .trigDoc) s [] ∧ ¬ Under [.turtleStarDoc, .statement, .triples, .turtleSubject, .tripleX] l) ∨
      (Rej s.length (.rule .trigDoc) s ∧ Under [.turtleStarDoc, .statement, .triples, .turtleSubject, .tripleX] l) := by
  obtain ⟨k, t, q, rfl, hq, ls, h1, rfl⟩ := turtle_parts h rfl
  obtain ⟨q', h2, h3⟩ := statements_trig_star h1 (by rw [skip_idem]) hq
  rw [under_doc]
  by_cases he : skip false q' = []
  · exact .inl ⟨trig_doc h2 he, h3.1 he⟩
  · exact .inr ⟨trig_undoc h2 he, Classical.byContradiction fun hn => he (h3.2 hn)⟩

theorem n3_of_turtle (h : Rd s.length (.rule .turtleStarDoc) s l []) :
    (Acc s.length (.rule .n3Doc) s [] ∧ ¬ ∃ p ∈ l, p.rule = some .turtleStarDoc ∧ NotN3 p.inner) ∨
      (Rej s.length (.rule .n3Doc) s ∧ ∃ p ∈ l, p.rule = some .turtleStarDoc ∧ NotN3 p.inner) := by
  obtain ⟨k, t, q, rfl, hq, ls, h1, rfl⟩ := turtle_parts h rfl
  obtain ⟨q', h2, h3⟩ := statements_n3_star_all h1 (by rw [skip_idem]) hq
  have e : (∃ p ∈ [Pair.mk (some GRule.turtleStarDoc) t (ls ++ [.mk none [] []])], p.rule = some .turtleStarDoc ∧ NotN3 p.inner) ↔ NotN3 ls := by
    simp only [List.mem_singleton, exists_eq_left, Pair.rule, Pair.inner, true_and, notN3_append]
    simp [NotN3, Under, Pair.rule]
  rw [e]
  by_cases he : skip false q' = []
  · exact .inl ⟨n3_doc h2 he, h3.1 he⟩
  · exact .inr ⟨n3_undoc h2 he, Classical.byContradiction fun hn => he (h3.2 hn)⟩

end Rdftk
