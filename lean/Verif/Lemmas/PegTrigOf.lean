import Verif.Lemmas.PegInv
import Verif.Spec.PairPath

/-! Statements of Turtle under the rules of TriG. -/

namespace Rdftk

open PegGrammar Spec

variable {T : Nat} {s r : Str} {l : List (Pair GRule)}

theorem under_append {x : GRule} {xs : List GRule} {l k : List (Pair GRule)} : Under (x :: xs) (l ++ k) ↔ Under (x :: xs) l ∨ Under (x :: xs) k := by
  simp only [Under, List.mem_append]
  constructor
  · rintro ⟨p, h | h, h2⟩
    · exact .inl ⟨p, h, h2⟩
    · exact .inr ⟨p, h, h2⟩
  · rintro (⟨p, h, h2⟩ | ⟨p, h, h2⟩)
    · exact ⟨p, .inl h, h2⟩
    · exact ⟨p, .inr h, h2⟩

theorem under_one {x : GRule} {xs : List GRule} {y : Option GRule} {t : Str} {k : List (Pair GRule)} :
    Under (x :: xs) [.mk y t k] ↔ y = some x ∧ Under xs k := by
  simp [Under, Pair.rule, Pair.inner]

theorem under_cons {x : GRule} {xs : List GRule} {y : Option GRule} {t : Str} {k l : List (Pair GRule)} :
    Under (x :: xs) (.mk y t k :: l) ↔ (y = some x ∧ Under xs k) ∨ Under (x :: xs) l := by
  simp [Under, Pair.rule, Pair.inner]

theorem under_top {l : List (Pair GRule)} : Under [] l := trivial

theorem under_nil {x : GRule} {xs : List GRule} : ¬ Under (x :: xs) [] := by simp [Under]

/-- What no list of predicates and objects begins with. -/
theorem rej_pol {c : Char} {u : Str} (h : c ∈ (str! "!^{.],;}")) : Rej T (.rule .predicateObjectList) (c :: u) := by
  have h1 : Rej T (.rule .iri) (c :: u) := by
    simp only [List.mem_cons, List.not_mem_nil, or_false] at h
    rcases h with rfl | rfl | rfl | rfl | rfl | rfl | rfl | rfl <;>
      exact rej_iri (by decide) (by decide) (by decide) (by decide) (pIriRef_head (by decide))
  refine Rej.rule rfl (Rej.seq (Rej.rule rfl (Rej.seq (Rej.rule rfl (Rej.alt (Rej.rule rfl h1) (rej_chr ?_))))))
  rintro rfl
  revert h
  decide

theorem pol_head (h : Rd T (.rule .predicateObjectList) s l r) : ∃ c w, s = c :: w ∧ c ∉ (str! "!^{.],;}") := by
  cases s with
  | nil => exact (h.rej_false (rej_empty (by decide) (by decide))).elim
  | cons c w => exact ⟨c, w, rfl, fun hc => h.rej_false (rej_pol hc)⟩

/-- The parts of a statement about something. -/
theorem triples_parts (h : Rd T (.rule .triples) s l r) :
    (∃ ls rs lp t1, Rd T (.rule .turtleSubject) s ls rs ∧ Rd T (.rule .predicateObjectList) (skip false rs) lp r ∧ l = [.mk (some .triples) t1 (ls ++ lp)]) ∨
    (∃ lb rb lp t1, Rd T (.rule .blankNodePropertyList) s lb rb ∧ Rd T (.opt (.rule .predicateObjectList)) (skip false rb) lp r ∧
      l = [.mk (some .triples) t1 (lb ++ lp)]) := by
  obtain ⟨k, h1, rfl⟩ := inv_rule rfl h
  rcases inv_alt h1 with h1 | ⟨-, h1⟩
  · obtain ⟨l1, r1, l2, h2, h3, rfl⟩ := inv_seq h1
    exact .inl ⟨l1, r1, l2, _, h2, h3, rfl⟩
  · obtain ⟨l1, r1, l2, h2, h3, rfl⟩ := inv_seq h1
    exact .inr ⟨l1, r1, l2, _, h2, h3, rfl⟩

theorem props_parts (h : Rd T (.rule .blankNodePropertyList) s l r) : ∃ w, s = '[' :: w ∧ ∃ k q, Rd T (.rule .predicateObjectList) (skip false w) k q := by
  obtain ⟨k, h1, rfl⟩ := inv_rule rfl h
  obtain ⟨l1, r1, l2, h2, h3, rfl⟩ := inv_seq h1
  obtain ⟨l3, r3, l4, h4, h5, rfl⟩ := inv_seq h3
  exact ⟨r1, (inv_chr h2).1, _, _, h4⟩

theorem coll_head (h : Rd T (.rule .collection) s l r) : ∃ w, s = '(' :: w := by
  obtain ⟨k, h1, rfl⟩ := inv_rule rfl h
  obtain ⟨l1, r1, l2, h2, h3, rfl⟩ := inv_seq h1
  exact ⟨r1, (inv_chr h2).1⟩

theorem quote_head (h : Rd T (.rule .tripleX) s l r) : ∃ w, s = '<' :: '<' :: w := by
  obtain ⟨k, h1, rfl⟩ := inv_rule rfl h
  obtain ⟨l1, r1, l2, h2, h3, rfl⟩ := inv_seq h1
  obtain ⟨h4, -⟩ := inv_str h2
  refine ⟨r1, ?_⟩
  have h4 : stripPrefix ('<' :: '<' :: []) s = some r1 := h4
  match s, h4 with
  | [], h4 => cases h4
  | [c], h4 => simp only [stripPrefix] at h4; split at h4 <;> cases h4
  | c :: d :: s, h4 =>
    simp only [stripPrefix] at h4
    split at h4
    · rename_i hc
      split at h4
      · rename_i hd; cases h4; rw [← hc, ← hd]
      · cases h4
    · cases h4

/-- Brackets with something inside are no blank node of their own. -/
theorem props_no_blank (h : Rd T (.rule .blankNodePropertyList) s l r) : Rej T (.rule .iri) s ∧ Rej T (.rule .blankNode) s := by
  obtain ⟨w, rfl, k, q, hp⟩ := props_parts h
  refine ⟨rej_iri (by decide) (by decide) (by decide) (by decide) (pIriRef_head (by decide)), ?_⟩
  obtain ⟨c, v, e, hc⟩ := pol_head hp
  refine Rej.rule rfl (Rej.alt ((reads_label _).cast ?_) (Rej.rule rfl (Acc.seq_rej (acc_str rfl) ?_)))
  · have : pLabel ('[' :: w) = none := by
      cases hl : pLabel ('[' :: w) with
      | none => rfl
      | some x => obtain ⟨-, t, ht⟩ := pLabel_join (s := '[' :: w) (a := x.1) (r := x.2) hl; have := (pLabel_join (s := '[' :: w) (a := x.1) (r := x.2) hl).1; rw [ht] at this; simp at this
    rw [this]; rfl
  · rw [e]; exact rej_chr fun e => hc (by simp [← e])

/-- A statement of Turtle under the rules of TriG. -/
theorem statement_trig (h : Rd T (.rule .statement) s l r) :
    (¬ Under [.statement, .triples, .turtleSubject, .tripleX] l ∧ Acc T (.alt (.rule .directive) (.rule .block)) s r) ∨
    (Under [.statement, .triples, .turtleSubject, .tripleX] l ∧ s ≠ [] ∧ Rej T (.alt (.rule .directive) (.rule .block)) s) := by
  obtain ⟨k, h1, rfl⟩ := inv_rule rfl h
  rcases inv_alt h1 with h1 | ⟨hd, h1⟩
  · refine .inl ⟨?_, Acc.left h1.acc⟩
    obtain ⟨k', -, rfl⟩ := inv_rule rfl h1
    simp [under_cons, under_nil]
  · obtain ⟨l1, r1, l2, h2, h3, rfl⟩ := inv_seq h1
    obtain ⟨k3, -, rfl⟩ := inv_rule rfl h3
    rcases triples_parts h2 with ⟨ls, rs, lp, t1, h4, h5, rfl⟩ | ⟨lb, rb, lp, t1, h4, h5, rfl⟩
    · obtain ⟨k5, -, hk5⟩ := inv_rule rfl h5
      obtain ⟨k4, h6, rfl⟩ := inv_rule rfl h4
      obtain ⟨c, w, ec, hc⟩ := pol_head h5
      have hw : Rej T (.rule .wrappedGraph) (skip false rs) := by rw [ec]; exact rej_wrapped fun e => hc (by simp [e])
      have hlabel : Acc T (.rule .labelOrSubject) s rs → Acc T (.alt (.rule .directive) (.rule .block)) s r := fun ha =>
        Rej.right hd (Acc.rule rfl (Acc.left (Acc.rule rfl (Acc.seq ha (Rej.right hw (Acc.seq h5.acc h3.acc))))))
      rcases inv_alt h6 with h6 | ⟨hi, h6⟩
      · refine .inl ⟨?_, hlabel (Acc.rule rfl (Acc.left h6.acc))⟩
        obtain ⟨k6, -, rfl⟩ := inv_rule rfl h6
        simp [under_cons, under_nil, hk5]
      · rcases inv_alt h6 with h6 | ⟨hb, h6⟩
        · refine .inl ⟨?_, hlabel (Acc.rule rfl (Rej.right hi h6.acc))⟩
          obtain ⟨k6, -, rfl⟩ := inv_rule rfl h6
          simp [under_cons, under_nil, hk5]
        · have hl : Rej T (.rule .triplesOrGraph) s := Rej.rule rfl (Rej.seq (Rej.rule rfl (Rej.alt hi hb)))
          rcases inv_alt h6 with h6 | ⟨hcl, h6⟩
          · refine .inl ⟨?_, Rej.right hd (Acc.rule rfl (Rej.right hl (Rej.right ?_ (Acc.left (Acc.rule rfl (Rej.right ?_ (Acc.seq h6.acc
              (Acc.seq h5.acc h3.acc)))))))) ⟩
            · obtain ⟨k6, -, rfl⟩ := inv_rule rfl h6
              simp [under_cons, under_nil, hk5]
            · obtain ⟨w, rfl⟩ := coll_head h6; exact rej_wrapped (by decide)
            · obtain ⟨w, rfl⟩ := coll_head h6; exact Rej.seq (rej_props (by decide))
          · obtain ⟨w, rfl⟩ := quote_head h6
            refine .inr ⟨?_, by simp, Rej.alt hd (Rej.rule rfl (Rej.alt hl (Rej.alt (rej_wrapped (by decide)) (Rej.alt
              (Rej.rule rfl (Rej.alt (Rej.seq (rej_props (by decide))) (Rej.seq hcl))) (Rej.rule rfl (Rej.seq (rej_chr (by decide))))))))⟩
            obtain ⟨k6, -, rfl⟩ := inv_rule rfl h6
            simp [under_cons, under_top]
    · obtain ⟨hi, hb⟩ := props_no_blank h4
      have hl : Rej T (.rule .triplesOrGraph) s := Rej.rule rfl (Rej.seq (Rej.rule rfl (Rej.alt hi hb)))
      refine .inl ⟨?_, Rej.right hd (Acc.rule rfl (Rej.right hl (Rej.right ?_ (Acc.left (Acc.rule rfl (Acc.left (Acc.seq h4.acc
        (Acc.seq h5.acc h3.acc))))))))⟩
      · obtain ⟨k4, -, rfl⟩ := inv_rule rfl h4
        rcases inv_opt h5 with h5 | ⟨-, rfl, -⟩
        · obtain ⟨k5, -, rfl⟩ := inv_rule rfl h5
          simp [under_cons, under_nil]
        · simp [under_cons, under_nil]
      · obtain ⟨w, rfl, -⟩ := props_parts h4; exact rej_wrapped (by decide)

/-- The same for any number of them. -/
theorem statements_trig (h : Rd T (.more (.rule .statement)) s l r) (hr : skip false r = []) :
    ∃ q, Acc T (.more (.alt (.rule .directive) (.rule .block))) s q ∧
      (skip false q = [] ↔ ¬ Under [.statement, .triples, .turtleSubject, .tripleX] l) := by
  refine more_induct (P := fun s l r => skip false r = [] → ∃ q, Acc T (.more (.alt (.rule .directive) (.rule .block))) s q ∧
      (skip false q = [] ↔ ¬ Under [.statement, .triples, .turtleSubject, .tripleX] l)) ?_ ?_ h hr
  · intro s _ hr
    refine ⟨s, Rej.more ?_, by simp [hr, under_nil]⟩
    rw [hr]; exact rej_empty (by decide) (by decide)
  · intro s l1 r1 l2 r h1 _ ih hr
    rcases statement_trig h1 with ⟨hn, ha⟩ | ⟨hu, hne, hj⟩
    · obtain ⟨q, h3, h4⟩ := ih hr
      exact ⟨q, Acc.more ha h3, h4.trans (by simp [under_append, hn])⟩
    · exact ⟨s, Rej.more hj, by simp [hne, under_append, hu]⟩

theorem statements_trig_star (h : Rd T (.star (.rule .statement)) s l r) (hs : skip false s = s) (hr : skip false r = []) :
    ∃ q, Acc T (.star (.alt (.rule .directive) (.rule .block))) s q ∧
      (skip false q = [] ↔ ¬ Under [.statement, .triples, .turtleSubject, .tripleX] l) := by
  rcases inv_star h with ⟨h1, rfl, rfl⟩ | ⟨l1, r1, l2, h1, h2, rfl⟩
  · refine ⟨r, Rej.star ?_, by simp [hr, under_nil]⟩
    rw [← hs, hr]; exact rej_empty (by decide) (by decide)
  · rcases statement_trig h1 with ⟨hn, ha⟩ | ⟨hu, hne, hj⟩
    · obtain ⟨q, h3, h4⟩ := statements_trig h2 hr
      exact ⟨q, Acc.star ha h3, h4.trans (by simp [under_append, hn])⟩
    · exact ⟨s, Rej.star hj, by simp [hs, hne, under_append, hu]⟩

end Rdftk
