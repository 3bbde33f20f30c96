import Verif.Lemmas.PegParts

/-! Documents of TriG in the hands of Turtle. -/

namespace Rdftk

open PegGrammar Spec

variable {T : Nat} {s r : Str} {l : List (Pair GRule)}

theorem inv_silent {i : GRule} (hk : (commonGrammar.body i).1 = .silent) (h : Rd T (.rule i) s l r) : Rd T (commonGrammar.body i).2 s l r := by
  obtain ⟨n, h⟩ := h
  cases n with
  | zero => cases h
  | succ n =>
    rw [PegGrammar.run, hk] at h
    simp only [PegKind.mode, PegKind.makes] at h
    split at h
    · cases h
    · cases h
    · rename_i k r' h'
      simp only [Option.some.injEq, Prod.mk.injEq] at h
      obtain ⟨h1, rfl⟩ := h
      exact ⟨n, by rw [h']; simp_all⟩

/-- A rule reads or refuses. -/
theorem rd_or_rej (T : Nat) (i : GRule) (s : Str) : (∃ k r, Rd T (.rule i) s k r) ∨ Rej T (.rule i) s := by
  obtain ⟨x, h⟩ := commonGrammar_ends.reads (total := T) ⟨rfl, rfl⟩ .free i s
  cases x with
  | none => exact .inr h
  | some x => exact .inl ⟨_, _, h⟩

theorem braces_append {l k : List (Pair GRule)} : Braces (l ++ k) ↔ Braces l ∨ Braces k := by
  simp only [Braces, under_append]
  constructor
  · rintro ((h | h) | (h | h) | (h | h)) <;> simp [h]
  · rintro ((h | h | h) | (h | h | h)) <;> simp [h]

theorem braces_nil : ¬ Braces [] := by simp [Braces, under_nil]

/-- A part of a document of TriG under the rules of Turtle. -/
theorem block_turtle (h : Rd T (.alt (.rule .directive) (.rule .block)) s l r) :
    (¬ Braces l ∧ Acc T (.rule .statement) s r) ∨ (Braces l ∧ s ≠ [] ∧ Rej T (.rule .statement) s) := by
  rcases inv_alt h with h | ⟨hd, h⟩
  · refine .inl ⟨?_, Acc.rule rfl (Acc.left h.acc)⟩
    obtain ⟨k, -, rfl⟩ := inv_rule rfl h
    simp [Braces, under_cons, under_nil]
  have hne : s ≠ [] := by
    rintro rfl
    exact h.rej_false (rej_empty (by decide) (by decide))
  have hb := inv_silent rfl h
  rcases inv_alt hb with hb | ⟨hl, hb⟩
  · obtain ⟨k, h1, rfl⟩ := inv_rule rfl hb
    obtain ⟨l1, r1, l2, h2, h3, rfl⟩ := inv_seq h1
    obtain ⟨k1, h4, rfl⟩ := inv_rule rfl h2
    have hsub : Acc T (.rule .turtleSubject) s r1 ∧ Rej T (.rule .blankNodePropertyList) s := by
      rcases inv_alt h4 with h4 | ⟨hi, h4⟩
      · refine ⟨Acc.rule rfl (Acc.left h4.acc), ?_⟩
        rcases rd_or_rej T .blankNodePropertyList s with ⟨k, r, h5⟩ | h5
        · exact (h4.rej_false (props_no_blank h5).1).elim
        · exact h5
      · refine ⟨Acc.rule rfl (Rej.right hi (Acc.left h4.acc)), ?_⟩
        rcases rd_or_rej T .blankNodePropertyList s with ⟨k, r, h5⟩ | h5
        · exact (h4.rej_false (props_no_blank h5).2).elim
        · exact h5
    rcases inv_alt h3 with h3 | ⟨-, h3⟩
    · obtain ⟨k2, h5, rfl⟩ := inv_rule rfl h3
      obtain ⟨l3, r3, l4, h6, h7, rfl⟩ := inv_seq h5
      obtain ⟨h8, -⟩ := inv_chr h6
      refine .inr ⟨by simp [Braces, under_cons, under_top], hne, Rej.rule rfl (Rej.alt hd (Rej.seq (Rej.rule rfl (Rej.alt
        (Acc.seq_rej hsub.1 ?_) (Rej.seq hsub.2)))))⟩
      rw [h8]; exact rej_pol (by decide)
    · obtain ⟨l3, r3, l4, h6, h7, rfl⟩ := inv_seq h3
      refine .inl ⟨?_, Acc.rule rfl (Rej.right hd (Acc.seq (Acc.rule rfl (Acc.left (Acc.seq hsub.1 h6.acc))) h7.acc))⟩
      obtain ⟨k2, -, rfl⟩ := inv_rule rfl h6
      obtain ⟨k3, -, rfl⟩ := inv_rule rfl h7
      simp [Braces, under_cons, under_nil]
  rcases inv_alt hb with hb | ⟨hw, hb⟩
  · obtain ⟨k2, h5, rfl⟩ := inv_rule rfl hb
    obtain ⟨l3, r3, l4, h6, h7, rfl⟩ := inv_seq h5
    obtain ⟨h8, -⟩ := inv_chr h6
    refine .inr ⟨by simp [Braces, under_cons, under_top], hne, ?_⟩
    rw [h8]; exact rej_statement (.inr (by decide))
  rcases inv_alt hb with hb | ⟨h2, hb⟩
  · obtain ⟨k, h1, rfl⟩ := inv_rule rfl hb
    refine .inl ⟨by simp [Braces, under_cons, under_nil], ?_⟩
    rcases inv_alt h1 with h1 | ⟨hp, h1⟩
    · obtain ⟨l1, r1, l2, h2, h3, rfl⟩ := inv_seq h1
      obtain ⟨l3, r3, l4, h4, h5, rfl⟩ := inv_seq h3
      obtain ⟨hi, hbl⟩ := props_no_blank h2
      have hsub : Rej T (.rule .turtleSubject) s := by
        obtain ⟨w, rfl, -⟩ := props_parts h2
        exact Rej.rule rfl (Rej.alt hi (Rej.alt hbl (Rej.alt (rej_coll (by decide)) (Rej.rule rfl (Rej.seq (rej_chr (by decide)))))))
      exact Acc.rule rfl (Rej.right hd (Acc.seq (Acc.rule rfl (Rej.right (Rej.seq hsub) (Acc.seq h2.acc h4.acc))) h5.acc))
    · obtain ⟨l1, r1, l2, h2, h3, rfl⟩ := inv_seq h1
      obtain ⟨l3, r3, l4, h4, h5, rfl⟩ := inv_seq h3
      have hsub : Acc T (.rule .turtleSubject) s r1 := by
        have := h2.acc
        obtain ⟨w, rfl⟩ := coll_head h2
        exact Acc.rule rfl (Rej.right (rej_iri (by decide) (by decide) (by decide) (by decide) (pIriRef_head (by decide)))
          (Rej.right (rej_blank (by decide) (by decide)) (Acc.left this)))
      exact Acc.rule rfl (Rej.right hd (Acc.seq (Acc.rule rfl (Acc.left (Acc.seq hsub h4.acc))) h5.acc))
  · obtain ⟨k, h1, rfl⟩ := inv_rule rfl hb
    obtain ⟨l1, r1, l2, h3, h4, rfl⟩ := inv_seq h1
    obtain ⟨h5, -⟩ := inv_str h3
    refine .inr ⟨by simp [Braces, under_cons, under_top], hne, ?_⟩
    have hg : ∃ w, s = 'G' :: w := by
      cases s with
      | nil => exact absurd rfl hne
      | cons c w =>
        simp only [stripPrefix] at h5
        split at h5
        · rename_i hc; exact ⟨w, by rw [hc]⟩
        · cases h5
    obtain ⟨w, rfl⟩ := hg
    rcases rd_or_rej T .statement ('G' :: w) with ⟨k', r', h6⟩ | h6
    · exfalso
      obtain ⟨k2, h7, rfl⟩ := inv_rule rfl h6
      rcases inv_alt h7 with h7 | ⟨-, h7⟩
      · exact h7.rej_false hd
      · obtain ⟨m1, q1, m2, h8, h9, rfl⟩ := inv_seq h7
        have hno : ∀ {rs : Str} {lp : List (Pair GRule)}, Rd T (.rule .predicateObjectList) (skip false rs) lp q1 →
            ¬ Acc T (.rule .labelOrSubject) ('G' :: w) rs := by
          intro rs lp hpol ha
          obtain ⟨c, v, ec, hc⟩ := pol_head hpol
          have : Acc T (.rule .triplesOrGraph) ('G' :: w) r' := Acc.rule rfl (Acc.seq ha (Rej.right
            (by rw [ec]; exact rej_wrapped fun e => hc (by simp [e])) (Acc.seq hpol.acc h9.acc)))
          obtain ⟨k, hk⟩ := this
          exact Rd.rej_false hk hl
        rcases triples_parts h8 with ⟨ls, rs, lp, t1, g1, g2, rfl⟩ | ⟨lb, rb, lp, t1, g1, g2, rfl⟩
        · obtain ⟨k3, g3, rfl⟩ := inv_rule rfl g1
          rcases inv_alt g3 with g3 | ⟨hi, g3⟩
          · exact hno g2 (Acc.rule rfl (Acc.left g3.acc))
          rcases inv_alt g3 with g3 | ⟨-, g3⟩
          · exact hno g2 (Acc.rule rfl (Rej.right hi g3.acc))
          rcases inv_alt g3 with g3 | ⟨-, g3⟩
          · obtain ⟨v, hv⟩ := coll_head g3; cases hv
          · obtain ⟨v, hv⟩ := quote_head g3; cases hv
        · obtain ⟨v, hv, -⟩ := props_parts g1; cases hv
    · exact h6

theorem blocks_turtle (h : Rd T (.more (.alt (.rule .directive) (.rule .block))) s l r) (hr : skip false r = []) :
    ∃ q, Acc T (.more (.rule .statement)) s q ∧ (skip false q = [] ↔ ¬ Braces l) := by
  refine more_induct (P := fun s l r => skip false r = [] → ∃ q, Acc T (.more (.rule .statement)) s q ∧ (skip false q = [] ↔ ¬ Braces l)) ?_ ?_ h hr
  · intro s _ hr
    refine ⟨s, Rej.more ?_, by simp [hr, braces_nil]⟩
    rw [hr]; exact rej_empty (by decide) (by decide)
  · intro s l1 r1 l2 r h1 _ ih hr
    rcases block_turtle h1 with ⟨hn, ha⟩ | ⟨hu, hne, hj⟩
    · obtain ⟨q, h3, h4⟩ := ih hr
      exact ⟨q, Acc.more ha h3, h4.trans (by simp [braces_append, hn])⟩
    · exact ⟨s, Rej.more hj, by simp [hne, braces_append, hu]⟩

theorem turtle_of_trig {s : Str} (h : Rd s.length (.rule .trigDoc) s l []) :
    (Acc s.length (.rule .turtleStarDoc) s [] ∧ ¬ ∃ p ∈ l, p.rule = some .trigDoc ∧ Braces p.inner) ∨
      (Rej s.length (.rule .turtleStarDoc) s ∧ ∃ p ∈ l, p.rule = some .trigDoc ∧ Braces p.inner) := by
  obtain ⟨k, h1, rfl⟩ := inv_rule rfl h
  obtain ⟨l1, r1, l2, h2, h3, rfl⟩ := inv_seq h1
  obtain ⟨l3, r3, l4, h4, h5, rfl⟩ := inv_seq h3
  have h2' : ([], s) = (l1, r1) := by
    have := reads_soi.det h2
    simpa using this
  cases h2'
  obtain ⟨hr, -, rfl⟩ := inv_eoi h5
  have e : ∀ t, (∃ p ∈ [Pair.mk (some GRule.trigDoc) t ([] ++ (l3 ++ [.mk none [] []]))], p.rule = some .trigDoc ∧ Braces p.inner) ↔ Braces l3 := by
    intro t
    simp only [List.mem_singleton, exists_eq_left, Pair.rule, Pair.inner, true_and, List.nil_append, braces_append]
    simp [Braces, Under, Pair.rule]
  rw [e]
  have h' : Rd s.length (.more (.alt (.rule .directive) (.rule .block))) (skip false s) l3 r3 := by
    rcases inv_star h4 with ⟨g1, rfl, rfl⟩ | ⟨l1, r1, l2, g1, h2, rfl⟩
    · exact reads_more_none (skips_free _) (by rw [skip_idem]; exact g1)
    · exact reads_more (skips_free _) (by rw [skip_idem]; exact g1) h2
  obtain ⟨q, h6, h7⟩ := blocks_turtle h' hr
  have h8 := more_star h6 (skip_idem _ _)
  by_cases he : skip false q = []
  · refine .inl ⟨?_, h7.1 he⟩
    refine Acc.rule rfl (Acc.seq (r := s) ⟨[], reads_soi.cast (by simp)⟩ (Acc.seq h8 ?_))
    rw [he]; exact ⟨[.mk none [] []], reads_eoi.cast (by simp)⟩
  · refine .inr ⟨?_, Classical.byContradiction fun hn => he (h7.2 hn)⟩
    refine Rej.rule rfl (Acc.seq_rej (r := s) ⟨[], reads_soi.cast (by simp)⟩ (Acc.seq_rej h8 ?_))
    exact reads_eoi.cast (by simp [he])

/-- The word in other letters before an IRI is nothing to TriG. -/
theorem rej_graph_case {w g u : Str} (hl : w.map asciiLower = (str! "GRAPH").map asciiLower) (hw : w ≠ (str! "GRAPH")) (hg : Gap g) :
    Rej T (.alt (.rule .directive) (.rule .block)) (w ++ (g ++ '<' :: u)) := by
  have hlen : w.length = 5 := by simpa using congrArg List.length hl
  obtain ⟨c1, c2, c3, c4, c5, rfl⟩ : ∃ c1 c2 c3 c4 c5, w = [c1, c2, c3, c4, c5] := by
    rcases w with _ | ⟨c1, _ | ⟨c2, _ | ⟨c3, _ | ⟨c4, _ | ⟨c5, _ | ⟨c6, t⟩⟩⟩⟩⟩⟩ <;> simp at hlen
    exact ⟨c1, c2, c3, c4, c5, rfl⟩
  have hs : stripPrefix (str! "GRAPH") ([c1, c2, c3, c4, c5] ++ (g ++ '<' :: u)) = none := by
    simp only [List.cons_append, List.nil_append, stripPrefix]
    repeat' split
    all_goals first | rfl | (subst_vars; exact absurd rfl hw)
  simp only [List.map_cons, List.map_nil, List.cons.injEq, and_true] at hl
  obtain ⟨e1, e2, e3, e4, e5⟩ := hl
  have b1 : isPnCharsBase c1 = true := lower_base (by rw [e1]; decide)
  have b2 : isPnCharsBase c2 = true := lower_base (by rw [e2]; decide)
  have b3 : isPnCharsBase c3 = true := lower_base (by rw [e3]; decide)
  have b4 : isPnCharsBase c4 = true := lower_base (by rw [e4]; decide)
  have b5 : isPnCharsBase c5 = true := lower_base (by rw [e5]; decide)
  have hne : ∀ x : Char, asciiLower x ≠ asciiLower 'G' → c1 ≠ x := by rintro x hx rfl; exact hx e1
  have hi : Rej T (.rule .iri) ([c1, c2, c3, c4, c5] ++ (g ++ '<' :: u)) := rej_word_lt (p := [c2, c3, c4, c5]) (w := u) b1 (by
    intro e he
    simp only [List.mem_cons, List.not_mem_nil, or_false] at he
    rcases he with rfl | rfl | rfl | rfl <;> exact base_pn (by assumption)) (by rw [skip_gap hg, skip_lt])
  refine Rej.alt (rej_no_directive ?_) (Rej.rule rfl (Rej.alt (Rej.rule rfl (Rej.seq (Rej.rule rfl (Rej.alt hi
    (rej_blank (hne _ (by decide)) (hne _ (by decide))))))) (Rej.alt (rej_wrapped (hne _ (by decide))) (Rej.alt
    (rej_triples2 (hne _ (by decide)) (hne _ (by decide))) (Rej.rule rfl (Rej.seq (rej_str hs)))))))
  simp only [List.mem_cons, List.not_mem_nil, or_false, not_or]
  exact ⟨hne _ (by decide), hne _ (by decide), hne _ (by decide), hne _ (by decide), hne _ (by decide)⟩

end Rdftk
