import Verif.Lemmas.PegTrigOf

/-! Statements of Turtle under the rules of N3. -/

namespace Rdftk

open PegGrammar Spec

variable {T : Nat} {s r : Str} {l : List (Pair GRule)} {a b c : Peg GRule}

theorem inv_seq_rej (h : Rej T (.seq a b) s) : Rej T a s ∨ ∃ k r, Rd T a s k r ∧ Rej T b (skip false r) := by
  obtain ⟨n, h⟩ := h
  cases n with
  | zero => cases h
  | succ n =>
    rw [PegGrammar.run] at h
    rcases next_none h with h | ⟨l1, r1, h1, h2⟩
    · exact .inl ⟨n, h⟩
    · refine .inr ⟨l1, r1, ⟨n, h1⟩, ?_⟩
      rw [if_pos rfl] at h2
      rcases next_none h2 with h2 | ⟨k, q, h2, h3⟩
      · cases run_skip h2
      · have := run_skip h2
        simp only [Option.some.injEq, Prod.mk.injEq] at this
        obtain ⟨rfl, rfl⟩ := this
        exact ⟨n, h3⟩

theorem inv_alt_rej (h : Rej T (.alt a b) s) : Rej T a s ∧ Rej T b s := by
  obtain ⟨n, h⟩ := h
  cases n with
  | zero => cases h
  | succ n =>
    rw [PegGrammar.run] at h
    obtain ⟨h1, h2⟩ := other_none h
    exact ⟨⟨n, h1⟩, ⟨n, h2⟩⟩

theorem inv_rule_rej {i : GRule} (hk : (commonGrammar.body i).1 = .normal) (h : Rej T (.rule i) s) : Rej T (commonGrammar.body i).2 s := by
  obtain ⟨n, h⟩ := h
  cases n with
  | zero => cases h
  | succ n =>
    rw [PegGrammar.run, hk] at h
    simp only [PegKind.mode] at h
    split at h
    · cases h
    · rename_i h'; exact ⟨n, h'⟩
    · cases h

theorem Acc.assoc {r' : Str} (h : Acc T (.seq a b) s r) (hc : Acc T c (skip false r) r') : Acc T (.seq a (.seq b c)) s r' := by
  obtain ⟨k, h⟩ := h
  obtain ⟨l1, r1, l2, h1, h2, -⟩ := inv_seq h
  exact Acc.seq h1.acc (Acc.seq h2.acc hc)

theorem Rej.assoc (h : Rej T (.seq a b) s) : Rej T (.seq a (.seq b c)) s := by
  rcases inv_seq_rej h with h | ⟨k, r, h1, h2⟩
  · exact Rej.seq h
  · exact Acc.seq_rej h1.acc (Rej.seq h2)

/-- Nothing of what an item of N3 can be. -/
theorem rej_item (hi : Rej T (.rule .iri) s) (hb : Rej T (.rule .blankNode) s) (hq : Rej T (.rule .quickVar) s) (hc : Rej T (.rule .collection) s)
    (hp : Rej T (.rule .blankNodePropertyList) s) (hl : Rej T (.rule .turtleLiteral) s) (hf : Rej T (.rule .formula) s) : Rej T (.rule .expression) s :=
  Rej.rule rfl (Rej.rule rfl (Rej.seq (Rej.rule rfl (Rej.alt hi (Rej.alt hb (Rej.alt hq (Rej.alt hc (Rej.alt hp (Rej.alt hl hf)))))))))

/-! ### Objects -/

/-- What no object of Turtle begins with. -/
theorem rej_object {c : Char} {u : Str} (h : c ∈ (str! "!^{],;}")) : Rej T (.rule .turtleObject) (c :: u) := by
  simp only [List.mem_cons, List.not_mem_nil, or_false] at h
  rcases h with rfl | rfl | rfl | rfl | rfl | rfl | rfl <;>
    exact Rej.rule rfl (Rej.alt (rej_iri (by decide) (by decide) (by decide) (by decide) (pIriRef_head (by decide))) (Rej.alt
      (rej_blank (by decide) (by decide)) (Rej.alt (rej_turtleLiteral (by decide) (by decide) (by simp)) (Rej.alt (rej_coll (by decide))
        (Rej.alt (rej_props (by decide)) (Rej.rule rfl (Rej.seq (rej_chr (by decide)))))))))

theorem literal_head (h : Rd T (.rule .turtleLiteral) s l r) : ∃ c w, s = c :: w ∧ c ∉ (str! "?([{") := by
  cases s with
  | nil => exact (h.rej_false (rej_empty (by decide) (by decide))).elim
  | cons c w =>
    refine ⟨c, w, rfl, fun hc => h.rej_false ?_⟩
    simp only [List.mem_cons, List.not_mem_nil, or_false] at hc
    rcases hc with rfl | rfl | rfl | rfl <;> exact rej_turtleLiteral (by decide) (by decide) (by simp)

/-- An object of Turtle under the rules of N3. -/
theorem object_n3 (h : Rd T (.rule .turtleObject) s l r) {d : Char} {v : Str} (hd : skip false r = d :: v) (h1 : d ≠ '!') (h2 : d ≠ '^') :
    (¬ Under [.turtleObject, .tripleX] l ∧ Acc T (.rule .n3Object) s (d :: v)) ∨ (Under [.turtleObject, .tripleX] l ∧ Rej T (.rule .n3Object) s) := by
  obtain ⟨k, h3, rfl⟩ := inv_rule rfl h
  have hit : Acc T (.rule .pathItem) s r → Acc T (.rule .n3Object) s (d :: v) := fun h => Acc.rule rfl (acc_expression h hd h1 h2)
  rcases inv_alt h3 with h3 | ⟨hi, h3⟩
  · refine .inl ⟨?_, hit (Acc.rule rfl (Acc.left h3.acc))⟩
    obtain ⟨k, -, rfl⟩ := inv_rule rfl h3
    simp [under_cons, under_nil]
  rcases inv_alt h3 with h3 | ⟨hb, h3⟩
  · refine .inl ⟨?_, hit (Acc.rule rfl (Rej.right hi (Acc.left h3.acc)))⟩
    obtain ⟨k, -, rfl⟩ := inv_rule rfl h3
    simp [under_cons, under_nil]
  rcases inv_alt h3 with h3 | ⟨hl, h3⟩
  · obtain ⟨c, w, rfl, hc⟩ := literal_head h3
    refine .inl ⟨?_, hit (Acc.rule rfl (Rej.right hi (Rej.right hb (Rej.right (rej_quickVar fun e => hc (by simp [e])) (Rej.right
      (rej_coll fun e => hc (by simp [e])) (Rej.right (rej_props fun e => hc (by simp [e])) (Acc.left h3.acc)))))))⟩
    obtain ⟨k, -, rfl⟩ := inv_rule rfl h3
    simp [under_cons, under_nil]
  rcases inv_alt h3 with h3 | ⟨hc, h3⟩
  · obtain ⟨w, rfl⟩ := coll_head h3
    refine .inl ⟨?_, hit (Acc.rule rfl (Rej.right hi (Rej.right hb (Rej.right (rej_quickVar (by decide)) (Acc.left h3.acc)))))⟩
    obtain ⟨k, -, rfl⟩ := inv_rule rfl h3
    simp [under_cons, under_nil]
  rcases inv_alt h3 with h3 | ⟨hp, h3⟩
  · obtain ⟨w, rfl, -⟩ := props_parts h3
    refine .inl ⟨?_, hit (Acc.rule rfl (Rej.right hi (Rej.right hb (Rej.right (rej_quickVar (by decide)) (Rej.right hc (Acc.left h3.acc))))))⟩
    obtain ⟨k, -, rfl⟩ := inv_rule rfl h3
    simp [under_cons, under_nil]
  · obtain ⟨w, rfl⟩ := quote_head h3
    refine .inr ⟨?_, Rej.rule rfl (rej_item hi hb (rej_quickVar (by decide)) hc hp hl (rej_formula (by decide)))⟩
    obtain ⟨k, -, rfl⟩ := inv_rule rfl h3
    simp [under_cons, under_top]

theorem n3_object_head (h : Rd T (.rule .turtleObject) s l r) : ∃ c w, s = c :: w ∧ c ∉ (str! "!^{],;}") := by
  cases s with
  | nil => exact (h.rej_false (rej_empty (by decide) (by decide))).elim
  | cons c w => exact ⟨c, w, rfl, fun hc => h.rej_false (rej_object hc)⟩

/-- What follows one of several things with a sign between them. -/
theorem more_next {x : Char} (h : Rd T (.more (.seq (.str [x]) b)) s l r) {c : Char} {w : Str} (hr : skip false r = c :: w) :
    ∃ d v, skip false s = d :: v ∧ (d = x ∨ (d = c ∧ v = w)) := by
  refine more_induct (P := fun s _ r => skip false r = c :: w → ∃ d v, skip false s = d :: v ∧ (d = x ∨ (d = c ∧ v = w))) ?_ ?_ h hr
  · intro s _ hr; exact ⟨c, w, hr, .inr ⟨rfl, rfl⟩⟩
  · intro s l1 r1 l2 r h1 _ _ _
    obtain ⟨k1, q, k2, h2, -, -⟩ := inv_seq h1
    exact ⟨x, q, (inv_chr h2).1, .inl rfl⟩

/-- The parts of one more thing behind a sign. -/
theorem item_parts {x : Char} (h : Rd T (.seq (.str [x]) b) s l r) : ∃ w, s = x :: w ∧ Rd T b (skip false w) l r := by
  obtain ⟨k1, q, k2, h2, h3, rfl⟩ := inv_seq h
  obtain ⟨rfl, rfl⟩ := inv_chr h2
  exact ⟨q, rfl, h3⟩

theorem skip_one {c : Char} {v s : Str} (h : skip false s = c :: v) : skip false (c :: v) = c :: v := skip_self h

/-- The objects after the first. -/
theorem objects_n3 (h : Rd T (.more (.seq (.str (str! ",")) (.rule .turtleObject))) s l r) {c : Char} {w : Str} (hr : skip false r = c :: w)
    (hc : c = ';' ∨ c = '.') : ∀ s', skip false s' = skip false s → ∃ r', Acc T (.more (.seq (.str (str! ",")) (.rule .n3Object))) s' r' ∧
      ((¬ Under [.turtleObject, .tripleX] l ∧ skip false r' = c :: w) ∨ (Under [.turtleObject, .tripleX] l ∧ ∃ w', skip false r' = ',' :: w')) := by
  refine more_induct (P := fun s l r => skip false r = c :: w → ∀ s', skip false s' = skip false s → ∃ r',
      Acc T (.more (.seq (.str (str! ",")) (.rule .n3Object))) s' r' ∧
      ((¬ Under [.turtleObject, .tripleX] l ∧ skip false r' = c :: w) ∨ (Under [.turtleObject, .tripleX] l ∧ ∃ w', skip false r' = ',' :: w'))) ?_ ?_ h hr
  · intro s _ hr s' hs
    refine ⟨s', Rej.more ?_, .inl ⟨under_nil, hs.trans hr⟩⟩
    rw [hs, hr]
    exact Rej.seq (rej_chr (by rcases hc with rfl | rfl <;> decide))
  · intro s l1 r1 l2 r h1 h2 ih hr s' hs
    obtain ⟨u, hu, h3⟩ := item_parts h1
    obtain ⟨d, v, hd, hdc⟩ := more_next h2 hr
    have hd1 : d ≠ '!' ∧ d ≠ '^' := by rcases hdc with rfl | ⟨rfl, -⟩ <;> [decide; (rcases hc with rfl | rfl <;> decide)]
    rcases object_n3 h3 hd hd1.1 hd1.2 with ⟨hn, ha⟩ | ⟨hn, hj⟩
    · obtain ⟨r', h4, h5⟩ := ih hr (d :: v) (by rw [skip_one hd, hd])
      refine ⟨r', Acc.more (r := d :: v) ?_ h4, ?_⟩
      · rw [hs, hu]; exact Acc.seq (acc_str rfl) ha
      · simpa [under_append, hn] using h5
    · refine ⟨s', Rej.more ?_, .inr ⟨by simp [under_append, hn], u, hs.trans hu⟩⟩
      rw [hs, hu]
      exact Acc.seq_rej (acc_str rfl) hj

/-- A list of objects. -/
theorem objectList_n3 (h : Rd T (.rule .objectList) s l r) {c : Char} {w : Str} (hr : skip false r = c :: w) (hc : c = ';' ∨ c = '.') :
    (¬ Under [.objectList, .turtleObject, .tripleX] l ∧ ∃ r', Acc T (.rule .n3ObjectList) s r' ∧ skip false r' = c :: w) ∨
    (Under [.objectList, .turtleObject, .tripleX] l ∧ (Rej T (.rule .n3ObjectList) s ∨ ∃ r' w', Acc T (.rule .n3ObjectList) s r' ∧ skip false r' = ',' :: w')) := by
  obtain ⟨k, h1, rfl⟩ := inv_rule rfl h
  obtain ⟨l1, r1, l2, h2, h3, rfl⟩ := inv_seq h1
  have hu : ∀ t, Under [.objectList, .turtleObject, .tripleX] [.mk (some .objectList) t (l1 ++ l2)] ↔
      Under [.turtleObject, .tripleX] l1 ∨ Under [.turtleObject, .tripleX] l2 := fun t => by simp [under_cons, under_nil, under_append]
  rw [hu]
  rcases inv_star h3 with ⟨hj, rfl, rfl⟩ | ⟨k1, q, k2, h4, h5, rfl⟩
  · rw [skip_idem] at hr
    have hd1 : c ≠ '!' ∧ c ≠ '^' := by rcases hc with rfl | rfl <;> decide
    rcases object_n3 h2 hr hd1.1 hd1.2 with ⟨hn, ha⟩ | ⟨hn, hj⟩
    · refine .inl ⟨by simp [hn, under_nil], c :: w, Acc.rule rfl (Acc.seq ha ?_), skip_one hr⟩
      rw [skip_one hr]
      exact Rej.star (Rej.seq (rej_chr (by rcases hc with rfl | rfl <;> decide)))
    · exact .inr ⟨.inl hn, .inl (Rej.rule rfl (Rej.seq hj))⟩
  · obtain ⟨u, hu', h6⟩ := item_parts h4
    rcases object_n3 h2 hu' (by decide) (by decide) with ⟨hn, ha⟩ | ⟨hn, hj⟩
    · obtain ⟨d, v, hd, hdc⟩ := more_next h5 hr
      have hd1 : d ≠ '!' ∧ d ≠ '^' := by rcases hdc with rfl | ⟨rfl, -⟩ <;> [decide; (rcases hc with rfl | rfl <;> decide)]
      rcases object_n3 h6 hd hd1.1 hd1.2 with ⟨hn', ha'⟩ | ⟨hn', hj'⟩
      · obtain ⟨r', h7, h8⟩ := objects_n3 h5 hr hc (d :: v) (by rw [skip_one hd, hd])
        have : Acc T (.rule .n3ObjectList) s r' := by
          refine Acc.rule rfl (Acc.seq ha ?_)
          rw [skip_one hu']
          exact Acc.star (Acc.seq (acc_str rfl) ha') h7
        rcases h8 with ⟨h8, h9⟩ | ⟨h8, w', h9⟩
        · exact .inl ⟨by simp [under_append, hn, hn', h8], r', this, h9⟩
        · exact .inr ⟨.inr (by simp [under_append, h8]), .inr ⟨r', w', this, h9⟩⟩
      · refine .inr ⟨.inr (by simp [under_append, hn']), .inr ⟨',' :: u, u, Acc.rule rfl (Acc.seq ha ?_), skip_one hu'⟩⟩
        rw [skip_one hu']
        exact Rej.star (Acc.seq_rej (acc_str rfl) hj')
    · exact .inr ⟨.inl hn, .inl (Rej.rule rfl (Rej.seq hj))⟩

/-! ### Verbs -/

/-- A verb of Turtle under the rules of N3. -/
theorem verb_n3 (h : Rd T (.rule .verb) s l r) {d : Char} {v : Str} (hd : skip false r = d :: v) (h1 : d ≠ '!') (h2 : d ≠ '^') :
    ∃ r', Acc T (.rule .n3Verb) s r' ∧ skip false r' = d :: v := by
  obtain ⟨k, h3, rfl⟩ := inv_rule rfl h
  rcases inv_alt h3 with h3 | ⟨hp, h3⟩
  · obtain ⟨k', h4, -⟩ := inv_rule rfl h3
    exact ⟨d :: v, n3_verb h4.acc hd ⟨h1, h2⟩, skip_one hd⟩
  · obtain ⟨rfl, rfl⟩ := inv_chr h3
    have hi : Rej T (.rule .iri) ('a' :: r) := inv_rule_rej rfl hp
    have he : Rej T (.rule .expression) ('a' :: r) := rej_item hi (rej_blank (by decide) (by decide)) (rej_quickVar (by decide)) (rej_coll (by decide))
      (rej_props (by decide)) (rej_turtleLiteral (by decide) (by decide) (by simp)) (rej_formula (by decide))
    exact ⟨r, Acc.rule rfl (Rej.right (Rej.rule rfl (Rej.alt he (Rej.seq (rej_chr (by decide))))) (Acc.left (acc_str rfl))), hd⟩

theorem verb_head (h : Rd T (.rule .verb) s l r) : ∃ c w, s = c :: w ∧ c ∉ (str! "!^{.],;}") := by
  cases s with
  | nil => exact (h.rej_false (rej_empty (by decide) (by decide))).elim
  | cons c w =>
    refine ⟨c, w, rfl, fun hc => h.rej_false ?_⟩
    have h1 : Rej T (.rule .iri) (c :: w) := by
      simp only [List.mem_cons, List.not_mem_nil, or_false] at hc
      rcases hc with rfl | rfl | rfl | rfl | rfl | rfl | rfl | rfl <;>
        exact rej_iri (by decide) (by decide) (by decide) (by decide) (pIriRef_head (by decide))
    refine Rej.rule rfl (Rej.alt (Rej.rule rfl h1) (rej_chr ?_))
    rintro rfl
    revert hc
    decide

/-- A verb with its objects. -/
theorem verbObjects_n3 (h : Rd T (.rule .verbObjectList) s l r) {c : Char} {w : Str} (hr : skip false r = c :: w) (hc : c = ';' ∨ c = '.') :
    (¬ Under [.verbObjectList, .objectList, .turtleObject, .tripleX] l ∧ ∃ r', Acc T (.seq (.rule .n3Verb) (.rule .n3ObjectList)) s r' ∧
      skip false r' = c :: w) ∨
    (Under [.verbObjectList, .objectList, .turtleObject, .tripleX] l ∧ (Rej T (.seq (.rule .n3Verb) (.rule .n3ObjectList)) s ∨
      ∃ r' w', Acc T (.seq (.rule .n3Verb) (.rule .n3ObjectList)) s r' ∧ skip false r' = ',' :: w')) := by
  obtain ⟨k, h1, rfl⟩ := inv_rule rfl h
  obtain ⟨l1, r1, l2, h2, h3, rfl⟩ := inv_seq h1
  obtain ⟨k1, -, hk1⟩ := inv_rule rfl h2
  have hu : ∀ t, Under [.verbObjectList, .objectList, .turtleObject, .tripleX] [.mk (some .verbObjectList) t (l1 ++ l2)] ↔
      Under [.objectList, .turtleObject, .tripleX] l2 := fun t => by simp [under_cons, under_nil, hk1]
  rw [hu]
  obtain ⟨d, v, hd, hdc⟩ : ∃ c w, skip false r1 = c :: w ∧ c ∉ (str! "!^{],;}") := by
    obtain ⟨k3, h4, -⟩ := inv_rule rfl h3
    obtain ⟨_, _, _, h5, -, -⟩ := inv_seq h4
    exact n3_object_head h5
  obtain ⟨r', h4, h5⟩ := verb_n3 h2 hd (fun e => hdc (by simp [e])) (fun e => hdc (by simp [e]))
  rw [hd, ← h5] at h3
  rcases objectList_n3 h3 hr hc with ⟨hn, q, h6, h7⟩ | ⟨hn, hj | ⟨q, w', h6, h7⟩⟩
  · exact .inl ⟨hn, q, Acc.seq h4 h6, h7⟩
  · exact .inr ⟨hn, .inl (Acc.seq_rej h4 hj)⟩
  · exact .inr ⟨hn, .inr ⟨q, w', Acc.seq h4 h6, h7⟩⟩

theorem verbObjects_head (h : Rd T (.rule .verbObjectList) s l r) : ∃ c w, s = c :: w ∧ c ∉ (str! "!^{.],;}") := by
  obtain ⟨k3, h4, -⟩ := inv_rule rfl h
  obtain ⟨_, _, _, h5, -, -⟩ := inv_seq h4
  exact verb_head h5

/-- No verb of N3 begins with the end of a statement, or with what stands between predicates. -/
theorem rej_n3Verb_end {c : Char} {w : Str} (hc : c = ';' ∨ c = '.') (hw : c = '.' → NoDigit w) : Rej T (.rule .n3Verb) (c :: w) := by
  have he : Rej T (.rule .expression) (c :: w) := by
    rcases hc with rfl | rfl <;>
      exact rej_item (rej_iri (by decide) (by decide) (by decide) (by decide) (pIriRef_head (by decide))) (rej_blank (by decide) (by decide))
        (rej_quickVar (by decide)) (rej_coll (by decide)) (rej_props (by decide)) (rej_turtleLiteral (by decide) (by decide) hw)
        (rej_formula (by decide))
  rcases hc with rfl | rfl <;>
    exact Rej.rule rfl (Rej.alt (Rej.rule rfl (Rej.alt he (Rej.seq (rej_chr (by decide))))) (Rej.alt (rej_chr (by decide)) (Rej.alt
      (Rej.seq (rej_chr (by decide))) (Rej.alt (Rej.seq (rej_chr (by decide))) (Rej.alt (rej_chr (by decide)) (Rej.alt (rej_chr (by decide))
        (rej_chr (by decide))))))))

/-! ### Predicates with their objects -/

/-- The predicates after the first. -/
theorem tail_n3 (h : Rd T (.more (.seq (.str (str! ";")) (.opt (.rule .verbObjectList)))) s l r) {w : Str} (hr : skip false r = '.' :: w) (hw : NoDigit w) :
    ∀ s', skip false s' = skip false s → ∃ r',
      Acc T (.more (.seq (.str (str! ";")) (.opt (.seq (.rule .n3Verb) (.rule .n3ObjectList))))) s' r' ∧
      ((¬ Under [.verbObjectList, .objectList, .turtleObject, .tripleX] l ∧ skip false r' = '.' :: w) ∨
        (Under [.verbObjectList, .objectList, .turtleObject, .tripleX] l ∧ ∃ d v, skip false r' = d :: v ∧ d ≠ '.')) := by
  refine more_induct (P := fun s l r => skip false r = '.' :: w → ∀ s', skip false s' = skip false s → ∃ r',
      Acc T (.more (.seq (.str (str! ";")) (.opt (.seq (.rule .n3Verb) (.rule .n3ObjectList))))) s' r' ∧
      ((¬ Under [.verbObjectList, .objectList, .turtleObject, .tripleX] l ∧ skip false r' = '.' :: w) ∨
        (Under [.verbObjectList, .objectList, .turtleObject, .tripleX] l ∧ ∃ d v, skip false r' = d :: v ∧ d ≠ '.'))) ?_ ?_ h hr
  · intro s _ hr s' hs
    refine ⟨s', Rej.more ?_, .inl ⟨under_nil, hs.trans hr⟩⟩
    rw [hs, hr]
    exact Rej.seq (rej_chr (by decide))
  · intro s l1 r1 l2 r h1 h2 ih hr s' hs
    obtain ⟨u, hu, h3⟩ := item_parts h1
    obtain ⟨d, v, hd, hdc⟩ := more_next h2 hr
    have hd1 : d = ';' ∨ d = '.' := by rcases hdc with h | ⟨h, -⟩ <;> simp [h]
    rcases inv_opt h3 with h3 | ⟨hj, rfl, rfl⟩
    · rcases verbObjects_n3 h3 hd hd1 with ⟨hn, q, h4, h5⟩ | ⟨hn, hj | ⟨q, w', h4, h5⟩⟩
      · obtain ⟨r', h6, h7⟩ := ih hr q (by rw [h5, hd])
        refine ⟨r', Acc.more (r := q) ?_ h6, by simpa [under_append, hn] using h7⟩
        rw [hs, hu]; exact Acc.seq (acc_str rfl) (Acc.opt h4)
      · obtain ⟨e, x, he, hne⟩ := verbObjects_head h3
        refine ⟨skip false u, Acc.more (r := skip false u) ?_ (Rej.more ?_), .inr ⟨by simp [under_append, hn], e, x, by rw [skip_idem, he],
          fun e => hne (by simp [e])⟩⟩
        · rw [hs, hu]; exact Acc.seq (acc_str rfl) (Rej.opt hj)
        · rw [skip_idem, he]; exact Rej.seq (rej_chr fun e => hne (by simp [← e]))
      · refine ⟨q, Acc.more (r := q) ?_ (Rej.more ?_), .inr ⟨by simp [under_append, hn], ',', w', h5, by decide⟩⟩
        · rw [hs, hu]; exact Acc.seq (acc_str rfl) (Acc.opt h4)
        · rw [h5]; exact Rej.seq (rej_chr (by decide))
    · obtain ⟨r', h6, h7⟩ := ih hr (skip false u) rfl
      rw [skip_idem] at hd
      refine ⟨r', Acc.more (r := skip false u) ?_ h6, by simpa using h7⟩
      rw [hs, hu]
      refine Acc.seq (acc_str rfl) (Rej.opt ?_)
      rw [hd]
      refine Rej.seq (rej_n3Verb_end hd1 ?_)
      rintro rfl
      rcases hdc with h | ⟨-, rfl⟩
      · exact absurd h (by decide)
      · exact hw

theorem more_star (h : Acc T (.more a) s r) (hs : skip false s = s) : Acc T (.star a) s r := by
  obtain ⟨l, h⟩ := h
  refine more_induct (P := fun s _ r => skip false s = s → Acc T (.star a) s r) ?_ ?_ h hs
  · intro s h1 h2; rw [h2] at h1; exact Rej.star h1
  · intro s l1 r1 l2 r h1 h2 _ h3; rw [h3] at h1; exact Acc.star h1.acc h2.acc

/-- A list of predicates with their objects, up to the end of the statement. -/
theorem pol_n3 (h : Rd T (.rule .predicateObjectList) s l r) {w : Str} (hr : skip false r = '.' :: w) (hw : NoDigit w) :
    (¬ Under [.predicateObjectList, .verbObjectList, .objectList, .turtleObject, .tripleX] l ∧
      ∃ r', Acc T (.rule .n3PredicateObjectList) s r' ∧ skip false r' = '.' :: w) ∨
    (Under [.predicateObjectList, .verbObjectList, .objectList, .turtleObject, .tripleX] l ∧
      (Rej T (.rule .n3PredicateObjectList) s ∨ ∃ r' d v, Acc T (.rule .n3PredicateObjectList) s r' ∧ skip false r' = d :: v ∧ d ≠ '.')) := by
  obtain ⟨k, h1, rfl⟩ := inv_rule rfl h
  obtain ⟨l1, r1, l2, h2, h3, rfl⟩ := inv_seq h1
  have hu : ∀ t, Under [.predicateObjectList, .verbObjectList, .objectList, .turtleObject, .tripleX] [.mk (some .predicateObjectList) t (l1 ++ l2)] ↔
      Under [.verbObjectList, .objectList, .turtleObject, .tripleX] l1 ∨ Under [.verbObjectList, .objectList, .turtleObject, .tripleX] l2 :=
    fun t => by simp [under_cons, under_nil, under_append]
  rw [hu]
  rcases inv_star h3 with ⟨hj, rfl, rfl⟩ | ⟨k1, q, k2, h4, h5, rfl⟩
  · rw [skip_idem] at hr
    rcases verbObjects_n3 h2 hr (.inr rfl) with ⟨hn, q, h4, h5⟩ | ⟨hn, hj | ⟨q, w', h4, h5⟩⟩
    · refine .inl ⟨by simp [hn, under_nil], '.' :: w, Acc.rule rfl (h4.assoc ?_), skip_one hr⟩
      rw [h5]; exact Rej.star (Rej.seq (rej_chr (by decide)))
    · exact .inr ⟨.inl hn, .inl (Rej.rule rfl hj.assoc)⟩
    · refine .inr ⟨.inl hn, .inr ⟨',' :: w', ',', w', Acc.rule rfl (h4.assoc ?_), skip_one h5, by decide⟩⟩
      rw [h5]; exact Rej.star (Rej.seq (rej_chr (by decide)))
  · obtain ⟨u, hu', h6⟩ := item_parts h4
    rcases verbObjects_n3 h2 hu' (.inl rfl) with ⟨hn, q1, h7, h8⟩ | ⟨hn, hj | ⟨q1, w', h7, h8⟩⟩
    · -- the tail begins with the sign, so it is one of the tails of `tail_n3` put in a row
      have h9 : Rd T (.more (.seq (.str (str! ";")) (.opt (.rule .verbObjectList)))) (';' :: u) (k1 ++ k2) r := by
        refine reads_more (skips_free _) ?_ h5
        rw [skip_one hu', ← hu']; exact h4
      obtain ⟨r', h10, h11⟩ := tail_n3 h9 hr hw (';' :: u) rfl
      have h12 : Acc T (.star (.seq (.str (str! ";")) (.opt (.seq (.rule .n3Verb) (.rule .n3ObjectList))))) (';' :: u) r' := by
        exact more_star h10 (skip_one hu')
      have : Acc T (.rule .n3PredicateObjectList) s r' := Acc.rule rfl (h7.assoc (by rw [h8]; exact h12))
      rcases h11 with ⟨h13, h14⟩ | ⟨h13, d, v, h14, h15⟩
      · exact .inl ⟨by simp [hn, h13], r', this, h14⟩
      · exact .inr ⟨.inr h13, .inr ⟨r', d, v, this, h14, h15⟩⟩
    · exact .inr ⟨.inl hn, .inl (Rej.rule rfl hj.assoc)⟩
    · refine .inr ⟨.inl hn, .inr ⟨',' :: w', ',', w', Acc.rule rfl (h7.assoc ?_), skip_one h8, by decide⟩⟩
      rw [h8]; exact Rej.star (Rej.seq (rej_chr (by decide)))

/-! ### Statements -/

theorem notN3_append {l k : List (Pair GRule)} : NotN3 (l ++ k) ↔ NotN3 l ∨ NotN3 k := by
  simp only [NotN3, under_append]
  constructor
  · rintro ((h | h) | (h | h) | (h | h) | (h | h)) <;> simp [h]
  · rintro ((h | h | h | h) | (h | h | h | h)) <;> simp [h]

theorem notN3_nil : ¬ NotN3 [] := by simp [NotN3, under_nil]

theorem stripPrefixI_parts {t : Str} (h : stripPrefixI t s = some r) : ∃ p, s = p ++ r ∧ p.map asciiLower = t.map asciiLower := by
  induction t generalizing s with
  | nil => simp [stripPrefixI] at h; exact ⟨[], by simp [h], rfl⟩
  | cons a t ih =>
    cases s with
    | nil => simp [stripPrefixI] at h
    | cons b s =>
      simp only [stripPrefixI] at h
      split at h
      · rename_i he
        obtain ⟨p, rfl, hp⟩ := ih h
        exact ⟨b :: p, rfl, by simp [hp, he]⟩
      · cases h

theorem lower_base {c : Char} (h : isPnCharsBase (asciiLower c) = true) : isPnCharsBase c = true := by
  unfold asciiLower at h
  split at h
  · rename_i hr
    simp only [isPnCharsBase, hr, Bool.or_true, Bool.true_or]
  · exact h

/-- A word before an opening bracket is no IRI. -/
theorem rej_word_lt {c : Char} {p u w : Str} (hc : isPnCharsBase c = true) (hp : ∀ e ∈ p, isPnChars e = true) (hs : skip false u = '<' :: w) :
    Rej T (.rule .iri) (c :: (p ++ u)) := by
  have hns : Rej T (.rule .PNAME_NS) (c :: (p ++ u)) := by
    cases u with
    | nil => simp [skip] at hs
    | cons d v =>
      have hd : EndsName d := by
        by_cases h : isWs d = true ∨ d = ':' ∨ d = '#'
        · exact endsName_ws h
        · have hw : isWs d = false := by cases e : isWs d with | false => rfl | true => exact absurd (.inl e) h
          rw [skip_lead hw fun e => h (.inr (.inr e))] at hs
          cases hs
          exact ⟨by decide, by decide⟩
      refine Rej.rule rfl (Acc.seq_rej (Acc.opt (acc_prefix hc hp hd)) ?_)
      rw [hs]; exact rej_chr (by decide)
  have hi : pIriRef (c :: (p ++ u)) = none := pIriRef_head (pn_solid (base_pn hc)).2.2.1
  exact Rej.rule rfl (Rej.alt ((reads_iri _).cast (by rw [hi]; rfl)) (Rej.rule rfl (Rej.alt (Rej.rule rfl (Rej.seq hns)) hns)))

/-- The directive is nothing of N3 that stands for something. -/
theorem base_no_expression (h : Rd T (.rule .sparqlBase) s l r) : Rej T (.rule .expression) s := by
  obtain ⟨k, h3, -⟩ := inv_rule rfl h
  obtain ⟨l1, r1, l2, h4, h5, -⟩ := inv_seq h3
  have h4 : stripPrefixI (str! "BASE") s = some r1 := by
    have := h4.det (reads_istr _)
    cases e : stripPrefixI (str! "BASE") s with
    | none => rw [e] at this; cases this
    | some x => rw [e] at this; simp at this; simp [this]
  obtain ⟨p, rfl, hp⟩ := stripPrefixI_parts h4
  have hlt : ∃ w, skip false r1 = '<' :: w := by
    have := h5.det (reads_iri _)
    cases e : pIriRef (skip false r1) with
    | none => rw [e] at this; cases this
    | some x => obtain ⟨w, hw⟩ := pIriRef_some_head (s := skip false r1) (x := x) e; exact ⟨w, hw⟩
  obtain ⟨w, hw⟩ := hlt
  have hl : p.length = 4 := by simpa using congrArg List.length hp
  obtain ⟨c1, c2, c3, c4, rfl⟩ : ∃ c1 c2 c3 c4, p = [c1, c2, c3, c4] := by
    rcases p with _ | ⟨c1, _ | ⟨c2, _ | ⟨c3, _ | ⟨c4, _ | ⟨c5, t⟩⟩⟩⟩⟩ <;> simp at hl
    exact ⟨c1, c2, c3, c4, rfl⟩
  simp only [List.map_cons, List.map_nil, List.cons.injEq, and_true] at hp
  obtain ⟨e1, e2, e3, e4⟩ := hp
  have b1 : isPnCharsBase c1 = true := lower_base (by rw [e1]; decide)
  have b2 : isPnCharsBase c2 = true := lower_base (by rw [e2]; decide)
  have b3 : isPnCharsBase c3 = true := lower_base (by rw [e3]; decide)
  have b4 : isPnCharsBase c4 = true := lower_base (by rw [e4]; decide)
  have hne : ∀ x : Char, asciiLower x ≠ asciiLower 'B' → c1 ≠ x := by rintro x hx rfl; exact hx e1
  have hi : Rej T (.rule .iri) ([c1, c2, c3, c4] ++ r1) := rej_word_lt (p := [c2, c3, c4]) b1 (by
    intro e he
    simp only [List.mem_cons, List.not_mem_nil, or_false] at he
    rcases he with rfl | rfl | rfl <;> exact base_pn (by assumption)) hw
  refine rej_item hi (rej_blank (hne _ (by decide)) (hne _ (by decide))) (rej_quickVar (hne _ (by decide))) (rej_coll (hne _ (by decide)))
    (rej_props (hne _ (by decide))) (rej_turtleLiteral ?_ ?_ fun e => absurd e (hne _ (by decide))) (rej_formula (hne _ (by decide)))
  · cases hd : isAsciiDigit c1 with
    | false => rfl
    | true =>
      exfalso
      simp only [isAsciiDigit, inRange, Bool.and_eq_true, decide_eq_true_eq] at hd
      have : asciiLower c1 = c1 := by
        unfold asciiLower
        split
        · rename_i hr
          simp only [inRange, Bool.and_eq_true, decide_eq_true_eq] at hr
          omega
        · rfl
      rw [this] at e1
      rw [e1] at hd
      revert hd
      decide
  · simp only [List.mem_cons, List.not_mem_nil, or_false, not_or]
    exact ⟨hne _ (by decide), hne _ (by decide), hne _ (by decide), hne _ (by decide), hne _ (by decide), hne _ (by decide)⟩

/-- Once the directive is no triple, N3 reads it as Turtle does. -/
theorem base_n3 (h : Rd T (.rule .sparqlBase) s l r) (h1 : Rej T (.rule .prefixID) s) (h2 : Rej T (.rule .base) s) : Acc T n3Line s r :=
  Rej.right (Rej.seq (Rej.rule rfl (Rej.alt (Rej.rule rfl (Rej.alt h1 h2)) (Rej.rule rfl (Rej.seq (Rej.rule rfl (base_no_expression h)))))))
    (Acc.rule rfl (Acc.left h.acc))

/-- A statement of Turtle under the rules of N3. -/
theorem statement_n3 (h : Rd T (.rule .statement) s l r) (hp : ¬ Under [.statement, .directive, .sparqlPrefix] l) (hw : NoDigit r)
    (he : ∀ v, skip false r ≠ '.' :: v) : (¬ NotN3 l ∧ Acc T n3Line s r) ∨ (NotN3 l ∧ s ≠ [] ∧ Rej T n3Line s) := by
  obtain ⟨k, h1, rfl⟩ := inv_rule rfl h
  have hend : Rej T (.rule .END_OF_STATEMENT) (skip false r) := by
    cases e : skip false r with
    | nil => exact rej_empty (by decide) (by decide)
    | cons c w => exact Rej.rule rfl (rej_chr fun ec => he w (by rw [e, ← ec]))
  rcases inv_alt h1 with h1 | ⟨hd, h1⟩
  · obtain ⟨k', h2, rfl⟩ := inv_rule rfl h1
    have hat : ∀ {t : Str} {k : List (Pair GRule)} {e : Peg GRule}, Rd T (.seq (.str ('@' :: t)) e) s k r → ∃ w, s = '@' :: w := by
      intro t k e h
      obtain ⟨l1, r1, l2, h3, -, -⟩ := inv_seq h
      obtain ⟨h4, -⟩ := inv_str h3
      cases s with
      | nil => simp [stripPrefix] at h4
      | cons c w =>
        simp only [stripPrefix] at h4
        split at h4
        · rename_i hc; exact ⟨w, by rw [hc]⟩
        · cases h4
    have hsp : ∀ w, s = '@' :: w → Rej T (.rule .sparqlDirective) s := by
      rintro w rfl
      obtain ⟨h3, h4⟩ := rej_sparql (T := T) (c := '@') (u := w) (by decide)
      exact Rej.rule rfl (Rej.alt h3 h4)
    rcases inv_alt h2 with h2 | ⟨hp1, h2⟩
    · have h3 := h2.acc
      obtain ⟨k2, h4, rfl⟩ := inv_rule rfl h2
      obtain ⟨w, hs⟩ := hat h4
      exact .inr ⟨by simp [NotN3, under_cons, under_top], by simp [hs], Rej.alt (Acc.seq_rej (Acc.rule rfl (Acc.left (Acc.rule rfl (Acc.left h3)))) hend)
        (hsp w hs)⟩
    rcases inv_alt h2 with h2 | ⟨hp2, h2⟩
    · have h3 := h2.acc
      obtain ⟨k2, h4, rfl⟩ := inv_rule rfl h2
      obtain ⟨w, hs⟩ := hat h4
      exact .inr ⟨by simp [NotN3, under_cons, under_top], by simp [hs], Rej.alt (Acc.seq_rej (Acc.rule rfl (Acc.left (Acc.rule rfl (Rej.right hp1 h3)))) hend)
        (hsp w hs)⟩
    rcases inv_alt h2 with h2 | ⟨hp3, h2⟩
    · obtain ⟨k2, h4, rfl⟩ := inv_rule rfl h2
      exact absurd (by simp [under_cons, under_top]) hp
    · refine .inl ⟨?_, base_n3 h2 hp1 hp2⟩
      obtain ⟨k2, h4, rfl⟩ := inv_rule rfl h2
      simp [NotN3, under_cons, under_nil]
  · obtain ⟨l1, r1, l2, h2, h3, rfl⟩ := inv_seq h1
    have hdir := inv_rule_rej rfl hd
    obtain ⟨hp1, hdir⟩ := inv_alt_rej hdir
    obtain ⟨hp2, hdir⟩ := inv_alt_rej hdir
    obtain ⟨hp3, hp4⟩ := inv_alt_rej hdir
    have hn3 : Rej T (.rule .n3Directive) s := Rej.rule rfl (Rej.alt hp1 hp2)
    have hsp : Rej T (.rule .sparqlDirective) s := Rej.rule rfl (Rej.alt hp4 hp3)
    obtain ⟨k3, h3', rfl⟩ := inv_rule rfl h3
    obtain ⟨hr, -⟩ := inv_chr h3'
    -- what the predicates come to
    have key : ∀ {lp : List (Pair GRule)} {rs q : Str}, Acc T (.rule .n3Subject) s q → skip false q = skip false rs →
        Rd T (.rule .predicateObjectList) (skip false rs) lp r1 →
        (¬ Under [.predicateObjectList, .verbObjectList, .objectList, .turtleObject, .tripleX] lp ∧ Acc T n3Line s r) ∨
        (Under [.predicateObjectList, .verbObjectList, .objectList, .turtleObject, .tripleX] lp ∧ Rej T n3Line s) := by
      intro lp rs q hs hq hpol
      obtain ⟨c, w, ec, hc⟩ := pol_head hpol
      rcases pol_n3 hpol hr hw with ⟨hn, r', h4, h5⟩ | ⟨hn, hj | ⟨r', d, v, h4, h5, h6⟩⟩
      · refine .inl ⟨hn, Acc.left (Acc.seq (r := r') (Acc.rule rfl (Rej.right hn3 (Acc.rule rfl (Acc.seq hs (Acc.opt ?_))))) ?_)⟩
        · rw [hq]; exact h4
        · rw [h5]; exact acc_end
      · refine .inr ⟨hn, Rej.alt (Acc.seq_rej (r := skip false rs) (Acc.rule rfl (Rej.right hn3 (Acc.rule rfl (Acc.seq hs ?_)))) ?_) hsp⟩
        · rw [hq]; exact Rej.opt hj
        · rw [skip_idem, ec]; exact Rej.rule rfl (rej_chr fun e => hc (by simp [← e]))
      · refine .inr ⟨hn, Rej.alt (Acc.seq_rej (r := r') (Acc.rule rfl (Rej.right hn3 (Acc.rule rfl (Acc.seq hs (Acc.opt ?_))))) ?_) hsp⟩
        · rw [hq]; exact h4
        · rw [h5]; exact Rej.rule rfl (rej_chr (Ne.symm h6))
    have hsub : ∀ {lp : List (Pair GRule)} {rs : Str}, Rd T (.rule .predicateObjectList) (skip false rs) lp r1 → Acc T (.rule .pathItem) s rs →
        Acc T (.rule .n3Subject) s (skip false rs) := by
      intro lp rs hpol hit
      obtain ⟨c, w, ec, hc⟩ := pol_head hpol
      rw [ec]
      exact Acc.rule rfl (acc_expression hit ec (fun e => hc (by simp [e])) (fun e => hc (by simp [e])))
    rcases triples_parts h2 with ⟨ls, rs, lp, t1, h4, h5, rfl⟩ | ⟨lb, rb, lp, t1, h4, h5, rfl⟩
    · obtain ⟨k4, h6, rfl⟩ := inv_rule rfl h4
      obtain ⟨k5, -, hk5⟩ := inv_rule rfl h5
      have hN : ∀ t t2 t3, NotN3 [.mk (some .statement) t ([.mk (some .triples) t1 ([.mk (some .turtleSubject) t2 k4] ++ lp)] ++
          [.mk (some .END_OF_STATEMENT) t3 k3])] ↔ Under [.tripleX] k4 ∨
          Under [.predicateObjectList, .verbObjectList, .objectList, .turtleObject, .tripleX] lp := by
        intro t t2 t3
        simp [NotN3, under_cons, under_nil, hk5]
      have hne : s ≠ [] := by
        rintro rfl
        exact h.rej_false (rej_empty (by decide) (by decide))
      have fin : ¬ Under [.tripleX] k4 → Acc T (.rule .pathItem) s rs →
          (¬ (Under [.tripleX] k4 ∨ Under [.predicateObjectList, .verbObjectList, .objectList, .turtleObject, .tripleX] lp) ∧ Acc T n3Line s r) ∨
          ((Under [.tripleX] k4 ∨ Under [.predicateObjectList, .verbObjectList, .objectList, .turtleObject, .tripleX] lp) ∧ s ≠ [] ∧ Rej T n3Line s) := by
        intro hk hit
        rcases key (hsub h5 hit) (skip_idem _ _) h5 with ⟨h7, h8⟩ | ⟨h7, h8⟩
        · exact .inl ⟨by simp [hk, h7], h8⟩
        · exact .inr ⟨.inr h7, hne, h8⟩
      rw [hN]
      rcases inv_alt h6 with h6 | ⟨hi, h6⟩
      · have h7 := h6.acc
        obtain ⟨k6, -, rfl⟩ := inv_rule rfl h6
        exact fin (by simp [under_cons, under_nil]) (Acc.rule rfl (Acc.left h7))
      rcases inv_alt h6 with h6 | ⟨hb, h6⟩
      · have h7 := h6.acc
        obtain ⟨k6, -, rfl⟩ := inv_rule rfl h6
        exact fin (by simp [under_cons, under_nil]) (Acc.rule rfl (Rej.right hi (Acc.left h7)))
      rcases inv_alt h6 with h6 | ⟨hcl, h6⟩
      · have h7 := h6.acc
        obtain ⟨w, hs⟩ := coll_head h6
        obtain ⟨k6, -, rfl⟩ := inv_rule rfl h6
        exact fin (by simp [under_cons, under_nil]) (Acc.rule rfl (Rej.right hi (Rej.right hb (Rej.right (by rw [hs]; exact rej_quickVar (by decide))
          (Acc.left h7)))))
      · obtain ⟨w, hs⟩ := quote_head h6
        obtain ⟨k6, -, rfl⟩ := inv_rule rfl h6
        refine .inr ⟨.inl (by simp [under_cons, under_top]), hne, Rej.alt (Rej.seq (Rej.rule rfl (Rej.alt hn3 (Rej.rule rfl (Rej.seq (Rej.rule rfl ?_)))))) hsp⟩
        refine rej_item hi hb ?_ hcl ?_ ?_ ?_
        · rw [hs]; exact rej_quickVar (by decide)
        · rw [hs]; exact rej_props (by decide)
        · rw [hs]; exact rej_turtleLiteral (by decide) (by decide) (by simp)
        · rw [hs]; exact rej_formula (by decide)
    · have hne : s ≠ [] := by
        rintro rfl
        exact h.rej_false (rej_empty (by decide) (by decide))
      obtain ⟨hi, hb⟩ := props_no_blank h4
      obtain ⟨w, hs, -⟩ := props_parts h4
      have hit : Acc T (.rule .pathItem) s rb := Acc.rule rfl (Rej.right hi (Rej.right hb (Rej.right (by rw [hs]; exact rej_quickVar (by decide)) (Rej.right
        (by rw [hs]; exact rej_coll (by decide)) (Acc.left h4.acc)))))
      obtain ⟨k4, -, rfl⟩ := inv_rule rfl h4
      rcases inv_opt h5 with h5 | ⟨hj, rfl, rfl⟩
      · have h6 := key (hsub h5 hit) (skip_idem _ _) h5
        obtain ⟨k5, -, rfl⟩ := inv_rule rfl h5
        rcases h6 with ⟨h7, h8⟩ | ⟨h7, h8⟩
        · refine .inl ⟨?_, h8⟩
          simp only [under_cons, under_nil, or_false, true_and] at h7
          simp [NotN3, under_cons, under_nil, h7]
        · refine .inr ⟨?_, hne, h8⟩
          simp only [under_cons, under_nil, or_false, true_and] at h7
          simp [NotN3, under_cons, under_nil, h7]
      · rw [skip_idem] at hr
        have hsb : Acc T (.rule .n3Subject) s ('.' :: r) := Acc.rule rfl (acc_expression hit hr (by decide) (by decide))
        refine .inl ⟨by simp [NotN3, under_cons, under_nil], Acc.left (Acc.seq (r := '.' :: r) (Acc.rule rfl (Rej.right hn3 (Acc.rule rfl (Acc.seq hsb ?_)))) ?_)⟩
        · rw [skip_dot]; exact Rej.opt (Rej.rule rfl (Rej.seq (rej_n3Verb_end (.inr rfl) fun _ => hw)))
        · rw [skip_dot]; exact acc_end

/-! ### Documents -/

theorem n3_digit_facts {c : Char} (h : isAsciiDigit c = true) : isPnCharsBase c = false ∧ isWs c = false ∧ c ∉ (str! "@:#<_[(bBpP") := by
  have : c.toNat ∈ [48, 49, 50, 51, 52, 53, 54, 55, 56, 57] := by
    simp only [isAsciiDigit, inRange, Bool.and_eq_true, decide_eq_true_eq] at h
    simp only [List.mem_cons, List.not_mem_nil, or_false]
    omega
  have hc : c = Char.ofNat c.toNat := by simp
  rw [hc]
  revert this
  generalize c.toNat = n
  intro this
  simp only [List.mem_cons, List.not_mem_nil, or_false] at this
  rcases this with rfl | rfl | rfl | rfl | rfl | rfl | rfl | rfl | rfl | rfl <;> decide

theorem n3_digit_plain {c : Char} (h : isAsciiDigit c = true) : isWs c = false ∧ c ≠ '#' :=
  ⟨(n3_digit_facts h).2.1, fun e => (n3_digit_facts h).2.2 (by simp [e])⟩

theorem rej_statement {c : Char} {u : Str} (h : isAsciiDigit c = true ∨ c ∈ (str! ".!^{")) : Rej T (.rule .statement) (c :: u) := by
  have hb : isPnCharsBase c = false ∧ isWs c = false ∧ c ∉ (str! "@:#<_[(bBpP") := by
    rcases h with h | h
    · exact n3_digit_facts h
    · simp only [List.mem_cons, List.not_mem_nil, or_false] at h
      rcases h with rfl | rfl | rfl | rfl <;> decide
  obtain ⟨h1, h2, h3⟩ := hb
  simp only [List.mem_cons, List.not_mem_nil, or_false, not_or] at h3
  obtain ⟨d1, d2, d3, d4, d5, d6, d7, d8, d9, d10, d11⟩ := h3
  exact Rej.rule rfl (Rej.alt (rej_no_directive (by simp [*])) (Rej.seq (Rej.rule rfl (Rej.alt (Rej.seq (Rej.rule rfl (Rej.alt
    (rej_iri h1 d2 h2 d3 (pIriRef_head d4)) (Rej.alt (rej_blank d5 d6) (Rej.alt (rej_coll d7) (Rej.rule rfl (Rej.seq (rej_chr (Ne.symm d4))))))))) (Rej.seq
      (rej_props d6))))))

/-- What stands behind a statement of a document. -/
theorem statements_follow (h : Rd T (.more (.rule .statement)) s l r) (hr : skip false r = []) :
    NoDigit s ∧ ∀ c v, skip false s = c :: v → c ∉ (str! ".!^") := by
  refine more_induct (P := fun s l r => skip false r = [] → NoDigit s ∧ ∀ c v, skip false s = c :: v → c ∉ (str! ".!^")) ?_ ?_ h hr
  · intro s _ hr
    refine ⟨?_, by simp [hr]⟩
    cases s with
    | nil => trivial
    | cons c w =>
      cases hd : isAsciiDigit c with
      | false => exact hd
      | true =>
        exfalso
        rw [skip_lead (n3_digit_plain hd).1 (n3_digit_plain hd).2] at hr
        cases hr
  · intro s l1 r1 l2 r h1 _ _ _
    constructor
    · cases s with
      | nil => trivial
      | cons c w =>
        cases hd : isAsciiDigit c with
        | false => exact hd
        | true =>
          exfalso
          rw [skip_lead (n3_digit_plain hd).1 (n3_digit_plain hd).2] at h1
          exact h1.rej_false (rej_statement (.inl hd))
    · intro c v hv hc
      rw [hv] at h1
      exact h1.rej_false (rej_statement (.inr (by simp at hc ⊢; tauto)))

end Rdftk
