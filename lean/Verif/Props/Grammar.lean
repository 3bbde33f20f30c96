import Verif.Lemmas.PegNtDoc

/-! The grammar of `common.pest`, run the way `pest` runs it. -/

namespace Rdftk

/-! ### C181 -/

/-- **C181.** Every rule of the grammar comes to an end on every text: there is a depth from which on the run has an answer, and the answer
does not depend on the depth. -/
theorem C181_ends (i : GRule) (s : Str) : ∃ n x, ∀ k, n ≤ k → commonGrammar.parse k i s = some x := by
  obtain ⟨x, n, h⟩ := commonGrammar_ends.reads (total := s.length) ⟨rfl, rfl⟩ .free i s
  exact ⟨n, x, fun k hk => PegGrammar.run_mono h hk⟩

/-- What is left after a rule is the end of the text, and the first pair of a rule that makes one has the text before it. -/
theorem C181_left (i : GRule) {n : Nat} {s r : Str} {l : List (Pair GRule)} (h : commonGrammar.parse n i s = some (some (l, r))) :
    ∃ t, s = t ++ r ∧ ((commonGrammar.body i).1 ≠ .silent → l.map (·.text) = [t]) := by
  have h1 := (PegGrammar.run_left commonGrammar_ends.null h).1
  obtain ⟨t, rfl⟩ := h1
  refine ⟨t, rfl, fun hk => ?_⟩
  unfold PegGrammar.parse at h
  cases n with
  | zero => simp [PegGrammar.run] at h
  | succ n =>
    rw [PegGrammar.run] at h
    have hm : (commonGrammar.body i).1.makes .free = true := by
      revert hk; cases (commonGrammar.body i).1 <;> simp [PegKind.makes]
    simp only [hm, if_true] at h
    split at h
    · cases h
    · cases h
    · simp only [Option.some.injEq, Prod.mk.injEq] at h
      obtain ⟨rfl, rfl⟩ := h
      simp [Pair.text, textRead]

/-- The rules of whole documents read all of the text or refuse it. -/
theorem C181_whole {i : GRule} (hi : i = .ntripleDoc ∨ i = .nquadDoc ∨ i = .turtleStarDoc ∨ i = .trigDoc ∨ i = .n3Doc) {n : Nat} {s r : Str}
    {l : List (Pair GRule)} (h : commonGrammar.parse n i s = some (some (l, r))) : r = [] ∧ l.map (·.text) = [s] := by
  have key : r = [] := by
    unfold PegGrammar.parse at h
    cases n with
    | zero => simp [PegGrammar.run] at h
    | succ n =>
      rw [PegGrammar.run] at h
      obtain ⟨k, e, hb, rfl⟩ : ∃ k e, commonGrammar.body i = (k, .seq .soi (.seq e .eoi)) ∧ k = .normal := by
        rcases hi with rfl | rfl | rfl | rfl | rfl <;> exact ⟨_, _, rfl, rfl⟩
      rw [hb] at h
      split at h
      · cases h
      · cases h
      · rename_i l' r' e1
        simp only [Option.some.injEq, Prod.mk.injEq] at h
        obtain ⟨_, rfl⟩ := h
        exact PegGrammar.run_whole e1
  subst key
  refine ⟨rfl, ?_⟩
  obtain ⟨t, ht, hl⟩ := C181_left i h
  rw [List.append_nil] at ht
  rw [ht]
  exact hl (by rcases hi with rfl | rfl | rfl | rfl | rfl <;> decide)

/-! ### C182 -/

/-- **C182.** The readers of N-Triples and N-Quads of the model are the grammar of `common.pest` with the walk of `ntriples.rs` and `nquads.rs`
over its pairs: on every text, for every way to make IRIs, blank nodes and tags, and from some depth on, the two give the same. -/
theorem C182_readers (env : ReadEnv) (s : Str) : ∃ n, ∀ k, n ≤ k →
    parseNTripleDoc env k s = some (readNt env s) ∧ parseNQuadDoc env k s = some (readNq env s) := by
  obtain ⟨n, h⟩ := parseNTripleDoc_eq env s
  obtain ⟨n', h'⟩ := parseNQuadDoc_eq env s
  exact ⟨n + n', fun k hk => ⟨h k (by omega), h' k (by omega)⟩⟩

/-- At no depth do the two give different answers. -/
theorem C182_same (env : ReadEnv) (k : Nat) (s : Str) :
    (∀ x, parseNTripleDoc env k s = some x → x = readNt env s) ∧ ∀ x, parseNQuadDoc env k s = some x → x = readNq env s := by
  obtain ⟨n, h⟩ := C182_readers env s
  have mono : ∀ {i y}, commonGrammar.parse k i s = some y → commonGrammar.parse (n + k) i s = some y :=
    fun e => PegGrammar.run_mono e (by omega)
  obtain ⟨h1, h2⟩ := h (n + k) (by omega)
  refine ⟨fun x hx => ?_, fun x hx => ?_⟩
  · unfold parseNTripleDoc at hx h1
    cases e : commonGrammar.parse k .ntripleDoc s with
    | none => rw [e] at hx; cases hx
    | some y =>
      rw [mono e] at h1; rw [e] at hx
      cases y <;> simp_all
  · unfold parseNQuadDoc at hx h2
    cases e : commonGrammar.parse k .nquadDoc s with
    | none => rw [e] at hx; cases hx
    | some y =>
      rw [mono e] at h2; rw [e] at hx
      cases y <;> simp_all

/-- The rule of a document refuses exactly the texts that the function of the model refuses. -/
theorem C182_refuses (s : Str) :
    ((∃ n, commonGrammar.parse n .ntripleDoc s = some none) ↔ pDoc pTriple s = none) ∧
    ((∃ n, commonGrammar.parse n .nquadDoc s = some none) ↔ pDoc pQuad s = none) := by
  refine ⟨?_, ?_⟩
  · have h := reads_doc (d := .ntripleDoc) (i := .ntriple) rfl rfl s reads_triple
    cases hd : pDoc pTriple s with
    | none => rw [hd] at h; exact ⟨fun _ => rfl, fun _ => h⟩
    | some ls =>
      rw [hd] at h
      obtain ⟨ps, u, h, _⟩ := h
      exact ⟨fun h' => (Option.some_ne_none _ (h.det h')).elim, fun h' => (Option.some_ne_none _ h').elim⟩
  · have h := reads_doc (d := .nquadDoc) (i := .nquad) rfl rfl s reads_quad
    cases hd : pDoc pQuad s with
    | none => rw [hd] at h; exact ⟨fun _ => rfl, fun _ => h⟩
    | some ls =>
      rw [hd] at h
      obtain ⟨ps, u, h, _⟩ := h
      exact ⟨fun h' => (Option.some_ne_none _ (h.det h')).elim, fun h' => (Option.some_ne_none _ h').elim⟩

/-- C182: pairs of triples without the pair for the end of the input would run into `unreachable!()`; with it they do
not, whatever follows.  The grammar always gives that pair (`C182_readers`). -/
theorem C182_end (env : ReadEnv) (g : Graph) (l : List (Pair GRule))
    (h : ∀ p ∈ l, p.rule = some .ntriple ∧ ∃ st, pairTriple env p = .ok st) :
    pairTriples env g l = .panic ∧
    ∀ (q : Pair GRule) (r : List (Pair GRule)), q.rule = none → ∃ g', pairTriples env g (l ++ q :: r) = .ok g' := by
  induction l generalizing g with
  | nil => exact ⟨rfl, fun q r hq => ⟨g, by simp [pairTriples, hq]⟩⟩
  | cons p l ih =>
    obtain ⟨hp, st, hst⟩ := h p List.mem_cons_self
    obtain ⟨h1, h2⟩ := ih (g.insert st) fun x hx => h x (List.mem_cons_of_mem _ hx)
    refine ⟨by simp [pairTriples, hp, hst, Res.bind, h1], fun q r hq => ?_⟩
    obtain ⟨g', hg⟩ := h2 q r hq
    exact ⟨g', by simp [pairTriples, hp, hst, Res.bind, hg]⟩

/-- C182: a text is cut after so many bytes exactly when so many bytes are a beginning of it that ends between two
characters; else the cut panics. -/
theorem C182_bytes (n : Nat) (s : Str) :
    (∀ t, dropBytes n s = .ok t ↔ ∃ a, s = a ++ t ∧ (a.map Char.utf8Size).sum = n) ∧
    (dropBytes n s = .panic ↔ ∀ a t, s = a ++ t → (a.map Char.utf8Size).sum ≠ n) := by
  induction s generalizing n with
  | nil =>
    cases n with
    | zero =>
      refine ⟨fun t => ⟨fun h => ?_, fun ⟨a, h, _⟩ => ?_⟩, ⟨fun h => (by simp [dropBytes] at h), fun h => (h [] [] rfl rfl).elim⟩⟩
      · simp only [dropBytes, Res.ok.injEq] at h
        exact ⟨[], by simp [h], rfl⟩
      · simp [dropBytes, List.nil_eq_append_iff.1 h]
    | succ n =>
      refine ⟨fun t => ⟨fun h => (by simp [dropBytes] at h), fun ⟨a, h, hs⟩ => ?_⟩, ⟨fun _ a t h hs => ?_, fun _ => rfl⟩⟩
      · rw [(List.nil_eq_append_iff.1 h).1] at hs; cases hs
      · rw [(List.nil_eq_append_iff.1 h).1] at hs; cases hs
  | cons c s ih =>
    have hc : 0 < c.utf8Size := c.utf8Size_pos
    cases n with
    | zero =>
      refine ⟨fun t => ⟨fun h => ?_, fun ⟨a, h, hs⟩ => ?_⟩, ⟨fun h => (by simp [dropBytes] at h), fun h => (h [] _ rfl rfl).elim⟩⟩
      · simp only [dropBytes, Res.ok.injEq] at h
        exact ⟨[], by simp [h], rfl⟩
      · cases a with
        | nil => simp [dropBytes, h]
        | cons d a =>
          have := d.utf8Size_pos
          simp only [List.map_cons, List.sum_cons] at hs
          omega
    | succ n =>
      have split : ∀ a t, c :: s = a ++ t ∧ (a.map Char.utf8Size).sum = n + 1 ↔
          ∃ b, a = c :: b ∧ s = b ++ t ∧ c.utf8Size + (b.map Char.utf8Size).sum = n + 1 := by
        intro a t
        cases a with
        | nil => simp
        | cons d b =>
          simp only [List.cons_append, List.cons.injEq, List.map_cons, List.sum_cons]
          constructor
          · rintro ⟨⟨rfl, h⟩, e⟩
            exact ⟨b, ⟨rfl, rfl⟩, h, e⟩
          · rintro ⟨b', ⟨rfl, rfl⟩, h, e⟩
            exact ⟨⟨rfl, h⟩, e⟩
      by_cases hle : c.utf8Size ≤ n + 1
      · obtain ⟨h1, h2⟩ := ih (n + 1 - c.utf8Size)
        simp only [dropBytes, if_pos hle]
        refine ⟨fun t => ?_, ?_⟩
        · rw [h1 t]
          constructor
          · rintro ⟨b, h, e⟩
            exact ⟨c :: b, (split _ _).2 ⟨b, rfl, h, by omega⟩⟩
          · rintro ⟨a, h⟩
            obtain ⟨b, -, h, e⟩ := (split _ _).1 h
            exact ⟨b, h, by omega⟩
        · rw [h2]
          constructor
          · intro h a t hs e
            obtain ⟨b, -, h', e'⟩ := (split _ _).1 ⟨hs, e⟩
            exact h b t h' (by omega)
          · intro h b t hs e
            obtain ⟨x, y⟩ := (split (c :: b) t).2 ⟨b, rfl, hs, by omega⟩
            exact h _ t x y
      · simp only [dropBytes, if_neg hle]
        refine ⟨fun t => ⟨fun h => (by cases h), fun ⟨a, h⟩ => ?_⟩, ⟨fun _ a t h e => ?_, fun _ => trivial⟩⟩
        · obtain ⟨b, -, -, e⟩ := (split _ _).1 h
          omega
        · obtain ⟨b, -, -, e⟩ := (split _ _).1 ⟨h, e⟩
          omega

end Rdftk
