import Verif.Lemmas.PegNt

/-! Lines and documents of N-Triples and N-Quads: the grammar and the walk over the pairs against the functions of `Model/NTriples.lean`. -/

namespace Rdftk

open PegGrammar

variable {T : Nat} {s r : Str}

/-- The pairs of what follows the string of a literal. -/
def suffixPairs : RSuffix → List (Pair GRule)
  | .none => []
  | .lang t => [.mk (some .LANGTAG) ('@' :: t) []]
  | .type i => [iriPair i]

theorem reads_suffix (s : Str) : commonGrammar.Reads T .free
    (.opt (.alt (.rule .LANGTAG) (.seq (.str ['^', '^']) (.rule .IRIREF)))) s (some (suffixPairs (pSuffix s).1, (pSuffix s).2)) := by
  have h2 : commonGrammar.Reads T .free (.seq (.str ['^', '^']) (.rule .IRIREF)) s
      ((stripPrefix ['^', '^'] s).bind fun r => (pIriRef (skip false r)).map fun x => ([iriPair x.1], x.2)) := by
    cases hs : stripPrefix ['^', '^'] s with
    | none => exact reads_seq_none ((reads_str ['^', '^']).cast (by rw [hs]; rfl))
    | some r =>
      refine (reads_seq ((reads_str ['^', '^']).cast (y := some ([], r)) (by rw [hs]; rfl)) (skips_free r) (reads_iri _)).cast ?_
      simp only [Option.bind_some]
      cases pIriRef (skip false r) <;> rfl
  refine (reads_opt (reads_alt (reads_langTag s) h2)).cast ?_
  unfold pSuffix
  cases pLangTag s with
  | some x => rfl
  | none =>
    cases hs : stripPrefix ['^', '^'] s with
    | none => simp [suffixPairs]
    | some r =>
      cases hi : pIriRef (skip false r) with
      | none => simp [suffixPairs, hi]
      | some x => simp [suffixPairs, hi]

/-- The pair of a string. -/
def stringPair (a : Str) : Pair GRule :=
  .mk (some .ntripleString) ('"' :: a ++ ['"']) [.mk (some .STRING_LITERAL_QUOTE) ('"' :: a ++ ['"']) [.mk (some .QUOTE_INNER) a []]]

theorem pString_join {s a r : Str} (h : pString s = some (a, r)) : s = ('"' :: a ++ ['"']) ++ r := by
  unfold pString at h
  split at h
  · rename_i t
    split at h
    · rename_i x y e
      simp only [Option.some.injEq, Prod.mk.injEq] at h
      have := rep_join quoteCharLen 0 t
      rw [e] at this
      rw [← this, h.1, h.2]; simp
    · cases h
  · cases h

theorem reads_ntripleString (s : Str) : commonGrammar.Reads T .free (.rule .ntripleString) s
    ((pString s).map fun x => ([stringPair x.1], x.2)) := by
  refine (reads_rule (g := commonGrammar) (i := GRule.ntripleString) (m := .free) (reads_string s)).cast ?_
  cases hp : pString s with
  | none => rfl
  | some x =>
    obtain ⟨a, r⟩ := x
    show some ([Pair.mk (some GRule.ntripleString) (textRead s r) _], r) = some ([stringPair a], r)
    rw [pString_join hp, textRead_append]; rfl

/-- The pair of a literal that spans the text. -/
def literalPair (a : Str) (x : RSuffix) (u : Str) : Pair GRule :=
  .mk (some .ntripleLiteral) u [.mk (some .ntripleRdfLiteral) u (stringPair a :: suffixPairs x)]

/-- `pString`, then `pSuffix`. -/
def pLiteral (s : Str) : Option ((Str × RSuffix) × Str) :=
  (pString s).map fun x => ((x.1, (pSuffix (skip false x.2)).1), (pSuffix (skip false x.2)).2)

theorem reads_literal (s : Str) : commonGrammar.Reads T .free (.rule .ntripleLiteral) s
    ((pLiteral s).map fun x => ([literalPair x.1.1 x.1.2 (textRead s x.2)], x.2)) := by
  have body : commonGrammar.Reads T .free (commonGrammar.body .ntripleRdfLiteral).2 s
      ((pLiteral s).map fun x => (stringPair x.1.1 :: suffixPairs x.1.2, x.2)) := by
    unfold pLiteral
    cases hs : pString s with
    | none => exact reads_seq_none ((reads_ntripleString s).cast (by rw [hs]; rfl))
    | some x =>
      obtain ⟨a, r⟩ := x
      exact (reads_seq ((reads_ntripleString s).cast (y := some ([stringPair a], r)) (by rw [hs]; rfl)) (skips_free r) (reads_suffix _)).cast rfl
  refine (reads_rule (g := commonGrammar) (i := GRule.ntripleLiteral) (m := .free) (reads_rule (g := commonGrammar)
    (i := GRule.ntripleRdfLiteral) (m := .free) body)).cast ?_
  cases pLiteral s <;> rfl

/-- The pair of an object that spans the text. -/
def objectPair (u : Str) : RObject → Pair GRule
  | .node n => .mk (some .ntripleObject) u [nodePair n]
  | .lit a x => .mk (some .ntripleObject) u [literalPair a x u]

theorem reads_object (s : Str) : commonGrammar.Reads T .free (.rule .ntripleObject) s
    ((pObject s).map fun x => ([objectPair (textRead s x.2) x.1], x.2)) := by
  refine (reads_rule (g := commonGrammar) (i := GRule.ntripleObject) (m := .free)
    (reads_alt (reads_iri s) (reads_alt (reads_blank s) (reads_literal s)))).cast ?_
  unfold pObject pSubject pLiteral
  cases pIriRef s with
  | some x => rfl
  | none =>
    cases pBlank s with
    | some x => rfl
    | none =>
      cases pString s <;> rfl

/-- The pair of the end of a statement. -/
def endPair : Pair GRule := .mk (some .END_OF_STATEMENT) ['.'] []

theorem reads_end (s : Str) : commonGrammar.Reads T .free (.rule .END_OF_STATEMENT) s
    (match s with | '.' :: r => some ([endPair], r) | _ => none) := by
  refine (reads_rule (g := commonGrammar) (i := GRule.END_OF_STATEMENT) (m := .free) (one_chr '.' s)).cast ?_
  cases s with
  | nil => rfl
  | cons c s =>
    by_cases hc : c = '.'
    · subst hc
      have := textRead_append ['.'] s
      simp only [List.cons_append, List.nil_append] at this
      simp [gOneOf, this]; rfl
    · have e1 : gOneOf (· == '.') (c :: s) = none := by simp [gOneOf, hc]
      rw [e1, Option.map_none]
      split
      · simp_all
      · rfl

theorem reads_end_skip (s : Str) : commonGrammar.Reads T .free (.rule .END_OF_STATEMENT) (skip false s)
    ((pEnd s).map fun r => ([endPair], r)) := by
  refine (reads_end _).cast ?_
  unfold pEnd
  split
  · rename_i e; simp [e]
  · rename_i h
    split
    · rename_i e; exact absurd e (h _)
    · rfl

/-- The pair of a statement. -/
def linePair (i : GRule) (u v : Str) (l : RLine) : Pair GRule :=
  .mk (some i) u (subjectPair l.subject :: predicatePair l.predicate :: objectPair v l.object ::
    (match l.graph with | none => [endPair] | some n => [subjectPair n, endPair]))

/-- The first two characters of a blank node have one byte each. -/
def NodeOk : RNode → Prop
  | .iri _ => True
  | .blank t => dropBytes 2 t = .ok (t.drop 2)

/-- The nodes of a line are of this kind. -/
def LineOk (l : RLine) : Prop :=
  NodeOk l.subject ∧ (∀ n, l.object = .node n → NodeOk n) ∧ ∀ n, l.graph = some n → NodeOk n

theorem utf8_ws {c : Char} (h : isWs c = true ∨ c = '#' ∨ c = ']') : c.utf8Size = 1 := by
  rw [isWs_iff] at h
  simp only [List.mem_cons, List.not_mem_nil, or_false] at h
  rcases h with (rfl | rfl | rfl | rfl) | rfl | rfl <;> decide

theorem pAnon_ok {b : Str} (h1 : pAnon s = some (b, r)) : dropBytes 2 b = .ok (b.drop 2) := by
  unfold pAnon at h1
  split at h1
  · rename_i t
    split at h1
    · rename_i q' e
      simp only [Option.some.injEq, Prod.mk.injEq] at h1
      obtain ⟨rfl, rfl⟩ := h1
      have e1 : ('[' : Char).utf8Size = 1 := by decide
      match t, e with
      | [], e => simp [skip] at e
      | c :: t, e =>
        have hc : c.utf8Size = 1 := by
          apply utf8_ws
          cases hw : isWs c
          · by_cases hh : c = '#'
            · exact .inr (.inl hh)
            · simp [skip, hw, hh] at e; exact .inr (.inr e.1)
          · exact .inl rfl
        have hl := (skip_suffix false (c :: t)).length_le
        rw [e] at hl
        simp only [List.length_cons] at hl
        have : (c :: t).take ((c :: t).length - q'.length) = c :: t.take (t.length - q'.length) := by
          rw [List.length_cons, show t.length + 1 - q'.length = (t.length - q'.length) + 1 by omega, List.take_succ_cons]
        rw [this]
        simp [dropBytes, e1, hc]
    · cases h1
  · cases h1

theorem pSubject_ok {n : RNode} (h : pSubject s = some (n, r)) : NodeOk n := by
  unfold pSubject at h
  split at h
  · simp only [Option.some.injEq, Prod.mk.injEq] at h; obtain ⟨rfl, _⟩ := h; trivial
  · simp only [Option.map_eq_some_iff] at h
    obtain ⟨⟨b, q⟩, h1, h2⟩ := h
    simp only [Prod.mk.injEq] at h2
    obtain ⟨rfl, rfl⟩ := h2
    unfold pBlank at h1
    rw [Option.or_eq_some_iff] at h1
    show dropBytes 2 b = _
    rcases h1 with h1 | ⟨_, h1⟩
    · obtain ⟨_, t, rfl⟩ := pLabel_join h1
      have e1 : ('_' : Char).utf8Size = 1 := by decide
      have e2 : (':' : Char).utf8Size = 1 := by decide
      simp [dropBytes, e1, e2]
    · exact pAnon_ok h1

theorem pObject_ok {o : RObject} (h : pObject s = some (o, r)) : ∀ n, o = .node n → NodeOk n := by
  unfold pObject at h
  split at h
  · rename_i e
    simp only [Option.some.injEq, Prod.mk.injEq] at h
    obtain ⟨rfl, _⟩ := h
    intro n hn; cases hn; exact pSubject_ok e
  · split at h
    · simp only [Option.some.injEq, Prod.mk.injEq] at h
      obtain ⟨rfl, _⟩ := h
      intro n hn; cases hn
    · cases h

/-- What the grammar gives for a statement and what the function gives. -/
def LineAs (i : GRule) (x : PegRes GRule) : Option (RLine × Str) → Prop
  | none => x = none
  | some (l, r) => LineOk l ∧ ∃ u v, x = some ([linePair i u v l], r)

theorem reads_triple (s : Str) : ∃ x, commonGrammar.Reads T .free (.rule .ntriple) s x ∧ LineAs .ntriple x (pTriple s) := by
  unfold pTriple pTerms
  cases h1 : pSubject s with
  | none => exact ⟨none, reads_rule (g := commonGrammar) (i := GRule.ntriple) (x := none)
      (reads_seq_none ((reads_subject s).cast (by rw [h1]; rfl))), rfl⟩
  | some x1 =>
    obtain ⟨a, r1⟩ := x1
    have c1 := (reads_subject (T := T) s).cast (y := some ([subjectPair a], r1)) (by rw [h1]; rfl)
    simp only
    cases h2 : pIriRef (skip false r1) with
    | none => exact ⟨none, reads_rule (g := commonGrammar) (i := GRule.ntriple) (x := none)
        (reads_seq c1 (skips_free r1) (x := none) (reads_seq_none ((reads_predicate _).cast (by rw [h2]; rfl)))), rfl⟩
    | some x2 =>
      obtain ⟨b, r2⟩ := x2
      have c2 := (reads_predicate (T := T) (skip false r1)).cast (y := some ([predicatePair b], r2)) (by rw [h2]; rfl)
      simp only
      cases h3 : pObject (skip false r2) with
      | none => exact ⟨none, reads_rule (g := commonGrammar) (i := GRule.ntriple) (x := none)
          (reads_seq c1 (skips_free r1) (x := none) (reads_seq c2 (skips_free r2) (x := none)
            (reads_seq_none ((reads_object _).cast (by rw [h3]; rfl))))), rfl⟩
      | some x3 =>
        obtain ⟨c, r3⟩ := x3
        have c3 := (reads_object (T := T) (skip false r2)).cast (y := some ([objectPair (textRead (skip false r2) r3) c], r3)) (by rw [h3]; rfl)
        simp only
        refine ⟨_, reads_rule (g := commonGrammar) (i := GRule.ntriple) (reads_seq c1 (skips_free r1) (reads_seq c2 (skips_free r2)
          (reads_seq c3 (skips_free r3) (reads_end_skip r3)))), ?_⟩
        cases pEnd r3 with
        | none => rfl
        | some r4 =>
          refine ⟨⟨pSubject_ok h1, pObject_ok h3, fun n hn => by cases hn⟩, textRead s r4, textRead (skip false r2) r3, rfl⟩

theorem reads_quad (s : Str) : ∃ x, commonGrammar.Reads T .free (.rule .nquad) s x ∧ LineAs .nquad x (pQuad s) := by
  unfold pQuad pTerms
  cases h1 : pSubject s with
  | none => exact ⟨none, reads_rule (g := commonGrammar) (i := GRule.nquad) (x := none)
      (reads_seq_none ((reads_subject s).cast (by rw [h1]; rfl))), rfl⟩
  | some x1 =>
    obtain ⟨a, r1⟩ := x1
    have c1 := (reads_subject (T := T) s).cast (y := some ([subjectPair a], r1)) (by rw [h1]; rfl)
    simp only
    cases h2 : pIriRef (skip false r1) with
    | none => exact ⟨none, reads_rule (g := commonGrammar) (i := GRule.nquad) (x := none)
        (reads_seq c1 (skips_free r1) (x := none) (reads_seq_none ((reads_predicate _).cast (by rw [h2]; rfl)))), rfl⟩
    | some x2 =>
      obtain ⟨b, r2⟩ := x2
      have c2 := (reads_predicate (T := T) (skip false r1)).cast (y := some ([predicatePair b], r2)) (by rw [h2]; rfl)
      simp only
      cases h3 : pObject (skip false r2) with
      | none => exact ⟨none, reads_rule (g := commonGrammar) (i := GRule.nquad) (x := none)
          (reads_seq c1 (skips_free r1) (x := none) (reads_seq c2 (skips_free r2) (x := none)
            (reads_seq_none ((reads_object _).cast (by rw [h3]; rfl))))), rfl⟩
      | some x3 =>
        obtain ⟨c, r3⟩ := x3
        have c3 := (reads_object (T := T) (skip false r2)).cast (y := some ([objectPair (textRead (skip false r2) r3) c], r3)) (by rw [h3]; rfl)
        simp only
        cases h4 : pSubject (skip false r3) with
        | none =>
          have c4 := (reads_opt (reads_subject (T := T) (skip false r3))).cast (y := some ([], skip false r3)) (by rw [h4]; rfl)
          refine ⟨_, reads_rule (g := commonGrammar) (i := GRule.nquad) (reads_seq c1 (skips_free r1) (reads_seq c2 (skips_free r2)
            (reads_seq c3 (skips_free r3) (reads_seq c4 (skips_free _) ((reads_end_skip (skip false r3))))))), ?_⟩
          have : pEnd (skip false r3) = pEnd r3 := by unfold pEnd; rw [skip_idem]
          rw [this]
          cases pEnd r3 with
          | none => rfl
          | some r4 =>
            exact ⟨⟨pSubject_ok h1, pObject_ok h3, fun n hn => by cases hn⟩, textRead s r4, textRead (skip false r2) r3, rfl⟩
        | some x4 =>
          obtain ⟨d, r4⟩ := x4
          have c4 := (reads_opt (reads_subject (T := T) (skip false r3))).cast (y := some ([subjectPair d], r4)) (by rw [h4]; rfl)
          refine ⟨_, reads_rule (g := commonGrammar) (i := GRule.nquad) (reads_seq c1 (skips_free r1) (reads_seq c2 (skips_free r2)
            (reads_seq c3 (skips_free r3) (reads_seq c4 (skips_free _) (reads_end_skip r4))))), ?_⟩
          simp only
          cases pEnd r4 with
          | none => rfl
          | some r5 =>
            refine ⟨⟨pSubject_ok h1, pObject_ok h3, fun n hn => ?_⟩, textRead s r5, textRead (skip false r2) r3, rfl⟩
            cases hn; exact pSubject_ok h4

/-! ### Documents -/

/-- The pairs are those of the lines. -/
def AreLines (i : GRule) : List (Pair GRule) → List RLine → Prop
  | [], [] => True
  | p :: ps, l :: ls => (LineOk l ∧ ∃ u v, p = linePair i u v l) ∧ AreLines i ps ls
  | _, _ => False

theorem line_shorter {i : GRule} (hi : i.nullable = false) {p : Str → Option (RLine × Str)}
    (hp : ∀ s, ∃ x, commonGrammar.Reads T .free (.rule i) s x ∧ LineAs i x (p s)) {l : RLine} (h : p s = some (l, r)) :
    r.length < s.length := by
  obtain ⟨x, ⟨n, hx⟩, ha⟩ := hp s
  rw [h] at ha
  obtain ⟨_, u, v, rfl⟩ := ha
  exact (PegGrammar.run_left commonGrammar_ends.null hx).2 hi

theorem reads_lines_more {i : GRule} (hi : i.nullable = false) {p : Str → Option (RLine × Str)}
    (hp : ∀ s, ∃ x, commonGrammar.Reads T .free (.rule i) s x ∧ LineAs i x (p s)) (n : Nat) (s : Str) (hn : (skip false s).length ≤ n) :
    ∃ ps r, commonGrammar.Reads T .free (.more (.rule i)) s (some (ps, r)) ∧ AreLines i ps (pLines p n (skip false s)).1 ∧
      skip false r = (pLines p n (skip false s)).2 := by
  induction n generalizing s with
  | zero =>
    obtain ⟨x, hx, ha⟩ := hp (skip false s)
    cases hl : p (skip false s) with
    | none =>
      rw [hl] at ha; cases ha
      exact ⟨[], s, reads_more_none (skips_free s) hx, trivial, rfl⟩
    | some y => have := line_shorter hi hp (l := y.1) (r := y.2) hl; omega
  | succ n ih =>
    obtain ⟨x, hx, ha⟩ := hp (skip false s)
    cases hl : p (skip false s) with
    | none =>
      rw [hl] at ha; cases ha
      exact ⟨[], s, reads_more_none (skips_free s) hx, by simp [pLines, hl, AreLines], by simp [pLines, hl]⟩
    | some y =>
      obtain ⟨l, q⟩ := y
      have h1 := line_shorter hi hp hl
      rw [hl] at ha
      obtain ⟨ok, u, v, rfl⟩ := ha
      have h2 := (skip_suffix false q).length_le
      obtain ⟨ps, r, h3, h4, h5⟩ := ih q (by omega)
      refine ⟨_, r, reads_more (skips_free s) hx h3, ?_, ?_⟩
      · simp only [pLines, hl, List.nil_append, List.cons_append]
        exact ⟨⟨ok, u, v, rfl⟩, h4⟩
      · simp only [pLines, hl]; exact h5

theorem reads_lines {i : GRule} (hi : i.nullable = false) {p : Str → Option (RLine × Str)}
    (hp : ∀ s, ∃ x, commonGrammar.Reads T .free (.rule i) s x ∧ LineAs i x (p s)) (n : Nat) (s : Str) (hn : s.length ≤ n)
    (hs : skip false s = s) :
    ∃ ps r, commonGrammar.Reads T .free (.star (.rule i)) s (some (ps, r)) ∧ AreLines i ps (pLines p n s).1 ∧
      skip false r = (pLines p n s).2 := by
  obtain ⟨x, hx, ha⟩ := hp s
  cases hl : p s with
  | none =>
    rw [hl] at ha; cases ha
    refine ⟨[], s, reads_star_none hx, ?_, ?_⟩
    · cases n <;> simp [pLines, hl, AreLines]
    · cases n <;> simp [pLines, hl, hs]
  | some y =>
    obtain ⟨l, q⟩ := y
    have h1 := line_shorter hi hp hl
    cases n with
    | zero => omega
    | succ n =>
      rw [hl] at ha
      obtain ⟨ok, u, v, rfl⟩ := ha
      have h2 := (skip_suffix false q).length_le
      obtain ⟨ps, r, h3, h4, h5⟩ := reads_lines_more hi hp n q (by omega)
      refine ⟨_, r, reads_star hx h3, ?_, ?_⟩
      · simp only [pLines, hl, List.cons_append, List.nil_append]
        exact ⟨⟨ok, u, v, rfl⟩, h4⟩
      · simp only [pLines, hl]; exact h5

theorem reads_doc {d i : GRule} (hi : i.nullable = false) {p : Str → Option (RLine × Str)}
    (hd : commonGrammar.body d = (.normal, .seq .soi (.seq (.star (.rule i)) .eoi))) (s : Str)
    (hp : ∀ t, ∃ x, commonGrammar.Reads s.length .free (.rule i) t x ∧ LineAs i x (p t)) :
    match pDoc p s with
    | none => commonGrammar.Reads s.length .free (.rule d) s none
    | some ls => ∃ ps u, commonGrammar.Reads s.length .free (.rule d) s (some ([.mk (some d) u (ps ++ [.mk none [] []])], [])) ∧
        AreLines i ps ls := by
  have h0 : commonGrammar.Reads s.length .free .soi s (some ([], s)) := reads_soi.cast (by simp)
  obtain ⟨ps, r, h1, h2, h3⟩ := reads_lines hi hp s.length (skip false s) (skip_suffix false s).length_le (skip_idem false s)
  have h4 := reads_seq h0 (skips_free s) (reads_seq h1 (skips_free r) (reads_eoi (g := commonGrammar) (total := s.length) (m := .free) (s := skip false r)))
  have h5 := reads_rule (g := commonGrammar) (i := d) (m := .free) (by rw [hd]; exact h4)
  unfold pDoc
  generalize hx : pLines p s.length (skip false s) = x at *
  obtain ⟨ls, q⟩ := x
  simp only at h2 h3
  rw [h3] at h5
  cases q with
  | nil =>
    refine ⟨ps, textRead s [], h5.cast ?_, h2⟩
    rw [hd]; rfl
  | cons c q =>
    exact h5.cast rfl

/-! ### The walk over the pairs -/

variable {env : ReadEnv}

theorem dropBytes_chr {c : Char} (h : c.utf8Size = 1) (s : Str) : dropBytes 1 (c :: s) = .ok s := by
  simp [dropBytes, h]

theorem pairIri_eq (i : Str) : pairIri env (iriPair i) = evalIri env i := by
  have e1 : ('<' : Char).utf8Size = 1 := by decide
  have e2 : ('>' : Char).utf8Size = 1 := by decide
  show (dropBytes 1 ('<' :: i ++ ['>'])).bind (fun t => (dropEndBytes 1 t).bind fun t => evalIri env t) = _
  rw [List.cons_append, dropBytes_chr e1]
  simp only [Res.bind, dropEndBytes, List.reverse_append, List.reverse_cons, List.reverse_nil, List.nil_append, List.singleton_append]
  rw [dropBytes_chr e2]
  simp [Res.bind]

theorem pairSubject_eq {n : RNode} (h : NodeOk n) : pairSubject env (subjectPair n) = evalNode env n := by
  cases n with
  | iri i =>
    show (pairIri env (iriPair i)).bind _ = _
    rw [pairIri_eq]; rfl
  | blank t =>
    show ((dropBytes 2 t).bind _).bind _ = _
    rw [show dropBytes 2 t = _ from h]; rfl

theorem pairPredicate_eq (i : Str) : pairPredicate env (predicatePair i) = evalIri env i := by
  show (if (iriPair i).rule = some .IRIREF then pairIri env (iriPair i) else Res.err) = _
  rw [if_pos (show (iriPair i).rule = some GRule.IRIREF from rfl), pairIri_eq]

theorem pairLiteral_eq (a : Str) (x : RSuffix) (u : Str) : pairLiteral env (literalPair a x u) = evalLiteral env a x := by
  have e1 : ('@' : Char).utf8Size = 1 := by decide
  cases x with
  | none => rfl
  | lang t =>
    show ((dropBytes 1 ('@' :: t)).bind _).bind _ = _
    rw [dropBytes_chr e1]; rfl
  | type i =>
    show (pairIri env (iriPair i)).bind _ = _
    rw [pairIri_eq]; rfl

theorem pairObject_eq {o : RObject} (h : ∀ n, o = .node n → NodeOk n) (v : Str) : pairObject env (objectPair v o) = evalObject env o := by
  cases o with
  | node n =>
    have hn := h n rfl
    cases n with
    | iri i =>
      show (pairIri env (iriPair i)).bind _ = _
      rw [pairIri_eq]
      simp only [evalObject, evalNode]
      cases evalIri env i <;> rfl
    | blank t =>
      show ((dropBytes 2 t).bind _).bind _ = _
      rw [show dropBytes 2 t = _ from hn]
      simp only [evalObject, evalNode, Res.bind]
      cases blankParse env.blankOk (t.drop 2) <;> rfl
  | lit a x =>
    show (pairLiteral env (literalPair a x v)).bind _ = _
    rw [pairLiteral_eq]; rfl

theorem pairTriple_eq {l : RLine} (h : LineOk l) (u v : Str) : pairTriple env (linePair .ntriple u v l) = evalTriple env l := by
  show (pairSubject env (subjectPair l.subject)).bind (fun s => (pairPredicate env (predicatePair l.predicate)).bind fun i =>
    (pairObject env (objectPair v l.object)).bind fun o => .ok (Stmt.mk s i o)) = _
  rw [pairSubject_eq h.1, pairPredicate_eq, pairObject_eq h.2.1]; rfl

theorem Res.bind_assoc {α β γ : Type} (x : Res α) (f : α → Res β) (k : β → Res γ) :
    (x.bind f).bind k = x.bind fun a => (f a).bind k := by cases x <;> rfl

theorem pairQuad_eq {l : RLine} (h : LineOk l) (d : DataSet) (u v : Str) :
    pairQuad env d (linePair .nquad u v l) = evalQuad env d l := by
  have : pairQuad env d (linePair .nquad u v l) = (pairSubject env (subjectPair l.subject)).bind (fun s =>
      (pairPredicate env (predicatePair l.predicate)).bind fun i => (pairObject env (objectPair v l.object)).bind fun o =>
      match l.graph with
      | none => .err
      | some n => (pairSubject env (subjectPair n)).bind fun n =>
        match GraphName.ofSubject n with
        | .panic => .panic
        | .ok n => .ok (d.insertInto n (Stmt.mk s i o))) := by
    cases hg : l.graph with
    | none => simp only [pairQuad, linePair, hg]; rfl
    | some n => simp only [pairQuad, linePair, hg]; rfl
  rw [this, pairSubject_eq h.1, pairPredicate_eq, pairObject_eq h.2.1]
  simp only [evalQuad, evalTriple, Res.bind_assoc]
  congr; funext s; congr; funext i; congr; funext o
  simp only [Res.bind]
  cases hg : l.graph with
  | none => rfl
  | some n => have := pairSubject_eq (env := env) (h.2.2 n hg); simp only [this]; rfl

theorem pairTriples_eq {ps : List (Pair GRule)} {ls : List RLine} (h : AreLines .ntriple ps ls) (g : Graph) :
    pairTriples env g (ps ++ [.mk none [] []]) = evalTriples env g ls := by
  induction ls generalizing ps g with
  | nil =>
    cases ps with
    | nil => rfl
    | cons p ps => exact h.elim
  | cons l ls ih =>
    cases ps with
    | nil => exact h.elim
    | cons p ps =>
      obtain ⟨⟨ok, u, v, rfl⟩, hs⟩ := h
      show (pairTriple env (linePair .ntriple u v l)).bind (fun st => pairTriples env (g.insert st) (ps ++ [.mk none [] []])) = _
      rw [pairTriple_eq ok, evalTriples]
      congr; funext st
      exact ih hs _

theorem pairQuads_eq {ps : List (Pair GRule)} {ls : List RLine} (h : AreLines .nquad ps ls) (d : DataSet) :
    pairQuads env d (ps ++ [.mk none [] []]) = evalQuads env d ls := by
  induction ls generalizing ps d with
  | nil =>
    cases ps with
    | nil => rfl
    | cons p ps => exact h.elim
  | cons l ls ih =>
    cases ps with
    | nil => exact h.elim
    | cons p ps =>
      obtain ⟨⟨ok, u, v, rfl⟩, hs⟩ := h
      show (pairQuad env d (linePair .nquad u v l)).bind (fun d => pairQuads env d (ps ++ [.mk none [] []])) = _
      rw [pairQuad_eq ok, evalQuads]
      congr; funext st
      exact ih hs _

theorem parseNTripleDoc_eq (env : ReadEnv) (s : Str) : ∃ n, ∀ k, n ≤ k → parseNTripleDoc env k s = some (readNt env s) := by
  have h := reads_doc (d := .ntripleDoc) (i := .ntriple) rfl rfl s reads_triple
  unfold readNt
  cases hd : pDoc pTriple s with
  | none =>
    rw [hd] at h
    obtain ⟨n, h⟩ := h
    refine ⟨n, fun k hk => ?_⟩
    simp only [parseNTripleDoc, PegGrammar.parse]
    rw [PegGrammar.run_mono h hk]
  | some ls =>
    rw [hd] at h
    obtain ⟨ps, u, ⟨n, h⟩, hl⟩ := h
    refine ⟨n, fun k hk => ?_⟩
    simp only [parseNTripleDoc, PegGrammar.parse]
    rw [PegGrammar.run_mono h hk]
    show some (pairTriples env Graph.default (ps ++ [.mk none [] []])) = _
    rw [pairTriples_eq hl]

theorem parseNQuadDoc_eq (env : ReadEnv) (s : Str) : ∃ n, ∀ k, n ≤ k → parseNQuadDoc env k s = some (readNq env s) := by
  have h := reads_doc (d := .nquadDoc) (i := .nquad) rfl rfl s reads_quad
  unfold readNq
  cases hd : pDoc pQuad s with
  | none =>
    rw [hd] at h
    obtain ⟨n, h⟩ := h
    refine ⟨n, fun k hk => ?_⟩
    simp only [parseNQuadDoc, PegGrammar.parse]
    rw [PegGrammar.run_mono h hk]
  | some ls =>
    rw [hd] at h
    obtain ⟨ps, u, ⟨n, h⟩, hl⟩ := h
    refine ⟨n, fun k hk => ?_⟩
    simp only [parseNQuadDoc, PegGrammar.parse]
    rw [PegGrammar.run_mono h hk]
    show some (pairQuads env DataSet.empty (ps ++ [.mk none [] []])) = _
    rw [pairQuads_eq hl]

end Rdftk
