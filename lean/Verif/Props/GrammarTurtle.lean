import Verif.Lemmas.PegLaid
import Verif.Lemmas.PegN3

/-! The rules of `common.pest` for Turtle, TriG and N3. -/

namespace Rdftk

open PegGrammar Spec

/-- The rule reads the whole text. -/
def GReads (i : GRule) (s : Str) : Prop := ∃ n l, commonGrammar.parse n i s = some (some (l, []))

/-- The rule refuses the text. -/
def GRefuses (i : GRule) (s : Str) : Prop := ∃ n, commonGrammar.parse n i s = some none

theorem GRefuses.not_reads {i : GRule} {s : Str} (h : GRefuses i s) : ¬ GReads i s := by
  rintro ⟨k, l, h'⟩
  obtain ⟨n, h⟩ := h
  exact Option.some_ne_none _ (PegGrammar.run_det h' h)

theorem reads_of_acc {i : GRule} {s : Str} (h : Acc s.length (.rule i) s []) : GReads i s := by
  obtain ⟨l, n, h⟩ := h
  exact ⟨n, l, h⟩

theorem refuses_of_rej {i : GRule} {s : Str} (h : Rej s.length (.rule i) s) : GRefuses i s := h

/-! ### C183 -/

/-- **C183.** Every document of N-Triples is a document of Turtle, of TriG and of N3. -/
theorem C183_included (s : Str) (h : GReads .ntripleDoc s) : GReads .turtleStarDoc s ∧ GReads .trigDoc s ∧ GReads .n3Doc s := by
  have hd : ∃ ls, pDoc pTriple s = some ls := by
    cases hd : pDoc pTriple s with
    | some ls => exact ⟨ls, rfl⟩
    | none =>
      have := reads_doc (d := .ntripleDoc) (i := .ntriple) rfl rfl s reads_triple
      rw [hd] at this
      exact absurd h (GRefuses.not_reads this)
  obtain ⟨ls, hd⟩ := hd
  exact ⟨reads_of_acc (acc_doc (e := .rule .statement) rfl rfl rfl acc_turtle hd),
    reads_of_acc (acc_doc (e := .alt (.rule .directive) (.rule .block)) rfl rfl rfl acc_trig hd),
    reads_of_acc (acc_doc (e := .alt (.seq (.rule .n3Statement) (.rule .END_OF_STATEMENT)) (.rule .sparqlDirective)) rfl rfl rfl acc_n3 hd)⟩

/-- Whatever the reader of N-Triples reads as a graph is a document of all four languages. -/
theorem C183_accepted (env : ReadEnv) (s : Str) (g : Graph) (h : readNt env s = .ok g) :
    GReads .turtleStarDoc s ∧ GReads .trigDoc s ∧ GReads .n3Doc s := by
  refine C183_included s ?_
  have := reads_doc (d := .ntripleDoc) (i := .ntriple) rfl rfl s reads_triple
  unfold readNt at h
  cases hd : pDoc pTriple s with
  | none => rw [hd] at h; cases h
  | some ls =>
    rw [hd] at this
    obtain ⟨ps, u, ⟨n, h'⟩, _⟩ := this
    exact ⟨n, _, h'⟩

example : GReads .ntripleDoc (str! "<a:b> <c:d> \"x\"@en .") := ⟨60, _, by rfl⟩

/-! ### C184 -/

/-- A document of Turtle is a document of TriG and of N3, as the two say of themselves. -/
def C184_statement : Prop := ∀ s, GReads .turtleStarDoc s → GReads .trigDoc s ∧ GReads .n3Doc s

/-- Wherever a prefix is declared with `@prefix` and one dot, N3 refuses the document: the rule of the statement wants another dot. -/
theorem C184_prefix (s r : Str) (n : Nat) (l : List (Pair GRule)) (h : commonGrammar.parse n .prefixID s = some (some (l, r)))
    (hr : ∀ g u, Gap g → r ≠ g ++ '.' :: u) : GRefuses .n3Doc s := by
  refine rej_n3_prefix (r := r) ⟨l, n, h⟩ ?_
  cases he : pEnd r with
  | none => rfl
  | some u =>
    obtain ⟨g, hg, e⟩ := skip_some (pEnd_inv he)
    exact absurd e (hr g u hg)

/-- TriG refuses every document that begins with a quoted triple. -/
theorem C184_quoted (g u : Str) (hg : Gap g) : GRefuses .trigDoc (g ++ (str! "<< ") ++ u) := by
  refine rej_trig_quoted (u := '<' :: ' ' :: u) ?_ ?_
  · rw [List.append_assoc, skip_gap hg]; rfl
  · have e1 : iriExcluded '<' = false := by decide
    have e2 : iriExcluded ' ' = true := by decide
    simp [pIriRef, rep, iriCharLen, ucharLen, stripPrefix, e1, e2]

/-- N3 refuses a document of Turtle that declares a prefix. -/
theorem C184_fails : ¬ C184_statement := by
  intro h
  have h1 : GReads .turtleStarDoc (str! "@prefix : <a:b> .") := ⟨60, _, by rfl⟩
  exact (C184_prefix _ [] 60 _ (by rfl) (by simp)).not_reads (h _ h1).2

/-- TriG refuses a document of Turtle that begins with a quoted triple. -/
theorem C184_fails_quoted : ∃ s, GReads .turtleStarDoc s ∧ ¬ GReads .trigDoc s :=
  ⟨(str! "<< <a:s> <a:p> <a:o> >> <a:q> <a:r> ."), ⟨60, _, by rfl⟩, (C184_quoted [] _ .nil).not_reads⟩

/-- The documents of N-Triples among those of Turtle are documents of TriG and N3. -/
theorem C184_flat_partial (s : Str) (h : GReads .ntripleDoc s) : GReads .turtleStarDoc s ∧ GReads .trigDoc s ∧ GReads .n3Doc s := C183_included s h

/-! ### C185 -/

/-- In N3 two formulas may be joined by an arrow. -/
def C185_statement : Prop := ∀ a b, GReads .formula a → GReads .formula b → GReads .n3Doc (a ++ (str! " => ") ++ b ++ (str! " ."))

/-- The rule of the verb reads the equals sign of the arrow and stops. -/
theorem C185_verb (u : Str) : ∃ n l, commonGrammar.parse n .n3Verb ('=' :: '>' :: u) = some (some (l, '>' :: u)) := by
  obtain ⟨l, n, h⟩ := acc_arrow (T := ('=' :: '>' :: u : Str).length) (u := '>' :: u)
  exact ⟨n, l, h⟩

/-- So nothing begins with an arrow, and no document whose first subject is followed by an arrow is read.  The characters that are left out are
those of a directive. -/
theorem C185_refused (s v r g u : Str) (c : Char) (n : Nat) (l : List (Pair GRule)) (hg : Gap g) (hs : s = g ++ c :: v) (hw : c ∉ (str! " \t\r\n#@bBpP"))
    (h : commonGrammar.run s.length n .free (.rule .n3Subject) (c :: v) = some (some (l, r))) (g' : Str) (hg' : Gap g')
    (hr : r = g' ++ '=' :: '>' :: u) : GRefuses .n3Doc s := by
  have hsolid : Solid (c :: v) := by
    refine ⟨c, v, rfl, ?_, ?_⟩
    · cases hc : isWs c
      · rfl
      · rw [isWs_iff] at hc; simp at hc hw; grind
    · rintro rfl; simp at hw
  refine rej_n3_arrow (c := c) (v := v) (r := r) (u := u) (by rw [hs, skip_gap_solid hg hsolid]) (by simp at hw ⊢; grind) ⟨l, n, h⟩ ?_
  rw [hr, skip_gap hg', skip_solid ⟨'=', _, rfl, by decide, by decide⟩]

/-- The statement fails for two empty formulas. -/
theorem C185_fails : ¬ C185_statement := by
  intro h
  have h1 : GReads .formula (str! "{}") := ⟨100, _, by rfl⟩
  exact (C185_refused (str! "{} => {} .") _ (str! "=> {} .") [] _ '{' 200 _ .nil rfl (by decide) (by rfl) [] .nil rfl).not_reads (h _ _ h1 h1)

/-- C185, what holds: statements whose two sides are IRIs or formulas in any depth are read when an IRI, an equals sign or the arrow to the left
joins the two sides, as a document and as a formula. -/
theorem C185_others_partial (b : Str) (h : N3Body b) : GReads .n3Doc b ∧ GReads .formula ('{' :: (b ++ ['}'])) := by
  refine ⟨reads_of_acc (acc_n3Doc h), reads_of_acc (Acc.rule rfl (Acc.seq (r := b ++ ['}']) (acc_str rfl) (Acc.seq (r := ['}']) ?_ ?_)))⟩
  · have e : skip false (b ++ ['}']) = b ++ ['}'] := by
      cases h with
      | nil => exact skip_lead (by decide) (by decide)
      | cons ha _ _ _ => rw [List.append_assoc, ha.skip]
    rw [e]; exact acc_n3Body h
  · rw [skip_lead (by decide) (by decide)]; exact acc_str rfl

/-- C185, exactly: of the three signs between two sides the arrow to the right alone makes the document unreadable. -/
theorem C185_iff (a b v : Str) (ha : N3Term a) (hb : N3Term b) (hv : v ∈ [(str! "=>"), (str! "="), (str! "<=")]) :
    GReads .n3Doc (a ++ ' ' :: (v ++ ' ' :: (b ++ (str! " .")))) ↔ v ≠ (str! "=>") := by
  constructor
  · rintro h rfl
    obtain ⟨c, w, e, hc⟩ := ha.head
    have hk : skip false (' ' :: ((str! "=>") ++ ' ' :: (b ++ (str! " .")))) = '=' :: '>' :: ' ' :: (b ++ (str! " .")) := by
      rw [skip_sp]; exact skip_lead (by decide) (by decide)
    have hs : ∀ T, Acc T (.rule .n3Subject) (a ++ ' ' :: ((str! "=>") ++ ' ' :: (b ++ (str! " .")))) ('=' :: '>' :: ' ' :: (b ++ (str! " ."))) :=
      fun T => Acc.rule rfl (acc_n3Term ha hk (by decide) (by decide))
    rw [e] at hs h
    refine (refuses_of_rej (rej_n3_arrow (c := c) (v := w ++ ' ' :: ((str! "=>") ++ ' ' :: (b ++ (str! " .")))) (u := ' ' :: (b ++ (str! " .")))
      ?_ ?_ (hs _) (skip_lead (by decide) (by decide)))).not_reads h
    · rcases hc with rfl | rfl <;> exact skip_lead (by decide) (by decide)
    · rcases hc with rfl | rfl <;> decide
  · intro hn
    refine (C185_others_partial _ (.cons ha ?_ hb .nil)).1
    simp only [List.mem_cons, List.not_mem_nil, or_false] at hv
    rcases hv with rfl | rfl | rfl
    · exact absurd rfl hn
    · exact .inl rfl
    · exact .inr (.inl rfl)

example : N3Term (str! "{<a:b> = {} .}") :=
  .formula (.cons (a := str! "<a:b>") (v := str! "=") (b := str! "{}") (c := []) (.iri (i := str! "a:b") ⟨[['a'], [':'], ['b']], by
    intro t ht
    simp only [List.mem_cons, List.not_mem_nil, or_false] at ht
    rcases ht with rfl | rfl | rfl <;> exact .inl ⟨_, .inl ((iriPlain_iff _).1 ⟨by decide, by decide⟩), rfl⟩, rfl⟩) (.inl rfl) (.formula .nil) .nil)

/-! ### C186 -/

/-- There is no white space in a prefixed name. -/
def C186_statement : Prop := ∀ n s l r, commonGrammar.parse n .prefixedName s = some (some (l, r)) → ∀ p ∈ l, ∀ c ∈ p.text, c ∉ (str! " \t\r\n")

/-- A prefix, white space and comments, a colon and a local name are read as one IRI, so that a keyword before a name without a prefix is a
prefix: `GRAPH :g` is the name of a graph and `a :C` a predicate. -/
theorem C186_spaces (c e d : Char) (p g x u : Str) (hc : isPnCharsBase c = true) (hp : ∀ e ∈ p, isPnChars e = true) (hg : Gap g)
    (he : isPnCharsU e = true) (hx : ∀ e ∈ x, isPnChars e = true) (hd : d ∈ (str! " \t\r\n#")) :
    ∃ n l, commonGrammar.parse n .iri (c :: (p ++ (g ++ ':' :: e :: (x ++ d :: u)))) = some (some (l, d :: u)) := by
  have hd' : EndsName d := endsName_ws (by rw [isWs_iff]; simp at hd ⊢; grind)
  obtain ⟨l, n, h⟩ := acc_name (T := (c :: (p ++ (g ++ ':' :: e :: (x ++ d :: u)))).length) (u := u) hc hp hg he hx hd' (by
    intro h
    simp at hd h
    rcases hd with rfl | rfl | rfl | rfl | rfl <;> revert h <;> decide)
  exact ⟨n, l, h⟩

/-- A statement that says the type of an IRI with a name without a prefix is refused by Turtle. -/
theorem C186_type (i x : Str) (e : Char) (hi : LooseIri i) (he : isPnCharsU e = true) (hx : ∀ e ∈ x, isPnChars e = true) :
    GRefuses .turtleStarDoc ('<' :: (i ++ '>' :: ' ' :: 'a' :: ' ' :: ':' :: e :: (x ++ [' ', '.']))) := by
  refine rej_doc (e := .rule .statement) rfl ?_ ?_
  · rw [skip_solid ⟨'<', _, rfl, by decide, by decide⟩]; simp
  · rw [skip_solid ⟨'<', _, rfl, by decide, by decide⟩]
    exact rej_turtle_a hi he hx

/-- `a :b` is one prefixed name. -/
theorem C186_fails : ¬ C186_statement := by
  intro h
  have := h 30 (str! "a :b") _ _ (by rfl) _ (List.mem_singleton_self _) ' ' (by decide)
  exact this (by decide)

/-- C186, exactly for types: a statement that says the type of an IRI is read by Turtle when the type is written in brackets or with a prefix
that is not empty, and refused otherwise. -/
theorem C186_type_iff (i v : Str) (hi : LooseIri i) (hv : GIriText v) :
    GReads .turtleStarDoc ('<' :: (i ++ '>' :: ' ' :: 'a' :: ' ' :: (v ++ [' ', '.']))) ↔ v.head? ≠ some ':' := by
  constructor
  · intro h hc
    rcases hv with ⟨j, -, rfl⟩ | ⟨p, x, hp, ⟨e, q, rfl, he, hq⟩, rfl⟩
    · cases hc
    · rcases hp with rfl | ⟨c, p, rfl, hb, -⟩
      · exact (C186_type i q e hi he hq).not_reads (by simpa using h)
      · simp only [List.cons_append, List.head?_cons, Option.some.injEq] at hc
        subst hc
        revert hb; decide
  · intro hc
    have hd : GIriText ('<' :: (i ++ ['>'])) := .inl ⟨i, hi, rfl⟩
    have hk : (Clause.mk (str! " a ") v []).Ok := by
      refine ⟨⟨false, ⟨[' '], ['a'], 0, rfl, ⟨by intro c hc; simp at hc; simp [hc], by simp⟩, ?_, ?_⟩, fun _ => hc⟩, obj_iri hv, by simp⟩
      · exact ⟨'a', [], rfl, by decide, by decide, by decide⟩
      · intro T u hu h
        obtain ⟨c, w, h1, h2⟩ := h rfl
        exact acc_a hu h1 h2
    have hst : StmtTok ('<' :: (i ++ '>' :: ' ' :: 'a' :: ' ' :: (v ++ [' ', '.']))) := by
      intro T u
      have hdot : skip false (' ' :: '.' :: u) = '.' :: u := by simp [skip, isWs, isNewline]
      obtain ⟨r, h1, h2⟩ := acc_clauses (T := T) (u := ' ' :: '.' :: u) (cs := []) hk (by simp) ⟨' ', _, rfl, by simp⟩ ⟨'.', _, hdot, .inl rfl⟩
      refine ⟨u, ?_, rfl⟩
      obtain ⟨hv1, hv2⟩ := subj_iri hd
      have e : '<' :: (i ++ '>' :: ' ' :: 'a' :: ' ' :: (v ++ [' ', '.'])) ++ u =
          ('<' :: (i ++ ['>'])) ++ ((Clause.mk (str! " a ") v []).text ++ ([].flatMap (fun x : Clause => ' ' :: ';' :: x.text) ++ ' ' :: '.' :: u)) := by
        simp [Clause.text]
      rw [e, hv1.skip]
      obtain ⟨hd, hs⟩ := hv2 T ((Clause.mk (str! " a ") v []).text ++ ([].flatMap (fun x : Clause => ' ' :: ';' :: x.text) ++ ' ' :: '.' :: u))
        ⟨' ', _, rfl, by simp⟩
      refine Acc.rule rfl (Rej.right hd (Acc.seq (Acc.rule rfl (Acc.left (Acc.seq hs h1))) ?_))
      rw [h2, hdot]
      exact acc_end
    have := Stmts.doc (Stmts.stmt hst .nil)
    exact reads_of_acc (by simpa using this)

/-! ### C187 -/

/-- A long string may have any characters but its quotes and the backslash, line ends as well. -/
def C187_statement : Prop := ∀ t : Str, '"' ∉ t → '\\' ∉ t → GReads .STRING_LITERAL_LONG_QUOTE ((str! "\"\"\"") ++ (t ++ (str! "\"\"\"")))

/-- Exactly the ones without line ends are read; the others are refused. -/
theorem C187_iff (t : Str) (h1 : '"' ∉ t) (h2 : '\\' ∉ t) :
    GReads .STRING_LITERAL_LONG_QUOTE ((str! "\"\"\"") ++ (t ++ (str! "\"\"\""))) ↔ '\r' ∉ t ∧ '\n' ∉ t := by
  constructor
  · intro h
    by_cases hn : '\r' ∈ t ∨ '\n' ∈ t
    · exfalso
      have : ∃ a c b, t = a ++ c :: b ∧ (∀ d ∈ a, LongPlain d) ∧ (c = '\r' ∨ c = '\n') := by
        clear h
        induction t with
        | nil => simp at hn
        | cons c t ih =>
          by_cases hc : c = '\r' ∨ c = '\n'
          · exact ⟨[], c, t, rfl, by simp, hc⟩
          · obtain ⟨a, d, b, rfl, ha, hd⟩ := ih (by simp at h1; exact h1.2) (by simp at h2; exact h2.2) (by
              simp only [List.mem_cons] at hn; grind)
            refine ⟨c :: a, d, b, rfl, ?_, hd⟩
            intro d hd
            rcases List.mem_cons.1 hd with rfl | hd
            · simp only [LongPlain, List.mem_cons, List.not_mem_nil, or_false, not_or] at *
              grind
            · exact ha d hd
      obtain ⟨a, c, b, rfl, ha, hc⟩ := this
      refine GRefuses.not_reads (refuses_of_rej ?_) h
      have := rej_long (T := ((str! "\"\"\"") ++ ((a ++ c :: b) ++ (str! "\"\"\""))).length) (r := b ++ (str! "\"\"\"")) ha hc
      simpa using this
    · grind
  · intro h
    have := acc_long (T := ((str! "\"\"\"") ++ (t ++ (str! "\"\"\""))).length) (r := []) (t := t) (by
      intro c hc
      simp only [LongPlain, List.mem_cons, List.not_mem_nil, or_false, not_or]
      refine ⟨?_, ?_, ?_, ?_⟩ <;> rintro rfl <;> simp_all)
    exact reads_of_acc (by simpa using this)

/-- A long string of one line end is refused. -/
theorem C187_fails : ¬ C187_statement := by
  intro h
  have := (C187_iff ['\n'] (by decide) (by decide)).1 (h _ (by decide) (by decide))
  exact this.2 (by decide)

end Rdftk
