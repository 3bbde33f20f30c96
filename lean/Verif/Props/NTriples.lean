import Verif.Lemmas.NTWrite
import Verif.Props.DataSet

/-! Properties C38-C42 and C44: N-Triples and N-Quads. -/

namespace Rdftk

open Spec

/-- Plain ASCII is printable, every text is an IRI, a language tag and a label: the reader for
which the examples are computed. -/
def easyEnv : ReadEnv :=
  ⟨fun c => decide (0x20 ≤ c.toNat ∧ c.toNat < 0x7F), fun s => some ⟨s⟩, some, fun _ => true⟩

/-- Sets visited as they are listed. -/
def sameOrder : Orders := ⟨id, fun _ => id, fun _ _ => id⟩

theorem sameOrder_fair : sameOrder.Fair := ⟨fun _ => .refl _, fun _ _ => .refl _, fun _ _ _ => .refl _⟩

/-! ### C39 -/

/-- C39, the full statement. -/
def C39_statement : Prop := ∀ (env : ReadEnv) (s : Str), readNt env s ≠ .panic

/-- C39 fails for an escape that names no character. -/
theorem C39_fails : ¬ C39_statement := by
  intro h
  refine h easyEnv (str! "<a:\\uD800> <b:b> <c:c> .") ?_
  rfl

/-- C39, what holds: without such escapes neither reader panics. -/
theorem C39_good_escapes_partial (env : ReadEnv) (s : Str) (hs : GoodEscapes s) :
    readNt env s ≠ .panic ∧ readNq env s ≠ .panic := by
  constructor
  · unfold readNt
    split
    · simp
    · rename_i ls e
      exact evalTriples_ne_panic env hs ls (pDoc_inside (fun _ _ _ h => pTriple_inside h) e) _
  · unfold readNq
    split
    · simp
    · rename_i ls e
      exact evalQuads_ne_panic env hs ls (pDoc_inside (fun _ _ _ h => pQuad_inside h) e) _

/-! ### C44 -/

/-- C44, the full statement. -/
def C44_statement : Prop :=
  ∀ (env : ReadEnv) (s t : Str), DecodesIri s t → evalIri env s = Res.ofOption (env.url t)

/-- C44: decoding replaces each escape by the character it names and nothing else, and is
possible exactly when each escape names one. -/
theorem C44_decode (s t : Str) : unescapeIri 0 s = .ok t ↔ DecodesIri s t := unescape_iff s t

/-- Reading panics exactly when the IRI cannot be decoded. -/
theorem C44_panic (env : ReadEnv) (s : Str) : evalIri env s = .panic ↔ ¬ ∃ t, DecodesIri s t := by
  unfold evalIri
  cases e : unescapeIri 0 s with
  | panic =>
    simp only [true_iff]
    rintro ⟨t, ht⟩
    rw [(unescape_iff s t).2 ht] at e
    cases e
  | ok t =>
    simp only [Res.ofOption_ne_panic, false_iff, not_not]
    exact ⟨t, (unescape_iff s t).1 e⟩

/-- C44 fails when the decoded text stands in angle brackets: those are removed. -/
theorem C44_fails : ¬ C44_statement := by
  intro h
  have hd : DecodesIri (str! "\\u003Ca:b\\u003E") (str! "<a:b>") := by
    rw [← unescape_iff]; decide
  have := h { easyEnv with url := fun s => if s = (str! "a:b") then some ⟨s⟩ else none } _ _ hd
  revert this
  decide

/-- C44, what holds: all decoded texts not in angle brackets are parsed as they are. -/
theorem C44_read_partial (env : ReadEnv) (s t : Str) (h : DecodesIri s t)
    (hb : ∀ u, t ≠ '<' :: (u ++ ['>'])) : evalIri env s = Res.ofOption (env.url t) := by
  have hc : (startsWith t '<' && endsWith t '>') = false := by
    rw [Bool.eq_false_iff]
    intro h
    rw [Bool.and_eq_true, endsWith_iff] at h
    obtain ⟨h1, r, e⟩ := h
    cases r with
    | nil => rw [e] at h1; revert h1; decide
    | cons c r =>
      have : c = '<' := by rw [e] at h1; simpa [startsWith] using h1
      exact hb r (by rw [e, this]; rfl)
  simp only [evalIri, (unescape_iff s t).2 h, Iri.fromStr, hc, Bool.false_eq_true, if_false]

/-! ### C42 -/

/-- C42: the same terms in any two layouts read the same, as N-Triples. -/
theorem C42_layout (env : ReadEnv) (ls : List (Gaps × Gaps × Line)) (a b a' b' : Str)
    (ha : Gap a) (hb : LastGap b) (ha' : Gap a') (hb' : LastGap b')
    (h : ∀ x ∈ ls, x.2.2.g = none ∧ x.2.2.Valid ∧ x.1.Valid x.2.2 ∧ x.2.1.Valid x.2.2) :
    readNt env (a ++ (linesText (ls.map fun x => (x.1, x.2.2)) ++ b)) =
    readNt env (a' ++ (linesText (ls.map fun x => (x.2.1, x.2.2)) ++ b')) := by
  unfold readNt
  rw [pDoc_triples ha hb, pDoc_triples ha' hb']
  · simp [Function.comp_def]
  · intro x hx
    obtain ⟨y, hy, rfl⟩ := List.mem_map.1 hx
    exact ⟨(h y hy).1, (h y hy).2.1, (h y hy).2.2.2⟩
  · intro x hx
    obtain ⟨y, hy, rfl⟩ := List.mem_map.1 hx
    exact ⟨(h y hy).1, (h y hy).2.1, (h y hy).2.2.1⟩

/-- C42 for N-Quads. -/
theorem C42_layout_quads (env : ReadEnv) (ls : List (Gaps × Gaps × Line)) (a b a' b' : Str)
    (ha : Gap a) (hb : LastGap b) (ha' : Gap a') (hb' : LastGap b')
    (h : ∀ x ∈ ls, x.2.2.Valid ∧ x.1.Valid x.2.2 ∧ x.2.1.Valid x.2.2) :
    readNq env (a ++ (linesText (ls.map fun x => (x.1, x.2.2)) ++ b)) =
    readNq env (a' ++ (linesText (ls.map fun x => (x.2.1, x.2.2)) ++ b')) := by
  unfold readNq
  rw [pDoc_quads ha hb, pDoc_quads ha' hb']
  · simp [Function.comp_def]
  · intro x hx
    obtain ⟨y, hy, rfl⟩ := List.mem_map.1 hx
    exact ⟨(h y hy).1, (h y hy).2.2⟩
  · intro x hx
    obtain ⟨y, hy, rfl⟩ := List.mem_map.1 hx
    exact ⟨(h y hy).1, (h y hy).2.1⟩

/-- C42 is not about errors: a document of valid lines is matched, and line by line. -/
theorem C42_matched (ls : List (Gaps × Line)) (a b : Str) (ha : Gap a) (hb : LastGap b)
    (h : ∀ x ∈ ls, x.2.g = none ∧ x.2.Valid ∧ x.1.Valid x.2) :
    ∃ rs, pDoc pTriple (a ++ (linesText ls ++ b)) = some rs ∧ rs.length = ls.length :=
  ⟨_, pDoc_triples ha hb ls h, by simp⟩

/-! ### C40 -/

/-- C40: the output is a line for each statement of the simplified graph, once, and nothing
else. -/
theorem C40_lines (gen : Nat → Str) (n : Nat) (o : Orders) (ho : o.Fair) (sty : IriStyle)
    (alt : Bool) (g : Graph) :
    ∃ ls : List Stmt, ls.Nodup ∧ (∀ st, st ∈ ls ↔ st ∈ (g.simplify gen n).1.stmts) ∧
      writeNt gen n o sty alt g = ls.flatMap fun st =>
        st.subject.display sty ++ (str! " <") ++ st.predicate.fmt sty ++ (str! "> ") ++
          st.object.display sty alt ++ (str! " .\n") :=
  ⟨_, visit_nodup ho _, visit_mem ho _, rfl⟩

/-- C40 for graphs of simple statements: a line for each of the graph's own statements. -/
theorem C40_simple (gen : Nat → Str) (n : Nat) (o : Orders) (ho : o.Fair) (sty : IriStyle)
    (alt : Bool) (g : Graph) (hg : ∀ st ∈ g.stmts, simple st = true) :
    ∃ ls : List Stmt, ls.Nodup ∧ (∀ st, st ∈ ls ↔ st ∈ g.stmts) ∧
      writeNt gen n o sty alt g = ls.flatMap (ntLine sty alt) :=
  ⟨_, visit_nodup ho _, fun st => by rw [visit_mem ho, (C34_unchanged gen n g hg).1], rfl⟩

/-- What was made of a graph of a data set: the first and the next free number of the generated
labels, and the order of its lines. -/
structure QuadPart where
  graph : Graph
  start : Nat
  next : Nat
  lines : List Stmt

/-- C40 for data sets: the output is, graph by graph, a line for each statement of the simplified
graph, once, with the name of the graph; labels that were given out for one graph are not given out
again for a later one. -/
theorem C40_quads (gen : Nat → Str) (n : Nat) (o : Graph → Orders) (ho : ∀ g, (o g).Fair) (sty : IriStyle)
    (d : DataSet) :
    ∃ ps : List QuadPart, ps.map QuadPart.graph = d.allGraphs ∧
      (∀ p ∈ ps, n ≤ p.start ∧ p.start ≤ p.next ∧ p.next = (p.graph.simplify gen p.start).2 ∧ p.lines.Nodup ∧
        ∀ st, st ∈ p.lines ↔ st ∈ (p.graph.simplify gen p.start).1.stmts) ∧
      ps.Pairwise (fun p q => p.next ≤ q.start) ∧
      writeNq gen n o sty d = ps.flatMap fun p => p.lines.flatMap fun st =>
        st.subject.display sty ++ (str! " <") ++ st.predicate.fmt sty ++ (str! "> ") ++
          st.object.display sty false ++ (match p.graph.name with
            | some m => ' ' :: m.display sty
            | none => []) ++ (str! " .\n") := by
  unfold writeNq
  generalize d.allGraphs = gs
  induction gs generalizing n with
  | nil => exact ⟨[], rfl, by simp, .nil, rfl⟩
  | cons g gs ih =>
    obtain ⟨ps, h1, h2, h3, h4⟩ := ih (g.simplify gen n).2
    have hle : n ≤ (g.simplify gen n).2 := simplifyAll_le gen n _
    refine ⟨⟨g, n, (g.simplify gen n).2, (g.simplify gen n).1.visit (o g)⟩ :: ps, by simp [h1], ?_, ?_, ?_⟩
    · intro p hp
      rcases List.mem_cons.1 hp with rfl | hp
      · exact ⟨Nat.le_refl _, hle, rfl, visit_nodup (ho g) _, visit_mem (ho g) _⟩
      · obtain ⟨k1, k2⟩ := h2 p hp
        exact ⟨Nat.le_trans hle k1, k2⟩
    · exact List.pairwise_cons.2 ⟨fun p hp => (h2 p hp).1, h3⟩
    · rw [List.flatMap_cons, ← h4]
      simp only [writeNqGraphs, writeNqGraph]
      congr 1
      have hn : (g.simplify gen n).1.name = g.name := rfl
      rw [hn]
      congr 1
      funext st
      cases g.name with
      | none => simp [nqLine, ntLine]
      | some m => simp [nqLine]

/-! ### C38 -/

theorem good_simple {env : ReadEnv} {alt : Bool} {st : Stmt} (h : StmtGood env alt st) :
    simple st = true := by
  cases st with
  | mk s p o =>
    obtain ⟨h1, -, h3⟩ := h
    cases s <;> cases o <;> first | rfl | exact h1.elim | exact h3.elim

/-- C38, what reading gives in general: every statement of a graph of readable ones, with the
texts of literals escaped once more and their types replaced by unknown ones. -/
theorem C38_reads (env : ReadEnv) (gen : Nat → Str) (n : Nat) (o : Orders) (ho : o.Fair)
    (alt : Bool) (g : Graph) (hg : ∀ st ∈ g.stmts, StmtGood env alt st) :
    ∃ g', readNt env (writeNt gen n o .bare alt g) = .ok g' ∧ g'.name = none ∧
      ∀ st, st ∈ g'.stmts ↔ ∃ x ∈ g.stmts, rereadStmt env.pr x = st := by
  have hs := (C34_unchanged gen n g fun st h => good_simple (hg st h)).1
  have hv : ∀ st ∈ (g.simplify gen n).1.visit o, StmtGood env alt st := fun st h => by
    rw [visit_mem ho, hs] at h; exact hg st h
  refine ⟨(((g.simplify gen n).1.visit o).map (rereadStmt env.pr)).foldl Graph.insert Graph.default,
    ?_, (foldl_insert_default _).2, ?_⟩
  · unfold readNt writeNt
    rw [flatMap_lines _ (stmtLine none) _ fun st h => ntLine_text (hv st h)]
    have := pDoc_triples .nil lastGap_nil
      (((g.simplify gen n).1.visit o).map fun st => (ntGaps, stmtLine none st)) (by
        intro x hx
        obtain ⟨st, hst, rfl⟩ := List.mem_map.1 hx
        exact ⟨rfl, stmtLine_valid (by simp) (hv st hst), ntGaps_valid _⟩)
    simp only [List.nil_append, List.append_nil, List.map_map] at this
    rw [this]
    exact evalTriples_good _ hv _
  · intro st
    rw [(foldl_insert_default _).1, List.mem_map]
    simp only [visit_mem ho, hs]

/-- An object that can be held by a graph and has IRIs, labels and tags that can be written;
literals are as the constructors make them. -/
def ObjectMade (env : ReadEnv) : Object → Prop
  | .lit l => Made env.pr l ∧ (∀ t, l.dataType = some t → IriGood env t.asIri) ∧
      ∀ t, l.language = some t → LangTag t ∧ env.lang t = some t
  | o => ObjectGood env true o

/-- C38, the full statement. -/
def C38_statement (sty : IriStyle) (alt : Bool) : Prop :=
  ∀ (env : ReadEnv) (gen : Nat → Str) (n : Nat) (o : Orders) (g : Graph), AsciiPrintable env.pr →
    o.Fair →
    (∀ st ∈ g.stmts, SubjectGood env st.subject ∧ IriGood env st.predicate ∧ ObjectMade env st.object) →
    ∃ g', readNt env (writeNt gen n o sty alt g) = .ok g' ∧ ∀ st, st ∈ g'.stmts ↔ st ∈ g.stmts

/-- Reading changes nothing of a literal exactly when its text needs no escapes, its type is
not one of the known ones, and it has not both type and language. -/
theorem reread_id (pr : Char → Bool) (l : Literal) :
    reread pr l = l ↔ escapeString pr l.lexicalForm = l.lexicalForm ∧
      (∀ t, l.dataType = some t → ∃ i, t = .other i) ∧ (l.dataType = none ∨ l.language = none) := by
  cases l with
  | mk x t g =>
    cases t with
    | none => cases g <;> simp [reread]
    | some t =>
      cases g with
      | some g => simp [reread]
      | none =>
        simp only [reread, Literal.mk.injEq, Option.some.injEq, and_true, or_true, and_congr_right_iff]
        intro _
        constructor
        · rintro e t' rfl; exact ⟨_, e.symm⟩
        · intro h
          obtain ⟨i, rfl⟩ := h t rfl
          rfl

theorem reread_lexical (pr : Char → Bool) (l : Literal) :
    (reread pr l).lexicalForm = escapeString pr l.lexicalForm := by
  unfold reread; split <;> rfl

theorem escape_grows (pr : Char → Bool) (s : Str) :
    escapeString pr s = s ∨ s.length < (escapeString pr s).length := by
  induction s with
  | nil => exact .inl rfl
  | cons c s ih =>
    simp only [escapeString, List.flatMap_cons, List.length_append, List.length_cons] at ih ⊢
    rcases escapeChar_length (pr := pr) (c := c) with h | h
    · rw [h]
      rcases ih with ih | ih
      · rw [ih]; exact .inl rfl
      · right; simp only [List.length_singleton]; omega
    · right
      rcases ih with ih | ih
      · rw [ih]; omega
      · omega

/-- C38, when a graph of readable statements comes back: exactly when no literal is changed by
reading. -/
theorem C38_iff (env : ReadEnv) (gen : Nat → Str) (n : Nat) (o : Orders) (ho : o.Fair)
    (alt : Bool) (g : Graph) (hg : ∀ st ∈ g.stmts, StmtGood env alt st) :
    (∃ g', readNt env (writeNt gen n o .bare alt g) = .ok g' ∧ ∀ st, st ∈ g'.stmts ↔ st ∈ g.stmts) ↔
    ∀ s p l, Stmt.mk s p (.lit l) ∈ g.stmts →
      escapeString env.pr l.lexicalForm = l.lexicalForm ∧
      (∀ t, l.dataType = some t → ∃ i, t = .other i) ∧ (l.dataType = none ∨ l.language = none) := by
  obtain ⟨g1, e1, -, h1⟩ := C38_reads env gen n o ho alt g hg
  simp only [← reread_id]
  constructor
  · rintro ⟨g', e, h⟩
    rw [e1] at e
    injection e with e
    subst e
    have back : ∀ st ∈ g.stmts, ∃ x ∈ g.stmts, rereadStmt env.pr x = st := fun st hst =>
      (h1 st).1 ((h st).2 hst)
    have pre : ∀ s p l, Stmt.mk s p (.lit l) ∈ g.stmts →
        ∃ y, Stmt.mk s p (.lit y) ∈ g.stmts ∧ reread env.pr y = l := by
      intro s p l hm
      obtain ⟨⟨s', p', o'⟩, hx, e⟩ := back _ hm
      injection e with ea eb ec
      subst ea eb
      cases o' with
      | lit y => injection ec with ec; exact ⟨y, hx, ec⟩
      | _ => cases ec
    have canon : ∀ s p l, Stmt.mk s p (.lit l) ∈ g.stmts →
        (∀ t, l.dataType = some t → ∃ i, t = .other i) ∧ (l.dataType = none ∨ l.language = none) := by
      intro s p l hm
      obtain ⟨y, -, rfl⟩ := pre s p l hm
      unfold reread
      split <;> simp
    suffices ∀ k s p l, l.lexicalForm.length < k → Stmt.mk s p (.lit l) ∈ g.stmts → reread env.pr l = l from
      fun s p l hm => this _ s p l (Nat.lt_succ_self _) hm
    intro k
    induction k with
    | zero => intro s p l hl; omega
    | succ k ih =>
      intro s p l hl hm
      obtain ⟨y, hy, rfl⟩ := pre s p l hm
      have fixed : reread env.pr y = y := by
        rcases escape_grows env.pr y.lexicalForm with e | e
        · exact (reread_id _ _).2 ⟨e, canon s p y hy⟩
        · refine ih s p y ?_ hy
          rw [reread_lexical] at hl
          omega
      rw [fixed, fixed]
  · intro h
    refine ⟨g1, e1, fun st => ?_⟩
    have fix : ∀ x ∈ g.stmts, rereadStmt env.pr x = x := by
      rintro ⟨s, p, o⟩ hx
      cases o with
      | lit l => simp only [rereadStmt, rereadObject, h s p l hx]
      | _ => rfl
    rw [h1]
    constructor
    · rintro ⟨x, hx, rfl⟩; rw [fix x hx]; exact hx
    · intro hst; exact ⟨st, hst, fix st hst⟩

/-- C38, what holds: a graph whose literals have texts that need no escapes, and no type or an
unknown one, comes back from what is written for it, when IRIs print without brackets. -/
theorem C38_roundtrip_partial (env : ReadEnv) (gen : Nat → Str) (n : Nat) (o : Orders) (ho : o.Fair)
    (alt : Bool) (g : Graph) (hg : ∀ st ∈ g.stmts, StmtGood env alt st)
    (hl : ∀ s p l, Stmt.mk s p (.lit l) ∈ g.stmts →
      escapeString env.pr l.lexicalForm = l.lexicalForm ∧
      (∀ t, l.dataType = some t → ∃ i, t = .other i) ∧ (l.dataType = none ∨ l.language = none)) :
    ∃ g', readNt env (writeNt gen n o .bare alt g) = .ok g' ∧ ∀ st, st ∈ g'.stmts ↔ st ∈ g.stmts :=
  (C38_iff env gen n o ho alt g hg).2 hl

theorem easyEnv_ascii : AsciiPrintable easyEnv.pr := fun c h1 h2 => by
  simp [easyEnv, h1, h2]

theorem plain_chars {s : Str} (h : s.all (fun c => decide (0x20 < c.toNat) && decide (c ∉ (str! "<>\"{}|^`\\"))) = true) :
    IriGood easyEnv ⟨s⟩ :=
  ⟨fun c hc => by
    have := List.all_eq_true.1 h c hc
    simp only [Bool.and_eq_true, decide_eq_true_eq] at this
    exact this, rfl⟩

/-- A graph of one statement with a literal. -/
def litGraph (l : Literal) : Graph :=
  Graph.fromIter [.mk (.res ⟨str! "a:s"⟩) ⟨str! "a:p"⟩ (.lit l)]

theorem litGraph_stmts (l : Literal) :
    (litGraph l).stmts = [.mk (.res ⟨str! "a:s"⟩) ⟨str! "a:p"⟩ (.lit l)] := rfl

theorem not_C38 {alt : Bool} {l : Literal} (hm : ObjectMade easyEnv (.lit l))
    (hg : LiteralGood easyEnv alt l) (hn : reread easyEnv.pr l ≠ l) : ¬ C38_statement .bare alt := by
  intro h
  have h1 : IriGood easyEnv ⟨str! "a:s"⟩ := plain_chars (by decide)
  have h2 : IriGood easyEnv ⟨str! "a:p"⟩ := plain_chars (by decide)
  have := h easyEnv blankGen 0 sameOrder (litGraph l) easyEnv_ascii sameOrder_fair (by
    intro st hst
    rw [litGraph_stmts, List.mem_singleton] at hst
    subst hst
    exact ⟨h1, h2, hm⟩)
  rw [C38_iff easyEnv blankGen 0 sameOrder sameOrder_fair alt (litGraph l) (by
    intro st hst
    rw [litGraph_stmts, List.mem_singleton] at hst
    subst hst
    exact ⟨h1, h2, hg⟩)] at this
  exact hn ((reread_id _ _).2 (this _ _ l (by rw [litGraph_stmts]; exact List.mem_singleton.2 rfl)))

/-- C38 fails for a text with a quote, with or without forced quotes: it is escaped again. -/
theorem C38_fails_escape (alt : Bool) : ¬ C38_statement .bare alt := by
  refine not_C38 (l := Literal.plain easyEnv.pr (str! "a\"b")) ?_ ?_ (by decide)
  · exact ⟨⟨⟨_, rfl⟩, .inl rfl⟩, by simp [Literal.plain], by simp [Literal.plain]⟩
  · refine ⟨⟨[['a'], ['\\', '"'], ['b']], ?_, by decide⟩, by simp [Literal.plain], by simp [Literal.plain],
      by simp [Literal.plain]⟩
    intro t ht
    simp only [List.mem_cons, List.not_mem_nil, or_false] at ht
    rcases ht with rfl | rfl | rfl
    · exact .inl ⟨'a', by decide, rfl⟩
    · exact .inr (.inr ⟨'"', by decide, rfl⟩)
    · exact .inl ⟨'b', by decide, rfl⟩

/-- C38 fails for a string with its type: the type read is an unknown one. -/
theorem C38_fails_type (alt : Bool) : ¬ C38_statement .bare alt := by
  have hi : ∀ t, (Literal.ofStr easyEnv.pr (str! "a")).dataType = some t → t = .string := by
    intro t ht; injection ht with ht; exact ht.symm
  have hl : ∀ t, (Literal.ofStr easyEnv.pr (str! "a")).language ≠ some t := by
    intro t ht; cases ht
  refine not_C38 (l := Literal.ofStr easyEnv.pr (str! "a")) ?_ ?_ (by decide)
  · refine ⟨⟨⟨_, rfl⟩, .inr rfl⟩, ?_, fun t ht => absurd ht (hl t)⟩
    intro t ht
    rw [hi t ht]
    exact plain_chars (by decide)
  · refine ⟨⟨[['a']], ?_, by decide⟩, ?_, fun t ht => absurd ht (hl t), ?_⟩
    · intro t ht
      rw [List.mem_singleton] at ht
      exact .inl ⟨'a', by decide, ht⟩
    · intro t ht
      rw [hi t ht]
      exact plain_chars (by decide)
    · intro t ht
      rw [hi t ht]
      exact ⟨by decide, fun _ => by decide⟩

/-! #### Texts that are not read at all -/

theorem pSubject_other {c : Char} {r : Str} (h : c ∉ (str! "<_[")) : pSubject (c :: r) = none := by
  simp only [List.mem_cons, List.not_mem_nil, or_false, not_or] at h
  unfold pSubject pIriRef pBlank pLabel pAnon
  split
  · rename_i e; split at e
    · rename_i e2; injection e2 with e2; exact absurd e2 h.1
    · cases e
  · split
    · rename_i e2; injection e2 with e2; exact absurd e2 h.2.1
    · split
      · rename_i e2; injection e2 with e2; exact absurd e2 h.2.2
      · rfl

theorem pObject_other {c : Char} {r : Str} (h : c ∉ (str! "<_[\"")) : pObject (c :: r) = none := by
  simp only [List.mem_cons, List.not_mem_nil, or_false, not_or] at h
  have e : pString (c :: r) = none := by
    unfold pString
    split
    · rename_i e2; injection e2 with e2; exact absurd e2 h.2.2.2
    · rfl
  unfold pObject
  rw [pSubject_other (by simp [h]), e]

theorem skip_space (x : Str) : skip false (' ' :: x) = skip false x := by simp [skip, isWs]

theorem pTerms_object {s : Subject} {p : Iri} {env : ReadEnv} (hs : SubjectGood env s)
    (hp : IriGood env p) {r : Str} (hr : pObject (skip false r) = none) :
    pTerms (s.display .bare ++ ' ' :: '<' :: (p.text ++ '>' :: ' ' :: r)) = none := by
  have h1 := pSubject_text (rest := ' ' :: '<' :: (p.text ++ '>' :: ' ' :: r)) (subjTerm_valid hs)
    (fun _ => ⟨' ', _, rfl, .inl (by decide)⟩)
  rw [← subjTerm_text hs] at h1
  unfold pTerms
  rw [h1]
  simp only [skip_space, skip_solid (solid_cons (c := '<') (by decide)), pIriRef_text (iriGood_text hp), hr]

theorem pDoc_refused {p : Str → Option (RLine × Str)} {s : Str} (hs : Solid s) (h : p s = none) :
    pDoc p s = none := by
  obtain ⟨c, r, rfl, h1, h2⟩ := hs
  unfold pDoc
  rw [skip_solid ⟨c, r, rfl, h1, h2⟩]
  simp [pLines, h]

theorem subject_solid (sty : IriStyle) {env : ReadEnv} {s : Subject} (h : SubjectGood env s) (r : Str) :
    Solid (s.display sty ++ r) := by
  cases s with
  | blank b => exact solid_cons (c := '_') (by decide)
  | res i => exact solid_cons (c := '<') (by decide)
  | stmt t => exact h.elim

/-- C38: a boolean or number is written without quotes, and then the document is refused,
unless the text of the literal starts like another term. -/
theorem C38_fails_bare (s : Subject) (p : Iri) (l : Literal) (t : DataType) (env : ReadEnv)
    (hs : SubjectGood env s) (hp : IriGood env p) (ht : l.dataType = some t) (hb : t ∈ bareTypes)
    (c : Char) (x : Str) (hl : l.lexicalForm = c :: x) (hc : c ∉ (str! "<_[\"# \t\r\n")) (rest : Str) :
    readNt env (ntLine .bare false (.mk s p (.lit l)) ++ rest) = .err := by
  have hd : (Object.lit l).display .bare false = c :: x := by
    have h1 : ¬ (l.dataType = some .iri) := by
      rw [ht]; rintro e; injection e with e; subst e; revert hb; decide
    have h2 : t.isBare = true := (mem_bareTypes t).2 hb
    simp only [Object.display, Literal.display, if_neg h1]
    simp [ht, h2, hl]
  have e : ntLine .bare false (.mk s p (.lit l)) ++ rest =
      s.display .bare ++ ' ' :: '<' :: (p.text ++ '>' :: ' ' :: (c :: (x ++ (str! " .\n") ++ rest))) := by
    simp only [ntLine, Stmt.subject, Stmt.predicate, Stmt.object, hd]
    simp [Iri.fmt]
  have h3 : pTriple (ntLine .bare false (.mk s p (.lit l)) ++ rest) = none := by
    unfold pTriple
    rw [e, pTerms_object hs hp]
    rw [skip_solid (solid_cons ?_), pObject_other]
    · simp only [List.mem_cons, List.not_mem_nil, or_false, not_or] at hc ⊢
      grind
    · simp only [List.mem_cons, List.not_mem_nil, or_false, not_or] at hc
      simp [isWs, isNewline, hc]
  unfold readNt
  rw [pDoc_refused _ h3]
  rw [e]
  exact subject_solid .bare hs _

/-- The IRI is read up to its own closing bracket. -/
theorem pIriRef_double {env : ReadEnv} {i : Iri} (h : IriGood env i) (r : Str) :
    pIriRef ('<' :: '<' :: (i.text ++ '>' :: r)) = some ('<' :: i.text, r) := by
  have h1 : rep iriCharLen 0 ('<' :: (i.text ++ '>' :: r)) = ('<' :: i.text, '>' :: r) := by
    have : iriCharLen ('<' :: [] ++ (i.text ++ '>' :: r)) = some ('<' :: ([] : Str)).length := by
      simp [iriCharLen, iriExcluded]
    have := rep_step this
    rw [rep_iri (iriGood_text h)] at this
    exact this
  simp [pIriRef, h1]

theorem pTerms_bracketed {env : ReadEnv} {s : Subject} {p : Iri} (hs : SubjectGood env s)
    (hp : IriGood env p) (r : Str) :
    pTerms (s.display .bracketed ++ ' ' :: '<' :: '<' :: (p.text ++ '>' :: '>' :: r)) = none := by
  cases s with
  | stmt t => exact hs.elim
  | res i =>
    have e : (Subject.res i).display .bracketed ++ ' ' :: '<' :: '<' :: (p.text ++ '>' :: '>' :: r) =
        '<' :: '<' :: (i.text ++ '>' :: '>' :: (' ' :: '<' :: '<' :: (p.text ++ '>' :: '>' :: r))) := by
      simp [Subject.display, Iri.fmt]
    unfold pTerms pSubject
    rw [e, pIriRef_double hs]
    simp only
    rw [skip_solid (solid_cons (by decide))]
    rfl
  | blank b =>
    have h1 := pSubject_text (t := .blank b) (rest := ' ' :: '<' :: '<' :: (p.text ++ '>' :: '>' :: r)) hs.1
      (fun _ => ⟨' ', _, rfl, .inl (by decide)⟩)
    have e : (Subject.blank b).display .bracketed = (Term.blank b).text := rfl
    unfold pTerms
    rw [e, h1]
    simp only [skip_space, skip_solid (solid_cons (c := '<') (by decide)), pIriRef_double hp,
      skip_solid (solid_cons (c := '>') (by decide)), pObject_other (c := '>') (by decide)]

/-- C38: when IRIs print with brackets of their own, no document of statements is read. -/
theorem C38_fails_bracketed (env : ReadEnv) (gen : Nat → Str) (n : Nat) (o : Orders) (ho : o.Fair)
    (alt : Bool) (g : Graph) (hg : ∀ st ∈ g.stmts, simple st = true ∧ SubjectGood env st.subject ∧
      IriGood env st.predicate) (hne : g.stmts ≠ []) :
    readNt env (writeNt gen n o .bracketed alt g) = .err := by
  have hs := (C34_unchanged gen n g fun st h => (hg st h).1).1
  have hv : ∀ st ∈ (g.simplify gen n).1.visit o, SubjectGood env st.subject ∧ IriGood env st.predicate :=
    fun st h => by rw [visit_mem ho, hs] at h; exact (hg st h).2
  unfold writeNt readNt
  cases e : (g.simplify gen n).1.visit o with
  | nil =>
    exfalso
    obtain ⟨st, hst⟩ := List.exists_mem_of_ne_nil _ hne
    rw [← hs, ← visit_mem ho, e] at hst
    simp at hst
  | cons st ls =>
    obtain ⟨h1, h2⟩ := hv st (by rw [e]; exact List.mem_cons_self)
    have e2 : (st :: ls).flatMap (ntLine .bracketed alt) = st.subject.display .bracketed ++
        ' ' :: '<' :: '<' :: (st.predicate.text ++ '>' :: '>' :: (' ' :: (st.object.display .bracketed alt ++
          (str! " .\n") ++ ls.flatMap (ntLine .bracketed alt)))) := by
      simp [ntLine, Iri.fmt]
    rw [e2, pDoc_refused (subject_solid _ h1 _)]
    unfold pTriple
    rw [pTerms_bracketed h1 h2]

/-- So C38 fails altogether then. -/
theorem C38_fails (alt : Bool) : ¬ C38_statement .bracketed alt := by
  intro h
  have h1 : IriGood easyEnv ⟨str! "a:s"⟩ := plain_chars (by decide)
  have h2 : IriGood easyEnv ⟨str! "a:p"⟩ := plain_chars (by decide)
  let g := Graph.fromIter [.mk (.res ⟨str! "a:s"⟩) ⟨str! "a:p"⟩ (.res ⟨str! "a:s"⟩)]
  have hst : ∀ st ∈ g.stmts, st = .mk (.res ⟨str! "a:s"⟩) ⟨str! "a:p"⟩ (.res ⟨str! "a:s"⟩) :=
    fun st h => List.mem_singleton.1 h
  obtain ⟨g', e, -⟩ := h easyEnv blankGen 0 sameOrder g easyEnv_ascii sameOrder_fair (by
    intro st h; rw [hst st h]; exact ⟨h1, h2, h1⟩)
  rw [C38_fails_bracketed easyEnv blankGen 0 sameOrder sameOrder_fair alt g (by
    intro st h; rw [hst st h]; exact ⟨rfl, h1, h2⟩) (by simp [g, Graph.fromIter, Graph.stmts, Statements.iter])] at e
  cases e

/-! ### C41 -/

/-- The statements under a name. -/
def DataSet.content (d : DataSet) (k : Option GraphName) : List Stmt :=
  match d.graph k with
  | some g => g.stmts
  | none => []

theorem insert_mem (g : Graph) (s t : Stmt) : t ∈ (g.insert s).stmts ↔ t ∈ g.stmts ∨ t = s := by
  cases h : g.statements with
  | nonUnique l => simp [Graph.insert, Graph.stmts, h, Statements.insert, Statements.iter]
  | unique l =>
    simp only [Graph.insert, Graph.stmts, h, Statements.insert, Statements.iter, setInsert]
    split
    · rename_i hs
      constructor
      · exact .inl
      · rintro (h | rfl)
        · exact h
        · exact hs
    · simp

theorem insertInto_step {d : DataSet} (hd : d.ok) (n : GraphName) (st : Stmt) :
    (d.insertInto n st).ok ∧ ∀ k, (d.insertInto n st).graph k =
      if some n = k then some (((d.graph k).getD (Graph.named n)).insert st) else d.graph k := by
  have hf : ∀ g : Graph, (g.insert st).name = g.name := fun g => rfl
  unfold DataSet.insertInto
  split
  · rename_i hc
    have h := DataSet.step hd (.modify (some n) (fun g => g.insert st) hf)
    refine ⟨h.1, fun k => ?_⟩
    have := h.2 k
    simp only [DataSet.apply, foundAfter] at this
    rw [this]
    split
    · rename_i e; subst e
      cases e2 : d.graph (some n) with
      | none =>
        rw [DataSet.graph_none] at e2
        simp only [DataSet.containsGraph, List.any_eq_true, beq_iff_eq] at hc
        obtain ⟨x, hx, hk⟩ := hc
        exact absurd hk (e2 x hx)
      | some g => rfl
    · rfl
  · rename_i hc
    have h0 := DataSet.insert_step hd (Graph.named n)
    have h := DataSet.step h0.1 (.modify (some n) (fun g => g.insert st) hf)
    refine ⟨h.1, fun k => ?_⟩
    have := h.2 k
    simp only [DataSet.apply, foundAfter] at this
    rw [this, h0.2]
    have hn : (Graph.named n).name = some n := rfl
    rw [hn]
    split
    · rename_i e; subst e
      have : d.graph (some n) = none := by
        rw [DataSet.graph_none]
        intro x hx e
        apply hc
        simp only [DataSet.containsGraph, List.any_eq_true, beq_iff_eq]
        exact ⟨x, hx, e⟩
      simp [this]
    · rfl

/-- A line of a data set. -/
abbrev Quad := GraphName × Stmt

theorem fold_insertInto (qs : List Quad) (d : DataSet) (hd : d.ok) (hne : ∀ k g, d.graph k = some g → g.stmts ≠ []) :
    (qs.foldl (fun d q => d.insertInto q.1 q.2) d).ok ∧
    (∀ k st, st ∈ (qs.foldl (fun d q => d.insertInto q.1 q.2) d).content k ↔
      st ∈ d.content k ∨ ∃ n, k = some n ∧ (n, st) ∈ qs) ∧
    ∀ k g, (qs.foldl (fun d q => d.insertInto q.1 q.2) d).graph k = some g → g.stmts ≠ [] := by
  induction qs generalizing d with
  | nil => exact ⟨hd, by simp, hne⟩
  | cons q qs ih =>
    obtain ⟨h1, h2⟩ := insertInto_step hd q.1 q.2
    have hc : ∀ k st, st ∈ (d.insertInto q.1 q.2).content k ↔
        st ∈ d.content k ∨ (k = some q.1 ∧ st = q.2) := by
      intro k st
      unfold DataSet.content
      rw [h2]
      by_cases e : some q.1 = k
      · subst e
        cases e2 : d.graph (some q.1) with
        | none =>
          have e3 : (Graph.named q.1).stmts = [] := rfl
          simp [insert_mem, e3]
        | some g => simp [insert_mem]
      · rw [if_neg e]
        simp [Ne.symm e]
    have hne' : ∀ k g, (d.insertInto q.1 q.2).graph k = some g → g.stmts ≠ [] := by
      intro k g hg e
      rw [h2] at hg
      split at hg
      · injection hg with hg
        have := (insert_mem ((d.graph k).getD (Graph.named q.1)) q.2 q.2).2 (.inr rfl)
        rw [hg, e] at this
        simp at this
      · exact hne k g hg e
    obtain ⟨a, b, c⟩ := ih _ h1 hne'
    refine ⟨a, fun k st => ?_, c⟩
    rw [List.foldl_cons, b, hc]
    constructor
    · rintro ((h | ⟨rfl, rfl⟩) | ⟨n, rfl, h⟩)
      · exact .inl h
      · exact .inr ⟨_, rfl, List.mem_cons_self⟩
      · exact .inr ⟨n, rfl, List.mem_cons_of_mem _ h⟩
    · rintro (h | ⟨n, rfl, h⟩)
      · exact .inl (.inl h)
      · rcases List.mem_cons.1 h with h | h
        · rw [← h]; exact .inl (.inr ⟨rfl, rfl⟩)
        · exact .inr ⟨n, rfl, h⟩

theorem evalQuads_good {env : ReadEnv} (qs : List Quad)
    (h : ∀ q ∈ qs, NameGood env q.1 ∧ StmtGood env false q.2) (d : DataSet) :
    evalQuads env d (qs.map fun q => (stmtLine (some q.1) q.2).raw) =
      .ok ((qs.map fun q => (q.1, rereadStmt env.pr q.2)).foldl (fun d q => d.insertInto q.1 q.2) d) := by
  induction qs generalizing d with
  | nil => rfl
  | cons q qs ih =>
    obtain ⟨h1, h2⟩ := h q List.mem_cons_self
    obtain ⟨s, e1, e2⟩ := evalName_good h1
    have e : evalQuad env d (stmtLine (some q.1) q.2).raw = .ok (d.insertInto q.1 (rereadStmt env.pr q.2)) := by
      unfold evalQuad
      rw [evalTriple_good h2]
      have : (stmtLine (some q.1) q.2).raw.graph = some (nameTerm q.1).raw := rfl
      simp [Res.bind, this, e1, e2]
    simp only [List.map_cons, evalQuads, e, Res.bind, List.foldl_cons]
    exact ih (fun x hx => h x (List.mem_cons_of_mem _ hx)) _

/-- A line without graph name is refused. -/
theorem evalQuads_default {env : ReadEnv} (qs : List (Option GraphName × Stmt))
    (h : ∀ q ∈ qs, (∀ n ∈ q.1, NameGood env n) ∧ StmtGood env false q.2) (hd : ∃ q ∈ qs, q.1 = none)
    (d : DataSet) : evalQuads env d (qs.map fun q => (stmtLine q.1 q.2).raw) = .err := by
  induction qs generalizing d with
  | nil => simp at hd
  | cons q qs ih =>
    obtain ⟨h1, h2⟩ := h q List.mem_cons_self
    obtain ⟨k, st⟩ := q
    cases k with
    | none =>
      have : (stmtLine none st).raw.graph = none := rfl
      simp [evalQuads, evalQuad, evalTriple_good h2, Res.bind, this]
    | some n =>
      obtain ⟨s, e1, e2⟩ := evalName_good (h1 n rfl)
      have : (stmtLine (some n) st).raw.graph = some (nameTerm n).raw := rfl
      simp only [List.map_cons, evalQuads, evalQuad, evalTriple_good h2, Res.bind, this, e1, e2]
      refine ih (fun x hx => h x (List.mem_cons_of_mem _ hx)) ?_ _
      obtain ⟨x, hx, hk⟩ := hd
      rcases List.mem_cons.1 hx with e | hx
      · rw [e] at hk; cases hk
      · exact ⟨x, hx, hk⟩

/-- The lines of the graphs, with the names. -/
def quadsOf (gen : Nat → Str) (n : Nat) (o : Graph → Orders) (gs : List Graph) :
    List (Option GraphName × Stmt) :=
  gs.flatMap fun g => ((g.simplify gen n).1.visit (o g)).map fun st => (g.name, st)

theorem writeNqGraphs_eq (gen : Nat → Str) (n : Nat) (o : Graph → Orders) (sty : IriStyle)
    (gs : List Graph) (h : ∀ g ∈ gs, ∀ st ∈ g.stmts, simple st = true) :
    writeNqGraphs gen n o sty gs = (quadsOf gen n o gs).flatMap fun q => nqLine sty q.1 q.2 := by
  induction gs with
  | nil => rfl
  | cons g gs ih =>
    have e := (C34_unchanged gen n g (h g List.mem_cons_self)).2
    simp only [writeNqGraphs, writeNqGraph, e, quadsOf, List.flatMap_cons, List.flatMap_append,
      List.flatMap_map]
    rw [ih fun x hx => h x (List.mem_cons_of_mem _ hx)]
    rfl

theorem mem_quadsOf {gen : Nat → Str} {n : Nat} {o : Graph → Orders} (ho : ∀ g, (o g).Fair)
    {gs : List Graph} (h : ∀ g ∈ gs, ∀ st ∈ g.stmts, simple st = true) (k : Option GraphName) (st : Stmt) :
    (k, st) ∈ quadsOf gen n o gs ↔ ∃ g ∈ gs, g.name = k ∧ st ∈ g.stmts := by
  simp only [quadsOf, List.mem_flatMap, List.mem_map, visit_mem (ho _), Prod.mk.injEq]
  constructor
  · rintro ⟨g, hg, x, hx, rfl, rfl⟩
    rw [(C34_unchanged gen n g (h g hg)).1] at hx
    exact ⟨g, hg, rfl, hx⟩
  · rintro ⟨g, hg, rfl, hx⟩
    exact ⟨g, hg, st, by rwa [(C34_unchanged gen n g (h g hg)).1], rfl, rfl⟩

/-- A data set that can be written: names and statements can. -/
def DataSetGood (env : ReadEnv) (d : DataSet) : Prop :=
  ∀ g ∈ d.allGraphs, (∀ n ∈ g.name, NameGood env n) ∧ ∀ st ∈ g.stmts, StmtGood env false st

theorem content_iff {d : DataSet} (hd : d.ok) (k : Option GraphName) (st : Stmt) :
    st ∈ d.content k ↔ ∃ g ∈ d.allGraphs, g.name = k ∧ st ∈ g.stmts := by
  unfold DataSet.content DataSet.allGraphs
  constructor
  · intro h
    split at h
    · rename_i g e
      rw [DataSet.graph_iff hd.2] at e
      exact ⟨g, List.mem_map.2 ⟨_, e, rfl⟩, (hd.1 _ e).symm, h⟩
    · simp at h
  · rintro ⟨g, hg, rfl, hst⟩
    obtain ⟨x, hx, rfl⟩ := List.mem_map.1 hg
    have : d.graph x.2.name = some x.2 := (DataSet.graph_iff hd.2 _ _).2 (by rw [← hd.1 x hx]; exact hx)
    rw [this]
    exact hst

theorem pDoc_quadsOf {env : ReadEnv} (qs : List (Option GraphName × Stmt))
    (h : ∀ q ∈ qs, (∀ n ∈ q.1, NameGood env n) ∧ StmtGood env false q.2) :
    pDoc pQuad (qs.flatMap fun q => nqLine .bare q.1 q.2) =
      some (qs.map fun q => (stmtLine q.1 q.2).raw) := by
  rw [flatMap_lines _ (fun q => stmtLine q.1 q.2) _ fun q hq => nqLine_text (h q hq).2]
  have := pDoc_quads .nil lastGap_nil (qs.map fun q => (ntGaps, stmtLine q.1 q.2)) (by
    intro x hx
    obtain ⟨q, hq, rfl⟩ := List.mem_map.1 hx
    exact ⟨stmtLine_valid (h q hq).1 (h q hq).2, ntGaps_valid _⟩)
  simp only [List.nil_append, List.append_nil, List.map_map] at this
  exact this

/-- C41, what reading gives in general: for a data set without default graph, the graphs that
are not empty, under their names, with the statements as `C38_reads` gives them. -/
theorem C41_reads_partial (env : ReadEnv) (gen : Nat → Str) (n : Nat) (o : Graph → Orders)
    (ho : ∀ g, (o g).Fair) (d : DataSet) (hd : d.ok) (hg : DataSetGood env d)
    (hdef : d.content none = []) :
    ∃ d', readNq env (writeNq gen n o .bare d) = .ok d' ∧ d'.ok ∧
      (∀ k st, st ∈ d'.content k ↔ ∃ x ∈ d.content k, rereadStmt env.pr x = st) ∧
      ∀ k, (d'.graph k).isSome = true ↔ d.content k ≠ [] := by
  have hsimple : ∀ g ∈ d.allGraphs, ∀ st ∈ g.stmts, simple st = true :=
    fun g h st hst => good_simple ((hg g h).2 st hst)
  have hq : ∀ q ∈ quadsOf gen n o d.allGraphs, (∀ m ∈ q.1, NameGood env m) ∧ StmtGood env false q.2 := by
    rintro ⟨k, st⟩ h
    obtain ⟨g, h1, rfl, h2⟩ := (mem_quadsOf ho hsimple k st).1 h
    exact ⟨(hg g h1).1, (hg g h1).2 st h2⟩
  have hmem : ∀ k st, (k, st) ∈ quadsOf gen n o d.allGraphs ↔ st ∈ d.content k := fun k st => by
    rw [mem_quadsOf ho hsimple, content_iff hd]
  have hnone : ∀ q ∈ quadsOf gen n o d.allGraphs, q.1 ≠ none := by
    rintro ⟨k, st⟩ h e
    simp only at e
    subst e
    rw [hmem, hdef] at h
    simp at h
  obtain ⟨qs, hqs⟩ : ∃ qs : List Quad, quadsOf gen n o d.allGraphs = qs.map fun q => (some q.1, q.2) := by
    generalize quadsOf gen n o d.allGraphs = l at hnone
    clear hq hmem
    induction l with
    | nil => exact ⟨[], rfl⟩
    | cons q l ih =>
      obtain ⟨qs, rfl⟩ := ih fun x hx => hnone x (List.mem_cons_of_mem _ hx)
      obtain ⟨k, st⟩ := q
      cases k with
      | none => exact absurd rfl (hnone _ List.mem_cons_self)
      | some k => exact ⟨(k, st) :: qs, rfl⟩
  have hread : readNq env (writeNq gen n o .bare d) = .ok ((qs.map fun q =>
      (q.1, rereadStmt env.pr q.2)).foldl (fun d q => d.insertInto q.1 q.2) DataSet.empty) := by
    unfold readNq writeNq
    rw [writeNqGraphs_eq _ _ _ _ _ hsimple, pDoc_quadsOf _ hq]
    simp only
    rw [hqs, List.map_map]
    refine evalQuads_good qs (fun q h => ?_) _
    have := hq (some q.1, q.2) (by rw [hqs]; exact List.mem_map.2 ⟨q, h, rfl⟩)
    exact ⟨this.1 _ rfl, this.2⟩
  have hempty : DataSet.empty.ok := ⟨by simp [DataSet.empty], by simp [DataSet.empty]⟩
  obtain ⟨a, b, c⟩ := fold_insertInto (qs.map fun q => (q.1, rereadStmt env.pr q.2)) DataSet.empty hempty
    (by intro k g h; simp [DataSet.empty, DataSet.graph] at h)
  have hcont : ∀ k st, st ∈ ((qs.map fun q => (q.1, rereadStmt env.pr q.2)).foldl
      (fun d q => d.insertInto q.1 q.2) DataSet.empty).content k ↔
      ∃ x ∈ d.content k, rereadStmt env.pr x = st := by
    intro k st
    have e : DataSet.empty.content k = [] := rfl
    rw [b, e]
    simp only [List.not_mem_nil, false_or, List.mem_map, Prod.mk.injEq]
    constructor
    · rintro ⟨m, rfl, q, hq, rfl, rfl⟩
      exact ⟨q.2, (hmem _ _).1 (by rw [hqs]; exact List.mem_map.2 ⟨q, hq, rfl⟩), rfl⟩
    · rintro ⟨x, hx, rfl⟩
      have := (hmem _ _).2 hx
      rw [hqs] at this
      obtain ⟨q, hq, e⟩ := List.mem_map.1 this
      injection e with e1 e2
      exact ⟨q.1, e1.symm, q, hq, rfl, by rw [e2]⟩
  refine ⟨_, hread, a, hcont, ?_⟩
  intro k
  rw [Option.isSome_iff_exists]
  constructor
  · rintro ⟨g, e⟩ e2
    have hne := c k g e
    obtain ⟨st, hst⟩ := List.exists_mem_of_ne_nil _ hne
    have := (hcont k st).1 (by unfold DataSet.content; rw [e]; exact hst)
    rw [e2] at this
    simp at this
  · intro h
    obtain ⟨x, hx⟩ := List.exists_mem_of_ne_nil _ h
    have := (hcont k _).2 ⟨x, hx, rfl⟩
    unfold DataSet.content at this
    split at this
    · rename_i g e; exact ⟨g, e⟩
    · simp at this

/-- C41, what holds: a data set without default graph, whose literals have texts that need no
escapes and no type or an unknown one, comes back but for its empty graphs, when IRIs print
without brackets. -/
theorem C41_roundtrip_partial (env : ReadEnv) (gen : Nat → Str) (n : Nat) (o : Graph → Orders)
    (ho : ∀ g, (o g).Fair) (d : DataSet) (hd : d.ok) (hg : DataSetGood env d)
    (hdef : d.content none = [])
    (hl : ∀ k s p l, Stmt.mk s p (.lit l) ∈ d.content k →
      escapeString env.pr l.lexicalForm = l.lexicalForm ∧
      (∀ t, l.dataType = some t → ∃ i, t = .other i) ∧ (l.dataType = none ∨ l.language = none)) :
    ∃ d', readNq env (writeNq gen n o .bare d) = .ok d' ∧ d'.ok ∧
      (∀ k st, st ∈ d'.content k ↔ st ∈ d.content k) ∧
      ∀ k, (d'.graph k).isSome = true ↔ d.content k ≠ [] := by
  obtain ⟨d', h1, h2, h3, h4⟩ := C41_reads_partial env gen n o ho d hd hg hdef
  refine ⟨d', h1, h2, fun k st => ?_, h4⟩
  have fix : ∀ x ∈ d.content k, rereadStmt env.pr x = x := by
    rintro ⟨s, p, o⟩ hx
    cases o with
    | lit l => simp only [rereadStmt, rereadObject, (reread_id _ _).2 (hl k s p l hx)]
    | _ => rfl
  rw [h3]
  constructor
  · rintro ⟨x, hx, rfl⟩; rw [fix x hx]; exact hx
  · intro h; exact ⟨st, h, fix st h⟩

/-- C41: a data set with statements in its default graph is never read back. -/
theorem C41_fails_default (env : ReadEnv) (gen : Nat → Str) (n : Nat) (o : Graph → Orders)
    (ho : ∀ g, (o g).Fair) (d : DataSet) (hd : d.ok) (hg : DataSetGood env d)
    (hdef : d.content none ≠ []) : readNq env (writeNq gen n o .bare d) = .err := by
  have hsimple : ∀ g ∈ d.allGraphs, ∀ st ∈ g.stmts, simple st = true :=
    fun g h st hst => good_simple ((hg g h).2 st hst)
  have hq : ∀ q ∈ quadsOf gen n o d.allGraphs, (∀ m ∈ q.1, NameGood env m) ∧ StmtGood env false q.2 := by
    rintro ⟨k, st⟩ h
    obtain ⟨g, h1, rfl, h2⟩ := (mem_quadsOf ho hsimple k st).1 h
    exact ⟨(hg g h1).1, (hg g h1).2 st h2⟩
  unfold readNq writeNq
  rw [writeNqGraphs_eq _ _ _ _ _ hsimple, pDoc_quadsOf _ hq]
  refine evalQuads_default _ hq ?_ _
  obtain ⟨st, hst⟩ := List.exists_mem_of_ne_nil _ hdef
  rw [content_iff hd, ← mem_quadsOf (gen := gen) (n := n) ho hsimple] at hst
  exact ⟨_, hst, rfl⟩

/-- C41: when IRIs print with brackets of their own, no data set with a statement is read. -/
theorem C41_fails_bracketed (env : ReadEnv) (gen : Nat → Str) (n : Nat) (o : Graph → Orders)
    (ho : ∀ g, (o g).Fair) (d : DataSet)
    (hg : ∀ g ∈ d.allGraphs, ∀ st ∈ g.stmts, simple st = true ∧ SubjectGood env st.subject ∧
      IriGood env st.predicate) (hne : ∃ g ∈ d.allGraphs, g.stmts ≠ []) :
    readNq env (writeNq gen n o .bracketed d) = .err := by
  have hsimple : ∀ g ∈ d.allGraphs, ∀ st ∈ g.stmts, simple st = true := fun g h st hst => (hg g h st hst).1
  unfold readNq writeNq
  rw [writeNqGraphs_eq _ _ _ _ _ hsimple]
  cases e : quadsOf gen n o d.allGraphs with
  | nil =>
    exfalso
    obtain ⟨g, h1, h2⟩ := hne
    obtain ⟨st, hst⟩ := List.exists_mem_of_ne_nil _ h2
    have := (mem_quadsOf (gen := gen) (n := n) ho hsimple g.name st).2 ⟨g, h1, rfl, hst⟩
    rw [e] at this
    simp at this
  | cons q qs =>
    obtain ⟨g, h1, -, h2⟩ := (mem_quadsOf (gen := gen) (n := n) ho hsimple q.1 q.2).1 (by rw [e]; exact List.mem_cons_self)
    obtain ⟨-, h3, h4⟩ := hg g h1 q.2 h2
    have e2 : ∃ r, ((q :: qs).flatMap fun q => nqLine .bracketed q.1 q.2) =
        q.2.subject.display .bracketed ++ ' ' :: '<' :: '<' :: (q.2.predicate.text ++ '>' :: '>' :: r) := by
      obtain ⟨k, st⟩ := q
      cases k with
      | none => exact ⟨_, by simp [nqLine, ntLine, Iri.fmt]; rfl⟩
      | some k => exact ⟨_, by simp [nqLine, Iri.fmt]; rfl⟩
    obtain ⟨r, e2⟩ := e2
    rw [e2, pDoc_refused (subject_solid _ h3 _)]
    unfold pQuad
    rw [pTerms_bracketed h3 h4]

/-- C41, the full statement. -/
def C41_statement (sty : IriStyle) : Prop :=
  ∀ (env : ReadEnv) (gen : Nat → Str) (n : Nat) (o : Graph → Orders) (d : DataSet), AsciiPrintable env.pr →
    (∀ g, (o g).Fair) → d.ok → DataSetGood env d →
    ∃ d', readNq env (writeNq gen n o sty d) = .ok d' ∧
      (∀ k st, st ∈ d'.content k ↔ st ∈ d.content k) ∧ ∀ k, (d'.graph k).isSome = true ↔ d.content k ≠ []

/-- C41 fails in either style, already for one statement of IRIs in the default graph. -/
theorem C41_fails (sty : IriStyle) : ¬ C41_statement sty := by
  intro h
  have h1 : IriGood easyEnv ⟨str! "a:s"⟩ := plain_chars (by decide)
  let g := Graph.fromIter [.mk (.res ⟨str! "a:s"⟩) ⟨str! "a:s"⟩ (.res ⟨str! "a:s"⟩)]
  have hst : ∀ st ∈ g.stmts, st = .mk (.res ⟨str! "a:s"⟩) ⟨str! "a:s"⟩ (.res ⟨str! "a:s"⟩) :=
    fun st h => List.mem_singleton.1 h
  have hne : g.stmts ≠ [] := by simp [g, Graph.fromIter, Graph.stmts, Statements.iter]
  let d : DataSet := ⟨[(none, g)]⟩
  have hd : d.ok := ⟨by intro e he; rw [List.mem_singleton.1 he]; rfl, by simp [d]⟩
  have hall : ∀ x ∈ d.allGraphs, x = g := fun x hx => List.mem_singleton.1 hx
  have hg : DataSetGood easyEnv d := by
    intro x hx
    rw [hall x hx]
    refine ⟨fun n hn => ?_, fun st h => ?_⟩
    · cases hn
    · rw [hst st h]; exact ⟨h1, h1, h1⟩
  obtain ⟨d', e, -⟩ := h easyEnv blankGen 0 (fun _ => sameOrder) d easyEnv_ascii (fun _ => sameOrder_fair) hd hg
  cases sty with
  | bare =>
    rw [C41_fails_default easyEnv blankGen 0 _ (fun _ => sameOrder_fair) d hd hg hne] at e
    cases e
  | bracketed =>
    rw [C41_fails_bracketed easyEnv blankGen 0 _ (fun _ => sameOrder_fair) d (by
      intro x hx st h
      rw [hall x hx] at h
      rw [hst st h]; exact ⟨rfl, h1, h1⟩) ⟨g, List.mem_singleton.2 rfl, hne⟩] at e
    cases e

/-! ### Cases -/

/-- What was read, when something was. -/
def Res.stmts : Res Graph → List Stmt
  | .ok g => g.stmts
  | _ => []

def Res.content (k : Option GraphName) : Res DataSet → List Stmt
  | .ok d => d.content k
  | _ => []

-- a document with comments, labels, a language, a type and an escape
example : (readNt easyEnv (str! "# c\n<a:\\u0073><a:p>\"x\" @en-GB .\t_:b.c <a:p>\n\"1\"^^#t\n<a:t>.\n\n_:1 <a:p> _:b.c . # e")).stmts =
    [.mk (.res ⟨str! "a:s"⟩) ⟨str! "a:p"⟩ (.lit ⟨str! "x", none, some (str! "en-GB")⟩),
     .mk (.blank (str! "b.c")) ⟨str! "a:p"⟩ (.lit ⟨str! "1", some (.other ⟨str! "a:t"⟩), none⟩),
     .mk (.blank (str! "1")) ⟨str! "a:p"⟩ (.blank (str! "b.c"))] := by decide +kernel

example : (readNq easyEnv (str! "<a:s> <a:p> <a:o> <a:g> .\n<a:s> <a:p> <a:o> _:g .\n<a:s> <a:p> <a:o> <a:g> .")).content
    (some (.iri ⟨str! "a:g"⟩)) =
    [.mk (.res ⟨str! "a:s"⟩) ⟨str! "a:p"⟩ (.res ⟨str! "a:o"⟩),
     .mk (.res ⟨str! "a:s"⟩) ⟨str! "a:p"⟩ (.res ⟨str! "a:o"⟩)] := by decide +kernel

example : readNt easyEnv (str! "<a:s> <a:p> 1 .") = .err := by rfl
example : (readNt easyEnv (str! "<a:s> <a:p> <a:o> . <a:s> <a:p>")).stmts = [] := by decide +kernel

-- the lines written
example : writeNt blankGen 0 sameOrder .bare false (Graph.fromIter
    [.mk (.blank (str! "b")) ⟨str! "a:p"⟩ (.lit ⟨str! "x", none, some (str! "en")⟩),
     .mk (.blank (str! "b")) ⟨str! "a:p"⟩ (.res ⟨str! "a:o"⟩)]) =
    (str! "_:b <a:p> \"x\"@en .\n_:b <a:p> <a:o> .\n") := by decide +kernel

-- a statement that can be written, with each kind of term
example : StmtGood easyEnv false (.mk (.blank (str! "b1")) ⟨str! "a:p"⟩ (.lit ⟨str! "x", none, some (str! "en")⟩)) := by
  refine ⟨⟨⟨⟨'b', ?_, .inr ⟨[], '1', rfl, by simp, ?_⟩⟩, ?_⟩, rfl⟩, plain_chars (by decide), ?_, ?_, ?_, ?_⟩
  · exact .inl ((isPnCharsU_iff _).1 (by decide))
  · rw [← isPnChars_iff]; decide
  · intro a b e
    rcases a with _ | ⟨x, _ | ⟨y, a⟩⟩ <;> simp at e
  · exact tokens_of_chars fun c hc => .inl ⟨c, by simp at hc; subst hc; decide, rfl⟩
  · simp
  · intro t ht
    simp at ht
    subst ht
    refine ⟨⟨str! "en", [], by simp, by simp, ?_, by simp⟩, rfl⟩
    intro c hc
    rw [← isAsciiAlpha_iff]
    revert c
    decide
  · simp

end Rdftk
