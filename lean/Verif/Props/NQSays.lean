import Verif.Props.NTSays
import Verif.Props.NTQuads

/-! What N-Quads documents say before and after reading and writing: C167. -/

namespace Rdftk
open Spec

/-- A document of N-Quads that says a set of triples, each in a graph. -/
def NqSays (env : ReadEnv) (s : Str) (qs : List (Option RdfTerm × RdfTriple)) : Prop :=
  ∃ (first last : Str) (ls : List QuadLine), Gap first ∧ LastGap last ∧ (∀ x ∈ ls, x.Ok env) ∧
    s = docText first last (ls.map fun x => (x.1, x.2.1)) ∧ ∀ q, q ∈ ls.map (fun x => x.2.2) ↔ q ∈ qs

/-! ### A document says one set of quads -/

theorem pDoc_quadLines (env : ReadEnv) (first last : Str) (ls : List QuadLine) (hf : Gap first) (hl : LastGap last)
    (hv : ∀ x ∈ ls, x.Ok env) :
    pDoc pQuad (docText first last (ls.map fun x => (x.1, x.2.1))) = some (ls.map fun x => x.2.1.raw) := by
  unfold docText
  rw [pDoc_quads hf hl]
  · simp [Function.comp_def]
  · intro x hx
    obtain ⟨y, hy, rfl⟩ := List.mem_map.1 hx
    exact ⟨(hv y hy).1, (hv y hy).2.1⟩

/-- What is matched tells what was said. -/
theorem quad_tells {env : ReadEnv} (he : SaneEnv env) {x y : QuadLine} (h : x.Ok env) (h' : y.Ok env)
    (e : x.2.1.raw = y.2.1.raw) : x.2.2 = y.2.2 := by
  obtain ⟨gx, lx, kx, tx⟩ := x
  obtain ⟨gy, ly, ky, ty⟩ := y
  obtain ⟨h1, -, h3, h4⟩ := h
  obtain ⟨h1', -, h3', h4'⟩ := h'
  simp only at *
  obtain ⟨st, k1, k2⟩ := evalTriple_means he h1 h4
  obtain ⟨st', k1', k2'⟩ := evalTriple_means he h1' h4'
  rw [e, k1'] at k1
  cases k1
  rw [k2, Option.some.injEq] at k2'
  have ht := readTriple_tells h4 h4' k2'
  refine Prod.ext ?_ ht
  have eg : lx.g.map Term.raw = ly.g.map Term.raw := congrArg RLine.graph e
  cases kx with
  | none =>
    have h3 : lx.g = none := h3
    cases ky with
    | none => rfl
    | some b =>
      obtain ⟨t, k, -⟩ := h3'
      rw [h3, k] at eg
      cases eg
  | some a =>
    obtain ⟨u, j1, j2⟩ := h3
    cases ky with
    | none =>
      have h3' : ly.g = none := h3'
      rw [h3', j1] at eg
      cases eg
    | some b =>
      obtain ⟨v, i1, i2⟩ := h3'
      rw [j1, i1] at eg
      simp only [Option.map_some, Option.some.injEq] at eg
      obtain ⟨s, m1, m2⟩ := evalNode_means he (h1.2.2.2 u j1) j2
      obtain ⟨s', n1, n2⟩ := evalNode_means he (h1'.2.2.2 v i1) i2
      rw [eg, n1] at m1
      cases m1
      rw [m2] at n2
      exact n2

/-- A document of N-Quads says one set of quads. -/
theorem C167_unique (env : ReadEnv) (he : SaneEnv env) (s : Str) (qs qs' : List (Option RdfTerm × RdfTriple))
    (h : NqSays env s qs) (h' : NqSays env s qs') : ∀ q, q ∈ qs ↔ q ∈ qs' := by
  have half : ∀ qs qs', NqSays env s qs → NqSays env s qs' → ∀ q ∈ qs, q ∈ qs' := by
    rintro qs qs' ⟨f, l, ls, h1, h2, h3, h4, h5⟩ ⟨f', l', ls', h1', h2', h3', h4', h5'⟩ q hq
    have k := pDoc_quadLines env f l ls h1 h2 h3
    have k' := pDoc_quadLines env f' l' ls' h1' h2' h3'
    rw [← h4] at k
    rw [← h4', k, Option.some.injEq] at k'
    obtain ⟨x, hx, rfl⟩ := List.mem_map.1 ((h5 q).2 hq)
    have := List.mem_map_of_mem (f := fun x : QuadLine => x.2.1.raw) hx
    rw [k'] at this
    obtain ⟨y, hy, e⟩ := List.mem_map.1 this
    rw [← quad_tells he (h3' y hy) (h3 x hx) e]
    exact (h5' _).1 (List.mem_map_of_mem (f := fun x : QuadLine => x.2.2) hy)
  exact fun q => ⟨half qs qs' h h' q, half qs' qs h' h q⟩

/-! ### What is read can be written -/

theorem resAll_mem {α β : Type _} {f : α → Res β} {l : List α} {bs : List β} (h : resAll f l = .ok bs) {b : β} (hb : b ∈ bs) :
    ∃ a ∈ l, f a = .ok b := by
  induction l generalizing bs with
  | nil => cases h; cases hb
  | cons a l ih =>
    simp only [resAll] at h
    obtain ⟨c, e, h⟩ := Res.bind_ok h
    obtain ⟨cs, e2, h⟩ := Res.bind_ok h
    cases h
    rcases List.mem_cons.1 hb with rfl | hb
    · exact ⟨a, List.mem_cons_self, e⟩
    · obtain ⟨x, hx, k⟩ := ih e2 hb
      exact ⟨x, List.mem_cons_of_mem _ hx, k⟩

theorem readNq_strict {env : ReadEnv} (he : StrictEnv env) (hpr : AsciiPrintable env.pr) {s : Str} {d : DataSet}
    (h : readNq env s = .ok d) (hp : Printed env.pr s) :
    d.ok ∧ ∀ k st, st ∈ d.content k → ∃ n, k = some n ∧ NameGood env n ∧ StmtGood env false st ∧ simple st = true ∧
      ∀ l, st.object = .lit l → l.dataType = none ∨ l.language = none := by
  unfold readNq at h
  cases e : pDoc pQuad s with
  | none => rw [e] at h; cases h
  | some ls =>
    rw [e] at h
    simp only [evalQuads_all] at h
    obtain ⟨qs, hq, h⟩ := Res.bind_ok h
    cases h
    obtain ⟨h1, h2, -⟩ := fold_insertInto qs DataSet.empty ⟨by simp [DataSet.empty], by simp [DataSet.empty]⟩
      (by intro k g h; simp [DataSet.empty, DataSet.graph] at h)
    refine ⟨h1, fun k st hst => ?_⟩
    rcases (h2 k st).1 hst with h | ⟨n, rfl, h⟩
    · cases k <;> cases h
    refine ⟨n, rfl, ?_⟩
    obtain ⟨l, hl, hn⟩ := resAll_mem hq h
    obtain ⟨t, ht, hs⟩ := linesText_mem (C71_accepted_quads_partial s ls e) l hl
    unfold evalNamed at hn
    obtain ⟨st', e1, hn⟩ := Res.bind_ok hn
    rcases ht with ⟨hg, -⟩ | ⟨m, u, g₁, v, g₂, hg, h3, -, h4, -, rfl⟩
    · rw [hg] at hn; cases hn
    · rw [hg] at hn
      obtain ⟨x, e2, hn⟩ := Res.bind_ok hn
      have hx := evalNode_strict he h4 e2
      have hname : NameGood env n ∧ st' = st := by
        cases x with
        | blank b => cases hn; exact ⟨hx, rfl⟩
        | res i => cases hn; exact ⟨hx, rfl⟩
        | stmt y => exact hx.elim
      obtain ⟨hname, rfl⟩ := hname
      have e1' : evalTriple env { l with graph := none } = .ok st' := e1
      have ht : TripleText { l with graph := none } (u ++ [] ++ ['.']) := ⟨rfl, u, [], h3, .nil, rfl⟩
      obtain ⟨a, b, c, d⟩ := evalTriple_strict he ht e1'
      have hd : Printed env.pr (u ++ [] ++ ['.']) := fun ch hc => hp ch (hs ch (by
        simp only [List.append_nil, List.mem_append, List.mem_singleton] at hc ⊢
        rcases hc with hc | hc <;> simp [hc]))
      obtain ⟨sx, px, ox⟩ := st'
      refine ⟨hname, ⟨a, b, d hd⟩, c, fun w hw => ?_⟩
      simp only [Stmt.object] at hw
      subst hw
      exact (evalTriple_literal e1').2

theorem nameTerm_means {env : ReadEnv} {n : GraphName} (h : NameGood env n) (st : Stmt) :
    (stmtLine (some n) st).GraphMeans env (some (graphTerm n)) := by
  refine ⟨nameTerm n, rfl, ?_⟩
  cases n with
  | bnode b => exact rfl
  | iri i =>
    exact ⟨i.text, i, decodesIri_plain fun hm => by
      have := h.1 _ hm
      revert this; simp [IriPlain], h.2, rfl⟩

theorem inner_in_quads {first last : Str} {ls : List QuadLine} {x : QuadLine} (hx : x ∈ ls)
    {a : Str} (h : x.2.1.o.inner = some a) : ∀ c ∈ a, c ∈ docText first last (ls.map fun x => (x.1, x.2.1)) := by
  intro c hc
  have := inner_in_doc (first := first) (last := last) (ls := ls.map fun x => (x.1, x.2.1, x.2.2.2))
    (List.mem_map_of_mem hx) h c hc
  simpa [List.map_map, Function.comp_def] using this

theorem quads_text (f : Option GraphName × Stmt → RdfTriple) (qs : List (Option GraphName × Stmt))
    (h : ∀ q ∈ qs, nqLine .bare q.1 q.2 = (stmtLine q.1 q.2).text ntGaps) :
    (qs.flatMap fun q => nqLine .bare q.1 q.2) = docText [] [] ((qs.map fun q =>
      ((ntGaps, stmtLine q.1 q.2, q.1.map graphTerm, f q) : QuadLine)).map fun x => (x.1, x.2.1)) := by
  rw [flatMap_lines (fun q => nqLine .bare q.1 q.2) (fun q => stmtLine q.1 q.2) qs h, List.map_map]
  simp [docText, Function.comp_def]

/-- C167, what is said in general, with IRIs once in brackets, if all statements are in named graphs: what the document says,
but for literals, which have the insides of the quotes as they stand. -/
theorem C167_says (env : ReadEnv) (gen : Nat → Str) (n : Nat) (o : Graph → Orders) (first last : Str) (ls : List QuadLine)
    (he : StrictEnv env) (hsane : SaneEnv env) (hpr : AsciiPrintable env.pr) (ho : ∀ g, (o g).Fair) (hf : Gap first)
    (hl : LastGap last) (hv : ∀ x ∈ ls, x.Ok env) (hd : ∀ x ∈ ls, x.2.1.g ≠ none)
    (hp : Printed env.pr (docText first last (ls.map fun x => (x.1, x.2.1)))) :
    ∃ d, readNq env (docText first last (ls.map fun x => (x.1, x.2.1))) = .ok d ∧
      NqSays env (writeNq gen n o .bare d) (ls.map fun x => (x.2.2.1, rawTriple x.2.1 x.2.2.2)) := by
  obtain ⟨d, hr, hok, hg⟩ := C84_reads env first last ls hsane hf hl hv hd
  refine ⟨d, hr, ?_⟩
  obtain ⟨-, hgood⟩ := readNq_strict he hpr hr hp
  have hmem : ∀ g ∈ d.allGraphs, ∀ st ∈ g.stmts, st ∈ d.content g.name := fun g h st hst =>
    (content_iff hok _ _).2 ⟨g, h, rfl, hst⟩
  have hsimple : ∀ g ∈ d.allGraphs, ∀ st ∈ g.stmts, simple st = true := fun g h st hst => by
    obtain ⟨_, _, _, _, k, _⟩ := hgood _ _ (hmem g h st hst)
    exact k
  have hq : ∀ k st, (k, st) ∈ quadsOf gen n o d.allGraphs ↔ st ∈ d.content k := fun k st => by
    rw [mem_quadsOf ho hsimple, content_iff hok]
  obtain ⟨f, hf'⟩ : ∃ f : Option GraphName × Stmt → RdfTriple, ∀ q : Option GraphName × Stmt, q.2 ∈ d.content q.1 →
      (stmtLine none q.2).Means env (f q) ∧ ∃ x ∈ ls, x.2.2.1 = q.1.map graphTerm ∧
        stmtTriple q.2 = some (readTriple env.pr x.2.1 x.2.2.2) ∧ f q = rawTriple x.2.1 x.2.2.2 := by
    refine (Classical.skolem (p := fun (q : Option GraphName × Stmt) t => q.2 ∈ d.content q.1 → (stmtLine none q.2).Means env t ∧
      ∃ x ∈ ls, x.2.2.1 = q.1.map graphTerm ∧
        stmtTriple q.2 = some (readTriple env.pr x.2.1 x.2.2.2) ∧ t = rawTriple x.2.1 x.2.2.2)).1 fun q => ?_
    obtain ⟨k, st⟩ := q
    by_cases hst : st ∈ d.content k
    · obtain ⟨m, -, -, hsg, hss, hlit⟩ := hgood k st hst
      obtain ⟨t, ht⟩ := simple_triple hss
      obtain ⟨x, hx, hk, e⟩ := (hg k t).1 ⟨st, hst, ht⟩
      rw [← e] at ht
      refine ⟨rawTriple x.2.1 x.2.2.2, fun _ => ⟨?_, x, hx, hk, ht, rfl⟩⟩
      have hm := (hv x hx).2.2.2
      exact stmtLine_means hsg (x := readTriple env.pr x.2.1 x.2.2.2) (o := (rawTriple x.2.1 x.2.2.2).2.2) hlit ht (by
          rcases raw_literal hm with ⟨h1, h2, h3⟩ | ⟨a, t, d, g, h1, h2, -, h4⟩
          · have h5 : readTriple env.pr x.2.1 x.2.2.2 = x.2.2.2 :=
              (readTriple_id hm).2 fun a ha => by rw [h1] at ha; cases ha
            rw [h5, h2]
            exact .inl ⟨h3, rfl⟩
          · refine .inr ⟨escapeString env.pr a, a, d, g, ?_, by rw [h4], decodes_escaped fun c hc => hp c (inner_in_quads hx h1 c hc)⟩
            rw [readTriple_raw _ hm, h4])
    · exact ⟨(.blank [], ⟨[]⟩, .blank []), fun h => absurd h hst⟩
  refine ⟨[], [], (quadsOf gen n o d.allGraphs).map fun q => (ntGaps, stmtLine q.1 q.2, q.1.map graphTerm, f q), .nil,
    lastGap_nil, ?_, ?_, fun t => ?_⟩
  · intro y hy
    obtain ⟨⟨k, st⟩, hst, rfl⟩ := List.mem_map.1 hy
    have hst := (hq k st).1 hst
    obtain ⟨m, rfl, hm, hsg, -, -⟩ := hgood k st hst
    refine ⟨stmtLine_valid ?_ hsg, ntGaps_valid _, nameTerm_means hm st, (hf' (some m, st) hst).1⟩
    intro n hn
    cases hn
    exact hm
  · unfold writeNq
    have hline : ∀ q ∈ quadsOf gen n o d.allGraphs, nqLine .bare q.1 q.2 = (stmtLine q.1 q.2).text ntGaps := fun q h => by
      obtain ⟨_, _, _, k, _⟩ := hgood q.1 q.2 ((hq q.1 q.2).1 h)
      exact nqLine_text k
    rw [writeNqGraphs_eq _ _ _ _ _ hsimple]
    exact quads_text f _ hline
  · rw [List.map_map, List.mem_map, List.mem_map]
    constructor
    · rintro ⟨⟨k, st⟩, hst, rfl⟩
      obtain ⟨-, x, hx, hk, -, e⟩ := hf' (k, st) ((hq k st).1 hst)
      exact ⟨x, hx, by rw [hk, ← e]; rfl⟩
    · rintro ⟨x, hx, rfl⟩
      obtain ⟨k, hk⟩ : ∃ k : Option GraphName, x.2.2.1 = k.map graphTerm := by
        cases e : x.2.2.1 with
        | none => exact ⟨none, rfl⟩
        | some y =>
          cases y with
          | iri i => exact ⟨some (.iri i), rfl⟩
          | blank b => exact ⟨some (.bnode b), rfl⟩
          | lit a b c =>
            have := (hv x hx).2.2.1
            rw [e] at this
            obtain ⟨u, -, hu⟩ := this
            cases u with
            | iri s => obtain ⟨_, _, _, _, h⟩ := hu; cases h
            | blank l => cases hu
      obtain ⟨st, hst, e⟩ := (hg k _).2 ⟨x, hx, hk, rfl⟩
      obtain ⟨-, y, hy, -, k1, k2⟩ := hf' (k, st) hst
      refine ⟨(k, st), (hq k st).2 hst, ?_⟩
      simp only at k1
      rw [k1, Option.some.injEq] at e
      show (k.map graphTerm, f (k, st)) = _
      rw [hk, k2, raw_tells (hv y hy).2.2.2 (hv x hx).2.2.2 e]

/-- C167, exactly: a document of N-Quads read and written, with IRIs once in brackets, says what it said if and only if all its
statements are in named graphs and no literal has an escape. -/
theorem C167_iff (env : ReadEnv) (gen : Nat → Str) (n : Nat) (o : Graph → Orders) (first last : Str) (ls : List QuadLine)
    (he : StrictEnv env) (hsane : SaneEnv env) (hpr : AsciiPrintable env.pr) (ho : ∀ g, (o g).Fair) (hf : Gap first)
    (hl : LastGap last) (hv : ∀ x ∈ ls, x.Ok env)
    (hp : Printed env.pr (docText first last (ls.map fun x => (x.1, x.2.1)))) :
    (∃ d, readNq env (docText first last (ls.map fun x => (x.1, x.2.1))) = .ok d ∧
      NqSays env (writeNq gen n o .bare d) (ls.map fun x => x.2.2)) ↔
    ∀ x ∈ ls, x.2.1.g ≠ none ∧ ∀ a, x.2.1.o.inner = some a → '\\' ∉ a := by
  by_cases hd : ∃ x ∈ ls, x.2.1.g = none
  · rw [C84_fails_default env first last ls hsane hf hl hv hd]
    obtain ⟨x, hx, hn⟩ := hd
    constructor
    · rintro ⟨d, h, -⟩
      cases h
    · intro h
      exact absurd hn (h x hx).1
  have hd' : ∀ x ∈ ls, x.2.1.g ≠ none := fun x hx h => hd ⟨x, hx, h⟩
  obtain ⟨d, h1, h2⟩ := C167_says env gen n o first last ls he hsane hpr ho hf hl hv hd' hp
  constructor
  · rintro ⟨d', h1', h2'⟩
    rw [h1] at h1'
    cases h1'
    have same := C167_unique env hsane _ _ _ h2 h2'
    suffices ∀ a ∈ ls.filterMap (fun x => x.2.1.o.inner), '\\' ∉ a from
      fun x hx => ⟨hd' x hx, fun a ha => this a (List.mem_filterMap.2 ⟨x, hx, ha⟩)⟩
    refine no_escapes fun a ha => ?_
    obtain ⟨x, hx, ha⟩ := List.mem_filterMap.1 ha
    rcases raw_literal (hv x hx).2.2.2 with ⟨k1, -⟩ | ⟨a', t, d, g, k1, -, -, k4⟩
    · rw [ha] at k1; cases k1
    · rw [ha] at k1
      cases k1
      obtain ⟨y, hy, ky⟩ := List.mem_map.1 ((same _).1 (List.mem_map_of_mem
        (f := fun x : QuadLine => (x.2.2.1, rawTriple x.2.1 x.2.2.2)) hx))
      have : y.2.2.2.2.2 = .lit a d g := by
        have := congrArg (·.2.2.2) ky
        simp only [k4] at this
        exact this
      obtain ⟨b, j1, j2⟩ := (literal_means (pr := env.pr) (hv y hy).2.2.2).2 _ _ _ this
      exact ⟨b, List.mem_filterMap.2 ⟨y, hy, j1⟩, j2⟩
  · intro h
    refine ⟨d, h1, ?_⟩
    have : (ls.map fun x => (x.2.2.1, rawTriple x.2.1 x.2.2.2)) = ls.map fun x => x.2.2 := by
      refine List.map_congr_left fun x hx => Prod.ext rfl ?_
      rcases raw_literal (hv x hx).2.2.2 with ⟨-, k, -⟩ | ⟨a, t, d, g, k1, k2, k3, k4⟩
      · exact k
      · show rawTriple x.2.1 x.2.2.2 = x.2.2.2
        rw [k4, ← decodes_no_escape ((h x hx).2 a k1) k3, ← k2]
    rwa [this] at h2

/-- In the style of the code the result is no document of N-Quads, if there is a statement. -/
theorem C167_fails_bracketed (env : ReadEnv) (gen : Nat → Str) (n : Nat) (o : Graph → Orders) (first last : Str)
    (ls : List QuadLine) (he : StrictEnv env) (hsane : SaneEnv env) (hpr : AsciiPrintable env.pr) (ho : ∀ g, (o g).Fair)
    (hf : Gap first) (hl : LastGap last) (hv : ∀ x ∈ ls, x.Ok env) (hd : ∀ x ∈ ls, x.2.1.g ≠ none)
    (hp : Printed env.pr (docText first last (ls.map fun x => (x.1, x.2.1)))) (hne : ls ≠ []) :
    ∃ d, readNq env (docText first last (ls.map fun x => (x.1, x.2.1))) = .ok d ∧
      ∀ qs, ¬ NqSays env (writeNq gen n o .bracketed d) qs := by
  obtain ⟨d, hr, hok, hg⟩ := C84_reads env first last ls hsane hf hl hv hd
  refine ⟨d, hr, ?_⟩
  obtain ⟨-, hgood⟩ := readNq_strict he hpr hr hp
  have hmem : ∀ g ∈ d.allGraphs, ∀ st ∈ g.stmts, st ∈ d.content g.name := fun g h st hst =>
    (content_iff hok _ _).2 ⟨g, h, rfl, hst⟩
  have hsimple : ∀ g ∈ d.allGraphs, ∀ st ∈ g.stmts, simple st = true := fun g h st hst => by
    obtain ⟨_, _, _, _, k, _⟩ := hgood _ _ (hmem g h st hst)
    exact k
  obtain ⟨x, hx⟩ := List.exists_mem_of_ne_nil _ hne
  have hq : ∀ k st, (k, st) ∈ quadsOf gen n o d.allGraphs ↔ st ∈ d.content k := fun k st => by
    rw [mem_quadsOf ho hsimple, content_iff hok]
  have hsome : ∃ k st, st ∈ d.content k := by
    obtain ⟨u, hu⟩ : ∃ u, x.2.1.g = some u := by
      cases e : x.2.1.g with
      | none => exact absurd e (hd x hx)
      | some u => exact ⟨u, rfl⟩
    have h3 := (hv x hx).2.2.1
    cases e : x.2.2.1 with
    | none =>
      rw [e] at h3
      exact absurd h3 (hd x hx)
    | some y =>
      cases y with
      | iri i =>
        obtain ⟨st, h, -⟩ := (hg (some (.iri i)) _).2 ⟨x, hx, e, rfl⟩
        exact ⟨_, st, h⟩
      | blank b =>
        obtain ⟨st, h, -⟩ := (hg (some (.bnode b)) _).2 ⟨x, hx, e, rfl⟩
        exact ⟨_, st, h⟩
      | lit a b c =>
        rw [e] at h3
        obtain ⟨u, -, hu⟩ := h3
        cases u with
        | iri s => obtain ⟨_, _, _, _, h⟩ := hu; cases h
        | blank l => cases hu
  have hnone : pDoc pQuad (writeNq gen n o .bracketed d) = none := by
    unfold writeNq
    rw [writeNqGraphs_eq _ _ _ _ _ hsimple]
    cases e : quadsOf gen n o d.allGraphs with
    | nil =>
      exfalso
      obtain ⟨k, st, h⟩ := hsome
      have := (hq k st).2 h
      rw [e] at this
      simp at this
    | cons q qs =>
      obtain ⟨_, _, _, hsg, -⟩ := hgood q.1 q.2 ((hq q.1 q.2).1 (by rw [e]; exact List.mem_cons_self))
      obtain ⟨h3, h4⟩ : SubjectGood env q.2.subject ∧ IriGood env q.2.predicate := by
        obtain ⟨k, ⟨a, b, c⟩⟩ := q
        exact ⟨hsg.1, hsg.2.1⟩
      have e2 : ∃ r, ((q :: qs).flatMap fun q => nqLine .bracketed q.1 q.2) =
          q.2.subject.display .bracketed ++ ' ' :: '<' :: '<' :: (q.2.predicate.text ++ '>' :: '>' :: r) := by
        obtain ⟨k, st⟩ := q
        cases k with
        | none => exact ⟨_, by simp [nqLine, ntLine, Iri.fmt]; rfl⟩
        | some k => exact ⟨_, by simp [nqLine, Iri.fmt]; rfl⟩
      obtain ⟨r, e2⟩ := e2
      rw [e2, pDoc_refused (subject_solid _ h3 _)]
      unfold pQuad
      rw [pTerms_bracketed h3 h4]
  rintro qs ⟨f, l, ms, k1, k2, k3, k4, -⟩
  rw [k4, pDoc_quadLines env f l ms k1 k2 k3] at hnone
  cases hnone

/-- C167, the full statement: a document of N-Quads read and written says what it said. -/
def C167_statement (sty : IriStyle) : Prop :=
  ∀ (env : ReadEnv) (gen : Nat → Str) (n : Nat) (o : Graph → Orders) (s : Str) (qs : List (Option RdfTerm × RdfTriple)),
    StrictEnv env → SaneEnv env → AsciiPrintable env.pr → (∀ g, (o g).Fair) → Printed env.pr s → NqSays env s qs →
    ∃ d, readNq env s = .ok d ∧ NqSays env (writeNq gen n o sty d) qs

/-- A document with one line, of the literal with this between the quotes, in this graph. -/
def quadDoc (a t : Str) (g : Option GraphName) : List QuadLine :=
  [(blankGaps, { literalLine a with g := g.map nameTerm }, g.map graphTerm,
    ((.iri ⟨str! "http://a/s"⟩, ⟨str! "http://a/p"⟩, .lit t none none) : RdfTriple))]

theorem quadDoc_valid {a t : Str} (h : DecodesString a t) (hq : QuoteText a) (g : Option GraphName)
    (hg : ∀ n ∈ g, NameGood docEnv n) : ∀ x ∈ quadDoc a t g, QuadLine.Ok docEnv x := by
  intro x hx
  rw [quadDoc, List.mem_singleton] at hx
  subst hx
  have hl := literalLine_valid hq
  refine ⟨⟨hl.1, hl.2.1, hl.2.2.1, fun u hu => ?_⟩, blankGaps_valid _, ?_, literalLine_means h⟩
  · cases g with
    | none => cases hu
    | some n =>
      cases hu
      exact nameTerm_valid (hg n rfl)
  · cases g with
    | none => rfl
    | some n => exact nameTerm_means (hg n rfl) (.mk (.blank ['b']) ⟨[]⟩ (.blank ['b']))

/-- C167 fails in either style, for one statement of a named graph with an escape. -/
theorem C167_fails (sty : IriStyle) : ¬ C167_statement sty := by
  intro h
  have hg : ∀ n ∈ some (GraphName.iri ⟨str! "http://a/g"⟩), NameGood docEnv n := by
    intro n hn
    cases hn
    exact plain_chars (by decide)
  have hv := quadDoc_valid (a := str! "\\n") (t := ['\n']) (.echar (e := 'n') (by decide) .nil)
    ⟨[str! "\\n"], by simp [Echar, Uchar], by simp⟩ _ hg
  have hl : LastGap [] := ⟨[], [], .nil, rfl, .inl rfl⟩
  have hp : Printed docEnv.pr (docText [] [] ((quadDoc (str! "\\n") ['\n'] (some (.iri ⟨str! "http://a/g"⟩))).map fun x => (x.1, x.2.1))) :=
    webCli_printed _ (by decide +kernel)
  obtain ⟨d, h1, h2⟩ := h docEnv (fun _ => []) 0 (fun _ => sameOrder) _ _ docEnv_strict docEnv_sane easyEnv_ascii
    (fun _ => sameOrder_fair) hp ⟨[], [], _, .nil, hl, hv, rfl, fun _ => Iff.rfl⟩
  have hd : ∀ x ∈ quadDoc (str! "\\n") ['\n'] (some (.iri ⟨str! "http://a/g"⟩)), x.2.1.g ≠ none := by simp [quadDoc]
  cases sty with
  | bare =>
    have := (C167_iff docEnv (fun _ => []) 0 (fun _ => sameOrder) [] [] _ docEnv_strict docEnv_sane easyEnv_ascii
      (fun _ => sameOrder_fair) .nil hl hv hp).1 ⟨d, h1, h2⟩ _ (List.mem_singleton.2 rfl)
    exact this.2 _ rfl (by decide)
  | bracketed =>
    obtain ⟨d', h1', h2'⟩ := C167_fails_bracketed docEnv (fun _ => []) 0 (fun _ => sameOrder) [] [] _ docEnv_strict docEnv_sane
      easyEnv_ascii (fun _ => sameOrder_fair) .nil hl hv hd hp (by simp [quadDoc])
    rw [h1] at h1'
    cases h1'
    exact h2' _ h2

/-- C167, what holds. -/
theorem C167_partial (env : ReadEnv) (gen : Nat → Str) (n : Nat) (o : Graph → Orders) (first last : Str) (ls : List QuadLine)
    (he : StrictEnv env) (hsane : SaneEnv env) (hpr : AsciiPrintable env.pr) (ho : ∀ g, (o g).Fair) (hf : Gap first)
    (hl : LastGap last) (hv : ∀ x ∈ ls, x.Ok env)
    (hp : Printed env.pr (docText first last (ls.map fun x => (x.1, x.2.1))))
    (hn : ∀ x ∈ ls, x.2.1.g ≠ none ∧ ∀ a, x.2.1.o.inner = some a → '\\' ∉ a) :
    ∃ d, readNq env (docText first last (ls.map fun x => (x.1, x.2.1))) = .ok d ∧
      NqSays env (writeNq gen n o .bare d) (ls.map fun x => x.2.2) :=
  (C167_iff env gen n o first last ls he hsane hpr ho hf hl hv hp).2 hn

/-! A tab in a named graph. -/

example : ∃ d, readNq docEnv (docText [] [] ((quadDoc ['\t'] ['\t'] (some (.iri ⟨str! "http://a/g"⟩))).map fun x => (x.1, x.2.1))) = .ok d ∧
    NqSays docEnv (writeNq (fun _ => []) 0 (fun _ => sameOrder) .bare d)
      ((quadDoc ['\t'] ['\t'] (some (.iri ⟨str! "http://a/g"⟩))).map fun x => x.2.2) := by
  have hg : ∀ n ∈ some (GraphName.iri ⟨str! "http://a/g"⟩), NameGood docEnv n := by
    intro n hn
    cases hn
    exact plain_chars (by decide)
  have hv := quadDoc_valid (a := ['\t']) (t := ['\t']) (.plain (by decide) .nil)
    (tokens_of_chars fun c hc => .inl ⟨c, by rw [List.mem_singleton.1 hc]; decide, rfl⟩) _ hg
  have hl : LastGap [] := ⟨[], [], .nil, rfl, .inl rfl⟩
  refine C167_partial docEnv _ _ _ [] [] _ docEnv_strict docEnv_sane easyEnv_ascii (fun _ => sameOrder_fair) .nil hl hv
    (webCli_printed _ (by decide +kernel)) ?_
  intro x hx
  rw [quadDoc, List.mem_singleton] at hx
  subst hx
  refine ⟨by simp, fun a ha => ?_⟩
  cases ha
  decide

end Rdftk
