import Verif.Props.JsonTurtle
import Verif.Props.XmlTurtle

/-! When conversions to Turtle succeed: C171. -/

namespace Rdftk
open Spec

/-! ### IRIs that can be printed -/

/-- In either style the text of an IRI that can be written is parsed to it. -/
theorem fmt_parsed {env : ReadEnv} {i : Iri} (sty : IriStyle) (hi : IriGood env i) : Iri.fromStr env.url (i.fmt sty) = some i := by
  cases sty with
  | bare =>
    unfold Iri.fromStr
    have : (startsWith i.text '<' && endsWith i.text '>') = false := by
      rw [Bool.eq_false_iff]
      intro he
      simp only [Bool.and_eq_true] at he
      obtain ⟨t, ht⟩ := startsWith_iff.1 he.1
      have := (hi.1 '<' (by rw [ht]; simp)).2
      simp at this
    simp only [Iri.fmt, this]
    simpa using hi.2
  | bracketed =>
    unfold Iri.fromStr
    have h1 : startsWith ('<' :: (i.text ++ ['>'])) '<' = true := startsWith_iff.2 ⟨_, rfl⟩
    have h2 : endsWith ('<' :: (i.text ++ ['>'])) '>' = true := endsWith_iff.2 ⟨'<' :: i.text, rfl⟩
    simp only [Iri.fmt, List.cons_append, h1, h2]
    simpa using hi.2

/-- Without options an IRI is printed if and only if it can be divided, in either style. -/
theorem prints_iff {env : TurtleEnv} {renv : ReadEnv} (ho : env.opts = TurtleOptions.default) (hu : env.url = renv.url) {i : Iri}
    (hi : IriGood renv i) : IriPrints env i ↔ i.split ≠ .panic := by
  have hrel : turtleRelative env (i.fmt env.sty) = none := by simp [turtleRelative, ho, TurtleOptions.default]
  have hconv : env.opts.convert = [] := by rw [ho]; rfl
  have hfrom : Iri.fromStr env.url (i.fmt env.sty) = some i := by rw [hu]; exact fmt_parsed env.sty hi
  unfold IriPrints compressIri
  simp only [hrel, hconv, convertAll, hfrom, PrefixMap.compress]
  cases hsp : i.split with
  | panic => simp
  | ok q =>
    cases q with
    | none => simp
    | some x =>
      obtain ⟨ns, n⟩ := x
      simp only []
      cases env.graph.mappings.getPrefix ns <;> simp

/-- A literal of type `xsd:anyURI` is written as an IRI: its text is one, and can be divided. -/
def UriDivides (url : Str → Option Iri) (v : Str) : Prop := ∃ i, url v = some i ∧ i.split ≠ .panic

/-- The types known to the code can be divided. -/
theorem known_split {d : DataType} (h : ∀ i, d ≠ .other i) : d.asIri.split ≠ .panic := by
  cases d with
  | other i => exact absurd rfl (h i)
  | _ => decide +kernel

/-- When a literal is printed. -/
theorem literal_iff {env : TurtleEnv} {renv : ReadEnv} (ho : env.opts = TurtleOptions.default) (hu : env.url = renv.url)
    (he : StrictEnv renv) {l : Literal} (hd : ∀ d, l.dataType = some d → IriGood renv d.asIri)
    (hl : l.dataType = none ∨ l.language = none) :
    (∃ s, writeLiteral env l = .ok s) ↔
      (∀ d, l.dataType = some d → d.asIri.split ≠ .panic) ∧ (l.dataType = some .iri → UriDivides renv.url l.lexicalForm) := by
  obtain ⟨v, dt, lg⟩ := l
  cases dt with
  | none =>
    cases lg <;> simp [writeLiteral, turtleSuffix, Run.bind]
  | some d =>
    have hlg : lg = none := by simpa using hl
    subst hlg
    have hg := hd d rfl
    by_cases h0 : d = .iri
    · subst h0
      simp only [writeLiteral, if_true]
      have key : (∃ s, (Run.ofOption (env.url v)).bind (compressIri env) = .ok s) ↔ UriDivides renv.url v := by
        rw [hu]
        cases h1 : renv.url v with
        | none => simp [Run.ofOption, Run.bind, UriDivides, h1]
        | some j =>
          have := prints_iff ho hu (he.url _ _ h1)
          simpa [Run.ofOption, Run.bind, UriDivides, h1, IriPrints] using this
      refine key.trans ⟨fun h => ⟨?_, fun _ => h⟩, fun h => h.2 trivial⟩
      rintro d h1
      cases h1
      exact known_split fun i => by simp
    · by_cases h1 : turtleBare d = true
      · simp only [writeLiteral, h0, if_false, h1, if_true]
        refine ⟨fun _ => ⟨?_, fun h => by cases h; exact absurd rfl h0⟩, fun _ => ⟨_, rfl⟩⟩
        rintro d' h
        cases h
        exact known_split fun i hi => by subst hi; cases h1
      · have hk := prints_iff ho hu hg
        simp only [writeLiteral, h0, if_false, h1, turtleSuffix]
        constructor
        · rintro ⟨s, h⟩
          obtain ⟨u, h4, -⟩ := Run.bind_ok.1 h
          obtain ⟨w, h5, -⟩ := Run.bind_ok.1 h4
          refine ⟨fun d' h => ?_, fun h => by cases h; exact absurd rfl h0⟩
          cases h
          exact hk.1 ⟨w, h5⟩
        · rintro ⟨h, -⟩
          obtain ⟨w, h5⟩ := hk.2 (h d rfl)
          simp [h5, Run.bind]

/-- When a graph without nested statements is written as Turtle, without options and in either style. -/
theorem written_iff {env : ReadEnv} {o : Orders} {gen : Nat → Str} {k : Nat} {g : Graph} (sty : IriStyle) (ho : o.Fair)
    (he : StrictEnv env) (ht : env.url rdfType.text = some rdfType)
    (hs : ∀ t ∈ g.stmts, simple t = true) (hi : ∀ t ∈ g.stmts, ∀ i ∈ irisOf t, IriGood env i)
    (hl : ∀ t ∈ g.stmts, ∀ l, t.object = .lit l → l.dataType = none ∨ l.language = none) :
    (∃ n out, writeTurtle env.pr env.url sty TurtleOptions.default o gen k n g = .ok out) ↔
      (∀ t ∈ g.stmts, ∀ i ∈ irisOf t, i.split ≠ .panic) ∧
      (∀ t ∈ g.stmts, ∀ l, t.object = .lit l → l.dataType = some .iri → UriDivides env.url l.lexicalForm) ∧ NoEndlessChain g := by
  have hd : (denest gen k g).stmts = g.stmts := denest_stmts fun t ht => simple_notNested (hs t ht)
  have hw : ∀ n, (∃ out, writeTurtle env.pr env.url sty TurtleOptions.default o gen k n g = .ok out) ↔
      ∃ x, writeTriples ⟨env.pr, env.url, sty, TurtleOptions.default, denest gen k g, o⟩ n 0 = .ok x := by
    intro n
    simp only [writeTurtle, Step.andThen, Step.text, Run.bind]
    cases e : writeTriples ⟨env.pr, env.url, sty, TurtleOptions.default, denest gen k g, o⟩ n 0 <;> simp
  have prints : ∀ {i}, IriGood env i → (IriPrints ⟨env.pr, env.url, sty, TurtleOptions.default, denest gen k g, o⟩ i ↔ i.split ≠ .panic) :=
    fun h => prints_iff rfl rfl h
  have htype := (prints (he.url _ _ ht)).2 (by decide +kernel)
  have hpoints : NoEndlessChain (denest gen k g) ↔ NoEndlessChain g := by
    have : Points (denest gen k g) = Points g := by unfold Points; rw [hd]
    unfold NoEndlessChain
    rw [this]
  have := C67_iff ⟨env.pr, env.url, sty, TurtleOptions.default, denest gen k g, o⟩ ho (by show 0 < TurtleOptions.default.width; decide) rfl htype
  simp only [hw]
  rw [this, hd, hpoints]
  rw [← and_assoc]
  refine and_congr ?_ ⟨fun h => h rfl, fun h _ => h⟩
  constructor
  · intro h
    refine ⟨?_, ?_⟩
    · rintro ⟨a, p, b⟩ hm i hin
      obtain ⟨h1, h2, h3⟩ := h a p b hm
      have hg := hi _ hm i hin
      simp only [irisOf, Stmt.subject, Stmt.predicate, Stmt.object, List.mem_append, List.mem_cons] at hin
      rcases hin with hin | rfl | hin
      · cases a with
        | res j => rw [List.mem_singleton] at hin; subst hin; exact (prints hg).1 h1
        | _ => cases hin
      · exact (prints hg).1 h2
      · cases b with
        | res j =>
          rw [List.mem_singleton] at hin
          subst hin
          cases h3 with
          | res _ h3 => exact (prints hg).1 h3
        | lit l =>
          simp only [Option.mem_toList, Option.map_eq_some_iff] at hin
          obtain ⟨d, hd', rfl⟩ := hin
          cases h3 with
          | lit _ h3 =>
            refine ((literal_iff rfl rfl he (fun d hd => hi _ hm _ ?_) (hl _ hm l rfl)).1 h3).1 d hd'
            simp [irisOf, Stmt.object, hd]
        | _ => cases hin
    · rintro ⟨a, p, b⟩ hm l (rfl : b = _) hdt
      obtain ⟨-, -, h3⟩ := h a p _ hm
      cases h3 with
      | lit _ h3 =>
        refine ((literal_iff rfl rfl he (fun d hd => hi _ hm _ ?_) (hl _ hm l rfl)).1 h3).2 hdt
        simp [irisOf, Stmt.object, hd]
  · rintro ⟨h1, h2⟩ a p b hm
    have hsi := hs _ hm
    refine ⟨?_, (prints (hi _ hm p (by simp [irisOf, Stmt.predicate]))).2 (h1 _ hm p (by simp [irisOf, Stmt.predicate])), ?_⟩
    · cases a with
      | blank b => trivial
      | res i => exact (prints (hi _ hm i (by simp [irisOf, Stmt.subject]))).2 (h1 _ hm i (by simp [irisOf, Stmt.subject]))
      | stmt t => simp [simple, simpleSubject, Stmt.subject] at hsi
    · cases b with
      | blank b => exact .blank b
      | res i => exact .res i ((prints (hi _ hm i (by simp [irisOf, Stmt.object]))).2 (h1 _ hm i (by simp [irisOf, Stmt.object])))
      | lit l =>
        refine .lit l ((literal_iff rfl rfl he (fun d hd => hi _ hm _ ?_) (hl _ hm l rfl)).2 ⟨fun d hd => h1 _ hm _ ?_, h2 _ hm l rfl⟩)
        · simp [irisOf, Stmt.object, hd]
        · simp [irisOf, Stmt.object, hd]
      | coll c => simp [simple, simpleObject, Stmt.object] at hsi
      | stmt t => simp [simple, simpleObject, Stmt.object] at hsi

/-! ### Triples -/

/-- `c` is an object of a triple about the blank node `b` and there is a triple about it. -/
def LeadsTo (ts : List RdfTriple) (c b : Str) : Prop :=
  (∃ t ∈ ts, t.1 = .blank b ∧ t.2.2 = .blank c) ∧ ∃ t ∈ ts, t.1 = .blank c

/-- No blank node of the triples starts an endless chain of blank nodes. -/
def ChainsEnd (ts : List RdfTriple) : Prop := ∀ b, Acc (LeadsTo ts) b

/-- The triple has the nodes of the statement, whatever their texts if they are literals. -/
def SameNodes (st : Stmt) (t : RdfTriple) : Prop :=
  irisOf st = irisOfTriple t ∧ (∀ b, st.subject = .blank b ↔ t.1 = .blank b) ∧ ∀ b, st.object = .blank b ↔ t.2.2 = .blank b

theorem sameNodes_chains {g : Graph} {ts : List RdfTriple} (hs : ∀ t ∈ g.stmts, simple t = true)
    (fwd : ∀ st ∈ g.stmts, ∃ t ∈ ts, SameNodes st t) (bwd : ∀ t ∈ ts, ∃ st ∈ g.stmts, SameNodes st t) :
    NoEndlessChain g ↔ ChainsEnd ts := by
  have : Points g = LeadsTo ts := by
    funext c b
    refine propext (and_congr ⟨?_, ?_⟩ ⟨?_, ?_⟩)
    · rintro ⟨p, o, hm, hb⟩
      obtain ⟨t, ht, -, h1, h2⟩ := fwd _ hm
      have hsi := hs _ hm
      cases hb with
      | self => exact ⟨t, ht, (h1 b).1 rfl, (h2 c).1 rfl⟩
      | member => simp [simple, simpleObject, Stmt.object] at hsi
    · rintro ⟨t, ht, k1, k2⟩
      obtain ⟨⟨a, p, o⟩, hm, -, h1, h2⟩ := bwd t ht
      have e1 : a = .blank b := (h1 b).2 k1
      have e2 : o = .blank c := (h2 c).2 k2
      subst e1 e2
      exact ⟨p, _, hm, .self c⟩
    · rintro ⟨p, o, hm⟩
      obtain ⟨t, ht, -, h1, -⟩ := fwd _ hm
      exact ⟨t, ht, (h1 c).1 rfl⟩
    · rintro ⟨t, ht, k1⟩
      obtain ⟨⟨a, p, o⟩, hm, -, h1, -⟩ := bwd t ht
      have e1 : a = .blank c := (h1 c).2 k1
      subst e1
      exact ⟨p, o, hm⟩
  unfold NoEndlessChain ChainsEnd
  rw [this]

theorem sameNodes_iris {g : Graph} {ts : List RdfTriple}
    (fwd : ∀ st ∈ g.stmts, ∃ t ∈ ts, SameNodes st t) (bwd : ∀ t ∈ ts, ∃ st ∈ g.stmts, SameNodes st t) :
    (∀ t ∈ g.stmts, ∀ i ∈ irisOf t, i.split ≠ .panic) ↔ ∀ t ∈ ts, ∀ i ∈ irisOfTriple t, i.split ≠ .panic := by
  constructor
  · intro h t ht i hi
    obtain ⟨st, hst, k, -⟩ := bwd t ht
    exact h st hst i (by rw [k]; exact hi)
  · intro h st hst i hi
    obtain ⟨t, ht, k, -⟩ := fwd st hst
    exact h t ht i (by rw [← k]; exact hi)

/-- A command succeeds if the writer, given room, does. -/
theorem convert_iff {e : CliEnv} {s : Str} {g : Graph} {source : Representation} (h : cliRead e s source = .ok g) :
    (∃ n out, cliMain { e with deep := n } s (.convert source .turtle) = .success out) ↔
      ∃ n out, writeTurtle e.read.pr e.read.url e.sty TurtleOptions.default e.orders e.gen e.startWrite n g = .ok out := by
  have hr : ∀ n, cliRead { e with deep := n } s source = .ok g := by
    intro n
    rw [← h]
    cases source <;> rfl
  constructor
  · rintro ⟨n, out, hout⟩
    exact ⟨n, out, convert_turtle (hr n) hout⟩
  · rintro ⟨n, out, hw⟩
    refine ⟨n, out, ?_⟩
    simp only [cliMain, hr, Run.bind, cliWrite, hw, Run.exit]

theorem read_sameNodes {pr : Char → Bool} {env : ReadEnv} {l : Line} {x : RdfTriple} {st : Stmt} (hm : l.Means env x)
    (h : stmtTriple st = some (readTriple pr l x)) : SameNodes st x := by
  obtain ⟨-, h1, h2⟩ := stmtTriple_parts h
  refine ⟨by rw [irisOf_triple h, irisOf_read pr hm], h1, fun b => (h2 b).trans ?_⟩
  obtain ⟨l1, l2⟩ := literal_means (pr := pr) hm
  cases hi : l.o.inner with
  | none => 
    have : (readTriple pr l x).2.2 = x.2.2 := by
      rw [(readTriple_id hm).2]
      intro a ha
      rw [hi] at ha
      cases ha
    rw [this]
  | some a =>
    obtain ⟨t, d, g, k1, -, k2⟩ := l1 a hi
    rw [k1, k2]
    simp

/-- What is read from an N-Triples document that says these triples. -/
theorem nt_nodes {e : CliEnv} {first last : Str} {ls : List (Gaps × Line × RdfTriple)}
    (he : StrictEnv e.read) (hsane : SaneEnv e.read) (hpr : AsciiPrintable e.read.pr) (hf : Gap first) (hl : LastGap last)
    (hv : ∀ x ∈ ls, x.2.1.g = none ∧ x.2.1.Valid ∧ x.1.Valid x.2.1 ∧ x.2.1.Means e.read x.2.2)
    (hp : Printed e.read.pr (docText first last (ls.map fun x => (x.1, x.2.1)))) :
    ∃ g, cliRead e (docText first last (ls.map fun x => (x.1, x.2.1))) .nTriples = .ok g ∧
      (∀ t ∈ g.stmts, simple t = true) ∧
      (∀ t ∈ g.stmts, ∀ l, t.object = .lit l → (∀ d, l.dataType = some d → ∃ i, d = .other i) ∧ (l.dataType = none ∨ l.language = none)) ∧
      (∀ st ∈ g.stmts, ∃ t ∈ ls.map fun x => x.2.2, SameNodes st t) ∧
      (∀ t ∈ ls.map fun x => x.2.2, ∃ st ∈ g.stmts, SameNodes st t) ∧
      ∀ t ∈ g.stmts, ∀ i ∈ irisOf t, IriGood e.read i := by
  obtain ⟨g, hr, hg⟩ := C83_reads e.read first last ls hsane hf hl hv
  have hsim : ∀ t ∈ g.stmts, simple t = true := fun t ht => (readNt_strict he hr t ht).2.2.1
  have hlit : ∀ t ∈ g.stmts, ∀ l, t.object = .lit l → (∀ d, l.dataType = some d → ∃ i, d = .other i) ∧ (l.dataType = none ∨ l.language = none) :=
    fun t ht l hl => (readNt_chars hpr hp hr (x := t.subject) (p := t.predicate) (l := l) (by rw [← hl]; cases t; exact ht)).2
  have hst : ∀ st ∈ g.stmts, ∃ t ∈ ls.map fun x => x.2.2, SameNodes st t := by
    intro st hs
    obtain ⟨t, ht⟩ : ∃ t, stmtTriple st = some t := by
      have := hsim st hs
      obtain ⟨s, p, o⟩ := st
      cases s <;> cases o <;> first | exact ⟨_, rfl⟩ | simp [simple, simpleSubject, simpleObject, Stmt.subject, Stmt.object] at this
    obtain ⟨x, hx, e⟩ := (hg t).1 ⟨st, hs, ht⟩
    exact ⟨x.2.2, List.mem_map.2 ⟨x, hx, rfl⟩, read_sameNodes (hv x hx).2.2.2 (by rw [e]; exact ht)⟩
  have hts : ∀ t ∈ ls.map fun x => x.2.2, ∃ st ∈ g.stmts, SameNodes st t := by
    intro t ht
    obtain ⟨x, hx, rfl⟩ := List.mem_map.1 ht
    obtain ⟨st, hs, k⟩ := (hg _).2 ⟨x, hx, rfl⟩
    exact ⟨st, hs, read_sameNodes (hv x hx).2.2.2 k⟩
  have hi : ∀ t ∈ g.stmts, ∀ i ∈ irisOf t, IriGood e.read i := by
    intro t ht i hi
    obtain ⟨a, b, -, z⟩ := readNt_strict he hr t ht
    have z := z hp
    obtain ⟨x, p, y⟩ := t
    simp only [irisOf, Stmt.subject, Stmt.predicate, Stmt.object, List.mem_append, List.mem_cons] at hi
    rcases hi with hi | rfl | hi
    · cases x with
      | res j => rw [List.mem_singleton] at hi; subst hi; exact a
      | _ => cases hi
    · exact b
    · cases y with
      | res j => rw [List.mem_singleton] at hi; subst hi; exact z
      | lit l =>
        simp only [Option.mem_toList, Option.map_eq_some_iff] at hi
        obtain ⟨d, hd, rfl⟩ := hi
        exact z.2.1 d hd
      | _ => cases hi
  exact ⟨g, by simp [cliRead, hr, Res.toRun], hsim, hlit, hst, hts, hi⟩

/-- C171, exactly, for N-Triples: in either style, and with enough room for nested blank nodes, a document is converted to Turtle if and
only if all its IRIs can be divided and no blank node starts an endless chain of blank nodes. -/
theorem C171_iff (e : CliEnv) (first last : Str) (ls : List (Gaps × Line × RdfTriple))
    (he : StrictEnv e.read) (hsane : SaneEnv e.read) (ht : e.read.url rdfType.text = some rdfType) (hpr : AsciiPrintable e.read.pr)
    (ho : e.orders.Fair) (hf : Gap first) (hl : LastGap last)
    (hv : ∀ x ∈ ls, x.2.1.g = none ∧ x.2.1.Valid ∧ x.1.Valid x.2.1 ∧ x.2.1.Means e.read x.2.2)
    (hp : Printed e.read.pr (docText first last (ls.map fun x => (x.1, x.2.1)))) :
    (∃ n out, cliMain { e with deep := n } (docText first last (ls.map fun x => (x.1, x.2.1))) (.convert .nTriples .turtle) =
        .success out) ↔
      (∀ x ∈ ls, ∀ i ∈ irisOfTriple x.2.2, i.split ≠ .panic) ∧ ChainsEnd (ls.map fun x => x.2.2) := by
  obtain ⟨g, hr, hsim, hlit, hst, hts, hi⟩ := nt_nodes he hsane hpr hf hl hv hp
  rw [convert_iff (g := g) hr, written_iff e.sty ho he ht hsim hi fun t ht l hl => (hlit t ht l hl).2,
    sameNodes_chains hsim hst hts, sameNodes_iris hst hts]
  simp only [List.forall_mem_map]
  refine and_congr Iff.rfl ⟨fun h => h.2, fun h => ⟨fun t ht l hl hd => ?_, h⟩⟩
  obtain ⟨i, hi⟩ := (hlit t ht l hl).1 _ hd
  cases hi

theorem esc_sameNodes {pr : Char → Bool} {t : RdfTriple} {st : Stmt} (h : stmtTriple st = some (escTriple pr t)) : SameNodes st t := by
  obtain ⟨-, h1, h2⟩ := stmtTriple_parts h
  refine ⟨by rw [irisOf_triple h, irisOf_esc], h1, fun b => (h2 b).trans ?_⟩
  obtain ⟨a, p, o⟩ := t
  cases o <;> simp [escTriple, escTerm]

/-- What was read as triples with escaped texts. -/
theorem esc_facts {e : CliEnv} {g : Graph} {ts : List RdfTriple}
    (fwd : ∀ st ∈ g.stmts, ∃ t ∈ ts, stmtTriple st = some (escTriple e.read.pr t) ∧ TermGood e.read t.1 ∧ IriGood e.read t.2.1 ∧
      TermGood e.read t.2.2)
    (bwd : ∀ t ∈ ts, ∃ st ∈ g.stmts, stmtTriple st = some (escTriple e.read.pr t))
    (known : ∀ st ∈ g.stmts, ∀ l, st.object = .lit l → ∀ d, l.dataType = some d → DataType.fromIri d.asIri = d) :
    (∀ t ∈ g.stmts, simple t = true) ∧ (∀ st ∈ g.stmts, ∃ t ∈ ts, SameNodes st t) ∧ (∀ t ∈ ts, ∃ st ∈ g.stmts, SameNodes st t) ∧
    (∀ t ∈ g.stmts, ∀ i ∈ irisOf t, IriGood e.read i) ∧
    (∀ t ∈ g.stmts, ∀ l, t.object = .lit l → l.dataType = none ∨ l.language = none) ∧
    ∀ R : Str → Prop, (∀ st ∈ g.stmts, ∀ l, st.object = .lit l → l.dataType = some .iri → R l.lexicalForm) ↔
      ∀ t ∈ ts, ∀ v k, t.2.2 = .lit v (some DataType.iri.asIri) k → R (escapeString e.read.pr v) := by
  refine ⟨fun st hst => ?_, fun st hst => ?_, fun t ht => ?_, fun st hst i hi => ?_, fun st hst l hl => ?_, fun R =>
    ⟨fun h t ht v k hv => ?_, fun h st hst l hl hd => ?_⟩⟩
  · obtain ⟨t, -, k, -⟩ := fwd st hst
    exact triple_simple k
  · obtain ⟨t, ht, k, -⟩ := fwd st hst
    exact ⟨t, ht, esc_sameNodes k⟩
  · obtain ⟨st, hst, k⟩ := bwd t ht
    exact ⟨st, hst, esc_sameNodes k⟩
  · obtain ⟨t, -, k, h1, h2, h3⟩ := fwd st hst
    rw [irisOf_triple k, irisOf_esc] at hi
    exact terms_iris h1 h2 h3 i hi
  · obtain ⟨t, -, k, -, -, h3⟩ := fwd st hst
    obtain ⟨-, -, k3⟩ := json_parts k
    rw [hl] at k3
    obtain ⟨a, p, b⟩ := t
    cases b with
    | lit v d k =>
      simp only [objectTerm, escTerm, Option.some.injEq, RdfTerm.lit.injEq] at k3
      obtain ⟨-, e2, e3⟩ := k3
      rcases h3.2.2 with h | h
      · rw [h] at e2; exact .inl (by simpa using e2)
      · exact .inr (e3.trans h)
    | _ => cases k3
  · obtain ⟨⟨a, p, o⟩, hst, k0⟩ := bwd t ht
    obtain ⟨-, -, k3⟩ := triple_terms k0
    simp only [escTriple, hv, escTerm] at k3
    cases o with
    | lit l =>
      simp only [objectTerm, Option.some.injEq, RdfTerm.lit.injEq] at k3
      obtain ⟨e1, e2, -⟩ := k3
      rw [← e1]
      refine h _ hst l rfl ?_
      obtain ⟨d, hd, hd'⟩ := Option.map_eq_some_iff.1 e2
      rw [hd, ← known _ hst l rfl d hd, hd']
      rfl
    | _ => cases k3
  · obtain ⟨t, ht, k0, -⟩ := fwd st hst
    obtain ⟨a, p, o⟩ := st
    obtain ⟨-, -, k3⟩ := triple_terms k0
    have : o = .lit l := hl
    subst this
    cases hv : t.2.2 with
    | lit v d k =>
      simp only [objectTerm, escTriple, hv, escTerm, Option.some.injEq, RdfTerm.lit.injEq] at k3
      obtain ⟨e1, e2, -⟩ := k3
      rw [e1]
      rw [hd] at e2
      exact h t ht v k (by rw [hv, ← e2]; rfl)
    | _ => simp only [objectTerm, escTriple, hv, escTerm] at k3; cases k3

/-- What was read as triples with escaped texts, when it is written as Turtle. -/
theorem esc_written_iff {e : CliEnv} {g : Graph} {ts : List RdfTriple} (he : StrictEnv e.read)
    (ht : e.read.url rdfType.text = some rdfType) (ho : e.orders.Fair)
    (fwd : ∀ st ∈ g.stmts, ∃ t ∈ ts, stmtTriple st = some (escTriple e.read.pr t) ∧ TermGood e.read t.1 ∧ IriGood e.read t.2.1 ∧
      TermGood e.read t.2.2)
    (bwd : ∀ t ∈ ts, ∃ st ∈ g.stmts, stmtTriple st = some (escTriple e.read.pr t))
    (known : ∀ st ∈ g.stmts, ∀ l, st.object = .lit l → ∀ d, l.dataType = some d → DataType.fromIri d.asIri = d) :
    (∃ n out, writeTurtle e.read.pr e.read.url e.sty TurtleOptions.default e.orders e.gen e.startWrite n g = .ok out) ↔
      (∀ t ∈ ts, ∀ i ∈ irisOfTriple t, i.split ≠ .panic) ∧
      (∀ t ∈ ts, ∀ v k, t.2.2 = .lit v (some DataType.iri.asIri) k → UriDivides e.read.url (escapeString e.read.pr v)) ∧
      ChainsEnd ts := by
  obtain ⟨hsim, f', b', hi, hl, hany⟩ := esc_facts fwd bwd known
  rw [written_iff e.sty ho he ht hsim hi hl, sameNodes_iris f' b', sameNodes_chains hsim f' b', hany]

/-- C171, exactly, for RDF/JSON: also the texts of literals of type `xsd:anyURI`, as they are read, are IRIs that can be divided. -/
theorem C171_json_iff (e : CliEnv) (s : Str) (ts : List RdfTriple) (he : StrictEnv e.read) (hsane : SaneEnv e.read)
    (ht : e.read.url rdfType.text = some rdfType) (ho : e.orders.Fair) (hs : JsonSays e.read s ts) :
    (∃ n out, cliMain { e with deep := n } s (.convert .json .turtle) = .success out) ↔
      (∀ t ∈ ts, ∀ i ∈ irisOfTriple t, i.split ≠ .panic) ∧
      (∀ t ∈ ts, ∀ v k, t.2.2 = .lit v (some DataType.iri.asIri) k → UriDivides e.read.url (escapeString e.read.pr v)) ∧
      ChainsEnd ts := by
  obtain ⟨g, hr, fwd, bwd⟩ := json_graph he hsane hs
  rw [convert_iff (g := g) (by simp only [cliRead, hr, Res.toRun])]
  refine esc_written_iff he ht ho (fun st hst => ?_) bwd fun st hst => (readJson_got he hr st hst).2
  obtain ⟨t, ht, k, g1, -, g2, g3⟩ := fwd st hst
  exact ⟨t, ht, k, g1, g2, g3⟩

/-- C171, exactly, for RDF/XML without nested nodes: all IRIs can be divided. -/
theorem C171_xml_iff (e : CliEnv) (s : Str) (hd : XmlPlainDoc e s) (ht : e.read.url rdfType.text = some rdfType) (g : Graph)
    (hr : XmlReadAs e s g) :
    (∃ n out, cliMain { e with deep := n } s (.convert .xml .turtle) = .success out) ↔
      ∀ t ∈ g.stmts, ∀ i ∈ irisOf t, i.split ≠ .panic := by
  have hf := (xml_read_facts hd hr).2
  obtain ⟨us, ⟨e1, e2⟩, hus⟩ := xml_source hd hr
  have htypes : ∀ st ∈ g.stmts, ∀ l, st.object = .lit l → ∀ d, l.dataType = some d → d = .xmlLiteral := by
    intro st hst l hl d hdt
    rcases C77_objects _ _ _ _ _ _ _ hr _ hst with ⟨i, hi⟩ | ⟨l', hl', h⟩
    · rw [hl] at hi; cases hi
    · rw [hl] at hl'
      cases hl'
      rcases h with h | h <;> rw [hdt] at h <;> cases h
      rfl
  have key := esc_written_iff (e := e) (g := g) (ts := us) hd.strict ht hd.fair (fun st hst => by
    obtain ⟨u, hu, k⟩ := e1 st hst
    obtain ⟨g1, -, g2, g3, -⟩ := hus u hu
    exact ⟨u, hu, k, g1, g2, g3⟩) e2 (fun st hst l hl d hdt => by rw [htypes st hst l hl d hdt]; rfl)
  rw [convert_iff (g := g) (source := .xml) hr, key]
  rw [sameNodes_iris (ts := us) (fun st hst => by
    obtain ⟨u, hu, k⟩ := e1 st hst
    exact ⟨u, hu, esc_sameNodes k⟩) fun u hu => by
    obtain ⟨st, hst, k⟩ := e2 u hu
    exact ⟨st, hst, esc_sameNodes k⟩]
  refine ⟨fun h => h.1, fun h => ⟨h, fun u hu v k hv => ?_, fun b => ⟨b, fun c hc => ?_⟩⟩⟩
  · obtain ⟨-, -, -, -, -, h6⟩ := hus u hu
    rcases (h6 _ _ _ hv).2 with h' | h'
    · cases h'
    · exact absurd h' (by decide +kernel)
  · obtain ⟨⟨u, hu, -, h2⟩, -⟩ := hc
    exact absurd h2 ((hus u hu).2.2.2.2.1 c)

/-! ### The full statement -/

/-- C171, the full statement: every document of N-Triples can be converted to Turtle. -/
def C171_statement (sty : IriStyle) : Prop :=
  ∀ (e : CliEnv) (first last : Str) (ls : List (Gaps × Line × RdfTriple)), e.sty = sty → StrictEnv e.read → SaneEnv e.read →
    WebUrl e.read.url → AsciiPrintable e.read.pr → e.orders.Fair → Gap first → LastGap last →
    (∀ x ∈ ls, x.2.1.g = none ∧ x.2.1.Valid ∧ x.1.Valid x.2.1 ∧ x.2.1.Means e.read x.2.2) →
    Printed e.read.pr (docText first last (ls.map fun x => (x.1, x.2.1))) →
    ∃ n out, cliMain { e with deep := n } (docText first last (ls.map fun x => (x.1, x.2.1))) (.convert .nTriples .turtle) = .success out

/-- A document of one triple about `urn:a`. -/
def urnDoc : List (Gaps × Line × RdfTriple) :=
  [(blankGaps, ⟨.iri (str! "urn:a"), str! "http://a/p", .lit ['x'] .none, none⟩,
    ((.iri ⟨str! "urn:a"⟩, ⟨str! "http://a/p"⟩, .lit ['x'] none none) : RdfTriple))]

theorem urnDoc_valid : ∀ x ∈ urnDoc, x.2.1.g = none ∧ x.2.1.Valid ∧ x.1.Valid x.2.1 ∧ x.2.1.Means docEnv x.2.2 := by
  intro x hx
  rw [urnDoc, List.mem_singleton] at hx
  subst hx
  have hs : docEnv.url (str! "urn:a") = some ⟨str! "urn:a"⟩ := by decide +kernel
  have hp : docEnv.url (str! "http://a/p") = some ⟨str! "http://a/p"⟩ := by decide +kernel
  refine ⟨rfl, ⟨iriText_chars (s := str! "urn:a") (by decide), iriText_chars (s := str! "http://a/p") (by decide),
    ⟨tokens_of_chars fun c hc => .inl ⟨c, by rw [List.mem_singleton.1 hc]; decide, rfl⟩, trivial⟩, by simp⟩, blankGaps_valid _, ?_⟩
  exact ⟨⟨_, _, decodesIri_plain (by decide), hs, rfl⟩, ⟨str! "http://a/p", decodesIri_plain (s := str! "http://a/p") (by decide), hp⟩, _,
    .plain (by decide) .nil, rfl⟩

/-- C171 fails in either style: a document with `urn:a` is not converted, whatever the room. -/
theorem C171_fails (sty : IriStyle) : ¬ C171_statement sty := by
  intro h
  have hl : LastGap [] := ⟨[], [], .nil, rfl, .inl rfl⟩
  have hp : Printed docEnv.pr (docText [] [] (urnDoc.map fun x => (x.1, x.2.1))) := webCli_printed _ (by decide +kernel)
  have hr := h (docCli sty) [] [] urnDoc rfl docEnv_strict docEnv_sane webEnv_web easyEnv_ascii sameOrder_fair .nil hl urnDoc_valid hp
  have := ((C171_iff (docCli sty) [] [] urnDoc docEnv_strict docEnv_sane webEnv_web.type easyEnv_ascii sameOrder_fair .nil hl
    urnDoc_valid hp).1 hr).1 _ (List.mem_singleton.2 rfl) ⟨str! "urn:a"⟩ (by decide +kernel)
  exact this (by decide +kernel)

/-- A document of one triple about a blank node that is its own value. -/
def selfDoc : List (Gaps × Line × RdfTriple) :=
  [(blankGaps, ⟨.blank ['b'], str! "http://a/p", .term (.blank ['b']), none⟩,
    ((.blank ['b'], ⟨str! "http://a/p"⟩, .blank ['b']) : RdfTriple))]

theorem selfDoc_valid : ∀ x ∈ selfDoc, x.2.1.g = none ∧ x.2.1.Valid ∧ x.1.Valid x.2.1 ∧ x.2.1.Means docEnv x.2.2 := by
  intro x hx
  rw [selfDoc, List.mem_singleton] at hx
  subst hx
  have hp : docEnv.url (str! "http://a/p") = some ⟨str! "http://a/p"⟩ := by decide +kernel
  have hb : Label ['b'] := ⟨⟨'b', .inl ((isPnCharsU_iff _).1 (by decide)), .inl rfl⟩, fun a b e => by cases a with | nil => simp at e | cons x a => cases a <;> simp at e⟩
  exact ⟨rfl, ⟨hb, iriText_chars (s := str! "http://a/p") (by decide), hb, by simp⟩, blankGaps_valid _,
    rfl, ⟨str! "http://a/p", decodesIri_plain (s := str! "http://a/p") (by decide), hp⟩, rfl⟩

/-- C171 fails in either style also with IRIs that can be divided: a blank node that is its own value is written without end. -/
theorem C171_fails_endless (sty : IriStyle) : ¬ C171_statement sty := by
  intro h
  have hl : LastGap [] := ⟨[], [], .nil, rfl, .inl rfl⟩
  have hp : Printed docEnv.pr (docText [] [] (selfDoc.map fun x => (x.1, x.2.1))) := webCli_printed _ (by decide +kernel)
  have hr := h (docCli sty) [] [] selfDoc rfl docEnv_strict docEnv_sane webEnv_web easyEnv_ascii sameOrder_fair .nil hl selfDoc_valid hp
  have := ((C171_iff (docCli sty) [] [] selfDoc docEnv_strict docEnv_sane webEnv_web.type easyEnv_ascii sameOrder_fair .nil hl
    selfDoc_valid hp).1 hr).2 ['b']
  have no : ∀ b, Acc (LeadsTo (selfDoc.map fun x => x.2.2)) b → b ≠ ['b'] := by
    intro b hb
    induction hb with
    | intro b _ ih =>
      rintro rfl
      exact ih ['b'] ⟨⟨_, List.mem_singleton.2 rfl, rfl, rfl⟩, _, List.mem_singleton.2 rfl, rfl⟩ rfl
  exact no _ this rfl

theorem means_parsed {env : ReadEnv} {l : Line} {x : RdfTriple} (h : l.Means env x) : ∀ i ∈ irisOfTriple x, ∃ t, env.url t = some i := by
  obtain ⟨s, p, o, g⟩ := l
  obtain ⟨xs, xp, xo⟩ := x
  obtain ⟨h1, ⟨u, -, h2⟩, h3⟩ := h
  intro i hi
  simp only [irisOfTriple, List.mem_append, List.mem_cons] at hi
  rcases hi with hi | rfl | hi
  · cases s with
    | iri _ => obtain ⟨t, j, -, h4, rfl⟩ := h1; rw [List.mem_singleton] at hi; subst hi; exact ⟨t, h4⟩
    | blank _ => simp only [Term.Means] at h1; subst h1; cases hi
  · exact ⟨u, h2⟩
  · match o, h3 with
    | .term (.iri _), h => obtain ⟨t, j, -, h4, rfl⟩ := h; rw [List.mem_singleton] at hi; subst hi; exact ⟨t, h4⟩
    | .term (.blank _), h => simp only [Obj.Means, Term.Means] at h; subst h; cases hi
    | .lit a .none, h => obtain ⟨t, -, h2⟩ := h; simp only at h2; subst h2; cases hi
    | .lit a (.lang g), h => obtain ⟨t, l, -, -, h2⟩ := h; simp only at h2; subst h2; cases hi
    | .lit a (.type s), h =>
      obtain ⟨t, u, j, -, -, h4, h2⟩ := h
      simp only at h2
      subst h2
      simp only [Option.toList_some, List.mem_singleton] at hi
      subst hi
      exact ⟨u, h4⟩

/-- C171, what holds: IRIs with an authority or an absolute path, and blank nodes that are objects or subjects but not both. -/
theorem C171_partial (e : CliEnv) (first last : Str) (ls : List (Gaps × Line × RdfTriple))
    (he : StrictEnv e.read) (hsane : SaneEnv e.read) (hw : WebUrl e.read.url) (hpr : AsciiPrintable e.read.pr)
    (ho : e.orders.Fair) (hf : Gap first) (hl : LastGap last)
    (hv : ∀ x ∈ ls, x.2.1.g = none ∧ x.2.1.Valid ∧ x.1.Valid x.2.1 ∧ x.2.1.Means e.read x.2.2)
    (hp : Printed e.read.pr (docText first last (ls.map fun x => (x.1, x.2.1))))
    (hi : ∀ x ∈ ls, ∀ i ∈ irisOfTriple x.2.2, i.isOpaque = false)
    (hb : ∀ x ∈ ls, ∀ y ∈ ls, ∀ b, x.2.2.2.2 = .blank b → y.2.2.1 ≠ .blank b) :
    ∃ n out, cliMain { e with deep := n } (docText first last (ls.map fun x => (x.1, x.2.1))) (.convert .nTriples .turtle) =
        .success out := by
  refine (C171_iff e first last ls he hsane hw.type hpr ho hf hl hv hp).2 ⟨fun x hx i hin => ?_, fun b => ⟨b, fun c hc => ?_⟩⟩
  · obtain ⟨t, ht⟩ := means_parsed (hv x hx).2.2.2 i hin
    exact (C08_no_panic_partial i (hw.parsed _ _ ht).1 (hi x hx i hin)).1
  · obtain ⟨⟨t, ht, -, h1⟩, u, hu, h2⟩ := hc
    obtain ⟨x, hx, rfl⟩ := List.mem_map.1 ht
    obtain ⟨y, hy, rfl⟩ := List.mem_map.1 hu
    exact absurd h2 (hb x hx y hy c h1)

/-! A document that is converted, by the theorem: one of a literal and an IRI with an authority. -/

example : ∃ n out, cliMain { docCli .bracketed with deep := n } (docText [] [] ((literalDoc ['x'] ['x']).map fun x => (x.1, x.2.1)))
    (.convert .nTriples .turtle) = .success out := by
  have hv := literalDoc_valid (a := ['x']) (t := ['x']) (.plain (by decide) .nil) (tokens_of_chars fun c hc => .inl ⟨c, by rw [List.mem_singleton.1 hc]; decide, rfl⟩)
  have hl : LastGap [] := ⟨[], [], .nil, rfl, .inl rfl⟩
  refine C171_partial (docCli .bracketed) [] [] _ docEnv_strict docEnv_sane webEnv_web easyEnv_ascii sameOrder_fair .nil hl hv
    (webCli_printed _ (by decide +kernel)) (by decide +kernel) ?_
  intro x hx y _ b h
  rw [literalDoc, List.mem_singleton] at hx
  subst hx
  cases h

end Rdftk
