import Verif.Lemmas.TurtleAsks
import Verif.Props.ConvertSucceeds

/-! How the Turtle writer ends when it does not succeed: C175. -/

namespace Rdftk
open Spec

/-- C175, the full statement: what cannot be printed is an error, never a panic. -/
def C175_statement : Prop :=
  ∀ (env : TurtleEnv) (n : Nat), env.orders.Fair → 0 < env.opts.width → writeTriples env n 0 ≠ .panic

theorem asks_deep {env : TurtleEnv} {o : Object} {r : Run Str} (h : ObjectAsks env o r) : r ≠ .deep := by
  induction h with
  | res i => exact compressIri_deep
  | lit l => exact writeLiteral_deep
  | member _ _ _ _ _ ih => exact ih
  | stmt t => simp

theorem subject_deep {env : TurtleEnv} {s : Subject} {r : Run Str} (h : SubjectAsks env s r) : r ≠ .deep := by
  cases h with
  | res i => exact compressIri_deep
  | stmt t => simp

theorem only_of {P E D : Prop} {r : Run Str} (hp : r = .panic → P) (he : r = .err → E) (hd : r = .deep → D) :
    Only P E D (fun _ => True) r := by
  cases r with
  | ok _ => trivial
  | panic => exact hp rfl
  | err => exact he rfl
  | deep => exact hd rfl

/-- What is looked up for a graph, when it goes wrong. -/
theorem graph_only {env : TurtleEnv} {P E D : Prop} (hp : GraphAsks env .panic → P) (he : GraphAsks env .err → E)
    (hs : SortedError env → P) : PredicatesOnly P E D env ∧ ObjectsOnly P E D env ∧ SubjectsOnly P E D env := by
  have key : ∀ {r : Run Str}, r ≠ .deep → GraphAsks env r → Only P E D (fun _ => True) r := fun {r} hd h =>
    only_of (fun e => hp (e ▸ h)) (fun e => he (e ▸ h)) fun e => absurd e hd
  exact ⟨⟨fun s p o hm hg ha => key compressIri_deep (.type s p o hm hg ha), fun s p o hm => key compressIri_deep (.predicate s p o hm), hs⟩,
    fun s p o hm r hr => key (asks_deep hr) (.object s p o r hm hr), fun s p o hm r hr => key (subject_deep hr) (.subject s p o r hm hr)⟩

/-- C175: a panic of the writer is that of something it looks up, or an error among predicates that are sorted, at any depth. -/
theorem C175_panic (env : TurtleEnv) (hfair : env.orders.Fair) (hw : 0 < env.opts.width) (n d : Nat)
    (h : writeTriples env n d = .panic) : GraphAsks env .panic ∨ SortedError env := by
  obtain ⟨h1, h2, h3⟩ := graph_only (env := env) (P := GraphAsks env .panic ∨ SortedError env) (E := True) (D := True) .inl
    (fun _ => trivial) .inr
  have := writeTriples_only (d := d) hfair h1 h3 hw (n := n) fun s p o hm => writeObject_only hfair h1 h2 n o (h2 s p o hm)
  rw [h] at this
  exact this

/-- C175: an error of the writer is that of something it looks up, at any depth. -/
theorem C175_error (env : TurtleEnv) (hfair : env.orders.Fair) (hw : 0 < env.opts.width) (n d : Nat)
    (h : writeTriples env n d = .err) : GraphAsks env .err := by
  obtain ⟨h1, h2, h3⟩ := graph_only (env := env) (P := True) (E := GraphAsks env .err) (D := True) (fun _ => trivial) id (fun _ => trivial)
  have := writeTriples_only (d := d) hfair h1 h3 hw (n := n) fun s p o hm => writeObject_only hfair h1 h2 n o (h2 s p o hm)
  rw [h] at this
  exact this

/-- C175: given room, the writer of a graph without endless chains does end. -/
theorem C175_ends (env : TurtleEnv) (hfair : env.orders.Fair) (hw : 0 < env.opts.width)
    (hc : env.opts.nest = true → NoEndlessChain env.graph) : ∃ n, ∀ m, n ≤ m → ∀ d, writeTriples env m d ≠ .deep := by
  obtain ⟨h1, h2, h3⟩ := graph_only (env := env) (P := True) (E := True) (D := False) (fun _ => trivial) (fun _ => trivial)
    (fun _ => trivial)
  obtain ⟨n, hn⟩ := enoughOnly_graph hfair h1 h2 hc
  refine ⟨n, fun m hm d h => ?_⟩
  have := writeTriples_only (d := d) hfair h1 h3 hw (n := m) (hn m hm)
  rw [h] at this
  exact this

/-- What is looked up succeeds when the graph is written. -/
theorem written_asks {env : TurtleEnv} (hfair : env.orders.Fair) (hpad : env.opts.padding = false) (ht : IriPrints env rdfType)
    {n d : Nat} {x : Str × Nat} (h : writeTriples env n d = .ok x) {r : Run Str} (hr : GraphAsks env r) : ∃ s, r = .ok s := by
  have hpr : ∀ {o : Object} {r : Run Str}, ObjectAsks env o r → Printable env o → ∃ s, r = .ok s := by
    intro o r hr
    induction hr with
    | res i => intro h; cases h with | res _ h => exact h
    | lit l => intro h; cases h with | lit _ h => exact h
    | member c o r hm _ ih => intro h; cases h with | coll _ h => exact ih (h o hm)
    | stmt t => intro h; cases h
  have hg := written_prints hfair hpad h
  cases hr with
  | type => exact ht
  | subject s p o _ hm hr =>
    have := (hg s p o hm).1
    cases hr with
    | res i => exact this
    | stmt t => exact this.elim
  | predicate s p o hm => exact (hg s p o hm).2.1
  | object s p o _ hm hr => exact hpr hr (hg s p o hm).2.2

/-- C175, exactly, when nothing that is looked up is an error: the writer, given room, panics if and only if something that it
looks up does. -/
theorem C175_panics_iff (env : TurtleEnv) (hfair : env.orders.Fair) (hw : 0 < env.opts.width) (hpad : env.opts.padding = false)
    (ht : IriPrints env rdfType) (hc : env.opts.nest = true → NoEndlessChain env.graph) (he : ¬ GraphAsks env .err) :
    (∃ n, ∀ m, n ≤ m → writeTriples env m 0 = .panic) ↔ GraphAsks env .panic := by
  constructor
  · rintro ⟨n, h⟩
    rcases C175_panic env hfair hw n 0 (h n (Nat.le_refl n)) with h | h
    · exact h
    · have := h.1
      rw [hpad] at this
      cases this
  · intro h
    obtain ⟨n, hn⟩ := C175_ends env hfair hw hc
    refine ⟨n, fun m hm => ?_⟩
    cases hr : writeTriples env m 0 with
    | panic => rfl
    | deep => exact absurd hr (hn m hm 0)
    | err => exact absurd (C175_error env hfair hw m 0 hr) he
    | ok x =>
      obtain ⟨s, hs⟩ := written_asks hfair hpad ht hr h
      cases hs

/-- C175, exactly, when nothing that is looked up panics: the writer, given room, ends with an error if and only if something that
it looks up does. -/
theorem C175_errors_iff (env : TurtleEnv) (hfair : env.orders.Fair) (hw : 0 < env.opts.width) (hpad : env.opts.padding = false)
    (ht : IriPrints env rdfType) (hc : env.opts.nest = true → NoEndlessChain env.graph) (hp : ¬ GraphAsks env .panic) :
    (∃ n, ∀ m, n ≤ m → writeTriples env m 0 = .err) ↔ GraphAsks env .err := by
  constructor
  · rintro ⟨n, h⟩
    exact C175_error env hfair hw n 0 (h n (Nat.le_refl n))
  · intro h
    obtain ⟨n, hn⟩ := C175_ends env hfair hw hc
    refine ⟨n, fun m hm => ?_⟩
    cases hr : writeTriples env m 0 with
    | err => rfl
    | deep => exact absurd hr (hn m hm 0)
    | panic =>
      rcases C175_panic env hfair hw m 0 hr with h | h
      · exact absurd h hp
      · have := h.1
        rw [hpad] at this
        cases this
    | ok x =>
      obtain ⟨s, hs⟩ := written_asks hfair hpad ht hr h
      cases hs

/-! ### Panics -/

/-- An environment that parses only IRIs that begin with `h`, with padding. -/
def someUrls (sts : List Stmt) : TurtleEnv :=
  ⟨easyEnv.pr, fun s => if s.head? = some 'h' then some ⟨s⟩ else none, .bare, { TurtleOptions.default with padding := true },
    (Graph.fromIter sts).withMappings PrefixMap.empty, sameOrder⟩

/-- C175 does not hold: an IRI without a hierarchical path is a panic. -/
theorem C175_fails : ¬ C175_statement := by
  intro h
  exact h (easyTurtle .bare flatOptions ((Graph.fromIter [.mk (.res ⟨str! "urn:x"⟩) ⟨str! "http://a/p"⟩
    (.blank (str! "b"))]).withMappings PrefixMap.empty)) 5 sameOrder_fair (by decide) C67_panics

/-- C175 does not hold: an error among the predicates that are sorted is a panic, although nothing that is looked up panics. -/
theorem C175_fails_sorted :
    writeTriples (someUrls [.mk (.blank (str! "b")) ⟨str! "x:p"⟩ (.blank (str! "c")),
      .mk (.blank (str! "b")) ⟨str! "http://a/p"⟩ (.blank (str! "c"))]) 5 0 = .panic ∧
    compressIri (someUrls [.mk (.blank (str! "b")) ⟨str! "x:p"⟩ (.blank (str! "c")),
      .mk (.blank (str! "b")) ⟨str! "http://a/p"⟩ (.blank (str! "c"))]) ⟨str! "x:p"⟩ = .err := by
  constructor <;> decide +kernel

/-- C175: the same predicate alone is an error. -/
theorem C175_single :
    writeTriples (someUrls [.mk (.blank (str! "b")) ⟨str! "x:p"⟩ (.blank (str! "c"))]) 5 0 = .err := by decide +kernel

/-! ### Without options -/

/-- Without options an IRI that can be read is printed, or its division panics. -/
theorem compress_panic {env : TurtleEnv} {renv : ReadEnv} (ho : env.opts = TurtleOptions.default) (hu : env.url = renv.url) {i : Iri}
    (hi : IriGood renv i) : (compressIri env i = .panic ↔ i.split = .panic) ∧ compressIri env i ≠ .err := by
  have hrel : turtleRelative env (i.fmt env.sty) = none := by simp [turtleRelative, ho, TurtleOptions.default]
  have hconv : env.opts.convert = [] := by rw [ho]; rfl
  have hfrom : Iri.fromStr env.url (i.fmt env.sty) = some i := by rw [hu]; exact fmt_parsed env.sty hi
  unfold compressIri
  simp only [hrel, hconv, convertAll, hfrom, PrefixMap.compress]
  cases hsp : i.split with
  | panic => simp
  | ok q =>
    cases q with
    | none => simp
    | some x =>
      obtain ⟨ns, n⟩ := x
      simp only []
      cases env.graph.mappings.getPrefix ns <;> simp

/-- How the printing of a literal ends. -/
theorem literal_asks {env : TurtleEnv} {renv : ReadEnv} (ho : env.opts = TurtleOptions.default) (hu : env.url = renv.url)
    (he : StrictEnv renv) {l : Literal} (hd : ∀ d, l.dataType = some d → IriGood renv d.asIri)
    (hl : l.dataType = none ∨ l.language = none) :
    (writeLiteral env l = .err ↔ l.dataType = some .iri ∧ renv.url l.lexicalForm = none) ∧
    (writeLiteral env l = .panic ↔ (∃ d, l.dataType = some d ∧ d.asIri.split = .panic) ∨
      l.dataType = some .iri ∧ ∃ i, renv.url l.lexicalForm = some i ∧ i.split = .panic) := by
  obtain ⟨v, dt, lg⟩ := l
  cases dt with
  | none =>
    cases lg <;> simp [writeLiteral, turtleSuffix, Run.bind]
  | some d =>
    have hlg : lg = none := by simpa using hl
    subst hlg
    have hg := hd d rfl
    by_cases h0 : d = .iri
    · subst h0
      have hk : DataType.iri.asIri.split ≠ .panic := known_split fun i => by simp
      simp only [writeLiteral, if_true, hu, Option.some.injEq, exists_eq_left', hk, true_and, false_or]
      cases h1 : renv.url v with
      | none => simp [Run.ofOption, Run.bind]
      | some j =>
        obtain ⟨h2, h3⟩ := compress_panic ho hu (he.url _ _ h1)
        simp [Run.ofOption, Run.bind, h2, h3]
    · by_cases h1 : turtleBare d = true
      · have hk : d.asIri.split ≠ .panic := known_split fun i hi => by subst hi; cases h1
        simp [writeLiteral, h0, h1, hk]
      · obtain ⟨h2, h3⟩ := compress_panic ho hu hg
        simp only [writeLiteral, h0, if_false, h1, turtleSuffix, Option.some.injEq, exists_eq_left', false_and, or_false]
        cases h4 : compressIri env d.asIri <;> simp_all [Run.bind]

/-- What goes wrong when the parts of a graph without nested statements are printed, without options. -/
theorem graph_asks {env : TurtleEnv} {renv : ReadEnv} (ho : env.opts = TurtleOptions.default) (hu : env.url = renv.url)
    (he : StrictEnv renv) (ht : renv.url rdfType.text = some rdfType)
    (hs : ∀ t ∈ env.graph.stmts, simple t = true) (hi : ∀ t ∈ env.graph.stmts, ∀ i ∈ irisOf t, IriGood renv i)
    (hl : ∀ t ∈ env.graph.stmts, ∀ l, t.object = .lit l → l.dataType = none ∨ l.language = none) :
    (GraphAsks env .err ↔ ∃ t ∈ env.graph.stmts, ∃ l, t.object = .lit l ∧ l.dataType = some .iri ∧ renv.url l.lexicalForm = none) ∧
    (GraphAsks env .panic ↔ (∃ t ∈ env.graph.stmts, ∃ i ∈ irisOf t, i.split = .panic) ∨
      ∃ t ∈ env.graph.stmts, ∃ l, t.object = .lit l ∧ l.dataType = some .iri ∧ ∃ i, renv.url l.lexicalForm = some i ∧ i.split = .panic) := by
  have hlit : ∀ s p l, Stmt.mk s p (.lit l) ∈ env.graph.stmts → _ := fun s p l hm =>
    literal_asks (env := env) ho hu he (l := l) (fun d hd => hi _ hm _ (by simp [irisOf, Stmt.object, hd])) (hl _ hm l rfl)
  have htype := compress_panic ho hu (he.url _ _ ht)
  have hsplit : rdfType.split ≠ .panic := by decide +kernel
  have hobj : ∀ s p o, Stmt.mk s p o ∈ env.graph.stmts → ∀ r, ObjectAsks env o r →
      (∃ i, o = .res i ∧ r = compressIri env i) ∨ ∃ l, o = .lit l ∧ r = writeLiteral env l := by
    intro s p o hm r hr
    have := hs _ hm
    cases hr with
    | res i => exact .inl ⟨i, rfl, rfl⟩
    | lit l => exact .inr ⟨l, rfl, rfl⟩
    | member c => simp [simple, simpleObject, Stmt.object] at this
    | stmt t => simp [simple, simpleObject, Stmt.object] at this
  have hsub : ∀ s p o, Stmt.mk s p o ∈ env.graph.stmts → ∀ r, SubjectAsks env s r → ∃ i, s = .res i ∧ r = compressIri env i := by
    intro s p o hm r hr
    have := hs _ hm
    cases hr with
    | res i => exact ⟨i, rfl, rfl⟩
    | stmt t => simp [simple, simpleSubject, Stmt.subject] at this
  have hsi : ∀ {i p o}, Stmt.mk (.res i) p o ∈ env.graph.stmts → i ∈ irisOf (.mk (.res i) p o) := by
    intros; simp [irisOf, Stmt.subject]
  have hpi : ∀ {s p o}, Stmt.mk s p o ∈ env.graph.stmts → p ∈ irisOf (.mk s p o) := by
    intros; simp [irisOf, Stmt.predicate]
  have hoi : ∀ {s p i}, Stmt.mk s p (.res i) ∈ env.graph.stmts → i ∈ irisOf (.mk s p (.res i)) := by
    intros; simp [irisOf, Stmt.object]
  refine ⟨⟨fun h => ?_, ?_⟩, ⟨fun h => ?_, ?_⟩⟩
  · generalize hr : Run.err = r at h
    cases h with
    | type => exact absurd hr.symm htype.2
    | subject s p o _ hm hq =>
      obtain ⟨i, rfl, rfl⟩ := hsub s p o hm _ hq
      exact absurd hr.symm (compress_panic ho hu (hi _ hm i (hsi hm))).2
    | predicate s p o hm => exact absurd hr.symm (compress_panic ho hu (hi _ hm p (hpi hm))).2
    | object s p o _ hm hq =>
      rcases hobj s p o hm _ hq with ⟨i, rfl, rfl⟩ | ⟨l, rfl, rfl⟩
      · exact absurd hr.symm (compress_panic ho hu (hi _ hm i (hoi hm))).2
      · exact ⟨_, hm, l, rfl, (hlit s p l hm).1.1 hr.symm⟩
  · rintro ⟨⟨s, p, o⟩, hm, l, (rfl : o = _), h⟩
    have := GraphAsks.object s p _ _ hm (.lit l)
    rwa [(hlit s p l hm).1.2 h] at this
  · generalize hr : Run.panic = r at h
    cases h with
    | type => exact absurd (htype.1.1 hr.symm) hsplit
    | subject s p o _ hm hq =>
      obtain ⟨i, rfl, rfl⟩ := hsub s p o hm _ hq
      exact .inl ⟨_, hm, i, hsi hm, (compress_panic ho hu (hi _ hm i (hsi hm))).1.1 hr.symm⟩
    | predicate s p o hm => exact .inl ⟨_, hm, p, hpi hm, (compress_panic ho hu (hi _ hm p (hpi hm))).1.1 hr.symm⟩
    | object s p o _ hm hq =>
      rcases hobj s p o hm _ hq with ⟨i, rfl, rfl⟩ | ⟨l, rfl, rfl⟩
      · exact .inl ⟨_, hm, i, hoi hm, (compress_panic ho hu (hi _ hm i (hoi hm))).1.1 hr.symm⟩
      · rcases (hlit s p l hm).2.1 hr.symm with ⟨d, hd, h⟩ | h
        · exact .inl ⟨_, hm, d.asIri, by simp [irisOf, Stmt.object, hd], h⟩
        · exact .inr ⟨_, hm, l, rfl, h⟩
  · rintro (⟨⟨s, p, o⟩, hm, i, hin, h⟩ | ⟨⟨s, p, o⟩, hm, l, (rfl : o = _), h⟩)
    · have hg := hi _ hm i hin
      have hc := (compress_panic (env := env) ho hu hg).1.2 h
      simp only [irisOf, Stmt.subject, Stmt.predicate, Stmt.object, List.mem_append, List.mem_cons] at hin
      rcases hin with hin | rfl | hin
      · cases s with
        | res j =>
          rw [List.mem_singleton] at hin
          subst hin
          rw [← hc]
          exact .subject _ p o _ hm (.res i)
        | _ => cases hin
      · rw [← hc]
        exact .predicate s i o hm
      · cases o with
        | res j =>
          rw [List.mem_singleton] at hin
          subst hin
          rw [← hc]
          exact .object s p _ _ hm (.res i)
        | lit l =>
          simp only [Option.mem_toList, Option.map_eq_some_iff] at hin
          obtain ⟨d, hd, rfl⟩ := hin
          have := GraphAsks.object s p _ _ hm (.lit l)
          rwa [(hlit s p l hm).2.2 (.inl ⟨d, hd, h⟩)] at this
        | _ => cases hin
    · have := GraphAsks.object s p _ _ hm (.lit l)
      rwa [(hlit s p l hm).2.2 (.inr h)] at this

/-- How the writing of a graph without nested statements ends, without options and in either style. -/
theorem written_ends {env : ReadEnv} {o : Orders} {gen : Nat → Str} {k : Nat} {g : Graph} (sty : IriStyle) (ho : o.Fair)
    (he : StrictEnv env) (ht : env.url rdfType.text = some rdfType)
    (hs : ∀ t ∈ g.stmts, simple t = true) (hi : ∀ t ∈ g.stmts, ∀ i ∈ irisOf t, IriGood env i)
    (hl : ∀ t ∈ g.stmts, ∀ l, t.object = .lit l → l.dataType = none ∨ l.language = none) :
    (∀ n, writeTurtle env.pr env.url sty TurtleOptions.default o gen k n g = .err →
      ∃ t ∈ g.stmts, ∃ l, t.object = .lit l ∧ l.dataType = some .iri ∧ env.url l.lexicalForm = none) ∧
    (∀ n, writeTurtle env.pr env.url sty TurtleOptions.default o gen k n g = .panic →
      (∃ t ∈ g.stmts, ∃ i ∈ irisOf t, i.split = .panic) ∨
      ∃ t ∈ g.stmts, ∃ l, t.object = .lit l ∧ l.dataType = some .iri ∧ ∃ i, env.url l.lexicalForm = some i ∧ i.split = .panic) ∧
    (NoEndlessChain g → ∃ n, ∀ m, n ≤ m → writeTurtle env.pr env.url sty TurtleOptions.default o gen k m g ≠ .deep) := by
  have hd : (denest gen k g).stmts = g.stmts := denest_stmts fun t ht => simple_notNested (hs t ht)
  have hw : 0 < (⟨env.pr, env.url, sty, TurtleOptions.default, denest gen k g, o⟩ : TurtleEnv).opts.width := by
    show 0 < TurtleOptions.default.width; decide
  have hg := graph_asks (env := ⟨env.pr, env.url, sty, TurtleOptions.default, denest gen k g, o⟩) rfl rfl he ht
    (by simp only [hd]; exact hs) (by simp only [hd]; exact hi) (by simp only [hd]; exact hl)
  simp only [hd] at hg
  refine ⟨fun n h => ?_, fun n h => ?_, fun h => ?_⟩
  · refine hg.1.1 (C175_error _ ho hw n 0 ?_)
    simp only [writeTurtle, Step.andThen, Step.text, Run.bind] at h
    cases e : writeTriples ⟨env.pr, env.url, sty, TurtleOptions.default, denest gen k g, o⟩ n 0 <;> simp [e] at h ⊢
  · have hp : writeTriples ⟨env.pr, env.url, sty, TurtleOptions.default, denest gen k g, o⟩ n 0 = .panic := by
      simp only [writeTurtle, Step.andThen, Step.text, Run.bind] at h
      cases e : writeTriples ⟨env.pr, env.url, sty, TurtleOptions.default, denest gen k g, o⟩ n 0 <;> simp [e] at h ⊢
    rcases C175_panic _ ho hw n 0 hp with h | h
    · exact hg.2.1 h
    · cases h.1
  · have hpoints : NoEndlessChain (denest gen k g) := by
      have : Points (denest gen k g) = Points g := by unfold Points; rw [hd]
      unfold NoEndlessChain
      rw [this]
      exact h
    obtain ⟨n, hn⟩ := C175_ends ⟨env.pr, env.url, sty, TurtleOptions.default, denest gen k g, o⟩ ho hw fun _ => hpoints
    refine ⟨n, fun m hm h => hn m hm 0 ?_⟩
    simp only [writeTurtle, Step.andThen, Step.text, Run.bind] at h
    cases e : writeTriples ⟨env.pr, env.url, sty, TurtleOptions.default, denest gen k g, o⟩ m 0 <;> simp [e] at h ⊢

/-- How a conversion to Turtle of what was read ends. -/
theorem convert_exit {e : CliEnv} {s : Str} {g : Graph} {source : Representation} (h : cliRead e s source = .ok g) (n : Nat) :
    cliMain { e with deep := n } s (.convert source .turtle) =
      (writeTurtle e.read.pr e.read.url e.sty TurtleOptions.default e.orders e.gen e.startWrite n g).exit := by
  have hr : cliRead { e with deep := n } s source = .ok g := by
    rw [← h]
    cases source <;> rfl
  simp only [cliMain, hr, Run.bind, cliWrite]

theorem exit_failure {r : Run Str} : r.exit = .failure ↔ r = .err := by cases r <;> simp [Run.exit]
theorem exit_panic {r : Run Str} : r.exit = .panic ↔ r = .panic := by cases r <;> simp [Run.exit]
theorem exit_deep {r : Run Str} : r.exit = .deep ↔ r = .deep := by cases r <;> simp [Run.exit]

/-- C175: a conversion of N-Triples to Turtle never ends with an error; it panics only for an IRI whose division does; and if no blank
node starts an endless chain it ends, given room. -/
theorem C175_nt (e : CliEnv) (first last : Str) (ls : List (Gaps × Line × RdfTriple))
    (he : StrictEnv e.read) (hsane : SaneEnv e.read) (ht : e.read.url rdfType.text = some rdfType) (hpr : AsciiPrintable e.read.pr)
    (ho : e.orders.Fair) (hf : Gap first) (hl : LastGap last)
    (hv : ∀ x ∈ ls, x.2.1.g = none ∧ x.2.1.Valid ∧ x.1.Valid x.2.1 ∧ x.2.1.Means e.read x.2.2)
    (hp : Printed e.read.pr (docText first last (ls.map fun x => (x.1, x.2.1)))) :
    (∀ n, cliMain { e with deep := n } (docText first last (ls.map fun x => (x.1, x.2.1))) (.convert .nTriples .turtle) ≠ .failure) ∧
    (∀ n, cliMain { e with deep := n } (docText first last (ls.map fun x => (x.1, x.2.1))) (.convert .nTriples .turtle) = .panic →
      ∃ x ∈ ls, ∃ i ∈ irisOfTriple x.2.2, i.split = .panic) ∧
    (ChainsEnd (ls.map fun x => x.2.2) → ∃ n, ∀ m, n ≤ m →
      cliMain { e with deep := m } (docText first last (ls.map fun x => (x.1, x.2.1))) (.convert .nTriples .turtle) ≠ .deep) := by
  obtain ⟨g, hr, hsim, hlit, hst, hts, hi⟩ := nt_nodes he hsane hpr hf hl hv hp
  obtain ⟨h1, h2, h3⟩ := written_ends (gen := e.gen) (k := e.startWrite) e.sty ho he ht hsim hi fun t ht l hl => (hlit t ht l hl).2
  have hnot : ∀ t ∈ g.stmts, ∀ l, t.object = .lit l → l.dataType ≠ some .iri := fun t ht l hl hd => by
    obtain ⟨i, hi⟩ := (hlit t ht l hl).1 _ hd
    cases hi
  simp only [convert_exit hr, ne_eq, exit_failure, exit_panic, exit_deep]
  refine ⟨fun n h => ?_, fun n h => ?_, fun h => h3 ((sameNodes_chains hsim hst hts).2 h)⟩
  · obtain ⟨t, ht, l, hl, hd, -⟩ := h1 n h
    exact hnot t ht l hl hd
  · rcases h2 n h with ⟨t, ht, i, hin, h⟩ | ⟨t, ht, l, hl, hd, -⟩
    · obtain ⟨u, hu, k, -⟩ := hst t ht
      obtain ⟨x, hx, rfl⟩ := List.mem_map.1 hu
      exact ⟨x, hx, i, by rw [← k]; exact hin, h⟩
    · exact absurd hd (hnot t ht l hl)

/-- C175, exactly, for N-Triples: if no blank node starts an endless chain the conversion to Turtle, given room, panics if and only if
the division of some IRI does. -/
theorem C175_nt_iff (e : CliEnv) (first last : Str) (ls : List (Gaps × Line × RdfTriple))
    (he : StrictEnv e.read) (hsane : SaneEnv e.read) (ht : e.read.url rdfType.text = some rdfType) (hpr : AsciiPrintable e.read.pr)
    (ho : e.orders.Fair) (hf : Gap first) (hl : LastGap last)
    (hv : ∀ x ∈ ls, x.2.1.g = none ∧ x.2.1.Valid ∧ x.1.Valid x.2.1 ∧ x.2.1.Means e.read x.2.2)
    (hp : Printed e.read.pr (docText first last (ls.map fun x => (x.1, x.2.1)))) (hc : ChainsEnd (ls.map fun x => x.2.2)) :
    (∃ n, ∀ m, n ≤ m → cliMain { e with deep := m } (docText first last (ls.map fun x => (x.1, x.2.1))) (.convert .nTriples .turtle) = .panic) ↔
      ∃ x ∈ ls, ∃ i ∈ irisOfTriple x.2.2, i.split = .panic := by
  obtain ⟨h1, h2, h3⟩ := C175_nt e first last ls he hsane ht hpr ho hf hl hv hp
  have hok := C171_iff e first last ls he hsane ht hpr ho hf hl hv hp
  constructor
  · rintro ⟨n, h⟩
    exact h2 n (h n (Nat.le_refl n))
  · rintro ⟨x, hx, i, hi, h⟩
    obtain ⟨n, hn⟩ := h3 hc
    refine ⟨n, fun m hm => ?_⟩
    cases hr : cliMain { e with deep := m } (docText first last (ls.map fun x => (x.1, x.2.1))) (.convert .nTriples .turtle) with
    | panic => rfl
    | deep => exact absurd hr (hn m hm)
    | failure => exact absurd hr (h1 m)
    | success out => exact absurd h ((hok.1 ⟨m, out, hr⟩).1 x hx i hi)

/-- C175, exactly, for N-Triples: if all IRIs can be divided the conversion to Turtle exhausts any room if and only if some blank node
starts an endless chain. -/
theorem C175_nt_endless (e : CliEnv) (first last : Str) (ls : List (Gaps × Line × RdfTriple))
    (he : StrictEnv e.read) (hsane : SaneEnv e.read) (ht : e.read.url rdfType.text = some rdfType) (hpr : AsciiPrintable e.read.pr)
    (ho : e.orders.Fair) (hf : Gap first) (hl : LastGap last)
    (hv : ∀ x ∈ ls, x.2.1.g = none ∧ x.2.1.Valid ∧ x.1.Valid x.2.1 ∧ x.2.1.Means e.read x.2.2)
    (hp : Printed e.read.pr (docText first last (ls.map fun x => (x.1, x.2.1))))
    (hs : ∀ x ∈ ls, ∀ i ∈ irisOfTriple x.2.2, i.split ≠ .panic) :
    (∀ n, cliMain { e with deep := n } (docText first last (ls.map fun x => (x.1, x.2.1))) (.convert .nTriples .turtle) = .deep) ↔
      ¬ ChainsEnd (ls.map fun x => x.2.2) := by
  obtain ⟨h1, h2, h3⟩ := C175_nt e first last ls he hsane ht hpr ho hf hl hv hp
  have hok := C171_iff e first last ls he hsane ht hpr ho hf hl hv hp
  constructor
  · intro h hc
    obtain ⟨n, hn⟩ := h3 hc
    exact hn n (Nat.le_refl n) (h n)
  · intro hc n
    cases hr : cliMain { e with deep := n } (docText first last (ls.map fun x => (x.1, x.2.1))) (.convert .nTriples .turtle) with
    | deep => rfl
    | panic =>
      obtain ⟨x, hx, i, hi, h⟩ := h2 n hr
      exact absurd h (hs x hx i hi)
    | failure => exact absurd hr (h1 n)
    | success out => exact absurd (hok.1 ⟨n, out, hr⟩).2 hc

/-- C175: a conversion of RDF/JSON to Turtle ends with an error only for a literal of type `xsd:anyURI` whose text, as it is read, is no
IRI; it panics only for an IRI, or the text of such a literal, whose division does; and if no blank node starts an endless chain it
ends, given room. -/
theorem C175_json (e : CliEnv) (s : Str) (ts : List RdfTriple) (he : StrictEnv e.read) (hsane : SaneEnv e.read)
    (ht : e.read.url rdfType.text = some rdfType) (ho : e.orders.Fair) (hs : JsonSays e.read s ts) :
    (∀ n, cliMain { e with deep := n } s (.convert .json .turtle) = .failure →
      ∃ t ∈ ts, ∃ v k, t.2.2 = .lit v (some DataType.iri.asIri) k ∧ e.read.url (escapeString e.read.pr v) = none) ∧
    (∀ n, cliMain { e with deep := n } s (.convert .json .turtle) = .panic →
      (∃ t ∈ ts, ∃ i ∈ irisOfTriple t, i.split = .panic) ∨
      ∃ t ∈ ts, ∃ v k, t.2.2 = .lit v (some DataType.iri.asIri) k ∧
        ∃ i, e.read.url (escapeString e.read.pr v) = some i ∧ i.split = .panic) ∧
    (ChainsEnd ts → ∃ n, ∀ m, n ≤ m → cliMain { e with deep := m } s (.convert .json .turtle) ≠ .deep) := by
  obtain ⟨g, hr, fwd, bwd⟩ := json_graph he hsane hs
  have hread : cliRead e s .json = .ok g := by simp only [cliRead, hr, Res.toRun]
  obtain ⟨hsim, f', b', hi, hl, hany⟩ := esc_facts (e := e) (g := g) (ts := ts) (fun st hst => by
    obtain ⟨t, ht, k, g1, -, g2, g3⟩ := fwd st hst
    exact ⟨t, ht, k, g1, g2, g3⟩) bwd fun st hst => (readJson_got he hr st hst).2
  have hany' : ∀ R : Str → Prop, (∃ st ∈ g.stmts, ∃ l, st.object = .lit l ∧ l.dataType = some .iri ∧ R l.lexicalForm) →
      ∃ t ∈ ts, ∃ v k, t.2.2 = .lit v (some DataType.iri.asIri) k ∧ R (escapeString e.read.pr v) := by
    rintro R ⟨st, hst, l, hl, hd, hR⟩
    refine Classical.byContradiction fun hn => (hany fun s => ¬ R s).2 (fun t ht v k hv hR => ?_) st hst l hl hd hR
    exact hn ⟨t, ht, v, k, hv, hR⟩
  obtain ⟨h1, h2, h3⟩ := written_ends (gen := e.gen) (k := e.startWrite) e.sty ho he ht hsim hi hl
  simp only [convert_exit hread, ne_eq, exit_failure, exit_panic, exit_deep]
  refine ⟨fun n h => hany' (fun s => e.read.url s = none) (h1 n h), fun n h => ?_, fun h => h3 ((sameNodes_chains hsim f' b').2 h)⟩
  rcases h2 n h with ⟨t, ht, i, hin, h⟩ | h
  · obtain ⟨u, hu, k, -⟩ := f' t ht
    exact .inl ⟨u, hu, i, by rw [← k]; exact hin, h⟩
  · exact .inr (hany' (fun s => ∃ i, e.read.url s = some i ∧ i.split = .panic) h)

/-! A document whose conversion panics, by the theorem, and one whose conversion exhausts any room. -/

example : ∃ n, ∀ m, n ≤ m → cliMain { docCli .bracketed with deep := m } (docText [] [] (urnDoc.map fun x => (x.1, x.2.1)))
    (.convert .nTriples .turtle) = .panic := by
  have hl : LastGap [] := ⟨[], [], .nil, rfl, .inl rfl⟩
  refine (C175_nt_iff (docCli .bracketed) [] [] urnDoc docEnv_strict docEnv_sane webEnv_web.type easyEnv_ascii sameOrder_fair .nil hl
    urnDoc_valid (webCli_printed _ (by decide +kernel)) fun b => ⟨b, fun c hc => ?_⟩).2
    ⟨_, List.mem_singleton.2 rfl, ⟨str! "urn:a"⟩, by decide +kernel, by decide +kernel⟩
  obtain ⟨⟨t, ht, h1, -⟩, -⟩ := hc
  rw [urnDoc, List.map_singleton, List.mem_singleton] at ht
  subst ht
  cases h1

example (n : Nat) : cliMain { docCli .bracketed with deep := n } (docText [] [] (selfDoc.map fun x => (x.1, x.2.1)))
    (.convert .nTriples .turtle) = .deep := by
  have hl : LastGap [] := ⟨[], [], .nil, rfl, .inl rfl⟩
  refine (C175_nt_endless (docCli .bracketed) [] [] selfDoc docEnv_strict docEnv_sane webEnv_web.type easyEnv_ascii sameOrder_fair .nil hl
    selfDoc_valid (webCli_printed _ (by decide +kernel)) (by decide +kernel)).2 (fun h => ?_) n
  have no : ∀ b, Acc (LeadsTo (selfDoc.map fun x => x.2.2)) b → b ≠ ['b'] := by
    intro b hb
    induction hb with
    | intro b _ ih =>
      rintro rfl
      exact ih ['b'] ⟨⟨_, List.mem_singleton.2 rfl, rfl, rfl⟩, _, List.mem_singleton.2 rfl, rfl⟩ rfl
  exact no _ (h ['b']) rfl

end Rdftk
