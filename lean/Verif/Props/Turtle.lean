import Verif.Lemmas.TurtleText
import Verif.Lemmas.Resolve
import Verif.Lemmas.Expand
import Verif.Props.NTriples
import Verif.Props.PrefixMap

/-! Turtle output: C46, C47, C48, C49 (writer), C67, C68, C69, C70. -/

namespace Rdftk
open Spec

/-- The writer without printable or URL checks that matter, with `{}` as given. -/
def easyTurtle (sty : IriStyle) (opts : TurtleOptions) (g : Graph) : TurtleEnv :=
  ⟨easyEnv.pr, easyEnv.url, sty, opts, g, sameOrder⟩

/-- No statements and no prefixes. -/
def noPrefixes : Graph := Graph.default.withMappings PrefixMap.empty

/-- Options that neither nest blank nodes nor pad. -/
def flatOptions : TurtleOptions := { TurtleOptions.default with nest := false }

/-! ### C46 -/

/-- C46, the full statement: what is printed for an IRI stands for it, with the written base and
prefixes, when no conversion was asked for. -/
def C46_statement (sty : IriStyle) : Prop :=
  ∀ (env : TurtleEnv) (i : Iri) (s : Str), env.sty = sty → env.opts.convert = [] →
    env.opts.convertTo = none → Reachable env.graph.mappings → i.wf = true → hasScheme i.text = true →
    compressIri env i = .ok s → StandsFor env.opts.idBase env.graph.mappings s i

theorem not_iriChar_bracket : iriChar '<' = false := by decide

/-- C46 fails for the way the code prints IRIs: they stand in two pairs of brackets. -/
theorem C46_fails : ¬ C46_statement .bracketed := by
  intro h
  have := h (easyTurtle .bracketed flatOptions noPrefixes) ⟨str! "http://a/b"⟩
    (str! "<<http://a/b>>") rfl rfl rfl .empty (by decide +kernel) (by decide +kernel) (by decide +kernel)
  rcases this with ⟨r, e, h1, -⟩ | ⟨p, l, ns, e, -, -, hm, -⟩
  · have hr : '<' ∈ r := by
      cases r with
      | nil => simp at e
      | cons c r => simp only [List.cons_append, List.cons.injEq, true_and] at e; rw [← e.1]; simp
    have := h1 _ hr
    rw [not_iriChar_bracket] at this
    cases this
  · simp [easyTurtle, noPrefixes, Graph.withMappings, PrefixMap.mappings, PrefixMap.empty] at hm

/-- C46 in general, for IRIs in two pairs of brackets: nothing without a prefix or base can be
read. -/
theorem C46_brackets (env : TurtleEnv) (i : Iri) (hs : env.sty = .bracketed) (hb : env.opts.idBase = none)
    (hm : env.graph.mappings.mappings = []) (s : Str) (h : compressIri env i = .ok s) :
    ¬ StandsFor env.opts.idBase env.graph.mappings s i := by
  have hrel : turtleRelative env (i.fmt env.sty) = none := by simp [turtleRelative, hb]
  unfold compressIri at h
  rw [hrel] at h
  simp only at h
  split at h
  · cases h
  · split at h
    · cases h
    · rename_i j _ hc
      simp only [Run.ok.injEq] at h
      rintro (⟨r, e, h1, -⟩ | ⟨p, l, ns, e, -, -, hmm, -⟩)
      · rw [← h, hs] at e
        simp only [Iri.fmt, List.cons_append, List.cons.injEq, true_and] at e
        have hr : '<' ∈ r := by
          cases r with
          | nil => simp at e
          | cons c r => simp only [List.cons_append, List.cons.injEq] at e; rw [← e.1]; simp
        have := h1 _ hr
        rw [not_iriChar_bracket] at this
        cases this
      · rw [hm] at hmm; simp at hmm
    · rename_i j _ q hc
      exfalso
      unfold PrefixMap.compress at hc
      split at hc
      · cases hc
      · cases hc
      · split at hc
        · cases hc
        · rename_i hp
          have : env.graph.mappings.entries = [] := hm
          simp [PrefixMap.getPrefix, this] at hp

/-- C46 fails also with IRIs in one pair of brackets: what is cut off need not be a path. -/
theorem C46_fails_base : ¬ C46_statement .bare := by
  intro h
  have := h (easyTurtle .bare { flatOptions with idBase := some ⟨str! "http://a/b"⟩ } noPrefixes)
    ⟨str! "http://a/bc"⟩ (str! "<c>") rfl rfl rfl .empty (by decide +kernel) (by decide +kernel)
    (by decide +kernel)
  rcases this with ⟨r, e, -, h1⟩ | ⟨p, l, ns, e, -, -, hm, -⟩
  · have : r = str! "c" := by
      have : ['c'] ++ ['>'] = r ++ ['>'] := by simpa using e
      exact (List.append_cancel_right this).symm
    subst this
    revert h1; decide +kernel
  · simp [easyTurtle, noPrefixes, Graph.withMappings, PrefixMap.mappings, PrefixMap.empty] at hm

/-- C46 fails also for a prefixed name, when the IRI ends with an empty fragment. -/
theorem C46_fails_prefix : ¬ C46_statement .bare := by
  intro h
  have := h (easyTurtle .bare flatOptions (Graph.default.withMappings
      (PrefixMap.empty.insert ⟨str! "p:"⟩ ⟨str! "http://h/#"⟩)))
    ⟨str! "http://h/a#"⟩ (str! "p:a") rfl rfl rfl (.step .empty (.insert _ _)) (by decide +kernel)
    (by decide +kernel) (by decide +kernel)
  rcases this with ⟨r, e, -, h1⟩ | ⟨p, l, ns, e, -, -, hm, ht⟩
  · simp at e
  · have hm' : (⟨p ++ [':']⟩, ns) ∈ [((⟨str! "p:"⟩ : Namespace), (⟨str! "http://h/#"⟩ : Iri))] := hm
    simp only [List.mem_singleton, Prod.mk.injEq] at hm'
    obtain ⟨-, rfl⟩ := hm'
    simp at ht

theorem mem_mappings {m : PrefixMap} (h : Reachable m) {p : Namespace} {i : Iri}
    (hp : m.getPrefix i = some p) : (p, i) ∈ m.mappings := by
  have := C10_one_to_one m h
  rw [this.2.2.2.2.2, this.1]; exact hp

/-- C46, what holds without base: IRIs in one pair of brackets, no empty fragment at the end, and
prefixes of the grammar. -/
theorem C46_absolute_partial (env : TurtleEnv) (i : Iri) (s : Str) (hs : env.sty = .bare)
    (hc : env.opts.convert = []) (hrel : turtleRelative env i.text = none)
    (hm : Reachable env.graph.mappings)
    (hp : ∀ e ∈ env.graph.mappings.mappings, ∃ p, isPrefix p = true ∧ e.1.text = p ++ [':'])
    (hw : i.wf = true) (hf : i.fragment ≠ some []) (hsch : hasScheme i.text = true)
    (hch : ∀ c ∈ i.text, iriChar c = true) (hurl : env.url i.text = some i)
    (h : compressIri env i = .ok s) : StandsFor env.opts.idBase env.graph.mappings s i := by
  have hstart : (startsWith i.text '<' && endsWith i.text '>') = false := by
    rw [Bool.eq_false_iff]
    intro he
    simp only [Bool.and_eq_true] at he
    obtain ⟨t, ht⟩ := startsWith_iff.1 he.1
    have := hch '<' (by rw [ht]; simp)
    rw [not_iriChar_bracket] at this; cases this
  have hfrom : Iri.fromStr env.url i.text = some i := by
    unfold Iri.fromStr
    rw [hstart]
    simpa using hurl
  unfold compressIri at h
  rw [hs] at h
  simp only [Iri.fmt, hrel, hc, convertAll, hfrom] at h
  split at h
  · cases h
  · simp only [Run.ok.injEq] at h
    left
    refine ⟨i.text, h.symm, hch, iriValue_scheme hsch⟩
  · rename_i q hq
    simp only [Run.ok.injEq] at h
    unfold PrefixMap.compress at hq
    split at hq
    · cases hq
    · cases hq
    · rename_i ns n hsp
      split at hq
      · cases hq
      · rename_i p hpp
        simp only [Outcome.ok.injEq, Option.some.injEq] at hq
        have hmem := mem_mappings hm hpp
        obtain ⟨p', hp1, hp2⟩ := hp _ hmem
        obtain ⟨ht, hn⟩ := split_text hw hf hsp
        right
        refine ⟨p', n.text, ns, ?_, hp1, isLocal_of_parse hn, ?_, ht⟩
        · rw [← h, ← hq]
          simp only [LocalName.display, Namespace.display, Name.display]
          simp only at hp2
          rw [hp2]; simp
        · have : p = ⟨p' ++ [':']⟩ := by cases p; simp_all
          rw [← this]; exact hmem

/-- C46, what holds with a base: the base ends its path with a slash and the rest is a plain
relative reference. -/
theorem C46_relative_partial (env : TurtleEnv) (b i : Iri) (r : Str) (hs : env.sty = .bare)
    (hb : env.opts.idBase = some b) (hc : env.opts.convertTo = none) (hpb : PlainBase b.text)
    (hpr : PlainRef r) (hch : ∀ c ∈ r, iriChar c = true) (hi : i.text = b.text ++ r) :
    compressIri env i = .ok ('<' :: r ++ ['>']) ∧
      StandsFor env.opts.idBase env.graph.mappings ('<' :: r ++ ['>']) i := by
  have hrel : turtleRelative env i.text = some r := by
    unfold turtleRelative
    rw [hb, hc]
    simp only [Option.bind_none]
    rw [hs]
    simp only [Iri.fmt]
    rw [stripPrefix_eq_some]
    exact hi
  refine ⟨?_, .inl ⟨r, rfl, hch, ?_⟩⟩
  · unfold compressIri
    rw [hs]
    simp only [Iri.fmt, hrel]
  · rw [hb]
    unfold iriValue
    rw [hpr.scheme]
    simp only [Bool.false_eq_true, if_false, Option.map_some]
    rw [resolve_plain hpb hpr, hi]

example : PlainBase (str! "http://example.org/a/") := by
  refine ⟨by decide +kernel, by decide +kernel, by decide +kernel, ⟨str! "/a", by decide +kernel⟩, ?_⟩
  unfold NoDots; decide +kernel
example : PlainRef (str! "b/c?d#e") := by
  refine ⟨by decide +kernel, by decide +kernel, ?_⟩
  unfold NoDots; decide +kernel

/-! ### C47 -/

/-- The predicates written first, which the code calls types. -/
def typePredicates : List Str :=
  [str! "http://www.w3.org/1999/02/22-rdf-syntax-ns#type",
   str! "http://www.w3.org/2000/01/rdf-schema#subClassOf",
   str! "http://www.w3.org/2000/01/rdf-schema#subPropertyOf",
   str! "http://www.w3.org/2002/07/owl#equivalentClass"]
/-- The predicates written next, for labels. -/
def labelPredicates : List Str :=
  [str! "http://www.w3.org/2000/01/rdf-schema#label",
   str! "http://www.w3.org/2004/02/skos/core#prefLabel",
   str! "http://www.w3.org/2004/02/skos/core#altLabel",
   str! "http://www.w3.org/2004/02/skos/core#hiddenLabel",
   str! "http://xmlns.com/foaf/0.1/name",
   str! "http://purl.org/dc/elements/1.1/title"]
/-- The predicates written next, for comments. -/
def commentPredicates : List Str :=
  [str! "http://www.w3.org/2000/01/rdf-schema#comment",
   str! "http://purl.org/dc/elements/1.1/description",
   str! "http://www.w3.org/2004/02/skos/core#definition",
   str! "http://www.w3.org/2004/02/skos/core#note",
   str! "http://www.w3.org/2004/02/skos/core#scopeNote",
   str! "http://www.w3.org/2004/02/skos/core#editorialNote"]

/-- The place of a predicate. -/
def placeOf (p : Iri) : Nat :=
  if p.text ∈ typePredicates then 0
  else if p.text ∈ labelPredicates then 1
  else if p.text ∈ commentPredicates then 2
  else 3

theorem groupOf_place (p : Iri) : (groupOf p).rank = placeOf p := by
  unfold groupOf
  split
  · rename_i e he
    have h1 := List.mem_of_find?_eq_some he
    have h2 := List.find?_some he
    rw [beq_iff_eq] at h2
    rw [← h2]
    have : ∀ e ∈ groupTable, e.2.rank = placeOf e.1 := by decide +kernel
    exact this e h1
  · rename_i he
    have h1 := List.find?_eq_none.1 he
    have h2 : ∀ t ∈ typePredicates ++ labelPredicates ++ commentPredicates,
        ∃ e ∈ groupTable, e.1.text = t := by decide +kernel
    have h3 : p.text ∉ typePredicates ++ labelPredicates ++ commentPredicates := by
      intro hm
      obtain ⟨e, he, ht⟩ := h2 _ hm
      have := h1 e he
      apply this
      rw [beq_iff_eq]
      cases hx : e.1; cases p; simp_all
    simp only [List.mem_append, not_or] at h3
    simp [placeOf, h3, PredGroup.rank]

/-- C47, grouping: every predicate as often as before, those for types first, then labels, then
comments, then the others, each group in the order it had. -/
theorem C47_grouping (ps : List Iri) :
    (groupPredicates ps).flatMap (·.2) =
      ps.filter (fun p => placeOf p == 0) ++ ps.filter (fun p => placeOf p == 1) ++
      ps.filter (fun p => placeOf p == 2) ++ ps.filter (fun p => placeOf p == 3) := by
  have hr : ∀ e ∈ groupPredicates ps, e.1.rank < 4 := by
    intro e _; cases e.1 <;> simp [PredGroup.rank]
  have hs : groupPredicates ps = (List.range 4).flatMap fun k =>
      (groupPredicates ps).filter fun e => e.1.rank == k :=
    sorted_parts (fun e : PredGroup × List Iri => e.1.rank) _ (sortBy_sorted _ _) 4 hr
  have hf : ∀ g : PredGroup, ((groupPredicates ps).filter fun e => e.1.rank == g.rank).flatMap (·.2) =
      ps.filter fun p => placeOf p == g.rank := by
    intro g
    have h1 := sortBy_filter (fun e : PredGroup × List Iri => e.1.rank) (chunkBy groupOf ps) g.rank
    have h2 : (fun e : PredGroup × List Iri => e.1.rank == g.rank) = fun e => e.1 == g := by
      funext e
      cases e.1 <;> cases g <;> rfl
    have h3 : (fun p => placeOf p == g.rank) = fun p => groupOf p == g := by
      funext p
      rw [← groupOf_place]
      cases groupOf p <;> cases g <;> rfl
    unfold groupPredicates
    rw [h1, h2, h3]
    exact chunkBy_filter groupOf g ps
  conv => lhs; rw [hs]
  have h0 := hf .type
  have h1 := hf .label
  have h2 := hf .comment
  have h3 := hf .other
  rw [show PredGroup.type.rank = 0 from rfl] at h0
  rw [show PredGroup.label.rank = 1 from rfl] at h1
  rw [show PredGroup.comment.rank = 2 from rfl] at h2
  rw [show PredGroup.other.rank = 3 from rfl] at h3
  rw [show List.range 4 = [0, 1, 2, 3] from rfl]
  simp only [List.flatMap_cons, List.flatMap_nil, List.flatMap_append, List.append_nil, h0, h1, h2, h3,
    List.append_assoc]

theorem flatten_pairwise {c : List (PredGroup × List Iri)} {m : List (List (PredGroup × Iri))}
    (hc : c.Pairwise fun a b => a.1.rank ≤ b.1.rank)
    (hf : List.Forall₂ (fun e l => ∀ x ∈ l, (x : PredGroup × Iri).1 = (e : PredGroup × List Iri).1) c m) :
    m.flatten.Pairwise fun a b => a.1.rank ≤ b.1.rank := by
  induction hf with
  | nil => exact .nil
  | @cons e l c m h1 h2 ih =>
    obtain ⟨h3, h4⟩ := List.pairwise_cons.1 hc
    rw [List.flatten_cons, List.pairwise_append]
    refine ⟨?_, ih h4, ?_⟩
    · rw [List.pairwise_iff_forall_sublist]
      intro a b hab
      have ha := h1 a (hab.subset (by simp))
      have hb := h1 b (hab.subset (by simp))
      rw [ha, hb]; exact Nat.le_refl _
    · intro a ha b hb0
      rw [h1 a ha]
      obtain ⟨l', hl', hb⟩ := List.mem_flatten.1 hb0
      have : ∃ e' ∈ c, ∀ x ∈ l', x.1 = e'.1 := by
        clear ih hc h3 h4 hb hb0 ha h1
        induction h2 with
        | nil => simp at hl'
        | cons g1 g2 ih =>
          rcases List.mem_cons.1 hl' with rfl | hl'
          · exact ⟨_, by simp, g1⟩
          · obtain ⟨e', he', hx⟩ := ih hl'
            exact ⟨e', by simp [he'], hx⟩
      obtain ⟨e', he', hx⟩ := this
      rw [hx b hb]
      exact h3 e' he'

/-- C47, writing: the predicates are written each exactly once and by place. -/
theorem C47_written (env : TurtleEnv) (ps : List Iri) (l : List (PredGroup × Iri))
    (h : predicateSequence env ps = .ok l) :
    (l.map (·.2)).Perm ps ∧ (l.map (·.2)).Pairwise (fun p q => placeOf p ≤ placeOf q) ∧
      ∀ e ∈ l, e.1.rank = placeOf e.2 := by
  have hperm := predicateSequence_perm h
  have hg : ∀ e ∈ l, e.1.rank = placeOf e.2 := by
    intro e he
    obtain ⟨p, -, rfl⟩ := List.mem_map.1 (hperm.mem_iff.1 he)
    exact groupOf_place p
  refine ⟨?_, ?_, hg⟩
  · have := hperm.map (·.2)
    simpa [List.map_map, Function.comp_def] using this
  · rw [List.pairwise_map]
    obtain ⟨m, h1, h2⟩ := Run.bind_ok.1 h
    simp only [Run.ok.injEq] at h2
    subst h2
    have h3 : m.flatten.Pairwise fun a b => a.1.rank ≤ b.1.rank := by
      refine flatten_pairwise (c := groupPredicates ps)
        (sortBy_sorted (fun e : PredGroup × List Iri => e.1.rank) _) ?_
      refine (Run.mapAll_ok.1 h1).imp ?_
      intro e l hl x hx
      obtain ⟨l', -, h5⟩ := Run.bind_ok.1 hl
      simp only [Run.ok.injEq] at h5
      subst h5
      obtain ⟨p, -, rfl⟩ := List.mem_map.1 hx
      rfl
    refine h3.imp_of_mem ?_
    intro a b ha hb hab
    rw [← hg a ha, ← hg b hb]
    exact hab

example : placeOf rdfType = 0 ∧ placeOf ⟨str! "http://www.w3.org/2000/01/rdf-schema#label"⟩ = 1 ∧
    placeOf ⟨str! "http://www.w3.org/2000/01/rdf-schema#comment"⟩ = 2 ∧ placeOf ⟨str! "a:p"⟩ = 3 := by
  decide +kernel

/-! ### C48 -/

/-- A reader that knows base and prefixes reads the text as the predicate. -/
def ReadsVerb (d : Doc) (t : Str) (p : Iri) : Prop :=
  ∀ out n more, Settles (d.at out [] (.verb n more)) t (d.at out [.pair n p.text] .object)

/-- C48, the full statement: the verb that is written for a predicate denotes it, for predicates
and `rdf:type` that are printed as they are. -/
def C48_statement : Prop :=
  ∀ (env : TurtleEnv) (d : Doc) (p : Iri) (m : Nat) (f : TurtleFlags) (e e' : Nat) (t : Str),
    Knows env.opts env.graph.mappings d → IriFaithful env p → IriFaithful env rdfType →
    Wide env m p → Wide env m rdfType →
    writeVerb env (groupOf p) p m f e = .ok (t, e') → ReadsVerb d t p

/-- C48, what holds: the verb denotes the predicate unless it is one of three. -/
theorem C48_verb_partial (env : TurtleEnv) (d : Doc) (p : Iri) (m : Nat) (f : TurtleFlags) (e e' : Nat)
    (t : Str) (hk : Knows env.opts env.graph.mappings d) (hp : IriFaithful env p) (hw : Wide env m p)
    (hm : p ∉ mistyped) (h : writeVerb env (groupOf p) p m f e = .ok (t, e')) : ReadsVerb d t p := by
  obtain ⟨-, c, r, -, -, hr⟩ := writeVerb_reads hk hp hm hw h
  exact fun out n more => (hr out n more).settles

/-- C48 in general, for the three: what is written is what is written for `rdf:type`. -/
theorem C48_mistyped (env : TurtleEnv) (p : Iri) (h : p ∈ mistyped) (m : Nat) (f : TurtleFlags) :
    writeVerb env (groupOf p) p m f = writeVerb env (groupOf rdfType) rdfType m f := by
  have h1 : ∀ p ∈ mistyped, groupOf p = .type := by decide +kernel
  have h2 : groupOf rdfType = .type := by decide +kernel
  rw [h1 p h, h2]
  unfold writeVerb
  simp

theorem settles_unique {d a b : Doc} {t : Str} (h : Settles d t a) (h' : Settles d t b) : a = b := by
  obtain ⟨m, d₁, h1, -, h2⟩ := h
  obtain ⟨m', d₂, h3, -, h4⟩ := h'
  rw [h1, Option.some.injEq, Prod.mk.injEq] at h3
  obtain ⟨rfl, rfl⟩ := h3
  rw [h2] at h4
  exact Option.some.inj h4

/-- C48, exactly: the verb denotes the predicate if and only if it is none of the three. -/
theorem C48_iff (env : TurtleEnv) (d : Doc) (p : Iri) (m : Nat) (f : TurtleFlags) (e e' : Nat) (t : Str)
    (hk : Knows env.opts env.graph.mappings d) (hp : IriFaithful env p) (ht : IriFaithful env rdfType)
    (hw : Wide env m p) (hwt : Wide env m rdfType) (h : writeVerb env (groupOf p) p m f e = .ok (t, e')) :
    ReadsVerb d t p ↔ p ∉ mistyped := by
  refine ⟨fun hr hm => ?_, fun hm => C48_verb_partial env d p m f e e' t hk hp hw hm h⟩
  rw [C48_mistyped env p hm m f] at h
  have h1 := C48_verb_partial env d rdfType m f e e' t hk ht hwt (by decide +kernel) h
  have h2 := settles_unique (hr [] (.iri []) false) (h1 [] (.iri []) false)
  have h3 : p.text = rdfType.text := by
    have h4 := congrArg Doc.stack h2
    simpa [Doc.at] using h4
  revert h3 hm
  have : ∀ q ∈ mistyped, q.text ≠ rdfType.text := by decide +kernel
  exact fun hm h3 => this p hm h3

/-- C48 fails for `rdfs:subClassOf`, written as `rdf:type`. -/
theorem C48_fails : ¬ C48_statement := by
  intro h
  let env := easyTurtle .bare flatOptions noPrefixes
  have hf : ∀ i : Iri, hasScheme i.text = true → i.text.all iriChar = true →
      compressIri env i = .ok ('<' :: i.text ++ ['>']) → IriFaithful env i := by
    intro i h1 h2 h3
    exact ⟨_, h3, .inl ⟨i.text, rfl, List.all_eq_true.1 h2, iriValue_scheme h1⟩⟩
  let p : Iri := ⟨str! "http://www.w3.org/2000/01/rdf-schema#subClassOf"⟩
  have hp : IriFaithful env p := hf p (by decide +kernel) (by decide +kernel) (by decide +kernel)
  have ht : IriFaithful env rdfType := hf _ (by decide +kernel) (by decide +kernel) (by decide +kernel)
  have hk : Knows env.opts env.graph.mappings Doc.empty := ⟨rfl, by
    intro p ns hm
    simp [env, easyTurtle, noPrefixes, Graph.withMappings, PrefixMap.mappings, PrefixMap.empty] at hm⟩
  have := h env Doc.empty p 0 .none 0 0
    (str! "\n<http://www.w3.org/1999/02/22-rdf-syntax-ns#type> ") hk hp ht (.inl rfl) (.inl rfl)
    (by decide +kernel) [] (.iri []) false
  obtain ⟨m, d, h1, -, h3⟩ := this
  have hx : (readFrom .start (Doc.empty.at [] [] (.verb (.iri []) false))
      (str! "\n<http://www.w3.org/1999/02/22-rdf-syntax-ns#type> ")) =
      some (.start, Doc.empty.at [] [.pair (.iri []) (rdfText (str! "type"))] .object) := by decide +kernel
  rw [hx] at h1
  simp only [Option.some.injEq, Prod.mk.injEq] at h1
  obtain ⟨rfl, rfl⟩ := h1
  revert h3
  decide +kernel

/-- C48, the separator: the text of the verb ends with a space unless the predicate is one of the
three. -/
theorem C48_separated_partial (env : TurtleEnv) (p : Iri) (m : Nat) (f : TurtleFlags) (e e' : Nat)
    (t : Str) (hp : IriFaithful env p) (hw : Wide env m p) (hm : p ∉ mistyped)
    (h : writeVerb env (groupOf p) p m f e = .ok (t, e')) : t.getLast? = some ' ' := by
  obtain ⟨sp, hsp, hst⟩ := hp
  have hlen : m = 0 ∨ sp.length < m := by
    rcases hw with h | h
    · exact .inl h
    · exact .inr (Nat.lt_of_le_of_lt (length_le_byteLen sp) (h sp hsp))
  have hpad : ∀ s : Str, (m = 0 ∨ s.length < m) → ∀ u : Str, (u ++ padded s m).getLast? = some ' ' := by
    intro s hs u
    obtain ⟨k, hk⟩ := padded_eq hs
    rw [hk, List.getLast?_append, List.getLast?_append]
    have : (' ' :: List.replicate k ' ').getLast? = some ' ' := by
      rw [← List.replicate_succ]
      simp [List.getLast?_replicate]
    simp [this]
  unfold writeVerb at h
  by_cases hg : groupOf p = .type
  · rw [if_pos hg] at h
    have hpt := groupOf_type hg hm
    split at h
    · obtain ⟨h1, rfl⟩ := run_eq h
      obtain ⟨s, h2, h3⟩ := Run.bind_ok.1 h1
      simp only [Run.ok.injEq] at h3
      subst h3
      exact List.getLast?_concat (l := ' ' :: s)
    · obtain ⟨u, b, v, h1, h2, rfl⟩ := Step.andThen_ok.1 h
      obtain ⟨h3, rfl⟩ := run_eq h2
      obtain ⟨s, h4, h5⟩ := Run.bind_ok.1 h3
      simp only [Run.ok.injEq] at h5
      subst h5
      apply hpad
      split at h4
      · cases h4
        have := StandsFor_pos hst
        rcases hlen with h | h
        · exact .inl h
        · right; simp only [List.length_cons, List.length_nil]; omega
      · rw [← hpt, hsp] at h4
        cases h4
        exact hlen
  · rw [if_neg hg] at h
    obtain ⟨u, b, v, h1, h2, rfl⟩ := Step.andThen_ok.1 h
    obtain ⟨h3, rfl⟩ := run_eq h2
    rw [hsp] at h3
    simp only [Run.ok_bind, Run.ok.injEq] at h3
    subst h3
    exact hpad _ hlen _

/-- C48, the separator can be missing: with a short prefix for RDFS and a long one for RDF the
verb `rdf:type` written for `rdfs:subClassOf` ends without a space, and the object follows. -/
theorem C48_fails_separator :
    writeTurtle easyEnv.pr easyEnv.url .bare flatOptions sameOrder (fun _ => []) 0 2
      ((Graph.fromIter [.mk (.res ⟨str! "http://h/s"⟩) ⟨str! "http://www.w3.org/2000/01/rdf-schema#subClassOf"⟩
        (.res ⟨str! "http://www.w3.org/2000/01/rdf-schema#C"⟩)]).withMappings
        ((PrefixMap.empty.insert ⟨str! ":"⟩ ⟨str! "http://www.w3.org/2000/01/rdf-schema#"⟩).insert
          ⟨str! "longlong:"⟩ ⟨str! "http://www.w3.org/1999/02/22-rdf-syntax-ns#"⟩)) =
    .ok (str! "@prefix : <http://www.w3.org/2000/01/rdf-schema#> .\n@prefix longlong: <http://www.w3.org/1999/02/22-rdf-syntax-ns#> .\n\n<http://h/s>\n    longlong:type:C .\n\n") := by
  decide +kernel

/-! ### C49, the writer -/

/-- C49 for the writer: every object, at any depth, leaves the indentation as it was, and so does
every block of a subject. -/
theorem C49_writer (env : TurtleEnv) (hfair : env.orders.Fair) (n w : Nat) :
    (∀ f o d t e, writeObject env n w f o d = .ok (t, e) → e = d) ∧
    (∀ s d t e, env.graph.containsSubject s → writeBlock env n w s d = .ok (t, e) → e = d) := by
  refine ⟨fun f o d t e h => writeObject_keeps hfair n w f o d t e h, fun s d t e hs h => ?_⟩
  obtain ⟨t₁, e₁, t₂, h1, h2, -⟩ := Step.andThen_ok.1 h
  obtain ⟨-, rfl⟩ := text_eq h2
  obtain ⟨t₃, e₂, t₄, h3, h4, -⟩ := Step.andThen_ok.1 h1
  have hk := writePredicates_keeps (writeObject_keeps hfair n) hfair hs h4
  obtain ⟨t₅, e₃, t₆, h5, h6, -⟩ := Step.andThen_ok.1 h3
  obtain ⟨-, rfl⟩ := indent_eq h6
  have : e₃ = d := by
    cases s with
    | blank b =>
      simp only at h5
      split at h5
      · simp only [Run.ok.injEq, Prod.mk.injEq] at h5; exact h5.2.symm
      · exact (nop_eq h5).2
    | res i => exact (run_eq h5).2
    | stmt s => simp at h5
  omega

/-! ### C67 -/

/-- C67, the full statement: whatever the options, every graph whose parts can be printed is
written. -/
def C67_statement : Prop :=
  ∀ env : TurtleEnv, env.orders.Fair → GraphPrints env → 0 < env.opts.width →
    ∃ n x, writeTriples env n 0 = .ok x

/-- C67, exactly when: with nested blank nodes, the writer ends if and only if no blank node
starts an endless chain; otherwise it goes deeper than any bound. -/
theorem C67_ends_iff (env : TurtleEnv) (hfair : env.orders.Fair) (hg : GraphPrints env)
    (hw : 0 < env.opts.width) (hn : env.opts.nest = true) :
    (∃ n x, writeTriples env n 0 = .ok x) ↔ NoEndlessChain env.graph := by
  constructor
  · rintro ⟨n, x, h⟩ b
    by_contra hb
    obtain ⟨c, hc, hac⟩ : ∃ c, Points env.graph c b ∧ ¬ Acc (Points env.graph) c := by
      by_contra hx
      exact hb ⟨b, fun c hc => by by_contra hac; exact hx ⟨c, hc, hac⟩⟩
    obtain ⟨⟨p, o, hm, hbl⟩, q, o', hm'⟩ := hc
    obtain ⟨d, y, hblk⟩ := writeTriples_block hfair h (containsSubject_iff.2 ⟨p, o, hm⟩)
    have hwo := (writeBlock_wrote hfair hblk).2 p o hm
    obtain ⟨m, -, hwc⟩ := wrote_inside hbl hwo
    exact endless hfair hn m (containsSubject_iff.2 ⟨q, o', hm'⟩) hac hwc
  · intro hch
    obtain ⟨n, h⟩ := writeTriples_ex hfair hg hw fun _ => hch
    obtain ⟨x, hx⟩ := h n (Nat.le_refl n)
    exact ⟨n, x, hx⟩

/-- C67, what holds without nested blank nodes, or without endless chains: every graph whose parts
can be printed is written, and more depth does no harm. -/
theorem C67_ends_partial (env : TurtleEnv) (hfair : env.orders.Fair) (hg : GraphPrints env)
    (hw : 0 < env.opts.width) (hc : env.opts.nest = true → NoEndlessChain env.graph) :
    ∃ n, ∀ m, n ≤ m → ∃ x, writeTriples env m 0 = .ok x :=
  writeTriples_ex hfair hg hw hc

/-- C67, exactly: a graph is written if and only if all its parts can be printed and, with nested blank nodes, none of them
starts an endless chain. -/
theorem C67_iff (env : TurtleEnv) (hfair : env.orders.Fair) (hw : 0 < env.opts.width) (hpad : env.opts.padding = false)
    (ht : IriPrints env rdfType) :
    (∃ n x, writeTriples env n 0 = .ok x) ↔
      (∀ s p o, Stmt.mk s p o ∈ env.graph.stmts → SubjectPrints env s ∧ IriPrints env p ∧ Printable env o) ∧
      (env.opts.nest = true → NoEndlessChain env.graph) := by
  constructor
  · rintro ⟨n, x, h⟩
    have hg := written_prints hfair hpad h
    exact ⟨hg, fun hn => (C67_ends_iff env hfair ⟨ht, hg⟩ hw hn).1 ⟨n, x, h⟩⟩
  · rintro ⟨hg, hc⟩
    obtain ⟨n, h⟩ := C67_ends_partial env hfair ⟨ht, hg⟩ hw hc
    obtain ⟨x, hx⟩ := h n (Nat.le_refl n)
    exact ⟨n, x, hx⟩

/-- A blank node that is its own value. -/
def selfGraph : Graph :=
  (Graph.fromIter [.mk (.blank (str! "b")) ⟨str! "http://a/p"⟩ (.blank (str! "b"))]).withMappings PrefixMap.empty

theorem not_acc_self {α : Type _} {r : α → α → Prop} {a : α} (h : r a a) : ¬ Acc r a := by
  intro hacc
  induction hacc with
  | intro x _ ih => exact ih x h h

/-- C67 fails for a blank node that is its own value: the recursion has no end. -/
theorem C67_fails : ¬ C67_statement := by
  intro h
  let env := easyTurtle .bare TurtleOptions.default selfGraph
  have hg : GraphPrints env := by
    refine ⟨⟨str! "<http://www.w3.org/1999/02/22-rdf-syntax-ns#type>", by decide +kernel⟩, fun s p o hm => ?_⟩
    have hm' : Stmt.mk s p o ∈ [Stmt.mk (.blank (str! "b")) ⟨str! "http://a/p"⟩ (.blank (str! "b"))] := hm
    simp only [List.mem_singleton, Stmt.mk.injEq] at hm'
    obtain ⟨rfl, rfl, rfl⟩ := hm'
    exact ⟨trivial, ⟨str! "<http://a/p>", by decide +kernel⟩, .blank _⟩
  have := h env sameOrder_fair hg (by decide)
  rw [C67_ends_iff env sameOrder_fair hg (by decide) rfl] at this
  refine not_acc_self ?_ (this (str! "b"))
  have hm : Stmt.mk (.blank (str! "b")) ⟨str! "http://a/p"⟩ (.blank (str! "b")) ∈ env.graph.stmts :=
    List.mem_singleton.2 rfl
  exact ⟨⟨_, _, hm, .self _⟩, _, _, hm⟩

/-- C67, the other hypothesis: an IRI that cannot be divided into namespace and name makes the
writer panic, here that of a URN. -/
theorem C67_panics :
    writeTriples (easyTurtle .bare flatOptions ((Graph.fromIter [.mk (.res ⟨str! "urn:x"⟩) ⟨str! "http://a/p"⟩
      (.blank (str! "b"))]).withMappings PrefixMap.empty)) 5 0 = .panic := by decide +kernel

/-! ### C68 -/

/-- What the writer has at hand for a graph without nested statements. -/
def turtleEnv (pr : Char → Bool) (url : Str → Option Iri) (opts : TurtleOptions) (o : Orders) (g : Graph) :
    TurtleEnv := ⟨pr, url, .bare, opts, g, o⟩

theorem denest_stmts {gen : Nat → Str} {k : Nat} {g : Graph} (h : ∀ t ∈ g.stmts, t.isNested = false) :
    (denest gen k g).stmts = g.stmts := by
  have h1 : g.stmts.filter Stmt.isNested = [] := by
    rw [List.filter_eq_nil_iff]; intro t ht; simp [h t ht]
  have h2 : g.stmts.filter (fun t => !t.isNested) = g.stmts := by
    rw [List.filter_eq_self]; intro t ht; simp [h t ht]
  unfold denest
  rw [h1, h2]
  rfl

/-- Which IRIs are faithful depends on the prefixes only. -/
theorem IriFaithful.congr {env : TurtleEnv} {g : Graph} (hg : g.mappings = env.graph.mappings) {i : Iri}
    (h : IriFaithful env i) : IriFaithful { env with graph := g } i := by
  obtain ⟨s, h1, h2⟩ := h
  refine ⟨s, ?_, by simpa only [hg] using h2⟩
  rw [← h1]
  unfold compressIri
  simp only [hg]
  rfl

theorem StmtFaithful.congr {env : TurtleEnv} {g : Graph} (hg : g.mappings = env.graph.mappings) {t : Stmt}
    (h : StmtFaithful env t) : StmtFaithful { env with graph := g } t := by
  obtain ⟨h1, ⟨h2, h3⟩, h4⟩ := h
  refine ⟨?_, ⟨IriFaithful.congr hg h2, h3⟩, ?_⟩
  · cases hs : t.subject with
    | blank b => rw [hs] at h1; exact h1
    | res i => rw [hs] at h1; exact IriFaithful.congr hg h1
    | stmt s => rw [hs] at h1; exact h1
  · cases ho : t.object with
    | blank b => rw [ho] at h4; exact h4
    | res i => rw [ho] at h4; exact IriFaithful.congr hg h4
    | lit l =>
      rw [ho] at h4
      obtain ⟨g1, g2, g3⟩ := h4
      exact ⟨g1, fun ty hty => ⟨(g2 ty hty).1, (g2 ty hty).2.1, (g2 ty hty).2.2.1,
        IriFaithful.congr hg (g2 ty hty).2.2.2⟩, g3⟩
    | coll c => rw [ho] at h4; exact h4
    | stmt s => rw [ho] at h4; exact h4

theorem StmtFaithful.not_nested {env : TurtleEnv} {t : Stmt} (h : StmtFaithful env t) : t.isNested = false := by
  obtain ⟨h1, -, h4⟩ := h
  unfold Stmt.isNested
  cases hs : t.subject with
  | stmt s => rw [hs] at h1; exact h1.elim
  | _ =>
    cases ho : t.object with
    | stmt s => rw [ho] at h4; exact h4.elim
    | _ => rfl

/-- C68, the full statement: the text written for a graph without nested statements or collections
whose labels are those of Turtle is read, by a reader of the W3C recommendation, as a graph of as
many triples. -/
def C68_statement (sty : IriStyle) : Prop :=
  ∀ (pr : Char → Bool) (url : Str → Option Iri) (opts : TurtleOptions) (o : Orders) (gen : Nat → Str)
    (k n : Nat) (g : Graph) (s : Str),
    AsciiPrintable pr → o.Fair → 0 < opts.width → opts.convert = [] → opts.idBase = none →
    g.mappings = PrefixMap.empty →
    (∀ t ∈ g.stmts, (∃ i, t.subject = .res i ∧ i.wf = true) ∧ t.predicate.wf = true ∧
      ∃ l, t.object = .lit l ∧ ∀ c ∈ l.lexicalForm, pr c = true) →
    writeTurtle pr url sty opts o gen k n g = .ok s →
    ∃ L, readTurtle s = some L ∧ ∀ x, x ∈ L ↔ ∃ t ∈ g.stmts, x = tripleOf t

/-- C68, what holds: when the statements are printed as they are, the text is read as exactly the
triples of the graph. -/
theorem C68_reads_back_partial (pr : Char → Bool) (url : Str → Option Iri) (opts : TurtleOptions)
    (o : Orders) (gen : Nat → Str) (k n : Nat) (g : Graph) (s : Str) (hfair : o.Fair)
    (hw : 0 < opts.width) (hc : opts.convert = []) (hm : Reachable g.mappings)
    (hd : DirectivesFaithful opts g.mappings)
    (hst : ∀ t ∈ g.stmts, StmtFaithful (turtleEnv pr url opts o g) t)
    (h : writeTurtle pr url .bare opts o gen k n g = .ok s) :
    ∃ L, readTurtle s = some L ∧ ∀ x, x ∈ L ↔ ∃ t ∈ g.stmts, x = tripleOf t := by
  have hs := denest_stmts (gen := gen) (k := k) fun t ht => StmtFaithful.not_nested (hst t ht)
  unfold writeTurtle at h
  dsimp only at h
  obtain ⟨⟨t, e⟩, h1, h2⟩ := Run.bind_ok.1 h
  simp only [Run.ok.injEq] at h2
  subst h2
  obtain ⟨t₁, e₁, t₂, h3, h4, rfl⟩ := Step.andThen_ok.1 h1
  obtain ⟨t₃, e₂, t₄, h5, h6, rfl⟩ := Step.andThen_ok.1 h3
  obtain ⟨rfl, rfl⟩ := text_eq h5
  obtain ⟨rfl, rfl⟩ := text_eq h6
  obtain ⟨d, hr, hk⟩ := directives_read hc hd (m := g.mappings) (by
    intro p i j hi hj
    have := (C10_one_to_one _ hm).2.2.2.2.2
    rw [this] at hi hj
    rw [hi] at hj
    exact Option.some.inj hj)
  obtain ⟨L, hL, hr'⟩ := writeTriples_reads (env := ⟨pr, url, .bare, opts, denest gen k g, o⟩) hfair hk hw
    (by
      intro t ht
      have ht' : t ∈ g.stmts := by rw [← hs]; exact ht
      exact StmtFaithful.congr (env := turtleEnv pr url opts o g) (g := denest gen k g) rfl (hst t ht')) h4
  refine ⟨L, ?_, ?_⟩
  · have := readTurtle_of_reads (hr.append (hr' []))
    simpa using this
  · intro x
    rw [hL]
    simp only [hs]

/-- C68, such a graph is written, when `rdf:type` can be. -/
theorem C68_written_partial (pr : Char → Bool) (url : Str → Option Iri) (opts : TurtleOptions)
    (o : Orders) (gen : Nat → Str) (k : Nat) (g : Graph) (hfair : o.Fair)
    (hw : 0 < opts.width) (ht : IriPrints (turtleEnv pr url opts o g) rdfType)
    (hst : ∀ t ∈ g.stmts, StmtFaithful (turtleEnv pr url opts o g) t) :
    ∃ n, ∀ m, n ≤ m → ∃ s, writeTurtle pr url .bare opts o gen k m g = .ok s := by
  have hs := denest_stmts (gen := gen) (k := k) fun t ht => StmtFaithful.not_nested (hst t ht)
  let env : TurtleEnv := ⟨pr, url, .bare, opts, denest gen k g, o⟩
  have hf : ∀ t ∈ env.graph.stmts, StmtFaithful env t := by
    intro t ht
    have ht' : t ∈ g.stmts := by rw [← hs]; exact ht
    exact StmtFaithful.congr (env := turtleEnv pr url opts o g) (g := denest gen k g) rfl (hst t ht')
  have hlit : ∀ l, LiteralFaithful env l → ∃ s, writeLiteral env l = .ok s := by
    rintro ⟨lex, dt, lang⟩ ⟨-, h2, -⟩
    cases dt with
    | none => cases lang <;> exact ⟨_, rfl⟩
    | some ty =>
      obtain ⟨hl, h4, -, s, h6, -⟩ := h2 ty rfl
      simp only at hl
      subst hl
      unfold writeLiteral
      simp only [h4, if_false]
      split
      · exact ⟨_, rfl⟩
      · simp only [turtleSuffix, h6]
        exact ⟨_, rfl⟩
  have hg : GraphPrints env := by
    refine ⟨?_, fun s p ob hm => ?_⟩
    · obtain ⟨s, h⟩ := ht
      refine ⟨s, ?_⟩
      rw [← h]
      rfl
    · obtain ⟨h1, ⟨⟨u, h2, -⟩, -⟩, h4⟩ := hf _ hm
      refine ⟨?_, ⟨u, h2⟩, ?_⟩
      · cases s with
        | blank b => trivial
        | res i => obtain ⟨v, hv, -⟩ := h1; exact ⟨v, hv⟩
        | stmt s => exact h1.elim
      · cases ob with
        | blank b => exact .blank b
        | res i => obtain ⟨v, hv, -⟩ := h4; exact .res i ⟨v, hv⟩
        | lit l => exact .lit l (hlit l h4)
        | coll c => exact h4.elim
        | stmt s => exact h4.elim
  have hch : env.opts.nest = true → NoEndlessChain env.graph := by
    intro hn b
    refine ⟨b, fun c hc => ?_⟩
    obtain ⟨⟨p, ob, hm, hb⟩, -⟩ := hc
    exfalso
    have h4 := (hf _ hm).2.2
    cases hb with
    | self => have := h4.1; rw [hn] at this; cases this
    | member c o b hmem hbl => exact h4
  obtain ⟨n, hn⟩ := writeTriples_ex hfair hg hw hch
  refine ⟨n, fun m hm => ?_⟩
  obtain ⟨⟨t, e⟩, hx⟩ := hn m hm
  have : ((Step.text (writeBase .bare opts) ⊹ .text (writePrefixes .bare opts g.mappings) ⊹
      writeTriples env m) 0) = .ok (writeBase .bare opts ++ writePrefixes .bare opts g.mappings ++ t, e) := by
    rw [Step.andThen_ok]
    exact ⟨_, 0, t, Step.andThen_ok.2 ⟨_, 0, _, rfl, rfl, rfl⟩, hx, rfl⟩
  refine ⟨writeBase .bare opts ++ writePrefixes .bare opts g.mappings ++ t, ?_⟩
  unfold writeTurtle
  dsimp only
  rw [this]
  rfl

/-- The hypotheses hold together, with a prefix. -/
example : ∃ g : Graph, g.stmts.length = 2 ∧ Reachable g.mappings ∧ DirectivesFaithful flatOptions g.mappings ∧
    IriPrints (turtleEnv easyEnv.pr easyEnv.url flatOptions sameOrder g) rdfType ∧
    ∀ t ∈ g.stmts, StmtFaithful (turtleEnv easyEnv.pr easyEnv.url flatOptions sameOrder g) t := by
  let m : PrefixMap := PrefixMap.empty.insert ⟨str! "e:"⟩ ⟨str! "http://a/"⟩
  let t₁ := Stmt.mk (.res ⟨str! "http://a/s"⟩) ⟨str! "http://a/p"⟩ (.lit ⟨str! "x\ny", none, some (str! "en")⟩)
  let t₂ := Stmt.mk (.blank (str! "b")) ⟨str! "http://b/p"⟩ (.blank (str! "c"))
  let g := (Graph.fromIter [t₁, t₂]).withMappings m
  refine ⟨g, rfl, .step .empty (.insert _ _), ⟨by simp [flatOptions, TurtleOptions.default], ?_⟩,
    ⟨str! "<http://www.w3.org/1999/02/22-rdf-syntax-ns#type>", by decide +kernel⟩, ?_⟩
  · have : g.mappings.mappings = [(⟨str! "e:"⟩, ⟨str! "http://a/"⟩)] := rfl
    rw [this]
    intro e he
    rw [List.mem_singleton.1 he]
    exact ⟨by decide +kernel, by decide +kernel, str! "e", by decide +kernel, rfl⟩
  · have hp : IriFaithful (turtleEnv easyEnv.pr easyEnv.url flatOptions sameOrder g) ⟨str! "http://a/p"⟩ :=
      ⟨str! "e:p", by decide +kernel, .inr ⟨str! "e", str! "p", ⟨str! "http://a/"⟩, rfl, by decide +kernel,
        by decide +kernel, List.mem_singleton.2 rfl, rfl⟩⟩
    have hs : IriFaithful (turtleEnv easyEnv.pr easyEnv.url flatOptions sameOrder g) ⟨str! "http://a/s"⟩ :=
      ⟨str! "e:s", by decide +kernel, .inr ⟨str! "e", str! "s", ⟨str! "http://a/"⟩, rfl, by decide +kernel,
        by decide +kernel, List.mem_singleton.2 rfl, rfl⟩⟩
    have hq : IriFaithful (turtleEnv easyEnv.pr easyEnv.url flatOptions sameOrder g) ⟨str! "http://b/p"⟩ :=
      ⟨str! "<http://b/p>", by decide +kernel, .inl ⟨str! "http://b/p", rfl, by decide +kernel,
        by decide +kernel⟩⟩
    intro t ht
    rcases List.mem_cons.1 (show t ∈ [t₁, t₂] from ht) with rfl | ht
    · refine ⟨hs, ⟨hp, by decide +kernel⟩, ?_, by simp, ?_⟩
      · simp only [List.mem_cons, forall_eq_or_imp, List.not_mem_nil, false_imp_iff, implies_true]
        unfold TurtleChar
        decide +kernel
      · simp only [Option.some.injEq]
        rintro _ rfl
        decide +kernel
    · rw [List.mem_singleton.1 ht]
      exact ⟨(by decide +kernel : isLabel (str! "b") = true), ⟨hq, by decide +kernel⟩, rfl,
        (by decide +kernel : isLabel (str! "c") = true)⟩

/-- A graph of one statement with a literal and no prefixes. -/
def litTurtle (l : Literal) : Graph :=
  (Graph.fromIter [.mk (.res ⟨str! "http://a/s"⟩) ⟨str! "http://a/p"⟩ (.lit l)]).withMappings PrefixMap.empty

/-- C68 fails for the way the code prints IRIs: in two pairs of brackets. -/
theorem C68_fails : ¬ C68_statement .bracketed := by
  intro h
  obtain ⟨L, hL, -⟩ := h easyEnv.pr easyEnv.url flatOptions sameOrder (fun _ => []) 0 2
    (litTurtle ⟨str! "x", none, none⟩) (str! "<<http://a/s>>\n    <<http://a/p>> \"x\" .\n\n") easyEnv_ascii
    sameOrder_fair (by decide) rfl rfl rfl (by
      intro t ht
      have ht' : t ∈ [Stmt.mk (.res ⟨str! "http://a/s"⟩) ⟨str! "http://a/p"⟩ (.lit ⟨str! "x", none, none⟩)] := ht
      rw [List.mem_singleton.1 ht']
      exact ⟨⟨_, rfl, by decide⟩, by decide, _, rfl, by decide +kernel⟩) (by decide +kernel)
  revert hL
  have : readTurtle (str! "<<http://a/s>>\n    <<http://a/p>> \"x\" .\n\n") = none := by decide +kernel
  rw [this]; simp

/-- C68 fails also with IRIs in one pair of brackets: the type of a number is lost. -/
theorem C68_fails_number : ¬ C68_statement .bare := by
  intro h
  obtain ⟨L, hL, hx⟩ := h easyEnv.pr easyEnv.url flatOptions sameOrder (fun _ => []) 0 2
    (litTurtle ⟨str! "5", some .int, none⟩) (str! "<http://a/s>\n    <http://a/p> 5 .\n\n") easyEnv_ascii
    sameOrder_fair (by decide) rfl rfl rfl (by
      intro t ht
      have ht' : t ∈ [Stmt.mk (.res ⟨str! "http://a/s"⟩) ⟨str! "http://a/p"⟩ (.lit ⟨str! "5", some .int, none⟩)] := ht
      rw [List.mem_singleton.1 ht']
      exact ⟨⟨_, rfl, by decide⟩, by decide, _, rfl, by decide +kernel⟩) (by decide +kernel)
  have h5 : readTurtle (str! "<http://a/s>\n    <http://a/p> 5 .\n\n") =
    some [⟨.iri (str! "http://a/s"), str! "http://a/p", .lit (str! "5") (xsdText (str! "integer")) none⟩] := by decide +kernel
  rw [h5] at hL
  obtain rfl := Option.some.inj hL
  have hm : Stmt.mk (.res ⟨str! "http://a/s"⟩) ⟨str! "http://a/p"⟩ (.lit ⟨str! "5", some .int, none⟩) ∈
    (litTurtle ⟨str! "5", some .int, none⟩).stmts := List.mem_singleton.2 rfl
  have := (hx _).2 ⟨_, hm, rfl⟩
  revert this
  decide +kernel

/-- C68 fails for a number that is no number of Turtle. -/
theorem C68_fails_nan :
    writeTurtle easyEnv.pr easyEnv.url .bare flatOptions sameOrder (fun _ => []) 0 2
      (litTurtle ⟨str! "NaN", some .double, none⟩) = .ok (str! "<http://a/s>\n    <http://a/p> NaN .\n\n") ∧
    readTurtle (str! "<http://a/s>\n    <http://a/p> NaN .\n\n") = none := by decide +kernel

/-- C68 fails for collections: commas stand between the members. -/
theorem C68_fails_collection :
    writeTurtle easyEnv.pr easyEnv.url .bare flatOptions sameOrder (fun _ => []) 0 3
      ((Graph.fromIter [.mk (.res ⟨str! "http://a/s"⟩) ⟨str! "http://a/p"⟩
        (.coll [.res ⟨str! "http://a/x"⟩, .res ⟨str! "http://a/y"⟩])]).withMappings PrefixMap.empty) =
      .ok (str! "<http://a/s>\n    <http://a/p> (\n        <http://a/x>, <http://a/y>\n        ) .\n\n") ∧
    readTurtle (str! "<http://a/s>\n    <http://a/p> (\n        <http://a/x>, <http://a/y>\n        ) .\n\n") = none := by decide +kernel

/-- C68 fails with nested blank nodes: a node with a label is written once with it and once
without, and the reader takes them for two. -/
theorem C68_fails_nested :
    let g := (Graph.fromIter [.mk (.res ⟨str! "http://a/s"⟩) ⟨str! "http://a/p"⟩ (.blank (str! "b")),
      .mk (.blank (str! "b")) ⟨str! "http://a/q"⟩ (.res ⟨str! "http://a/o"⟩)]).withMappings PrefixMap.empty
    let s := str! "<http://a/s>\n    <http://a/p> [\n        <http://a/q> <http://a/o>\n    ] .\n\n\n_:b\n    <http://a/q> <http://a/o> .\n\n"
    writeTurtle easyEnv.pr easyEnv.url .bare TurtleOptions.default sameOrder (fun _ => []) 0 3 g = .ok s ∧
    readTurtle s = some [⟨.fresh 0, str! "http://a/q", .iri (str! "http://a/o")⟩, ⟨.iri (str! "http://a/s"), str! "http://a/p", .fresh 0⟩,
      ⟨.blank (str! "b"), str! "http://a/q", .iri (str! "http://a/o")⟩] := by decide +kernel

/-- C68 fails for literals of the type IRI: they are read as IRIs. -/
theorem C68_fails_iri :
    writeTurtle easyEnv.pr easyEnv.url .bare flatOptions sameOrder (fun _ => []) 0 2
      (litTurtle ⟨str! "http://a/o", some .iri, none⟩) = .ok (str! "<http://a/s>\n    <http://a/p> <http://a/o> .\n\n") ∧
    readTurtle (str! "<http://a/s>\n    <http://a/p> <http://a/o> .\n\n") =
      some [⟨.iri (str! "http://a/s"), str! "http://a/p", .iri (str! "http://a/o")⟩] := by decide +kernel

/-! ### C69 -/

/-- C69, the full statement: the text does not depend on the order in which sets are visited. -/
def C69_statement : Prop :=
  ∀ (pr : Char → Bool) (url : Str → Option Iri) (sty : IriStyle) (opts : TurtleOptions) (o o' : Orders)
    (gen : Nat → Str) (k n : Nat) (g : Graph), o.Fair → o'.Fair →
    writeTurtle pr url sty opts o gen k n g = writeTurtle pr url sty opts o' gen k n g

/-- The predicates in reverse. -/
def reverseOrder : Orders := ⟨id, fun _ => List.reverse, fun _ _ => id⟩

/-- A statement between whose predicates that of its type stands. -/
def dividedGraph : Graph :=
  (Graph.fromIter [.mk (.res ⟨str! "http://a/s"⟩) ⟨str! "http://a/p"⟩ (.res ⟨str! "http://a/o"⟩),
    .mk (.res ⟨str! "http://a/s"⟩) rdfType (.res ⟨str! "http://a/o"⟩),
    .mk (.res ⟨str! "http://a/s"⟩) ⟨str! "http://a/q"⟩ (.res ⟨str! "http://a/o"⟩)]).withMappings PrefixMap.empty

theorem dividedGraph_same :
    writeTurtle easyEnv.pr easyEnv.url .bare flatOptions sameOrder (fun _ => []) 0 2 dividedGraph =
      .ok (str! "<http://a/s>\n    <http://www.w3.org/1999/02/22-rdf-syntax-ns#type> <http://a/o> ;\n    <http://a/p>                                      <http://a/o> ;\n    <http://a/q>                                      <http://a/o> .\n\n") := by
  decide +kernel

theorem dividedGraph_reverse :
    writeTurtle easyEnv.pr easyEnv.url .bare flatOptions reverseOrder (fun _ => []) 0 2 dividedGraph =
      .ok (str! "<http://a/s>\n    <http://www.w3.org/1999/02/22-rdf-syntax-ns#type> <http://a/o> ;\n    <http://a/q>                                      <http://a/o> ;\n    <http://a/p>                                      <http://a/o> .\n\n") := by
  decide +kernel

/-- C69 fails: predicates of the same group that another group divides are not sorted together. -/
theorem C69_fails : ¬ C69_statement := by
  intro h
  have := h easyEnv.pr easyEnv.url .bare flatOptions sameOrder reverseOrder (fun _ => []) 0 2 dividedGraph
    sameOrder_fair ⟨fun _ => .refl _, fun _ l => List.reverse_perm l, fun _ _ _ => .refl _⟩
  rw [dividedGraph_same, dividedGraph_reverse] at this
  have := Run.ok.inj this
  revert this
  decide +kernel

/-- C69, what holds: for statements that are printed as they are, the texts mean the same whatever
the order. -/
theorem C69_same_meaning_partial (pr : Char → Bool) (url : Str → Option Iri) (opts : TurtleOptions)
    (o o' : Orders) (gen gen' : Nat → Str) (k k' n n' : Nat) (g : Graph) (s s' : Str) (hfair : o.Fair)
    (hfair' : o'.Fair)
    (hw : 0 < opts.width) (hc : opts.convert = []) (hm : Reachable g.mappings)
    (hd : DirectivesFaithful opts g.mappings)
    (hst : ∀ t ∈ g.stmts, StmtFaithful (turtleEnv pr url opts o g) t)
    (h : writeTurtle pr url .bare opts o gen k n g = .ok s)
    (h' : writeTurtle pr url .bare opts o' gen' k' n' g = .ok s') :
    ∃ L L', readTurtle s = some L ∧ readTurtle s' = some L' ∧ ∀ x, x ∈ L ↔ x ∈ L' := by
  obtain ⟨L, h1, h2⟩ := C68_reads_back_partial pr url opts o gen k n g s hfair hw hc hm hd hst h
  obtain ⟨L', h3, h4⟩ := C68_reads_back_partial pr url opts o' gen' k' n' g s' hfair' hw hc hm hd hst h'
  exact ⟨L, L', h1, h3, fun x => by rw [h2, h4]⟩

/-! ### C70 -/

/-- C70, the full statement: after the writer has replaced a nested statement by a blank node, the
blank node has the subject of the nested statement. -/
def C70_statement : Prop :=
  ∀ (gen : Nat → Str) (k : Nat) (g : Graph) (s p a q c : Iri), Function.Injective gen →
    Stmt.mk (.res s) p (.stmt (.mk (.res a) q (.res c))) ∈ g.stmts →
    ∃ b, Stmt.mk (.res s) p (.blank b) ∈ (denest gen k g).stmts ∧
      Stmt.mk (.blank b) rdfSubject (.res a) ∈ (denest gen k g).stmts

theorem denestAll_mem {gen : Nat → Str} {n : Nat} {l : List Stmt} {t : Stmt} (h : t ∈ l) :
    ∃ m, n ≤ m ∧ Stmt.mk t.subject t.predicate (.blank (gen m)) ∈ (denestAll gen n l).1 ∧
      ∀ x ∈ (t.reify gen m).1, x ∈ (denestAll gen n l).1 := by
  induction l generalizing n with
  | nil => simp at h
  | cons u l ih =>
    simp only [denestAll]
    rcases List.mem_cons.1 h with rfl | h
    · exact ⟨n, Nat.le_refl n, by simp, fun x hx => by simp [hx]⟩
    · obtain ⟨m, h1, h2, h3⟩ := ih (n := (u.reify gen n).2) h
      have : n ≤ (u.reify gen n).2 := by
        rw [Stmt.reify_count]; omega
      exact ⟨m, Nat.le_trans this h1, by simp [h2], fun x hx => by simp [h3 x hx]⟩

/-- C70 in general: the blank node that replaces the nested statement has the subject and the
predicate of the statement around it. -/
theorem C70_outer (gen : Nat → Str) (k : Nat) (g : Graph) (s : Subject) (p : Iri) (u : Stmt)
    (hs : s.isStatement = false) (h : Stmt.mk s p (.stmt u) ∈ g.stmts) :
    ∃ b, Stmt.mk s p (.blank b) ∈ (denest gen k g).stmts ∧
      Stmt.mk (.blank b) rdfSubject s.toObject ∈ (denest gen k g).stmts ∧
      Stmt.mk (.blank b) rdfPredicate (.res p) ∈ (denest gen k g).stmts := by
  have hn : (Stmt.mk s p (.stmt u)).isNested = true := by simp [Stmt.isNested, Stmt.object, Object.isStatement]
  obtain ⟨m, -, h1, h2⟩ := denestAll_mem (gen := gen) (n := k) (List.mem_filter.2 ⟨h, hn⟩)
  have hmem : ∀ x ∈ (denestAll gen k (g.stmts.filter Stmt.isNested)).1, x ∈ (denest gen k g).stmts := by
    intro x hx
    show x ∈ _ ++ _
    exact List.mem_append_left _ hx
  refine ⟨gen m, hmem _ h1, hmem _ (h2 _ ?_), hmem _ (h2 _ ?_)⟩
  · rw [Stmt.reify_eq]
    cases s with
    | blank b => simp [Subject.refObj, Subject.toObject]
    | res i => simp [Subject.refObj, Subject.toObject]
    | stmt t => simp [Subject.isStatement] at hs
  · rw [Stmt.reify_eq]; simp

/-- C70 fails. -/
theorem C70_fails : ¬ C70_statement := by
  intro h
  let gen : Nat → Str := fun n => List.replicate n 'x'
  obtain ⟨b, h1, h2⟩ := h gen 0
    (Graph.fromIter [.mk (.res ⟨str! "http://a/s"⟩) ⟨str! "http://a/p"⟩
      (.stmt (.mk (.res ⟨str! "http://a/a"⟩) ⟨str! "http://a/q"⟩ (.res ⟨str! "http://a/c"⟩)))])
    ⟨str! "http://a/s"⟩ ⟨str! "http://a/p"⟩ ⟨str! "http://a/a"⟩ ⟨str! "http://a/q"⟩ ⟨str! "http://a/c"⟩
    (fun a b hab => by simpa [gen] using congrArg List.length hab) (List.mem_singleton.2 rfl)
  have e : (denest gen 0 (Graph.fromIter [.mk (.res ⟨str! "http://a/s"⟩) ⟨str! "http://a/p"⟩
      (.stmt (.mk (.res ⟨str! "http://a/a"⟩) ⟨str! "http://a/q"⟩ (.res ⟨str! "http://a/c"⟩)))])).stmts =
    ((Stmt.mk (.res ⟨str! "http://a/s"⟩) ⟨str! "http://a/p"⟩
      (.stmt (.mk (.res ⟨str! "http://a/a"⟩) ⟨str! "http://a/q"⟩ (.res ⟨str! "http://a/c"⟩)))).reify gen 0).1 ++
      [.mk (.res ⟨str! "http://a/s"⟩) ⟨str! "http://a/p"⟩ (.blank [])] := rfl
  rw [e] at h1 h2
  simp [Stmt.reify, Subject.reify, Object.reify, gen] at h1 h2
  have hne : rdfSubject ≠ rdfType := by decide +kernel
  clear e h; grind

/-- C70, a consequence: a statement about a blank node with a nested object is never written with
nested blank nodes, its replacement points back. -/
theorem C70_endless (env : TurtleEnv) (gen : Nat → Str) (k : Nat) (g : Graph) (b : Str) (p : Iri) (u : Stmt)
    (hfair : env.orders.Fair) (hn : env.opts.nest = true) (hg : env.graph = denest gen k g)
    (h : Stmt.mk (.blank b) p (.stmt u) ∈ g.stmts) (n : Nat) (x : Str × Nat) :
    writeTriples env n 0 ≠ .ok x := by
  intro hw
  obtain ⟨c, h1, h2, -⟩ := C70_outer gen k g (.blank b) p u rfl h
  rw [← hg] at h1 h2
  have hc : Points env.graph c b := ⟨⟨_, _, h1, .self _⟩, _, _, h2⟩
  have hb : Points env.graph b c := ⟨⟨_, _, h2, .self _⟩, _, _, h1⟩
  have hacc : ¬ Acc (Points env.graph) c := by
    intro ha
    have key : ∀ y, Acc (Points env.graph) y → y ≠ b ∧ y ≠ c := by
      intro y hy
      induction hy with
      | intro y _ ih =>
        constructor
        · rintro rfl; exact (ih c hc).2 rfl
        · rintro rfl; exact (ih b hb).1 rfl
    exact (key c ha).2 rfl
  obtain ⟨d, y, hblk⟩ := writeTriples_block hfair hw (containsSubject_iff.2 ⟨_, _, h1⟩)
  have hwo := (writeBlock_wrote hfair hblk).2 _ _ h1
  exact endless hfair hn n (containsSubject_iff.2 ⟨_, _, h2⟩) hacc hwo

/-- C70, the other case: a statement with a nested subject is never written at all. -/
theorem C70_nested_subject (env : TurtleEnv) (gen : Nat → Str) (k : Nat) (g : Graph) (u : Stmt) (p : Iri)
    (ob : Object) (hfair : env.orders.Fair) (hg : env.graph = denest gen k g)
    (h : Stmt.mk (.stmt u) p ob ∈ g.stmts) (n : Nat) (x : Str × Nat) : writeTriples env n 0 ≠ .ok x := by
  intro hw
  have hnest : (Stmt.mk (.stmt u) p ob).isNested = true := by
    simp [Stmt.isNested, Stmt.subject, Subject.isStatement]
  obtain ⟨m, -, h1, -⟩ := denestAll_mem (gen := gen) (n := k) (List.mem_filter.2 ⟨h, hnest⟩)
  have hm : Stmt.mk (.stmt u) p (.blank (gen m)) ∈ env.graph.stmts := by
    rw [hg]
    show _ ∈ _ ++ _
    exact List.mem_append_left _ h1
  obtain ⟨d, y, hblk⟩ := writeTriples_block hfair hw (containsSubject_iff.2 ⟨_, _, hm⟩)
  obtain ⟨d, y, hsub⟩ := (writeBlock_wrote hfair hblk).1
  obtain ⟨⟨_, h2⟩, -⟩ := Step.andThen_ok' hsub
  simp at h2

end Rdftk
