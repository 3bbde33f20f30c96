import Verif.Props.Convert
import Verif.Props.NTMeaning
import Verif.Props.TurtleNested
import Verif.Props.TurtleIri

/-! Turtle converted from N-Triples: C153. -/

namespace Rdftk
open Spec

/-- What is known of IRIs that are parsed: they have a scheme and the characters that the crate leaves as they are. -/
structure WebUrl (url : Str → Option Iri) : Prop where
  parsed : ∀ t i, url t = some i → i.wf = true ∧ hasScheme i.text = true
  type : url rdfType.text = some rdfType

/-- The IRIs of a statement without nested statement or collection. -/
def irisOf (t : Stmt) : List Iri :=
  (match t.subject with | .res i => [i] | _ => []) ++ t.predicate ::
    (match t.object with | .res i => [i] | .lit l => (l.dataType.map DataType.asIri).toList | _ => [])

/-- The prefixes of a new graph. -/
def newPrefixes : List (Namespace × Iri) :=
  [(⟨str! "owl:"⟩, ⟨str! "http://www.w3.org/2002/07/owl#"⟩),
   (⟨str! "rdf:"⟩, ⟨str! "http://www.w3.org/1999/02/22-rdf-syntax-ns#"⟩),
   (⟨str! "rdfs:"⟩, ⟨str! "http://www.w3.org/2000/01/rdf-schema#"⟩),
   (⟨str! "xsd:"⟩, ⟨str! "http://www.w3.org/2001/XMLSchema#"⟩)]

theorem defaultMappings_list : Graph.default.mappings.mappings = newPrefixes := by decide +kernel

theorem defaultMappings_reachable : Reachable Graph.default.mappings := by
  have : ∃ m, PrefixMap.default = some m := by
    cases h : PrefixMap.default with
    | some m => exact ⟨m, rfl⟩
    | none =>
      have : (PrefixMap.default.isSome) = true := by decide +kernel
      rw [h] at this; cases this
  obtain ⟨m, hm⟩ := this
  have : Graph.default.mappings = m := by simp [Graph.default, defaultMappings, hm]
  rw [this]
  exact .default hm

theorem defaultMappings_faithful : DirectivesFaithful TurtleOptions.default Graph.default.mappings := by
  refine ⟨by simp [TurtleOptions.default], ?_⟩
  rw [defaultMappings_list]
  have : ∀ e ∈ newPrefixes, hasScheme e.2.text = true ∧ (∀ c ∈ e.2.text, iriChar c = true) ∧
    isPrefix e.1.text.dropLast = true ∧ e.1.text = e.1.text.dropLast ++ [':'] := by decide +kernel
  intro e he
  obtain ⟨h1, h2, h3, h4⟩ := this e he
  exact ⟨h1, h2, _, h3, h4⟩

theorem plain_iriChar {c : Char} (h : IriPlain c) : iriChar c = true := by
  simp [iriChar, h.1, h.2]

/-- With the prefixes of a new graph and the options of the code every IRI is written as what stands for it. -/
theorem iri_default {env : TurtleEnv} {i : Iri} (hs : env.sty = .bare) (ho : env.opts = TurtleOptions.default)
    (hg : env.graph.mappings = Graph.default.mappings) (hc : ∀ c ∈ i.text, IriPlain c) (hu : env.url i.text = some i)
    (hw : i.wf = true) (hsch : hasScheme i.text = true) (hp : i.split ≠ .panic) : IriFaithful env i := by
  have hrel : turtleRelative env i.text = none := by simp [turtleRelative, ho, TurtleOptions.default]
  have hch : ∀ c ∈ i.text, iriChar c = true := fun c h => plain_iriChar (hc c h)
  have hfrom : Iri.fromStr env.url i.text = some i := by
    unfold Iri.fromStr
    have : (startsWith i.text '<' && endsWith i.text '>') = false := by
      rw [Bool.eq_false_iff]
      intro he
      simp only [Bool.and_eq_true] at he
      obtain ⟨t, ht⟩ := startsWith_iff.1 he.1
      have := hch '<' (by rw [ht]; simp)
      rw [not_iriChar_bracket] at this; cases this
    rw [this]
    simpa using hu
  have hconv : env.opts.convert = [] := by rw [ho]; rfl
  have : ∃ s, compressIri env i = .ok s := by
    unfold compressIri
    rw [hs]
    simp only [Iri.fmt, hrel, hconv, convertAll, hfrom]
    cases e : env.graph.mappings.compress i with
    | panic =>
      exfalso
      unfold PrefixMap.compress at e
      split at e
      · rename_i h; exact hp h
      · cases e
      · split at e <;> cases e
    | ok q => cases q <;> exact ⟨_, rfl⟩
  obtain ⟨s, h⟩ := this
  refine ⟨s, h, (C46_absolute_iff env i s hs hconv hrel (by rw [hg]; exact defaultMappings_reachable) ?_ hw hsch hch hu h).2 ?_⟩
  · rw [hg, defaultMappings_list]; decide +kernel
  · intro q hq
    unfold PrefixMap.compress at hq
    split at hq
    · cases hq
    · cases hq
    · rename_i ns n hsp
      split at hq
      · cases hq
      · rename_i p hpp
        simp only [Outcome.ok.injEq, Option.some.injEq] at hq
        have hmem := mem_mappings (by rw [hg]; exact defaultMappings_reachable) hpp
        rw [hg, defaultMappings_list] at hmem
        refine ⟨fun hf => ?_, ?_⟩
        · obtain ⟨d, -, he, -, hns, hqn, -⟩ := split_path_branch (.inr hf) hsp
          have hall : ∀ e ∈ newPrefixes, e.2.text.dropLast.getLast? ≠ some '/' := by decide +kernel
          refine hall _ hmem ?_
          obtain ⟨d', hd'⟩ : ∃ d', d = d' ++ ['/'] := by
            rw [endsWith_iff] at he
            exact he
          have hslash : ∀ f : Char → Bool, f '/' = false → pctEncode f (d' ++ ['/']) = pctEncode f d' ++ ['/'] := by
            intro f hf'
            simp [pctEncode, hf']
          have hesc : (if i.isOpaque then isCtlOrNonAscii else isPathEscaped) '/' = false := by
            cases i.isOpaque <;> decide +kernel
          simp only [hns, Iri.withNewPath, hf, hqn, withSep, List.append_nil, hd']
          rw [hslash _ hesc, List.dropLast_concat, ← List.append_assoc, List.getLast?_concat]
        · have : ∀ e ∈ newPrefixes,
            isPrefix e.1.text.dropLast = true ∧ e.1.text = e.1.text.dropLast ++ [':'] := by decide +kernel
          rw [← hq]
          exact ⟨_, (this _ hmem).1, (this _ hmem).2⟩

theorem inRanges_of {rs : List (Nat × Nat)} {c : Char} (h : InRanges rs c) : inRanges rs c = true := by
  obtain ⟨r, hr, h1, h2⟩ := h
  simp only [inRanges, List.any_eq_true, Bool.and_eq_true, decide_eq_true_eq]
  exact ⟨r, hr, h1, h2⟩

theorem pnU_of {c : Char} (h : PN_CHARS_U c) : pnU c = true := by
  rcases h with h | rfl
  · simp [pnU, pnBase, inRanges_of h]
  · decide

theorem pnChar_of {c : Char} (h : PN_CHARS c) : pnChar c = true := by
  rcases h with h | rfl | h | h
  · simp [pnChar, pnU_of h]
  · decide
  · simp [pnChar, digit, inRanges_of h]
  · simp [pnChar, inRanges_of h]

theorem isLabel_of {l : Str} (h : Label l) : isLabel l = true := by
  obtain ⟨⟨c, hc, e⟩, -⟩ := h
  have h0 : (pnU c || digit c) = true := by
    rcases hc with hc | hc
    · simp [pnU_of hc]
    · simp [digit, inRanges_of hc]
  rcases e with rfl | ⟨m, d, rfl, h1, h2⟩
  · simp [isLabel, dotted, h0]
  · have hd : d ≠ '.' := by
      rintro rfl
      exact absurd (pnChar_of h2) (by decide)
    have ha : ∀ x ∈ m ++ [d], (pnChar x || x == '.') = true := by
      intro x hx
      rcases List.mem_append.1 hx with hx | hx
      · rcases h1 x hx with h | rfl
        · simp [pnChar_of h]
        · decide
      · rw [List.mem_singleton.1 hx]; simp [pnChar_of h2]
    simp only [isLabel, List.cons_append, dotted, h0, Bool.true_and, Bool.and_eq_true, List.all_eq_true, bne_iff_ne, ne_eq]
    refine ⟨ha, ?_⟩
    rw [List.getLast?_concat]
    simpa using hd

theorem splitDash_append (a r : Str) (ha : '-' ∉ a) : isTag.splitDash (a ++ '-' :: r) = a :: isTag.splitDash r := by
  induction a with
  | nil => simp [isTag.splitDash]
  | cons c a ih =>
    rw [List.mem_cons, not_or] at ha
    rw [List.cons_append, isTag.splitDash, if_neg (Ne.symm ha.1), ih ha.2]

theorem splitDash_none (a : Str) (ha : '-' ∉ a) : isTag.splitDash a = [a] := by
  induction a with
  | nil => rfl
  | cons c a ih =>
    rw [List.mem_cons, not_or] at ha
    rw [isTag.splitDash, if_neg (Ne.symm ha.1), ih ha.2]

theorem splitDash_tag (a : Str) (subs : List Str) (ha : '-' ∉ a) (hs : ∀ t ∈ subs, '-' ∉ t) :
    isTag.splitDash (a ++ subs.flatMap fun t => '-' :: t) = a :: subs := by
  induction subs generalizing a with
  | nil => simpa using splitDash_none a ha
  | cons t subs ih =>
    rw [List.flatMap_cons, List.cons_append, splitDash_append _ _ ha, ih t (hs t (by simp)) fun u hu => hs u (by simp [hu])]

theorem isTag_of {g : Str} (h : LangTag g) : isTag g = true := by
  obtain ⟨a, subs, rfl, h1, h2, h3⟩ := h
  have al : ∀ {c}, Alpha c → alpha c = true := fun h => inRanges_of h
  have dash : alpha '-' = false ∧ digit '-' = false := by decide
  have hn : '-' ∉ a := fun h => by have := al (h2 _ h); rw [dash.1] at this; cases this
  have an : ∀ {c}, Alnum c → (alpha c || digit c) = true := by
    rintro c (h | h)
    · simp [al h]
    · simp [digit, inRanges_of h]
  have hs : ∀ t ∈ subs, '-' ∉ t := fun t ht h => by
    have := an ((h3 t ht).2 _ h)
    rw [dash.1, dash.2] at this; cases this
  unfold isTag
  rw [splitDash_tag a subs hn hs]
  simp only [List.head?_cons, Option.any_some, List.tail_cons, Bool.and_eq_true, List.all_eq_true, Bool.not_eq_true',
    List.isEmpty_eq_false_iff]
  exact ⟨⟨h1, fun c hc => al (h2 c hc)⟩, fun t ht => ⟨(h3 t ht).1, fun c hc => an ((h3 t ht).2 c hc)⟩⟩

theorem escape_turtleChar {pr : Char → Bool} (hp : AsciiPrintable pr) {a : Str} (h : Printed pr a) :
    ∀ c ∈ escapeString pr a, TurtleChar pr c := by
  intro c hc
  obtain ⟨x, hx, hc⟩ := List.mem_flatMap.1 hc
  have asc : ∀ c ∈ (str! "trn"), TurtleChar pr c := by
    intro c hc
    refine .inr ⟨?_, hp c ?_ ?_⟩ <;> revert c <;> decide
  have low : ∀ c ∈ (str! "\\\""), TurtleChar pr c := fun c hc => .inl (by revert c; decide)
  have hx := h x hx
  unfold escapeChar at hc
  split at hc
  · rename_i h0; subst h0
    rcases hx with ⟨-, h⟩ | h
    · exact absurd rfl h
    · exact absurd h (by decide)
  have pair : ∀ y, c ∈ ['\\', y] → TurtleChar pr y → TurtleChar pr c := by
    intro y hc hy
    simp only [List.mem_cons, List.not_mem_nil, or_false] at hc
    rcases hc with rfl | rfl
    · exact low _ (by decide)
    · exact hy
  split at hc
  · exact pair _ hc (asc _ (by decide))
  split at hc
  · exact pair _ hc (asc _ (by decide))
  split at hc
  · exact pair _ hc (asc _ (by decide))
  split at hc
  · exact pair _ hc (low _ (by decide))
  split at hc
  · exact pair _ hc (low _ (by decide))
  split at hc
  · rename_i h0 _ _ _ _ _ hpr
    rw [List.mem_singleton.1 hc]
    exact .inr ⟨h0, hpr⟩
  · rename_i h1 h2 h3 _ _ hpr
    rcases hx with ⟨h, -⟩ | h
    · exact absurd h hpr
    · simp only [List.mem_cons, List.not_mem_nil, or_false] at h
      rcases h with h | h | h
      · exact absurd h h1
      · exact absurd h h2
      · exact absurd h h3

/-- What is read from N-Triples are literals with characters that Turtle can say. -/
theorem readNt_chars {env : ReadEnv} (hpr : AsciiPrintable env.pr) {s : Str} {g : Graph} (hp : Printed env.pr s)
    (h : readNt env s = .ok g) {x : Subject} {p : Iri} {l : Literal} (hst : Stmt.mk x p (.lit l) ∈ g.stmts) :
    (∀ c ∈ l.lexicalForm, TurtleChar env.pr c) ∧ (∀ t, l.dataType = some t → ∃ i, t = .other i) ∧
      (l.dataType = none ∨ l.language = none) := by
  unfold readNt at h
  split at h
  · cases h
  · rename_i ls e
    rcases evalTriples_mem ls _ _ h _ hst with h1 | ⟨m, hm, h1⟩
    · cases h1
    · refine ⟨?_, evalTriple_literal h1⟩
      obtain ⟨t, ht, hs⟩ := linesText_mem (C71_accepted_partial s ls e) m hm
      obtain ⟨ms, mp, mo, mg⟩ := m
      obtain ⟨a, -, h1⟩ := Res.bind_ok h1
      obtain ⟨b, -, h1⟩ := Res.bind_ok h1
      obtain ⟨y, h2, h1⟩ := Res.bind_ok h1
      cases h1
      cases mo with
      | node n =>
        obtain ⟨y, -, h2⟩ := Res.bind_ok h2
        cases y <;> cases h2
      | lit a x =>
        have hin : ∀ c ∈ a, c ∈ s := by
          intro c hc
          obtain ⟨-, u, g, ⟨-, s', g1, g2, o, -, -, -, ⟨-, v, -, rfl⟩, rfl⟩, -, rfl⟩ := ht
          exact hs c (by simp [hc])
        have := escape_turtleChar hpr (a := a) fun c hc => hp c (hin c hc)
        obtain ⟨y, h3, h2⟩ := Res.bind_ok h2
        cases h2
        cases x with
        | none => cases h3; exact this
        | lang => obtain ⟨z, -, h3⟩ := Res.bind_ok h3; cases h3; exact this
        | type => obtain ⟨z, -, h3⟩ := Res.bind_ok h3; cases h3; exact this

/-- The predicates that are written as another are not shorter than it, with the prefixes of a new graph. -/
theorem mistyped_room {env : TurtleEnv} (hs : env.sty = .bare) (ho : env.opts = TurtleOptions.default)
    (hg : env.graph.mappings = Graph.default.mappings) (hu : env.url rdfType.text = some rdfType) {p : Iri}
    (hp : p ∈ mistyped) (hup : env.url p.text = some p) (s s' : Str) (h : compressIri env rdfType = .ok s)
    (h' : compressIri env p = .ok s') : byteLen s ≤ byteLen s' := by
  have key : ∀ i ∈ rdfType :: mistyped, env.url i.text = some i → compressIri env i =
      match Graph.default.mappings.compress i with
      | .panic => .panic
      | .ok Option.none => .ok ('<' :: i.text ++ ['>'])
      | .ok (some q) => .ok q.display := by
    intro i hi hu
    have hrel : turtleRelative env i.text = none := by simp [turtleRelative, ho, TurtleOptions.default]
    have hconv : env.opts.convert = [] := by rw [ho]; rfl
    have hst : ∀ i ∈ rdfType :: mistyped, startsWith i.text '<' = false := by decide +kernel
    have hfrom : Iri.fromStr env.url i.text = some i := by
      unfold Iri.fromStr
      rw [hst i hi]
      simpa using hu
    unfold compressIri
    rw [hs]
    simp only [Iri.fmt, hrel, hconv, convertAll, hfrom, hg]
    cases Graph.default.mappings.compress i with
    | panic => rfl
    | ok q => cases q <;> rfl
  rw [key _ (by simp) hu] at h
  rw [key _ (List.mem_cons_of_mem _ hp) hup] at h'
  have e1 : Graph.default.mappings.compress rdfType = .ok (some ⟨⟨str! "rdf:"⟩, ⟨str! "type"⟩⟩) := by decide +kernel
  rw [e1] at h
  cases h
  have e2 : ∀ p ∈ mistyped, ∃ n ∈ [(⟨⟨str! "rdfs:"⟩, ⟨str! "subClassOf"⟩⟩ : LocalName), ⟨⟨str! "rdfs:"⟩, ⟨str! "subPropertyOf"⟩⟩,
      ⟨⟨str! "owl:"⟩, ⟨str! "equivalentClass"⟩⟩], Graph.default.mappings.compress p = .ok (some n) := by decide +kernel
  obtain ⟨n, hn, e2⟩ := e2 p hp
  rw [e2] at h'
  cases h'
  clear e2
  revert n
  decide +kernel

/-- Converted to Turtle, what was read from N-Triples can be read. -/
theorem readNt_readable {env : ReadEnv} (he : StrictEnv env) (hw : WebUrl env.url) (hpr : AsciiPrintable env.pr)
    (o : Orders) {s : Str} {g : Graph} (hp : Printed env.pr s) (h : readNt env s = .ok g)
    (hsp : ∀ t ∈ g.stmts, ∀ i ∈ irisOf t, i.split ≠ .panic) :
    ∀ t ∈ g.stmts, StmtReadable (turtleEnv env.pr env.url TurtleOptions.default o g) t ∧ tripleSays t = tripleOf t := by
  intro t ht
  have hg : g.mappings = Graph.default.mappings := (readNt_fresh h).nameless.2
  have iri : ∀ i ∈ irisOf t, IriGood env i → IriFaithful (turtleEnv env.pr env.url TurtleOptions.default o g) i := by
    intro i hi hgood
    have := hw.parsed _ _ hgood.2
    exact iri_default rfl rfl hg hgood.1 hgood.2 this.1 this.2 (hsp t ht i hi)
  obtain ⟨a, b, -, z⟩ := readNt_strict he h t ht
  have z := z hp
  refine ⟨⟨?_, ⟨iri _ (by simp [irisOf]) b, fun hm => ⟨?_, fun s s' h1 h2 => ?_⟩⟩, ?_⟩, ?_⟩
  · cases e : t.subject with
    | blank l => rw [e] at a; exact isLabel_of a.1
    | res i => rw [e] at a; exact iri i (by simp [irisOf, e]) a
    | stmt y => rw [e] at a; exact a.elim
  · refine iri_default rfl rfl hg ?_ hw.type (hw.parsed _ _ hw.type).1 (hw.parsed _ _ hw.type).2 (by decide +kernel)
    have : ∀ c ∈ rdfType.text, 0x20 < c.toNat ∧ c ∉ (str! "<>\"{}|^`\\") := by decide +kernel
    exact this
  · exact mistyped_room (env := turtleEnv env.pr env.url TurtleOptions.default o g) rfl rfl hg hw.type hm b.2 s s' h1 h2
  · cases e : t.object with
    | blank l => rw [e] at z; exact isLabel_of z.1
    | res i => rw [e] at z; exact iri i (by simp [irisOf, e]) z
    | coll c => rw [e] at z; exact z.elim
    | stmt y => rw [e] at z; exact z.elim
    | lit l =>
      rw [e] at z
      have hc := readNt_chars hpr hp h (x := t.subject) (p := t.predicate) (l := l) (by rw [← e]; cases t; exact ht)
      refine .inl ⟨hc.1, fun d hd => ⟨?_, (z.2.2.2 d hd).1, (z.2.2.2 d hd).2 rfl, iri _ (by simp [irisOf, e, hd]) (z.2.1 d hd)⟩,
        fun k hk => isTag_of (z.2.2.1 k hk).1⟩
      rcases hc.2.2 with h | h
      · rw [h] at hd; cases hd
      · exact h
  · have : objectSays t.object = objectNode t.object := by
      cases e : t.object with
      | lit l =>
        have hc := readNt_chars hpr hp h (x := t.subject) (p := t.predicate) (l := l) (by rw [← e]; cases t; exact ht)
        simp only [objectSays, objectNode, literalSays]
        split
        · rename_i d hd
          obtain ⟨i, rfl⟩ := hc.2.1 d hd
          rw [if_neg (by simp [bareTypes])]
        · rfl
      | _ => rfl
    simp only [tripleSays, tripleOf, this]

theorem convert_turtle {e : CliEnv} {s out : Str} {g : Graph} {source : Representation} (h : cliRead e s source = .ok g)
    (ho : cliMain e s (.convert source .turtle) = .success out) :
    writeTurtle e.read.pr e.read.url e.sty TurtleOptions.default e.orders e.gen e.startWrite e.deep g = .ok out := by
  simp only [cliMain, h, Run.bind, cliWrite] at ho
  cases hw : writeTurtle e.read.pr e.read.url e.sty TurtleOptions.default e.orders e.gen e.startWrite e.deep g with
  | ok t => rw [hw] at ho; simpa [Run.exit] using ho
  | err => rw [hw] at ho; simp [Run.exit] at ho
  | panic => rw [hw] at ho; simp [Run.exit] at ho
  | deep => rw [hw] at ho; simp [Run.exit] at ho

/-- An IRI that is printed without options can be divided. -/
theorem prints_split {env : TurtleEnv} {renv : ReadEnv} (hs : env.sty = .bare) (ho : env.opts = TurtleOptions.default)
    (hu : env.url = renv.url) {i : Iri} (hi : IriGood renv i) (h : IriPrints env i) : i.split ≠ .panic := by
  obtain ⟨s, h⟩ := h
  have hrel : turtleRelative env i.text = none := by simp [turtleRelative, ho, TurtleOptions.default]
  have hconv : env.opts.convert = [] := by rw [ho]; rfl
  have hfrom : Iri.fromStr env.url i.text = some i := by
    unfold Iri.fromStr
    have : (startsWith i.text '<' && endsWith i.text '>') = false := by
      rw [Bool.eq_false_iff]
      intro he
      simp only [Bool.and_eq_true] at he
      obtain ⟨t, ht⟩ := startsWith_iff.1 he.1
      have := (hi.1 '<' (by rw [ht]; simp)).2
      simp at this
    rw [this, hu]
    simpa using hi.2
  intro hp
  unfold compressIri at h
  rw [hs] at h
  simp only [Iri.fmt, hrel, hconv, convertAll, hfrom, PrefixMap.compress, hp] at h
  cases h

theorem simple_notNested {t : Stmt} (h : simple t = true) : t.isNested = false := by
  obtain ⟨a, p, b⟩ := t
  cases a <;> cases b <;> first | rfl | (revert h; simp [simple, simpleSubject, simpleObject, Stmt.subject, Stmt.object])

/-- What was written as Turtle without options has IRIs that can be divided. -/
theorem written_split {env : ReadEnv} {o : Orders} {gen : Nat → Str} {k n : Nat} {g : Graph} {out : Str} (ho : o.Fair)
    (h : writeTurtle env.pr env.url .bare TurtleOptions.default o gen k n g = .ok out)
    (hs : ∀ t ∈ g.stmts, simple t = true) (hi : ∀ t ∈ g.stmts, ∀ i ∈ irisOf t, IriGood env i)
    (hl : ∀ t ∈ g.stmts, ∀ l, t.object = .lit l → l.dataType = none ∨ l.language = none) :
    ∀ t ∈ g.stmts, ∀ i ∈ irisOf t, i.split ≠ .panic := by
  have hd : (denest gen k g).stmts = g.stmts := denest_stmts fun t ht => simple_notNested (hs t ht)
  obtain ⟨x, hx⟩ : ∃ x, writeTriples ⟨env.pr, env.url, .bare, TurtleOptions.default, denest gen k g, o⟩ n 0 = .ok x := by
    simp only [writeTurtle, Step.andThen, Step.text, Run.bind] at h
    cases e : writeTriples ⟨env.pr, env.url, .bare, TurtleOptions.default, denest gen k g, o⟩ n 0 with
    | ok x => exact ⟨x, rfl⟩
    | err => simp [e] at h
    | panic => simp [e] at h
    | deep => simp [e] at h
  rintro ⟨a, p, b⟩ ht i hi'
  have hg := hi _ ht i hi'
  obtain ⟨h1, h2, h3⟩ := written_prints ho rfl hx a p b (by rw [hd]; exact ht)
  have key : IriPrints ⟨env.pr, env.url, .bare, TurtleOptions.default, denest gen k g, o⟩ i → i.split ≠ .panic :=
    prints_split rfl rfl rfl hg
  simp only [irisOf, Stmt.subject, Stmt.predicate, Stmt.object, List.mem_append, List.mem_cons] at hi'
  rcases hi' with hi' | rfl | hi'
  · cases a with
    | res j => rw [List.mem_singleton] at hi'; subst hi'; exact key h1
    | _ => cases hi'
  · exact key h2
  · cases b with
    | res j =>
      rw [List.mem_singleton] at hi'
      subst hi'
      cases h3 with
      | res _ h3 => exact key h3
    | lit l =>
      have hl := hl _ ht l rfl
      obtain ⟨v, dt, lg⟩ := l
      cases dt with
      | none => simp at hi'
      | some d =>
        cases lg with
        | some _ => simp at hl
        | none =>
          simp only [Option.map_some, Option.toList_some, List.mem_singleton] at hi'
          subst hi'
          cases h3 with
          | lit _ h3 =>
            obtain ⟨s, h3⟩ := h3
            cases d with
            | other j =>
              refine key ?_
              simp only [writeLiteral, reduceCtorEq, if_false, turtleBare, Bool.false_eq_true] at h3
              obtain ⟨u, h4, -⟩ := Run.bind_ok.1 h3
              simp only [turtleSuffix] at h4
              obtain ⟨w, h5, -⟩ := Run.bind_ok.1 h4
              exact ⟨w, h5⟩
            | _ => exact (by decide +kernel)
    | _ => cases hi'

/-- In particular if it was read from N-Triples. -/
theorem readNt_split {e : CliEnv} {s out : Str} {g : Graph} (hb : e.sty = .bare) (he : StrictEnv e.read)
    (hpr : AsciiPrintable e.read.pr) (ho : e.orders.Fair) (hp : Printed e.read.pr s) (h : readNt e.read s = .ok g)
    (hout : cliMain e s (.convert .nTriples .turtle) = .success out) : ∀ t ∈ g.stmts, ∀ i ∈ irisOf t, i.split ≠ .panic := by
  have hw' := convert_turtle (source := .nTriples) (g := g) (by simp [cliRead, h, Res.toRun]) hout
  rw [hb] at hw'
  refine written_split ho hw' (fun t ht => (readNt_strict he h t ht).2.2.1) (fun t ht i hi => ?_) fun t ht l hl => ?_
  · obtain ⟨a, b, -, z⟩ := readNt_strict he h t ht
    have z := z hp
    obtain ⟨x, p, y⟩ := t
    simp only [irisOf, Stmt.subject, Stmt.predicate, Stmt.object, List.mem_append, List.mem_cons] at hi
    rcases hi with hi | rfl | hi
    · cases x with
      | res j => rw [List.mem_singleton] at hi; subst hi; exact a
      | _ => cases hi
    · exact b
    · cases y with
      | res j => rw [List.mem_singleton] at hi; subst hi; exact z
      | lit l =>
        simp only [Option.mem_toList, Option.map_eq_some_iff] at hi
        obtain ⟨d, hd, rfl⟩ := hi
        exact z.2.1 d hd
      | _ => cases hi
  · exact (readNt_chars hpr hp h (x := t.subject) (p := t.predicate) (l := l) (by rw [← hl]; cases t; exact ht)).2.2

/-- C153, exactly, for the graph that was read: with IRIs written as they are, the Turtle text says the graph if and only if
no predicate is one of the three written as `rdf:type`, and a blank node that is an object is no subject and the object
of one statement only. -/
theorem C153_iff (e : CliEnv) (s out : Str) (g : Graph) (hb : e.sty = .bare) (he : StrictEnv e.read)
    (hw : WebUrl e.read.url) (hpr : AsciiPrintable e.read.pr) (ho : e.orders.Fair) (hp : Printed e.read.pr s)
    (h : readNt e.read s = .ok g)
    (hout : cliMain e s (.convert .nTriples .turtle) = .success out) :
    (∃ L, readTurtle out = some L ∧ Isomorphic L (g.stmts.map tripleOf)) ↔
      (∀ t ∈ g.stmts, t.predicate ∉ mistyped) ∧
      ∀ t ∈ g.stmts, ∀ b, t.object = .blank b →
        (∀ t' ∈ g.stmts, t'.subject ≠ .blank b) ∧ ∀ t' ∈ g.stmts, t'.object = .blank b → t' = t := by
  have hw' := convert_turtle (source := .nTriples) (g := g) (by simp [cliRead, h, Res.toRun]) hout
  rw [hb] at hw'
  have hr := readNt_readable he hw hpr e.orders hp h (readNt_split hb he hpr ho hp h hout)
  have hg : g.mappings = Graph.default.mappings := (readNt_fresh h).nameless.2
  have := C129_iff e.read.pr e.read.url TurtleOptions.default e.orders e.gen e.startWrite e.deep g out ho (by decide) rfl
    (by rw [hg]; exact defaultMappings_reachable) (by rw [hg]; exact defaultMappings_faithful) (fun t ht => (hr t ht).1) hw'
  have hmap : g.stmts.map tripleSays = g.stmts.map tripleOf := List.map_congr_left fun t ht => (hr t ht).2
  rw [hmap] at this
  rw [this]
  constructor
  · exact fun ⟨h1, h2⟩ => ⟨h1, h2 rfl⟩
  · exact fun ⟨h1, h2⟩ => ⟨h1, fun _ => h2⟩

/-! ### IRIs in brackets -/

theorem readFrom_append_none {m : Mode} {d : Doc} {a : Str} (h : readFrom m d a = none) (b : Str) :
    readFrom m d (a ++ b) = none := by
  induction a generalizing m d with
  | nil => cases h
  | cons c a ih =>
    simp only [List.cons_append, readFrom] at h ⊢
    cases e : scan m c with
    | none => rfl
    | some r =>
      simp only [e, Option.bind_some] at h ⊢
      cases e' : d.steps r.1 with
      | none => rfl
      | some d' =>
        simp only [e', Option.bind_some] at h ⊢
        exact ih h

/-- What a text of Turtle begins with. -/
theorem writeTurtle_begins {pr : Char → Bool} {url : Str → Option Iri} {sty : IriStyle} {opts : TurtleOptions} {o : Orders}
    {gen : Nat → Str} {k n : Nat} {g : Graph} {s : Str} (h : writeTurtle pr url sty opts o gen k n g = .ok s) :
    ∃ r, s = writeBase sty opts ++ writePrefixes sty opts g.mappings ++ r := by
  simp only [writeTurtle, Step.andThen, Step.text, Run.bind] at h
  cases e : writeTriples ⟨pr, url, sty, opts, denest gen k g, o⟩ n 0 with
  | ok x =>
    simp only [e] at h
    cases h
    exact ⟨x.1, rfl⟩
  | err => simp [e] at h
  | panic => simp [e] at h
  | deep => simp [e] at h

/-- C153, with the brackets the code writes twice: whatever the document and its format are, the text is no Turtle. -/
theorem C153_fails_bracketed (e : CliEnv) (s out : Str) (source : Representation) (hb : e.sty = .bracketed)
    (hout : cliMain e s (.convert source .turtle) = .success out) : readTurtle out = none := by
  obtain ⟨g, hg⟩ : ∃ g, cliRead e s source = .ok g := by
    simp only [cliMain] at hout
    cases h : cliRead e s source with
    | ok g => exact ⟨g, rfl⟩
    | err => simp [h, Run.bind, Run.exit] at hout
    | panic => simp [h, Run.bind, Run.exit] at hout
    | deep => simp [h, Run.bind, Run.exit] at hout
  obtain ⟨r, hr⟩ := writeTurtle_begins (convert_turtle hg hout)
  rw [hb, (C87_fresh e s source g hg).2] at hr
  have h0 : readFrom .start .empty (writeBase .bracketed TurtleOptions.default ++
      writePrefixes .bracketed TurtleOptions.default Graph.default.mappings) = none := by decide +kernel
  unfold readTurtle
  rw [hr, readFrom_append_none h0]
  rfl

/-! ### The full statement -/

/-- C153, the full statement: a document of N-Triples converted to Turtle says the graph that was read. -/
def C153_statement (sty : IriStyle) : Prop :=
  ∀ (e : CliEnv) (s out : Str) (g : Graph), e.sty = sty → StrictEnv e.read → WebUrl e.read.url → AsciiPrintable e.read.pr →
    e.orders.Fair → Printed e.read.pr s → readNt e.read s = .ok g →
    cliMain e s (.convert .nTriples .turtle) = .success out →
    ∃ L, readTurtle out = some L ∧ Isomorphic L (g.stmts.map tripleOf)

/-- An environment whose IRIs are as those that are parsed. -/
def webEnv : ReadEnv :=
  { strictEnv with
    url := fun s => if s.all (fun c => decide (0x20 < c.toNat) && decide (c ∉ (str! "<>\"{}|^`\\"))) && (Iri.wf ⟨s⟩ && hasScheme s)
      then some ⟨s⟩ else none }

theorem webEnv_strict : StrictEnv webEnv where
  url := by
    intro t i h
    simp only [webEnv] at h
    split at h
    · rename_i ht
      cases h
      exact ⟨(plain_chars (Bool.and_eq_true_iff.1 ht).1).1, if_pos ht⟩
    · cases h
  label := strictEnv_strict.label
  lang := strictEnv_strict.lang

theorem webEnv_web : WebUrl webEnv.url where
  parsed := by
    intro t i h
    simp only [webEnv] at h
    split at h
    · rename_i ht
      cases h
      exact Bool.and_eq_true_iff.1 (Bool.and_eq_true_iff.1 ht).2
    · cases h
  type := by decide +kernel

/-- An environment of the commands with room for nested nodes. -/
def webCli (sty : IriStyle) : CliEnv := ⟨webEnv, sty, blankGen, 0, 0, sameOrder, id, fun _ => [], fun _ => none, fun _ => [], 9⟩

/-- Two statements with the same blank node as object. -/
def sharedDoc : Str := str! "<http://a/s> <http://a/p> _:b .\n<http://a/t> <http://a/p> _:b .\n"

/-- The graph of `sharedDoc`. -/
def sharedGraph : Graph :=
  (Graph.default.insert (.mk (.res ⟨str! "http://a/s"⟩) ⟨str! "http://a/p"⟩ (.blank (str! "b")))).insert
    (.mk (.res ⟨str! "http://a/t"⟩) ⟨str! "http://a/p"⟩ (.blank (str! "b")))

theorem sharedDoc_read : readNt webEnv sharedDoc = .ok sharedGraph := rfl

/-- What `sharedDoc` is converted to. -/
theorem sharedDoc_out (sty : IriStyle) : ∃ out, cliMain (webCli sty) sharedDoc (.convert .nTriples .turtle) = .success out := by
  have : ∀ sty, (match cliMain (webCli sty) sharedDoc (.convert .nTriples .turtle) with | .success _ => true | _ => false) = true := by
    intro sty; cases sty <;> decide +kernel
  have := this sty
  split at this
  · rename_i out h; exact ⟨out, h⟩
  · cases this

theorem webCli_printed (d : Str) (h : ∀ c ∈ d, strictEnv.pr c = true ∧ c ≠ '\x00' ∨ c ∈ (str! "\t\r\n")) : Printed webEnv.pr d := h

/-- C153 fails in either style: two statements about one unnamed thing are written as two about two things, and with
brackets written twice nothing can be read. -/
theorem C153_fails (sty : IriStyle) : ¬ C153_statement sty := by
  intro h
  obtain ⟨out, ho⟩ := sharedDoc_out sty
  have hp : Printed webEnv.pr sharedDoc := webCli_printed _ (by decide +kernel)
  have hr := h (webCli sty) sharedDoc out sharedGraph rfl webEnv_strict webEnv_web easyEnv_ascii sameOrder_fair hp sharedDoc_read ho
  cases sty with
  | bracketed =>
    obtain ⟨L, hL, -⟩ := hr
    rw [C153_fails_bracketed (webCli .bracketed) sharedDoc out .nTriples rfl ho] at hL
    cases hL
  | bare =>
    have := ((C153_iff (webCli .bare) sharedDoc out sharedGraph rfl webEnv_strict webEnv_web easyEnv_ascii sameOrder_fair hp
      sharedDoc_read ho).1 hr).2 (.mk (.res ⟨str! "http://a/s"⟩) ⟨str! "http://a/p"⟩ (.blank (str! "b"))) (by decide +kernel) (str! "b") rfl
    exact absurd (this.2 (.mk (.res ⟨str! "http://a/t"⟩) ⟨str! "http://a/p"⟩ (.blank (str! "b"))) (by decide +kernel) rfl) (by decide +kernel)

/-- C153, what holds. -/
theorem C153_partial (e : CliEnv) (s out : Str) (g : Graph) (hb : e.sty = .bare) (he : StrictEnv e.read)
    (hw : WebUrl e.read.url) (hpr : AsciiPrintable e.read.pr) (ho : e.orders.Fair) (hp : Printed e.read.pr s)
    (h : readNt e.read s = .ok g)
    (hm : ∀ t ∈ g.stmts, t.predicate ∉ mistyped) (hn : ∀ t ∈ g.stmts, ∀ b, t.object ≠ .blank b)
    (hout : cliMain e s (.convert .nTriples .turtle) = .success out) :
    ∃ L, readTurtle out = some L ∧ Isomorphic L (g.stmts.map tripleOf) :=
  (C153_iff e s out g hb he hw hpr ho hp h hout).2 ⟨hm, fun t ht b hb => absurd hb (hn t ht b)⟩

/-! Documents that meet the conditions. -/

example : (match cliMain (webCli .bare) (str! "<http://a/s> <http://a/p> \"x\"@en .\n_:b <http://a/p> <http://a/s#t> .\n")
    (.convert .nTriples .turtle) with | .success s => readTurtle s | _ => none) =
  some [⟨.iri (str! "http://a/s"), str! "http://a/p", .lit ['x'] (rdfText (str! "langString")) (some (str! "en"))⟩,
    ⟨.blank ['b'], str! "http://a/p", .iri (str! "http://a/s#t")⟩] := by decide +kernel

end Rdftk
