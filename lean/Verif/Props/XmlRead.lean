import Verif.Lemmas.XmlLevels
import Verif.Props.Xml

/-! Property C77 for documents of two levels, and property C98: XML literals. -/

namespace Rdftk

open Spec

/-! ### C77 -/

/-- C77 for documents with typed or untyped node elements, which have a subject or are blank, with
property attributes, and property elements with text; languages stand at property elements, subjects
and bases are absolute, and texts are neither escaped nor white space alone. -/
theorem C77_levels_partial (env : ReadEnv) (sty : IriStyle) (gen : Nat → Str) (n : Nat) (emit : Emit)
    (evs : List XmlIn) (T : List Stmt) (h : RdfXml gen n evs T) (h2 : twoLevel 0 evs = true)
    (hr : ∀ e ∈ evs, ReadIn env e) :
    ∃ k, readXml env sty gen n emit evs = .ok k ∧ k.stmts = T :=
  ⟨_, readXml_levels h h2 hr, (foldl_insert_default T).1⟩

/-- A document with a base, two blank nodes, a type, a property attribute and a language. -/
def levelsDoc : List XmlIn :=
  let q : XName := ⟨some (str! "http://a/"), str! "q"⟩
  let c : XName := ⟨some (str! "http://a/"), str! "C"⟩
  [.other, .start (rdfX (str! "RDF")) [⟨xmlX (str! "base"), str! "http://a/"⟩],
    .start (rdfX (str! "Description")) [⟨q, str! "v"⟩], .stop (rdfX (str! "Description")),
    .space (str! " "),
    .start c [], .start q [⟨xmlX (str! "lang"), str! "en"⟩], .chars (str! "x"), .other, .cdata (str! "y"), .stop q, .stop c,
    .stop (rdfX (str! "RDF"))]

/-- Its statements. -/
def levelsStmts : List Stmt :=
  [.mk (.blank (blankGen 0)) ⟨str! "http://a/q"⟩ (.lit ⟨str! "v", none, none⟩),
    .mk (.blank (blankGen 1)) rdfType (.res ⟨str! "http://a/C"⟩),
    .mk (.blank (blankGen 1)) ⟨str! "http://a/q"⟩ (.lit ⟨str! "xy", none, some (str! "en")⟩)]

/-- The hypotheses of C77_levels_partial hold for it. -/
example : RdfXml blankGen 0 levelsDoc levelsStmts ∧ twoLevel 0 levelsDoc = true ∧ ∀ e ∈ levelsDoc, ReadIn easyEnv e := by
  let q : XName := ⟨some (str! "http://a/"), str! "q"⟩
  let c : XName := ⟨some (str! "http://a/"), str! "C"⟩
  refine ⟨⟨[.other], [], [⟨xmlX (str! "base"), str! "http://a/"⟩],
    [.start (rdfX (str! "Description")) [⟨q, str! "v"⟩], .stop (rdfX (str! "Description")), .space (str! " "),
      .start c [], .start q [⟨xmlX (str! "lang"), str! "en"⟩], .chars (str! "x"), .other, .cdata (str! "y"), .stop q,
      .stop c], 2, rfl, rfl, rfl, by decide +kernel, ?_⟩,
    by decide +kernel, ?_⟩
  · refine NodeList.cons (a := [.start (rdfX (str! "Description")) [⟨q, str! "v"⟩], .stop (rdfX (str! "Description"))])
      (s := .blank (blankGen 0)) (n' := 1) (T := [_]) ?_ (.fill rfl (NodeList.one (s := .blank (blankGen 1)) ?_))
    · exact NodeElt.mk (name := rdfX (str! "Description")) (as := [⟨q, str! "v"⟩]) (body := []) (T := [])
        (by decide +kernel) .none
        (AttrStmts.cons (.literal (p := ⟨str! "http://a/q"⟩) (by decide +kernel) (by decide +kernel)
          (l := ⟨str! "v", none, none⟩) ⟨rfl, rfl, by decide +kernel⟩) .nil) .nil
    · refine NodeElt.mk (name := c) (as := []) (ps := []) (ts := []) (n' := 2)
        (body := [.start q [⟨xmlX (str! "lang"), str! "en"⟩], .chars (str! "x"), .other, .cdata (str! "y"), .stop q])
        (T := [.mk (.blank (blankGen 1)) ⟨str! "http://a/q"⟩ (.lit ⟨str! "xy", none, some (str! "en")⟩)])
        (by decide +kernel) .none .nil ?_
      refine PropList.cons (b := []) (T' := []) (T := [_])
        (a := [.start q [⟨xmlX (str! "lang"), str! "en"⟩], .chars (str! "x"), .other, .cdata (str! "y"), .stop q]) ?_ .nil
      exact PropElt.literal (body := [.chars (str! "x"), .other, .cdata (str! "y")]) (t := str! "xy") (type := none)
        (by decide +kernel) (by decide +kernel) rfl (by decide +kernel) (fun _ => by decide +kernel)
        ⟨rfl, rfl, by decide +kernel⟩
  · have still : ∀ t : Str, (t.all fun c => decide (escapeChar easyEnv.pr c = [c])) = true → StillText easyEnv.pr t := by
      intro t h c hc
      simpa using List.all_eq_true.1 h c hc
    have iri : ∀ t : Str, t.head? ≠ some '<' → IriRead easyEnv ⟨t⟩ := fun t h => ⟨rfl, h⟩
    intro e he
    simp only [levelsDoc, List.mem_cons, List.not_mem_nil, or_false] at he
    rcases he with rfl | rfl | rfl | rfl | rfl | rfl | rfl | rfl | rfl | rfl | rfl | rfl | rfl
    · trivial
    · refine ⟨.inl rfl, by decide +kernel, fun a ha => ?_⟩
      rw [List.mem_singleton.1 ha]
      unfold ReadAttr
      rw [if_pos (by decide +kernel)]
      exact ⟨fun _ => iri _ (by decide +kernel), fun h => absurd h (by decide +kernel)⟩
    · refine ⟨.inr (.inl rfl), by decide +kernel, fun a ha => ?_⟩
      rw [List.mem_singleton.1 ha]
      unfold ReadAttr
      rw [if_neg (by decide +kernel), if_neg (by decide +kernel), if_neg (by decide +kernel)]
      exact ⟨iri _ (by decide +kernel), still _ (by decide +kernel)⟩
    · trivial
    · trivial
    · exact ⟨.inr (.inr (iri _ (by decide +kernel))), by decide +kernel, fun a ha => by cases ha⟩
    · refine ⟨.inr (.inr (iri _ (by decide +kernel))), by decide +kernel, fun a ha => ?_⟩
      rw [List.mem_singleton.1 ha]
      unfold ReadAttr
      rw [if_pos (by decide +kernel)]
      exact ⟨fun h => absurd h (by decide +kernel), fun _ => ⟨by decide +kernel, rfl⟩⟩
    · exact still _ (by decide +kernel)
    · trivial
    · exact still _ (by decide +kernel)
    · trivial
    · trivial
    · trivial

/-- C77: whatever precedes it, an element inside a property element with `rdf:resource` is not
read. -/
theorem C77_rejects_child (env : ReadEnv) (sty : IriStyle) (gen : Nat → Str) (n : Nat) (emit : Emit)
    (pre f evs : List XmlIn) (x y : XName) (as bs : List XAttr)
    (h : twoLevel 0 pre = true) (hl : levelAfter 0 pre = 2) (ha : (attr (rdfX (str! "resource")) as).isSome = true)
    (hf : f.all isInside = true) (g : Graph) :
    readXml env sty gen n emit (pre ++ .start x as :: (f ++ .start y bs :: evs)) ≠ .ok g := by
  unfold readXml
  rcases xmlRun_shape (env := env) (sty := sty) (gen := gen) (emit := emit) (st := ⟨Graph.default, n⟩) h
    (show Shape 0 [] from rfl) with h1 | ⟨stack, st, h1, h2⟩
  · exact h1 _ g
  · rw [h2]
    rw [hl] at h1
    obtain ⟨b, s, b', rfl⟩ := h1
    cases he : xmlStep env sty gen emit [.predicate b s false, .subject b'] st (.start x as) with
    | err => exact xmlRun_notOk (by rw [he]; intro p hp; cases hp) g
    | panic => exact xmlRun_notOk (by rw [he]; intro p hp; cases hp) g
    | ok p =>
      obtain ⟨stack₁, st₁⟩ := p
      rw [xmlRun_ok he]
      simp only [xmlStep, xmlPropertyElement] at he
      rw [if_neg (by decide)] at he
      obtain ⟨q, hq, he⟩ := Res.bind_ok he
      obtain ⟨r, hr, hq⟩ := Res.bind_ok hq
      have := xmlAttributesFrom_resource hr (.inr ha)
      obtain ⟨i, hi⟩ := Option.isSome_iff_exists.1 this
      rw [hi] at hq
      obtain ⟨_, _, hq⟩ := Res.bind_ok hq
      cases hq
      cases he
      exact xmlRun_noChild hf g

/-- C77: whatever precedes it, an element after text in a property element is not read. -/
theorem C77_rejects_mixed (env : ReadEnv) (sty : IriStyle) (gen : Nat → Str) (n : Nat) (emit : Emit)
    (pre f f' evs : List XmlIn) (x y : XName) (as bs : List XAttr) (t : Str)
    (h : twoLevel 0 pre = true) (hl : levelAfter 0 pre = 2) (ha : as.all isXmlAttr = true)
    (hf : f.all isInside = true) (hf' : f'.all isInside = true) (g : Graph) :
    readXml env sty gen n emit (pre ++ .start x as :: (f ++ .chars t :: (f' ++ .start y bs :: evs))) ≠ .ok g := by
  unfold readXml
  rcases xmlRun_shape (env := env) (sty := sty) (gen := gen) (emit := emit) (st := ⟨Graph.default, n⟩) h
    (show Shape 0 [] from rfl) with h1 | ⟨stack, st, h1, h2⟩
  · exact h1 _ g
  · rw [h2]
    rw [hl] at h1
    obtain ⟨b, s, b', rfl⟩ := h1
    cases he : xmlStep env sty gen emit [.predicate b s false, .subject b'] st (.start x as) with
    | err => exact xmlRun_notOk (by rw [he]; intro p hp; cases hp) g
    | panic => exact xmlRun_notOk (by rw [he]; intro p hp; cases hp) g
    | ok p =>
      obtain ⟨a, rfl⟩ := xmlStep_property ha he
      rw [xmlRun_ok he]
      exact xmlRun_text_then hf hf' g

/-- A document whose first node element has `rdf:ID`, with attributes of the document element. -/
def idDoc (as : List XAttr) (v : Str) (evs : List XmlIn) : List XmlIn :=
  .start (rdfX (str! "RDF")) as :: .start (rdfX (str! "Description")) [⟨rdfX (str! "ID"), v⟩] :: evs

/-- C77: without a base in the document, `rdf:ID` is a panic. -/
theorem C77_id_panics (env : ReadEnv) (sty : IriStyle) (gen : Nat → Str) (n : Nat) (emit : Emit)
    (v : Str) (evs : List XmlIn) : readXml env sty gen n emit (idDoc [] v evs) = .panic := by
  unfold readXml idDoc
  rw [xmlRun_ok (stack' := [.subject none]) (st' := ⟨Graph.default, n⟩) (by
    simp only [xmlStep, xmlAttributes_nil, Res.bind]
    rw [if_pos rdf_eq]
    rfl)]
  have ha : xmlAttributes env [⟨rdfX (str! "ID"), v⟩] = .ok { noAttributes with subject := some (.relative v) } := by
    unfold xmlAttributes xmlAttributesFrom
    rw [xmlAttribute_rdf, if_neg (by decide), if_neg (by decide), if_pos rfl]
    rfl
  have : xmlStep env sty gen emit [.subject none] ⟨Graph.default, n⟩
      (.start (rdfX (str! "Description")) [⟨rdfX (str! "ID"), v⟩]) = .panic := by
    simp only [xmlStep, xmlNodeElement, ha, Res.bind]
    rfl
  simp only [xmlRun, this]

/-- C77: with a base that can be read, the subject of `rdf:ID` is the base as printed followed by the
name; with the brackets that is no IRI unless the parser takes texts that begin with a bracket. -/
theorem C77_id_base (env : ReadEnv) (sty : IriStyle) (gen : Nat → Str) (n : Nat) (emit : Emit)
    (b v : Str) (x : XName) (p : Iri) (t : Str) (hb : IriRead env ⟨b⟩) (hx : NameRead env x p) :
    readXml env sty gen n emit (idDoc [⟨xmlX (str! "base"), b⟩] v
      [.start x [], .chars t, .stop x, .stop (rdfX (str! "Description")), .stop (rdfX (str! "RDF"))]) =
    match Iri.fromStr env.url (Iri.fmt sty ⟨b⟩ ++ v) with
    | some i => .ok (Graph.default.insert (.mk (.res i) p (.lit (Literal.plain env.pr t))))
    | none => .err := by
  unfold readXml idDoc
  have h1 : xmlAttributes env [⟨xmlX (str! "base"), b⟩] = .ok { noAttributes with base := some ⟨b⟩ } := by
    have h0 : (xmlX (str! "base")).ns = some xmlNamespace := rfl
    have h0' : (xmlX (str! "base")).loc = str! "base" := rfl
    unfold xmlAttributes xmlAttributesFrom xmlAttribute
    rw [if_pos h0, if_pos h0', valueToIri_ok hb]
    rfl
  rw [xmlRun_ok (stack' := [.subject (some ⟨b⟩)]) (st' := ⟨Graph.default, n⟩) (by
    simp only [xmlStep, h1, Res.bind]
    rw [if_pos rdf_eq])]
  have ha : xmlAttributes env [⟨rdfX (str! "ID"), v⟩] = .ok { noAttributes with subject := some (.relative v) } := by
    unfold xmlAttributes xmlAttributesFrom
    rw [xmlAttribute_rdf, if_neg (by decide), if_neg (by decide), if_pos rfl]
    rfl
  cases e : Iri.fromStr env.url (Iri.fmt sty ⟨b⟩ ++ v) with
  | none =>
    refine xmlRun_err ?_
    simp only [xmlStep, xmlNodeElement, ha, Res.bind, xmlSubjectNode, valueToIri, e, Res.ofOption]
  | some i =>
    rw [xmlRun_ok (stack' := [.predicate (some ⟨b⟩) (.res i) false, .subject (some ⟨b⟩)]) (st' := ⟨Graph.default, n⟩) (by
      simp only [xmlStep, xmlNodeElement, ha, Res.bind, xmlSubjectNode, valueToIri, e, Res.ofOption]
      rw [if_pos description_eq]
      rfl)]
    rw [xmlRun_ok (by rfl), xmlRun_ok (by rfl)]
    rw [xmlRun_ok (stack' := [.predicate (some ⟨b⟩) (.res i) false, .subject (some ⟨b⟩)])
      (st' := XmlState.insert ⟨Graph.default, n⟩ (.res i) p (.lit (Literal.plain env.pr t))) (by
        simp only [xmlStep, nameToIri_read hx, Res.bind]
        rfl), xmlRun_ok (by rfl), xmlRun_ok (by rfl)]
    rfl

/-! ### C98 -/

/-- What becomes of the text of an XML literal. -/
theorem replace_cons (c : Char) (s : Str) :
    replaceChar '>' (str! "&gt;") (replaceChar '<' (str! "&lt;") (c :: s)) =
      (if c = '<' then str! "&lt;" else if c = '>' then str! "&gt;" else [c]) ++
        replaceChar '>' (str! "&gt;") (replaceChar '<' (str! "&lt;") s) := by
  simp only [replaceChar, List.flatMap_cons, List.flatMap_append]
  congr 1
  by_cases h : c = '<'
  · simp [h]
  · by_cases h' : c = '>' <;> simp [h, h']

/-- The text with its brackets replaced. -/
def replaced (s : Str) : Str := replaceChar '>' (str! "&gt;") (replaceChar '<' (str! "&lt;") s)

theorem replaced_clean (s : Str) : ∀ c ∈ replaced s, c ≠ '<' ∧ c ≠ '>' := by
  induction s with
  | nil => intro c hc; cases hc
  | cons d s ih =>
    intro c hc
    unfold replaced at hc ih
    rw [replace_cons] at hc
    rcases List.mem_append.1 hc with h | h
    · split at h
      · exact (by decide : ∀ c ∈ str! "&lt;", c ≠ '<' ∧ c ≠ '>') c h
      · split at h
        · exact (by decide : ∀ c ∈ str! "&gt;", c ≠ '<' ∧ c ≠ '>') c h
        · rename_i h1 h2
          rw [List.mem_singleton.1 h]
          exact ⟨h1, h2⟩
    · exact ih c h

theorem replaced_same {s : Str} (h : ∀ c ∈ s, c ≠ '<' ∧ c ≠ '>') : replaced s = s := by
  induction s with
  | nil => rfl
  | cons c s ih =>
    obtain ⟨h1, h2⟩ := h c (List.mem_cons_self ..)
    have := ih fun c hc => h c (List.mem_cons_of_mem _ hc)
    unfold replaced at this ⊢
    rw [replace_cons, if_neg h1, if_neg h2, this]
    rfl

theorem replaced_inj {s t : Str} (hs : '&' ∉ s) (ht : '&' ∉ t) (h : replaced s = replaced t) : s = t := by
  induction s generalizing t with
  | nil =>
    cases t with
    | nil => rfl
    | cons d t =>
      unfold replaced at h
      rw [replace_cons] at h
      exfalso
      split at h
      · cases h
      · split at h <;> cases h
  | cons c s ih =>
    cases t with
    | nil =>
      unfold replaced at h
      rw [replace_cons] at h
      exfalso
      split at h
      · cases h
      · split at h <;> cases h
    | cons d t =>
      unfold replaced at h ih
      rw [replace_cons, replace_cons] at h
      have hc : c ≠ '&' := fun e => hs (by simp [e])
      have hd : d ≠ '&' := fun e => ht (by simp [e])
      have ih := @ih t (fun e => hs (List.mem_cons_of_mem _ e)) (fun e => ht (List.mem_cons_of_mem _ e))
      by_cases h1 : c = '<'
      · rw [if_pos h1] at h
        by_cases h2 : d = '<'
        · rw [if_pos h2] at h
          rw [h1, h2, ih (List.append_cancel_left h)]
        · rw [if_neg h2] at h
          by_cases h3 : d = '>'
          · rw [if_pos h3] at h
            simp at h
          · rw [if_neg h3] at h
            simp only [List.cons_append, List.nil_append, List.cons.injEq] at h
            exact absurd h.1.symm hd
      · rw [if_neg h1] at h
        by_cases h1' : c = '>'
        · rw [if_pos h1'] at h
          by_cases h2 : d = '<'
          · rw [if_pos h2] at h
            simp at h
          · rw [if_neg h2] at h
            by_cases h3 : d = '>'
            · rw [if_pos h3] at h
              rw [h1', h3, ih (List.append_cancel_left h)]
            · rw [if_neg h3] at h
              simp only [List.cons_append, List.nil_append, List.cons.injEq] at h
              exact absurd h.1.symm hd
        · rw [if_neg h1'] at h
          by_cases h2 : d = '<'
          · rw [if_pos h2] at h
            simp only [List.cons_append, List.nil_append, List.cons.injEq] at h
            exact absurd h.1 hc
          · rw [if_neg h2] at h
            by_cases h3 : d = '>'
            · rw [if_pos h3] at h
              simp only [List.cons_append, List.nil_append, List.cons.injEq] at h
              exact absurd h.1 hc
            · rw [if_neg h3] at h
              simp only [List.cons_append, List.nil_append, List.cons.injEq] at h
              rw [h.1, ih h.2]

section
variable {env : ReadEnv} {sty : IriStyle} {gen : Nat → Str} {emit : Emit}

theorem xmlRun_closes {s : Subject} {x : XName} {p : Iri} (hx : NameRead env x p) {rest : List XmlFrame} {st : XmlState}
    {k : Nat} {body content : List XmlIn} (h : closesAtEnd k body = true) {t : Str} (ht : emit (content ++ body) = some t)
    {evs : List XmlIn} :
    xmlRun env sty gen emit (.literal s x (k + 1) content :: rest) st (body ++ evs) =
      xmlRun env sty gen emit rest (st.insert s p (.lit (Literal.withDataType env.pr (replaced t) .xmlLiteral))) evs := by
  induction body generalizing k content with
  | nil => cases k <;> cases h
  | cons e body ih =>
    have ht' : emit ((content ++ [e]) ++ body) = some t := by simpa using ht
    rw [List.cons_append]
    cases e with
    | start y as =>
      rw [xmlRun_ok (by rfl)]
      exact ih (by cases k <;> simpa [closesAtEnd] using h) ht'
    | stop y =>
      cases k with
      | zero =>
        have hb : body = [] := by simpa [closesAtEnd] using h
        subst hb
        rw [List.append_nil] at ht'
        rw [xmlRun_ok (stack' := rest)
          (st' := st.insert s p (.lit (Literal.withDataType env.pr (replaced t) .xmlLiteral)))
          (by simp only [xmlStep, ht', nameToIri_read hx, Res.bind]; rfl)]
        rfl
      | succ k =>
        rw [xmlRun_ok (by rfl)]
        exact ih (by simpa [closesAtEnd] using h) ht'
    | bad => cases k <;> simp [closesAtEnd] at h
    | chars => rw [xmlRun_ok (by rfl)]; exact ih (by cases k <;> simpa [closesAtEnd] using h) ht'
    | cdata => rw [xmlRun_ok (by rfl)]; exact ih (by cases k <;> simpa [closesAtEnd] using h) ht'
    | space => rw [xmlRun_ok (by rfl)]; exact ih (by cases k <;> simpa [closesAtEnd] using h) ht'
    | other => rw [xmlRun_ok (by rfl)]; exact ih (by cases k <;> simpa [closesAtEnd] using h) ht'

theorem xmlRun_oneElement {s : Subject} {x : XName} {p : Iri} (hx : NameRead env x p) {rest : List XmlFrame} {st : XmlState}
    {body content : List XmlIn} (h : oneElement body = true) {t : Str} (ht : emit (content ++ body) = some t)
    {evs : List XmlIn} :
    xmlRun env sty gen emit (.literal s x 0 content :: rest) st (body ++ evs) =
      xmlRun env sty gen emit rest (st.insert s p (.lit (Literal.withDataType env.pr (replaced t) .xmlLiteral))) evs := by
  induction body generalizing content with
  | nil => cases h
  | cons e body ih =>
    have ht' : emit ((content ++ [e]) ++ body) = some t := by simpa using ht
    rw [List.cons_append]
    cases e with
    | start y as =>
      rw [xmlRun_ok (by rfl)]
      exact xmlRun_closes hx (by simpa [oneElement] using h) ht'
    | stop y => cases h
    | bad => cases h
    | chars => rw [xmlRun_ok (by rfl)]; exact ih (by simpa [oneElement] using h) ht'
    | cdata => rw [xmlRun_ok (by rfl)]; exact ih (by simpa [oneElement] using h) ht'
    | space => rw [xmlRun_ok (by rfl)]; exact ih (by simpa [oneElement] using h) ht'
    | other => rw [xmlRun_ok (by rfl)]; exact ih (by simpa [oneElement] using h) ht'

theorem xmlRun_noElement {s : Subject} {x : XName} {rest : List XmlFrame} {st : XmlState}
    {body content : List XmlIn} {t : Str} (h : textsOf body = some t) {y : XName} {evs : List XmlIn} :
    xmlRun env sty gen emit (.literal s x 0 content :: rest) st (body ++ .stop y :: evs) = .panic := by
  induction body generalizing content t with
  | nil => rfl
  | cons e body ih =>
    unfold textsOf at h
    cases e1 : textOf e with
    | none => rw [e1] at h; cases h
    | some u =>
      cases e2 : textsOf body with
      | none => rw [e1, e2] at h; cases h
      | some w =>
        rw [List.cons_append]
        cases e with
        | start => cases e1
        | stop => cases e1
        | bad => cases e1
        | chars => rw [xmlRun_ok (by rfl)]; exact ih e2
        | cdata => rw [xmlRun_ok (by rfl)]; exact ih e2
        | space => rw [xmlRun_ok (by rfl)]; exact ih e2
        | other => rw [xmlRun_ok (by rfl)]; exact ih e2

/-- Up to the content of the literal. -/
theorem readXml_literalDoc {n : Nat} {s : Iri} {x : XName} {body : List XmlIn} (hs : IriRead env s) :
    readXml env sty gen n emit (xmlLiteralDoc s x body) =
      xmlRun env sty gen emit [.literal (.res s) x 0 [], .predicate none (.res s) false, .subject none]
        ⟨Graph.default, n⟩ (body ++ [.stop x, .stop (rdfX (str! "Description")), .stop (rdfX (str! "RDF"))]) := by
  unfold readXml xmlLiteralDoc
  simp only [List.cons_append, List.nil_append, List.append_assoc]
  have ha : xmlAttributes env [⟨rdfX (str! "parseType"), str! "Literal"⟩] =
      .ok { noAttributes with parseType := some .xmlLiteral } := by
    unfold xmlAttributes xmlAttributesFrom
    rw [xmlAttribute_rdf, if_neg (by decide), if_neg (by decide), if_neg (by decide), if_neg (by decide), if_pos rfl]
    rfl
  have hn := xmlStep_node (env := env) (sty := sty) (gen := gen) (emit := emit) (base := none) (s := .res s) hs
    (rest := []) (st := ⟨Graph.default, n⟩)
  simp only [nodeAttr] at hn
  rw [xmlRun_ok (by rfl), xmlRun_ok (stack' := [.subject none]) (st' := ⟨Graph.default, n⟩) (by
      simp only [xmlStep, xmlAttributes_nil, Res.bind]
      rw [if_pos rdf_eq]
      rfl),
    xmlRun_ok (stack' := [.predicate none (.res s) false, .subject none]) (st' := ⟨Graph.default, n⟩) hn,
    xmlRun_ok (stack' := [.literal (.res s) x 0 [], .predicate none (.res s) false, .subject none])
      (st' := ⟨Graph.default, n⟩) (by
        simp only [xmlStep, xmlPropertyElement, ha, Res.bind]
        rfl)]

end

/-- C98: the object of a property element with an XML literal is its content. -/
def C98_statement (sty : IriStyle) : Prop :=
  ∀ (env : ReadEnv) (gen : Nat → Str) (n : Nat) (emit : Emit) (s : Iri) (x : XName) (p : Iri) (body : List XmlIn)
    (st : Stmt), AsciiPrintable env.pr → (∀ s, env.url s = some ⟨s⟩) → wellNested 0 body = true →
    propertyIri x = some p → xmlLiteralStmt emit (.res s) p body = some st →
    ∃ h, readXml env sty gen n emit (xmlLiteralDoc s x body) = .ok h ∧ h.stmts = [st]

/-- C98: when the content is one element, possibly after text, the literal has the text of the
content with brackets replaced and then escaped. -/
theorem C98_reads (env : ReadEnv) (sty : IriStyle) (gen : Nat → Str) (n : Nat) (emit : Emit) (s : Iri) (x : XName)
    (p : Iri) (body : List XmlIn) (t : Str) (hs : IriRead env s) (hx : NameRead env x p) (hb : oneElement body = true)
    (ht : emit body = some t) :
    ∃ h, readXml env sty gen n emit (xmlLiteralDoc s x body) = .ok h ∧
      h.stmts = [.mk (.res s) p (.lit ⟨escapeString env.pr
        (t.flatMap fun c => if c = '<' then str! "&lt;" else if c = '>' then str! "&gt;" else [c]), some .xmlLiteral, none⟩)] := by
  have hrep : replaced t = t.flatMap fun c => if c = '<' then str! "&lt;" else if c = '>' then str! "&gt;" else [c] := by
    clear ht
    induction t with
    | nil => rfl
    | cons c t ih =>
      unfold replaced at ih ⊢
      rw [replace_cons, ih, List.flatMap_cons]
  refine ⟨[Stmt.mk (.res s) p (.lit (Literal.withDataType env.pr (replaced t) .xmlLiteral))].foldl Graph.insert
    Graph.default, ?_, ?_⟩
  · rw [readXml_literalDoc hs, xmlRun_oneElement hx hb (content := []) ht]
    rfl
  · rw [(foldl_insert_default _).1, hrep]
    rfl

/-- C98: it is right exactly when the content has no brackets at all and nothing to escape. -/
theorem C98_iff (env : ReadEnv) (sty : IriStyle) (gen : Nat → Str) (n : Nat) (emit : Emit) (s : Iri) (x : XName)
    (p : Iri) (body : List XmlIn) (t : Str) (hs : IriRead env s) (hx : NameRead env x p) (hb : oneElement body = true)
    (ht : emit body = some t) (h : Graph) (hh : readXml env sty gen n emit (xmlLiteralDoc s x body) = .ok h) :
    some h.stmts = (xmlLiteralStmt emit (.res s) p body).map (fun st => [st]) ↔
      StillText env.pr t ∧ '<' ∉ t ∧ '>' ∉ t := by
  obtain ⟨h', h1, h2⟩ := C98_reads env sty gen n emit s x p body t hs hx hb ht
  have : h' = h := by rw [hh] at h1; cases h1; rfl
  subst this
  have hrep : replaced t = t.flatMap fun c => if c = '<' then str! "&lt;" else if c = '>' then str! "&gt;" else [c] := by
    clear ht h2
    induction t with
    | nil => rfl
    | cons c t ih =>
      unfold replaced at ih ⊢
      rw [replace_cons, ih, List.flatMap_cons]
  rw [h2, ← hrep]
  unfold xmlLiteralStmt
  rw [ht]
  simp only [Option.map_some, Option.some.injEq, List.cons.injEq, Stmt.mk.injEq, true_and, Object.lit.injEq,
    Literal.mk.injEq, and_true]
  constructor
  · intro e
    have clean : ∀ c, c = '<' ∨ c = '>' → c ∉ t := by
      intro c hc hm
      rw [← e] at hm
      obtain ⟨d, hd, hm⟩ := List.mem_flatMap.1 hm
      have hd' := replaced_clean t d hd
      have hdc : d = c := by
        by_contra hne
        unfold escapeChar at hm
        have hl : ∀ n, c ∉ hexLower n := by
          intro n hm
          obtain ⟨d, hd, rfl⟩ := toDigits_mem (by decide) hm
          have key : ∀ d < 16, d.digitChar ≠ '<' ∧ d.digitChar ≠ '>' := by decide
          have := key d hd
          rcases hc with h | h
          · exact this.1 h
          · exact this.2 h
        have h0 : c ≠ '\\' ∧ c ≠ '0' ∧ c ≠ 't' ∧ c ≠ 'r' ∧ c ≠ 'n' ∧ c ≠ '"' ∧ c ≠ 'u' ∧ c ≠ '{' ∧ c ≠ '}' := by
          rcases hc with rfl | rfl <;> decide
        obtain ⟨a1, a2, a3, a4, a5, a6, a7, a8, a9⟩ := h0
        split at hm
        · simp [a1, a2] at hm
        split at hm
        · simp [a1, a3] at hm
        split at hm
        · simp [a1, a4] at hm
        split at hm
        · simp [a1, a5] at hm
        split at hm
        · simp [a1, a6] at hm
        split at hm
        · simp [a1] at hm
        split at hm
        · exact hne (List.mem_singleton.1 hm).symm
        · simp [a1, a7, a8, a9, hl] at hm
      rw [hdc] at hd'
      rcases hc with h | h
      · exact hd'.1 h
      · exact hd'.2 h
    have h1 := clean '<' (.inl rfl)
    have h2 := clean '>' (.inr rfl)
    rw [replaced_same fun c hc => ⟨fun e => h1 (e ▸ hc), fun e => h2 (e ▸ hc)⟩] at e
    exact ⟨(escapeString_id_iff _ _).1 e, h1, h2⟩
  · rintro ⟨h1, h2, h3⟩
    rw [replaced_same fun c hc => ⟨fun e => h2 (e ▸ hc), fun e => h3 (e ▸ hc)⟩]
    exact (escapeString_id_iff _ _).2 h1

/-- C98: literals whose texts have no ampersands are still told apart. -/
theorem C98_distinct (env : ReadEnv) (sty : IriStyle) (gen : Nat → Str) (n : Nat) (emit : Emit) (s : Iri) (x : XName)
    (p : Iri) (b₁ b₂ : List XmlIn) (t₁ t₂ : Str) (hs : IriRead env s) (hx : NameRead env x p)
    (h₁ : oneElement b₁ = true) (h₂ : oneElement b₂ = true) (e₁ : emit b₁ = some t₁) (e₂ : emit b₂ = some t₂)
    (a₁ : '&' ∉ t₁) (a₂ : '&' ∉ t₂)
    (h : readXml env sty gen n emit (xmlLiteralDoc s x b₁) = readXml env sty gen n emit (xmlLiteralDoc s x b₂)) :
    t₁ = t₂ := by
  rw [readXml_literalDoc hs, readXml_literalDoc hs, xmlRun_oneElement hx h₁ (content := []) e₁,
    xmlRun_oneElement hx h₂ (content := []) e₂] at h
  have h' : Run.ok ([Stmt.mk (.res s) p (.lit (Literal.withDataType env.pr (replaced t₁) .xmlLiteral))].foldl
      Graph.insert Graph.default) = Run.ok ([Stmt.mk (.res s) p (.lit (Literal.withDataType env.pr (replaced t₂)
      .xmlLiteral))].foldl Graph.insert Graph.default) := h
  have h' := Run.ok.inj h'
  have := congrArg Graph.stmts h'
  rw [(foldl_insert_default _).1, (foldl_insert_default _).1] at this
  simp only [List.cons.injEq, Stmt.mk.injEq, true_and, Object.lit.injEq, Literal.withDataType, Literal.mk.injEq,
    and_true] at this
  have hu := congrArg (unescape .text) this
  rw [unescape_escapeString, unescape_escapeString] at hu
  exact replaced_inj a₁ a₂ (Option.some.inj hu)

/-- C98: content without an element is a panic. -/
theorem C98_text_panics (env : ReadEnv) (sty : IriStyle) (gen : Nat → Str) (n : Nat) (emit : Emit) (s : Iri) (x : XName)
    (body : List XmlIn) (t : Str) (hs : IriRead env s) (ht : textsOf body = some t) :
    readXml env sty gen n emit (xmlLiteralDoc s x body) = .panic := by
  rw [readXml_literalDoc hs, xmlRun_noElement ht]

/-- C98 fails: plain text as content is a panic. -/
theorem C98_fails (sty : IriStyle) : ¬C98_statement sty := fun h => by
  obtain ⟨k, h1, _⟩ := h easyEnv blankGen 0 simpleXml ⟨str! "http://a/s"⟩ ⟨some (str! "http://a/"), str! "p"⟩
    ⟨str! "http://a/p"⟩ [.chars (str! "x")] _ easyEnv_ascii (fun _ => rfl) rfl (by decide +kernel) rfl
  rw [C98_text_panics _ _ _ _ _ _ _ _ (str! "x") ⟨rfl, by decide +kernel⟩ rfl] at h1
  cases h1

/-- C98 fails: an element as content is read with its brackets replaced. -/
theorem C98_fails_element (sty : IriStyle) : ¬C98_statement sty := fun h => by
  let b : List XmlIn := [.start ⟨none, str! "b"⟩ [], .stop ⟨none, str! "b"⟩]
  have hs : IriRead easyEnv ⟨str! "http://a/s"⟩ := ⟨rfl, by decide +kernel⟩
  have hx : NameRead easyEnv ⟨some (str! "http://a/"), str! "p"⟩ ⟨str! "http://a/p"⟩ :=
    ⟨⟨rfl, by decide +kernel⟩, _, rfl, by decide +kernel⟩
  obtain ⟨k, h1, h2⟩ := h easyEnv blankGen 0 simpleXml ⟨str! "http://a/s"⟩ ⟨some (str! "http://a/"), str! "p"⟩
    ⟨str! "http://a/p"⟩ b _ easyEnv_ascii (fun _ => rfl) rfl (by decide +kernel) rfl
  have := (C98_iff easyEnv sty blankGen 0 simpleXml _ _ _ b (str! "<b></b>") hs hx (by decide +kernel)
    (by decide +kernel) k h1).1 (by rw [h2]; rfl)
  exact this.2.1 (by decide)

/-- C98 fails: an element and text that spells it are read as the same literal. -/
theorem C98_fails_ambiguous (env : ReadEnv) (sty : IriStyle) (gen : Nat → Str) (n : Nat) (s : Iri) (x : XName) (p : Iri)
    (hs : IriRead env s) (hx : NameRead env x p) :
    ∃ b₁ b₂ : List XmlIn, oneElement b₁ = true ∧ oneElement b₂ = true ∧ wellNested 0 b₁ = true ∧ wellNested 0 b₂ = true ∧
      simpleXml b₁ ≠ simpleXml b₂ ∧
      readXml env sty gen n simpleXml (xmlLiteralDoc s x b₁) = readXml env sty gen n simpleXml (xmlLiteralDoc s x b₂) := by
  let a : XName := ⟨none, str! "a"⟩
  let b : XName := ⟨none, str! "b"⟩
  refine ⟨[.start a [], .start b [], .stop b, .stop a], [.start a [], .chars (str! "<b></b>"), .stop a], rfl, rfl, rfl, rfl,
    by decide +kernel, ?_⟩
  rw [readXml_literalDoc hs, readXml_literalDoc hs,
    xmlRun_oneElement hx (t := str! "<a><b></b></a>") (content := []) rfl (by decide +kernel),
    xmlRun_oneElement hx (t := str! "<a>&lt;b&gt;&lt;/b&gt;</a>") (content := []) rfl (by decide +kernel)]
  congr 4

end Rdftk
