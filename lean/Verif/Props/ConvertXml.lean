import Verif.Spec.ConvertXml
import Verif.Props.ConvertMeaning
import Verif.Props.Again
import Verif.Props.Exact
import Verif.Props.XmlNested

/-! What N-Triples documents say and what they say as RDF/XML: C156. -/

namespace Rdftk
open Spec

theorem readNt_simple {env : ReadEnv} {s : Str} {g : Graph} (h : readNt env s = .ok g) :
    ∀ st ∈ g.stmts, simple st = true := by
  intro st hst
  unfold readNt at h
  split at h
  · cases h
  · rename_i ls e
    rcases evalTriples_mem ls _ _ h st hst with h1 | ⟨l, -, h1⟩
    · cases h1
    · obtain ⟨x, e1, h1⟩ := Res.bind_ok h1
      obtain ⟨p, e2, h1⟩ := Res.bind_ok h1
      obtain ⟨y, e3, h1⟩ := Res.bind_ok h1
      cases h1
      simp [simple, Stmt.subject, Stmt.object, (evalNode_simple e1).1, evalObject_simple e3]

theorem simple_triple {st : Stmt} (h : simple st = true) : ∃ x, stmtTriple st = some x := by
  obtain ⟨s, p, o⟩ := st
  cases s <;> cases o <;> first | exact ⟨_, rfl⟩ | (exfalso; revert h; simp [simple, simpleSubject, simpleObject, Stmt.subject, Stmt.object])

/-- Statements that are one have one triple. -/
theorem same_triple {t t' : Stmt} (h : SameStmt t t') : stmtTriple t = stmtTriple t' := by
  obtain ⟨s, p, o⟩ := t
  obtain ⟨s', p', o'⟩ := t'
  obtain ⟨h1, h2, h3⟩ := h
  simp only [Stmt.subject, Stmt.object, Stmt.predicate] at h1 h2 h3
  subst h1 h2
  rcases h3 with rfl | ⟨l, l', rfl, rfl, h3⟩
  · rfl
  · simp [stmtTriple, objectTerm, Stmt.subject, Stmt.object, Stmt.predicate, h3.1, h3.2.1, h3.2.2]

theorem forall₂_triples {T T' : List Stmt} (h : List.Forall₂ SameStmt T T') :
    T.map stmtTriple = T'.map stmtTriple := by
  induction h with
  | nil => rfl
  | cons h _ ih => simp [ih, same_triple h]

theorem triple_terms {s : Subject} {p : Iri} {o : Object} {x : RdfTriple} (h : stmtTriple (.mk s p o) = some x) :
    subjectTerm s = some x.1 ∧ p = x.2.1 ∧ objectTerm o = some x.2.2 := by
  simp only [stmtTriple, Stmt.subject, Stmt.object, Stmt.predicate] at h
  split at h
  · rename_i h1 h2
    cases h
    exact ⟨h1, rfl, h2⟩
  · cases h

theorem subjectTerm_tells {s s' : Subject} {t : RdfTerm} (h : subjectTerm s = some t ∧ subjectTerm s' = some t) : s = s' := by
  obtain ⟨h, h'⟩ := h
  cases s <;> cases s' <;> simp [subjectTerm] at h h' <;> subst h <;> simp at h' ⊢ <;> exact h'.symm

/-- A triple tells the statement that was read. -/
theorem triple_tells {env : ReadEnv} (hp : AsciiPrintable env.pr) {s : Str} {g : Graph} (h : readNt env s = .ok g)
    {st st' : Stmt} (hs : st ∈ g.stmts) (hs' : st' ∈ g.stmts) (e : stmtTriple st = stmtTriple st') : st = st' := by
  have k := readNt_simple h st hs
  have k' := readNt_simple h st' hs'
  obtain ⟨a, p, o⟩ := st
  obtain ⟨a', p', o'⟩ := st'
  have lit : ∀ l l', o = .lit l → o' = .lit l' → SameLit l l' → l = l' := by
    rintro l l' rfl rfl ⟨h1, h2, h3⟩
    have q := (readNt_literal hp h hs).2.1
    have q' := (readNt_literal hp h hs').2.1
    obtain ⟨t, d, g⟩ := l
    obtain ⟨t', d', g'⟩ := l'
    simp only at h1 h2 h3 q q'
    subst h1 h3
    cases d with
    | none => cases d' with
      | none => rfl
      | some _ => cases h2
    | some d => cases d' with
      | none => cases h2
      | some d' =>
        obtain ⟨i, rfl⟩ := q _ rfl
        obtain ⟨j, rfl⟩ := q' _ rfl
        simp only [Option.map_some, DataType.asIri, Option.some.injEq] at h2
        rw [h2]
  cases a <;> cases o <;> simp [simple, simpleSubject, simpleObject, Stmt.subject, Stmt.object] at k <;>
  cases a' <;> cases o' <;> simp [simple, simpleSubject, simpleObject, Stmt.subject, Stmt.object] at k' <;>
  simp [stmtTriple, subjectTerm, objectTerm, Stmt.subject, Stmt.object, Stmt.predicate] at e ⊢ <;>
  first
    | exact e
    | exact ⟨e.1, e.2.1, lit _ _ rfl rfl e.2.2⟩

/-- A statement that was read and whose triple RDF/XML can say. -/
theorem read_xmlStmt {env : ReadEnv} (hp : AsciiPrintable env.pr) (hx : ∀ c, env.pr c = true → xmlPlain c = true) {s : Str}
    {g : Graph} (h : readNt env s = .ok g) {st : Stmt} (hs : st ∈ g.stmts) {x : RdfTriple} (e : stmtTriple st = some x)
    (hg : XmlTriple x) : XmlStmt st := by
  obtain ⟨a, p, o⟩ := st
  obtain ⟨h1, h2, h3⟩ := hg
  cases a <;> cases o <;> simp [stmtTriple, subjectTerm, objectTerm, Stmt.subject, Stmt.object, Stmt.predicate] at e <;> subst e <;>
    refine ⟨h1, h2, ?_⟩ <;> first | exact h3 | skip
  all_goals
    rename_i l
    obtain ⟨q1, q2, q3⟩ := readNt_literal hp h hs
    refine ⟨List.all_eq_true.2 fun c hc => hx c (q1 c hc).1, q3, fun t ht => h3.1 _ (by rw [ht]; rfl), h3.2⟩

theorem xmlTerm_read {env : ReadEnv} (pr : Char → Bool) {l : Line} {x : RdfTriple} (h : l.Means env x) (hx : XmlTriple x) :
    XmlTriple (readTriple pr l x) := by
  obtain ⟨s, p, o, g⟩ := l
  obtain ⟨xs, xp, xo⟩ := x
  obtain ⟨-, -, h⟩ := h
  obtain ⟨h1, h2, h3⟩ := hx
  refine ⟨h1, h2, ?_⟩
  match o, h with
  | .term t, h => exact h3
  | .lit a .none, h => obtain ⟨t, _, h⟩ := h; simp only at h; subst h; exact h3
  | .lit a (.lang g), h => obtain ⟨t, l, _, -, h⟩ := h; simp only at h; subst h; exact h3
  | .lit a (.type s), h => obtain ⟨t, u, i, _, -, -, h⟩ := h; simp only at h; subst h; exact h3

/-- What converting a document of N-Triples to RDF/XML gives to the XML crate. -/
def XmlGiven (e : CliEnv) (s : Str) (es : List XmlOut) : Prop :=
  ∃ g, readNt e.read s = .ok g ∧ writeXml e.gen e.startWrite e.sty true (str! "utf-8") e.orders 1 g = .ok es

/-- The output is what the crate makes of what it is given. -/
theorem xmlGiven_iff {e : CliEnv} {s out : Str} :
    cliMain e s (.convert .nTriples .xml) = .success out ↔ ∃ es, XmlGiven e s es ∧ out = e.xmlText es := by
  unfold XmlGiven
  cases hr : readNt e.read s with
  | ok g =>
    cases hw : writeXml e.gen e.startWrite e.sty true (str! "utf-8") e.orders 1 g with
    | ok es =>
      simp only [cliMain, cliRead, hr, Res.toRun, Run.bind, cliWrite, hw, Run.exit, Exit.success.injEq, Res.ok.injEq]
      constructor
      · rintro rfl; exact ⟨es, ⟨g, rfl, hw⟩, rfl⟩
      · rintro ⟨es', ⟨g', rfl, h⟩, rfl⟩
        rw [hw] at h
        cases h
        rfl
    | err | panic | deep =>
      simp only [cliMain, cliRead, hr, Res.toRun, Run.bind, cliWrite, hw, Run.exit, Res.ok.injEq]
      constructor
      · intro h; cases h
      · rintro ⟨es', ⟨g', rfl, h⟩, rfl⟩
        rw [hw] at h
        cases h
  | err | panic =>
    simp [cliMain, cliRead, hr, Res.toRun, Run.bind, Run.exit]

/-- The events say the triples. -/
def XmlSays (es : List XmlOut) (ls : List RdfTriple) : Prop :=
  ∃ ins T, deliver es = some ins ∧ (∀ gen n, RdfXml gen n ins T) ∧ StandFor T ls

/-- C156, exactly: a document of N-Triples whose triples RDF/XML can say is converted, and, with IRIs printed without brackets,
the result says what the document says if and only if no literal has anything to escape and no property of a known
namespace has two values at a subject. -/
theorem C156_iff (e : CliEnv) (first last : Str) (ls : List (Gaps × Line × RdfTriple)) (hb : e.sty = .bare)
    (hsane : SaneEnv e.read) (hpr : AsciiPrintable e.read.pr) (hx : ∀ c, e.read.pr c = true → xmlPlain c = true)
    (ho : e.orders.Fair) (hf : Gap first) (hl : LastGap last)
    (hv : ∀ x ∈ ls, x.2.1.g = none ∧ x.2.1.Valid ∧ x.1.Valid x.2.1 ∧ x.2.1.Means e.read x.2.2)
    (ht : ∀ x ∈ ls, XmlTriple x.2.2) :
    ∃ es, XmlGiven e (docText first last (ls.map fun x => (x.1, x.2.1))) es ∧
      (XmlSays es (ls.map fun x => x.2.2) ↔
        (∀ x ∈ ls, ∀ a, x.2.1.o.inner = some a → escapeString e.read.pr a = a) ∧ OnceEach (ls.map fun x => x.2.2)) := by
  obtain ⟨g, hr, hg⟩ := C83_reads e.read first last ls hsane hf hl hv
  have hst : ∀ st ∈ g.stmts, ∃ x ∈ ls, stmtTriple st = some (readTriple e.read.pr x.2.1 x.2.2) := by
    intro st hs
    obtain ⟨t, h⟩ := simple_triple (readNt_simple hr st hs)
    obtain ⟨x, hx, k⟩ := (hg t).1 ⟨st, hs, h⟩
    exact ⟨x, hx, by rw [k]; exact h⟩
  have hsim : (g.simplify e.gen e.startWrite).1.stmts = g.stmts := (C34_unchanged _ _ g (readNt_simple hr)).1
  have hxs : ∀ st ∈ (g.simplify e.gen e.startWrite).1.stmts, XmlStmt st := by
    rw [hsim]
    intro st hs
    obtain ⟨x, hm, k⟩ := hst st hs
    exact read_xmlStmt hpr hx hr hs k (xmlTerm_read _ (hv x hm).2.2.2 (ht x hm))
  obtain ⟨es, hes⟩ := writeXml_ok (enc := str! "utf-8") (d := 0) ho hxs
  refine ⟨es, ⟨g, hr, by rw [hb]; exact hes⟩, ?_⟩
  have key := C75_iff e.gen e.startWrite (str! "utf-8") e.orders ho 1 g hxs es hes
  rw [hsim] at key
  -- once nothing is escaped, the graph says the document
  have once : (∀ x ∈ ls, ∀ a, x.2.1.o.inner = some a → escapeString e.read.pr a = a) →
      (KnownOnce g.stmts ↔ OnceEach (ls.map fun x => x.2.2)) ∧ StandFor g.stmts (ls.map fun x => x.2.2) := by
    intro hesc
    have hid : ∀ x ∈ ls, readTriple e.read.pr x.2.1 x.2.2 = x.2.2 := fun x hx => (readTriple_id (hv x hx).2.2.2).2 (hesc x hx)
    have fwd : ∀ st ∈ g.stmts, ∃ x ∈ ls.map fun x => x.2.2, stmtTriple st = some x := fun st hs => by
      obtain ⟨x, hx, e⟩ := hst st hs
      exact ⟨_, List.mem_map_of_mem hx, by rw [e, hid x hx]⟩
    have bwd : ∀ x ∈ ls.map fun x => x.2.2, ∃ st ∈ g.stmts, stmtTriple st = some x := fun y hy => by
      obtain ⟨x, hx, rfl⟩ := List.mem_map.1 hy
      exact (hg _).2 ⟨x, hx, hid x hx⟩
    refine ⟨⟨fun h x hx y hy hk h1 h2 => ?_, fun h s p o o' hk h1 h2 => ?_⟩, fwd, bwd⟩
    · obtain ⟨⟨s, p, o⟩, hs, k⟩ := bwd x hx
      obtain ⟨⟨s', p', o'⟩, hs', k'⟩ := bwd y hy
      obtain ⟨t1, t2, t3⟩ := triple_terms k
      obtain ⟨u1, u2, u3⟩ := triple_terms k'
      have a1 : s = s' := subjectTerm_tells ⟨t1, by rw [u1, h1]⟩
      have a2 : p = p' := by rw [← t2, ← u2] at h2; exact h2
      subst a1 a2
      have := h s p o o' (by rw [← t2] at hk; exact hk) hs hs'
      subst this
      rw [t3] at u3
      exact Option.some.inj u3
    · obtain ⟨x, hx, k⟩ := fwd _ h1
      obtain ⟨y, hy, k'⟩ := fwd _ h2
      obtain ⟨t1, t2, t3⟩ := triple_terms k
      obtain ⟨u1, u2, u3⟩ := triple_terms k'
      rw [t1, Option.some.injEq] at u1
      have := h x hx y hy (by rw [← t2]; exact hk) u1 (by rw [← t2, ← u2])
      have h3 : x = y := Prod.ext u1 (Prod.ext (by rw [← t2, ← u2]) this)
      subst h3
      have := triple_tells hpr hr h1 h2 (by rw [k, k'])
      injection this
  constructor
  · rintro ⟨ins, T, h1, h2, h3, h4⟩
    have hk : KnownOnce g.stmts := by
      have := (C74_iff e.gen e.startWrite (str! "utf-8") e.orders ho 1 g hxs es hes).1 (by rw [h1]; rfl)
      rwa [hsim] at this
    obtain ⟨ins', T', k1, k2, k3⟩ := key.2 hk
    rw [h1] at k1
    cases k1
    have same := forall₂_triples (C75_unique blankGen 0 ins T T' (h2 _ _) (k2 _ _))
    have hesc : ∀ x ∈ ls, ∀ a, x.2.1.o.inner = some a → escapeString e.read.pr a = a := by
      refine (C83_iff e.read first last ls hsane hf hl hv).1 ⟨g, hr, fun t => ?_⟩
      have a1 : (∃ st ∈ g.stmts, stmtTriple st = some t) ↔ some t ∈ T'.map stmtTriple := by
        rw [List.mem_map]
        constructor
        · rintro ⟨st, hs, k⟩; exact ⟨st, (k3 st).2 hs, k⟩
        · rintro ⟨st, hs, k⟩; exact ⟨st, (k3 st).1 hs, k⟩
      rw [a1, ← same, List.mem_map]
      constructor
      · rintro ⟨st, hs, k⟩
        obtain ⟨x, hx, k'⟩ := h3 st hs
        rw [k] at k'
        cases k'
        exact hx
      · exact h4 t
    exact ⟨hesc, (once hesc).1.1 hk⟩
  · rintro ⟨hesc, h⟩
    obtain ⟨ins, T, k1, k2, k3⟩ := key.2 ((once hesc).1.2 h)
    refine ⟨ins, T, k1, k2, fun st hs => (once hesc).2.1 st ((k3 st).1 hs), fun x hx => ?_⟩
    obtain ⟨st, hs, k⟩ := (once hesc).2.2 x hx
    exact ⟨st, (k3 st).2 hs, k⟩

/-- In the style of the code no document with a triple is well formed RDF/XML. -/
theorem C156_fails_bracketed (e : CliEnv) (s : Str) (g : Graph) (es : List XmlOut) (hb : e.sty = .bracketed) (ho : e.orders.Fair)
    (hr : readNt e.read s = .ok g) (hne : g.stmts ≠ []) (h : XmlGiven e s es) : deliver es = none := by
  obtain ⟨g', hr', hw⟩ := h
  rw [hr] at hr'
  cases hr'
  rw [hb] at hw
  obtain ⟨st, hst⟩ := List.exists_mem_of_ne_nil _ hne
  refine C74_fails_brackets _ _ true _ _ ho _ g es st ?_ (.inl rfl) hw
  rw [(C34_unchanged _ _ g (readNt_simple hr)).1]
  exact hst

/-- C156, the full statement: a document of N-Triples converted to RDF/XML says what it said. -/
def C156_statement (sty : IriStyle) : Prop :=
  ∀ (e : CliEnv) (first last : Str) (ls : List (Gaps × Line × RdfTriple)), e.sty = sty → SaneEnv e.read →
    AsciiPrintable e.read.pr → (∀ c, e.read.pr c = true → xmlPlain c = true) → e.orders.Fair → Gap first → LastGap last →
    (∀ x ∈ ls, x.2.1.g = none ∧ x.2.1.Valid ∧ x.1.Valid x.2.1 ∧ x.2.1.Means e.read x.2.2) →
    (∀ x ∈ ls, XmlTriple x.2.2) →
    ∃ es, XmlGiven e (docText first last (ls.map fun x => (x.1, x.2.1))) es ∧ XmlSays es (ls.map fun x => x.2.2)

/-- The commands in an environment as the readers need it. -/
def xmlCli (sty : IriStyle) : CliEnv := { webCli sty with read := saneEnv }

/-- Documents about one subject with a property that has values. -/
def valueDoc (p : Str) (vs : List (Str × Str)) : List (Gaps × Line × RdfTriple) :=
  vs.map fun v => (blankGaps, ⟨.iri (str! "http://a/s"), p, .lit v.1 .none, none⟩,
    ((.iri ⟨str! "http://a/s"⟩, ⟨p⟩, .lit v.2 none none) : RdfTriple))

theorem valueDoc_valid {p : Str} {vs : List (Str × Str)} (hp : startsWith p '<' = false) (hb : '\\' ∉ p) (hi : IriText p)
    (hv : ∀ v ∈ vs, DecodesString v.1 v.2 ∧ QuoteText v.1) :
    ∀ x ∈ valueDoc p vs, x.2.1.g = none ∧ x.2.1.Valid ∧ x.1.Valid x.2.1 ∧ x.2.1.Means saneEnv x.2.2 := by
  intro x hx
  obtain ⟨v, hm, rfl⟩ := List.mem_map.1 hx
  obtain ⟨h1, h2⟩ := hv v hm
  refine ⟨rfl, ⟨iriText_chars (s := str! "http://a/s") (by decide), hi, ⟨h2, trivial⟩, by simp⟩, blankGaps_valid _,
    ⟨_, _, decodesIri_plain (by decide), rfl, rfl⟩, ⟨p, decodesIri_plain hb, ?_⟩, _, h1, rfl⟩
  simp [saneEnv, hp]

theorem saneEnv_plain : ∀ c, saneEnv.pr c = true → xmlPlain c = true := by
  intro c h
  have h : decide (0x20 ≤ c.toNat ∧ c.toNat < 0x7F) = true := h
  rw [decide_eq_true_eq] at h
  have : c.toNat ≤ 0x7E := by omega
  simp [xmlPlain, inCodeRanges, h.1, this]

/-- C156 fails in either style. -/
theorem C156_fails (sty : IriStyle) : ¬ C156_statement sty := by
  intro h
  have hv := valueDoc_valid (p := str! "http://a/p") (vs := [(str! "\\n", ['\n'])]) (by decide) (by decide) (iriText_chars (by decide))
    (by
      intro v hv
      rw [List.mem_singleton.1 hv]
      exact ⟨.echar (e := 'n') (by decide) .nil, [str! "\\n"], by simp [Echar, Uchar], by simp⟩)
  have hl : LastGap [] := ⟨[], [], .nil, rfl, .inl rfl⟩
  have ht : ∀ x ∈ valueDoc (str! "http://a/p") [(str! "\\n", ['\n'])], XmlTriple x.2.2 := by
    intro x hx
    rw [valueDoc, List.map_singleton, List.mem_singleton] at hx
    subst hx
    refine ⟨⟨by decide +kernel, by decide +kernel⟩, ⟨by decide, str! "http://a/", str! "p", ⟨rfl, ⟨str! "http://a", '/', rfl, .inr rfl⟩, ?_⟩,
      by decide +kernel, by decide +kernel⟩, by simp, by simp⟩
    simp [isSep]
  obtain ⟨es, h1, h2⟩ := h (xmlCli sty) [] [] _ rfl saneEnv_sane easyEnv_ascii saneEnv_plain sameOrder_fair .nil hl hv ht
  cases sty with
  | bare =>
    obtain ⟨es', h1', h3⟩ := C156_iff (xmlCli .bare) [] [] _ rfl saneEnv_sane easyEnv_ascii saneEnv_plain sameOrder_fair .nil hl hv ht
    obtain ⟨g, k1, k2⟩ := h1
    obtain ⟨g', k1', k2'⟩ := h1'
    rw [k1] at k1'
    cases k1'
    rw [k2] at k2'
    cases k2'
    exact absurd ((h3.1 h2).1 _ (List.mem_singleton.2 rfl) _ rfl) (by decide)
  | bracketed =>
    obtain ⟨g, k1, k2⟩ := h1
    obtain ⟨ins, T, h3, -⟩ := h2
    obtain ⟨g', k3, k4⟩ := C83_reads saneEnv [] [] _ saneEnv_sane .nil hl hv
    rw [show readNt (xmlCli IriStyle.bracketed).read _ = _ from k3] at k1
    cases k1
    obtain ⟨st, hs, -⟩ := (k4 _).2 ⟨_, List.mem_singleton.2 rfl, rfl⟩
    rw [C156_fails_bracketed (xmlCli .bracketed) _ g es rfl sameOrder_fair k3 (List.ne_nil_of_mem hs) ⟨g, k3, k2⟩] at h3
    cases h3

/-- C156 fails for two names of a person. -/
theorem C156_fails_twice (e : CliEnv) (first last : Str) (ls : List (Gaps × Line × RdfTriple)) (hb : e.sty = .bare)
    (hsane : SaneEnv e.read) (hpr : AsciiPrintable e.read.pr) (hx : ∀ c, e.read.pr c = true → xmlPlain c = true)
    (ho : e.orders.Fair) (hf : Gap first) (hl : LastGap last)
    (hv : ∀ x ∈ ls, x.2.1.g = none ∧ x.2.1.Valid ∧ x.1.Valid x.2.1 ∧ x.2.1.Means e.read x.2.2)
    (ht : ∀ x ∈ ls, XmlTriple x.2.2) {s v w : RdfTerm} {n : Str} (hvw : v ≠ w)
    (h1 : (s, ⟨str! "http://xmlns.com/foaf/0.1/" ++ n⟩, v) ∈ ls.map fun x => x.2.2)
    (h2 : (s, ⟨str! "http://xmlns.com/foaf/0.1/" ++ n⟩, w) ∈ ls.map fun x => x.2.2) (hn : ∀ c ∈ n, ¬isSep c) :
    ∀ es, XmlGiven e (docText first last (ls.map fun x => (x.1, x.2.1))) es → ¬XmlSays es (ls.map fun x => x.2.2) := by
  intro es hes h
  obtain ⟨es', h1', h3⟩ := C156_iff e first last ls hb hsane hpr hx ho hf hl hv ht
  obtain ⟨g, k1, k2⟩ := hes
  obtain ⟨g', k1', k2'⟩ := h1'
  rw [k1] at k1'
  cases k1'
  rw [k2] at k2'
  cases k2'
  exact hvw ((h3.1 h).2 _ h1 _ h2 ⟨_, n, ⟨rfl, ⟨str! "http://xmlns.com/foaf/0.1", '/', rfl, .inr rfl⟩, hn⟩, by simp [knownNamespaces]⟩ rfl rfl)

/-- C156, what holds. -/
theorem C156_partial (e : CliEnv) (first last : Str) (ls : List (Gaps × Line × RdfTriple)) (hb : e.sty = .bare)
    (hsane : SaneEnv e.read) (hpr : AsciiPrintable e.read.pr) (hx : ∀ c, e.read.pr c = true → xmlPlain c = true)
    (ho : e.orders.Fair) (hf : Gap first) (hl : LastGap last)
    (hv : ∀ x ∈ ls, x.2.1.g = none ∧ x.2.1.Valid ∧ x.1.Valid x.2.1 ∧ x.2.1.Means e.read x.2.2)
    (ht : ∀ x ∈ ls, XmlTriple x.2.2)
    (hesc : ∀ x ∈ ls, ∀ a, x.2.1.o.inner = some a → escapeString e.read.pr a = a)
    (honce : OnceEach (ls.map fun x => x.2.2)) :
    ∃ es, XmlGiven e (docText first last (ls.map fun x => (x.1, x.2.1))) es ∧ XmlSays es (ls.map fun x => x.2.2) := by
  obtain ⟨es, h1, h2⟩ := C156_iff e first last ls hb hsane hpr hx ho hf hl hv ht
  exact ⟨es, h1, h2.2 ⟨hesc, honce⟩⟩

/-! A document that says the same as RDF/XML: two values of a property outside the known namespaces. -/

example : ∃ es, XmlGiven (xmlCli .bare) (docText [] [] ((valueDoc (str! "http://a/p") [(['x'], ['x']), (['y'], ['y'])]).map
      fun x => (x.1, x.2.1))) es ∧
    XmlSays es ((valueDoc (str! "http://a/p") [(['x'], ['x']), (['y'], ['y'])]).map fun x => x.2.2) := by
  have hv := valueDoc_valid (p := str! "http://a/p") (vs := [(['x'], ['x']), (['y'], ['y'])]) (by decide) (by decide)
    (iriText_chars (by decide)) (by
      intro v hv
      simp only [List.mem_cons, List.not_mem_nil, or_false] at hv
      rcases hv with rfl | rfl
      · exact ⟨.plain (by decide) .nil, tokens_of_chars fun c hc => .inl ⟨c, by rw [List.mem_singleton.1 hc]; decide, rfl⟩⟩
      · exact ⟨.plain (by decide) .nil, tokens_of_chars fun c hc => .inl ⟨c, by rw [List.mem_singleton.1 hc]; decide, rfl⟩⟩)
  have hl : LastGap [] := ⟨[], [], .nil, rfl, .inl rfl⟩
  have hp : XmlProperty ⟨str! "http://a/p"⟩ := ⟨by decide, str! "http://a/", str! "p",
    ⟨rfl, ⟨str! "http://a", '/', rfl, .inr rfl⟩, by simp [isSep]⟩, by decide +kernel, by decide +kernel⟩
  refine C156_partial (xmlCli .bare) [] [] _ rfl saneEnv_sane easyEnv_ascii saneEnv_plain sameOrder_fair .nil hl hv ?_ ?_ ?_
  · intro x hx
    obtain ⟨v, -, rfl⟩ := List.mem_map.1 hx
    exact ⟨⟨by decide +kernel, by decide +kernel⟩, hp, by simp, by simp⟩
  · intro x hx a ha
    simp only [valueDoc, List.map_cons, List.map_nil, List.mem_cons, List.not_mem_nil, or_false] at hx
    rcases hx with rfl | rfl <;> cases ha <;> decide +kernel
  · intro x hx y hy ⟨ns, name, h1, h2⟩
    exfalso
    obtain ⟨z, hz, rfl⟩ := List.mem_map.1 hx
    obtain ⟨v, -, rfl⟩ := List.mem_map.1 hz
    have e : ns ++ name = str! "http://a/p" := h1.1
    have key : ∀ k ∈ knownNamespaces, k.isPrefixOf (str! "http://a/p") = false := by decide +kernel
    have := key ns h2
    rw [← e, List.isPrefixOf_iff_prefix.2 (List.prefix_append ns name)] at this
    cases this

end Rdftk
