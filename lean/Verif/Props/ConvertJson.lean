import Verif.Props.NTSays
import Verif.Props.JsonMeaning

/-! What N-Triples documents say and what they say as RDF/JSON: C158. -/

namespace Rdftk
open Spec

theorem simple_shallow {st : Stmt} (h : simple st = true) : shallow st = true := by
  obtain ⟨s, p, o⟩ := st
  cases s <;> cases o <;> first | rfl | (exfalso; revert h; simp [simple, simpleSubject, simpleObject, Stmt.subject, Stmt.object])

/-- The text is a document of RDF/JSON, of the form of the note, that says the triples. -/
def JsonSays (env : ReadEnv) (s : Str) (ts : List RdfTriple) : Prop :=
  ∃ m, jParse s = some (.obj m) ∧ NoteForm env m ∧ ∀ t, t ∈ ts ↔ ∃ e ∈ entries m, EntryMeans env e t

/-- What is written: the entries are those of the statements, and no subject or predicate is without entries. -/
theorem json_form {gen : Nat → Str} {n : Nat} {o : Orders} (ho : o.Fair) {sty : IriStyle} {pretty : Bool} {g : Graph} {t : Str}
    (hw : writeJson gen n o sty pretty g = some t) :
    ∃ m, jParse t = some (.obj m) ∧
      (∀ e ∈ m, ∃ ps, e.2 = .obj ps ∧ ps ≠ [] ∧ ∀ f ∈ ps, ∃ os, f.2 = .arr os ∧ os ≠ []) ∧
      (∀ k p j, (k, p, j) ∈ entries m ↔ ∃ st ∈ (g.simplify gen n).1.stmts,
        st.subject.display sty = k ∧ st.predicate.fmt sty = p ∧ nodeValue (Iri.fmt sty) id st.object = some j) := by
  have hns := simplify_no_nested gen n g
  simp only [writeJson, jsonGraph, jsonSubjects_eq] at hw
  generalize (g.simplify gen n).1 = g at hns hw
  split at hw
  · rename_i hok
    simp only [Option.map_some, Option.some.injEq] at hw
    subst hw
    rw [all_ok_iff ho] at hok
    have hv := visit_mem ho g
    simp only [Graph.visit, List.mem_flatMap, List.mem_map] at hv
    have hobj : ∀ s ∈ o.subj g.subjects, ∀ p ∈ o.pred s (g.predicatesFor s), o.obj s p (g.objectsFor s p) ≠ [] := by
      intro s _ p hp e
      obtain ⟨z, hz⟩ := mem_predicatesFor.1 ((ho.2.1 s _).mem_iff.1 hp)
      obtain ⟨s', _, p', _, z', hz', k⟩ := (hv _).2 hz
      cases k
      rw [e] at hz'
      cases hz'
    have hpred : ∀ s ∈ o.subj g.subjects, o.pred s (g.predicatesFor s) ≠ [] := by
      intro s hs e
      obtain ⟨⟨s', p, z⟩, hst, rfl⟩ := (mem_setOf.trans List.mem_map).1 ((ho.1 _).mem_iff.1 hs)
      obtain ⟨s'', _, p', hp', z', _, k⟩ := (hv _).2 hst
      cases k
      simp only [Stmt.subject] at e
      rw [e] at hp'
      cases hp'
    refine ⟨_, jParse_text _ _ (graph_fits _ _ _ _), ?_, ?_⟩
    · intro e he
      obtain ⟨s, hs, rfl⟩ := (mem_subjects ho sty _ hns _).1 he
      refine ⟨_, rfl, ?_, ?_⟩
      · obtain ⟨p, hp⟩ := List.exists_mem_of_ne_nil _ (hpred s hs)
        exact List.ne_nil_of_mem ((mem_predicates ho sty _ s _).2 ⟨p, hp, rfl⟩)
      · intro f hf
        obtain ⟨p, hp, rfl⟩ := (mem_predicates ho sty _ s _).1 hf
        exact ⟨_, rfl, fun h => hobj s hs p hp (List.map_eq_nil_iff.1 h)⟩
    · intro k p j
      simp only [entries, List.mem_flatMap]
      constructor
      · rintro ⟨e, he, h⟩
        obtain ⟨s, hs, rfl⟩ := (mem_subjects ho sty _ hns _).1 he
        simp only [subjEntry, List.mem_flatMap] at h
        obtain ⟨f, hf, h⟩ := h
        obtain ⟨q, hq, rfl⟩ := (mem_predicates ho sty _ s _).1 hf
        simp only [predEntry, List.mem_map] at h
        obtain ⟨_, ⟨z, hz, rfl⟩, h⟩ := h
        cases h
        have := (hv (.mk s q z)).1 ⟨s, hs, q, hq, z, hz, rfl⟩
        exact ⟨_, this, rfl, rfl, jsonVal_value (hok _ this)⟩
      · rintro ⟨st, hst, rfl, rfl, h⟩
        obtain ⟨s, hs, q, hq, z, hz, rfl⟩ := (hv st).2 hst
        refine ⟨_, (mem_subjects ho sty _ hns _).2 ⟨s, hs, rfl⟩, ?_⟩
        simp only [subjEntry, List.mem_flatMap]
        refine ⟨_, (mem_predicates ho sty _ s _).2 ⟨q, hq, rfl⟩, ?_⟩
        simp only [predEntry, List.mem_map]
        refine ⟨_, ⟨z, hz, rfl⟩, ?_⟩
        rw [jsonVal_value (hok _ hst)] at h
        simp only [Option.some.injEq] at h
        rw [← h]
        rfl
  · cases hw

/-- A document in which all subjects and predicates have entries has the form of the note if and only if the entries stand
for something. -/
theorem noteForm_iff {env : ReadEnv} {m : List (Str × Json)}
    (h : ∀ e ∈ m, ∃ ps, e.2 = .obj ps ∧ ps ≠ [] ∧ ∀ f ∈ ps, ∃ os, f.2 = .arr os ∧ os ≠ []) :
    NoteForm env m ↔ ∀ e ∈ entries m, ∃ t, EntryMeans env e t := by
  have mem : ∀ k p j, (k, p, j) ∈ entries m ↔ ∃ ps os, (k, Json.obj ps) ∈ m ∧ (p, Json.arr os) ∈ ps ∧ j ∈ os := by
    intro k p j
    simp only [entries, List.mem_flatMap]
    constructor
    · rintro ⟨⟨k', v⟩, he, hx⟩
      obtain ⟨ps, rfl, -, hp⟩ := h _ he
      simp only [List.mem_flatMap] at hx
      obtain ⟨⟨p', w⟩, hf, hx⟩ := hx
      obtain ⟨os, rfl, -⟩ := hp _ hf
      simp only [List.mem_map] at hx
      obtain ⟨j', hj, hx⟩ := hx
      cases hx
      exact ⟨ps, os, he, hf, hj⟩
    · rintro ⟨ps, os, he, hf, hj⟩
      exact ⟨_, he, List.mem_flatMap.2 ⟨_, hf, List.mem_map.2 ⟨_, hj, rfl⟩⟩⟩
  constructor
  · rintro hn ⟨k, p, j⟩ he
    obtain ⟨ps, os, he, hf, hj⟩ := (mem k p j).1 he
    obtain ⟨⟨x, hx⟩, ps', e, hn⟩ := hn _ he
    cases e
    obtain ⟨⟨i, hi⟩, os', e, hn⟩ := hn _ hf
    cases e
    obtain ⟨y, hy⟩ := hn _ hj
    exact ⟨(x, i, y), hx, hi, hy⟩
  · intro hn e he
    obtain ⟨k, v⟩ := e
    obtain ⟨ps, rfl, hne, hp⟩ := h _ he
    have hf : ∀ f ∈ ps, ∃ os, f.2 = .arr os ∧ os ≠ [] ∧ ∀ j ∈ os, ∃ t, EntryMeans env (k, f.1, j) t := by
      rintro ⟨p, w⟩ hf
      obtain ⟨os, rfl, ho⟩ := hp _ hf
      exact ⟨os, rfl, ho, fun j hj => hn _ ((mem k p j).2 ⟨ps, os, he, hf, hj⟩)⟩
    refine ⟨?_, ps, rfl, fun f hfm => ?_⟩
    · obtain ⟨f, hfm⟩ := List.exists_mem_of_ne_nil _ hne
      obtain ⟨os, -, ho, hj⟩ := hf f hfm
      obtain ⟨j, hjm⟩ := List.exists_mem_of_ne_nil _ ho
      obtain ⟨t, ht⟩ := hj j hjm
      exact ⟨_, ht.1⟩
    · obtain ⟨os, h1, ho, hj⟩ := hf f hfm
      obtain ⟨j, hjm⟩ := List.exists_mem_of_ne_nil _ ho
      obtain ⟨t, ht⟩ := hj j hjm
      exact ⟨⟨_, ht.2.1⟩, os, h1, fun j hj' => by
        obtain ⟨t, ht⟩ := hj j hj'
        exact ⟨_, ht.2.2⟩⟩

/-- Terms that RDF/JSON can name: their IRIs and tags are accepted as they are. -/
def TermTaken (env : ReadEnv) : RdfTerm → Prop
  | .iri i => env.url i.text = some i
  | .blank b => Label b
  | .lit _ d g => (∀ i, d = some i → env.url i.text = some i) ∧ (∀ h, g = some h → env.lang h = some h) ∧ (d = none ∨ g = none)

theorem value_taken {env : ReadEnv} {o : Object} {y : RdfTerm} {j : Json} (h : objectTerm o = some y) (hg : TermTaken env y)
    (hb : ∀ b, o ≠ .blank b) (hj : nodeValue (Iri.fmt .bare) id o = some j) : ValueMeans env j y := by
  cases o with
  | blank b => exact absurd rfl (hb b)
  | res i =>
    cases h
    cases hj
    exact ⟨_, str! "uri", i.text, rfl, rfl, rfl, .inl ⟨rfl, i, hg, rfl⟩⟩
  | lit l =>
    cases h
    cases hj
    obtain ⟨t, d, g⟩ := l
    obtain ⟨h1, h2, h3⟩ := hg
    refine ⟨_, str! "literal", t, rfl, by cases d <;> cases g <;> rfl, by cases d <;> cases g <;> rfl, .inr (.inr ⟨rfl, ?_⟩)⟩
    cases d with
    | none =>
      cases g with
      | none => exact .inl ⟨rfl, rfl, rfl⟩
      | some g => exact .inr (.inl ⟨g, g, rfl, rfl, h2 g rfl, rfl⟩)
    | some d =>
      cases g with
      | none => exact .inr (.inr ⟨_, d.asIri, rfl, rfl, h1 _ rfl, rfl⟩)
      | some g => exact absurd h3 (by simp)
  | coll _ => cases h
  | stmt _ => cases h

/-- What the value for a blank node stands for. -/
theorem value_blank {env : ReadEnv} {sty : IriStyle} {b : Str} {j : Json} {y : RdfTerm}
    (hj : nodeValue (Iri.fmt sty) id (.blank b) = some j) (h : ValueMeans env j y) : ∃ c, b = '_' :: ':' :: c ∧ y = .blank c := by
  cases hj
  obtain ⟨m, t, v, e, h1, h2, h⟩ := h
  cases e
  cases (h1 : some (Json.str (str! "bnode")) = some (.str t))
  cases (h2 : some (Json.str b) = some (.str v))
  rcases h with ⟨e, -⟩ | ⟨-, c, e, -, rfl⟩ | ⟨e, -⟩
  · exact absurd e (by decide)
  · exact ⟨c, e, rfl⟩
  · exact absurd e (by decide)

/-- C158 for graphs: the document says the triples of the graph if and only if no subject is an IRI and no object a blank node;
if it says other triples, those have other blank nodes as objects. -/
theorem json_says {env : ReadEnv} (he : SaneEnv env) {gen : Nat → Str} {n : Nat} {o : Orders} (ho : o.Fair) {pretty : Bool}
    {g : Graph} {t : Str} (hw : writeJson gen n o .bare pretty g = some t)
    (hg : ∀ st ∈ (g.simplify gen n).1.stmts, ∃ x, stmtTriple st = some x ∧ TermTaken env x.1 ∧ env.url x.2.1.text = some x.2.1 ∧
      TermTaken env x.2.2) (ts : List RdfTriple)
    (hts : ∀ b, (∃ x ∈ ts, x.2.2 = .blank b) → ∃ st ∈ (g.simplify gen n).1.stmts, st.object = .blank b) :
    JsonSays env t ts ↔
      (∀ st ∈ (g.simplify gen n).1.stmts, (∀ i, st.subject ≠ .res i) ∧ ∀ b, st.object ≠ .blank b) ∧
      ∀ x, x ∈ ts ↔ ∃ st ∈ (g.simplify gen n).1.stmts, stmtTriple st = some x := by
  obtain ⟨m, hm, hform, hent⟩ := json_form ho hw
  have hval : ∀ st ∈ (g.simplify gen n).1.stmts, ∃ j, nodeValue (Iri.fmt .bare) id st.object = some j := by
    rintro ⟨s, p, z⟩ hst
    obtain ⟨x, hx, -⟩ := hg _ hst
    obtain ⟨-, -, h⟩ := triple_terms hx
    cases z <;> first | exact ⟨_, rfl⟩ | cases h
  -- once subjects and objects are as they should, each entry stands for the triple of its statement
  have good : (∀ st ∈ (g.simplify gen n).1.stmts, (∀ i, st.subject ≠ .res i) ∧ ∀ b, st.object ≠ .blank b) →
      ∀ st ∈ (g.simplify gen n).1.stmts, ∀ j, nodeValue (Iri.fmt .bare) id st.object = some j → ∀ x, stmtTriple st = some x →
        EntryMeans env (st.subject.display .bare, st.predicate.fmt .bare, j) x := by
    rintro h ⟨s, p, z⟩ hst j hj x hx
    obtain ⟨x', hx', g1, g2, g3⟩ := hg _ hst
    rw [hx] at hx'
    cases hx'
    obtain ⟨t1, t2, t3⟩ := triple_terms hx
    subst t2
    refine ⟨?_, g2, value_taken t3 g3 (h _ hst).2 hj⟩
    cases s with
    | blank b =>
      simp only [subjectTerm, Option.some.injEq] at t1
      rw [← t1] at g1 ⊢
      exact .inl ⟨b, rfl, g1, rfl⟩
    | res i => exact absurd rfl ((h _ hst).1 i)
    | stmt _ => cases t1
  constructor
  · rintro ⟨m', hm', hn, hs⟩
    rw [hm] at hm'
    cases hm'
    rw [noteForm_iff hform] at hn
    have nosub : ∀ st ∈ (g.simplify gen n).1.stmts, ∀ i, st.subject ≠ .res i := by
      intro st hst i e
      obtain ⟨j, hj⟩ := hval st hst
      obtain ⟨x, h, -⟩ := hn _ ((hent _ _ j).2 ⟨st, hst, rfl, rfl, hj⟩)
      rw [e] at h
      rcases h with ⟨b, h, -⟩ | ⟨-, k, h, -⟩
      · simp [Subject.display] at h
      · simp only [Subject.display, List.cons_append] at h
        rw [he.1] at h
        cases h
    have noblank : ∀ k, ∀ st ∈ (g.simplify gen n).1.stmts, ∀ b, st.object = .blank b → b.length < k → False := by
      intro k
      induction k with
      | zero => intro _ _ _ _ h; omega
      | succ k ih =>
        intro st hst b e hb
        obtain ⟨j, hj⟩ := hval st hst
        have hmem := (hent _ _ j).2 ⟨st, hst, rfl, rfl, hj⟩
        obtain ⟨x, h⟩ := hn _ hmem
        obtain ⟨c, rfl, hx⟩ := value_blank (by rw [← e]; exact hj) h.2.2
        obtain ⟨st', hst', e'⟩ := hts c ⟨x, (hs x).2 ⟨_, hmem, h⟩, hx⟩
        exact ih st' hst' c e' (by simp only [List.length_cons] at hb; omega)
    have hgood := good fun st hst => ⟨nosub st hst, fun b e => noblank _ st hst b e (Nat.lt_succ_self _)⟩
    refine ⟨fun st hst => ⟨nosub st hst, fun b e => noblank _ st hst b e (Nat.lt_succ_self _)⟩, fun x => ?_⟩
    rw [hs]
    constructor
    · rintro ⟨⟨k, p, j⟩, hm, h⟩
      obtain ⟨st, hst, rfl, rfl, hj⟩ := (hent _ _ _).1 hm
      obtain ⟨y, hy, -⟩ := hg st hst
      have := C127_unique env _ _ _ h (hgood st hst j hj y hy)
      exact ⟨st, hst, by rw [hy, this]⟩
    · rintro ⟨st, hst, hx⟩
      obtain ⟨j, hj⟩ := hval st hst
      exact ⟨_, (hent _ _ j).2 ⟨st, hst, rfl, rfl, hj⟩, hgood st hst j hj x hx⟩
  · rintro ⟨h, hs⟩
    have hgood := good h
    refine ⟨m, hm, (noteForm_iff hform).2 ?_, fun x => ?_⟩
    · rintro ⟨k, p, j⟩ hm
      obtain ⟨st, hst, rfl, rfl, hj⟩ := (hent _ _ _).1 hm
      obtain ⟨y, hy, -⟩ := hg st hst
      exact ⟨y, hgood st hst j hj y hy⟩
    · rw [hs]
      constructor
      · rintro ⟨st, hst, hx⟩
        obtain ⟨j, hj⟩ := hval st hst
        exact ⟨_, (hent _ _ j).2 ⟨st, hst, rfl, rfl, hj⟩, hgood st hst j hj x hx⟩
      · rintro ⟨⟨k, p, j⟩, hm, h⟩
        obtain ⟨st, hst, rfl, rfl, hj⟩ := (hent _ _ _).1 hm
        obtain ⟨y, hy, -⟩ := hg st hst
        have := C127_unique env _ _ _ h (hgood st hst j hj y hy)
        exact ⟨st, hst, by rw [hy, this]⟩

/-- With IRIs in brackets nothing is said but by the empty document. -/
theorem json_bracketed {env : ReadEnv} (he : SaneEnv env) {gen : Nat → Str} {n : Nat} {o : Orders} (ho : o.Fair) {pretty : Bool}
    {g : Graph} {t : Str} (hw : writeJson gen n o .bracketed pretty g = some t) (hne : (g.simplify gen n).1.stmts ≠ [])
    (hs : ∀ st ∈ (g.simplify gen n).1.stmts, simple st = true) (ts : List RdfTriple) : ¬ JsonSays env t ts := by
  rintro ⟨m, hm, hn, -⟩
  obtain ⟨m', hm', hform, hent⟩ := json_form ho hw
  rw [hm] at hm'
  cases hm'
  rw [noteForm_iff hform] at hn
  obtain ⟨⟨s, p, z⟩, hst⟩ := List.exists_mem_of_ne_nil _ hne
  obtain ⟨j, hj⟩ : ∃ j, nodeValue (Iri.fmt .bracketed) id z = some j := by
    obtain ⟨x, hx⟩ := simple_triple (hs _ hst)
    obtain ⟨-, -, h⟩ := triple_terms hx
    cases z <;> first | exact ⟨_, rfl⟩ | cases h
  obtain ⟨x, -, h, -⟩ := hn _ ((hent _ _ j).2 ⟨_, hst, rfl, rfl, hj⟩)
  simp only [Stmt.predicate, Iri.fmt, List.cons_append] at h
  rw [he.1] at h
  cases h

theorem termTaken_means {env : ReadEnv} (he : StrictEnv env) {l : Line} {x : RdfTriple} (hv : l.Valid) (h : l.Means env x) :
    TermTaken env x.1 ∧ env.url x.2.1.text = some x.2.1 ∧ TermTaken env x.2.2 := by
  obtain ⟨s, p, o, g⟩ := l
  obtain ⟨xs, xp, xo⟩ := x
  have term : ∀ (t : Term) (y : RdfTerm), t.Valid → t.Means env y → TermTaken env y := by
    intro t y hv hm
    cases t with
    | iri s => obtain ⟨t, i, -, h, rfl⟩ := hm; exact (he.url _ _ h).2
    | blank l => cases (hm : y = .blank l); exact hv
  obtain ⟨h1, ⟨_, -, h2⟩, h3⟩ := h
  refine ⟨term _ _ hv.1 h1, (he.url _ _ h2).2, ?_⟩
  match o, h3 with
  | .term t, h => exact term _ _ hv.2.2.1 h
  | .lit a .none, h =>
    obtain ⟨t, -, h⟩ := h
    simp only at h
    subst h
    exact ⟨fun i e => by (cases e), fun i e => by (cases e), .inl rfl⟩
  | .lit a (.lang g), h =>
    obtain ⟨t, l, -, hl, h⟩ := h
    simp only at h
    subst h
    exact ⟨fun i e => by (cases e), fun i e => by (cases e; exact (he.lang _ _ hl).2), .inl rfl⟩
  | .lit a (.type s), h =>
    obtain ⟨t, u, i, -, -, hu, h⟩ := h
    simp only at h
    subst h
    exact ⟨fun i e => by (cases e; exact (he.url _ _ hu).2), fun i e => by (cases e), .inr rfl⟩

theorem termTaken_read {env : ReadEnv} (he : StrictEnv env) (pr : Char → Bool) {l : Line} {x : RdfTriple} (hv : l.Valid)
    (h : l.Means env x) : TermTaken env (readTriple pr l x).1 ∧ env.url (readTriple pr l x).2.1.text = some (readTriple pr l x).2.1 ∧
      TermTaken env (readTriple pr l x).2.2 := by
  obtain ⟨h1, h2, h3⟩ := termTaken_means he hv h
  refine ⟨h1, h2, ?_⟩
  rw [readTriple_raw pr h]
  rcases raw_literal h with ⟨-, k, k'⟩ | ⟨a, t, d, g, -, k2, -, k4⟩
  · rw [k]
    split
    · rename_i e; exact absurd e (k' _ _ _)
    · exact h3
  · rw [k4]
    rw [k2] at h3
    exact h3

/-- C158, exactly: a document of N-Triples converted to RDF/JSON, with IRIs once in brackets, says what it said if and only if no
subject is an IRI, no object a blank node, and no literal has anything to escape. -/
theorem C158_iff (e : CliEnv) (first last : Str) (ls : List (Gaps × Line × RdfTriple)) (hb : e.sty = .bare)
    (he : StrictEnv e.read) (hsane : SaneEnv e.read) (ho : e.orders.Fair) (hf : Gap first)
    (hl : LastGap last) (hv : ∀ x ∈ ls, x.2.1.g = none ∧ x.2.1.Valid ∧ x.1.Valid x.2.1 ∧ x.2.1.Means e.read x.2.2) :
    (∃ out, cliMain e (docText first last (ls.map fun x => (x.1, x.2.1))) (.convert .nTriples .json) = .success out ∧
      JsonSays e.read out (ls.map fun x => x.2.2)) ↔
    ∀ x ∈ ls, (∀ i, x.2.2.1 ≠ .iri i) ∧ (∀ b, x.2.2.2.2 ≠ .blank b) ∧
      ∀ a, x.2.1.o.inner = some a → escapeString e.read.pr a = a := by
  obtain ⟨g, hr, hg⟩ := C83_reads e.read first last ls hsane hf hl hv
  have hesc := C83_iff e.read first last ls hsane hf hl hv
  have hsim : (g.simplify e.gen e.startWrite).1.stmts = g.stmts := (C34_unchanged _ _ g (readNt_simple hr)).1
  have hst : ∀ st ∈ g.stmts, ∃ x ∈ ls, stmtTriple st = some (readTriple e.read.pr x.2.1 x.2.2) := by
    intro st hs
    obtain ⟨t, h⟩ := simple_triple (readNt_simple hr st hs)
    obtain ⟨x, hx, k⟩ := (hg t).1 ⟨st, hs, h⟩
    exact ⟨x, hx, by rw [k]; exact h⟩
  have hobj : ∀ x ∈ ls, ∀ b, (readTriple e.read.pr x.2.1 x.2.2).2.2 = .blank b ↔ x.2.2.2.2 = .blank b := by
    intro x hx b
    rw [readTriple_raw _ (hv x hx).2.2.2]
    rcases raw_literal (hv x hx).2.2.2 with ⟨-, k, k'⟩ | ⟨a, t, d, g, -, k2, -, k4⟩
    · rw [k]
      split
      · rename_i e; exact absurd e (k' _ _ _)
      · exact Iff.rfl
    · rw [k4, k2]
      simp
  cases hw : writeJson e.gen e.startWrite e.orders .bare false g with
  | none =>
    obtain ⟨st, hs, h⟩ := (C64_refuses _ _ _ ho _ _ _).1 hw
    exact absurd h (by rw [simple_shallow (readNt_simple hr st hs)]; simp)
  | some out =>
    have hc : cliMain e (docText first last (ls.map fun x => (x.1, x.2.1))) (.convert .nTriples .json) = .success out := by
      simp only [cliMain, cliRead, hr, Res.toRun, Run.bind, cliWrite, hb, hw, Run.ofOption, Run.exit]
    have key := json_says hsane ho hw (by
      rw [hsim]
      intro st hs
      obtain ⟨x, hx, k⟩ := hst st hs
      exact ⟨_, k, termTaken_read he _ (hv x hx).2.1 (hv x hx).2.2.2⟩) (ls.map fun x => x.2.2) (by
      rw [hsim]
      rintro b ⟨y, hy, hyb⟩
      obtain ⟨x, hx, rfl⟩ := List.mem_map.1 hy
      obtain ⟨⟨s, p, z⟩, hs, k⟩ := (hg _).2 ⟨x, hx, rfl⟩
      obtain ⟨-, -, t3⟩ := triple_terms k
      rw [(hobj x hx b).2 hyb] at t3
      refine ⟨_, hs, ?_⟩
      cases z <;> simp [objectTerm] at t3
      rw [t3]; rfl)
    rw [hsim] at key
    have same : (∀ x, x ∈ (ls.map fun x => x.2.2) ↔ ∃ st ∈ g.stmts, stmtTriple st = some x) ↔
        ∀ x ∈ ls, ∀ a, x.2.1.o.inner = some a → escapeString e.read.pr a = a := by
      rw [← hesc]
      constructor
      · exact fun h => ⟨g, hr, fun t => (h t).symm⟩
      · rintro ⟨g', hr', h⟩ t
        rw [hr] at hr'
        cases hr'
        exact (h t).symm
    rw [same] at key
    constructor
    · rintro ⟨out', hc', hs⟩
      rw [hc] at hc'
      cases hc'
      obtain ⟨h1, h2⟩ := key.1 hs
      intro x hx
      obtain ⟨⟨s, p, z⟩, hs, k⟩ := (hg _).2 ⟨x, hx, rfl⟩
      obtain ⟨t1, -, t3⟩ := triple_terms k
      refine ⟨fun i e' => ?_, fun b e' => ?_, h2 x hx⟩
      · have t1 : subjectTerm s = some x.2.2.1 := t1
        rw [e'] at t1
        cases s <;> simp [subjectTerm] at t1
        exact (h1 _ hs).1 _ rfl
      · rw [(hobj x hx b).2 e'] at t3
        cases z <;> simp [objectTerm] at t3
        exact (h1 _ hs).2 _ rfl
    · intro h
      refine ⟨out, hc, key.2 ⟨fun st hs => ?_, fun x hx => (h x hx).2.2⟩⟩
      obtain ⟨x, hx, k⟩ := hst st hs
      obtain ⟨s, p, z⟩ := st
      obtain ⟨t1, -, t3⟩ := triple_terms k
      constructor
      · rintro i (rfl : s = _)
        simp only [subjectTerm, Option.some.injEq] at t1
        exact (h x hx).1 i t1.symm
      · rintro b (rfl : z = _)
        simp only [objectTerm, Option.some.injEq] at t3
        exact (h x hx).2.1 b ((hobj x hx b).1 t3.symm)

/-- In the style of the code the result says nothing, if there is a triple. -/
theorem C158_fails_bracketed (e : CliEnv) (first last : Str) (ls : List (Gaps × Line × RdfTriple)) (hb : e.sty = .bracketed)
    (hsane : SaneEnv e.read) (ho : e.orders.Fair) (hf : Gap first)
    (hl : LastGap last) (hv : ∀ x ∈ ls, x.2.1.g = none ∧ x.2.1.Valid ∧ x.1.Valid x.2.1 ∧ x.2.1.Means e.read x.2.2)
    (hne : ls ≠ []) :
    ∃ out, cliMain e (docText first last (ls.map fun x => (x.1, x.2.1))) (.convert .nTriples .json) = .success out ∧
      ∀ ts, ¬ JsonSays e.read out ts := by
  obtain ⟨g, hr, hg⟩ := C83_reads e.read first last ls hsane hf hl hv
  have hsim : (g.simplify e.gen e.startWrite).1.stmts = g.stmts := (C34_unchanged _ _ g (readNt_simple hr)).1
  cases hw : writeJson e.gen e.startWrite e.orders .bracketed false g with
  | none =>
    obtain ⟨st, hs, h⟩ := (C64_refuses _ _ _ ho _ _ _).1 hw
    exact absurd h (by rw [simple_shallow (readNt_simple hr st hs)]; simp)
  | some out =>
    obtain ⟨x, hx⟩ := List.exists_mem_of_ne_nil _ hne
    obtain ⟨st, hst, -⟩ := (hg _).2 ⟨x, hx, rfl⟩
    exact ⟨out, by simp only [cliMain, cliRead, hr, Res.toRun, Run.bind, cliWrite, hb, hw, Run.ofOption, Run.exit],
      json_bracketed hsane ho hw (by rw [hsim]; exact List.ne_nil_of_mem hst) (by rw [hsim]; exact readNt_simple hr)⟩

/-- C158, the full statement: a document of N-Triples converted to RDF/JSON says what it said. -/
def C158_statement (sty : IriStyle) : Prop :=
  ∀ (e : CliEnv) (s : Str) (ts : List RdfTriple), e.sty = sty → StrictEnv e.read → SaneEnv e.read →
    e.orders.Fair → NtSays e.read s ts →
    ∃ out, cliMain e s (.convert .nTriples .json) = .success out ∧ JsonSays e.read out ts

/-- C158 fails in either style: an IRI as subject is enough. -/
theorem C158_fails (sty : IriStyle) : ¬ C158_statement sty := by
  intro h
  have hv := literalDoc_valid (a := ['v']) (t := ['v']) (.plain (by decide) .nil)
    (tokens_of_chars fun c hc => .inl ⟨c, by rw [List.mem_singleton.1 hc]; decide, rfl⟩)
  have hl : LastGap [] := ⟨[], [], .nil, rfl, .inl rfl⟩
  obtain ⟨out, h1, h2⟩ := h (docCli sty) _ _ rfl docEnv_strict docEnv_sane sameOrder_fair
    ⟨[], [], _, .nil, hl, hv, rfl, fun _ => Iff.rfl⟩
  cases sty with
  | bare =>
    exact ((C158_iff (docCli .bare) [] [] _ rfl docEnv_strict docEnv_sane sameOrder_fair .nil hl hv).1
      ⟨out, h1, h2⟩ _ (List.mem_singleton.2 rfl)).1 _ rfl
  | bracketed =>
    obtain ⟨out', h1', h2'⟩ := C158_fails_bracketed (docCli .bracketed) [] [] _ rfl docEnv_sane sameOrder_fair .nil
      hl hv (by simp [literalDoc])
    rw [h1] at h1'
    cases h1'
    exact h2' _ h2

/-- C158, what holds. -/
theorem C158_partial (e : CliEnv) (first last : Str) (ls : List (Gaps × Line × RdfTriple)) (hb : e.sty = .bare)
    (he : StrictEnv e.read) (hsane : SaneEnv e.read) (ho : e.orders.Fair) (hf : Gap first)
    (hl : LastGap last) (hv : ∀ x ∈ ls, x.2.1.g = none ∧ x.2.1.Valid ∧ x.1.Valid x.2.1 ∧ x.2.1.Means e.read x.2.2)
    (h : ∀ x ∈ ls, (∀ i, x.2.2.1 ≠ .iri i) ∧ (∀ b, x.2.2.2.2 ≠ .blank b) ∧
      ∀ a, x.2.1.o.inner = some a → escapeString e.read.pr a = a) :
    ∃ out, cliMain e (docText first last (ls.map fun x => (x.1, x.2.1))) (.convert .nTriples .json) = .success out ∧
      JsonSays e.read out (ls.map fun x => x.2.2) :=
  (C158_iff e first last ls hb he hsane ho hf hl hv).2 h

/-! A blank node with a value. -/

example : ∃ out, cliMain (docCli .bare) (docText [] [] [(blankGaps, ⟨.blank ['b'], str! "http://a/p", .lit ['v'] .none, none⟩)])
      (.convert .nTriples .json) = .success out ∧
    JsonSays docEnv out [(.blank ['b'], ⟨str! "http://a/p"⟩, .lit ['v'] none none)] := by
  have hl : LastGap [] := ⟨[], [], .nil, rfl, .inl rfl⟩
  have hb : Label ['b'] := ⟨⟨'b', .inl ((isPnCharsU_iff _).1 (by decide)), .inl rfl⟩, fun a b e => by cases a with | nil => simp at e | cons x a => cases a <;> simp at e⟩
  refine C158_partial (docCli .bare) [] []
    [(blankGaps, ⟨.blank ['b'], str! "http://a/p", .lit ['v'] .none, none⟩, (.blank ['b'], ⟨str! "http://a/p"⟩, .lit ['v'] none none))]
    rfl docEnv_strict docEnv_sane sameOrder_fair .nil hl ?_ ?_
  · intro x hx
    rw [List.mem_singleton] at hx
    subst hx
    exact ⟨rfl, ⟨hb, iriText_chars (by decide),
      ⟨tokens_of_chars fun c hc => .inl ⟨c, by rw [List.mem_singleton.1 hc]; decide, rfl⟩, trivial⟩, by simp⟩, blankGaps_valid _,
      rfl, ⟨_, decodesIri_plain (by decide), rfl⟩, _, .plain (by decide) .nil, rfl⟩
  · intro x hx
    rw [List.mem_singleton] at hx
    subst hx
    refine ⟨fun i e => by (cases e), fun i e => by (cases e), fun a e => ?_⟩
    cases e
    exact (by decide +kernel : escapeString easyEnv.pr ['v'] = ['v'])

end Rdftk
