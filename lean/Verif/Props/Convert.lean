import Verif.Props.Cli

/-!
C86 exactly for RDF/JSON: which graphs a conversion from N-Triples or RDF/JSON keeps.
-/

namespace Rdftk

open Spec

/-- An object that can be read from RDF/JSON, or a blank node. -/
def JsonTerm (env : ReadEnv) : Object → Prop
  | .blank _ => True
  | .res i => IriRead env i
  | .lit l => JsonLiteral env l
  | .coll _ => False
  | .stmt _ => False

/-- A statement that can be read from RDF/JSON but for a subject in brackets and an object that is
a blank node. -/
def JsonReady (env : ReadEnv) (st : Stmt) : Prop :=
  JsonSubject env .bare st.subject ∧ IriRead env st.predicate ∧ JsonTerm env st.object

theorem JsonReady.simple {env : ReadEnv} {st : Stmt} (h : JsonReady env st) : simple st = true := by
  obtain ⟨s, p, o⟩ := st
  obtain ⟨h1, -, h3⟩ := h
  cases s <;> cases o <;> first | rfl | exact h1.elim | exact h3.elim

theorem blankValid_plain {v : Str → Bool} {b : Str} (h : stripPrefix (str! "_:") b = none) (hv : v b = true) :
    blankValid v b = true := by
  simp [blankValid, h, hv]

/-- What is kept by writing and reading RDF/JSON, in either style. -/
theorem json_kept_iff (env : ReadEnv) (gen : Nat → Str) (n : Nat) (o : Orders) (ho : o.Fair) (sty : IriStyle)
    (hu : sty = .bracketed → ∀ t, env.url ('<' :: t) = none) (pretty : Bool) (g : Graph)
    (hg : ∀ st ∈ g.stmts, JsonReady env st) :
    (∃ t g', writeJson gen n o sty pretty g = some t ∧ readJson env t = .ok g' ∧ ∀ x, x ∈ g'.stmts ↔ x ∈ g.stmts) ↔
    (∀ x ∈ g.stmts, sty = .bare ∨ ∃ b, x.subject = .blank b) ∧ (∀ x ∈ g.stmts, x.object.isBlank = false) ∧
    ∀ s p l, Stmt.mk s p (.lit l) ∈ g.stmts →
      escapeString env.pr l.lexicalForm = l.lexicalForm ∧ ∀ t, l.dataType = some t → DataType.fromIri t.asIri = t := by
  have hs := (C34_unchanged gen n g fun st h => (hg st h).simple).1
  have first : (∃ t g', writeJson gen n o sty pretty g = some t ∧ readJson env t = .ok g') →
      ∀ x ∈ g.stmts, sty = .bare ∨ ∃ b, x.subject = .blank b := by
    rintro ⟨t, g', h1, h2⟩ x hx
    cases hb : sty with
    | bare => exact .inl rfl
    | bracketed =>
      right
      have hr := hg x hx
      cases e : x.subject with
      | blank b => exact ⟨b, rfl⟩
      | res i =>
        subst hb
        exact absurd h2 (C43_fails_bracketed env (hu rfl) gen n o ho pretty g g' t x i hx e h1)
      | stmt y =>
        have := hr.1
        rw [e] at this
        exact this.elim
  have second : (∃ t g', writeJson gen n o sty pretty g = some t ∧ readJson env t = .ok g') →
      ∀ x ∈ g.stmts, ∃ y, JsonStmt env sty x y := by
    rintro ⟨t, g', h1, h2⟩ x hx
    have hsub := first ⟨t, g', h1, h2⟩ x hx
    obtain ⟨r1, r2, r3⟩ := hg x hx
    obtain ⟨s, p, z⟩ := x
    have hj : JsonSubject env sty s := by
      cases s with
      | blank b => exact r1
      | res i =>
        rcases hsub with h | ⟨b, h⟩
        · exact ⟨h, r1.2⟩
        · cases h
      | stmt y => exact r1.elim
    cases z with
    | blank b =>
      apply Classical.byContradiction
      intro hn
      refine C43_fails_blank env gen n o ho sty pretty g g' t _ b (by rw [hs]; exact hx) rfl ?_ h1 h2
      rintro ⟨c, hc, hv⟩
      exact hn ⟨.mk s p (.blank c), hj, r2, rfl, rfl, c, rfl, hc, hv⟩
    | res i => exact ⟨.mk s p (.res i), hj, r2, rfl, rfl, rfl, r3⟩
    | lit l => exact ⟨.mk s p (.lit (jsonReread env.pr l)), hj, r2, rfl, rfl, rfl, r3⟩
    | coll c => exact r3.elim
    | stmt y => exact r3.elim
  constructor
  · rintro ⟨t, g', h1, h2, h3⟩
    exact ⟨first ⟨t, g', h1, h2⟩,
      (C43_iff env gen n o ho sty pretty g (second ⟨t, g', h1, h2⟩)).1 ⟨t, g', h1, h2, h3⟩⟩
  · rintro ⟨h1, h2, h3⟩
    refine (C43_iff env gen n o ho sty pretty g fun x hx => ?_).2 ⟨h2, h3⟩
    have hb := h2 x hx
    have hsub := h1 x hx
    obtain ⟨r1, r2, r3⟩ := hg x hx
    obtain ⟨s, p, z⟩ := x
    have hj : JsonSubject env sty s := by
      cases s with
      | blank b => exact r1
      | res i =>
        rcases hsub with h | ⟨b, h⟩
        · exact ⟨h, r1.2⟩
        · cases h
      | stmt y => exact r1.elim
    cases z with
    | blank b => cases hb
    | res i => exact ⟨.mk s p (.res i), hj, r2, rfl, rfl, rfl, r3⟩
    | lit l => exact ⟨.mk s p (.lit (jsonReread env.pr l)), hj, r2, rfl, rfl, rfl, r3⟩
    | coll c => exact r3.elim
    | stmt y => exact r3.elim

theorem good_read {env : ReadEnv} {i : Iri} (h : IriGood env i) : IriRead env i := by
  refine ⟨h.2, fun hh => ?_⟩
  have hm : '<' ∈ i.text := by
    cases e : i.text with
    | nil => rw [e] at hh; cases hh
    | cons c s => rw [e] at hh; simp at hh; simp [hh]
  exact (h.1 _ hm).2 (by decide)

/-- What is read from N-Triples can be read from RDF/JSON. -/
theorem readNt_ready {env : ReadEnv} (he : StrictEnv env) {s : Str} {g : Graph} (hp : Printed env.pr s)
    (h : readNt env s = .ok g) : ∀ st ∈ g.stmts, JsonReady env st := by
  intro st hst
  obtain ⟨a, b, -, o⟩ := readNt_strict he h st hst
  have o := o hp
  have hl : ∀ l, st.object = .lit l → l.dataType = none ∨ l.language = none := by
    intro l hl
    obtain ⟨x, p, z⟩ := st
    have hl : z = .lit l := hl
    subst hl
    unfold readNt at h
    split at h
    · cases h
    · rcases evalTriples_mem _ _ _ h _ hst with h1 | ⟨m, -, h1⟩
      · cases h1
      · exact (evalTriple_literal h1).2
  refine ⟨?_, good_read b, ?_⟩
  · cases e : st.subject with
    | blank c => rw [e] at a; exact blankValid_plain (label_not_prefixed a.1) a.2
    | res i => rw [e] at a; exact ⟨rfl, good_read a⟩
    | stmt y => rw [e] at a; exact a.elim
  · cases e : st.object with
    | blank c => trivial
    | res i => rw [e] at o; exact good_read o
    | lit l =>
      rw [e] at o
      exact ⟨hl l e, fun t ht => good_read (o.2.1 t ht), fun t ht => (o.2.2.1 t ht).2⟩
    | coll c => rw [e] at o; exact o.elim
    | stmt y => rw [e] at o; exact o.elim

theorem fromStr_good {env : ReadEnv} (he : StrictEnv env) {t : Str} {i : Iri} (h : Iri.fromStr env.url t = some i) :
    IriRead env i := good_read (he.url _ _ h)

theorem ofOption_ok {α : Type} {o : Option α} {a : α} (h : Res.ofOption o = .ok a) : o = some a := by
  cases o with
  | none => cases h
  | some b => cases h; rfl

theorem jsonReadKey_ready {env : ReadEnv} (he : StrictEnv env) {k : Str} {s : Subject} (h : jsonReadKey env k = .ok s) :
    JsonSubject env .bare s := by
  unfold jsonReadKey at h
  split at h
  · obtain ⟨b, h1, h⟩ := Res.bind_ok h
    cases h
    have := ofOption_ok h1
    unfold blankParse at this
    split at this
    · cases this; assumption
    · cases this
  · obtain ⟨i, h1, h⟩ := Res.bind_ok h
    cases h
    exact ⟨rfl, fromStr_good he (ofOption_ok h1)⟩

theorem jsonReadObject_ready {env : ReadEnv} (he : StrictEnv env) {v : Json} {x : Object} (h : jsonReadObject env v = .ok x) :
    JsonTerm env x ∧ ∀ l, x = .lit l → ∀ t, l.dataType = some t → DataType.fromIri t.asIri = t := by
  unfold jsonReadObject at h
  split at h
  · split at h
    · split at h
      · obtain ⟨l, h1, h⟩ := Res.bind_ok h
        cases h
        unfold jsonLiteral at h1
        split at h1
        · cases h1
          exact ⟨⟨.inl rfl, by simp [Literal.plain], by simp [Literal.plain]⟩, by rintro l e t ht; cases e; cases ht⟩
        · obtain ⟨g, h2, h1⟩ := Res.bind_ok h1
          cases h1
          refine ⟨⟨.inl rfl, by simp [Literal.withLanguage], fun t ht => ?_⟩, by rintro l e t ht; cases e; cases ht⟩
          cases ht
          exact (he.lang _ _ (ofOption_ok h2)).2
        · obtain ⟨i, h2, h1⟩ := Res.bind_ok h1
          cases h1
          refine ⟨⟨.inr rfl, fun t ht => ?_, by simp [Literal.withDataType]⟩, ?_⟩
          · cases ht
            rw [C21_iri_kept]
            exact fromStr_good he (ofOption_ok h2)
          · rintro l e t ht
            cases e
            cases ht
            rw [C21_iri_kept]
        · cases h1
      split at h
      · obtain ⟨b, -, h⟩ := Res.bind_ok h
        cases h
        exact ⟨trivial, by simp⟩
      split at h
      · obtain ⟨i, h1, h⟩ := Res.bind_ok h
        cases h
        unfold jsonUri at h1
        split at h1
        · exact ⟨fromStr_good he (ofOption_ok h1), by simp⟩
        · cases h1
      · cases h
    · cases h
  · cases h

/-- A statement as RDF/JSON is read. -/
def JsonGot (env : ReadEnv) (st : Stmt) : Prop :=
  JsonReady env st ∧ ∀ l, st.object = .lit l → ∀ t, l.dataType = some t → DataType.fromIri t.asIri = t

theorem readObjects_got {env : ReadEnv} (he : StrictEnv env) {s : Subject} {p : Iri} (hs : JsonSubject env .bare s)
    (hp : IriRead env p) (l : List Json) (g g' : Graph) (hg : ∀ st ∈ g.stmts, JsonGot env st)
    (h : jsonReadObjects env s p g l = .ok g') : ∀ st ∈ g'.stmts, JsonGot env st := by
  induction l generalizing g with
  | nil => cases h; exact hg
  | cons v l ih =>
    obtain ⟨x, h1, h⟩ := Res.bind_ok h
    refine ih _ (fun st hst => ?_) h
    rcases (insert_mem _ _ _).1 hst with h2 | rfl
    · exact hg st h2
    · have := jsonReadObject_ready he h1
      exact ⟨⟨hs, hp, this.1⟩, this.2⟩

theorem readPredicates_got {env : ReadEnv} (he : StrictEnv env) {s : Subject} (hs : JsonSubject env .bare s)
    (m : List (Str × Json)) (g g' : Graph) (hg : ∀ st ∈ g.stmts, JsonGot env st)
    (h : jsonReadPredicates env s g m = .ok g') : ∀ st ∈ g'.stmts, JsonGot env st := by
  induction m generalizing g with
  | nil => cases h; exact hg
  | cons f m ih =>
    obtain ⟨p, v⟩ := f
    obtain ⟨k, h1, h⟩ := Res.bind_ok h
    refine ih k ?_ h
    unfold jsonReadPredicate at h1
    split at h1
    · obtain ⟨i, h2, h1⟩ := Res.bind_ok h1
      exact readObjects_got he hs (fromStr_good he (ofOption_ok h2)) _ _ _ hg h1
    · cases h1

theorem readSubjects_got {env : ReadEnv} (he : StrictEnv env) (m : List (Str × Json)) (g g' : Graph)
    (hg : ∀ st ∈ g.stmts, JsonGot env st) (h : jsonReadSubjects env g m = .ok g') : ∀ st ∈ g'.stmts, JsonGot env st := by
  induction m generalizing g with
  | nil => cases h; exact hg
  | cons f m ih =>
    obtain ⟨p, v⟩ := f
    obtain ⟨k, h1, h⟩ := Res.bind_ok h
    refine ih k ?_ h
    unfold jsonReadSubject at h1
    split at h1
    · obtain ⟨i, h2, h1⟩ := Res.bind_ok h1
      exact readPredicates_got he (jsonReadKey_ready he h2) _ _ _ hg h1
    · cases h1

/-- What is read from RDF/JSON can be read from it again. -/
theorem readJson_got {env : ReadEnv} (he : StrictEnv env) {s : Str} {g : Graph} (h : readJson env s = .ok g) :
    ∀ st ∈ g.stmts, JsonGot env st := by
  unfold readJson at h
  split at h
  · cases h
  · unfold jsonReadGraph at h
    split at h
    · exact readSubjects_got he _ _ _ (by intro st hst; cases hst) h
    · cases h

theorem convert_json {e : CliEnv} {s : Str} {g : Graph} {source : Representation} (h : cliRead e s source = .ok g)
    (out : Str) : cliMain e s (.convert source .json) = .success out ↔
      writeJson e.gen e.startWrite e.orders e.sty false g = some out := by
  simp only [cliMain, h, Run.bind, cliWrite]
  cases hw : writeJson e.gen e.startWrite e.orders e.sty false g with
  | none => simp [Run.ofOption, Run.exit]
  | some t => simp [Run.ofOption, Run.exit]

/-- C86, exactly, for RDF/JSON from N-Triples: in the style the code has, every subject must be a
blank node, in either style no object may be one, and literals must be without escapes and without
a type that is known to the reader of RDF/JSON. -/
theorem C86_json_iff (e : CliEnv) (s : Str) (g : Graph) (he : StrictEnv e.read)
    (hu : e.sty = .bracketed → ∀ t, e.read.url ('<' :: t) = none) (ho : e.orders.Fair)
    (hp : Printed e.read.pr s) (h : readNt e.read s = .ok g) :
    (∃ out g', cliMain e s (.convert .nTriples .json) = .success out ∧ readJson e.read out = .ok g' ∧
      ∀ st, st ∈ g'.stmts ↔ st ∈ g.stmts) ↔
    (∀ x ∈ g.stmts, e.sty = .bare ∨ ∃ b, x.subject = .blank b) ∧ (∀ x ∈ g.stmts, x.object.isBlank = false) ∧
    ∀ x p l, Stmt.mk x p (.lit l) ∈ g.stmts →
      escapeString e.read.pr l.lexicalForm = l.lexicalForm ∧ ∀ t, l.dataType = some t → DataType.fromIri t.asIri = t := by
  simp only [convert_json (source := .nTriples) (show cliRead e s .nTriples = .ok g by simp [cliRead, h, Res.toRun])]
  exact json_kept_iff e.read e.gen e.startWrite e.orders ho e.sty hu false g (readNt_ready he hp h)

/-- C86, exactly, for RDF/JSON from RDF/JSON, whatever the characters: as from N-Triples, and types
do not matter. -/
theorem C86_json_again_iff (e : CliEnv) (s : Str) (g : Graph) (he : StrictEnv e.read)
    (hu : e.sty = .bracketed → ∀ t, e.read.url ('<' :: t) = none) (ho : e.orders.Fair)
    (h : readJson e.read s = .ok g) :
    (∃ out g', cliMain e s (.convert .json .json) = .success out ∧ readJson e.read out = .ok g' ∧
      ∀ st, st ∈ g'.stmts ↔ st ∈ g.stmts) ↔
    (∀ x ∈ g.stmts, e.sty = .bare ∨ ∃ b, x.subject = .blank b) ∧ (∀ x ∈ g.stmts, x.object.isBlank = false) ∧
    ∀ x p l, Stmt.mk x p (.lit l) ∈ g.stmts → escapeString e.read.pr l.lexicalForm = l.lexicalForm := by
  have hg := readJson_got he h
  simp only [convert_json (source := .json) (show cliRead e s .json = .ok g by simp [cliRead, h, Res.toRun])]
  rw [json_kept_iff e.read e.gen e.startWrite e.orders ho e.sty hu false g fun st hst => (hg st hst).1]
  constructor
  · rintro ⟨h1, h2, h3⟩
    exact ⟨h1, h2, fun x p l hx => (h3 x p l hx).1⟩
  · rintro ⟨h1, h2, h3⟩
    exact ⟨h1, h2, fun x p l hx => ⟨h3 x p l hx, (hg _ hx).2 l rfl⟩⟩

/-- A document about a blank node. -/
def blankDoc : Str := str! "_:b <a:p> \"x\" .\n"

theorem blankDoc_read (sty : IriStyle) : readNt (easyCli sty).read blankDoc =
    .ok (Graph.default.insert (.mk (.blank (str! "b")) ⟨str! "a:p"⟩ (.lit ⟨str! "x", none, none⟩))) := rfl

/-- What is said of a blank node is kept even in the style the code has. -/
example (sty : IriStyle) : ∃ out g', cliMain (easyCli sty) blankDoc (.convert .nTriples .json) = .success out ∧
    readJson (easyCli sty).read out = .ok g' ∧ ∃ st, st ∈ g'.stmts := by
  have hm := fun st => insert_mem Graph.default (.mk (.blank (str! "b")) ⟨str! "a:p"⟩ (.lit ⟨str! "x", none, none⟩)) st
  have h0 : Graph.default.stmts = [] := rfl
  obtain ⟨out, g', h1, h2, h3⟩ := (C86_json_iff (easyCli sty) blankDoc _ strictEnv_strict (fun _ t => by
    simp [easyCli, strictEnv]) sameOrder_fair
    (by
      have : ∀ c ∈ blankDoc, strictEnv.pr c = true ∧ c ≠ '\x00' ∨ c ∈ (str! "\t\r\n") := by decide +kernel
      exact this) (blankDoc_read sty)).2 (by
    simp only [hm, h0, List.not_mem_nil, false_or]
    refine ⟨fun x e => .inr ⟨str! "b", by rw [e]; rfl⟩, fun x e => by rw [e]; rfl, fun x p l e => ?_⟩
    cases e
    exact ⟨show escapeString strictEnv.pr (str! "x") = str! "x" by decide, by simp⟩)
  exact ⟨out, g', h1, h2, _, (h3 _).2 ((hm _).2 (.inr rfl))⟩

end Rdftk
