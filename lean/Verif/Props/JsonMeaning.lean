import Verif.Spec.JsonMeaning
import Verif.Props.JsonExact
import Verif.Props.NTMeaning
import Verif.Props.Literal

/-! RDF/JSON: what documents are read as (C127). -/

namespace Rdftk

open Spec

/-- A term with the text of a literal escaped. -/
def escTerm (pr : Char → Bool) : RdfTerm → RdfTerm
  | .lit v t l => .lit (escapeString pr v) t l
  | x => x

/-- A triple with the text of a literal escaped. -/
def escTriple (pr : Char → Bool) (t : RdfTriple) : RdfTriple := (t.1, t.2.1, escTerm pr t.2.2)

theorem fromStr_sane {env : ReadEnv} (he : SaneEnv env) {s : Str} {i : Iri} (h : env.url s = some i) :
    Iri.fromStr env.url s = some i := by
  unfold Iri.fromStr
  rw [if_neg, h]
  cases s with
  | nil => simp [startsWith]
  | cons c s =>
    by_cases hc : c = '<'
    · subst hc
      rw [he.1] at h
      cases h
    · simp [startsWith, hc]

theorem blank_sane {env : ReadEnv} (he : SaneEnv env) {b : Str} (h : Label b) : blankParse env.blankOk b = some b := by
  simp [blankParse, blankValid, label_not_prefixed h, he.2 b h]

theorem jsonReadKey_means {env : ReadEnv} (he : SaneEnv env) {k : Str} {x : RdfTerm} (h : KeyMeans env k x) :
    ∃ s, jsonReadKey env k = .ok s ∧ subjectTerm s = some x := by
  rcases h with ⟨b, rfl, hb, rfl⟩ | ⟨hk, i, h, rfl⟩
  · refine ⟨.blank b, ?_, rfl⟩
    have : stripPrefix (str! "_:") ('_' :: ':' :: b) = some b := stripPrefix_eq_some.2 rfl
    simp only [jsonReadKey, this, blank_sane he hb]
    rfl
  · refine ⟨.res i, ?_, rfl⟩
    have : stripPrefix (str! "_:") k = none := by
      cases e : stripPrefix (str! "_:") k with
      | none => rfl
      | some b => exact absurd (stripPrefix_eq_some.1 e) (hk b)
    simp only [jsonReadKey, this, fromStr_sane he h]
    rfl

theorem jsonReadObject_means {env : ReadEnv} (he : SaneEnv env) {j : Json} {x : RdfTerm} (h : ValueMeans env j x) :
    ∃ o, jsonReadObject env j = .ok o ∧ objectTerm o = some (escTerm env.pr x) := by
  obtain ⟨m, t, v, rfl, ht, hv, h⟩ := h
  have n1 : (str! "bnode") ≠ str! "literal" := by decide
  have n2 : (str! "uri") ≠ str! "literal" := by decide
  have n3 : (str! "uri") ≠ str! "bnode" := by decide
  rcases h with ⟨rfl, i, hi, rfl⟩ | ⟨rfl, b, rfl, hb, rfl⟩ | ⟨rfl, h⟩
  · refine ⟨.res i, ?_, rfl⟩
    simp only [jsonReadObject, ht, if_neg n2, if_neg n3, if_true, jsonUri, hv, fromStr_sane he hi]
    rfl
  · refine ⟨.blank b, ?_, rfl⟩
    have : dropTwoBytes ('_' :: ':' :: b) = .ok b := (dropTwoBytes_iff _ _).2 ⟨['_', ':'], rfl, by decide⟩
    simp only [jsonReadObject, ht, if_neg n1, if_true, jsonBlank, hv, this, blank_sane he hb]
    rfl
  · simp only [jsonReadObject, ht, if_true, jsonLiteral, hv]
    rcases h with ⟨h1, h2, rfl⟩ | ⟨l, g, h1, h2, h3, rfl⟩ | ⟨d, i, h1, h2, h3, rfl⟩
    · rw [h1, h2]
      exact ⟨_, rfl, rfl⟩
    · rw [h1, h2]
      simp only [h3]
      exact ⟨_, rfl, rfl⟩
    · rw [h1, h2]
      simp only [fromStr_sane he h3]
      refine ⟨_, rfl, ?_⟩
      simp [objectTerm, Literal.withDataType, C21_iri_kept, escTerm]

/-- What a statement must be for an object with its subject and predicate. -/
def ReadAs (env : ReadEnv) (e : Str × Str × Json) (st : Stmt) : Prop :=
  ∃ t, EntryMeans env e t ∧ stmtTriple st = some (escTriple env.pr t)

theorem readObjects_means {env : ReadEnv} (he : SaneEnv env) {k p : Str} {x : RdfTerm} {s : Subject} {i : Iri} (hk : KeyMeans env k x)
    (hs : subjectTerm s = some x) (hp : env.url p = some i) (os : List Json) (h : ∀ o ∈ os, ∃ y, ValueMeans env o y) (g : Graph) :
    ∃ sts : List Stmt, jsonReadObjects env s i g os = .ok (sts.foldl Graph.insert g) ∧
      List.Forall₂ (ReadAs env) (os.map fun o => (k, p, o)) sts := by
  induction os generalizing g with
  | nil => exact ⟨[], rfl, .nil⟩
  | cons o os ih =>
    obtain ⟨y, hy⟩ := h o (by simp)
    obtain ⟨z, h1, h2⟩ := jsonReadObject_means he hy
    obtain ⟨sts, h3, h4⟩ := ih (fun o ho => h o (by simp [ho])) (g.insert (.mk s i z))
    refine ⟨.mk s i z :: sts, ?_, .cons ⟨(x, i, y), ⟨hk, hp, hy⟩, ?_⟩ h4⟩
    · simp only [jsonReadObjects, h1, Res.bind, h3, List.foldl_cons]
    · simp [stmtTriple, Stmt.subject, Stmt.object, Stmt.predicate, hs, h2, escTriple]

theorem readPredicates_means {env : ReadEnv} (he : SaneEnv env) {k : Str} {x : RdfTerm} {s : Subject} (hk : KeyMeans env k x)
    (hs : subjectTerm s = some x) (ps : List (Str × Json))
    (h : ∀ f ∈ ps, (∃ i, env.url f.1 = some i) ∧ ∃ os, f.2 = .arr os ∧ ∀ o ∈ os, ∃ y, ValueMeans env o y) (g : Graph) :
    ∃ sts : List Stmt, jsonReadPredicates env s g ps = .ok (sts.foldl Graph.insert g) ∧
      List.Forall₂ (ReadAs env) (ps.flatMap fun f => match f.2 with
        | .arr os => os.map fun o => (k, f.1, o)
        | _ => []) sts := by
  induction ps generalizing g with
  | nil => exact ⟨[], rfl, .nil⟩
  | cons f ps ih =>
    obtain ⟨p, v⟩ := f
    obtain ⟨⟨i, hi⟩, os, rfl, ho⟩ := h (p, v) (by simp)
    obtain ⟨l, h1, h2⟩ := readObjects_means he hk hs hi os ho g
    obtain ⟨l', h3, h4⟩ := ih (fun o ho => h o (by simp [ho])) (l.foldl Graph.insert g)
    refine ⟨l ++ l', ?_, List.rel_append h2 h4⟩
    simp only [jsonReadPredicates, jsonReadPredicate, fromStr_sane he hi, Res.ofOption, Res.bind, h1, h3, List.foldl_append]

theorem readSubjects_means {env : ReadEnv} (he : SaneEnv env) (m : List (Str × Json)) (h : NoteForm env m) (g : Graph) :
    ∃ sts : List Stmt, jsonReadSubjects env g m = .ok (sts.foldl Graph.insert g) ∧ List.Forall₂ (ReadAs env) (entries m) sts := by
  induction m generalizing g with
  | nil => exact ⟨[], rfl, .nil⟩
  | cons f m ih =>
    obtain ⟨k, v⟩ := f
    obtain ⟨⟨x, hx⟩, ps, rfl, hp⟩ := h (k, v) (by simp)
    obtain ⟨s, h0, hs⟩ := jsonReadKey_means he hx
    obtain ⟨l, h1, h2⟩ := readPredicates_means he hx hs ps hp g
    obtain ⟨l', h3, h4⟩ := ih (fun o ho => h o (by simp [ho])) (l.foldl Graph.insert g)
    refine ⟨l ++ l', ?_, List.rel_append h2 h4⟩
    simp only [jsonReadSubjects, jsonReadSubject, h0, Res.bind, h1, h3, List.foldl_append]

/-- C127, the full statement: a document of the form of the note is read as what it says, object by object. -/
def C127_statement : Prop := ∀ (env : ReadEnv) (s : Str) (m : List (Str × Json)), SaneEnv env → jParse s = some (.obj m) → NoteForm env m →
  ∃ g, readJson env s = .ok g ∧
    List.Forall₂ (fun e st => ∃ t, EntryMeans env e t ∧ stmtTriple st = some t) (entries m) g.stmts

/-- C127: what is read, in the order of the document: what it says with the texts of literals escaped. -/
theorem C127_reads (env : ReadEnv) (s : Str) (m : List (Str × Json)) (he : SaneEnv env) (hs : jParse s = some (.obj m))
    (hm : NoteForm env m) :
    ∃ g, readJson env s = .ok g ∧
      List.Forall₂ (fun e st => ∃ t, EntryMeans env e t ∧ stmtTriple st = some (escTriple env.pr t)) (entries m) g.stmts := by
  obtain ⟨sts, h1, h2⟩ := readSubjects_means he m hm Graph.default
  refine ⟨sts.foldl Graph.insert Graph.default, by simp only [readJson, hs, jsonReadGraph, h1], ?_⟩
  rw [(foldl_insert_default sts).1]
  exact h2

theorem keyMeans_unique {env : ReadEnv} {k : Str} {x y : RdfTerm} (h : KeyMeans env k x) (h' : KeyMeans env k y) : x = y := by
  rcases h with ⟨b, rfl, -, rfl⟩ | ⟨hk, i, h, rfl⟩ <;> rcases h' with ⟨c, e, -, rfl⟩ | ⟨hk', i', h', rfl⟩
  · simp_all
  · exact absurd rfl (hk' b)
  · exact absurd e (hk c)
  · rw [h] at h'
    simp_all

theorem valueMeans_unique {env : ReadEnv} {j : Json} {x y : RdfTerm} (h : ValueMeans env j x) (h' : ValueMeans env j y) : x = y := by
  obtain ⟨m, t, v, rfl, ht, hv, h⟩ := h
  obtain ⟨m', t', v', e, ht', hv', h'⟩ := h'
  simp only [Json.obj.injEq] at e
  subst e
  rw [ht] at ht'
  rw [hv] at hv'
  simp only [Option.some.injEq, Json.str.injEq] at ht' hv'
  subst ht' hv'
  have n1 : (str! "bnode") ≠ str! "literal" := by decide
  have n2 : (str! "uri") ≠ str! "literal" := by decide
  have n3 : (str! "uri") ≠ str! "bnode" := by decide
  unfold LiteralMeans at h h'
  grind

/-- C127: the meaning of a document is one. -/
theorem C127_unique (env : ReadEnv) (e : Str × Str × Json) (t t' : RdfTriple) (h : EntryMeans env e t) (h' : EntryMeans env e t') : t = t' := by
  obtain ⟨a, b, c⟩ := t
  obtain ⟨a', b', c'⟩ := t'
  obtain ⟨h1, h2, h3⟩ := h
  obtain ⟨h1', h2', h3'⟩ := h'
  have e1 := keyMeans_unique h1 h1'
  have e3 := valueMeans_unique h3 h3'
  rw [h2] at h2'
  simp_all

/-- C127 holds for a document exactly when no literal in it has anything to escape. -/
theorem C127_iff (env : ReadEnv) (s : Str) (m : List (Str × Json)) (he : SaneEnv env) (hs : jParse s = some (.obj m))
    (hm : NoteForm env m) :
    (∃ g, readJson env s = .ok g ∧
      List.Forall₂ (fun e st => ∃ t, EntryMeans env e t ∧ stmtTriple st = some t) (entries m) g.stmts) ↔
    ∀ e ∈ entries m, ∀ t v, EntryMeans env e t → t.2.2.text = some v → escapeString env.pr v = v := by
  obtain ⟨g, h1, h2⟩ := C127_reads env s m he hs hm
  have key : ∀ (e : Str × Str × Json) (st : Stmt), (∃ t, EntryMeans env e t ∧ stmtTriple st = some (escTriple env.pr t)) →
      ((∃ t, EntryMeans env e t ∧ stmtTriple st = some t) ↔
        ∀ t v, EntryMeans env e t → t.2.2.text = some v → escapeString env.pr v = v) := by
    rintro e st ⟨t, ht, hst⟩
    constructor
    · rintro ⟨t', ht', hst'⟩ u v hu huv
      obtain rfl := C127_unique env e _ _ ht ht'
      obtain rfl := C127_unique env e _ _ ht hu
      rw [hst] at hst'
      obtain ⟨a, b, c⟩ := t
      cases c <;> simp_all [escTriple, escTerm, RdfTerm.text]
    · intro h
      refine ⟨t, ht, ?_⟩
      rw [hst]
      obtain ⟨a, b, c⟩ := t
      cases c with
      | lit v ty l => simp [escTriple, escTerm, h _ v ht rfl]
      | _ => rfl
  have fwd : ∀ {es : List (Str × Str × Json)} {sts : List Stmt},
      List.Forall₂ (fun e st => ∃ t, EntryMeans env e t ∧ stmtTriple st = some (escTriple env.pr t)) es sts →
      (List.Forall₂ (fun e st => ∃ t, EntryMeans env e t ∧ stmtTriple st = some t) es sts ↔
        ∀ e ∈ es, ∀ t v, EntryMeans env e t → t.2.2.text = some v → escapeString env.pr v = v) := by
    intro es sts h
    induction h with
    | nil => simp
    | cons h _ ih =>
      rw [List.forall₂_cons, ih, key _ _ h, List.forall_mem_cons]
  rw [← fwd h2]
  constructor
  · rintro ⟨g', h3, h4⟩
    rw [h1] at h3
    cases h3
    exact h4
  · exact fun h => ⟨g, h1, h⟩

/-- C127 for documents without such literals.  Missing: literals with characters that are escaped. -/
theorem C127_partial (env : ReadEnv) (s : Str) (m : List (Str × Json)) (he : SaneEnv env) (hs : jParse s = some (.obj m))
    (hm : NoteForm env m)
    (h : ∀ e ∈ entries m, ∀ t v, EntryMeans env e t → t.2.2.text = some v → escapeString env.pr v = v) :
    ∃ g, readJson env s = .ok g ∧
      List.Forall₂ (fun e st => ∃ t, EntryMeans env e t ∧ stmtTriple st = some t) (entries m) g.stmts :=
  (C127_iff env s m he hs hm).2 h

/-- A document with one literal. -/
def oneLiteral (v : Str) : List (Str × Json) :=
  [(str! "a:s", .obj [(str! "a:p", .arr [.obj [(str! "type", .str (str! "literal")), (str! "value", .str v)]])])]

theorem oneLiteral_form (v : Str) : NoteForm saneEnv (oneLiteral v) ∧
    EntryMeans saneEnv (str! "a:s", str! "a:p", .obj [(str! "type", .str (str! "literal")), (str! "value", .str v)])
      (.iri ⟨str! "a:s"⟩, ⟨str! "a:p"⟩, .lit v none none) := by
  have h1 : KeyMeans saneEnv (str! "a:s") (.iri ⟨str! "a:s"⟩) := .inr ⟨fun b h => by simp at h, _, rfl, rfl⟩
  have h2 : saneEnv.url (str! "a:p") = some ⟨str! "a:p"⟩ := rfl
  have h3 : ValueMeans saneEnv (.obj [(str! "type", .str (str! "literal")), (str! "value", .str v)]) (.lit v none none) :=
    ⟨_, str! "literal", v, rfl, rfl, rfl, .inr (.inr ⟨rfl, .inl ⟨rfl, rfl, rfl⟩⟩)⟩
  refine ⟨?_, h1, h2, h3⟩
  intro e he
  rw [oneLiteral, List.mem_singleton] at he
  subst he
  refine ⟨⟨_, h1⟩, _, rfl, fun f hf => ?_⟩
  rw [List.mem_singleton] at hf
  subst hf
  refine ⟨⟨_, h2⟩, _, rfl, fun o ho => ?_⟩
  rw [List.mem_singleton] at ho
  subst ho
  exact ⟨_, h3⟩

/-- C127 fails: a line feed in a literal is read as a backslash and a letter. -/
theorem C127_fails : ¬C127_statement := by
  intro h
  have hs : jParse (Json.text false 0 (.obj (oneLiteral (str! "\n")))) = some (.obj (oneLiteral (str! "\n"))) :=
    jParse_text _ _ (by simp [oneLiteral, Json.Fits, Json.FitsAll, Json.FitsMembers, SortedKeys]; decide)
  obtain ⟨hf, he⟩ := oneLiteral_form (str! "\n")
  have := (C127_iff saneEnv _ _ saneEnv_sane hs hf).1 (h _ _ _ saneEnv_sane hs hf) _ (List.mem_singleton.2 rfl) _ (str! "\n") he rfl
  revert this
  decide +kernel

/-- C127, the other direction fails: documents are read that are not of the form of the note. -/
theorem C127_fails_more : ∃ (s : Str) (m : List (Str × Json)) (g : Graph), jParse s = some (.obj m) ∧ ¬NoteForm saneEnv m ∧
    readJson saneEnv s = .ok g := by
  let m : List (Str × Json) := [(str! "a:s", .obj [(str! "a:p", .arr [.obj [(str! "type", .str (str! "bnode")), (str! "value", .str (str! "abc"))]])])]
  have hs : jParse (Json.text false 0 (.obj m)) = some (.obj m) :=
    jParse_text _ _ (by simp [m, Json.Fits, Json.FitsAll, Json.FitsMembers, SortedKeys]; decide)
  refine ⟨_, m, _, hs, ?_, by rw [readJson, hs]; rfl⟩
  intro h
  obtain ⟨-, ps, e, h⟩ := h _ (List.mem_singleton.2 rfl)
  simp only [Json.obj.injEq] at e
  subst e
  obtain ⟨-, os, e, h⟩ := h _ (List.mem_singleton.2 rfl)
  simp only [Json.arr.injEq] at e
  subst e
  obtain ⟨y, m', t, v, e, h1, h2, h⟩ := h _ (List.mem_singleton.2 rfl)
  simp only [Json.obj.injEq] at e
  subst e
  have e1 : some (Json.str (str! "bnode")) = some (.str t) := h1
  have e2 : some (Json.str (str! "abc")) = some (.str v) := h2
  simp only [Option.some.injEq, Json.str.injEq] at e1 e2
  subst e1 e2
  rcases h with ⟨e, -⟩ | ⟨-, b, e, -⟩ | ⟨e, -⟩
  · exact absurd e (by decide)
  · simp at e
  · exact absurd e (by decide)

/-- A document with a plain literal is read. -/
example : ∃ g, readJson saneEnv (Json.text true 0 (.obj (oneLiteral (str! "v")))) = .ok g ∧ g.stmts.length = 1 := by
  have hs : jParse (Json.text true 0 (.obj (oneLiteral (str! "v")))) = some (.obj (oneLiteral (str! "v"))) :=
    jParse_text _ _ (by simp [oneLiteral, Json.Fits, Json.FitsAll, Json.FitsMembers, SortedKeys]; decide)
  obtain ⟨g, h1, h2⟩ := C127_reads saneEnv _ _ saneEnv_sane hs (oneLiteral_form _).1
  exact ⟨g, h1, h2.length_eq.symm⟩

end Rdftk
