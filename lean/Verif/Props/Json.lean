import Verif.Lemmas.Json
import Verif.Props.Iri
import Verif.Props.NTriples

/-! RDF/JSON: C43, C62-C65. -/

namespace Rdftk
open Spec

/-! ### C43 -/

theorem json_simple {env : ReadEnv} {sty : IriStyle} {x y : Stmt} (h : JsonStmt env sty x y) :
    simple x = true := by
  obtain ⟨s, p, o⟩ := x
  obtain ⟨h1, -, -, -, h3⟩ := h
  cases s <;> cases o <;> first | rfl | exact h1.elim | exact h3.elim

theorem ok_of_simple {x : Stmt} (h : simple x = true) : jsonOk x.object = true := by
  obtain ⟨s, p, o⟩ := x
  cases o <;> first | rfl | (cases s <;> exact h)

/-- C43, what reading gives in general, in either style of printing IRIs. -/
theorem C43_reads (env : ReadEnv) (gen : Nat → Str) (n : Nat) (o : Orders) (ho : o.Fair)
    (sty : IriStyle) (pretty : Bool) (g : Graph) (hg : ∀ x ∈ g.stmts, ∃ y, JsonStmt env sty x y) :
    ∃ t g', writeJson gen n o sty pretty g = some t ∧ readJson env t = .ok g' ∧ g'.name = none ∧
      ∀ y, y ∈ g'.stmts ↔ ∃ x ∈ g.stmts, JsonStmt env sty x y := by
  have hs := (C34_unchanged gen n g fun x hx => by
    obtain ⟨y, hy⟩ := hg x hx; exact json_simple hy).1
  have hok : ∀ st ∈ (g.simplify gen n).1.stmts, jsonOk st.object = true := fun x hx => by
    rw [hs] at hx
    obtain ⟨y, hy⟩ := hg x hx
    exact ok_of_simple (json_simple hy)
  obtain ⟨g', e, hn, hm⟩ := readGraph_reads ho sty (g.simplify gen n).1 (env := env) (by rw [hs]; exact hg)
  refine ⟨_, g', by rw [writeJson, jsonGraph_eq gen n ho sty g hok]; rfl, ?_, hn, by rw [hs] at hm; exact hm⟩
  rw [readJson, jParse_text _ _ (graph_fits _ _ _ _)]
  exact e

/-- Reading changes nothing of a literal exactly when its text needs no escapes and its type is
one that is recognised. -/
theorem jsonReread_id (pr : Char → Bool) (l : Literal) :
    jsonReread pr l = l ↔ escapeString pr l.lexicalForm = l.lexicalForm ∧
      ∀ t, l.dataType = some t → DataType.fromIri t.asIri = t := by
  obtain ⟨a, t, g⟩ := l
  cases t <;> simp [jsonReread]

/-- C43, when a graph of readable statements comes back: exactly when no object is a blank node
and no literal is changed by reading. -/
theorem C43_iff (env : ReadEnv) (gen : Nat → Str) (n : Nat) (o : Orders) (ho : o.Fair)
    (sty : IriStyle) (pretty : Bool) (g : Graph) (hg : ∀ x ∈ g.stmts, ∃ y, JsonStmt env sty x y) :
    (∃ t g', writeJson gen n o sty pretty g = some t ∧ readJson env t = .ok g' ∧
      ∀ x, x ∈ g'.stmts ↔ x ∈ g.stmts) ↔
    (∀ x ∈ g.stmts, x.object.isBlank = false) ∧
    ∀ s p l, Stmt.mk s p (.lit l) ∈ g.stmts →
      escapeString env.pr l.lexicalForm = l.lexicalForm ∧
      ∀ t, l.dataType = some t → DataType.fromIri t.asIri = t := by
  obtain ⟨t1, g1, e1, e2, -, h1⟩ := C43_reads env gen n o ho sty pretty g hg
  simp only [← jsonReread_id]
  constructor
  · rintro ⟨t, g', e, e', h⟩
    rw [e1] at e
    injection e with e
    subst e
    rw [e2] at e'
    injection e' with e'
    subst e'
    have fwd : ∀ x ∈ g.stmts, ∀ y, JsonStmt env sty x y → y ∈ g.stmts := fun x hx y hy =>
      (h y).1 ((h1 y).2 ⟨x, hx, hy⟩)
    have back : ∀ y ∈ g.stmts, ∃ x ∈ g.stmts, JsonStmt env sty x y := fun y hy =>
      (h1 y).1 ((h y).2 hy)
    constructor
    · suffices ∀ k s p b, b.length < k → Stmt.mk s p (.blank b) ∈ g.stmts → False by
        rintro ⟨s, p, x⟩ hx
        cases x with
        | blank b => exact (this _ s p b (Nat.lt_succ_self _) hx).elim
        | _ => rfl
      intro k
      induction k with
      | zero => intro s p b hb; omega
      | succ k ih =>
        intro s p b hb hm
        obtain ⟨⟨s', p', y⟩, hy⟩ := hg _ hm
        obtain ⟨-, -, -, -, c, rfl, ⟨a, rfl, ha⟩, -⟩ := id hy
        refine ih s' p' c ?_ (fwd _ hm _ hy)
        cases a with
        | nil => simp at ha
        | cons => simp at hb; omega
    · have pre : ∀ s p l, Stmt.mk s p (.lit l) ∈ g.stmts →
          ∃ y, Stmt.mk s p (.lit y) ∈ g.stmts ∧ jsonReread env.pr y = l := by
        intro s p l hm
        obtain ⟨⟨s', p', o'⟩, hx, -, -, ea, eb, hy⟩ := back _ hm
        simp only [Stmt.subject, Stmt.predicate, Stmt.object] at ea eb hy
        subst ea eb
        cases o' with
        | blank b => obtain ⟨t, e, -⟩ := hy; cases e
        | res i => cases hy.1
        | lit y => obtain ⟨e, -⟩ := hy; injection e with e; exact ⟨y, hx, e.symm⟩
        | coll c => exact hy.elim
        | stmt s => exact hy.elim
      have canon : ∀ s p l, Stmt.mk s p (.lit l) ∈ g.stmts →
          ∀ t, l.dataType = some t → DataType.fromIri t.asIri = t := by
        intro s p l hm t ht
        obtain ⟨y, -, rfl⟩ := pre s p l hm
        simp only [jsonReread, Option.map_eq_some_iff] at ht
        obtain ⟨t, -, rfl⟩ := ht
        rw [C21_iri_kept]
      suffices ∀ k s p l, l.lexicalForm.length < k → Stmt.mk s p (.lit l) ∈ g.stmts →
          jsonReread env.pr l = l from fun s p l hm => this _ s p l (Nat.lt_succ_self _) hm
      intro k
      induction k with
      | zero => intro s p l hl; omega
      | succ k ih =>
        intro s p l hl hm
        obtain ⟨y, hy, rfl⟩ := pre s p l hm
        have fixed : jsonReread env.pr y = y := by
          rcases escape_grows env.pr y.lexicalForm with e | e
          · exact (jsonReread_id _ _).2 ⟨e, canon s p y hy⟩
          · refine ih s p y ?_ hy
            simp only [jsonReread] at hl
            omega
        rw [fixed, fixed]
  · rintro ⟨hb, hl⟩
    refine ⟨t1, g1, e1, e2, fun st => ?_⟩
    have fix : ∀ x ∈ g.stmts, ∀ y, JsonStmt env sty x y → y = x := by
      rintro ⟨s, p, o⟩ hx ⟨s', p', o'⟩ ⟨-, -, ea, eb, hy⟩
      simp only [Stmt.subject, Stmt.predicate, Stmt.object] at ea eb hy
      subst ea eb
      cases o with
      | blank b => cases hb _ hx
      | res i => rw [hy.1]
      | lit l => rw [hy.1, hl _ _ l hx]
      | coll c => exact hy.elim
      | stmt s => exact hy.elim
    rw [h1]
    constructor
    · rintro ⟨x, hx, hy⟩; rw [fix x hx st hy]; exact hx
    · intro hst
      obtain ⟨y, hy⟩ := hg st hst
      exact ⟨st, hst, by rw [fix st hst y hy] at hy; exact hy⟩

/-- C43, what holds: graphs without blank nodes as objects whose literals need no escapes and
have no type or a recognised one come back. -/
theorem C43_roundtrip_partial (env : ReadEnv) (gen : Nat → Str) (n : Nat) (o : Orders) (ho : o.Fair)
    (sty : IriStyle) (pretty : Bool) (g : Graph) (hg : ∀ x ∈ g.stmts, ∃ y, JsonStmt env sty x y)
    (hb : ∀ x ∈ g.stmts, x.object.isBlank = false)
    (hl : ∀ s p l, Stmt.mk s p (.lit l) ∈ g.stmts →
      escapeString env.pr l.lexicalForm = l.lexicalForm ∧
      ∀ t, l.dataType = some t → DataType.fromIri t.asIri = t) :
    ∃ t g', writeJson gen n o sty pretty g = some t ∧ readJson env t = .ok g' ∧
      ∀ x, x ∈ g'.stmts ↔ x ∈ g.stmts :=
  (C43_iff env gen n o ho sty pretty g hg).2 ⟨hb, hl⟩

/-- A term that a graph may hold and whose IRIs, labels and tags are read back. -/
def JsonMade (env : ReadEnv) (x : Stmt) : Prop :=
  (match x.subject with
    | .blank b => blankValid env.blankOk b = true
    | .res i => IriRead env i
    | .stmt _ => False) ∧
  IriRead env x.predicate ∧
  match x.object with
    | .blank b => blankValid env.blankOk b = true
    | .res i => IriRead env i
    | .lit l => Made env.pr l ∧ JsonLiteral env l
    | _ => False

/-- C43, the full statement. -/
def C43_statement (sty : IriStyle) (pretty : Bool) : Prop :=
  ∀ (env : ReadEnv) (gen : Nat → Str) (n : Nat) (o : Orders) (g : Graph), AsciiPrintable env.pr →
    o.Fair → (∀ x ∈ g.stmts, JsonMade env x) →
    ∃ t g', writeJson gen n o sty pretty g = some t ∧ readJson env t = .ok g' ∧
      ∀ x, x ∈ g'.stmts ↔ x ∈ g.stmts

/-- C43 fails in either style for a blank node as object: its label is cut. -/
theorem C43_fails (sty : IriStyle) (pretty : Bool) : ¬ C43_statement sty pretty := by
  intro h
  let x : Stmt := .mk (.blank (str! "s")) ⟨str! "a:p"⟩ (.blank (str! "abc"))
  let y : Stmt := .mk (.blank (str! "s")) ⟨str! "a:p"⟩ (.blank (str! "c"))
  have hx : ∀ z ∈ (Graph.fromIter [x]).stmts, z = x := fun z hz => List.mem_singleton.1 hz
  have hr : IriRead easyEnv ⟨str! "a:p"⟩ := ⟨rfl, by decide⟩
  have := h easyEnv blankGen 0 sameOrder (Graph.fromIter [x]) easyEnv_ascii sameOrder_fair (by
    intro z hz; rw [hx z hz]; exact ⟨rfl, hr, rfl⟩)
  rw [C43_iff easyEnv blankGen 0 sameOrder sameOrder_fair sty pretty _ (by
    intro z hz
    rw [hx z hz]
    exact ⟨y, rfl, hr, rfl, rfl, _, rfl, ⟨str! "ab", rfl, rfl⟩, rfl⟩)] at this
  exact absurd (this.1 x (List.mem_singleton.2 rfl)) (by decide)

theorem readObjects_inv {env : ReadEnv} {s : Subject} {p : Iri} {l : List Json} {g g' : Graph}
    (h : jsonReadObjects env s p g l = .ok g') : ∀ v ∈ l, ∃ y, jsonReadObject env v = .ok y := by
  induction l generalizing g with
  | nil => simp
  | cons v l ih =>
    intro w hw
    simp only [jsonReadObjects] at h
    cases e : jsonReadObject env v with
    | ok y =>
      rw [e] at h
      rcases List.mem_cons.1 hw with rfl | hw
      · exact ⟨y, e⟩
      · exact ih h w hw
    | err => rw [e] at h; cases h
    | panic => rw [e] at h; cases h

theorem readPredicates_inv {env : ReadEnv} {s : Subject} {m : List (Str × Json)} {g g' : Graph}
    (h : jsonReadPredicates env s g m = .ok g') :
    ∀ e ∈ m, ∃ h h', jsonReadPredicate env s e.1 h e.2 = .ok h' := by
  induction m generalizing g with
  | nil => simp
  | cons x m ih =>
    obtain ⟨p, v⟩ := x
    intro w hw
    simp only [jsonReadPredicates] at h
    cases e : jsonReadPredicate env s p g v with
    | ok y =>
      rw [e] at h
      rcases List.mem_cons.1 hw with rfl | hw
      · exact ⟨g, y, e⟩
      · exact ih h w hw
    | err => rw [e] at h; cases h
    | panic => rw [e] at h; cases h

theorem readSubjects_inv {env : ReadEnv} {m : List (Str × Json)} {g g' : Graph}
    (h : jsonReadSubjects env g m = .ok g') :
    ∀ e ∈ m, ∃ h h', jsonReadSubject env e.1 h e.2 = .ok h' := by
  induction m generalizing g with
  | nil => simp
  | cons x m ih =>
    obtain ⟨p, v⟩ := x
    intro w hw
    simp only [jsonReadSubjects] at h
    cases e : jsonReadSubject env p g v with
    | ok y =>
      rw [e] at h
      rcases List.mem_cons.1 hw with rfl | hw
      · exact ⟨g, y, e⟩
      · exact ih h w hw
    | err => rw [e] at h; cases h
    | panic => rw [e] at h; cases h

theorem display_inj {sty : IriStyle} {a b : Subject} (ha : a.isStatement = false)
    (hb : b.isStatement = false) (h : a.display sty = b.display sty) : a = b := by
  cases a with
  | blank x =>
    cases b with
    | blank y => simpa [Subject.display] using h
    | res j => simp [Subject.display] at h
    | stmt t => cases hb
  | res i =>
    cases b with
    | blank y => simp [Subject.display] at h
    | res j =>
      have : i.fmt sty = j.fmt sty := by simpa [Subject.display] using h
      rw [fmt_inj this]
    | stmt t => cases hb
  | stmt t => cases ha

theorem simplify_no_nested (gen : Nat → Str) (n : Nat) (g : Graph) :
    ∀ x ∈ (g.simplify gen n).1.stmts, x.subject.isStatement = false := by
  rw [simplify_stmts]
  generalize g.stmts = l
  have one : ∀ n t, ∀ x ∈ (simplifyStmt gen n t).1, x.subject.isStatement = false := by
    intro n t x hx
    rcases simplifyStmt_subject gen n t x hx with ⟨j, -, -, e⟩ | ⟨e, -⟩
    · rw [e]; rfl
    · rw [e]
      match t with
      | .mk (.blank _) _ _ | .mk (.res _) _ _ => rfl
      | .mk (.stmt u) p o =>
        simp only [simplifyStmt, List.mem_cons] at hx
        rcases hx with rfl | hx
        · cases e
        · obtain ⟨j, -, -, h⟩ := Stmt.reify_subject gen n u x hx
          rw [h] at e; cases e
  induction l generalizing n with
  | nil => simp [simplifyAll]
  | cons t ts ih =>
    intro x hx
    simp only [simplifyAll, List.mem_append] at hx
    rcases hx with hx | hx
    · exact one n t x hx
    · exact ih _ x hx

/-- The entries of the map of a graph. -/
theorem mem_subjects {o : Orders} (ho : o.Fair) (sty : IriStyle) (g : Graph)
    (hg : ∀ x ∈ g.stmts, x.subject.isStatement = false) (e : Str × Json) :
    e ∈ mapAll [] ((o.subj g.subjects).map (subjEntry o sty g)) ↔
      ∃ s ∈ o.subj g.subjects, subjEntry o sty g s = e := by
  have hs : ∀ s ∈ o.subj g.subjects, s.isStatement = false := fun s hs => by
    obtain ⟨st, hst, rfl⟩ := (mem_setOf.trans List.mem_map).1 ((ho.1 _).mem_iff.1 hs)
    exact hg st hst
  exact mem_mapAll ((ho.1 _).nodup_iff.2 (setOf_nodup _))
    (fun a ha b hb h => display_inj (hs a ha) (hs b hb) h) e

theorem mem_predicates {o : Orders} (ho : o.Fair) (sty : IriStyle) (g : Graph) (s : Subject)
    (e : Str × Json) :
    e ∈ mapAll [] ((o.pred s (g.predicatesFor s)).map (predEntry o sty g s)) ↔
      ∃ p ∈ o.pred s (g.predicatesFor s), predEntry o sty g s p = e :=
  mem_mapAll ((ho.2.1 _ _).nodup_iff.2 (setOf_nodup _)) (fun _ _ _ _ h => fmt_inj h) e

/-- A document that is read has readable subjects and objects. -/
theorem read_inv {env : ReadEnv} {o : Orders} (ho : o.Fair) (sty : IriStyle) (g g' : Graph)
    (hs : ∀ x ∈ g.stmts, x.subject.isStatement = false)
    (h : jsonReadGraph env (.obj (mapAll [] ((o.subj g.subjects).map (subjEntry o sty g)))) = .ok g') :
    ∀ x ∈ g.stmts, (∃ s, jsonReadKey env (x.subject.display sty) = .ok s) ∧
      ∃ y, jsonReadObject env (jsonVal sty x.object) = .ok y := by
  intro x hx
  have hv := visit_mem ho g
  simp only [Graph.visit, List.mem_flatMap, List.mem_map] at hv
  obtain ⟨s, hs', p, hp, z, hz, rfl⟩ := (hv x).2 hx
  obtain ⟨h1, h2, e⟩ := readSubjects_inv h _ ((mem_subjects ho sty g hs _).2 ⟨s, hs', rfl⟩)
  simp only [subjEntry, jsonReadSubject] at e
  cases ek : jsonReadKey env (s.display sty) with
  | ok s1 =>
    rw [ek] at e
    refine ⟨⟨s1, ek⟩, ?_⟩
    obtain ⟨h3, h4, e⟩ := readPredicates_inv e _ ((mem_predicates ho sty g s _).2 ⟨p, hp, rfl⟩)
    simp only [predEntry, jsonReadPredicate] at e
    cases ei : Iri.fromStr env.url (p.fmt sty) with
    | none => rw [ei] at e; cases e
    | some i =>
      rw [ei] at e
      exact readObjects_inv e _ (List.mem_map_of_mem hz)
  | err => rw [ek] at e; cases e
  | panic => rw [ek] at e; cases e

/-- C43 fails whenever a blank node is an object whose label cannot be cut, or is no label when
cut: the document is not read. -/
theorem C43_fails_blank (env : ReadEnv) (gen : Nat → Str) (n : Nat) (o : Orders) (ho : o.Fair)
    (sty : IriStyle) (pretty : Bool) (g g' : Graph) (t : Str) (x : Stmt) (b : Str)
    (hx : x ∈ (g.simplify gen n).1.stmts) (hb : x.object = .blank b)
    (hc : ¬ ∃ c, CutTwo b c ∧ blankValid env.blankOk c = true)
    (hw : writeJson gen n o sty pretty g = some t) : readJson env t ≠ .ok g' := by
  intro h
  simp only [writeJson, jsonGraph, jsonSubjects_eq] at hw
  split at hw
  · simp only [Option.map_some, Option.some.injEq] at hw
    subst hw
    rw [readJson, jParse_text _ _ (graph_fits _ _ _ _)] at h
    obtain ⟨-, y, e⟩ := read_inv ho sty _ _ (simplify_no_nested gen n g) h x hx
    rw [hb] at e
    have e2 : jsonReadObject env (jsonVal sty (.blank b)) =
        Res.bind (match dropTwoBytes b with
          | .panic => .panic
          | .ok t => Res.ofOption (blankParse env.blankOk t)) fun b => .ok (.blank b) := rfl
    rw [e2] at e
    cases ed : dropTwoBytes b with
    | panic => rw [ed] at e; cases e
    | ok c =>
      rw [ed] at e
      simp only [blankParse] at e
      split at e
      · rename_i hv; exact hc ⟨c, (dropTwoBytes_iff b c).1 ed, hv⟩
      · cases e
  · cases hw

/-- C43 fails for every graph with an IRI as subject when IRIs print in brackets, because no URL
starts with a bracket. -/
theorem C43_fails_bracketed (env : ReadEnv) (hu : ∀ t, env.url ('<' :: t) = none) (gen : Nat → Str)
    (n : Nat) (o : Orders) (ho : o.Fair) (pretty : Bool) (g g' : Graph) (t : Str) (x : Stmt) (i : Iri)
    (hx : x ∈ g.stmts) (hi : x.subject = .res i)
    (hw : writeJson gen n o .bracketed pretty g = some t) : readJson env t ≠ .ok g' := by
  intro h
  have hx' : ∃ x ∈ (g.simplify gen n).1.stmts, x.subject = .res i := by
    rw [simplify_stmts]
    obtain ⟨l1, l2, e⟩ := List.append_of_mem hx
    rw [e, (simplifyAll_append gen n l1 _).1]
    generalize (simplifyAll gen n l1).2 = m
    simp only [simplifyAll, List.mem_append]
    match x, hi with
    | .mk (.res _) p (.blank _), hi | .mk (.res _) p (.res _), hi | .mk (.res _) p (.lit _), hi
    | .mk (.res _) p (.coll _), hi | .mk (.res _) p (.stmt _), hi =>
      simp only [simplifyStmt, List.mem_cons]
      exact ⟨_, .inr (.inl (.inl rfl)), hi⟩
  obtain ⟨x, hx, hi⟩ := hx'
  simp only [writeJson, jsonGraph, jsonSubjects_eq] at hw
  split at hw
  · simp only [Option.map_some, Option.some.injEq] at hw
    subst hw
    rw [readJson, jParse_text _ _ (graph_fits _ _ _ _)] at h
    obtain ⟨⟨s, e⟩, -⟩ := read_inv ho .bracketed _ _ (simplify_no_nested gen n g) h x hx
    rw [hi] at e
    have e2 : jsonReadKey env ((Subject.res i).display .bracketed) =
        Res.bind (Res.ofOption (Iri.fromStr env.url ('<' :: (('<' :: i.text ++ ['>']) ++ ['>']))))
          fun i => .ok (.res i) := rfl
    rw [e2] at e
    have e3 : Iri.fromStr env.url ('<' :: (('<' :: i.text ++ ['>']) ++ ['>'])) =
        env.url ('<' :: i.text ++ ['>']) := (C09_brackets env.url _).1 _ rfl
    rw [e3, List.cons_append, hu] at e
    cases e
  · cases hw

/-! ### C62 -/

/-- C62: every value without numbers, at most 127 levels deep, is read back from its text, in
either layout. -/
theorem C62_text (pretty : Bool) (v : Json) (h : v.Fits 127) : jParse (v.text pretty 0) = some v :=
  jParse_text pretty v h

/-- C62: the layout has no influence on what is read, nor on whether anything is written. -/
theorem C62_layout (env : ReadEnv) (gen : Nat → Str) (n : Nat) (o : Orders) (sty : IriStyle)
    (g : Graph) :
    (writeJson gen n o sty true g).map (readJson env) =
      (writeJson gen n o sty false g).map (readJson env) := by
  simp only [writeJson, jsonGraph, jsonSubjects_eq]
  split
  · simp only [Option.map_some, readJson, jParse_text _ _ (graph_fits _ _ _ _)]
  · rfl

/-! ### C63 -/

/-- C63: what is written does not depend on the order in which subjects and predicates are
visited. -/
theorem C63_order (gen : Nat → Str) (n : Nat) (o o' : Orders) (ho : o.Fair) (ho' : o'.Fair)
    (hobj : o.obj = o'.obj) (sty : IriStyle) (pretty : Bool) (g : Graph) :
    writeJson gen n o sty pretty g = writeJson gen n o' sty pretty g := by
  have hp : predEntry o sty (g.simplify gen n).1 = predEntry o' sty (g.simplify gen n).1 := by
    unfold predEntry; rw [hobj]
  have keysP : ∀ s, (([] ++ (o.pred s ((g.simplify gen n).1.predicatesFor s)).map
      (predEntry o sty (g.simplify gen n).1 s)).map (fun e : Str × Json => e.1)).Nodup := by
    intro s
    rw [List.nil_append, List.map_map]
    unfold List.Nodup
    rw [List.pairwise_map]
    exact ((ho.2.1 _ _).nodup_iff.2 (setOf_nodup _)).imp fun hne e => hne (fmt_inj e)
  have hs : subjEntry o sty (g.simplify gen n).1 = subjEntry o' sty (g.simplify gen n).1 := by
    funext s
    unfold subjEntry
    rw [← hp]
    have perm : ((o.pred s ((g.simplify gen n).1.predicatesFor s)).map
        (predEntry o sty (g.simplify gen n).1 s)).Perm
        ((o'.pred s ((g.simplify gen n).1.predicatesFor s)).map
        (predEntry o sty (g.simplify gen n).1 s)) :=
      ((ho.2.1 _ _).trans (ho'.2.1 _ _).symm).map _
    rw [sorted_unique (mapAll_sorted List.Pairwise.nil) (mapAll_sorted List.Pairwise.nil)
      (((mapAll_perm (keysP s)).trans perm).trans (mapAll_perm (m := [])
        ((perm.map _).nodup_iff.1 (keysP s))).symm)]
  simp only [writeJson, jsonGraph, jsonSubjects_eq]
  have hc : (o.subj (g.simplify gen n).1.subjects).all (fun s => (o.pred s ((g.simplify gen n).1.predicatesFor s)).all
      fun p => (o.obj s p ((g.simplify gen n).1.objectsFor s p)).all jsonOk) =
      (o'.subj (g.simplify gen n).1.subjects).all (fun s => (o'.pred s ((g.simplify gen n).1.predicatesFor s)).all
      fun p => (o'.obj s p ((g.simplify gen n).1.objectsFor s p)).all jsonOk) := by
    rw [Bool.eq_iff_iff, all_ok_iff ho, all_ok_iff ho']
  rw [hc]
  have inS : ∀ s ∈ o.subj (g.simplify gen n).1.subjects, s.isStatement = false := fun s hs => by
    obtain ⟨st, hst, rfl⟩ := (mem_setOf.trans List.mem_map).1 ((ho.1 _).mem_iff.1 hs)
    exact simplify_no_nested gen n g st hst
  have keysS : (([] ++ (o.subj (g.simplify gen n).1.subjects).map
      (subjEntry o sty (g.simplify gen n).1)).map (fun e : Str × Json => e.1)).Nodup := by
    rw [List.nil_append, List.map_map]
    unfold List.Nodup
    rw [List.pairwise_map]
    exact ((ho.1 _).nodup_iff.2 (setOf_nodup _)).imp_of_mem fun ha hb hne e =>
      hne (display_inj (inS _ ha) (inS _ hb) e)
  have perm : ((o.subj (g.simplify gen n).1.subjects).map (subjEntry o sty (g.simplify gen n).1)).Perm
      ((o'.subj (g.simplify gen n).1.subjects).map (subjEntry o sty (g.simplify gen n).1)) :=
    ((ho.1 _).trans (ho'.1 _).symm).map _
  rw [← hs, sorted_unique (mapAll_sorted List.Pairwise.nil) (mapAll_sorted List.Pairwise.nil)
    (((mapAll_perm keysS).trans perm).trans (mapAll_perm (by
      rw [List.nil_append]
      rw [List.nil_append] at keysS
      exact (perm.map _).nodup_iff.1 keysS)).symm)]

/-! ### C64 -/

/-- C64: the writer fails exactly for the graphs with terms that cannot be expanded. -/
theorem C64_refuses (gen : Nat → Str) (n : Nat) (o : Orders) (ho : o.Fair) (sty : IriStyle)
    (pretty : Bool) (g : Graph) :
    writeJson gen n o sty pretty g = none ↔ ∃ x ∈ g.stmts, shallow x = false := by
  have h1 := C34_exact_partial gen n g
  have h2 := all_ok_iff ho (g.simplify gen n).1
  have h3 : (∀ st ∈ (g.simplify gen n).1.stmts, jsonOk st.object = true) ↔
      ∀ t ∈ (g.simplify gen n).1.stmts, simple t = true := by
    constructor
    · intro h st hst
      have a := h st hst
      have b := simplify_no_nested gen n g st hst
      obtain ⟨s, p, x⟩ := st
      cases s <;> cases x <;> first | cases a; done | cases b; done | rfl
    · intro h st hst; exact ok_of_simple (h st hst)
  rw [h3, h1] at h2
  simp only [writeJson, jsonGraph, jsonSubjects_eq]
  split
  · rename_i h
    have := h2.1 h
    simp only [Option.map_some, reduceCtorEq, false_iff, not_exists, not_and]
    intro x hx he
    rw [this x hx] at he; cases he
  · rename_i h
    simp only [Option.map_none, true_iff]
    rw [h2] at h
    simpa using h

/-! ### C65 -/

/-- C65, the full statement. -/
def C65_statement : Prop := ∀ (env : ReadEnv) (s : Str), readJson env s ≠ .panic

/-- C65 fails: reading any graph with a blank node object of one character panics. -/
theorem C65_fails : ¬ C65_statement := by
  intro h
  have : ∀ env, jsonReadGraph env (.obj [(str! "_:s", .obj [(str! "a:p", .arr [.obj
      [(str! "type", .str (str! "bnode")), (str! "value", .str (str! "o"))]])])]) ≠ .panic := by
    intro env
    have := h env (Json.text false 0 (.obj [(str! "_:s", .obj [(str! "a:p", .arr [.obj
      [(str! "type", .str (str! "bnode")), (str! "value", .str (str! "o"))]])])]))
    rw [readJson, jParse_text] at this
    · exact this
    · simp [Json.Fits, Json.FitsAll, Json.FitsMembers, SortedKeys]; decide
  have e := this easyEnv
  exact e rfl

theorem readObject_no_panic {env : ReadEnv} {v : Json} (h : ∀ b ∈ bnodesOfObject v, ∃ t, CutTwo b t) :
    jsonReadObject env v ≠ .panic := by
  cases v with
  | obj m =>
    simp only [jsonReadObject]
    split
    · rename_i s hs
      split
      · simp only [jsonLiteral]
        split
        · simp [Res.bind]
        · rename_i v l _ _ _; cases env.lang l <;> simp [Res.bind, Res.ofOption]
        · rename_i v d _ _ _; cases Iri.fromStr env.url d <;> simp [Res.bind, Res.ofOption]
        · simp [Res.bind]
      · split
        · rename_i hb
          simp only [jsonBlank]
          split
          · rename_i w hw
            obtain ⟨t, ht⟩ := h w (by simp [bnodesOfObject, hs, hw, hb])
            rw [(dropTwoBytes_iff w t).2 ht]
            simp only
            cases blankParse env.blankOk t <;> simp [Res.bind, Res.ofOption]
          · simp [Res.bind]
        · split
          · simp only [jsonUri]
            split
            · rename_i w _; cases Iri.fromStr env.url w <;> simp [Res.bind, Res.ofOption]
            · simp [Res.bind]
          · simp
    · simp
  | _ => simp [jsonReadObject]

theorem bind_no_panic {α β : Type} {r : Res α} {f : α → Res β} (h : r ≠ .panic)
    (hf : ∀ a, r = .ok a → f a ≠ .panic) : r.bind f ≠ .panic := by
  cases r with
  | ok a => exact hf a rfl
  | err => simp [Res.bind]
  | panic => exact absurd rfl h

theorem ofOption_no_panic {α : Type} (o : Option α) : Res.ofOption o ≠ .panic := by
  cases o <;> simp [Res.ofOption]

theorem readObjects_no_panic {env : ReadEnv} {s : Subject} {p : Iri} {l : List Json} {g : Graph}
    (h : ∀ v ∈ l, ∀ b ∈ bnodesOfObject v, ∃ t, CutTwo b t) :
    jsonReadObjects env s p g l ≠ .panic := by
  induction l generalizing g with
  | nil => simp [jsonReadObjects]
  | cons v l ih =>
    simp only [jsonReadObjects]
    exact bind_no_panic (readObject_no_panic (h v List.mem_cons_self))
      fun x _ => ih fun w hw => h w (List.mem_cons_of_mem _ hw)

theorem readPredicates_no_panic {env : ReadEnv} {s : Subject} {m : List (Str × Json)} {g : Graph}
    (h : ∀ e ∈ m, ∀ b ∈ bnodesOfPredicate e.2, ∃ t, CutTwo b t) :
    jsonReadPredicates env s g m ≠ .panic := by
  induction m generalizing g with
  | nil => simp [jsonReadPredicates]
  | cons x m ih =>
    obtain ⟨p, v⟩ := x
    simp only [jsonReadPredicates]
    refine bind_no_panic ?_ fun x _ => ih fun w hw => h w (List.mem_cons_of_mem _ hw)
    have hv := h _ List.mem_cons_self
    cases v with
    | arr l =>
      simp only [jsonReadPredicate]
      refine bind_no_panic (ofOption_no_panic _) fun i _ => readObjects_no_panic fun v hv' b hb => ?_
      exact hv b (List.mem_flatMap.2 ⟨v, hv', hb⟩)
    | _ => simp [jsonReadPredicate]

theorem readSubjects_no_panic {env : ReadEnv} {m : List (Str × Json)} {g : Graph}
    (h : ∀ e ∈ m, ∀ b ∈ bnodesOfSubject e.2, ∃ t, CutTwo b t) :
    jsonReadSubjects env g m ≠ .panic := by
  induction m generalizing g with
  | nil => simp [jsonReadSubjects]
  | cons x m ih =>
    obtain ⟨s, v⟩ := x
    simp only [jsonReadSubjects]
    refine bind_no_panic ?_ fun x _ => ih fun w hw => h w (List.mem_cons_of_mem _ hw)
    have hv := h _ List.mem_cons_self
    cases v with
    | obj l =>
      simp only [jsonReadSubject]
      refine bind_no_panic ?_ fun i _ => readPredicates_no_panic fun v hv' b hb => ?_
      · unfold jsonReadKey
        split <;> exact bind_no_panic (ofOption_no_panic _) fun _ _ => by simp
      · exact hv b (List.mem_flatMap.2 ⟨v, hv', hb⟩)
    | _ => simp [jsonReadSubject]

/-- C65 for the texts in which every blank node object can be cut, and for texts that are no
JSON. -/
theorem C65_no_panic_partial (env : ReadEnv) (s : Str)
    (h : ∀ v, jParse s = some v → ∀ b ∈ bnodes v, ∃ t, CutTwo b t) : readJson env s ≠ .panic := by
  unfold readJson
  cases e : jParse s with
  | none => simp
  | some v =>
    cases v with
    | obj m =>
      simp only [jsonReadGraph]
      exact readSubjects_no_panic fun x hx b hb => h _ e b (List.mem_flatMap.2 ⟨x, hx, hb⟩)
    | _ => simp [jsonReadGraph]

/-! ### C66 -/

/-- C66, the full statement. -/
def C66_statement (sty : IriStyle) (pretty : Bool) : Prop :=
  ∀ (gen : Nat → Str) (n : Nat) (o : Orders) (g : Graph) (t : Str), o.Fair →
    writeJson gen n o sty pretty g = some t →
    ∃ v, jParse t = some v ∧
      RdfJson subjectName Iri.text Iri.text ('_' :: ':' :: ·) (g.simplify gen n).1.stmts v

theorem jsonObject_value (sty : IriStyle) (x : Object) :
    jsonObject sty x = nodeValue (Iri.fmt sty) id x := by
  cases x with
  | lit l =>
    obtain ⟨a, t, g⟩ := l
    cases t <;> cases g <;> rfl
  | _ => rfl

theorem jsonVal_value {sty : IriStyle} {x : Object} (h : jsonOk x = true) :
    nodeValue (Iri.fmt sty) id x = some (jsonVal sty x) := by
  rw [← jsonObject_value]
  cases x <;> first | rfl | cases h

/-- C66 with the names the code uses: what is written is exactly one value for each statement,
under its subject and predicate. Missing from the full statement: IRIs as subjects are between
brackets, and so are the others when IRIs print so; blank node objects lack their `_:`. -/
theorem C66_form_partial (gen : Nat → Str) (n : Nat) (o : Orders) (ho : o.Fair) (sty : IriStyle)
    (pretty : Bool) (g : Graph) (t : Str) (hw : writeJson gen n o sty pretty g = some t) :
    ∃ v, jParse t = some v ∧ RdfJson (Subject.display sty) (Iri.fmt sty) (Iri.fmt sty) id
      (g.simplify gen n).1.stmts v := by
  simp only [writeJson, jsonGraph, jsonSubjects_eq] at hw
  split at hw
  · rename_i hok
    simp only [Option.map_some, Option.some.injEq] at hw
    subst hw
    refine ⟨_, jParse_text _ _ (graph_fits _ _ _ _), _, rfl, ?_, ?_⟩
    · rw [all_ok_iff ho] at hok
      intro x hx
      have hv := visit_mem ho (g.simplify gen n).1
      simp only [Graph.visit, List.mem_flatMap, List.mem_map] at hv
      obtain ⟨s, hs, p, hp, z, hz, rfl⟩ := (hv x).2 hx
      exact ⟨_, _, _, (mem_subjects ho sty _ (simplify_no_nested gen n g) _).2 ⟨s, hs, rfl⟩,
        (mem_predicates ho sty _ s _).2 ⟨p, hp, rfl⟩, jsonVal_value (hok _ hx),
        List.mem_map_of_mem hz⟩
    · rw [all_ok_iff ho] at hok
      intro e he
      obtain ⟨s, hs, rfl⟩ := (mem_subjects ho sty _ (simplify_no_nested gen n g) _).1 he
      refine ⟨_, rfl, fun f hf => ?_⟩
      obtain ⟨p, hp, rfl⟩ := (mem_predicates ho sty _ s _).1 hf
      refine ⟨_, rfl, fun v hv => ?_⟩
      obtain ⟨z, hz, rfl⟩ := List.mem_map.1 hv
      have hv := visit_mem ho (g.simplify gen n).1
      simp only [Graph.visit, List.mem_flatMap, List.mem_map] at hv
      have hx := (hv (.mk s p z)).1 ⟨s, hs, p, hp, z, hz, rfl⟩
      exact ⟨_, hx, rfl, rfl, jsonVal_value (hok _ hx)⟩
  · cases hw

/-- C66 fails in either style: an IRI as subject is written between brackets. -/
theorem C66_fails (sty : IriStyle) (pretty : Bool) : ¬ C66_statement sty pretty := by
  intro h
  let x : Stmt := .mk (.res ⟨str! "a:s"⟩) ⟨str! "a:p"⟩ (.res ⟨str! "a:o"⟩)
  have hx : ∀ z ∈ ((Graph.fromIter [x]).simplify blankGen 0).1.stmts, z = x := fun z hz =>
    List.mem_singleton.1 hz
  cases hw : writeJson blankGen 0 sameOrder sty pretty (Graph.fromIter [x]) with
  | none =>
    obtain ⟨z, hz, e⟩ := (C64_refuses blankGen 0 sameOrder sameOrder_fair sty pretty _).1 hw
    rw [List.mem_singleton.1 hz] at e
    cases e
  | some t =>
    obtain ⟨v, hv, m, rfl, h1, -⟩ := h blankGen 0 sameOrder (Graph.fromIter [x]) t sameOrder_fair hw
    obtain ⟨w, hw, m', rfl, -, h2⟩ := C66_form_partial blankGen 0 sameOrder sameOrder_fair sty pretty
      (Graph.fromIter [x]) t hw
    rw [hv] at hw
    simp only [Option.some.injEq, Json.obj.injEq] at hw
    subst hw
    obtain ⟨ps, os, y, hm, hp, -, ho⟩ := h1 x (List.mem_singleton.2 rfl)
    obtain ⟨ps', e, h3⟩ := h2 _ hm
    simp only [Json.obj.injEq] at e
    subst e
    obtain ⟨os', e, h4⟩ := h3 _ hp
    simp only [Json.arr.injEq] at e
    subst e
    obtain ⟨z, hz, h5, -⟩ := h4 y ho
    rw [hx z hz] at h5
    have h6 : (str! "a:s").head? = some '<' := by
      have h7 : Subject.display sty (.res ⟨str! "a:s"⟩) = str! "a:s" := h5
      rw [← h7]; rfl
    exact absurd h6 (by decide)

/-! ### The hypotheses can be met -/

/-- A statement that comes back when IRIs print bare. -/
def jsonSample : Stmt := .mk (.res ⟨str! "a:s"⟩) ⟨str! "a:p"⟩ (.lit ⟨str! "x", none, some (str! "en")⟩)

example : JsonStmt easyEnv .bare jsonSample jsonSample := by
  refine ⟨⟨rfl, rfl, by decide⟩, ⟨rfl, by decide⟩, rfl, rfl, rfl, .inl rfl, ?_, ?_⟩
  · intro t h; cases h
  · intro g h
    cases (Option.some.inj h)
    rfl

example : escapeString easyEnv.pr (str! "x") = str! "x" := by decide +kernel

example : CutTwo (str! "b0ab") (str! "ab") := ⟨str! "b0", rfl, rfl⟩
example : ¬ ∃ c, CutTwo (str! "b") c := by
  rintro ⟨c, h⟩
  have := (dropTwoBytes_iff (str! "b") c).2 h
  cases this

example : writeJson blankGen 0 sameOrder .bare false
    (Graph.fromIter [.mk (.res ⟨str! "a:s"⟩) ⟨str! "a:p"⟩ (.blank (str! "abc"))]) =
    some (str! "{\"<a:s>\":{\"a:p\":[{\"type\":\"bnode\",\"value\":\"abc\"}]}}") := by decide +kernel

example : shallow (.mk (.res ⟨str! "a:s"⟩) ⟨str! "a:p"⟩ (.coll [.coll []])) = false := rfl

example : bnodes (.obj [(str! "_:s", .obj [(str! "a:p", .arr [.obj
    [(str! "type", .str (str! "bnode")), (str! "value", .str (str! "o"))]])])]) = [str! "o"] := rfl

end Rdftk
