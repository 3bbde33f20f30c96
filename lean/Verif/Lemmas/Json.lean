import Verif.Spec.Json
import Verif.Lemmas.JsonText
import Verif.Lemmas.NTWrite
import Verif.Lemmas.Iri

/-! Helper lemmas about RDF/JSON. -/

namespace Rdftk
open Spec

/-! ### Maps made of lists -/

/-- The entries put one after the other. -/
def mapAll {α : Type _} (m : List (Str × α)) (l : List (Str × α)) : List (Str × α) :=
  l.foldl (fun m e => mapPut e.1 e.2 m) m

theorem mapPut_perm {α : Type _} {k : Str} {v : α} {m : List (Str × α)} (h : ∀ e ∈ m, e.1 ≠ k) :
    (mapPut k v m).Perm ((k, v) :: m) := by
  induction m with
  | nil => exact .refl _
  | cons x m ih =>
    unfold mapPut
    split
    · exact .refl _
    · rename_i hc
      rw [cmpStr_eq] at hc
      exact absurd hc.symm (h x List.mem_cons_self)
    · exact ((ih fun e he => h e (List.mem_cons_of_mem _ he)).cons x).trans (.swap _ _ _)

theorem mapAll_sorted {α : Type _} {m l : List (Str × α)} (h : SortedKeys m) : SortedKeys (mapAll m l) := by
  induction l generalizing m with
  | nil => exact h
  | cons e l ih => exact ih (sorted_mapPut h)

theorem mapAll_perm {α : Type _} {m l : List (Str × α)} (h : ((m ++ l).map (·.1)).Nodup) :
    (mapAll m l).Perm (m ++ l) := by
  induction l generalizing m with
  | nil => simp [mapAll]
  | cons e l ih =>
    have hk : ∀ x ∈ m, x.1 ≠ e.1 := by
      intro x hx he
      rw [List.map_append, List.nodup_append] at h
      exact h.2.2 _ (List.mem_map_of_mem hx) _ (by simp) he
    have hp := mapPut_perm (k := e.1) (v := e.2) hk
    have h2 : (mapPut e.1 e.2 m ++ l).Perm (m ++ e :: l) :=
      (hp.append_right l).trans (by
        rw [List.cons_append]
        exact List.perm_middle.symm)
    have := ih (m := mapPut e.1 e.2 m) ((h2.map (·.1)).nodup_iff.2 h)
    exact this.trans h2

theorem sorted_nodup {α : Type _} {m : List (Str × α)} (h : SortedKeys m) : (m.map (·.1)).Nodup := by
  unfold List.Nodup
  rw [List.pairwise_map]
  refine h.imp fun {a b} hab e => ?_
  rw [e, cmpStr_order.refl] at hab
  cases hab

/-- Two sorted maps with the same entries are equal. -/
theorem sorted_unique {α : Type _} {m m' : List (Str × α)} (h : SortedKeys m) (h' : SortedKeys m')
    (hp : m.Perm m') : m = m' := by
  refine hp.eq_of_pairwise ?_ h h'
  intro a b _ _ h1 h2
  have := cmpStr_order.trans _ _ _ h1 h2
  rw [cmpStr_order.refl] at this
  cases this

/-! ### Writer -/

/-- The objects that can be written. -/
def jsonOk : Object → Bool
  | .coll _ => false
  | .stmt _ => false
  | _ => true

/-- The value of an object that can be written. -/
def jsonVal (sty : IriStyle) (x : Object) : Json := (jsonObject sty x).getD .null

theorem jsonObjects_eq (sty : IriStyle) (l : List Object) :
    jsonObjects sty l = if l.all jsonOk then some (l.map (jsonVal sty)) else none := by
  induction l with
  | nil => rfl
  | cons x l ih =>
    have hx : jsonObject sty x = if jsonOk x then some (jsonVal sty x) else none := by
      cases x <;> rfl
    simp only [jsonObjects, hx, ih, List.all_cons, List.map_cons]
    cases jsonOk x
    · rfl
    · cases l.all jsonOk <;> rfl

/-- The entry of a predicate. -/
def predEntry (o : Orders) (sty : IriStyle) (g : Graph) (s : Subject) (p : Iri) : Str × Json :=
  (p.fmt sty, .arr ((o.obj s p (g.objectsFor s p)).map (jsonVal sty)))

theorem jsonPredicates_eq (o : Orders) (sty : IriStyle) (g : Graph) (s : Subject)
    (m : List (Str × Json)) (ps : List Iri) :
    jsonPredicates o sty g s m ps =
      if ps.all (fun p => (o.obj s p (g.objectsFor s p)).all jsonOk) then
        some (mapAll m (ps.map (predEntry o sty g s))) else none := by
  induction ps generalizing m with
  | nil => rfl
  | cons p ps ih =>
    simp only [jsonPredicates, jsonObjects_eq, List.all_cons, List.map_cons]
    cases h : (o.obj s p (g.objectsFor s p)).all jsonOk
    · rfl
    · simp only [if_true, Bool.true_and, ih]
      rfl

/-- The entry of a subject. -/
def subjEntry (o : Orders) (sty : IriStyle) (g : Graph) (s : Subject) : Str × Json :=
  (s.display sty, .obj (mapAll [] ((o.pred s (g.predicatesFor s)).map (predEntry o sty g s))))

theorem jsonSubjects_eq (o : Orders) (sty : IriStyle) (g : Graph) (m : List (Str × Json))
    (ss : List Subject) :
    jsonSubjects o sty g m ss =
      if ss.all (fun s => (o.pred s (g.predicatesFor s)).all fun p =>
          (o.obj s p (g.objectsFor s p)).all jsonOk) then
        some (mapAll m (ss.map (subjEntry o sty g))) else none := by
  induction ss generalizing m with
  | nil => rfl
  | cons s ss ih =>
    simp only [jsonSubjects, jsonPredicates_eq, List.all_cons, List.map_cons]
    cases h : (o.pred s (g.predicatesFor s)).all fun p => (o.obj s p (g.objectsFor s p)).all jsonOk
    · rfl
    · simp only [if_true, Bool.true_and, ih]
      rfl

theorem all_ok_iff {o : Orders} (ho : o.Fair) (g : Graph) :
    (o.subj g.subjects).all (fun s => (o.pred s (g.predicatesFor s)).all fun p =>
      (o.obj s p (g.objectsFor s p)).all jsonOk) = true ↔ ∀ st ∈ g.stmts, jsonOk st.object = true := by
  have hv := visit_mem ho g
  simp only [Graph.visit, List.mem_flatMap, List.mem_map] at hv
  simp only [List.all_eq_true]
  constructor
  · intro h st hst
    obtain ⟨s, hs, p, hp, x, hx, rfl⟩ := (hv st).2 hst
    exact h s hs p hp x hx
  · intro h s hs p hp x hx
    exact h _ ((hv _).1 ⟨s, hs, p, hp, x, hx, rfl⟩)

theorem jsonGraph_eq (gen : Nat → Str) (n : Nat) {o : Orders} (ho : o.Fair) (sty : IriStyle) (g : Graph)
    (h : ∀ st ∈ (g.simplify gen n).1.stmts, jsonOk st.object = true) :
    jsonGraph gen n o sty g = some (.obj (mapAll []
      ((o.subj (g.simplify gen n).1.subjects).map (subjEntry o sty (g.simplify gen n).1)))) := by
  simp only [jsonGraph, jsonSubjects_eq]
  rw [if_pos ((all_ok_iff ho _).2 h)]
  rfl

theorem jsonVal_fits (sty : IriStyle) (x : Object) (d : Nat) : (jsonVal sty x).Fits (d + 1) := by
  have key : ∀ m : List (Str × Json), SortedKeys m → (∀ e ∈ m, ∃ s, e.2 = .str s) →
      (Json.obj m).Fits (d + 1) := by
    intro m h1 h2
    refine ⟨h1, fitsMembers_iff.2 fun e he => ?_⟩
    obtain ⟨s, es⟩ := h2 e he
    rw [es]; cases d <;> trivial
  have put : ∀ (k s : Str) (m : List (Str × Json)), (∀ e ∈ m, ∃ s, e.2 = .str s) →
      ∀ e ∈ mapPut k (.str s) m, ∃ s, e.2 = .str s := by
    intro k s m h e he
    rcases mem_mapPut he with rfl | he
    · exact ⟨_, rfl⟩
    · exact h e he
  have nil : SortedKeys ([] : List (Str × Json)) := List.Pairwise.nil
  have nil' : ∀ e ∈ ([] : List (Str × Json)), ∃ s, e.2 = Json.str s := by simp
  cases x with
  | blank b => exact key _ (sorted_mapPut (sorted_mapPut nil)) (put _ _ _ (put _ _ _ nil'))
  | res i => exact key _ (sorted_mapPut (sorted_mapPut nil)) (put _ _ _ (put _ _ _ nil'))
  | lit l =>
    obtain ⟨a, t, g⟩ := l
    cases t <;> cases g <;>
      exact key _ (by repeat first | exact nil | apply sorted_mapPut)
        (by repeat first | exact nil' | apply put)
  | coll c => trivial
  | stmt s => trivial

theorem graph_fits (o : Orders) (sty : IriStyle) (g : Graph) (ss : List Subject) :
    (Json.obj (mapAll [] (ss.map (subjEntry o sty g)))).Fits 127 := by
  have mem : ∀ {α : Type} (l m : List (Str × α)) e, e ∈ mapAll m l → e ∈ m ∨ e ∈ l := by
    intro α l
    induction l with
    | nil => intro m e h; exact .inl h
    | cons x l ih =>
      intro m e h
      rcases ih _ e h with h | h
      · rcases mem_mapPut h with rfl | h
        · exact .inr List.mem_cons_self
        · exact .inl h
      · exact .inr (List.mem_cons_of_mem _ h)
  refine ⟨mapAll_sorted List.Pairwise.nil, fitsMembers_iff.2 fun e he => ?_⟩
  rcases mem _ _ _ he with he | he
  · cases he
  obtain ⟨s, -, rfl⟩ := List.mem_map.1 he
  refine ⟨mapAll_sorted List.Pairwise.nil, fitsMembers_iff.2 fun e he => ?_⟩
  rcases mem _ _ _ he with he | he
  · cases he
  obtain ⟨p, -, rfl⟩ := List.mem_map.1 he
  refine fitsAll_iff.2 fun v hv => ?_
  obtain ⟨x, -, rfl⟩ := List.mem_map.1 hv
  exact jsonVal_fits sty x _

theorem jParse_text (pretty : Bool) (v : Json) (h : v.Fits 127) : jParse (v.text pretty 0) = some v := by
  have := jValue_text pretty 0 127 v h []
  rw [List.append_nil] at this
  simp [jParse, this, jSkip]

end Rdftk

namespace Rdftk
open Spec

/-! ### Reader -/

theorem utf8Bytes_length (c : Char) : (utf8Bytes c.toNat).length = c.utf8Size := by
  have e : c.utf8Size = if c.toNat ≤ 0x7F then 1 else if c.toNat ≤ 0x7FF then 2
      else if c.toNat ≤ 0xFFFF then 3 else 4 := rfl
  rw [e]
  unfold utf8Bytes
  repeat' split
  all_goals first | rfl | omega

theorem dropTwoBytes_iff (b t : Str) : dropTwoBytes b = .ok t ↔ CutTwo b t := by
  have pos : ∀ c : Char, 0 < c.utf8Size := Char.utf8Size_pos
  have zero : ∀ a : Str, (a.map Char.utf8Size).sum = 0 → a = [] := by
    intro a h
    cases a with
    | nil => rfl
    | cons c a => have := pos c; simp at h; omega
  unfold CutTwo
  cases b with
  | nil =>
    simp only [dropTwoBytes, reduceCtorEq, false_iff, not_exists, not_and]
    intro a e
    obtain ⟨rfl, -⟩ := List.append_eq_nil_iff.1 e.symm
    simp
  | cons c s =>
    simp only [dropTwoBytes, utf8Bytes_length]
    constructor
    · intro h
      split at h
      · rename_i h2; injection h with h; subst h; exact ⟨[c], rfl, by simpa using h2⟩
      split at h
      · rename_i h1
        cases s with
        | nil => cases h
        | cons d s =>
          simp only at h
          split at h
          · rename_i h2; injection h with h; subst h; exact ⟨[c, d], rfl, by simp [h1, h2]⟩
          · cases h
      · cases h
    · rintro ⟨a, e, h⟩
      cases a with
      | nil => simp at h
      | cons c' a =>
        rw [List.cons_append] at e
        injection e with e1 e2
        subst e1 e2
        rw [List.map_cons, List.sum_cons] at h
        by_cases h2 : c.utf8Size = 2
        · rw [if_pos h2, zero a (by omega)]; rfl
        · have h1 : c.utf8Size = 1 := by
            have := pos c
            rcases Nat.lt_or_ge 2 c.utf8Size with h' | h' <;> omega
          rw [if_neg h2, if_pos h1]
          cases a with
          | nil => simp [h1] at h
          | cons d a =>
            rw [List.map_cons, List.sum_cons] at h
            have := pos d
            have hd : d.utf8Size = 1 := by
              rcases Nat.lt_or_ge 1 d.utf8Size with h' | h' <;> omega
            rw [zero a (by omega)]
            simp [hd]

theorem fromStr_fmt {env : ReadEnv} {i : Iri} (h : IriRead env i) (sty : IriStyle) :
    Iri.fromStr env.url (i.fmt sty) = some i := by
  cases sty with
  | bare =>
    have : startsWith i.text '<' = false := by
      simpa [startsWith] using h.2
    simp only [Iri.fromStr, Iri.fmt, this, Bool.false_and, Bool.false_eq_true, if_false, h.1]
  | bracketed =>
    have h1 : endsWith ('<' :: (i.text ++ ['>'])) '>' = true := endsWith_iff.2 ⟨'<' :: i.text, rfl⟩
    simp [Iri.fromStr, Iri.fmt, startsWith, h1, h.1]

theorem fromStr_bracketed {env : ReadEnv} {i : Iri} (h : IriRead env i) :
    Iri.fromStr env.url ('<' :: i.text ++ ['>']) = some i := fromStr_fmt h .bracketed

theorem readObject_val {env : ReadEnv} (sty : IriStyle) {x y : Object} (h : JsonObject env x y) :
    jsonReadObject env (jsonVal sty x) = .ok y := by
  cases x with
  | blank b =>
    obtain ⟨t, rfl, h1, h2⟩ := h
    have e : jsonReadObject env (jsonVal sty (.blank b)) =
        Res.bind (match dropTwoBytes b with
          | .panic => .panic
          | .ok t => Res.ofOption (blankParse env.blankOk t)) fun b => .ok (.blank b) := rfl
    rw [e, (dropTwoBytes_iff b t).2 h1]
    simp [blankParse, h2, Res.ofOption, Res.bind]
  | res i =>
    obtain ⟨rfl, h1⟩ := h
    have e : jsonReadObject env (jsonVal sty (.res i)) =
        Res.bind (Res.ofOption (Iri.fromStr env.url (i.fmt sty))) fun i => .ok (.res i) := rfl
    rw [e, fromStr_fmt h1]
    rfl
  | lit l =>
    obtain ⟨rfl, h1, h2, h3⟩ := h
    obtain ⟨a, t, g⟩ := l
    cases t with
    | none =>
      cases g with
      | none => rfl
      | some g =>
        have e : jsonReadObject env (jsonVal sty (.lit ⟨a, none, some g⟩)) =
          Res.bind (Res.bind (Res.ofOption (env.lang g)) fun g => .ok (Literal.withLanguage env.pr a g))
            fun l => .ok (.lit l) := rfl
        rw [e, h3 g rfl]
        rfl
    | some t =>
      cases g with
      | some g => simp at h1
      | none =>
        have e : jsonReadObject env (jsonVal sty (.lit ⟨a, some t, none⟩)) =
          Res.bind (Res.bind (Res.ofOption (Iri.fromStr env.url (t.asIri.fmt sty))) fun i =>
            .ok (Literal.withDataType env.pr a (DataType.fromIri i))) fun l => .ok (.lit l) := rfl
        rw [e, fromStr_fmt (h2 t rfl)]
        rfl
  | coll c => exact h.elim
  | stmt s => exact h.elim

theorem readKey_display {env : ReadEnv} {sty : IriStyle} {s : Subject} (h : JsonSubject env sty s) :
    jsonReadKey env (s.display sty) = .ok s := by
  cases s with
  | blank b =>
    have e : jsonReadKey env ((Subject.blank b).display sty) =
        Res.bind (Res.ofOption (blankParse env.blankOk b)) fun b => .ok (.blank b) := rfl
    rw [e]
    have h : blankValid env.blankOk b = true := h
    simp [blankParse, h, Res.ofOption, Res.bind]
  | res i =>
    obtain ⟨rfl, h⟩ := h
    have e : jsonReadKey env ((Subject.res i).display .bare) =
        Res.bind (Res.ofOption (Iri.fromStr env.url ('<' :: i.text ++ ['>']))) fun i => .ok (.res i) := rfl
    rw [e, fromStr_bracketed h]
    rfl
  | stmt t => exact h.elim

/-- Reading objects inserts statements one after the other. -/
theorem readObjects_ok {env : ReadEnv} {s : Subject} {p : Iri} {g : Graph} {l : List Json}
    {f : Json → Object} (h : ∀ v ∈ l, jsonReadObject env v = .ok (f v)) :
    jsonReadObjects env s p g l = .ok ((l.map fun v => Stmt.mk s p (f v)).foldl Graph.insert g) := by
  induction l generalizing g with
  | nil => rfl
  | cons v l ih =>
    simp only [jsonReadObjects, h v List.mem_cons_self, Res.bind]
    rw [ih fun v hv => h v (List.mem_cons_of_mem _ hv)]
    rfl

theorem readPredicates_ok {env : ReadEnv} {s : Subject} {g : Graph} {m : List (Str × Json)}
    {f : Str × Json → List Stmt}
    (h : ∀ e ∈ m, ∀ g, jsonReadPredicate env s e.1 g e.2 = .ok ((f e).foldl Graph.insert g)) :
    jsonReadPredicates env s g m = .ok ((m.flatMap f).foldl Graph.insert g) := by
  induction m generalizing g with
  | nil => rfl
  | cons e m ih =>
    obtain ⟨p, v⟩ := e
    simp only [jsonReadPredicates]
    rw [h (p, v) List.mem_cons_self]
    simp only [Res.bind, List.flatMap_cons, List.foldl_append]
    exact ih fun e he => h e (List.mem_cons_of_mem _ he)

theorem readSubjects_ok {env : ReadEnv} {g : Graph} {m : List (Str × Json)}
    {f : Str × Json → List Stmt}
    (h : ∀ e ∈ m, ∀ g, jsonReadSubject env e.1 g e.2 = .ok ((f e).foldl Graph.insert g)) :
    jsonReadSubjects env g m = .ok ((m.flatMap f).foldl Graph.insert g) := by
  induction m generalizing g with
  | nil => rfl
  | cons e m ih =>
    obtain ⟨p, v⟩ := e
    simp only [jsonReadSubjects]
    rw [h (p, v) List.mem_cons_self]
    simp only [Res.bind, List.flatMap_cons, List.foldl_append]
    exact ih fun e he => h e (List.mem_cons_of_mem _ he)

end Rdftk

namespace Rdftk
open Spec

theorem fmt_inj {sty : IriStyle} {i j : Iri} (h : i.fmt sty = j.fmt sty) : i = j := by
  obtain ⟨a⟩ := i
  obtain ⟨b⟩ := j
  cases sty <;> simp_all [Iri.fmt]

theorem mem_mapAll {α β : Type _} {l : List β} {k : β → Str × α} (hl : l.Nodup)
    (hk : ∀ a ∈ l, ∀ b ∈ l, (k a).1 = (k b).1 → a = b) (e : Str × α) :
    e ∈ mapAll [] (l.map k) ↔ ∃ a ∈ l, k a = e := by
  have hn : (([] ++ l.map k).map fun e : Str × α => e.1).Nodup := by
    rw [List.nil_append, List.map_map]
    unfold List.Nodup
    rw [List.pairwise_map]
    exact hl.imp_of_mem fun ha hb hne e => hne (hk _ ha _ hb e)
  rw [(mapAll_perm hn).mem_iff, List.nil_append, List.mem_map]

/-- The object of a value that can be read. -/
def readVal (env : ReadEnv) (v : Json) : Object :=
  match jsonReadObject env v with
  | .ok x => x
  | _ => .blank []

/-- The statements of an entry for a predicate. -/
def predStmts (env : ReadEnv) (s : Subject) (e : Str × Json) : List Stmt :=
  match e.2, Iri.fromStr env.url e.1 with
  | .arr l, some p => l.map fun v => .mk s p (readVal env v)
  | _, _ => []

/-- The statements of an entry for a subject. -/
def subjStmts (env : ReadEnv) (e : Str × Json) : List Stmt :=
  match e.2, jsonReadKey env e.1 with
  | .obj m, .ok s => m.flatMap (predStmts env s)
  | _, _ => []

/-- What is read for the value of a graph. -/
theorem readGraph_reads {env : ReadEnv} {o : Orders} (ho : o.Fair) (sty : IriStyle) (g : Graph)
    (hg : ∀ x ∈ g.stmts, ∃ y, JsonStmt env sty x y) :
    ∃ g', jsonReadGraph env (.obj (mapAll [] ((o.subj g.subjects).map (subjEntry o sty g)))) = .ok g' ∧
      g'.name = none ∧ ∀ y, y ∈ g'.stmts ↔ ∃ x ∈ g.stmts, JsonStmt env sty x y := by
  have hv := visit_mem ho g
  simp only [Graph.visit, List.mem_flatMap, List.mem_map] at hv
  have hvis : ∀ s ∈ o.subj g.subjects, ∀ p ∈ o.pred s (g.predicatesFor s),
      ∀ x ∈ o.obj s p (g.objectsFor s p), Stmt.mk s p x ∈ g.stmts := fun s hs p hp x hx =>
    (hv _).1 ⟨s, hs, p, hp, x, hx, rfl⟩
  obtain ⟨h1, h2, h3⟩ := ho
  have hproj := C29_projections g
  have exS : ∀ s ∈ o.subj g.subjects, ∃ st ∈ g.stmts, st.subject = s := fun s hs =>
    (mem_setOf.trans List.mem_map).1 ((h1 _).mem_iff.1 hs)
  have hS : ∀ s ∈ o.subj g.subjects, JsonSubject env sty s := by
    intro s hs
    obtain ⟨st, hst, rfl⟩ := exS s hs
    obtain ⟨y, hy⟩ := hg st hst
    exact hy.1
  have hP : ∀ s, ∀ p ∈ o.pred s (g.predicatesFor s), IriRead env p := by
    intro s p hp
    have := mem_setOf.1 ((h2 _ _).mem_iff.1 hp)
    obtain ⟨st, hst, e⟩ := List.mem_filterMap.1 this
    split at e
    · injection e with e
      subst e
      obtain ⟨y, hy⟩ := hg st hst
      exact hy.2.1
    · cases e
  have hO : ∀ s ∈ o.subj g.subjects, ∀ p ∈ o.pred s (g.predicatesFor s),
      ∀ x ∈ o.obj s p (g.objectsFor s p), JsonObject env x (readVal env (jsonVal sty x)) ∧
        jsonReadObject env (jsonVal sty x) = .ok (readVal env (jsonVal sty x)) := by
    intro s hs p hp x hx
    obtain ⟨y, hy⟩ := hg _ (hvis s hs p hp x hx)
    have := readObject_val sty hy.2.2.2.2
    have e : readVal env (jsonVal sty x) = y.object := by
      unfold readVal; simp only [Stmt.object] at this; rw [this]; cases y; rfl
    rw [e]
    exact ⟨hy.2.2.2.2, this⟩
  have memP : ∀ s ∈ o.subj g.subjects, ∀ e, e ∈ mapAll [] ((o.pred s (g.predicatesFor s)).map (predEntry o sty g s)) ↔
      ∃ p ∈ o.pred s (g.predicatesFor s), predEntry o sty g s p = e := fun s _ e =>
    mem_mapAll ((h2 _ _).nodup_iff.2 (setOf_nodup _)) (fun a _ b _ h => fmt_inj h) e
  have memS : ∀ e, e ∈ mapAll [] ((o.subj g.subjects).map (subjEntry o sty g)) ↔
      ∃ s ∈ o.subj g.subjects, subjEntry o sty g s = e := fun e =>
    mem_mapAll ((h1 _).nodup_iff.2 (setOf_nodup _)) (fun a ha b hb h => by
      have := readKey_display (hS a ha)
      rw [show a.display sty = b.display sty from h, readKey_display (hS b hb)] at this
      injection this with this
      exact this.symm) e
  have readP : ∀ s ∈ o.subj g.subjects, ∀ p ∈ o.pred s (g.predicatesFor s),
      predStmts env s (predEntry o sty g s p) = (o.obj s p (g.objectsFor s p)).map (fun x =>
        .mk s p (readVal env (jsonVal sty x))) ∧
      ∀ g', jsonReadPredicate env s (predEntry o sty g s p).1 g' (predEntry o sty g s p).2 =
        .ok ((predStmts env s (predEntry o sty g s p)).foldl Graph.insert g') := by
    intro s hs p hp
    have e : predStmts env s (predEntry o sty g s p) = (o.obj s p (g.objectsFor s p)).map (fun x =>
        .mk s p (readVal env (jsonVal sty x))) := by
      simp only [predStmts, predEntry, fromStr_fmt (hP s p hp), List.map_map]
      rfl
    refine ⟨e, fun g' => ?_⟩
    rw [e]
    simp only [jsonReadPredicate, predEntry, fromStr_fmt (hP s p hp), Res.ofOption, Res.bind]
    rw [readObjects_ok (f := readVal env)]
    · rw [List.map_map]; rfl
    · intro v hv'
      obtain ⟨x, hx, rfl⟩ := List.mem_map.1 hv'
      exact (hO s hs p hp x hx).2
  have readS : ∀ s ∈ o.subj g.subjects,
      subjStmts env (subjEntry o sty g s) = (mapAll [] ((o.pred s (g.predicatesFor s)).map
        (predEntry o sty g s))).flatMap (predStmts env s) ∧
      ∀ g', jsonReadSubject env (subjEntry o sty g s).1 g' (subjEntry o sty g s).2 =
        .ok ((subjStmts env (subjEntry o sty g s)).foldl Graph.insert g') := by
    intro s hs
    have e : subjStmts env (subjEntry o sty g s) = (mapAll [] ((o.pred s (g.predicatesFor s)).map
        (predEntry o sty g s))).flatMap (predStmts env s) := by
      simp only [subjStmts, subjEntry, readKey_display (hS s hs)]
    refine ⟨e, fun g' => ?_⟩
    rw [e]
    simp only [jsonReadSubject, subjEntry, readKey_display (hS s hs), Res.bind]
    refine readPredicates_ok fun e he g' => ?_
    obtain ⟨p, hp, rfl⟩ := (memP s hs e).1 he
    exact (readP s hs p hp).2 g'
  have main := readSubjects_ok (env := env) (g := Graph.default)
    (m := mapAll [] ((o.subj g.subjects).map (subjEntry o sty g))) (f := subjStmts env) (by
      intro e he g'
      obtain ⟨s, hs, rfl⟩ := (memS e).1 he
      exact (readS s hs).2 g')
  refine ⟨_, main, (foldl_insert_default _).2, fun y => ?_⟩
  rw [(foldl_insert_default _).1, List.mem_flatMap]
  constructor
  · rintro ⟨e, he, hy⟩
    obtain ⟨s, hs, rfl⟩ := (memS e).1 he
    rw [(readS s hs).1, List.mem_flatMap] at hy
    obtain ⟨e, he, hy⟩ := hy
    obtain ⟨p, hp, rfl⟩ := (memP s hs e).1 he
    rw [(readP s hs p hp).1] at hy
    obtain ⟨x, hx, rfl⟩ := List.mem_map.1 hy
    exact ⟨_, hvis s hs p hp x hx, hS s hs, hP s p hp, rfl, rfl, (hO s hs p hp x hx).1⟩
  · rintro ⟨x, hx, hy⟩
    obtain ⟨s, hs, p, hp, z, hz, rfl⟩ := (hv x).2 hx
    refine ⟨_, (memS _).2 ⟨s, hs, rfl⟩, ?_⟩
    rw [(readS s hs).1, List.mem_flatMap]
    refine ⟨_, (memP s hs _).2 ⟨p, hp, rfl⟩, ?_⟩
    rw [(readP s hs p hp).1, List.mem_map]
    refine ⟨z, hz, ?_⟩
    have e := readObject_val sty hy.2.2.2.2
    obtain ⟨a, b, c⟩ := y
    obtain ⟨-, -, ea, eb, -⟩ := hy
    simp only [Stmt.subject, Stmt.predicate, Stmt.object] at ea eb e
    unfold readVal
    rw [e, ea, eb]

end Rdftk
