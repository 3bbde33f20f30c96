import Verif.Props.Options
import Verif.Props.Turtle

namespace Rdftk

open Spec

/-! ### Columns -/

theorem columns_skip (mark : Char) (t r : Str) (hm : mark ∉ t) (hn : '\n' ∉ t) :
    ∀ c, Spec.columns mark c (t ++ r) = Spec.columns mark (c + t.length) r := by
  induction t with
  | nil => intro c; rfl
  | cons x t ih =>
    intro c
    simp only [List.mem_cons, not_or] at hm hn
    simp only [List.cons_append, Spec.columns, if_neg (Ne.symm hm.1), if_neg (Ne.symm hn.1), List.length_cons]
    rw [ih hm.2 hn.2]
    congr 1
    omega

theorem columns_line (mark : Char) (t r : Str) (hm : mark ∉ t) (hk : mark ≠ '\n') :
    ∀ c, Spec.columns mark c (t ++ '\n' :: r) = Spec.columns mark 0 r := by
  induction t with
  | nil => intro c; simp [Spec.columns, Ne.symm hk]
  | cons x t ih =>
    intro c
    simp only [List.mem_cons, not_or] at hm
    simp only [List.cons_append, Spec.columns, if_neg (Ne.symm hm.1)]
    split
    · exact ih hm.2 _
    · exact ih hm.2 _

theorem columns_none (mark : Char) (t : Str) (hm : mark ∉ t) : ∀ c, Spec.columns mark c t = [] := by
  induction t with
  | nil => intro c; rfl
  | cons x t ih =>
    intro c
    simp only [List.mem_cons, not_or] at hm
    simp only [Spec.columns, if_neg (Ne.symm hm.1)]
    split <;> exact ih hm.2 _

/-! ### A subject whose objects are a mark -/

/-- Each object is written as one character. -/
def markWriter (mark : Char) : Nat → TurtleFlags → Object → Step := fun _ _ _ => .text [mark]

/-- The character is none of those between objects. -/
def PlainMark (mark : Char) : Prop := mark ∉ str! "\n .,;"

/-- What the verb of a predicate is: its compressed IRI, on a line of its own. -/
structure PlainVerbs (env : TurtleEnv) (mark : Char) (ps : List Iri) : Prop where
  a : env.opts.typeA = false
  line : env.opts.typeOnLine = false
  right : ∀ p ∈ ps, p ∉ mistyped
  clean : ∀ p ∈ ps, ∀ t, compressIri env p = .ok t → mark ∉ t ∧ '\n' ∉ t

theorem writeVerb_plain {env : TurtleEnv} {p : Iri} (ha : env.opts.typeA = false) (hl : env.opts.typeOnLine = false)
    (hm : p ∉ mistyped) (m d : Nat) (f : TurtleFlags) (hf : f.sorted = false) (x : Str × Nat)
    (h : writeVerb env (groupOf p) p m f d = .ok x) :
    ∃ t, compressIri env p = .ok t ∧ x = ('\n' :: (List.replicate d ' ' ++ padded t m), d) := by
  have e : writeVerb env (groupOf p) p m f = (newLine f ⊹ .run ((compressIri env p).bind fun s => .ok (padded s m))) := by
    unfold writeVerb
    rw [ha, hl]
    by_cases hg : groupOf p = .type
    · have hp : p = rdfType := by
        have key : ∀ e ∈ groupTable, e.2 = .type → e.1 ∈ mistyped ∨ e.1 = rdfType := by decide +kernel
        unfold groupOf at hg
        cases hfd : groupTable.find? (fun e => e.1 == p) with
        | none => rw [hfd] at hg; cases hg
        | some e =>
          rw [hfd] at hg
          have h1 := List.mem_of_find?_eq_some hfd
          have h2 : e.1 = p := by simpa using List.find?_some hfd
          rcases key e h1 hg with h3 | h3
          · exact absurd (h2 ▸ h3) hm
          · exact h2 ▸ h3
      rw [if_pos hg, hp]
      simp
    · rw [if_neg hg]
  rw [e] at h
  unfold Step.andThen newLine Step.run at h
  rw [hf] at h
  cases hc : compressIri env p with
  | ok t =>
    rw [hc] at h
    simp only [Run.bind, Run.ok.injEq] at h
    exact ⟨t, rfl, by rw [← h]; simp⟩
  | err => rw [hc] at h; cases h
  | panic => rw [hc] at h; cases h
  | deep => rw [hc] at h; cases h

theorem Run.bind_ok' {α β : Type _} {r : Run α} {f : α → Run β} {y : β} (h : r.bind f = .ok y) : ∃ x, r = .ok x ∧ f x = .ok y :=
  Run.bind_ok.1 h

theorem writePredicate_mark {env : TurtleEnv} {mark : Char} (hk : PlainMark mark) {p : Iri} (ha : env.opts.typeA = false)
    (hl : env.opts.typeOnLine = false) (hm : p ∉ mistyped) (s : Subject)
    (h1 : (env.orders.obj s p (env.graph.objectsFor s p)).length = 1) (w m d : Nat) (f : TurtleFlags) (hf : f.sorted = false)
    (x : Str × Nat) (h : writePredicate env (markWriter mark) w s m f (groupOf p) p d = .ok x) :
    ∃ t tail, compressIri env p = .ok t ∧ x.1 = '\n' :: (List.replicate d ' ' ++ padded t m ++ mark :: tail) ∧
      mark ∉ tail ∧ (f.lastSubject = false → x.2 = d) := by
  unfold writePredicate Step.andThen at h
  obtain ⟨y, hy, h⟩ := Run.bind_ok' h
  obtain ⟨z, hz, h⟩ := Run.bind_ok' h
  obtain ⟨t, ht, e⟩ := writeVerb_plain ha hl hm m d f hf y hy
  cases h
  subst e
  unfold sortedObjects at hz
  match ho : env.orders.obj s p (env.graph.objectsFor s p), h1 with
  | [o], _ =>
    rw [ho] at hz
    simp only [List.length_singleton, Nat.lt_irrefl, if_false, Run.bind] at hz
    have : ∃ tail, z.1 = mark :: tail ∧ mark ∉ tail ∧ (f.lastSubject = false → z.2 = d) := by
      simp only [PlainMark] at hk
      simp only [writeObjects, writeObjectAnd, markWriter, List.isEmpty_nil, if_true, Step.andThen, Step.text, Run.bind] at hz
      cases hls : f.lastSubject with
      | false =>
        rw [hls] at hz
        simp only [Bool.false_eq_true, if_false, Step.nop, Run.bind] at hz
        by_cases hd : d = 0
        · simp only [hd, if_true, newLine, Step.nop, Run.bind, Step.andThen, Step.text] at hz
          rw [hf] at hz
          cases hz
          refine ⟨_, rfl, ?_, fun _ => hd.symm⟩
          simp_all
        · simp only [hd, if_false, Step.nop, Run.bind] at hz
          cases hz
          refine ⟨_, rfl, ?_, fun _ => rfl⟩
          simp_all
      | true =>
        rw [hls] at hz
        by_cases h0 : d = 0
        · simp [Step.outdent, h0, Run.bind] at hz
        · by_cases hw : d < w
          · simp [Step.outdent, h0, hw, Run.bind] at hz
          · simp only [if_true, Step.outdent, if_neg h0, if_neg hw, Run.bind] at hz
            by_cases hd : d - w = 0
            · simp only [hd, if_true, newLine, Step.nop, Run.bind, Step.andThen, Step.text] at hz
              rw [hf] at hz
              cases hz
              refine ⟨_, rfl, ?_, fun h => by cases h⟩
              simp_all
            · simp only [hd, if_false, Step.nop, Run.bind] at hz
              cases hz
              refine ⟨_, rfl, ?_, fun h => by cases h⟩
              simp
    obtain ⟨tail, e1, e2, e3⟩ := this
    refine ⟨t, tail, ht, ?_, e2, e3⟩
    simp [e1]

theorem padded_length (t : Str) (m : Nat) (h : m = 0 ∨ t.length < m) :
    (padded t m).length = if m = 0 then t.length + 1 else m := by
  unfold padded
  split
  · simp
  · simp [padRight]
    omega

theorem padded_clean {t : Str} {c : Char} (hc : c ∉ t) (h : c ≠ ' ') (m : Nat) : c ∉ padded t m := by
  unfold padded padRight
  split <;> simp_all [List.mem_replicate]

theorem writeLoop_mark {env : TurtleEnv} {mark : Char} (hk : PlainMark mark) (s : Subject) (w m total d : Nat) (f : TurtleFlags)
    (hf : f.sorted = false) :
    ∀ (l : List (PredGroup × Iri)) (ps : List Iri), l = ps.map (fun p => (groupOf p, p)) → PlainVerbs env mark ps →
      (∀ p ∈ ps, (env.orders.obj s p (env.graph.objectsFor s p)).length = 1) → ∀ count, count + l.length = total →
      (∀ p ∈ ps, ∀ t, compressIri env p = .ok t → m = 0 ∨ t.length < m) →
      ∀ x, writePredicateLoop env (markWriter mark) w s m total f count l d = .ok x →
      ∃ vs, List.Forall₂ (fun p v => compressIri env p = .ok v) ps vs ∧
        ((x.1 = [] ∨ ∃ r, x.1 = '\n' :: r) ∧ ∀ c, Spec.columns mark c x.1 = vs.map fun v => d + if m = 0 then v.length + 1 else m) := by
  intro l
  induction l with
  | nil =>
    intro ps e _ _ count _ _ x h
    cases ps with
    | cons => simp at e
    | nil => cases h; exact ⟨[], .nil, .inl rfl, fun c => rfl⟩
  | cons a l ih =>
    intro ps e hv h1 count hc hw x h
    cases ps with
    | nil => simp at e
    | cons p ps =>
      simp only [List.map_cons, List.cons.injEq] at e
      obtain ⟨rfl, rfl⟩ := e
      unfold writePredicateLoop Step.andThen at h
      obtain ⟨y, hy, h⟩ := Run.bind_ok' h
      obtain ⟨z, hz, h⟩ := Run.bind_ok' h
      cases h
      obtain ⟨t, tail, ht, ey, htl, hd⟩ := writePredicate_mark hk hv.a hv.line (hv.right p (by simp)) s (h1 p (by simp)) w m d
        { f with lastSubject := count + 1 == total } hf y hy
      have hcl := hv.clean p (by simp) t ht
      have hsp : mark ≠ ' ' ∧ mark ≠ '\n' := by
        simp only [PlainMark] at hk
        constructor <;> rintro rfl <;> simp at hk
      have hcol : ∀ r : Str, (r = [] ∨ ∃ q, r = '\n' :: q) → ∀ c, Spec.columns mark c (y.1 ++ r) =
          (d + if m = 0 then t.length + 1 else m) :: Spec.columns mark 0 r := by
        intro r hr c
        have e1 : y.1 ++ r = [] ++ '\n' :: (List.replicate d ' ' ++ (padded t m ++ mark :: (tail ++ r))) := by
          rw [ey]; simp
        rw [e1, columns_line mark [] _ (by simp) hsp.2,
          columns_skip mark _ _ (by simp [List.mem_replicate, hsp.1]) (by simp [List.mem_replicate]),
          columns_skip mark _ _ (padded_clean hcl.1 hsp.1 m) (padded_clean hcl.2 (by decide) m)]
        rw [padded_length t m (hw p (by simp) t ht), List.length_replicate, Nat.zero_add]
        rw [Spec.columns, if_pos rfl]
        congr 1
        rcases hr with rfl | ⟨q, rfl⟩
        · rw [List.append_nil, columns_none _ _ htl]; rfl
        · rw [columns_line _ _ _ htl hsp.2]
          simp [Spec.columns, Ne.symm hsp.2]
      have hv' : PlainVerbs env mark ps := ⟨hv.a, hv.line, fun q hq => hv.right q (by simp [hq]), fun q hq => hv.clean q (by simp [hq])⟩
      have hrest : ∃ vs, List.Forall₂ (fun p v => compressIri env p = .ok v) ps vs ∧
          ((z.1 = [] ∨ ∃ r, z.1 = '\n' :: r) ∧ ∀ c, Spec.columns mark c z.1 = vs.map fun v => d + if m = 0 then v.length + 1 else m) := by
        cases ps with
        | nil =>
          simp only [List.map_nil, writePredicateLoop] at hz
          cases hz
          exact ⟨[], .nil, .inl rfl, fun c => rfl⟩
        | cons q qs =>
          have hne : (count + 1 == total) = false := by
            simp only [List.length_cons, List.map_cons] at hc
            simp
            omega
          have hyd := hd hne
          rw [hyd] at hz
          refine ih (q :: qs) rfl hv' (fun r hr => h1 r (List.mem_cons_of_mem _ hr)) (count + 1) ?_
            (fun r hr => hw r (List.mem_cons_of_mem _ hr)) z hz
          simp only [List.length_cons] at hc ⊢
          omega
      obtain ⟨vs, hvs, hz1, hz2⟩ := hrest
      refine ⟨t :: vs, .cons ht hvs, .inr ⟨_, by rw [ey]; rfl⟩, fun c => ?_⟩
      rw [hcol z.1 hz1, hz2 0]
      rfl

/-- The widest of some verbs, in bytes. -/
def widest (vs : List Str) : Nat := vs.foldl (fun a b => max a (byteLen b)) 0

theorem le_foldl_max (f : Str → Nat) (l : List Str) : ∀ a, a ≤ l.foldl (fun a b => max a (f b)) a := by
  induction l with
  | nil => intro a; exact Nat.le_refl a
  | cons x l ih => intro a; exact Nat.le_trans (Nat.le_max_left ..) (ih _)

theorem byteLen_le_widest {vs : List Str} {v : Str} (h : v ∈ vs) : byteLen v ≤ widest vs := by
  unfold widest
  generalize 0 = a
  induction vs generalizing a with
  | nil => cases h
  | cons x l ih =>
    rcases List.mem_cons.1 h with rfl | h
    · exact Nat.le_trans (Nat.le_max_right a _) (le_foldl_max byteLen l _)
    · exact ih h _

/-- Of a subject with one object for each predicate, the columns in which objects are. -/
theorem writePredicates_mark {env : TurtleEnv} {mark : Char} (hk : PlainMark mark) (s : Subject) (w d : Nat) (f : TurtleFlags)
    (hf : f.sorted = false) (hv : PlainVerbs env mark (env.orders.pred s (env.graph.predicatesFor s)))
    (h1 : ∀ p ∈ env.orders.pred s (env.graph.predicatesFor s),
      (env.orders.obj s p (env.graph.objectsFor s p)).length = 1)
    (x : Str × Nat) (h : writePredicates env (markWriter mark) w f s d = .ok x) :
    ∃ (ps : List Iri) (vs us : List Str), ps.Perm (env.orders.pred s (env.graph.predicatesFor s)) ∧
      List.Forall₂ (fun p v => compressIri env p = .ok v) ps vs ∧
      (env.opts.padding = false →
        List.Forall₂ (fun p v => compressIri env p = .ok v) (env.orders.pred s (env.graph.predicatesFor s)) us) ∧
      Spec.columns mark 0 x.1 = vs.map fun v => d + if env.opts.padding then v.length + 1 else 1 + widest us := by
  unfold writePredicates at h
  obtain ⟨m, hm, h⟩ := Run.bind_ok' h
  obtain ⟨l, hl, h⟩ := Run.bind_ok' h
  have hp := predicateSequence_perm hl
  have hl' : l = (l.map (·.2)).map fun p => (groupOf p, p) := by
    have : ∀ e ∈ l, e = (groupOf e.2, e.2) := by
      intro e he
      obtain ⟨p, -, rfl⟩ := List.mem_map.1 (hp.mem_iff.1 he)
      rfl
    rw [List.map_map]
    exact (List.map_id'' (fun e => rfl) l).symm.trans (List.map_congr_left this)
  have hpp : (l.map (·.2)).Perm (env.orders.pred s (env.graph.predicatesFor s)) := by
    have := hp.map (·.2)
    rwa [List.map_map, show ((fun x : PredGroup × Iri => x.2) ∘ fun p => (groupOf p, p)) = id from rfl, List.map_id] at this
  have hmem : ∀ p, p ∈ l.map (·.2) ↔ p ∈ env.orders.pred s (env.graph.predicatesFor s) := fun p => hpp.mem_iff
  have hv' : PlainVerbs env mark (l.map (·.2)) :=
    ⟨hv.a, hv.line, fun q hq => hv.right q ((hmem q).1 hq), fun q hq => hv.clean q ((hmem q).1 hq)⟩
  have hlen : 0 + l.length = (env.orders.pred s (env.graph.predicatesFor s)).length := by
    rw [Nat.zero_add, hp.length_eq, List.length_map]
  cases hpad : env.opts.padding with
  | true =>
    rw [hpad] at hm
    cases hm
    obtain ⟨vs, hvs, -, hc⟩ := writeLoop_mark hk s w 0 _ d f hf l _ hl' hv' (fun p hp => h1 p ((hmem p).1 hp)) 0 hlen
      (fun _ _ _ _ => .inl rfl) x h
    exact ⟨_, vs, [], hpp, hvs, fun e => (by cases e), (by rw [hc]; simp)⟩
  | false =>
    rw [hpad] at hm
    simp only [Bool.false_eq_true, if_false] at hm
    obtain ⟨n, hn, hm⟩ := Run.bind_ok' hm
    cases hm
    unfold maxLenPredicates at hn
    obtain ⟨us, hus, hn⟩ := Run.bind_ok' hn
    cases hn
    have hw : ∀ p ∈ l.map (·.2), ∀ t, compressIri env p = .ok t → 1 + widest us = 0 ∨ t.length < 1 + widest us := by
      intro p hp t ht
      have := byteLen_le_widest (mapAll_mem hus ((hmem p).1 hp) ht)
      have := length_le_byteLen t
      omega
    obtain ⟨vs, hvs, -, hc⟩ := writeLoop_mark hk s w (1 + widest us) _ d f hf l _ hl' hv' (fun p hp => h1 p ((hmem p).1 hp)) 0 hlen
      hw x h
    refine ⟨_, vs, us, hpp, hvs, fun _ => Run.mapAll_ok.1 hus, ?_⟩
    rw [hc]
    simp

/-! ### C144 -/

/-- Objects that are marked are all in one column. -/
def Aligned (mark : Char) (t : Str) : Prop := ∀ a ∈ Spec.columns mark 0 t, ∀ b ∈ Spec.columns mark 0 t, a = b

/-- C144: with `predicate_padding`, the objects of a subject begin in one column. -/
def C144_statement : Prop :=
  ∀ (env : TurtleEnv) (mark : Char) (s : Subject) (w d : Nat) (f : TurtleFlags) (x : Str × Nat), PlainMark mark → f.sorted = false →
    PlainVerbs env mark (env.orders.pred s (env.graph.predicatesFor s)) →
    (∀ p ∈ env.orders.pred s (env.graph.predicatesFor s), (env.orders.obj s p (env.graph.objectsFor s p)).length = 1) →
    env.opts.padding = true → writePredicates env (markWriter mark) w f s d = .ok x → Aligned mark x.1

/-- C144, exactly when: with the option, only if all verbs have the same length; each is followed by one space. -/
theorem C144_iff (env : TurtleEnv) (mark : Char) (s : Subject) (w d : Nat) (f : TurtleFlags) (x : Str × Nat)
    (hk : PlainMark mark) (hf : f.sorted = false) (hv : PlainVerbs env mark (env.orders.pred s (env.graph.predicatesFor s)))
    (h1 : ∀ p ∈ env.orders.pred s (env.graph.predicatesFor s), (env.orders.obj s p (env.graph.objectsFor s p)).length = 1)
    (hp : env.opts.padding = true) (h : writePredicates env (markWriter mark) w f s d = .ok x) :
    Aligned mark x.1 ↔
      ∀ p ∈ env.orders.pred s (env.graph.predicatesFor s), ∀ q ∈ env.orders.pred s (env.graph.predicatesFor s), ∀ t u,
        compressIri env p = .ok t → compressIri env q = .ok u → t.length = u.length := by
  obtain ⟨ps, vs, us, hpp, hvs, -, hc⟩ := writePredicates_mark hk s w d f hf hv h1 x h
  rw [hp] at hc
  simp only [if_true] at hc
  have hm : ∀ t, t ∈ vs ↔ ∃ p ∈ env.orders.pred s (env.graph.predicatesFor s), compressIri env p = .ok t := by
    intro t
    have : t ∈ vs ↔ ∃ p ∈ ps, compressIri env p = .ok t := by
      clear hpp hc
      induction hvs with
      | nil => simp
      | cons e _ ih => simp only [List.mem_cons, ih, exists_eq_or_imp, e, Run.ok.injEq]; rw [eq_comm]
    rw [this]
    constructor <;> rintro ⟨p, h2, h3⟩
    · exact ⟨p, hpp.mem_iff.1 h2, h3⟩
    · exact ⟨p, hpp.mem_iff.2 h2, h3⟩
  unfold Aligned
  rw [hc]
  simp only [List.mem_map]
  constructor
  · intro hal p h2 q h3 t u ht hu
    have := hal _ ⟨t, (hm t).2 ⟨p, h2, ht⟩, rfl⟩ _ ⟨u, (hm u).2 ⟨q, h3, hu⟩, rfl⟩
    omega
  · rintro hal _ ⟨t, ht, rfl⟩ _ ⟨u, hu, rfl⟩
    obtain ⟨p, h2, h3⟩ := (hm t).1 ht
    obtain ⟨q, h4, h5⟩ := (hm u).1 hu
    rw [hal p h2 q h4 t u h3 h5]

/-- C144, without the option: the objects are in one column, one behind the longest verb. -/
theorem C144_without (env : TurtleEnv) (mark : Char) (s : Subject) (w d : Nat) (f : TurtleFlags) (x : Str × Nat)
    (hk : PlainMark mark) (hf : f.sorted = false) (hv : PlainVerbs env mark (env.orders.pred s (env.graph.predicatesFor s)))
    (h1 : ∀ p ∈ env.orders.pred s (env.graph.predicatesFor s), (env.orders.obj s p (env.graph.objectsFor s p)).length = 1)
    (hp : env.opts.padding = false) (h : writePredicates env (markWriter mark) w f s d = .ok x) :
    Aligned mark x.1 ∧
      ∀ a ∈ Spec.columns mark 0 x.1, ∀ p ∈ env.orders.pred s (env.graph.predicatesFor s), ∀ t, compressIri env p = .ok t →
        d + t.length < a := by
  obtain ⟨ps, vs, us, hpp, hvs, hus, hc⟩ := writePredicates_mark hk s w d f hf hv h1 x h
  rw [hp] at hc
  simp only [Bool.false_eq_true, if_false] at hc
  unfold Aligned
  rw [hc]
  simp only [List.mem_map]
  refine ⟨by rintro _ ⟨t, -, rfl⟩ _ ⟨u, -, rfl⟩; rfl, ?_⟩
  rintro _ ⟨u, -, rfl⟩ p h2 t ht
  have h3 := byteLen_le_widest (mapAll_mem (Run.mapAll_ok.2 (hus hp)) h2 ht)
  have := length_le_byteLen t
  omega

/-- A graph with a short and a long predicate. -/
def twoVerbs : Graph :=
  Graph.fromIter [.mk (.res ⟨str! "http://h/s"⟩) ⟨str! "http://h/p"⟩ (.res ⟨str! "http://h/o"⟩),
    .mk (.res ⟨str! "http://h/s"⟩) ⟨str! "http://h/longer"⟩ (.res ⟨str! "http://h/o"⟩)]

/-- An environment for it. -/
def twoVerbsEnv (b : Bool) : TurtleEnv :=
  ⟨easyEnv.pr, easyEnv.url, .bare, { TurtleOptions.default with padding := b }, twoVerbs, sameOrder⟩

theorem twoVerbs_plain (b : Bool) : PlainVerbs (twoVerbsEnv b) '@'
    ((twoVerbsEnv b).orders.pred (.res ⟨str! "http://h/s"⟩) ((twoVerbsEnv b).graph.predicatesFor (.res ⟨str! "http://h/s"⟩))) := by
  have e : (twoVerbsEnv b).orders.pred (.res ⟨str! "http://h/s"⟩) ((twoVerbsEnv b).graph.predicatesFor (.res ⟨str! "http://h/s"⟩)) =
    [⟨str! "http://h/p"⟩, ⟨str! "http://h/longer"⟩] := by cases b <;> decide +kernel
  rw [e]
  refine ⟨rfl, rfl, by decide +kernel, ?_⟩
  intro p hp t ht
  have e1 : compressIri (twoVerbsEnv b) ⟨str! "http://h/p"⟩ = .ok (str! "<http://h/p>") := by cases b <;> decide +kernel
  have e2 : compressIri (twoVerbsEnv b) ⟨str! "http://h/longer"⟩ = .ok (str! "<http://h/longer>") := by cases b <;> decide +kernel
  simp only [List.mem_cons, List.not_mem_nil, or_false] at hp
  rcases hp with rfl | rfl
  · rw [e1] at ht; cases ht; decide +kernel
  · rw [e2] at ht; cases ht; decide +kernel

theorem twoVerbs_single (b : Bool) : ∀ p ∈ (twoVerbsEnv b).orders.pred (.res ⟨str! "http://h/s"⟩)
      ((twoVerbsEnv b).graph.predicatesFor (.res ⟨str! "http://h/s"⟩)),
    ((twoVerbsEnv b).orders.obj (.res ⟨str! "http://h/s"⟩) p ((twoVerbsEnv b).graph.objectsFor (.res ⟨str! "http://h/s"⟩) p)).length = 1 := by
  cases b <;> decide +kernel

/-- C144 fails: with the option, there is no padding. -/
theorem C144_fails : ¬C144_statement := fun h => by
  have e : writePredicates (twoVerbsEnv true) (markWriter '@') 4 .none (.res ⟨str! "http://h/s"⟩) 4 =
    .ok (str! "\n    <http://h/longer> @ ;\n    <http://h/p> @ .\n", 0) := by decide +kernel
  have := h _ '@' _ 4 4 .none _ (by unfold PlainMark; decide) rfl (twoVerbs_plain true) (twoVerbs_single true) rfl e
  exact absurd (this 22 (by decide) 17 (by decide)) (by decide)

/-- Without the option, there is. -/
theorem C144_fails_without :
    writePredicates (twoVerbsEnv false) (markWriter '@') 4 .none (.res ⟨str! "http://h/s"⟩) 4 =
      .ok (str! "\n    <http://h/longer> @ ;\n    <http://h/p>      @ .\n", 0) := by decide +kernel

end Rdftk
