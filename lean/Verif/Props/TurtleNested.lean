import Verif.Lemmas.TurtleNested
import Verif.Props.Turtle
import Mathlib.Data.Finset.Card

/-! Turtle output with nested blank nodes: C129. -/

namespace Rdftk
open Spec

/-! ### Readability depends on the prefixes only -/

theorem LiteralFaithful.congr {env : TurtleEnv} {g : Graph} (hg : g.mappings = env.graph.mappings) {l : Literal}
    (h : LiteralFaithful env l) : LiteralFaithful { env with graph := g } l := by
  obtain ⟨g1, g2, g3⟩ := h
  exact ⟨g1, fun ty hty => ⟨(g2 ty hty).1, (g2 ty hty).2.1, (g2 ty hty).2.2.1,
    IriFaithful.congr hg (g2 ty hty).2.2.2⟩, g3⟩

theorem StmtReadable.congr {env : TurtleEnv} {g : Graph} (hg : g.mappings = env.graph.mappings) {t : Stmt}
    (h : StmtReadable env t) : StmtReadable { env with graph := g } t := by
  obtain ⟨h1, ⟨h2, h3⟩, h4⟩ := h
  have hc : ∀ i, compressIri { env with graph := g } i = compressIri env i := fun i => by
    simp only [compressIri, hg, turtleRelative]
  refine ⟨?_, ⟨IriFaithful.congr hg h2, fun hm => ⟨IriFaithful.congr hg (h3 hm).1, ?_⟩⟩, ?_⟩
  rotate_left
  · rw [hc, hc]; exact (h3 hm).2
  rotate_left
  · cases hs : t.subject with
    | blank b => rw [hs] at h1; exact h1
    | res i => rw [hs] at h1; exact IriFaithful.congr hg h1
    | stmt s => rw [hs] at h1; exact h1
  · cases ho : t.object with
    | blank b => rw [ho] at h4; exact h4
    | res i => rw [ho] at h4; exact IriFaithful.congr hg h4
    | lit l =>
      rw [ho] at h4
      rcases h4 with h4 | h4
      · exact .inl (LiteralFaithful.congr hg h4)
      · exact .inr h4
    | coll c => rw [ho] at h4; exact h4
    | stmt s => rw [ho] at h4; exact h4

theorem StmtReadable.not_nested {env : TurtleEnv} {t : Stmt} (h : StmtReadable env t) : t.isNested = false := by
  obtain ⟨h1, -, h4⟩ := h
  unfold Stmt.isNested
  cases hs : t.subject with
  | stmt s => rw [hs] at h1; exact h1.elim
  | _ =>
    cases ho : t.object with
    | stmt s => rw [ho] at h4; exact h4.elim
    | _ => rfl

/-! ### The document -/

theorem writeTurtle_whole {pr : Char → Bool} {url : Str → Option Iri} {opts : TurtleOptions}
    {o : Orders} {gen : Nat → Str} {k n : Nat} {g : Graph} {s : Str} (hfair : o.Fair)
    (hw : 0 < opts.width) (hc : opts.convert = []) (hm : Reachable g.mappings)
    (hd : DirectivesFaithful opts g.mappings)
    (hst : ∀ t ∈ g.stmts, StmtReadable (turtleEnv pr url opts o g) t)
    (h : writeTurtle pr url .bare opts o gen k n g = .ok s) :
    ∃ (env : TurtleEnv) (m : Nat) (τ : List Str) (L : List Triple) (Z : List Stmt), env.opts = opts ∧
      env.graph.stmts = g.stmts ∧ readTurtle s = some L ∧ Z.Nodup ∧ (∀ t, t ∈ Z ↔ t ∈ g.stmts) ∧
      Whole env Z m τ L := by
  have hs := denest_stmts (gen := gen) (k := k) fun t ht => StmtReadable.not_nested (hst t ht)
  unfold writeTurtle at h
  dsimp only at h
  obtain ⟨⟨t, e⟩, h1, h2⟩ := Run.bind_ok.1 h
  simp only [Run.ok.injEq] at h2
  subst h2
  obtain ⟨t₁, e₁, t₂, h3, h4, rfl⟩ := Step.andThen_ok.1 h1
  obtain ⟨t₃, e₂, t₄, h5, h6, rfl⟩ := Step.andThen_ok.1 h3
  obtain ⟨rfl, rfl⟩ := text_eq h5
  obtain ⟨rfl, rfl⟩ := text_eq h6
  obtain ⟨d, hr, hk⟩ := directives_read hc hd (m := g.mappings) (by
    intro p i j hi hj
    have := (C10_one_to_one _ hm).2.2.2.2.2
    rw [this] at hi hj
    rw [hi] at hj
    exact Option.some.inj hj)
  obtain ⟨Z, ⟨hZ1, hZ2⟩, hr'⟩ := writeTriples_entries (env := ⟨pr, url, .bare, opts, denest gen k g, o⟩) hfair hk hw
    (by
      intro t ht
      have ht' : t ∈ g.stmts := by rw [← hs]; exact ht
      exact StmtReadable.congr (env := turtleEnv pr url opts o g) (g := denest gen k g) rfl (hst t ht')) h4
  obtain ⟨τ, L, hW, hr2⟩ := hr' d.n
  refine ⟨_, d.n, τ, L, Z, rfl, hs, ?_, hZ1, fun t => by rw [hZ2, hs], hW⟩
  have := readTurtle_of_reads (d := { d with n := d.n + τ.length }) (hr.append (hr2 []))
  simpa using this

/-- C129, what is read: with labels for the nodes in brackets the text says the statements of the
graph, each at least once, and nothing else; numbers without quotes have the type of Turtle. -/
theorem C129_says (pr : Char → Bool) (url : Str → Option Iri) (opts : TurtleOptions)
    (o : Orders) (gen : Nat → Str) (k n : Nat) (g : Graph) (s : Str) (hfair : o.Fair)
    (hw : 0 < opts.width) (hc : opts.convert = []) (hm : Reachable g.mappings)
    (hd : DirectivesFaithful opts g.mappings)
    (hst : ∀ t ∈ g.stmts, StmtReadable (turtleEnv pr url opts o g) t)
    (h : writeTurtle pr url .bare opts o gen k n g = .ok s) :
    ∃ L σ, readTurtle s = some L ∧
      ∀ y, (∃ x ∈ L, renameTriple σ x = y) ↔ ∃ t ∈ g.stmts, y = tripleWritten t := by
  obtain ⟨env, m, τ, L, Z, -, hg, hL, -, hZ, hW⟩ := writeTurtle_whole hfair hw hc hm hd hst h
  obtain ⟨σ, hσ⟩ := agree_exists m τ
  refine ⟨L, σ, hL, fun y => ⟨?_, ?_⟩⟩
  · rintro ⟨x, hx, rfl⟩
    obtain ⟨t, ht, e⟩ := hW.sound σ hσ x hx
    exact ⟨t, by rw [← hg]; exact ht, e⟩
  · rintro ⟨t, ht, rfl⟩
    obtain ⟨x, hx, hR⟩ := hW.full t ((hZ t).2 ht)
    refine ⟨_, hx, ?_⟩
    have hs : renameNode σ (subjectNode t.subject) = subjectNode t.subject := by
      have := (hst t ht).1
      cases hs : t.subject with
      | stmt u => rw [hs] at this; exact this.elim
      | _ => rfl
    simp only [renameTriple, tripleWritten, hs, hR.1 σ hσ]

/-! ### Counting blank nodes -/

open Classical in
/-- The blank nodes of some triples. -/
noncomputable def blanksOf (L : List Triple) : Finset Node :=
  ((L.flatMap fun z => [z.s, z.o]).toFinset).filter Node.IsBlank

theorem mem_blanksOf {L : List Triple} {x : Node} : x ∈ blanksOf L ↔ InTriples L x ∧ x.IsBlank := by
  simp [blanksOf, InTriples]

open Classical in
theorem image_blanks {L M : List Triple} {ρ : Node → Node}
    (h1 : ∀ x, InTriples L x → (x.IsBlank ↔ (ρ x).IsBlank))
    (h2 : ∀ y, y ∈ M ↔ ∃ x ∈ L, y = ⟨ρ x.s, x.p, ρ x.o⟩) : (blanksOf L).image ρ = blanksOf M := by
  ext y
  rw [Finset.mem_image, mem_blanksOf]
  constructor
  · rintro ⟨x, hx, rfl⟩
    obtain ⟨⟨z, hz, hzx⟩, hb⟩ := mem_blanksOf.1 hx
    refine ⟨⟨⟨ρ z.s, z.p, ρ z.o⟩, (h2 _).2 ⟨z, hz, rfl⟩, ?_⟩, (h1 x ⟨z, hz, hzx⟩).1 hb⟩
    rcases hzx with rfl | rfl <;> simp
  · rintro ⟨⟨t, ht, hty⟩, hb⟩
    obtain ⟨z, hz, rfl⟩ := (h2 t).1 ht
    rcases hty with rfl | rfl
    · exact ⟨z.s, mem_blanksOf.2 ⟨⟨z, hz, .inl rfl⟩, (h1 _ ⟨z, hz, .inl rfl⟩).2 hb⟩, rfl⟩
    · exact ⟨z.o, mem_blanksOf.2 ⟨⟨z, hz, .inr rfl⟩, (h1 _ ⟨z, hz, .inr rfl⟩).2 hb⟩, rfl⟩

/-- Any way to map the triples onto the others is one to one when one is. -/
theorem inj_transfer {L M : List Triple} (hI : Isomorphic L M) {θ : Node → Node}
    (h1 : ∀ x, InTriples L x → (x.IsBlank ↔ (θ x).IsBlank))
    (h2 : ∀ y, y ∈ M ↔ ∃ x ∈ L, y = ⟨θ x.s, x.p, θ x.o⟩) {x y : Node} (hx : InTriples L x) (hy : InTriples L y)
    (hbx : x.IsBlank) (hby : y.IsBlank) (e : θ x = θ y) : x = y := by
  classical
  obtain ⟨ρ, r1, r2, r3⟩ := hI
  have e1 := image_blanks (fun x hx => (r1 x hx).1) r3
  have e2 := image_blanks h1 h2
  have c1 : ((blanksOf L).image ρ).card = (blanksOf L).card := by
    apply Finset.card_image_of_injOn
    intro a ha b hb
    exact r2 a b (mem_blanksOf.1 ha).1 (mem_blanksOf.1 hb).1
  rw [e1, ← e2] at c1
  exact Finset.card_image_iff.1 c1 (mem_blanksOf.2 ⟨hx, hbx⟩) (mem_blanksOf.2 ⟨hy, hby⟩) e

theorem renameNode_blank (σ : Nat → Str) (x : Node) : x.IsBlank ↔ (renameNode σ x).IsBlank := by
  cases x <;> simp [renameNode, Node.IsBlank]

theorem objectSays_blank {o : Object} {b : Str} (h : objectSays o = .blank b) : o = .blank b := by
  cases o with
  | blank c => simpa [objectSays, objectNode] using h
  | res i => simp [objectSays, objectNode] at h
  | coll c => simp [objectSays, objectNode] at h
  | stmt c => simp [objectSays, objectNode] at h
  | lit l =>
    simp only [objectSays, literalSays, literalNode] at h
    split at h
    · split at h
      · cases h
      · split at h <;> cases h
    · split at h <;> cases h

theorem subjectNode_inj {env : TurtleEnv} {s s' : Subject} (h : SubjectFaithful env s)
    (h' : SubjectFaithful env s') (e : subjectNode s = subjectNode s') : s = s' := by
  cases s <;> cases s' <;> simp only [subjectNode, Node.blank.injEq, Node.iri.injEq, reduceCtorEq] at e
  · rw [e]
  · rename_i i j; cases i; cases j; simp_all
  all_goals exact h.elim

theorem filterMap_inj {α β : Type _} {f : α → Option β} {l : List α} (h : (l.filterMap f).Nodup) {a b : α}
    (ha : a ∈ l) (hb : b ∈ l) {k : β} (h1 : f a = some k) (h2 : f b = some k) : a = b := by
  induction l with
  | nil => simp at ha
  | cons x l ih =>
    have key : ∀ {c : α}, c ∈ l → f c = some k → k ∈ l.filterMap f := fun hc e => List.mem_filterMap.2 ⟨_, hc, e⟩
    cases hx : f x with
    | none =>
      rw [List.filterMap_cons_none hx] at h
      rcases List.mem_cons.1 ha with rfl | ha
      · rw [hx] at h1; cases h1
      · rcases List.mem_cons.1 hb with rfl | hb
        · rw [hx] at h2; cases h2
        · exact ih h ha hb
    | some y =>
      rw [List.filterMap_cons_some hx, List.nodup_cons] at h
      rcases List.mem_cons.1 ha with rfl | ha
      · rcases List.mem_cons.1 hb with rfl | hb
        · rfl
        · rw [hx] at h1; cases h1; exact absurd (key hb h2) h.1
      · rcases List.mem_cons.1 hb with rfl | hb
        · rw [hx] at h2; cases h2; exact absurd (key (by assumption) h1) h.1
        · exact ih h.2 ha hb

theorem forall₂_mem {α β : Type _} {R : α → β → Prop} {l : List α} {m : List β} (h : List.Forall₂ R l m)
    {a : α} (ha : a ∈ l) : ∃ b ∈ m, R a b ∧ (a, b) ∈ l.zip m := by
  induction h with
  | nil => simp at ha
  | cons h1 h2 ih =>
    rcases List.mem_cons.1 ha with rfl | ha
    · exact ⟨_, by simp, h1, by simp⟩
    · obtain ⟨b, hb, h, hz⟩ := ih ha
      exact ⟨b, by simp [hb], h, by simp [hz]⟩

theorem zip_inj {α β : Type _} {l : List α} {m : List β} (hm : m.Nodup) {a a' : α} {b : β}
    (h : (a, b) ∈ l.zip m) (h' : (a', b) ∈ l.zip m) : a = a' := by
  induction l generalizing m with
  | nil => simp at h
  | cons x l ih =>
    cases m with
    | nil => simp at h
    | cons y m =>
      obtain ⟨n1, n2⟩ := List.nodup_cons.1 hm
      have key : ∀ {c}, (c, b) ∈ l.zip m → b ≠ y := fun hc e => n1 (e ▸ (List.of_mem_zip hc).2)
      simp only [List.zip_cons_cons, List.mem_cons, Prod.mk.injEq] at h h'
      rcases h with ⟨rfl, rfl⟩ | h
      · rcases h' with ⟨rfl, -⟩ | h'
        · rfl
        · exact absurd rfl (key h')
      · rcases h' with ⟨rfl, rfl⟩ | h'
        · exact absurd rfl (key h)
        · exact ih n2 h h'

/-- C129, the full statement: the text of a graph is read as the graph, up to the names of blank
nodes. -/
def C129_statement : Prop :=
  ∀ (pr : Char → Bool) (url : Str → Option Iri) (opts : TurtleOptions)
    (o : Orders) (gen : Nat → Str) (k n : Nat) (g : Graph) (s : Str), o.Fair →
    0 < opts.width → opts.convert = [] → Reachable g.mappings →
    DirectivesFaithful opts g.mappings →
    (∀ t ∈ g.stmts, StmtReadable (turtleEnv pr url opts o g) t) →
    writeTurtle pr url .bare opts o gen k n g = .ok s →
    ∃ L, readTurtle s = some L ∧ Isomorphic L (g.stmts.map tripleSays)

theorem verbSays_right (p : Iri) : verbSays p ∉ mistyped := by
  unfold verbSays
  split
  · decide +kernel
  · assumption

theorem tripleWritten_eq {t : Stmt} (h : t.predicate ∉ mistyped) : tripleWritten t = tripleSays t := by
  simp [tripleWritten, tripleSays, verbSays, h]

/-- C129, exactly when: no predicate is written as `rdf:type` although it is not, and blank nodes
are not nested, or each that is an object is no subject and the object of one statement only. -/
theorem C129_iff (pr : Char → Bool) (url : Str → Option Iri) (opts : TurtleOptions)
    (o : Orders) (gen : Nat → Str) (k n : Nat) (g : Graph) (s : Str) (hfair : o.Fair)
    (hw : 0 < opts.width) (hc : opts.convert = []) (hm : Reachable g.mappings)
    (hd : DirectivesFaithful opts g.mappings)
    (hst : ∀ t ∈ g.stmts, StmtReadable (turtleEnv pr url opts o g) t)
    (h : writeTurtle pr url .bare opts o gen k n g = .ok s) :
    (∃ L, readTurtle s = some L ∧ Isomorphic L (g.stmts.map tripleSays)) ↔
      (∀ t ∈ g.stmts, t.predicate ∉ mistyped) ∧
      (opts.nest = true → ∀ t ∈ g.stmts, ∀ b, t.object = .blank b →
        (∀ t' ∈ g.stmts, t'.subject ≠ .blank b) ∧ ∀ t' ∈ g.stmts, t'.object = .blank b → t' = t) := by
  obtain ⟨env, m, τ, L, Z, hopts, hg, hL, hZn, hZ, hW⟩ := writeTurtle_whole hfair hw hc hm hd hst h
  subst hopts
  obtain ⟨σ, hσ⟩ := agree_exists m τ
  have hsub : ∀ t ∈ g.stmts, renameNode σ (subjectNode t.subject) = subjectNode t.subject := by
    intro t ht
    have := (hst t ht).1
    cases hs : t.subject with
    | stmt u => rw [hs] at this; exact this.elim
    | _ => rfl
  suffices H : (∀ t ∈ g.stmts, t.predicate ∉ mistyped) →
      ((∃ L, readTurtle s = some L ∧ Isomorphic L (g.stmts.map tripleSays)) ↔
        (env.opts.nest = true → ∀ t ∈ g.stmts, ∀ b, t.object = .blank b →
          (∀ t' ∈ g.stmts, t'.subject ≠ .blank b) ∧ ∀ t' ∈ g.stmts, t'.object = .blank b → t' = t)) by
    refine ⟨fun hI => ?_, fun ⟨h1, h2⟩ => (H h1).2 h2⟩
    have hright : ∀ t ∈ g.stmts, t.predicate ∉ mistyped := by
      intro t ht hmis
      obtain ⟨L', hL', ρ, -, -, hρ⟩ := hI
      rw [hL] at hL'
      cases hL'
      obtain ⟨x, hx, e⟩ := (hρ _).1 (List.mem_map_of_mem ht)
      obtain ⟨t', -, e'⟩ := hW.sound σ hσ x hx
      have h1 : t.predicate.text = x.p := congrArg Triple.p e
      have h2 : x.p = (verbSays t'.predicate).text := congrArg Triple.p e'
      have h3 : t.predicate = verbSays t'.predicate := by
        rw [h2] at h1
        cases h5 : t.predicate
        cases h4 : verbSays t'.predicate
        simp_all
      exact verbSays_right _ (h3 ▸ hmis)
    exact ⟨hright, (H hright).1 hI⟩
  intro hright
  have hv : ∀ t ∈ g.stmts, verbSays t.predicate = t.predicate := fun t ht => if_neg (hright t ht)
  have hM : ∀ y, y ∈ g.stmts.map tripleSays ↔ ∃ x ∈ L, y = ⟨renameNode σ x.s, x.p, renameNode σ x.o⟩ := by
    intro y
    constructor
    · intro hy
      obtain ⟨t, ht, rfl⟩ := List.mem_map.1 hy
      obtain ⟨x, hx, hR⟩ := hW.full t ((hZ t).2 ht)
      exact ⟨_, hx, by simp only [tripleSays, hv t ht, hsub t ht, hR.1 σ hσ]⟩
    · rintro ⟨x, hx, rfl⟩
      obtain ⟨t, ht, e⟩ := hW.sound σ hσ x hx
      rw [hg] at ht
      exact List.mem_map.2 ⟨t, ht, by rw [← tripleWritten_eq (hright t ht)]; exact e.symm⟩
  constructor
  · rintro ⟨L', hL', hI⟩ hn t ht b hb
    rw [hL] at hL'
    cases hL'
    have inj : ∀ {x y}, InTriples L x → InTriples L y → x.IsBlank → y.IsBlank → renameNode σ x = renameNode σ y → x = y :=
      fun hx hy hbx hby e => inj_transfer hI (fun x _ => renameNode_blank σ x) hM hx hy hbx hby e
    have fr : ∀ t ∈ g.stmts, t.object = .blank b → ∃ k,
        (⟨subjectNode t.subject, t.predicate.text, .fresh k⟩ : Triple) ∈ L ∧ σ k = b := by
      intro t ht hb
      obtain ⟨x, hx, hR⟩ := hW.full t ((hZ t).2 ht)
      obtain ⟨k, rfl⟩ := hR.2.1 hn b hb
      have := hR.1 σ hσ
      rw [hb] at this
      simp only [renameNode, objectSays, objectNode, Node.blank.injEq] at this
      rw [hv t ht] at hx
      exact ⟨k, hx, this⟩
    obtain ⟨k, hk, hkb⟩ := fr t ht hb
    refine ⟨fun t' ht' hs' => ?_, fun t' ht' hb' => ?_⟩
    · obtain ⟨x, hx, -⟩ := hW.full t' ((hZ t').2 ht')
      rw [hs'] at hx
      have := inj (x := .blank b) (y := .fresh k) ⟨_, hx, .inl rfl⟩ ⟨_, hk, .inr rfl⟩ trivial trivial
        (by simp [renameNode, hkb])
      cases this
    · obtain ⟨k', hk', hkb'⟩ := fr t' ht' hb'
      have e := inj (x := .fresh k') (y := .fresh k) ⟨_, hk', .inr rfl⟩ ⟨_, hk, .inr rfl⟩ trivial trivial
        (by simp [renameNode, hkb, hkb'])
      cases e
      have e2 := filterMap_inj hW.once hk' hk (k := k) rfl rfl
      simp only [Triple.mk.injEq, and_true] at e2
      obtain ⟨s, p, o⟩ := t
      obtain ⟨s', p', o'⟩ := t'
      simp only [Stmt.subject, Stmt.predicate, Stmt.object] at e2 hb hb'
      have h1 := subjectNode_inj (hst _ ht').1 (hst _ ht).1 e2.1
      simp only [Stmt.subject] at h1
      have h2 : p' = p := by cases p; cases p'; simpa using e2.2
      rw [h1, h2, hb, hb']
  · intro hcond
    refine ⟨L, hL, renameNode σ, ?_, ?_, hM⟩
    · intro x _
      refine ⟨renameNode_blank σ x, fun hx => ?_⟩
      cases x <;> simp [renameNode, Node.IsBlank] at hx ⊢
    · have hflat : ∀ t ∈ Z, Flat env t.object := by
        intro t ht hn b hb
        have := (hcond hn t ((hZ t).1 ht) b hb).1
        rw [Bool.eq_false_iff]
        intro hcs
        obtain ⟨p, o, hpo⟩ := containsSubject_iff.1 hcs
        exact this _ (by rw [← hg]; exact hpo) rfl
      have hF := hW.flat hflat
      -- where nodes come from
      have isFresh : ∀ {k}, InTriples L (.fresh k) → ∃ z, z.o = .fresh k ∧ ∃ t ∈ g.stmts,
          t.object = .blank (σ k) ∧ env.opts.nest = true ∧ (z, t) ∈ L.zip Z := by
        rintro k ⟨z, hz, e⟩
        obtain ⟨t, ht, ⟨h1, h2, h3⟩, hzip⟩ := forall₂_mem hF hz
        rcases e with e | e
        · have := (hst t ((hZ t).1 ht)).1
          rw [h1] at e
          cases hs : t.subject with
          | stmt u => rw [hs] at this; exact this.elim
          | _ => rw [hs] at e; simp [subjectNode] at e
        · refine ⟨z, e.symm, t, (hZ t).1 ht, ?_, ?_, hzip⟩
          · have := h3.1 σ hσ
            rw [← e] at this
            exact objectSays_blank this.symm
          · cases hn : env.opts.nest
            · exact absurd e.symm (h3.2.2 hn k)
            · rfl
      have isLabel : ∀ {b}, InTriples L (.blank b) → env.opts.nest = true → ∃ t ∈ g.stmts, t.subject = .blank b := by
        rintro b ⟨z, hz, e⟩ hn
        obtain ⟨t, ht, ⟨h1, h2, h3⟩, hzip⟩ := forall₂_mem hF hz
        rcases e with e | e
        · refine ⟨t, (hZ t).1 ht, ?_⟩
          rw [h1] at e
          cases hs : t.subject with
          | blank c => rw [hs] at e; simp [subjectNode] at e; rw [e]
          | _ => rw [hs] at e; simp [subjectNode] at e
        · have := h3.1 σ hσ
          rw [← e] at this
          obtain ⟨k, hk⟩ := h3.2.1 hn b (objectSays_blank this.symm)
          rw [← e] at hk; cases hk
      have mixed : ∀ {b k}, InTriples L (.blank b) → InTriples L (.fresh k) → b ≠ σ k := by
        rintro b k hb hk rfl
        obtain ⟨z, e, t, ht, ho, hn, -⟩ := isFresh hk
        obtain ⟨t', ht', hs'⟩ := isLabel hb hn
        exact (hcond hn t ht _ ho).1 t' ht' hs'
      intro x y hx hy e
      cases x <;> cases y <;> simp only [renameNode, reduceCtorEq] at e <;>
        first | exact e | skip
      · simp only [Node.blank.injEq] at e
        exact absurd e (mixed hx hy)
      · simp only [Node.blank.injEq] at e
        exact absurd e.symm (mixed hy hx)
      · rename_i k k'
        simp only [Node.blank.injEq] at e
        obtain ⟨z, ez, t, ht, ho, hn, hz⟩ := isFresh hx
        obtain ⟨z', ez', t', ht', ho', -, hz'⟩ := isFresh hy
        rw [← e] at ho'
        have heq : t' = t := (hcond hn t ht _ ho).2 t' ht' ho'
        subst heq
        have := zip_inj hZn hz hz'
        rw [this, ez'] at ez
        exact ez.symm

/-- C129, without nesting: the triples are those that the text says. -/
theorem C129_flat (pr : Char → Bool) (url : Str → Option Iri) (opts : TurtleOptions)
    (o : Orders) (gen : Nat → Str) (k n : Nat) (g : Graph) (s : Str) (hfair : o.Fair)
    (hw : 0 < opts.width) (hc : opts.convert = []) (hm : Reachable g.mappings) (hn : opts.nest = false)
    (hd : DirectivesFaithful opts g.mappings)
    (hst : ∀ t ∈ g.stmts, StmtReadable (turtleEnv pr url opts o g) t)
    (h : writeTurtle pr url .bare opts o gen k n g = .ok s) :
    ∃ L, readTurtle s = some L ∧ L.length = g.stmts.toFinset.card ∧
      ∀ x, x ∈ L ↔ ∃ t ∈ g.stmts, x = tripleWritten t := by
  obtain ⟨env, m, τ, L, Z, hopts, hg, hL, hZn, hZ, hW⟩ := writeTurtle_whole hfair hw hc hm hd hst h
  subst hopts
  obtain ⟨σ, hσ⟩ := agree_exists m τ
  have hF := hW.flat fun t _ => by intro h; rw [hn] at h; cases h
  have hlen : L.length = g.stmts.toFinset.card := by
    rw [hF.length_eq, ← List.toFinset_card_of_nodup hZn]
    congr 1; ext t; simp [hZ]
  have same : ∀ {x : Node} {o : Object}, Reading env m τ x o → x = objectSays o := by
    intro x o hR
    have := hR.1 σ hσ
    cases x with
    | fresh k => exact absurd rfl (hR.2.2 hn k)
    | _ => exact this
  refine ⟨L, hL, hlen, fun x => ⟨fun hx => ?_, ?_⟩⟩
  · obtain ⟨t, ht, ⟨h1, h2, h3⟩, -⟩ := forall₂_mem hF hx
    refine ⟨t, (hZ t).1 ht, ?_⟩
    cases x
    simp only at h1 h2 h3
    simp only [tripleWritten, h1, h2, same h3]
  · rintro ⟨t, ht, rfl⟩
    obtain ⟨x, hx, hR⟩ := hW.full t ((hZ t).2 ht)
    rw [same hR] at hx
    exact hx

/-- C129, literals: what the text says is the literal exactly when it is not of a type written
without quotes, or Turtle gives its text the same type. -/
theorem C129_literal_iff (l : Literal) :
    literalSays l = literalNode l ↔
      ∀ t ∈ bareTypes, l.dataType = some t → bareType l.lexicalForm = some t.asIri.text := by
  have hne : ∀ t ∈ bareTypes, t.asIri.text ≠ [] := by decide +kernel
  unfold literalSays
  cases hd : l.dataType with
  | none => simp
  | some t =>
    simp only [literalNode, hd]
    split
    · rename_i ht
      simp only [Node.lit.injEq, true_and, and_true, Option.some.injEq]
      constructor
      · rintro e u hu rfl
        cases hb : bareType l.lexicalForm with
        | none => rw [hb] at e; exact absurd e.symm (hne _ hu)
        | some v => rw [hb] at e; rw [← e]; rfl
      · intro h
        rw [h t ht rfl]; rfl
    · rename_i ht
      simp only [true_iff]
      rintro u hu e
      cases e
      exact absurd hu ht

/-- Two statements, one about the blank node that is the object of the other. -/
def nestedGraph : Graph :=
  (Graph.fromIter [.mk (.res ⟨str! "http://a/s"⟩) ⟨str! "http://a/p"⟩ (.blank (str! "b")),
      .mk (.blank (str! "b")) ⟨str! "http://a/q"⟩ (.lit ⟨str! "1.5", some .float, none⟩)]).withMappings PrefixMap.empty

/-- The hypotheses hold together, for the options of the code. -/
theorem nestedGraph_readable : DirectivesFaithful TurtleOptions.default nestedGraph.mappings ∧
    ∀ t ∈ nestedGraph.stmts,
      StmtReadable (turtleEnv easyEnv.pr easyEnv.url TurtleOptions.default sameOrder nestedGraph) t := by
  refine ⟨⟨by simp [TurtleOptions.default], ?_⟩, ?_⟩
  · have : nestedGraph.mappings.mappings = [] := rfl
    rw [this]; simp
  have iri : ∀ s : Str, compressIri (turtleEnv easyEnv.pr easyEnv.url TurtleOptions.default sameOrder nestedGraph) ⟨s⟩ =
      .ok ('<' :: s ++ ['>']) → (∀ c ∈ s, iriChar c = true) → iriValue none s = some s →
      IriFaithful (turtleEnv easyEnv.pr easyEnv.url TurtleOptions.default sameOrder nestedGraph) ⟨s⟩ :=
    fun s h1 h2 h3 => ⟨_, h1, .inl ⟨s, rfl, h2, h3⟩⟩
  have hs := iri (str! "http://a/s") (by decide +kernel) (by decide +kernel) (by decide +kernel)
  have hp := iri (str! "http://a/p") (by decide +kernel) (by decide +kernel) (by decide +kernel)
  have hq := iri (str! "http://a/q") (by decide +kernel) (by decide +kernel) (by decide +kernel)
  intro t ht
  have ht' : t ∈ [Stmt.mk (.res ⟨str! "http://a/s"⟩) ⟨str! "http://a/p"⟩ (.blank (str! "b")),
      Stmt.mk (.blank (str! "b")) ⟨str! "http://a/q"⟩ (.lit ⟨str! "1.5", some .float, none⟩)] := ht
  rcases List.mem_cons.1 ht' with rfl | ht'
  · exact ⟨hs, ⟨hp, fun h => absurd h (by decide +kernel)⟩, (by decide +kernel : isLabel (str! "b") = true)⟩
  · rw [List.mem_singleton.1 ht']
    exact ⟨(by decide +kernel : isLabel (str! "b") = true), ⟨hq, fun h => absurd h (by decide +kernel)⟩,
      .inr ⟨.float, by decide, rfl, by decide +kernel⟩⟩

/-- C129 fails: the node of one statement is read as two. -/
theorem C129_fails : ¬ C129_statement := by
  intro h
  have hw : writeTurtle easyEnv.pr easyEnv.url .bare TurtleOptions.default sameOrder (fun _ => []) 0 3 nestedGraph =
    .ok (str! "<http://a/s>\n    <http://a/p> [\n        <http://a/q> 1.5\n    ] .\n\n\n_:b\n    <http://a/q> 1.5 .\n\n") := by
    decide +kernel
  have hr := h easyEnv.pr easyEnv.url TurtleOptions.default sameOrder (fun _ => []) 0 3 nestedGraph _ sameOrder_fair
    (by decide) rfl .empty nestedGraph_readable.1 nestedGraph_readable.2 hw
  have := ((C129_iff easyEnv.pr easyEnv.url TurtleOptions.default sameOrder (fun _ => []) 0 3 nestedGraph _ sameOrder_fair
    (by decide) rfl .empty nestedGraph_readable.1 nestedGraph_readable.2 hw).1 hr).2 rfl
    (.mk (.res ⟨str! "http://a/s"⟩) ⟨str! "http://a/p"⟩ (.blank (str! "b"))) (List.mem_cons_self ..) (str! "b") rfl
  exact this.1 (.mk (.blank (str! "b")) ⟨str! "http://a/q"⟩ (.lit ⟨str! "1.5", some .float, none⟩))
    (List.mem_cons_of_mem _ (List.mem_singleton.2 rfl)) rfl

/-- C129, the order in which sets are visited: what is said does not depend on it. -/
theorem C129_order (pr : Char → Bool) (url : Str → Option Iri) (opts : TurtleOptions)
    (o o' : Orders) (gen : Nat → Str) (k n n' : Nat) (g : Graph) (s s' : Str) (hfair : o.Fair) (hfair' : o'.Fair)
    (hw : 0 < opts.width) (hc : opts.convert = []) (hm : Reachable g.mappings)
    (hd : DirectivesFaithful opts g.mappings)
    (hst : ∀ t ∈ g.stmts, StmtReadable (turtleEnv pr url opts o g) t)
    (h : writeTurtle pr url .bare opts o gen k n g = .ok s)
    (h' : writeTurtle pr url .bare opts o' gen k n' g = .ok s') :
    ∃ L L' σ σ', readTurtle s = some L ∧ readTurtle s' = some L' ∧
      ∀ y, (∃ x ∈ L, renameTriple σ x = y) ↔ ∃ x ∈ L', renameTriple σ' x = y := by
  obtain ⟨L, σ, h1, h2⟩ := C129_says pr url opts o gen k n g s hfair hw hc hm hd hst h
  obtain ⟨L', σ', h1', h2'⟩ := C129_says pr url opts o' gen k n' g s' hfair' hw hc hm hd hst h'
  exact ⟨L, L', σ, σ', h1, h1', fun y => (h2 y).trans (h2' y).symm⟩

end Rdftk
