import Verif.Props.JsonNTriples

/-! RDF/JSON converted to itself: C160. -/

namespace Rdftk
open Spec

/-- What is read from a document that says triples. -/
theorem json_graph {env : ReadEnv} (he : StrictEnv env) (hsane : SaneEnv env) {s : Str} {ts : List RdfTriple} (h : JsonSays env s ts) :
    ∃ g, readJson env s = .ok g ∧
      (∀ st ∈ g.stmts, ∃ t ∈ ts, stmtTriple st = some (escTriple env.pr t) ∧ TermGood env t.1 ∧ (∀ v d g, t.1 ≠ .lit v d g) ∧
        IriGood env t.2.1 ∧ TermGood env t.2.2) ∧
      ∀ t ∈ ts, ∃ st ∈ g.stmts, stmtTriple st = some (escTriple env.pr t) := by
  obtain ⟨m, hm, hform, hts⟩ := h
  obtain ⟨g, hr, hg⟩ := C127_reads env s m hsane hm hform
  refine ⟨g, hr, fun st hst => ?_, fun t ht => ?_⟩
  · obtain ⟨x, hx, t, h1, h2⟩ := forall₂_right hg _ hst
    exact ⟨t, (hts t).2 ⟨x, hx, h1⟩, h2, entry_good he hsane h1⟩
  · obtain ⟨x, hx, h1⟩ := (hts t).1 ht
    obtain ⟨st, hst, t', h2, h3⟩ := forall₂_left hg x hx
    rw [C127_unique env x _ _ h1 h2]
    exact ⟨st, hst, h3⟩

theorem escapeString_longer (pr : Char → Bool) (s : Str) : escapeString pr s = s ∨ s.length < (escapeString pr s).length := by
  have hlen : ∀ s, s.length ≤ (escapeString pr s).length := by
    intro s
    induction s with
    | nil => simp [escapeString]
    | cons c s ih =>
      have h1 : escapeString pr (c :: s) = escapeChar pr c ++ escapeString pr s := by simp [escapeString]
      rw [h1, List.length_append, List.length_cons]
      rcases escapeChar_length (pr := pr) (c := c) with h | h
      · rw [h]; simp; omega
      · omega
  induction s with
  | nil => exact .inl rfl
  | cons c s ih =>
    have h1 : escapeString pr (c :: s) = escapeChar pr c ++ escapeString pr s := by simp [escapeString]
    rw [h1, List.length_append, List.length_cons]
    rcases escapeChar_length (pr := pr) (c := c) with h | h
    · rw [h]
      rcases ih with ih | ih
      · left; rw [ih]; rfl
      · right; simp; omega
    · have := hlen s
      right; omega

theorem escapeString_tells {pr : Char → Bool} {a b : Str} (h : escapeString pr a = escapeString pr b) : a = b := by
  have := unescape_escapeString pr a
  rw [h, unescape_escapeString] at this
  exact (Option.some.inj this).symm

/-- Texts that are a finite set closed under escapes have nothing to escape. -/
theorem closed_escapes {pr : Char → Bool} {A : List Str} (h : ∀ a ∈ A, escapeString pr a ∈ A) : ∀ a ∈ A, escapeString pr a = a := by
  intro a ha
  refine Classical.byContradiction fun hne => ?_
  have chain : ∀ k, ∃ z ∈ A, escapeString pr z ≠ z ∧ k ≤ z.length := by
    intro k
    induction k with
    | zero => exact ⟨a, ha, hne, Nat.zero_le _⟩
    | succ k ih =>
      obtain ⟨z, h1, h2, h3⟩ := ih
      refine ⟨_, h z h1, fun e => h2 (escapeString_tells e), ?_⟩
      rcases escapeString_longer pr z with e | e
      · exact absurd e h2
      · omega
  obtain ⟨z, h1, -, h3⟩ := chain ((A.map List.length).sum + 1)
  have := le_sum_of_mem (List.mem_map_of_mem (f := List.length) h1)
  omega

/-- The texts of literals of triples. -/
def literalTexts (ts : List RdfTriple) : List Str := ts.filterMap fun t => t.2.2.text

theorem mem_literalTexts {ts : List RdfTriple} {v : Str} : v ∈ literalTexts ts ↔ ∃ t ∈ ts, t.2.2.text = some v := List.mem_filterMap

theorem escTriple_text {pr : Char → Bool} (t : RdfTriple) : (escTriple pr t).2.2.text = t.2.2.text.map (escapeString pr) := by
  obtain ⟨x, i, y⟩ := t
  cases y <;> rfl

theorem escTriple_id {pr : Char → Bool} {t : RdfTriple} (h : ∀ v, t.2.2.text = some v → escapeString pr v = v) : escTriple pr t = t := by
  obtain ⟨x, i, y⟩ := t
  cases y with
  | lit v d g => simp only [escTriple, escTerm, h v rfl]
  | _ => rfl

/-- Escaping all texts gives the same triples only if nothing is escaped. -/
theorem esc_same {pr : Char → Bool} {ts : List RdfTriple} :
    (∀ x, x ∈ ts ↔ ∃ t ∈ ts, escTriple pr t = x) ↔ ∀ t ∈ ts, ∀ v, t.2.2.text = some v → escapeString pr v = v := by
  constructor
  · intro h t ht v hv
    refine closed_escapes (A := literalTexts ts) (fun a ha => ?_) v (mem_literalTexts.2 ⟨t, ht, hv⟩)
    obtain ⟨u, hu, e⟩ := mem_literalTexts.1 ha
    exact mem_literalTexts.2 ⟨_, (h _).2 ⟨u, hu, rfl⟩, by rw [escTriple_text, e]; rfl⟩
  · intro h x
    constructor
    · exact fun hx => ⟨x, hx, escTriple_id (h x hx)⟩
    · rintro ⟨t, ht, rfl⟩
      rw [escTriple_id (h t ht)]
      exact ht

theorem esc_taken {env : ReadEnv} {t : RdfTriple} (h1 : TermGood env t.1) (h2 : IriGood env t.2.1) (h3 : TermGood env t.2.2) :
    TermTaken env (escTriple env.pr t).1 ∧ env.url (escTriple env.pr t).2.1.text = some (escTriple env.pr t).2.1 ∧
      TermTaken env (escTriple env.pr t).2.2 := by
  have key : ∀ x, TermGood env x → TermTaken env x := by
    intro x hx
    cases x with
    | iri i => exact hx.2
    | blank b => exact hx.1
    | lit v d g => exact ⟨fun i e => (hx.1 i e).2, fun i e => (hx.2.1 i e).2, hx.2.2⟩
  obtain ⟨x, i, y⟩ := t
  refine ⟨key _ h1, h2.2, ?_⟩
  cases y with
  | lit v d g => exact key (.lit v d g) h3
  | _ => exact key _ h3

theorem triple_simple {st : Stmt} {x : RdfTriple} (h : stmtTriple st = some x) : simple st = true := by
  obtain ⟨a, b, c⟩ := st
  obtain ⟨h1, -, h3⟩ := triple_terms h
  cases a <;> cases c <;> first | rfl | cases h1 | cases h3

/-- C160, exactly: a document of RDF/JSON written again, with IRIs without brackets, says what it said if and only if no subject is an
IRI, no object a blank node and no text of a literal has anything to escape. -/
theorem C160_iff (e : CliEnv) (s : Str) (ts : List RdfTriple) (hb : e.sty = .bare) (he : StrictEnv e.read) (hsane : SaneEnv e.read)
    (ho : e.orders.Fair) (hs : JsonSays e.read s ts) :
    (∃ out, cliMain e s (.convert .json .json) = .success out ∧ JsonSays e.read out ts) ↔
    ∀ t ∈ ts, (∀ i, t.1 ≠ .iri i) ∧ (∀ b, t.2.2 ≠ .blank b) ∧ ∀ v, t.2.2.text = some v → escapeString e.read.pr v = v := by
  obtain ⟨g, hr, fwd, bwd⟩ := json_graph he hsane hs
  have hsimple : ∀ st ∈ g.stmts, simple st = true := fun st hst => by
    obtain ⟨t, -, h, -⟩ := fwd st hst
    exact triple_simple h
  have hsim : (g.simplify e.gen e.startWrite).1.stmts = g.stmts := (C34_unchanged _ _ g hsimple).1
  cases hw : writeJson e.gen e.startWrite e.orders .bare false g with
  | none =>
    obtain ⟨st, hs, h⟩ := (C64_refuses _ _ _ ho _ _ _).1 hw
    exact absurd h (by rw [simple_shallow (hsimple st hs)]; simp)
  | some out =>
    have hc : cliMain e s (.convert .json .json) = .success out := by
      simp only [cliMain, cliRead, hr, Res.toRun, Run.bind, cliWrite, hb, hw, Run.ofOption, Run.exit]
    have hobj : ∀ (t : RdfTriple) b, (escTriple e.read.pr t).2.2 = .blank b ↔ t.2.2 = .blank b := by
      rintro ⟨x, i, y⟩ b
      cases y <;> simp [escTriple, escTerm]
    have key := json_says hsane ho hw (by
      rw [hsim]
      intro st hst
      obtain ⟨t, -, h1, h2, -, h3, h4⟩ := fwd st hst
      exact ⟨_, h1, esc_taken h2 h3 h4⟩) ts (by
      rw [hsim]
      rintro b ⟨t, ht, htb⟩
      obtain ⟨⟨x, p, z⟩, hst, k⟩ := bwd t ht
      obtain ⟨-, -, t3⟩ := triple_terms k
      rw [(hobj t b).2 htb] at t3
      refine ⟨_, hst, ?_⟩
      cases z <;> simp [objectTerm] at t3
      rw [t3]; rfl)
    rw [hsim] at key
    have same : (∀ x, x ∈ ts ↔ ∃ st ∈ g.stmts, stmtTriple st = some x) ↔
        ∀ t ∈ ts, ∀ v, t.2.2.text = some v → escapeString e.read.pr v = v := by
      rw [← esc_same]
      refine forall_congr' fun x => iff_congr Iff.rfl ⟨?_, ?_⟩
      · rintro ⟨st, hst, h⟩
        obtain ⟨t, ht, h', -⟩ := fwd st hst
        rw [h] at h'
        exact ⟨t, ht, (Option.some.inj h').symm⟩
      · rintro ⟨t, ht, rfl⟩
        exact bwd t ht
    rw [same] at key
    constructor
    · rintro ⟨out', hc', hs'⟩
      rw [hc] at hc'
      cases hc'
      obtain ⟨h1, h2⟩ := key.1 hs'
      intro t ht
      obtain ⟨⟨x, p, z⟩, hst, k⟩ := bwd t ht
      obtain ⟨t1, -, t3⟩ := triple_terms k
      refine ⟨fun i e' => ?_, fun b e' => ?_, h2 t ht⟩
      · have t1 : subjectTerm x = some t.1 := t1
        rw [e'] at t1
        cases x <;> simp [subjectTerm] at t1
        exact (h1 _ hst).1 _ rfl
      · rw [(hobj t b).2 e'] at t3
        cases z <;> simp [objectTerm] at t3
        exact (h1 _ hst).2 _ rfl
    · intro h
      refine ⟨out, hc, key.2 ⟨fun st hst => ?_, fun t ht => (h t ht).2.2⟩⟩
      obtain ⟨t, ht, k, -⟩ := fwd st hst
      obtain ⟨x, p, z⟩ := st
      obtain ⟨t1, -, t3⟩ := triple_terms k
      constructor
      · rintro i (rfl : x = _)
        simp only [subjectTerm, Option.some.injEq] at t1
        exact (h t ht).1 i t1.symm
      · rintro b (rfl : z = _)
        simp only [objectTerm, Option.some.injEq] at t3
        exact (h t ht).2.1 b ((hobj t b).1 t3.symm)

/-- In the style of the code the result says nothing, if there is a triple. -/
theorem C160_fails_bracketed (e : CliEnv) (s : Str) (ts : List RdfTriple) (hb : e.sty = .bracketed) (he : StrictEnv e.read)
    (hsane : SaneEnv e.read) (ho : e.orders.Fair) (hs : JsonSays e.read s ts) (hne : ts ≠ []) :
    ∃ out, cliMain e s (.convert .json .json) = .success out ∧ ∀ ts', ¬ JsonSays e.read out ts' := by
  obtain ⟨g, hr, fwd, bwd⟩ := json_graph he hsane hs
  have hsimple : ∀ st ∈ g.stmts, simple st = true := fun st hst => by
    obtain ⟨t, -, h, -⟩ := fwd st hst
    exact triple_simple h
  have hsim : (g.simplify e.gen e.startWrite).1.stmts = g.stmts := (C34_unchanged _ _ g hsimple).1
  cases hw : writeJson e.gen e.startWrite e.orders .bracketed false g with
  | none =>
    obtain ⟨st, hs, h⟩ := (C64_refuses _ _ _ ho _ _ _).1 hw
    exact absurd h (by rw [simple_shallow (hsimple st hs)]; simp)
  | some out =>
    obtain ⟨t, ht⟩ := List.exists_mem_of_ne_nil _ hne
    obtain ⟨st, hst, -⟩ := bwd t ht
    exact ⟨out, by simp only [cliMain, cliRead, hr, Res.toRun, Run.bind, cliWrite, hb, hw, Run.ofOption, Run.exit],
      json_bracketed hsane ho hw (by rw [hsim]; exact List.ne_nil_of_mem hst) (by rw [hsim]; exact hsimple)⟩

/-- C160, the full statement: a document of RDF/JSON written again says what it said. -/
def C160_statement (sty : IriStyle) : Prop :=
  ∀ (e : CliEnv) (s : Str) (ts : List RdfTriple), e.sty = sty → StrictEnv e.read → SaneEnv e.read →
    e.orders.Fair → JsonSays e.read s ts →
    ∃ out, cliMain e s (.convert .json .json) = .success out ∧ JsonSays e.read out ts

/-- C160 fails in either style: an IRI as subject is enough. -/
theorem C160_fails (sty : IriStyle) : ¬ C160_statement sty := by
  intro h
  have hs := typedDoc_says (v := ['v']) (d := str! "http://a/d") keyMeans_web rfl
  obtain ⟨out, h1, h2⟩ := h (docCli sty) _ _ rfl docEnv_strict docEnv_sane sameOrder_fair hs
  cases sty with
  | bare =>
    exact ((C160_iff (docCli .bare) _ _ rfl docEnv_strict docEnv_sane sameOrder_fair hs).1 ⟨out, h1, h2⟩ _
      (List.mem_singleton.2 rfl)).1 _ rfl
  | bracketed =>
    obtain ⟨out', h1', h2'⟩ := C160_fails_bracketed (docCli .bracketed) _ _ rfl docEnv_strict docEnv_sane sameOrder_fair hs (by simp)
    rw [h1] at h1'
    cases h1'
    exact h2' _ h2

/-- C160, what holds. -/
theorem C160_partial (e : CliEnv) (s : Str) (ts : List RdfTriple) (hb : e.sty = .bare) (he : StrictEnv e.read) (hsane : SaneEnv e.read)
    (ho : e.orders.Fair) (hs : JsonSays e.read s ts)
    (h : ∀ t ∈ ts, (∀ i, t.1 ≠ .iri i) ∧ (∀ b, t.2.2 ≠ .blank b) ∧ ∀ v, t.2.2.text = some v → escapeString e.read.pr v = v) :
    ∃ out, cliMain e s (.convert .json .json) = .success out ∧ JsonSays e.read out ts :=
  (C160_iff e s ts hb he hsane ho hs).2 h

/-- C160: what is written rightly is written rightly ever after, and the same triples are said. -/
theorem C160_again (e : CliEnv) (s out : Str) (ts : List RdfTriple) (hb : e.sty = .bare) (he : StrictEnv e.read) (hsane : SaneEnv e.read)
    (ho : e.orders.Fair) (hs : JsonSays e.read s ts) (h : cliMain e s (.convert .json .json) = .success out)
    (hout : JsonSays e.read out ts) :
    ∃ out', cliMain e out (.convert .json .json) = .success out' ∧ JsonSays e.read out' ts :=
  (C160_iff e out ts hb he hsane ho hout).2 ((C160_iff e s ts hb he hsane ho hs).1 ⟨out, h, hout⟩)

/-! A blank node with a value. -/

example : ∃ out, cliMain (docCli .bare) (Json.text false 0 (.obj (typedDoc (str! "_:b") ['v'] (str! "http://a/d")))) (.convert .json .json) =
      .success out ∧
    JsonSays docEnv out [(.blank ['b'], ⟨str! "http://a/p"⟩, .lit ['v'] (some ⟨str! "http://a/d"⟩) none)] := by
  have hb : Label ['b'] := ⟨⟨'b', .inl ((isPnCharsU_iff _).1 (by decide)), .inl rfl⟩, fun a b e => by cases a with | nil => simp at e | cons x a => cases a <;> simp at e⟩
  refine C160_partial (docCli .bare) _ _ rfl docEnv_strict docEnv_sane sameOrder_fair
    (typedDoc_says (.inl ⟨['b'], rfl, hb, rfl⟩) rfl) ?_
  intro t ht
  cases List.mem_singleton.1 ht
  refine ⟨fun i e => by (cases e), fun i e => by (cases e), fun a e => ?_⟩
  cases e
  exact (by decide +kernel : escapeString easyEnv.pr ['v'] = ['v'])

end Rdftk
