import Verif.Lemmas.TurtleText
import Verif.Spec.TurtleNested
import Mathlib.Data.List.Forall2
import Mathlib.Data.List.Nodup

/-! What the Turtle reader of the specification makes of nested blank nodes. -/

namespace Rdftk
open Spec

/-! ### Numbers and truth values -/

theorem digits_name {s : Str} (h : digits s = true) :
    s ≠ [] ∧ (∀ c ∈ s, nameChar c = true) ∧ s.getLast? ≠ some '.' := by
  simp only [digits, Bool.and_eq_true, List.all_eq_true] at h
  obtain ⟨h1, h2⟩ := h
  refine ⟨by rintro rfl; simp at h1, fun c hc => by simp [nameChar, pnChar, h2 c hc], fun e => ?_⟩
  have := h2 _ (List.mem_of_getLast? e)
  revert this; decide

theorem isPoint_name {s : Str} (h : isPoint s = true) :
    s ≠ [] ∧ (∀ c ∈ s, nameChar c = true) ∧ s.getLast? ≠ some '.' := by
  simp only [isPoint, Bool.and_eq_true, beq_iff_eq] at h
  obtain ⟨h1, h2⟩ := h
  have hs : s.takeWhile digit ++ s.dropWhile digit = s := List.takeWhile_append_dropWhile
  cases hd : s.dropWhile digit with
  | nil => rw [hd] at h1; simp at h1
  | cons x r =>
    rw [hd] at h1 h2 hs
    simp only [List.head?_cons, Option.some.injEq] at h1
    subst h1
    obtain ⟨g1, g2, g3⟩ := digits_name h2
    simp only [List.drop_succ_cons, List.drop_zero] at g1 g2 g3
    rw [← hs]
    refine ⟨by simp, fun c hc => ?_, fun e => ?_⟩
    · rcases List.mem_append.1 hc with hc | hc
      · have := List.all_eq_true.1 (List.all_takeWhile (p := digit) (l := s)) c hc
        simp [nameChar, pnChar, this]
      · rcases List.mem_cons.1 hc with rfl | hc
        · decide
        · exact g2 c hc
    · rw [List.getLast?_append] at e
      cases r with
      | nil => exact g1 rfl
      | cons y r =>
        rw [List.getLast?_cons_cons] at e
        cases hg : (y :: r).getLast? with
        | none => simp at hg
        | some z =>
          rw [hg] at e g3
          simp only [Option.some_or, Option.some.injEq] at e
          exact g3 (by rw [e])

theorem unsigned_name {s : Str} (h : unsigned s ≠ [] ∧ (∀ c ∈ unsigned s, nameChar c = true) ∧
      (unsigned s).getLast? ≠ some '.') :
    s ≠ [] ∧ (∀ c ∈ s, nameChar c = true) ∧ s.getLast? ≠ some '.' := by
  have key : ∀ x r, nameChar x = true → r ≠ [] ∧ (∀ c ∈ r, nameChar c = true) ∧ r.getLast? ≠ some '.' →
      x :: r ≠ [] ∧ (∀ c ∈ x :: r, nameChar c = true) ∧ (x :: r).getLast? ≠ some '.' := by
    rintro x r hx ⟨h1, h2, h3⟩
    refine ⟨by simp, ?_, ?_⟩
    · intro c hc
      rcases List.mem_cons.1 hc with rfl | hc
      · exact hx
      · exact h2 c hc
    · cases r with
      | nil => exact absurd rfl h1
      | cons y r => rw [List.getLast?_cons_cons]; exact h3
  unfold unsigned at h
  split at h
  · exact key _ _ (by decide) h
  · exact key _ _ (by decide) h
  · exact h

theorem isExponential_name {s : Str} (h : isExponential s = true) :
    s ≠ [] ∧ (∀ c ∈ s, nameChar c = true) ∧ s.getLast? ≠ some '.' := by
  simp only [isExponential, Bool.and_eq_true, Bool.or_eq_true, beq_iff_eq] at h
  obtain ⟨⟨he, hd⟩, hk⟩ := h
  have hs : s.takeWhile (fun c => !(str! "eE").contains c) ++ s.dropWhile (fun c => !(str! "eE").contains c) = s :=
    List.takeWhile_append_dropWhile
  have hhead := List.head?_dropWhile_not (fun c => !(str! "eE").contains c) s
  generalize List.takeWhile (fun c => !(str! "eE").contains c) s = m at *
  generalize List.dropWhile (fun c => !(str! "eE").contains c) s = e at *
  have hm : ∀ c ∈ m, nameChar c = true := by
    rcases hk with (h | h) | h
    · exact (digits_name h).2.1
    · exact (isPoint_name h).2.1
    · obtain ⟨u, hu⟩ := List.getLast?_eq_some_iff.1 h.1
      have := (digits_name h.2).2.1
      rw [hu, List.dropLast_concat] at this
      intro c hc
      rw [hu] at hc
      rcases List.mem_append.1 hc with hc | hc
      · exact this c hc
      · simp at hc; subst hc; decide
  cases e with
  | nil => simp at he
  | cons x r =>
    obtain ⟨g1, g2, g3⟩ := unsigned_name (digits_name hd)
    simp only [List.drop_succ_cons, List.drop_zero] at g1 g2 g3
    have hx : nameChar x = true := by
      simp only [List.head?_cons] at hhead
      have hx' : x = 'e' ∨ x = 'E' := by
        by_cases h : x = 'e'
        · exact .inl h
        · right; simpa [h] using hhead
      rcases hx' with rfl | rfl <;> decide
    rw [← hs]
    refine ⟨by simp, fun c hc => ?_, fun e => ?_⟩
    · rcases List.mem_append.1 hc with hc | hc
      · exact hm c hc
      · rcases List.mem_cons.1 hc with rfl | hc
        · exact hx
        · exact g2 c hc
    · rw [List.getLast?_append] at e
      cases r with
      | nil => exact g1 rfl
      | cons y r =>
        rw [List.getLast?_cons_cons] at e
        cases hg : (y :: r).getLast? with
        | none => simp at hg
        | some z =>
          rw [hg] at e g3
          simp only [Option.some_or, Option.some.injEq] at e
          exact g3 (by rw [e])

theorem bareType_name {s u : Str} (h : bareType s = some u) :
    s ≠ [] ∧ (∀ c ∈ s, nameChar c = true) ∧ s.getLast? ≠ some '.' := by
  unfold bareType at h
  split at h
  · rename_i e
    rcases e with rfl | rfl <;> decide
  · split at h
    · rename_i e; exact unsigned_name (digits_name e)
    · split at h
      · rename_i e; exact unsigned_name (isPoint_name e)
      · split at h
        · rename_i e; exact unsigned_name (isExponential_name e)
        · cases h

theorem Settles.value {d d' : Doc} {s u : Str} (h : bareType s = some u)
    (hd : d.step (.value s u) = some d') : Settles d s d' := by
  obtain ⟨h1, h2, h3⟩ := bareType_name h
  refine Settles.word (ts := [.value s u]) h1 h2 (wordToks_eq h1 h3 ?_) (by simp [Doc.steps, hd])
  have ha : s ≠ str! "a" := by rintro rfl; rw [show bareType (str! "a") = none by decide +kernel] at h; cases h
  unfold wordTok
  rw [if_neg ha, h]

/-! ### What a part of the text says -/

/-- The labels are those of the list, from a number on. -/
def Agree (σ : Nat → Str) (n : Nat) (τ : List Str) : Prop := ∀ i b, τ[i]? = some b → σ (n + i) = b

theorem Agree.left {σ : Nat → Str} {n : Nat} {τ τ' : List Str} (h : Agree σ n (τ ++ τ')) : Agree σ n τ := by
  intro i b hi
  have hl : i < τ.length := (List.getElem?_eq_some_iff.1 hi).1
  exact h i b (by rw [List.getElem?_append_left hl]; exact hi)

theorem Agree.right {σ : Nat → Str} {n : Nat} {τ τ' : List Str} (h : Agree σ n (τ ++ τ')) :
    Agree σ (n + τ.length) τ' := by
  intro i b hi
  have := h (τ.length + i) b (by rw [List.getElem?_append_right (by omega)]; simpa using hi)
  rw [← this]; congr 1; omega

theorem agree_exists (n : Nat) (τ : List Str) : ∃ σ, Agree σ n τ :=
  ⟨fun k => (τ[k - n]?).getD [], fun i b hi => by simp [hi]⟩

/-- The number of a node without label. -/
def freshNode : Node → Option Nat
  | .fresh n => some n
  | _ => none

/-- The number of an object without label. -/
def freshObj (z : Triple) : Option Nat := freshNode z.o

/-- The node that was read for an object. -/
def Reading (env : TurtleEnv) (n : Nat) (τ : List Str) (x : Node) (o : Object) : Prop :=
  (∀ σ, Agree σ n τ → renameNode σ x = objectSays o) ∧
  (env.opts.nest = true → ∀ b, o = .blank b → ∃ k, x = .fresh k) ∧
  (env.opts.nest = false → ∀ k, x ≠ .fresh k)

theorem Reading.left {env : TurtleEnv} {n : Nat} {τ τ' : List Str} {x : Node} {o : Object}
    (h : Reading env n τ x o) : Reading env n (τ ++ τ') x o := ⟨fun σ hσ => h.1 σ hσ.left, h.2⟩

theorem Reading.right {env : TurtleEnv} {n : Nat} {τ τ' : List Str} {x : Node} {o : Object}
    (h : Reading env (n + τ.length) τ' x o) : Reading env n (τ ++ τ') x o := ⟨fun σ hσ => h.1 σ hσ.right, h.2⟩

/-- The object is not a nested blank node with statements. -/
def Flat (env : TurtleEnv) (o : Object) : Prop :=
  env.opts.nest = true → ∀ b, o = .blank b → env.graph.containsSubject (.blank b) = false

/-- The triples `L` are read for the statements of the subject `S`, as the node `N`, with the
predicates and objects `E`; the nodes without label have the numbers from `n` on and the labels
`τ`. -/
structure Part (env : TurtleEnv) (N : Node) (S : Subject) (E : List (Iri × Object)) (n : Nat) (τ : List Str)
    (L : List Triple) : Prop where
  sound : ∀ σ, Agree σ n τ → renameNode σ N = subjectNode S →
    ∀ z ∈ L, ∃ t ∈ env.graph.stmts, renameTriple σ z = tripleWritten t
  full : ∀ e ∈ E, ∃ x, (⟨N, (verbSays e.1).text, x⟩ : Triple) ∈ L ∧ Reading env n τ x e.2
  once : (L.filterMap freshObj).Nodup
  range : ∀ k ∈ L.filterMap freshObj, n ≤ k ∧ k < n + τ.length
  flat : (∀ e ∈ E, Flat env e.2) →
    List.Forall₂ (fun z e => z.s = N ∧ z.p = (verbSays e.1).text ∧ Reading env n τ z.o e.2) L E

theorem Part.nil (env : TurtleEnv) (N : Node) (S : Subject) (n : Nat) : Part env N S [] n [] [] :=
  ⟨by simp, by simp, by simp, by simp, fun _ => .nil⟩

theorem once_append {L L' : List Triple} {n k k' : Nat} (h1 : (L.filterMap freshObj).Nodup)
    (h2 : ∀ x ∈ L.filterMap freshObj, n ≤ x ∧ x < n + k) (h1' : (L'.filterMap freshObj).Nodup)
    (h2' : ∀ x ∈ L'.filterMap freshObj, n + k ≤ x ∧ x < n + k + k') :
    ((L ++ L').filterMap freshObj).Nodup ∧ ∀ x ∈ (L ++ L').filterMap freshObj, n ≤ x ∧ x < n + (k + k') := by
  rw [List.filterMap_append]
  refine ⟨List.nodup_append.2 ⟨h1, h1', ?_⟩, ?_⟩
  · intro a ha b hb
    have := h2 a ha
    have := h2' b hb
    omega
  · intro x hx
    rcases List.mem_append.1 hx with hx | hx
    · have := h2 x hx; omega
    · have := h2' x hx; omega

theorem Part.append {env : TurtleEnv} {N : Node} {S : Subject} {E E' : List (Iri × Object)} {n : Nat}
    {τ τ' : List Str} {L L' : List Triple} (h : Part env N S E n τ L)
    (h' : Part env N S E' (n + τ.length) τ' L') : Part env N S (E ++ E') n (τ ++ τ') (L ++ L') := by
  have ho := once_append h.once h.range h'.once h'.range
  refine ⟨?_, ?_, ho.1, ?_, ?_⟩
  · intro σ hσ hN z hz
    rcases List.mem_append.1 hz with hz | hz
    · exact h.sound σ hσ.left hN z hz
    · exact h'.sound σ hσ.right hN z hz
  · intro e he
    rcases List.mem_append.1 he with he | he
    · obtain ⟨x, h1, h2⟩ := h.full e he
      exact ⟨x, by simp [h1], h2.left⟩
    · obtain ⟨x, h1, h2⟩ := h'.full e he
      exact ⟨x, by simp [h1], h2.right⟩
  · rw [List.length_append]; exact ho.2
  · intro hf
    refine List.rel_append ?_ ?_
    · exact (h.flat fun e he => hf e (by simp [he])).imp fun _ _ ⟨a, b, c⟩ => ⟨a, b, c.left⟩
    · exact (h'.flat fun e he => hf e (by simp [he])).imp fun _ _ ⟨a, b, c⟩ => ⟨a, b, c.right⟩

/-- One object that is not nested. -/
theorem Part.single {env : TurtleEnv} {N : Node} {S : Subject} {p : Iri} {o : Object} {n : Nat} {τ : List Str}
    {x : Node} (hm : Stmt.mk S p o ∈ env.graph.stmts) (hx : Reading env n τ x o)
    (hf : ∀ k, x = .fresh k → n ≤ k ∧ k < n + τ.length) :
    Part env N S [(p, o)] n τ [⟨N, (verbSays p).text, x⟩] := by
  refine ⟨?_, ?_, ?_, ?_, ?_⟩
  · intro σ hσ hN z hz
    simp only [List.mem_singleton] at hz
    subst hz
    exact ⟨_, hm, by simp only [renameTriple, hN, hx.1 σ hσ]; rfl⟩
  · intro e he
    simp only [List.mem_singleton] at he
    subst he
    exact ⟨x, by simp, hx⟩
  · cases x <;> simp [freshObj, freshNode, List.filterMap_cons]
  · intro k hk
    cases x <;> simp [freshObj, freshNode, List.filterMap_cons] at hk
    subst hk
    exact hf _ rfl
  · intro _
    exact .cons ⟨rfl, rfl, hx⟩ .nil

/-! ### Objects -/

/-- The document inside a statement, with a counter. -/
def Spec.Doc.on (d : Doc) (n : Nat) (out : List Triple) (stack : List Frame) (e : Expect) : Doc :=
  { d with n := n, out := out, stack := stack, expect := e }

theorem Spec.Doc.on_at (d : Doc) (n : Nat) (out : List Triple) (stack : List Frame) (e : Expect) :
    d.on n out stack e = ({ d with n := n } : Doc).at out stack e := rfl

theorem Knows.count {opts : TurtleOptions} {m : PrefixMap} {d : Doc} (h : Knows opts m d) (n : Nat) :
    Knows opts m { d with n := n } := h

/-- The text of an object is read, and the next token shows it. -/
def ReadsEntry (env : TurtleEnv) (d : Doc) (t : Str) (p : Iri) (o : Object) : Prop :=
  ∀ (n : Nat) (N : Node) (S : Subject), Stmt.mk S p o ∈ env.graph.stmts →
    ∃ τ L, Part env N S [(p, o)] n τ L ∧ ∀ out st, ∃ d₁,
      Settles (d.on n out (.pair N (verbSays p).text :: st) .object) t d₁ ∧
      ∀ x ∈ [Tok.comma, .semi, .dot, .rbr],
        d₁.step x = (d.on (n + τ.length) (out ++ L) (.pair N (verbSays p).text :: st) .after).step x

/-- A node with a label or none. -/
theorem readsEntry_of {env : TurtleEnv} {d : Doc} {t : Str} {p : Iri} {o : Object} {x : Node}
    (hx : x = objectSays o) (hf : ∀ k, x ≠ .fresh k) (hb : env.opts.nest = true → ∀ b, o ≠ .blank b)
    (h : ∀ n out N st, ∃ d₁, Settles (d.on n out (.pair N (verbSays p).text :: st) .object) t d₁ ∧
      ∀ y ∈ [Tok.comma, .semi, .dot, .rbr],
        d₁.step y = (d.on n (out ++ [⟨N, (verbSays p).text, x⟩]) (.pair N (verbSays p).text :: st) .after).step y) :
    ReadsEntry env d t p o := by
  intro n N S hm
  refine ⟨[], [⟨N, (verbSays p).text, x⟩], Part.single hm ⟨fun σ _ => ?_, fun hn b e => absurd e (hb hn b), fun _ => hf⟩
    fun k e => absurd e (hf k), fun out st => h n out N st⟩
  rw [← hx]
  cases x <;> first | rfl | exact absurd rfl (hf _)

section
variable {env : TurtleEnv} {d : Doc} (hk : Knows env.opts env.graph.mappings d)
include hk

theorem readsEntry_iri {i p : Iri} {s : Str} (h : IriFaithful env i) (hs : compressIri env i = .ok s) :
    ReadsEntry env d s p (.res i) := by
  refine readsEntry_of (x := .iri i.text) rfl (by simp) (by simp) fun n out N st => ?_
  obtain ⟨s', hs', hf⟩ := h
  rw [hs] at hs'; cases hs'
  obtain ⟨t, h1, h2, h3⟩ := hf.tok (hk.count n)
  refine ⟨_, h3 _ (d.on n (out ++ [⟨N, (verbSays p).text, .iri i.text⟩]) (.pair N (verbSays p).text :: st) .after) ?_, fun _ _ => rfl⟩
  have h1 := h1 out (.pair N (verbSays p).text :: st) .object
  rcases h2 with ⟨r, rfl⟩ | ⟨q, l, rfl⟩ <;>
    simp only [Doc.step, Doc.at, Doc.on, Doc.object, Doc.nodeOf] at h1 ⊢ <;> rw [h1] <;> rfl

omit hk in
theorem readsEntry_blank {b : Str} {p : Iri} (hn : env.opts.nest = false) (h : isLabel b = true) :
    ReadsEntry env d ('_' :: ':' :: b) p (.blank b) :=
  readsEntry_of (x := .blank b) rfl (by simp) (by simp [hn]) fun _ _ _ _ =>
    ⟨_, Settles.blank h rfl, fun _ _ => rfl⟩

theorem readsEntry_lit {l : Literal} {t : Str} {p : Iri} (h : LiteralReadable env l)
    (ht : writeLiteral env l = .ok t) : ReadsEntry env d t p (.lit l) := by
  have hbt : ∀ t : DataType, turtleBare t = true ↔ t ∈ bareTypes := by
    intro t; cases t <;> simp [turtleBare, bareTypes]
  obtain ⟨lex, dt, lang⟩ := l
  rcases h with ⟨h1, h2, h3⟩ | ⟨ty, hty, hdt, hsome⟩
  · simp only at h1 h2 h3
    cases dt with
    | some ty =>
      obtain ⟨rfl, h4, h5, h6⟩ := h2 ty rfl
      have hb : turtleBare ty = false := by
        rw [Bool.eq_false_iff]; intro hb; exact h5 ((hbt ty).1 hb)
      obtain ⟨s, hs, hf⟩ := h6
      simp only [writeLiteral, h4, hb, if_false, turtleSuffix, hs, Run.ok_bind, Run.ok.injEq, Bool.false_eq_true] at ht
      subst ht
      refine readsEntry_of (x := .lit lex ty.asIri.text none) (by simp [objectSays, literalSays, h5, literalNode])
        (by simp) (by simp) fun n out N st => ?_
      obtain ⟨tok, g1, g2, g3⟩ := hf.tok (hk.count n)
      refine ⟨d.on n (out ++ [⟨N, (verbSays p).text, .lit lex ty.asIri.text none⟩]) (.pair N (verbSays p).text :: st) .after, ?_,
        fun _ _ => rfl⟩
      refine Settles.string_then (d₁ := d.on n out (.pair N (verbSays p).text :: st) (.string lex)) h1 rfl (by decide) ?_
      refine Reads.then_settles (s := str! "^^") (d' := d.on n out (.pair N (verbSays p).text :: st) (.typeOf lex))
        (Reads.type rfl) ?_
      refine g3 _ _ ?_
      have g1 := g1 out (.pair N (verbSays p).text :: st) (.typeOf lex)
      simp only [Doc.step, Doc.at, Doc.on] at g1 ⊢
      rw [g1]; rfl
    | none =>
      cases lang with
      | some g =>
        simp only [writeLiteral, turtleSuffix, Run.ok_bind, Run.ok.injEq] at ht
        subst ht
        refine readsEntry_of (x := .lit lex (rdfText (str! "langString")) (some g)) rfl (by simp) (by simp)
          fun n out N st => ?_
        refine ⟨d.on n (out ++ [⟨N, (verbSays p).text, .lit lex (rdfText (str! "langString")) (some g)⟩])
          (.pair N (verbSays p).text :: st) .after, ?_, fun _ _ => rfl⟩
        refine Settles.string_then (d₁ := d.on n out (.pair N (verbSays p).text :: st) (.string lex)) h1 rfl (by decide) ?_
        exact Settles.at (h3 g rfl) rfl
      | none =>
        simp only [writeLiteral, turtleSuffix, Run.ok_bind, Run.ok.injEq] at ht
        subst ht
        refine readsEntry_of (x := .lit lex (xsdText (str! "string")) none) rfl (by simp) (by simp)
          fun n out N st => ?_
        refine ⟨d.on n out (.pair N (verbSays p).text :: st) (.string lex), Settles.string h1 rfl, ?_⟩
        intro x hx
        simp only [List.mem_cons, List.not_mem_nil, or_false] at hx
        rcases hx with rfl | rfl | rfl | rfl <;> rfl
  · simp only at hdt hsome
    subst hdt
    obtain ⟨u, hu⟩ := Option.isSome_iff_exists.1 hsome
    have hb : turtleBare ty = true := (hbt ty).2 hty
    have hi : ty ≠ .iri := by rintro rfl; revert hb; decide
    simp only [writeLiteral, hi, hb, if_false, if_true, Run.ok.injEq] at ht
    subst ht
    refine readsEntry_of (x := .lit lex u none) (by simp [objectSays, literalSays, hty, hu]) (by simp) (by simp)
      fun n out N st => ?_
    exact ⟨d.on n (out ++ [⟨N, (verbSays p).text, .lit lex u none⟩]) (.pair N (verbSays p).text :: st) .after, Settles.value hu rfl,
      fun _ _ => rfl⟩

end

/-- A blank node without statements. -/
theorem readsEntry_empty {env : TurtleEnv} {d : Doc} {b : Str} {p : Iri} (hn : env.opts.nest = true) :
    ReadsEntry env d (str! "[]") p (.blank b) := by
  intro n N S hm
  refine ⟨[b], [⟨N, (verbSays p).text, .fresh n⟩], Part.single hm ⟨fun σ hσ => ?_, fun _ _ _ => ⟨n, rfl⟩, by simp [hn]⟩ ?_, fun out st => ?_⟩
  · have := hσ 0 b rfl
    simp only [renameNode, objectSays, objectNode]
    rw [← this]; rfl
  · rintro k e; cases e; simp
  · refine ⟨d.on (n + 1) (out ++ [⟨N, (verbSays p).text, .fresh n⟩]) (.pair N (verbSays p).text :: st) .after, ?_, fun _ _ => rfl⟩
    refine Reads.settles ?_
    refine Reads.append (s := ['[']) (t := [']']) (Reads.punct (t := .lbr) (by decide +kernel) rfl)
      (Reads.punct (t := .rbr) (by decide +kernel) ?_)
    rfl

/-- The statements of a nested blank node. -/
theorem Part.nested {env : TurtleEnv} {N : Node} {S : Subject} {p : Iri} {b : Str} {E : List (Iri × Object)}
    {n : Nat} {τ : List Str} {L : List Triple} (hm : Stmt.mk S p (.blank b) ∈ env.graph.stmts)
    (hn : env.opts.nest = true) (hb : env.graph.containsSubject (.blank b) = true)
    (h : Part env (.fresh n) (.blank b) E (n + 1) τ L) :
    Part env N S [(p, .blank b)] n (b :: τ) (L ++ [⟨N, (verbSays p).text, .fresh n⟩]) := by
  have ag : ∀ {σ : Nat → Str}, Agree σ n (b :: τ) → σ n = b ∧ Agree σ (n + 1) τ := by
    intro σ hσ
    exact ⟨hσ 0 b rfl, hσ.right (τ := [b])⟩
  refine ⟨?_, ?_, ?_, ?_, ?_⟩
  · intro σ hσ hN z hz
    obtain ⟨h1, h2⟩ := ag hσ
    rcases List.mem_append.1 hz with hz | hz
    · exact h.sound σ h2 (by simp [renameNode, h1, subjectNode]) z hz
    · simp only [List.mem_singleton] at hz
      subst hz
      refine ⟨_, hm, ?_⟩
      have e : renameNode σ (.fresh n) = .blank b := by simp [renameNode, h1]
      simp only [renameTriple, hN, e]; rfl
  · intro e he
    simp only [List.mem_singleton] at he
    subst he
    exact ⟨.fresh n, by simp, fun σ hσ => by simp [renameNode, (ag hσ).1, objectSays, objectNode],
      fun _ _ _ => ⟨n, rfl⟩, by simp [hn]⟩
  · rw [List.filterMap_append]
    refine List.nodup_append.2 ⟨h.once, by simp [freshObj, freshNode], ?_⟩
    intro x hx y hy
    have := (h.range x hx).1
    simp [freshObj, freshNode] at hy
    omega
  · intro k hk
    rw [List.filterMap_append] at hk
    simp only [List.length_cons]
    rcases List.mem_append.1 hk with hk | hk
    · have := h.range k hk; omega
    · simp [freshObj, freshNode] at hk; omega
  · intro hf
    have := hf (p, .blank b) (by simp) hn b rfl
    rw [hb] at this; cases this

/-- What is needed of the function that writes objects. -/
def WritesEntry (env : TurtleEnv) (d : Doc) (wo : Nat → TurtleFlags → Object → Step) (p : Iri) (o : Object) :
    Prop :=
  ∀ w f e t e', 0 < w → 0 < e → wo w f o e = .ok (t, e') → e' = e ∧ ReadsEntry env d t p o

/-! ### Objects of a predicate -/

/-- How the predicates of a subject end: with a full stop, or before a closing bracket. -/
def Ends (d : Doc) (top : Bool) (n : Nat) (out : List Triple) (N : Node) (st : List Frame) (d₀ : Doc) (t : Str) :
    Prop :=
  if top then st = [] → Reads d₀ t (d.on n out [] .start)
  else ∃ d₁ p, Settles d₀ t d₁ ∧ d₁.step .rbr = (d.on n out (.pair N p :: st) .after).step .rbr

theorem Ends.prepend {d : Doc} {top : Bool} {n : Nat} {out : List Triple} {N : Node} {st : List Frame}
    {d₀ d₁ : Doc} {s t : Str} (h : Reads d₀ s d₁) (h' : Ends d top n out N st d₁ t) :
    Ends d top n out N st d₀ (s ++ t) := by
  unfold Ends at *
  split
  · rename_i ht; rw [if_pos ht] at h'; exact fun e => h.append (h' e)
  · rename_i ht
    rw [if_neg ht] at h'
    obtain ⟨d₂, p, h1, h2⟩ := h'
    exact ⟨d₂, p, h.then_settles h1, h2⟩

theorem writeObjects_entries {env : TurtleEnv} {d : Doc} {wo : Nat → TurtleFlags → Object → Step} {w m e : Nat}
    {f : TurtleFlags} {N : Node} {S : Subject} {p : Iri} {os : List Object} (hn : os ≠ [])
    (ho : ∀ o ∈ os, WritesEntry env d wo p o) (hm : ∀ o ∈ os, Stmt.mk S p o ∈ env.graph.stmts) (hw : 0 < w)
    (he : w ≤ e) {t : Str} {e' : Nat} (h : writeObjects wo w m f os e = .ok (t, e')) (n : Nat) :
    e' = (if f.lastSubject then e - w else e) ∧ ∃ τ L, Part env N S (os.map fun o => (p, o)) n τ L ∧
      ∀ out st, if f.lastSubject
        then Ends d (decide (e - w = 0)) (n + τ.length) (out ++ L) N st (d.on n out (.pair N (verbSays p).text :: st) .object) t
        else Reads (d.on n out (.pair N (verbSays p).text :: st) .object) t
          (d.on (n + τ.length) (out ++ L) st (.verb N true)) := by
  induction os generalizing n t with
  | nil => exact absurd rfl hn
  | cons o os ih =>
    obtain ⟨t₁, e₁, t₂, h1, h2, rfl⟩ := Step.andThen_ok.1 h
    obtain ⟨t₃, e₂, t₄, h3, h4, rfl⟩ := Step.andThen_ok.1 h1
    obtain ⟨rfl, hr⟩ := ho o (by simp) _ _ _ _ _ hw (by omega) h3
    obtain ⟨τ, L, hP, hr⟩ := hr n N S (hm o (by simp))
    cases os with
    | nil =>
      obtain ⟨rfl, rfl⟩ := nop_eq h2
      simp only [List.isEmpty_nil, if_true] at h4
      rw [List.append_nil]
      simp only [List.map_cons, List.map_nil]
      by_cases hls : f.lastSubject
      · simp only [hls, if_true] at h4 ⊢
        obtain ⟨_, e₃, _, h5, h6, rfl⟩ := Step.andThen_ok.1 h4
        obtain ⟨rfl, -, rfl⟩ := outdent_eq h5
        by_cases h0 : e₂ - w = 0
        · rw [if_pos h0] at h6
          obtain ⟨_, _, _, h7, h8, rfl⟩ := Step.andThen_ok.1 h6
          obtain ⟨rfl, rfl⟩ := text_eq h7
          obtain ⟨rfl, he'⟩ := newLine_eq h8
          refine ⟨he', τ, L, hP, fun out st => ?_⟩
          unfold Ends
          rw [if_pos (by simpa using h0)]
          rintro rfl
          obtain ⟨d₁, hs, hx⟩ := hr out []
          have hdot : d₁.step .dot = some (d.on (n + τ.length) (out ++ L) [] .start) := hx .dot (by simp)
          have r1 : Settles d₁ (str! " .") (d.on (n + τ.length) (out ++ L) [] .start) :=
            Reads.then_settles (s := [' ']) (d' := d₁) (Reads.white (by decide))
              (Settles.word (ts := [.dot]) (by simp) (by decide) (by decide +kernel) (by simp [Doc.steps, hdot]))
          have r2 : ∃ c r, (if f.sorted then [' '] else '\n' :: List.replicate (e₂ - w) ' ') = c :: r ∧ c ∈ delims := by
            split
            · exact ⟨_, _, rfl, by decide⟩
            · exact ⟨_, _, rfl, by decide⟩
          have hwh := white_newLine f (e₂ - w)
          obtain ⟨c, r, hcr, hcd⟩ := r2
          simp only [hcr] at hwh ⊢
          have r3 := r1.reads hcd (Reads.white hwh)
          exact hs.reads (c := ' ') (by decide) r3
        · rw [if_neg h0] at h6
          obtain ⟨rfl, rfl⟩ := nop_eq h6
          refine ⟨rfl, τ, L, hP, fun out st => ?_⟩
          unfold Ends
          rw [if_neg (by simpa using h0)]
          obtain ⟨d₁, hs, hx⟩ := hr out st
          exact ⟨d₁, (verbSays p).text, by simpa using hs, hx .rbr (by simp)⟩
      · simp only [hls, if_false, Bool.false_eq_true] at h4 ⊢
        obtain ⟨_, e₃, _, h5, h6, rfl⟩ := Step.andThen_ok.1 h4
        obtain ⟨rfl, rfl⟩ := nop_eq h5
        rw [if_neg (by omega)] at h6
        obtain ⟨rfl, he'⟩ := text_eq h6
        refine ⟨he', τ, L, hP, fun out st => ?_⟩
        obtain ⟨d₁, hs, hx⟩ := hr out st
        have hsemi : d₁.step .semi = some (d.on (n + τ.length) (out ++ L) st (.verb N true)) := hx .semi (by simp)
        refine hs.reads (c := ' ') (t := [';']) (by decide) ?_
        exact (Reads.white (t := [' ']) (by decide)).append (Reads.punct (c := ';') (by decide +kernel) hsemi)
    | cons o' os =>
      simp only [List.isEmpty_cons, if_false, Bool.false_eq_true] at h4
      obtain ⟨_, e₃, t₅, h5, h6, rfl⟩ := Step.andThen_ok.1 h4
      obtain ⟨rfl, rfl⟩ := text_eq h5
      have hws : (∀ c ∈ t₅, white c = true) ∧ e₁ = e₃ := by
        split at h6
        · obtain ⟨rfl, rfl⟩ := nop_eq h6
          simp
        · obtain ⟨_, _, _, g1, g2, rfl⟩ := Step.andThen_ok.1 h6
          obtain ⟨_, _, _, g3, g4, rfl⟩ := Step.andThen_ok.1 g1
          obtain ⟨_, _, _, g5, g6, rfl⟩ := Step.andThen_ok.1 g3
          obtain ⟨rfl, rfl⟩ := indent_eq g5
          obtain ⟨rfl, rfl⟩ := newLine_eq g6
          obtain ⟨rfl, -, rfl⟩ := outdent_eq g2
          split at g4
          · obtain ⟨rfl, rfl⟩ := text_eq g4
            refine ⟨?_, by omega⟩
            intro c hc
            simp only [List.nil_append, List.append_nil, List.mem_append] at hc
            rcases hc with hc | hc
            · exact white_newLine _ _ c hc
            · exact white_padding _ c hc
          · obtain ⟨rfl, rfl⟩ := nop_eq g4
            refine ⟨?_, by omega⟩
            intro c hc
            simp only [List.nil_append, List.append_nil] at hc
            exact white_newLine _ _ c hc
      obtain ⟨hws, rfl⟩ := hws
      obtain ⟨q1, τ', L', hP', hr'⟩ := ih (by simp) (fun o ho' => ho o (List.mem_cons_of_mem _ ho'))
        (fun o ho' => hm o (List.mem_cons_of_mem _ ho')) h2 (n + τ.length)
      refine ⟨q1, τ ++ τ', L ++ L', hP.append hP', fun out st => ?_⟩
      obtain ⟨d₁, hs, hx⟩ := hr out st
      have hcomma : d₁.step .comma = some (d.on (n + τ.length) (out ++ L) (.pair N (verbSays p).text :: st) .object) :=
        hx .comma (by simp)
      have r1 : Reads d₁ (',' :: t₅) (d.on (n + τ.length) (out ++ L) (.pair N (verbSays p).text :: st) .object) :=
        reads_punct_white (by decide +kernel) hws hcomma
      have r3 := hs.reads (by decide) r1
      have r4 := hr' (out ++ L) st
      rw [List.length_append, ← Nat.add_assoc, ← List.append_assoc]
      split
      · rename_i hl; rw [if_pos hl] at r4; exact Ends.prepend r3 r4
      · rename_i hl; rw [if_neg hl] at r4; exact r3.append r4

/-! ### Verbs -/

/-- A verb is expected. -/
def IsVerb (e : Expect) (N : Node) : Prop := e = .bracket N ∨ ∃ more, e = .verb N more

theorem step_verb {d : Doc} {n : Nat} {out : List Triple} {st : List Frame} {e : Expect} {N : Node} {t : Tok}
    (he : IsVerb e N) (h : t = .a ∨ (∃ s, t = .iri s) ∨ ∃ p l, t = .pname p l) (i : Str)
    (hi : t ≠ .a → (d.on n out st e).iriOf t = some i) (ha : t = .a → i = rdfText (str! "type")) :
    (d.on n out st e).step t = some (d.on n out (.pair N i :: st) .object) := by
  have key : ∀ more, (d.on n out st e).verb N more t = some (d.on n out (.pair N i :: st) .object) := by
    intro more
    rcases h with rfl | ⟨s, rfl⟩ | ⟨p, l, rfl⟩
    · rw [ha rfl]; rfl
    · have := hi (by simp)
      simp only [Doc.verb, Doc.on] at this ⊢
      rw [this]; rfl
    · have := hi (by simp)
      simp only [Doc.verb, Doc.on] at this ⊢
      rw [this]; rfl
  rcases he with rfl | ⟨more, rfl⟩
  · have h1 : t ≠ .rbr := by rcases h with rfl | ⟨s, rfl⟩ | ⟨p, l, rfl⟩ <;> simp
    have : (d.on n out st (.bracket N)).step t = (d.on n out st (.bracket N)).verb N false t := by
      simp only [Doc.step, Doc.on, if_neg h1]
    rw [this]; exact key false
  · exact key more

theorem settles_verb_on {env : TurtleEnv} {d : Doc} (hk : Knows env.opts env.graph.mappings d) {i : Iri} {s : Str}
    (h : IriFaithful env i) (hs : compressIri env i = .ok s) {e : Expect} {N : Node} (he : IsVerb e N) (n : Nat)
    (out : List Triple) (st : List Frame) :
    Settles (d.on n out st e) s (d.on n out (.pair N i.text :: st) .object) := by
  obtain ⟨s', hs', hf⟩ := h
  rw [hs] at hs'; cases hs'
  obtain ⟨t, h1, h2, h3⟩ := hf.tok (hk.count n)
  refine h3 _ _ ?_
  refine step_verb he (.inr h2) i.text (fun _ => h1 out st e) ?_
  rintro rfl
  rcases h2 with ⟨r, e⟩ | ⟨p, l, e⟩ <;> cases e

theorem settles_a_on {d : Doc} {e : Expect} {N : Node} (he : IsVerb e N) (n : Nat)
    (out : List Triple) (st : List Frame) :
    Settles (d.on n out st e) (str! "a") (d.on n out (.pair N (rdfText (str! "type")) :: st) .object) :=
  Settles.a (step_verb he (.inl rfl) _ (by simp) (by simp))

theorem writeVerb_on {env : TurtleEnv} {d : Doc} (hk : Knows env.opts env.graph.mappings d) {p : Iri}
    {m e e' : Nat} {f : TurtleFlags} {t : Str} (hf : IriFaithful env p) (hm : p ∉ mistyped)
    (hw : Wide env m p) (h : writeVerb env (groupOf p) p m f e = .ok (t, e')) :
    e' = e ∧ ∃ c r, t = c :: r ∧ c ∈ delims ∧ ∀ n out st x N, IsVerb x N →
      Reads (d.on n out st x) t (d.on n out (.pair N p.text :: st) .object) := by
  have nl : ∀ {s u : Str} {a b : Nat}, newLine f a = .ok (u, b) → (m = 0 ∨ s.length < m) →
      (∀ n out st x N, IsVerb x N → Settles (d.on n out st x) s (d.on n out (.pair N p.text :: st) .object)) →
      ∃ c r, u ++ padded s m = c :: r ∧ c ∈ delims ∧ ∀ n out st x N, IsVerb x N →
        Reads (d.on n out st x) (u ++ padded s m) (d.on n out (.pair N p.text :: st) .object) := by
    intro s u a b hn hl hs
    obtain ⟨rfl, -⟩ := newLine_eq hn
    have hwh := white_newLine f a
    have hr : ∀ n out st x N, IsVerb x N →
        Reads (d.on n out st x) ((if f.sorted then [' '] else '\n' :: List.replicate a ' ') ++
          padded s m) (d.on n out (.pair N p.text :: st) .object) :=
      fun n out st x N hx => (Reads.white hwh).append (settles_padded hl (hs n out st x N hx))
    cases hsort : f.sorted with
    | true =>
      simp only [hsort] at hr ⊢
      exact ⟨' ', _, rfl, by decide, hr⟩
    | false =>
      simp only [hsort] at hr ⊢
      exact ⟨'\n', _, rfl, by decide, hr⟩
  obtain ⟨sp, hsp, hst⟩ := hf
  have hlen : m = 0 ∨ sp.length < m := by
    rcases hw with h | h
    · exact .inl h
    · exact .inr (Nat.lt_of_le_of_lt (length_le_byteLen sp) (h sp hsp))
  unfold writeVerb at h
  by_cases hg : groupOf p = .type
  · rw [if_pos hg] at h
    have hp := groupOf_type hg hm
    have key : ∀ s, (if env.opts.typeA = true then Run.ok (str! "a") else compressIri env rdfType) = .ok s →
        (m = 0 ∨ s.length < m) ∧ ∀ n out st x N, IsVerb x N →
          Settles (d.on n out st x) s (d.on n out (.pair N p.text :: st) .object) := by
      intro s hs
      split at hs
      · cases hs
        refine ⟨?_, fun n out st x N hx => ?_⟩
        · have := StandsFor_pos hst
          rcases hlen with h | h
          · exact .inl h
          · right; simp only [List.length_cons, List.length_nil]; omega
        · rw [hp]; exact settles_a_on hx n out st
      · rw [← hp, hsp] at hs
        cases hs
        exact ⟨hlen, fun n out st x N hx => settles_verb_on hk ⟨sp, hsp, hst⟩ hsp hx n out st⟩
    split at h
    · obtain ⟨h1, rfl⟩ := run_eq h
      obtain ⟨s, h2, h3⟩ := Run.bind_ok.1 h1
      simp only [Run.ok.injEq] at h3
      subst h3
      refine ⟨rfl, ' ', _, rfl, by decide, fun n out st x N hx => ?_⟩
      have := (key s h2).2 n out st x N hx
      exact Reads.append (s := [' ']) (Reads.white (by decide))
        (this.reads (c := ' ') (t := []) (by decide) (Reads.white (by decide)))
    · obtain ⟨u, b, v, h1, h2, rfl⟩ := Step.andThen_ok.1 h
      obtain ⟨h3, rfl⟩ := run_eq h2
      obtain ⟨s, h4, h5⟩ := Run.bind_ok.1 h3
      simp only [Run.ok.injEq] at h5
      subst h5
      have hb := (newLine_eq h1).2
      exact ⟨hb, nl h1 (key s h4).1 (key s h4).2⟩
  · rw [if_neg hg] at h
    obtain ⟨u, b, v, h1, h2, rfl⟩ := Step.andThen_ok.1 h
    obtain ⟨h3, rfl⟩ := run_eq h2
    rw [hsp] at h3
    simp only [Run.ok_bind, Run.ok.injEq] at h3
    subst h3
    have hb := (newLine_eq h1).2
    exact ⟨hb, nl h1 hlen fun n out st x N hx => settles_verb_on hk ⟨sp, hsp, hst⟩ hsp hx n out st⟩

theorem wide_type {env : TurtleEnv} {m : Nat} {p : Iri} (hf : VerbReadable env p) (hm : p ∈ mistyped)
    (hw : Wide env m p) : Wide env m rdfType := by
  rcases hw with h | h
  · exact .inl h
  · obtain ⟨⟨s', hs', -⟩, h2⟩ := hf
    exact .inr fun s hs => Nat.lt_of_le_of_lt ((h2 hm).2 s s' hs hs') (h s' hs')

theorem writeVerb_says {env : TurtleEnv} {d : Doc} (hk : Knows env.opts env.graph.mappings d) {p : Iri}
    {m e e' : Nat} {f : TurtleFlags} {t : Str} (hf : VerbReadable env p)
    (hw : Wide env m p) (h : writeVerb env (groupOf p) p m f e = .ok (t, e')) :
    e' = e ∧ ∃ c r, t = c :: r ∧ c ∈ delims ∧ ∀ n out st x N, IsVerb x N →
      Reads (d.on n out st x) t (d.on n out (.pair N (verbSays p).text :: st) .object) := by
  by_cases hm : p ∈ mistyped
  · rw [verbSays, if_pos hm]
    have h1 : ∀ p ∈ mistyped, groupOf p = .type := by decide +kernel
    have h2 : groupOf rdfType = .type := by decide +kernel
    refine writeVerb_on hk (hf.2 hm).1 (by decide +kernel) (wide_type hf hm hw) (m := m) (f := f) ?_
    rw [h1 p hm] at h
    rw [h2, ← h]
    simp [writeVerb]
  · rw [verbSays, if_neg hm]
    exact writeVerb_on hk hf.1 hm hw h

/-! ### Predicates of a subject -/

theorem writePredicateLoop_entries {env : TurtleEnv} {d : Doc} (hfair : env.orders.Fair)
    (hk : Knows env.opts env.graph.mappings d) {wo : Nat → TurtleFlags → Object → Step} {w m e : Nat}
    (hw : 0 < w) (he : w ≤ e) {s : Subject} {f : TurtleFlags} {total : Nat} (N : Node) (l : List Iri) (hl : l ≠ [])
    (hp : ∀ p ∈ l, VerbReadable env p ∧ Wide env m p ∧ p ∈ env.graph.predicatesFor s)
    (ho : ∀ p o, Stmt.mk s p o ∈ env.graph.stmts → WritesEntry env d wo p o)
    (count : Nat) (hc : count + l.length = total) {t : Str} {e' : Nat}
    (h : writePredicateLoop env wo w s m total f count (l.map fun p => (groupOf p, p)) e = .ok (t, e')) :
    e' = e - w ∧ (∃ c r, t = c :: r ∧ c ∈ delims) ∧ ∃ E : List (Iri × Object),
      (∃ F : Iri → List Object, (∀ p, (F p).Perm (env.graph.objectsFor s p)) ∧
        E = l.flatMap fun p => (F p).map fun o => (p, o)) ∧
      ∀ n, ∃ τ L, Part env N s E n τ L ∧ ∀ out st x, IsVerb x N →
        Ends d (decide (e - w = 0)) (n + τ.length) (out ++ L) N st (d.on n out st x) t := by
  have hF : ∀ {p : Iri} {os : List Object}, sortedObjects env wo s p = .ok os →
      os.Perm (env.graph.objectsFor s p) := fun h => (sortedObjects_perm h).trans (hfair.2.2 _ _ _)
  suffices H : e' = e - w ∧ (∃ c r, t = c :: r ∧ c ∈ delims) ∧ ∃ E : List (Iri × Object),
      E = (l.flatMap fun p =>
        ((match sortedObjects env wo s p with | .ok os => os | _ => env.graph.objectsFor s p)).map fun o => (p, o)) ∧
      ∀ n, ∃ τ L, Part env N s E n τ L ∧ ∀ out st x, IsVerb x N →
        Ends d (decide (e - w = 0)) (n + τ.length) (out ++ L) N st (d.on n out st x) t by
    obtain ⟨h1, h2, E, h3, h4⟩ := H
    refine ⟨h1, h2, E, ⟨_, fun p => ?_, h3⟩, h4⟩
    split
    · rename_i os hos; exact hF hos
    · exact .refl _
  induction l generalizing count t e' with
  | nil => exact absurd rfl hl
  | cons p l ih =>
    obtain ⟨t₁, e₁, t₂, h1, h2, rfl⟩ := Step.andThen_ok.1 h
    obtain ⟨t₃, e₂, t₄, h3, h4, rfl⟩ := Step.andThen_ok.1 h1
    obtain ⟨q1, q3, q4⟩ := hp p (by simp)
    obtain ⟨rfl, c, r, rfl, hcd, hv⟩ := writeVerb_says hk q1 q3 h3
    obtain ⟨os, h5, h6⟩ := Run.bind_ok.1 h4
    have hmem : ∀ o, o ∈ os ↔ Stmt.mk s p o ∈ env.graph.stmts := fun o => by
      rw [(hF h5).mem_iff, mem_objectsFor]
    have hos : os ≠ [] := by
      obtain ⟨o, ho⟩ := mem_predicatesFor.1 q4
      intro e0; have := (hmem o).2 ho; rw [e0] at this; simp at this
    have key := fun n => writeObjects_entries (N := N) (S := s) hos (fun o h => ho p o ((hmem o).1 h))
      (fun o h => (hmem o).1 h) hw he h6 n
    cases l with
    | nil =>
      obtain ⟨rfl, rfl⟩ := nop_eq h2
      have hlast : (count + 1 == total) = true := by simp at hc; simp [hc]
      simp only [hlast, if_true] at key
      refine ⟨(key 0).1, ⟨c, _, rfl, hcd⟩, os.map fun o => (p, o), by simp [h5], fun n => ?_⟩
      obtain ⟨-, τ, L, hP, hr⟩ := key n
      refine ⟨τ, L, hP, fun out st x hx => ?_⟩
      rw [List.append_nil]
      exact Ends.prepend (hv n out st x N hx) (hr out st)
    | cons p' l =>
      have hlast : (count + 1 == total) = false := by simp at hc ⊢; omega
      simp only [hlast, if_false, Bool.false_eq_true] at key
      obtain rfl := (key 0).1
      obtain ⟨rfl, -, E, hE, hr⟩ := ih (by simp)
        (fun q hq => hp q (List.mem_cons_of_mem _ hq)) (count + 1) (by simp at hc ⊢; omega) h2
      refine ⟨rfl, ⟨c, _, rfl, hcd⟩, (os.map fun o => (p, o)) ++ E, ?_, fun n => ?_⟩
      · rw [List.flatMap_cons, ← hE, h5]
      · obtain ⟨-, τ, L, hP, hr1⟩ := key n
        obtain ⟨τ', L', hP', hr2⟩ := hr (n + τ.length)
        refine ⟨τ ++ τ', L ++ L', hP.append hP', fun out st x hx => ?_⟩
        rw [List.length_append, ← Nat.add_assoc, ← List.append_assoc]
        exact Ends.prepend ((hv n out st x N hx).append (hr1 out st)) (hr2 _ _ _ (.inr ⟨true, rfl⟩))

theorem objectsFor_nodup (g : Graph) (s : Subject) (p : Iri) : (g.objectsFor s p).Nodup := setOf_nodup _

theorem predicatesFor_nodup (g : Graph) (s : Subject) : (g.predicatesFor s).Nodup := setOf_nodup _

/-- The predicates and objects of a subject. -/
def EntriesOf (g : Graph) (s : Subject) (E : List (Iri × Object)) : Prop :=
  E.Nodup ∧ ∀ e, e ∈ E ↔ Stmt.mk s e.1 e.2 ∈ g.stmts

theorem entriesOf {g : Graph} {s : Subject} {l : List Iri} (hl : l.Perm (g.predicatesFor s))
    {F : Iri → List Object} (hF : ∀ p, (F p).Perm (g.objectsFor s p)) :
    EntriesOf g s (l.flatMap fun p => (F p).map fun o => (p, o)) := by
  have hn : l.Nodup := hl.nodup_iff.2 (predicatesFor_nodup g s)
  refine ⟨?_, ?_⟩
  · rw [List.nodup_flatMap]
    refine ⟨fun p _ => ?_, ?_⟩
    · refine List.Nodup.map ?_ ((hF p).nodup_iff.2 (objectsFor_nodup g s p))
      intro a b h; exact (Prod.mk.inj h).2
    · refine hn.imp ?_
      intro a b hab x hx hy
      obtain ⟨o, -, rfl⟩ := List.mem_map.1 hx
      obtain ⟨o', -, e⟩ := List.mem_map.1 hy
      exact hab (Prod.mk.inj e).1.symm
  · rintro ⟨p, o⟩
    simp only [List.mem_flatMap, List.mem_map]
    constructor
    · rintro ⟨q, hq, o', ho', e⟩
      obtain ⟨rfl, rfl⟩ := Prod.mk.inj e
      exact mem_objectsFor.1 ((hF q).mem_iff.1 ho')
    · intro h
      exact ⟨p, hl.mem_iff.2 (mem_predicatesFor.2 ⟨o, h⟩), o, (hF p).mem_iff.2 (mem_objectsFor.2 h), rfl⟩

theorem writePredicates_entries {env : TurtleEnv} {d : Doc} (hfair : env.orders.Fair)
    (hk : Knows env.opts env.graph.mappings d) {wo : Nat → TurtleFlags → Object → Step} {w e : Nat}
    (hw : 0 < w) (he : w ≤ e) {s : Subject} {f : TurtleFlags} (N : Node) (hs : env.graph.containsSubject s)
    (hst : ∀ t ∈ env.graph.stmts, StmtReadable env t)
    (ho : ∀ p o, Stmt.mk s p o ∈ env.graph.stmts → WritesEntry env d wo p o) {t : Str} {e' : Nat}
    (h : writePredicates env wo w f s e = .ok (t, e')) :
    e' = e - w ∧ (∃ c r, t = c :: r ∧ c ∈ delims) ∧ ∃ E, EntriesOf env.graph s E ∧
      ∀ n, ∃ τ L, Part env N s E n τ L ∧ ∀ out st x, IsVerb x N →
        Ends d (decide (e - w = 0)) (n + τ.length) (out ++ L) N st (d.on n out st x) t := by
  obtain ⟨p₀, o₀, h0⟩ := containsSubject_iff.1 hs
  unfold writePredicates at h
  dsimp only at h
  obtain ⟨m, h7, h8⟩ := Run.bind_ok.1 h
  obtain ⟨l, h9, h10⟩ := Run.bind_ok.1 h8
  have hperm := predicateSequence_perm h9
  have hl : l = (l.map (·.2)).map fun p => (groupOf p, p) := by
    rw [List.map_map]
    refine (List.map_id l).symm.trans (List.map_congr_left ?_)
    intro x hx
    obtain ⟨p, -, rfl⟩ := List.mem_map.1 (hperm.mem_iff.1 hx)
    rfl
  have hperm' : (l.map (·.2)).Perm (env.graph.predicatesFor s) := by
    have := hperm.map (·.2)
    rw [List.map_map] at this
    simp only [Function.comp_def, List.map_id'] at this
    exact this.trans (hfair.2.1 s _)
  have hmem : ∀ p, p ∈ l.map (·.2) ↔ p ∈ env.graph.predicatesFor s := fun p => hperm'.mem_iff
  have hlen : (l.map (·.2)).length = (env.orders.pred s (env.graph.predicatesFor s)).length := by
    rw [List.length_map, hperm.length_eq, List.length_map]
  rw [hl] at h10
  obtain ⟨h1, h2, E, ⟨F, hF, rfl⟩, h3⟩ := writePredicateLoop_entries hfair hk hw he N (l.map (·.2))
    (by
      intro e0
      have := (hmem p₀).2 (mem_predicatesFor.2 ⟨o₀, h0⟩)
      rw [e0] at this; simp at this)
    (by
      intro p hp
      have hp' := (hmem p).1 hp
      obtain ⟨o, ho⟩ := mem_predicatesFor.1 hp'
      have := (hst _ ho).2.1
      exact ⟨this, wide_of h7 ((hfair.2.1 s _).mem_iff.2 hp'), hp'⟩)
    ho 0 (by rw [Nat.zero_add, hlen]) h10
  exact ⟨h1, h2, _, entriesOf hperm' hF, h3⟩

/-- Objects, at any depth. -/
theorem writesEntry {env : TurtleEnv} {d : Doc} (hfair : env.orders.Fair)
    (hk : Knows env.opts env.graph.mappings d) (hst : ∀ t ∈ env.graph.stmts, StmtReadable env t) (k : Nat)
    (p : Iri) (o : Object) (ho : ObjectReadable env o) : WritesEntry env d (writeObject env k) p o := by
  induction k generalizing p o with
  | zero => intro w f e t e' _ _ hw; simp [writeObject] at hw
  | succ k ih =>
    intro w f e t e' hw he h
    cases o with
    | blank b =>
      simp only [writeObject, writeObjectStep] at h
      split at h
      · rename_i hn
        split at h
        · rename_i hb
          obtain ⟨t₁, e₁, t₂, h1, h2, rfl⟩ := Step.andThen_ok.1 h
          obtain ⟨rfl, rfl⟩ := text_eq h2
          obtain ⟨t₃, e₂, t₄, h3, h4, rfl⟩ := Step.andThen_ok.1 h1
          obtain ⟨rfl, rfl⟩ := newLine_eq h4
          obtain ⟨t₅, e₃, t₆, h5, h6, rfl⟩ := Step.andThen_ok.1 h3
          obtain ⟨t₇, e₄, t₈, h7, h8, rfl⟩ := Step.andThen_ok.1 h5
          obtain ⟨rfl, rfl⟩ := indent_eq h7
          obtain ⟨rfl, rfl⟩ := text_eq h8
          refine ⟨?_, ?_⟩
          · have := (writePredicates_entries hfair hk hw (by omega) (.fresh 0) hb hst
              (fun p o hm => ih p o (hst _ hm).2.2) h6).1
            omega
          · intro n N S hm
            obtain ⟨-, -, E, hE, h9⟩ := writePredicates_entries hfair hk hw (by omega) (.fresh n) hb hst
              (fun p o hm => ih p o (hst _ hm).2.2) h6
            obtain ⟨τ, L, hP, h10⟩ := h9 (n + 1)
            refine ⟨b :: τ, L ++ [⟨N, (verbSays p).text, .fresh n⟩], hP.nested hm hn hb, fun out st => ?_⟩
            have h11 := h10 out (.pair N (verbSays p).text :: st) (.bracket (.fresh n)) (.inl rfl)
            unfold Ends at h11
            rw [if_neg (by simp; omega)] at h11
            obtain ⟨d₁, q, g1, g2⟩ := h11
            refine ⟨d.on (n + 1 + τ.length) (out ++ L ++ [⟨N, (verbSays p).text, .fresh n⟩]) (.pair N (verbSays p).text :: st) .after,
              ?_, fun y _ => ?_⟩
            · have hwh := white_newLine f e'
              have r2 : ∃ c r, (if f.sorted then [' '] else '\n' :: List.replicate e' ' ') = c :: r ∧ c ∈ delims := by
                split
                · exact ⟨_, _, rfl, by decide⟩
                · exact ⟨_, _, rfl, by decide⟩
              obtain ⟨c, r, hcr, hcd⟩ := r2
              simp only [hcr] at hwh ⊢
              have r3 : Reads d₁ ((c :: r) ++ [']'])
                  (d.on (n + 1 + τ.length) (out ++ L ++ [⟨N, (verbSays p).text, .fresh n⟩]) (.pair N (verbSays p).text :: st) .after) :=
                (Reads.white hwh).append (Reads.punct (t := .rbr) (by decide +kernel) (by rw [g2]; rfl))
              have r4 := g1.reads hcd r3
              have r5 : Reads (d.on n out (.pair N (verbSays p).text :: st) .object) ['[']
                  (d.on (n + 1) out (.pair N (verbSays p).text :: st) (.bracket (.fresh n))) :=
                Reads.punct (t := .lbr) (by decide +kernel) rfl
              have r6 := (r5.append r4).settles
              simpa using r6
            · rw [List.length_cons, ← List.append_assoc]
              congr 2; omega
        · obtain ⟨rfl, rfl⟩ := text_eq h
          exact ⟨rfl, readsEntry_empty hn⟩
      · rename_i hn
        obtain ⟨rfl, rfl⟩ := text_eq h
        exact ⟨rfl, readsEntry_blank (by simpa using hn) ho⟩
    | res i =>
      obtain ⟨h1, rfl⟩ := run_eq h
      exact ⟨rfl, readsEntry_iri hk ho h1⟩
    | lit l =>
      obtain ⟨h1, rfl⟩ := run_eq h
      exact ⟨rfl, readsEntry_lit hk ho h1⟩
    | coll c => exact ho.elim
    | stmt s => exact ho.elim

/-! ### Documents -/

/-- The triples `L` are read for the statements `Z`. -/
structure Whole (env : TurtleEnv) (Z : List Stmt) (n : Nat) (τ : List Str) (L : List Triple) : Prop where
  sound : ∀ σ, Agree σ n τ → ∀ z ∈ L, ∃ t ∈ env.graph.stmts, renameTriple σ z = tripleWritten t
  full : ∀ t ∈ Z, ∃ x, (⟨subjectNode t.subject, (verbSays t.predicate).text, x⟩ : Triple) ∈ L ∧ Reading env n τ x t.object
  once : (L.filterMap freshObj).Nodup
  range : ∀ k ∈ L.filterMap freshObj, n ≤ k ∧ k < n + τ.length
  flat : (∀ t ∈ Z, Flat env t.object) → List.Forall₂ (fun z t => z.s = subjectNode t.subject ∧
    z.p = (verbSays t.predicate).text ∧ Reading env n τ z.o t.object) L Z

theorem Whole.nil (env : TurtleEnv) (n : Nat) : Whole env [] n [] [] :=
  ⟨by simp, by simp, by simp, by simp, fun _ => .nil⟩

theorem Whole.append {env : TurtleEnv} {Z Z' : List Stmt} {n : Nat}
    {τ τ' : List Str} {L L' : List Triple} (h : Whole env Z n τ L)
    (h' : Whole env Z' (n + τ.length) τ' L') : Whole env (Z ++ Z') n (τ ++ τ') (L ++ L') := by
  have ho := once_append h.once h.range h'.once h'.range
  refine ⟨?_, ?_, ho.1, ?_, ?_⟩
  · intro σ hσ z hz
    rcases List.mem_append.1 hz with hz | hz
    · exact h.sound σ hσ.left z hz
    · exact h'.sound σ hσ.right z hz
  · intro e he
    rcases List.mem_append.1 he with he | he
    · obtain ⟨x, h1, h2⟩ := h.full e he
      exact ⟨x, by simp [h1], h2.left⟩
    · obtain ⟨x, h1, h2⟩ := h'.full e he
      exact ⟨x, by simp [h1], h2.right⟩
  · rw [List.length_append]; exact ho.2
  · intro hf
    refine List.rel_append ?_ ?_
    · exact (h.flat fun e he => hf e (by simp [he])).imp fun _ _ ⟨a, b, c⟩ => ⟨a, b, c.left⟩
    · exact (h'.flat fun e he => hf e (by simp [he])).imp fun _ _ ⟨a, b, c⟩ => ⟨a, b, c.right⟩

theorem Part.whole {env : TurtleEnv} {S : Subject} {E : List (Iri × Object)} {n : Nat} {τ : List Str}
    {L : List Triple} (hS : ∀ u, S ≠ .stmt u) (h : Part env (subjectNode S) S E n τ L) :
    Whole env (E.map fun e => Stmt.mk S e.1 e.2) n τ L := by
  refine ⟨fun σ hσ => h.sound σ hσ ?_, ?_, h.once, h.range, ?_⟩
  · cases S <;> first | rfl | exact absurd rfl (hS _)
  · intro t ht
    obtain ⟨e, he, rfl⟩ := List.mem_map.1 ht
    exact h.full e he
  · intro hf
    rw [List.forall₂_map_right_iff]
    exact h.flat fun e he => hf _ (List.mem_map.2 ⟨e, he, rfl⟩)

/-- The statements of a subject. -/
def StmtsOf (g : Graph) (l : List Subject) (Z : List Stmt) : Prop :=
  Z.Nodup ∧ ∀ t, t ∈ Z ↔ t ∈ g.stmts ∧ t.subject ∈ l

theorem EntriesOf.stmts {g : Graph} {s : Subject} {E : List (Iri × Object)} (h : EntriesOf g s E) :
    StmtsOf g [s] (E.map fun e => Stmt.mk s e.1 e.2) := by
  refine ⟨List.Nodup.map ?_ h.1, ?_⟩
  · intro a b e
    simp only [Stmt.mk.injEq, true_and] at e
    exact Prod.ext e.1 e.2
  · rintro ⟨s', p, o⟩
    simp only [List.mem_map, h.2, Stmt.subject, List.mem_singleton]
    constructor
    · rintro ⟨e, he, h1⟩
      cases h1
      exact ⟨he, rfl⟩
    · rintro ⟨h1, rfl⟩
      exact ⟨(p, o), h1, rfl⟩

theorem StmtsOf.append {g : Graph} {l l' : List Subject} {Z Z' : List Stmt} (h : StmtsOf g l Z)
    (h' : StmtsOf g l' Z') (hd : ∀ s ∈ l, s ∉ l') : StmtsOf g (l ++ l') (Z ++ Z') := by
  refine ⟨List.nodup_append.2 ⟨h.1, h'.1, ?_⟩, ?_⟩
  · rintro a ha b hb rfl
    exact hd _ ((h.2 a).1 ha).2 ((h'.2 a).1 hb).2
  · intro t
    rw [List.mem_append, h.2, h'.2, List.mem_append]
    grind

theorem writeBlock_entries {env : TurtleEnv} {d : Doc} (hfair : env.orders.Fair)
    (hk : Knows env.opts env.graph.mappings d) {k w : Nat} (hw : 0 < w) {s : Subject}
    (hs : env.graph.containsSubject s)
    (hst : ∀ t ∈ env.graph.stmts, StmtReadable env t) {t : Str} {e' : Nat}
    (h : writeBlock env k w s 0 = .ok (t, e')) :
    e' = 0 ∧ ∃ Z, StmtsOf env.graph [s] Z ∧ ∀ n, ∃ τ L, Whole env Z n τ L ∧
      ∀ out, Reads (d.on n out [] .start) t (d.on (n + τ.length) (out ++ L) [] .start) := by
  obtain ⟨t₁, e₁, t₂, h1, h2, rfl⟩ := Step.andThen_ok.1 h
  obtain ⟨rfl, rfl⟩ := text_eq h2
  obtain ⟨t₃, e₂, t₄, h3, h4, rfl⟩ := Step.andThen_ok.1 h1
  obtain ⟨t₅, e₃, t₆, h5, h6, rfl⟩ := Step.andThen_ok.1 h3
  obtain ⟨rfl, rfl⟩ := indent_eq h6
  obtain ⟨p₀, o₀, h0⟩ := containsSubject_iff.1 hs
  have hsf : SubjectFaithful env s := (hst _ h0).1
  -- the subject
  have hsub : e₃ = 0 ∧ ∀ n out, Settles (d.on n out [] .start) t₅ (d.on n out [] (.verb (subjectNode s) false)) := by
    cases s with
    | blank b =>
      simp only [if_true] at h5
      cases h5
      refine ⟨rfl, fun n out => ?_⟩
      exact Reads.then_settles (s := ['\n']) (Reads.white (by decide))
        (reads_subject_blank (d := { d with n := n }) hsf out)
    | res i =>
      obtain ⟨h7, rfl⟩ := run_eq h5
      exact ⟨rfl, fun n out => reads_subject_iri (hk.count n) hsf h7 out⟩
    | stmt s => exact hsf.elim
  obtain ⟨rfl, hsub⟩ := hsub
  rw [Nat.zero_add] at h4
  obtain ⟨h7, ⟨c, r, rfl, hcd⟩, E, hE, h8⟩ := writePredicates_entries hfair hk hw (Nat.le_refl w) (subjectNode s)
    hs hst (fun p o hm => writesEntry hfair hk hst k p o (hst _ hm).2.2) h4
  refine ⟨by omega, _, hE.stmts, fun n => ?_⟩
  obtain ⟨τ, L, hP, h9⟩ := h8 n
  refine ⟨τ, L, hP.whole ?_, fun out => ?_⟩
  · rintro u rfl; exact hsf.elim
  · have h10 := h9 out [] (.verb (subjectNode s) false) (.inr ⟨false, rfl⟩)
    unfold Ends at h10
    rw [if_pos (by simp)] at h10
    have := (hsub n out).reads hcd (h10 rfl)
    simpa using this.append (Reads.white (t := ['\n']) (by decide))

theorem writeNodes_entries {env : TurtleEnv} {d : Doc} (hfair : env.orders.Fair)
    (hk : Knows env.opts env.graph.mappings d) {k w : Nat} (hw : 0 < w)
    (hst : ∀ t ∈ env.graph.stmts, StmtReadable env t) {l : List Subject} (hl : l.Nodup)
    (hs : ∀ s ∈ l, env.graph.containsSubject s) {t : Str} {e' : Nat}
    (h : writeNodes env k w l 0 = .ok (t, e')) :
    e' = 0 ∧ ∃ Z, StmtsOf env.graph l Z ∧ ∀ n, ∃ τ L, Whole env Z n τ L ∧
      ∀ out, Reads (d.on n out [] .start) t (d.on (n + τ.length) (out ++ L) [] .start) := by
  induction l generalizing t with
  | nil =>
    obtain ⟨rfl, rfl⟩ := nop_eq h
    exact ⟨rfl, [], ⟨by simp, by simp⟩, fun n => ⟨[], [], Whole.nil env n, fun out => by
      rw [List.append_nil]; exact Reads.nil _⟩⟩
  | cons s l ih =>
    obtain ⟨t₁, e₁, t₂, h1, h2, rfl⟩ := Step.andThen_ok.1 h
    obtain ⟨hl1, hl2⟩ := List.nodup_cons.1 hl
    obtain ⟨rfl, Z, hZ, hr⟩ := writeBlock_entries hfair hk hw (hs s (by simp)) hst h1
    obtain ⟨rfl, Z', hZ', hr'⟩ := ih hl2 (fun s h => hs s (List.mem_cons_of_mem _ h)) h2
    refine ⟨rfl, Z ++ Z', hZ.append hZ' (by simpa using hl1), fun n => ?_⟩
    obtain ⟨τ, L, h3, h4⟩ := hr n
    obtain ⟨τ', L', h3', h4'⟩ := hr' (n + τ.length)
    refine ⟨τ ++ τ', L ++ L', h3.append h3', fun out => ?_⟩
    rw [← List.append_assoc, List.length_append, ← Nat.add_assoc]
    exact (h4 out).append (h4' _)

theorem writeBlanks_entries {env : TurtleEnv} {d : Doc} (hfair : env.orders.Fair)
    (hk : Knows env.opts env.graph.mappings d) {k w : Nat} (hw : 0 < w)
    (hst : ∀ t ∈ env.graph.stmts, StmtReadable env t) {l : List Subject} (hl : l.Nodup)
    (hs : ∀ s ∈ l, env.graph.containsSubject s) {t : Str} {e e' : Nat}
    (h : writeBlanks env k w l e = .ok (t, e')) :
    ∃ Z, StmtsOf env.graph l Z ∧ ∀ n, ∃ τ L, Whole env Z n τ L ∧
      ∀ out, Reads (d.on n out [] .start) t (d.on (n + τ.length) (out ++ L) [] .start) := by
  induction l generalizing t e with
  | nil =>
    obtain ⟨rfl, rfl⟩ := nop_eq h
    exact ⟨[], ⟨by simp, by simp⟩, fun n => ⟨[], [], Whole.nil env n, fun out => by
      rw [List.append_nil]; exact Reads.nil _⟩⟩
  | cons s l ih =>
    obtain ⟨t₁, e₁, t₂, h1, h2, rfl⟩ := Step.andThen_ok.1 h
    obtain ⟨t₃, e₂, t₄, h3, h4, rfl⟩ := Step.andThen_ok.1 h1
    cases h3
    obtain ⟨hl1, hl2⟩ := List.nodup_cons.1 hl
    obtain ⟨rfl, Z, hZ, hr⟩ := writeBlock_entries hfair hk hw (hs s (by simp)) hst h4
    obtain ⟨Z', hZ', hr'⟩ := ih hl2 (fun s h => hs s (List.mem_cons_of_mem _ h)) h2
    refine ⟨Z ++ Z', hZ.append hZ' (by simpa using hl1), fun n => ?_⟩
    obtain ⟨τ, L, h3, h4⟩ := hr n
    obtain ⟨τ', L', h3', h4'⟩ := hr' (n + τ.length)
    refine ⟨τ ++ τ', L ++ L', h3.append h3', fun out => ?_⟩
    rw [← List.append_assoc, List.length_append, ← Nat.add_assoc]
    exact (h4 out).append (h4' _)

theorem nodeSubjects_nodup (g : Graph) : g.nodeSubjects.Nodup := setOf_nodup _

theorem blankSubjects_nodup (g : Graph) : g.blankSubjects.Nodup := setOf_nodup _

theorem writeTriples_entries {env : TurtleEnv} {d : Doc} (hfair : env.orders.Fair)
    (hk : Knows env.opts env.graph.mappings d) {k : Nat} (hw : 0 < env.opts.width)
    (hst : ∀ t ∈ env.graph.stmts, StmtReadable env t) {t : Str} {e' : Nat}
    (h : writeTriples env k 0 = .ok (t, e')) :
    ∃ Z : List Stmt, (Z.Nodup ∧ ∀ t, t ∈ Z ↔ t ∈ env.graph.stmts) ∧ ∀ n, ∃ τ L, Whole env Z n τ L ∧
      ∀ out, Reads (d.on n out [] .start) t (d.on (n + τ.length) (out ++ L) [] .start) := by
  obtain ⟨t₁, e₁, t₂, h1, h2, rfl⟩ := Step.andThen_ok.1 h
  have m1 : ∀ s, s ∈ sortedSubjects env.graph ↔ _ := fun s => (sortBy_perm _ _).mem_iff.trans mem_nodeSubjects
  have m2 : ∀ s, s ∈ env.orders.subj env.graph.blankSubjects ↔ _ :=
    fun s => (hfair.1 _).mem_iff.trans mem_blankSubjects
  obtain ⟨rfl, Z, hZ, hr⟩ := writeNodes_entries hfair hk hw hst
    ((sortBy_perm _ _).nodup_iff.2 (nodeSubjects_nodup _)) (fun s hs => ((m1 s).1 hs).1) h1
  obtain ⟨Z', hZ', hr'⟩ := writeBlanks_entries hfair hk hw hst
    ((hfair.1 _).nodup_iff.2 (blankSubjects_nodup _)) (fun s hs => ((m2 s).1 hs).1) h2
  have hZZ := hZ.append hZ' (fun s hs hs' => by
    have := ((m1 s).1 hs).2
    rw [((m2 s).1 hs').2] at this; cases this)
  refine ⟨Z ++ Z', ⟨hZZ.1, fun t => ?_⟩, fun n => ?_⟩
  · rw [hZZ.2, and_iff_left_iff_imp]
    intro ht
    obtain ⟨s, p, o⟩ := t
    have hc : env.graph.containsSubject s := containsSubject_iff.2 ⟨p, o, ht⟩
    simp only [Stmt.subject, List.mem_append]
    cases hb : s.isBlank
    · exact .inl ((m1 s).2 ⟨hc, hb⟩)
    · exact .inr ((m2 s).2 ⟨hc, hb⟩)
  · obtain ⟨τ, L, h3, h4⟩ := hr n
    obtain ⟨τ', L', h3', h4'⟩ := hr' (n + τ.length)
    refine ⟨τ ++ τ', L ++ L', h3.append h3', fun out => ?_⟩
    rw [← List.append_assoc, List.length_append, ← Nat.add_assoc]
    exact (h4 out).append (h4' _)

end Rdftk
