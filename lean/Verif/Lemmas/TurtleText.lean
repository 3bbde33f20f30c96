import Verif.Lemmas.TurtleRead
import Verif.Lemmas.TurtleOrder
import Verif.Lemmas.TurtleEnd

/-! What the Turtle reader of the specification makes of the texts that the writer of the code
puts together. -/

namespace Rdftk
open Spec

/-- The document knows the base and the prefixes. -/
def Knows (opts : TurtleOptions) (m : PrefixMap) (d : Doc) : Prop :=
  d.base = opts.idBase.map Iri.text ∧
  ∀ (p : Str) (ns : Iri), (⟨p ++ [':']⟩, ns) ∈ m.mappings → d.lookup p = some ns.text

/-- The document between statements and inside them. -/
def Spec.Doc.at (d : Doc) (out : List Triple) (stack : List Frame) (e : Expect) : Doc :=
  { d with out := out, stack := stack, expect := e }

/-- A text that is read as one token for the IRI. -/
theorem Spec.StandsFor.tok {opts : TurtleOptions} {m : PrefixMap} {d : Doc} (hk : Knows opts m d) {s : Str}
    {i : Iri} (h : StandsFor opts.idBase m s i) :
    ∃ t, (∀ out stack e, (d.at out stack e).iriOf t = some i.text) ∧
      ((∃ r, t = .iri r) ∨ ∃ p l, t = .pname p l) ∧
      ∀ d₁ d' : Doc, d₁.step t = some d' → Settles d₁ s d' := by
  rcases h with ⟨r, rfl, hr, hv⟩ | ⟨p, l, ns, rfl, hp, hl, hm, e⟩
  · exact ⟨.iri r, fun _ _ _ => by simp [Doc.iriOf, Doc.at, hk.1, hv], .inl ⟨r, rfl⟩,
      fun d₁ d' hd => (Reads.iri hr hd).settles⟩
  · refine ⟨.pname p l, fun _ _ _ => ?_, .inr ⟨p, l, rfl⟩, fun d₁ d' hd => Settles.pname hp hl hd⟩
    have := hk.2 p ns hm
    simp only [Doc.iriOf, Doc.at, Doc.lookup] at this ⊢
    rw [this]
    simp [e]

section
variable {env : TurtleEnv} {d : Doc} (hk : Knows env.opts env.graph.mappings d)
include hk

theorem reads_subject_iri {i : Iri} {s : Str} (h : IriFaithful env i) (hs : compressIri env i = .ok s)
    (out : List Triple) : Settles (d.at out [] .start) s (d.at out [] (.verb (.iri i.text) false)) := by
  obtain ⟨s', hs', hf⟩ := h
  rw [hs] at hs'; cases hs'
  obtain ⟨t, h1, h2, h3⟩ := hf.tok hk
  refine h3 _ _ ?_
  have h1 := h1 out [] .start
  rcases h2 with ⟨r, rfl⟩ | ⟨p, l, rfl⟩ <;> simp only [Doc.step, Doc.at, Doc.nodeOf] at h1 ⊢ <;>
    rw [h1] <;> rfl

omit hk in
theorem reads_subject_blank {b : Str} (h : isLabel b = true) (out : List Triple) :
    Settles (d.at out [] .start) ('_' :: ':' :: b) (d.at out [] (.verb (.blank b) false)) :=
  Settles.blank h rfl

theorem settles_verb {i : Iri} {s : Str} (h : IriFaithful env i) (hs : compressIri env i = .ok s)
    (out : List Triple) (n : Node) (more : Bool) :
    Settles (d.at out [] (.verb n more)) s (d.at out [.pair n i.text] .object) := by
  obtain ⟨s', hs', hf⟩ := h
  rw [hs] at hs'; cases hs'
  obtain ⟨t, h1, h2, h3⟩ := hf.tok hk
  refine h3 _ _ ?_
  have h1 := h1 out [] (.verb n more)
  rcases h2 with ⟨r, rfl⟩ | ⟨p, l, rfl⟩ <;> simp only [Doc.step, Doc.at, Doc.verb] at h1 ⊢ <;>
    rw [h1] <;> rfl

omit hk in
theorem settles_a (out : List Triple) (n : Node) (more : Bool) :
    Settles (d.at out [] (.verb n more)) (str! "a") (d.at out [.pair n (rdfText (str! "type"))] .object) :=
  Settles.a rfl

/-- The text of an object is read, and the next comma, semicolon or dot shows it. -/
def ReadsObject (d : Doc) (t : Str) (o : Node) : Prop :=
  ∀ out n p, ∃ d₁, Settles (d.at out [.pair n p] .object) t d₁ ∧
    ∀ x ∈ [Tok.comma, .semi, .dot], d₁.step x = (d.at (out ++ [⟨n, p, o⟩]) [.pair n p] .after).step x

theorem readsObject_iri {i : Iri} {s : Str} (h : IriFaithful env i) (hs : compressIri env i = .ok s) :
    ReadsObject d s (.iri i.text) := by
  intro out n p
  obtain ⟨s', hs', hf⟩ := h
  rw [hs] at hs'; cases hs'
  obtain ⟨t, h1, h2, h3⟩ := hf.tok hk
  refine ⟨_, h3 _ (d.at (out ++ [⟨n, p, .iri i.text⟩]) [.pair n p] .after) ?_, fun _ _ => rfl⟩
  have h1 := h1 out [.pair n p] .object
  rcases h2 with ⟨r, rfl⟩ | ⟨p, l, rfl⟩ <;> simp only [Doc.step, Doc.at, Doc.object, Doc.nodeOf] at h1 ⊢ <;>
    rw [h1] <;> rfl

omit hk in
theorem readsObject_blank {b : Str} (h : isLabel b = true) : ReadsObject d ('_' :: ':' :: b) (.blank b) :=
  fun _ _ _ => ⟨_, Settles.blank h rfl, fun _ _ => rfl⟩

theorem readsObject_lit {l : Literal} {t : Str} (h : LiteralFaithful env l) (ht : writeLiteral env l = .ok t) :
    ReadsObject d t (literalNode l) := by
  obtain ⟨lex, dt, lang⟩ := l
  obtain ⟨h1, h2, h3⟩ := h
  simp only at h1 h2 h3
  intro out n p
  cases dt with
  | some ty =>
    obtain ⟨rfl, h4, h5, h6⟩ := h2 ty rfl
    have hb : turtleBare ty = false := by
      rw [Bool.eq_false_iff]
      intro hb
      apply h5
      cases ty <;> simp [turtleBare] at hb <;> decide
    obtain ⟨s, hs, hf⟩ := h6
    simp only [writeLiteral, h4, hb, if_false, turtleSuffix, hs, Run.ok_bind, Run.ok.injEq, Bool.false_eq_true] at ht
    subst ht
    obtain ⟨tok, g1, g2, g3⟩ := hf.tok hk
    refine ⟨d.at (out ++ [⟨n, p, .lit lex ty.asIri.text none⟩]) [.pair n p] .after, ?_, fun _ _ => rfl⟩
    refine Settles.string_then (d₁ := d.at out [.pair n p] (.string lex)) h1 rfl (by decide) ?_
    refine Reads.then_settles (s := str! "^^") (d' := d.at out [.pair n p] (.typeOf lex)) (Reads.type rfl) ?_
    refine g3 _ _ ?_
    have g1 := g1 out [.pair n p] (.typeOf lex)
    simp only [Doc.step, Doc.at] at g1 ⊢
    rw [g1]; rfl
  | none =>
    cases lang with
    | some g =>
      simp only [writeLiteral, turtleSuffix, Run.ok_bind, Run.ok.injEq] at ht
      subst ht
      refine ⟨d.at (out ++ [⟨n, p, .lit lex (rdfText (str! "langString")) (some g)⟩]) [.pair n p] .after, ?_,
        fun _ _ => rfl⟩
      refine Settles.string_then (d₁ := d.at out [.pair n p] (.string lex)) h1 rfl (by decide) ?_
      exact Settles.at (h3 g rfl) rfl
    | none =>
      simp only [writeLiteral, turtleSuffix, Run.ok_bind, Run.ok.injEq] at ht
      subst ht
      refine ⟨d.at out [.pair n p] (.string lex), Settles.string h1 rfl, ?_⟩
      intro x hx
      simp only [List.mem_cons, List.not_mem_nil, or_false] at hx
      rcases hx with rfl | rfl | rfl <;> rfl

end

/-- What is needed of the function that writes objects. -/
def WritesNode (d : Doc) (wo : Nat → TurtleFlags → Object → Step) (o : Object) : Prop :=
  ∀ w f e t e', wo w f o e = .ok (t, e') → e' = e ∧ ReadsObject d t (objectNode o)

theorem writesNode {env : TurtleEnv} {d : Doc} (hk : Knows env.opts env.graph.mappings d) {o : Object}
    (h : ObjectFaithful env o) (n : Nat) : WritesNode d (writeObject env n) o := by
  intro w f e t e' hw
  cases n with
  | zero => simp [writeObject] at hw
  | succ n =>
    cases o with
    | blank b =>
      simp only [writeObject, writeObjectStep, h.1, if_false, Bool.false_eq_true] at hw
      obtain ⟨rfl, rfl⟩ := text_eq hw
      exact ⟨rfl, readsObject_blank h.2⟩
    | res i =>
      obtain ⟨h1, rfl⟩ := run_eq hw
      exact ⟨rfl, readsObject_iri hk h h1⟩
    | lit l =>
      obtain ⟨h1, rfl⟩ := run_eq hw
      exact ⟨rfl, readsObject_lit hk h h1⟩
    | coll c => exact h.elim
    | stmt s => exact h.elim

/-! ### Objects of a predicate -/

theorem white_newLine (f : TurtleFlags) (n : Nat) :
    ∀ c ∈ (if f.sorted then [' '] else '\n' :: List.replicate n ' '), white c = true := by
  split
  · decide
  · intro c hc
    rcases List.mem_cons.1 hc with rfl | hc
    · decide
    · rw [List.eq_of_mem_replicate hc]; decide

theorem white_padding (n : Nat) : ∀ c ∈ padding n, white c = true := by
  unfold padding padRight
  split
  · decide
  · intro c hc
    rcases List.mem_append.1 hc with hc | hc
    · simp at hc; subst hc; decide
    · rw [List.eq_of_mem_replicate hc]; decide

/-- A text without tokens starting with the token of a single character. -/
theorem reads_punct_white {d d' : Doc} {c : Char} {x : Tok} {ws : Str} (hc : scanStart c = some ([x], .start))
    (hw : ∀ c ∈ ws, white c = true) (h : d.step x = some d') : Reads d (c :: ws) d' :=
  (Reads.punct hc h).append (Reads.white hw)

theorem writeObjects_reads {d : Doc} {wo : Nat → TurtleFlags → Object → Step} {w m e : Nat}
    {f : TurtleFlags} (n : Node) (p : Str) (os : List Object) (hn : os ≠ [])
    (ho : ∀ o ∈ os, WritesNode d wo o) (he : 0 < e) (hl : f.lastSubject = true → e = w)
    {out : List Triple} {t : Str} {e' : Nat} (h : writeObjects wo w m f os e = .ok (t, e')) :
    e' = (if f.lastSubject then 0 else e) ∧
    Reads (d.at out [.pair n p] .object) t
      (d.at (out ++ os.map fun o => ⟨n, p, objectNode o⟩) []
        (if f.lastSubject then .start else .verb n true)) := by
  induction os generalizing out t with
  | nil => exact absurd rfl hn
  | cons o os ih =>
    obtain ⟨t₁, e₁, t₂, h1, h2, rfl⟩ := Step.andThen_ok.1 h
    obtain ⟨t₃, e₂, t₄, h3, h4, rfl⟩ := Step.andThen_ok.1 h1
    obtain ⟨rfl, hr⟩ := ho o (by simp) _ _ _ _ _ h3
    obtain ⟨d₁, hs, hx⟩ := hr out n p
    cases os with
    | nil =>
      obtain ⟨rfl, rfl⟩ := nop_eq h2
      simp only [List.isEmpty_nil, if_true] at h4
      rw [List.append_nil]
      simp only [List.map_cons, List.map_nil]
      by_cases hls : f.lastSubject
      · simp only [hls, if_true] at h4 ⊢
        obtain ⟨_, e₃, _, h5, h6, rfl⟩ := Step.andThen_ok.1 h4
        obtain ⟨rfl, -, rfl⟩ := outdent_eq h5
        have h0 : e₂ - w = 0 := by have := hl hls; omega
        rw [if_pos h0] at h6
        obtain ⟨_, _, _, h7, h8, rfl⟩ := Step.andThen_ok.1 h6
        obtain ⟨rfl, rfl⟩ := text_eq h7
        obtain ⟨rfl, he'⟩ := newLine_eq h8
        refine ⟨by rw [he', h0], ?_⟩
        have hdot : d₁.step .dot = some (d.at (out ++ [⟨n, p, objectNode o⟩]) [] .start) :=
          hx .dot (by simp)
        have r1 : Settles d₁ (str! " .") (d.at (out ++ [⟨n, p, objectNode o⟩]) [] .start) :=
          Reads.then_settles (s := [' ']) (d' := d₁) (Reads.white (by decide))
            (Settles.word (ts := [.dot]) (by simp) (by decide) (by decide +kernel) (by simp [Doc.steps, hdot]))
        have r2 : ∃ c r, (if f.sorted then [' '] else '\n' :: List.replicate (e₂ - w) ' ') = c :: r ∧ c ∈ delims := by
          split
          · exact ⟨_, _, rfl, by decide⟩
          · exact ⟨_, _, rfl, by decide⟩
        have hwh := white_newLine f (e₂ - w)
        obtain ⟨c, r, hcr, hcd⟩ := r2
        simp only [hcr] at hwh ⊢
        have r3 := r1.reads hcd (Reads.white hwh)
        exact hs.reads (c := ' ') (by decide) r3
      · simp only [hls, if_false, Bool.false_eq_true] at h4 ⊢
        obtain ⟨_, e₃, _, h5, h6, rfl⟩ := Step.andThen_ok.1 h4
        obtain ⟨rfl, rfl⟩ := nop_eq h5
        rw [if_neg (by omega)] at h6
        obtain ⟨rfl, he'⟩ := text_eq h6
        refine ⟨he', ?_⟩
        have hsemi : d₁.step .semi = some (d.at (out ++ [⟨n, p, objectNode o⟩]) [] (.verb n true)) :=
          hx .semi (by simp)
        refine hs.reads (c := ' ') (t := [';']) (by decide) ?_
        exact (Reads.white (t := [' ']) (by decide)).append (Reads.punct (c := ';') (by decide +kernel) hsemi)
    | cons o' os =>
      simp only [List.isEmpty_cons, if_false, Bool.false_eq_true] at h4
      obtain ⟨_, e₃, t₅, h5, h6, rfl⟩ := Step.andThen_ok.1 h4
      obtain ⟨rfl, rfl⟩ := text_eq h5
      have hcomma : d₁.step .comma = some (d.at (out ++ [⟨n, p, objectNode o⟩]) [.pair n p] .object) :=
        hx .comma (by simp)
      have hws : (∀ c ∈ t₅, white c = true) ∧ e₁ = e₃ := by
        split at h6
        · obtain ⟨rfl, rfl⟩ := nop_eq h6
          simp
        · obtain ⟨_, _, _, g1, g2, rfl⟩ := Step.andThen_ok.1 h6
          obtain ⟨_, _, _, g3, g4, rfl⟩ := Step.andThen_ok.1 g1
          obtain ⟨_, _, _, g5, g6, rfl⟩ := Step.andThen_ok.1 g3
          obtain ⟨rfl, rfl⟩ := indent_eq g5
          obtain ⟨rfl, rfl⟩ := newLine_eq g6
          obtain ⟨rfl, -, rfl⟩ := outdent_eq g2
          split at g4
          · obtain ⟨rfl, rfl⟩ := text_eq g4
            refine ⟨?_, by omega⟩
            intro c hc
            simp only [List.nil_append, List.append_nil, List.mem_append] at hc
            rcases hc with hc | hc
            · exact white_newLine _ _ c hc
            · exact white_padding _ c hc
          · obtain ⟨rfl, rfl⟩ := nop_eq g4
            refine ⟨?_, by omega⟩
            intro c hc
            simp only [List.nil_append, List.append_nil] at hc
            exact white_newLine _ _ c hc
      obtain ⟨hws, rfl⟩ := hws
      have r1 : Reads d₁ (',' :: t₅) (d.at (out ++ [⟨n, p, objectNode o⟩]) [.pair n p] .object) :=
        reads_punct_white (by decide +kernel) hws hcomma
      have r2 := ih (by simp) (fun o ho' => ho o (by simp [List.mem_cons.1 ho']))
        (out := out ++ [⟨n, p, objectNode o⟩]) h2
      have r3 := (hs.reads (by decide) r1).append r2.2
      exact ⟨r2.1, by simpa using r3⟩

/-! ### Verbs -/

theorem length_le_byteLen (s : Str) : s.length ≤ byteLen s := by
  induction s with
  | nil => simp [byteLen]
  | cons c s ih =>
    simp only [byteLen, List.map_cons, List.sum_cons, List.length_cons] at ih ⊢
    have := Char.utf8Size_pos c
    omega

theorem padded_eq {s : Str} {m : Nat} (h : m = 0 ∨ s.length < m) :
    ∃ k, padded s m = s ++ ' ' :: List.replicate k ' ' := by
  unfold padded padRight
  by_cases h0 : m = 0
  · rw [if_pos h0]; exact ⟨0, rfl⟩
  · rw [if_neg h0]
    have : m - s.length = (m - s.length - 1) + 1 := by omega
    exact ⟨m - s.length - 1, by rw [this, List.replicate_succ]; simp⟩

theorem StandsFor_pos {b : Option Iri} {m : PrefixMap} {s : Str} {i : Iri} (h : StandsFor b m s i) :
    0 < s.length := by
  rcases h with ⟨r, rfl, -⟩ | ⟨p, l, ns, rfl, -⟩
  · simp
  · simp only [List.length_append, List.length_cons]; omega

theorem groupOf_type {p : Iri} (h : groupOf p = .type) (hm : p ∉ mistyped) : p = rdfType := by
  unfold groupOf at h
  split at h
  · rename_i e he
    have h1 := List.mem_of_find?_eq_some he
    have h2 := List.find?_some he
    have h3 : ∀ e ∈ groupTable, e.2 = .type → e.1 ∉ mistyped → e.1 = rdfType := by decide +kernel
    rw [beq_iff_eq] at h2
    rw [← h2] at hm ⊢
    exact h3 e h1 h hm
  · cases h

/-- The column is wide enough for the predicate. -/
def Wide (env : TurtleEnv) (m : Nat) (p : Iri) : Prop :=
  m = 0 ∨ ∀ s, compressIri env p = .ok s → byteLen s < m

theorem settles_padded {d d' : Doc} {s : Str} {m : Nat} (h : m = 0 ∨ s.length < m) (hs : Settles d s d') :
    Reads d (padded s m) d' := by
  obtain ⟨k, hk⟩ := padded_eq h
  rw [hk]
  exact hs.reads (by decide) (Reads.space d' (k + 1))

theorem writeVerb_reads {env : TurtleEnv} {d : Doc} (hk : Knows env.opts env.graph.mappings d) {p : Iri}
    {m e e' : Nat} {f : TurtleFlags} {t : Str} (hf : IriFaithful env p) (hm : p ∉ mistyped)
    (hw : Wide env m p) (h : writeVerb env (groupOf p) p m f e = .ok (t, e')) :
    e' = e ∧ ∃ c r, t = c :: r ∧ c ∈ delims ∧ ∀ out n more,
      Reads (d.at out [] (.verb n more)) t (d.at out [.pair n p.text] .object) := by
  have nl : ∀ {s u : Str} {a b : Nat}, newLine f a = .ok (u, b) → (m = 0 ∨ s.length < m) →
      (∀ out n more, Settles (d.at out [] (.verb n more)) s (d.at out [.pair n p.text] .object)) →
      ∃ c r, u ++ padded s m = c :: r ∧ c ∈ delims ∧ ∀ out n more,
        Reads (d.at out [] (.verb n more)) (u ++ padded s m) (d.at out [.pair n p.text] .object) := by
    intro s u a b hn hl hs
    obtain ⟨rfl, -⟩ := newLine_eq hn
    have hwh := white_newLine f a
    have hr : ∀ out n more,
        Reads (d.at out [] (.verb n more)) ((if f.sorted then [' '] else '\n' :: List.replicate a ' ') ++
          padded s m) (d.at out [.pair n p.text] .object) :=
      fun out n more => (Reads.white hwh).append (settles_padded hl (hs out n more))
    cases hsort : f.sorted with
    | true =>
      simp only [hsort] at hr ⊢
      exact ⟨' ', _, rfl, by decide, hr⟩
    | false =>
      simp only [hsort] at hr ⊢
      exact ⟨'\n', _, rfl, by decide, hr⟩
  obtain ⟨sp, hsp, hst⟩ := hf
  have hlen : m = 0 ∨ sp.length < m := by
    rcases hw with h | h
    · exact .inl h
    · exact .inr (Nat.lt_of_le_of_lt (length_le_byteLen sp) (h sp hsp))
  unfold writeVerb at h
  by_cases hg : groupOf p = .type
  · rw [if_pos hg] at h
    have hp := groupOf_type hg hm
    have key : ∀ s, (if env.opts.typeA = true then Run.ok (str! "a") else compressIri env rdfType) = .ok s →
        (m = 0 ∨ s.length < m) ∧
        ∀ out n more, Settles (d.at out [] (.verb n more)) s (d.at out [.pair n p.text] .object) := by
      intro s hs
      split at hs
      · cases hs
        refine ⟨?_, fun out n more => ?_⟩
        · have := StandsFor_pos hst
          rcases hlen with h | h
          · exact .inl h
          · right; simp only [List.length_cons, List.length_nil]; omega
        · rw [hp]; exact settles_a out n more
      · rw [← hp, hsp] at hs
        cases hs
        exact ⟨hlen, fun out n more => settles_verb hk ⟨sp, hsp, hst⟩ hsp out n more⟩
    split at h
    · obtain ⟨h1, rfl⟩ := run_eq h
      obtain ⟨s, h2, h3⟩ := Run.bind_ok.1 h1
      simp only [Run.ok.injEq] at h3
      subst h3
      refine ⟨rfl, ' ', _, rfl, by decide, fun out n more => ?_⟩
      have := (key s h2).2 out n more
      exact Reads.append (s := [' ']) (Reads.white (by decide))
        (this.reads (c := ' ') (t := []) (by decide) (Reads.white (by decide)))
    · obtain ⟨u, b, v, h1, h2, rfl⟩ := Step.andThen_ok.1 h
      obtain ⟨h3, rfl⟩ := run_eq h2
      obtain ⟨s, h4, h5⟩ := Run.bind_ok.1 h3
      simp only [Run.ok.injEq] at h5
      subst h5
      have hb := (newLine_eq h1).2
      exact ⟨hb, nl h1 (key s h4).1 (key s h4).2⟩
  · rw [if_neg hg] at h
    obtain ⟨u, b, v, h1, h2, rfl⟩ := Step.andThen_ok.1 h
    obtain ⟨h3, rfl⟩ := run_eq h2
    rw [hsp] at h3
    simp only [Run.ok_bind, Run.ok.injEq] at h3
    subst h3
    have hb := (newLine_eq h1).2
    exact ⟨hb, nl h1 hlen fun out n more => settles_verb hk ⟨sp, hsp, hst⟩ hsp out n more⟩

/-! ### Predicates of a subject -/

theorem writePredicateLoop_reads {env : TurtleEnv} {d : Doc} (hfair : env.orders.Fair)
    (hk : Knows env.opts env.graph.mappings d) {wo : Nat → TurtleFlags → Object → Step} {w m : Nat}
    (hw : 0 < w) {s : Subject} {f : TurtleFlags} {total : Nat} (n : Node) (l : List Iri) (hl : l ≠ [])
    (hp : ∀ p ∈ l, IriFaithful env p ∧ p ∉ mistyped ∧ Wide env m p ∧ p ∈ env.graph.predicatesFor s)
    (ho : ∀ p o, Stmt.mk s p o ∈ env.graph.stmts → WritesNode d wo o)
    (count : Nat) (hc : count + l.length = total) {t : Str} {e' : Nat}
    (h : writePredicateLoop env wo w s m total f count (l.map fun p => (groupOf p, p)) w = .ok (t, e')) :
    e' = 0 ∧ ∃ L, (∀ x, x ∈ L ↔ ∃ p ∈ l, ∃ o, Stmt.mk s p o ∈ env.graph.stmts ∧ x = ⟨n, p.text, objectNode o⟩) ∧
      ∃ c r, t = c :: r ∧ c ∈ delims ∧ ∀ out more,
        Reads (d.at out [] (.verb n more)) t (d.at (out ++ L) [] .start) := by
  induction l generalizing count t e' with
  | nil => exact absurd rfl hl
  | cons p l ih =>
    obtain ⟨t₁, e₁, t₂, h1, h2, rfl⟩ := Step.andThen_ok.1 h
    obtain ⟨t₃, e₂, t₄, h3, h4, rfl⟩ := Step.andThen_ok.1 h1
    obtain ⟨q1, q2, q3, q4⟩ := hp p (by simp)
    obtain ⟨rfl, c, r, rfl, hcd, hv⟩ := writeVerb_reads hk q1 q2 q3 h3
    obtain ⟨os, h5, h6⟩ := Run.bind_ok.1 h4
    have hperm := (sortedObjects_perm h5).trans (hfair.2.2 _ _ _)
    have hmem : ∀ o, o ∈ os ↔ Stmt.mk s p o ∈ env.graph.stmts := fun o => by
      rw [hperm.mem_iff, mem_objectsFor]
    have hos : os ≠ [] := by
      obtain ⟨o, ho⟩ := mem_predicatesFor.1 q4
      intro e0; have := (hmem o).2 ho; rw [e0] at this; simp at this
    have key := fun out => writeObjects_reads (out := out) n p.text os hos
      (fun o h => ho p o ((hmem o).1 h)) hw (fun _ => rfl) h6
    cases l with
    | nil =>
      obtain ⟨rfl, rfl⟩ := nop_eq h2
      have hlast : (count + 1 == total) = true := by simp at hc; simp [hc]
      simp only [hlast, if_true] at key
      refine ⟨(key []).1, os.map fun o => ⟨n, p.text, objectNode o⟩, ?_, c, _, rfl, hcd, fun out more => ?_⟩
      · intro x
        simp only [List.mem_map, hmem, List.mem_singleton, exists_eq_left]
        exact ⟨fun ⟨o, h, e⟩ => ⟨o, h, e.symm⟩, fun ⟨o, h, e⟩ => ⟨o, h, e.symm⟩⟩
      · rw [List.append_nil]
        exact (hv out n more).append (key out).2
    | cons p' l =>
      have hlast : (count + 1 == total) = false := by simp at hc ⊢; omega
      simp only [hlast, if_false, Bool.false_eq_true] at key
      obtain rfl := (key []).1
      obtain ⟨rfl, L, hL, c', r', rfl, hcd', hr⟩ := ih (by simp)
        (fun q hq => hp q (List.mem_cons_of_mem _ hq)) (count + 1) (by simp at hc ⊢; omega) h2
      refine ⟨rfl, os.map (fun o => ⟨n, p.text, objectNode o⟩) ++ L, ?_, c, _, rfl, hcd, fun out more => ?_⟩
      · intro x
        rw [List.mem_append, hL]
        simp only [List.mem_map, hmem]
        constructor
        · rintro (⟨o, h, rfl⟩ | ⟨q, hq, h⟩)
          · exact ⟨p, by simp, o, h, rfl⟩
          · exact ⟨q, List.mem_cons_of_mem _ hq, h⟩
        · rintro ⟨q, hq, o, hqo, rfl⟩
          rcases List.mem_cons.1 hq with rfl | hq
          · exact .inl ⟨o, hqo, rfl⟩
          · exact .inr ⟨q, hq, o, hqo, rfl⟩
      · rw [← List.append_assoc]
        exact ((hv out n more).append (key out).2).append (hr _ true)

theorem foldl_max_ge (l : List Str) (a : Nat) :
    a ≤ l.foldl (fun a b => max a (byteLen b)) a ∧ ∀ s ∈ l, byteLen s ≤ l.foldl (fun a b => max a (byteLen b)) a := by
  induction l generalizing a with
  | nil => simp
  | cons b l ih =>
    obtain ⟨h1, h2⟩ := ih (max a (byteLen b))
    simp only [List.foldl_cons]
    refine ⟨by omega, fun s hs => ?_⟩
    rcases List.mem_cons.1 hs with rfl | hs
    · omega
    · exact h2 s hs

theorem mapAll_mem {α β : Type _} {f : α → Run β} {l : List α} {r : List β} (h : Run.mapAll f l = .ok r)
    {a : α} (ha : a ∈ l) {b : β} (hb : f a = .ok b) : b ∈ r := by
  induction l generalizing r with
  | nil => simp at ha
  | cons x l ih =>
    obtain ⟨y, h1, h2⟩ := Run.bind_ok.1 h
    obtain ⟨ys, h3, h4⟩ := Run.bind_ok.1 h2
    simp only [Run.ok.injEq] at h4
    subst h4
    rcases List.mem_cons.1 ha with rfl | ha
    · rw [hb] at h1; cases h1; simp
    · exact List.mem_cons_of_mem _ (ih h3 ha)

theorem wide_of {env : TurtleEnv} {ps : List Iri} {m : Nat}
    (h : (if env.opts.padding then Run.ok 0 else (maxLenPredicates env ps).bind fun n => .ok (1 + n)) = .ok m)
    {p : Iri} (hp : p ∈ ps) : Wide env m p := by
  split at h
  · cases h; exact .inl rfl
  · obtain ⟨n, h1, h2⟩ := Run.bind_ok.1 h
    obtain ⟨l, h3, h4⟩ := Run.bind_ok.1 h1
    simp only [Run.ok.injEq] at h2 h4
    subst h2
    right
    intro s hs
    have := (foldl_max_ge l 0).2 s (mapAll_mem h3 hp hs)
    omega

theorem writeBlock_reads {env : TurtleEnv} {d : Doc} (hfair : env.orders.Fair)
    (hk : Knows env.opts env.graph.mappings d) {k w : Nat} (hw : 0 < w) {s : Subject}
    (hs : env.graph.containsSubject s)
    (hst : ∀ t ∈ env.graph.stmts, t.subject = s → StmtFaithful env t) {t : Str} {e' : Nat}
    (h : writeBlock env k w s 0 = .ok (t, e')) :
    e' = 0 ∧ ∃ L, (∀ x, x ∈ L ↔ ∃ t ∈ env.graph.stmts, t.subject = s ∧ x = tripleOf t) ∧
      ∀ out, Reads (d.at out [] .start) t (d.at (out ++ L) [] .start) := by
  obtain ⟨t₁, e₁, t₂, h1, h2, rfl⟩ := Step.andThen_ok.1 h
  obtain ⟨rfl, rfl⟩ := text_eq h2
  obtain ⟨t₃, e₂, t₄, h3, h4, rfl⟩ := Step.andThen_ok.1 h1
  obtain ⟨t₅, e₃, t₆, h5, h6, rfl⟩ := Step.andThen_ok.1 h3
  obtain ⟨rfl, rfl⟩ := indent_eq h6
  obtain ⟨p₀, o₀, h0⟩ := containsSubject_iff.1 hs
  have hsf : SubjectFaithful env s := (hst _ h0 rfl).1
  -- the subject
  have hsub : e₃ = 0 ∧ ∀ out, Settles (d.at out [] .start) t₅ (d.at out [] (.verb (subjectNode s) false)) := by
    cases s with
    | blank b =>
      simp only [if_true] at h5
      cases h5
      refine ⟨rfl, fun out => ?_⟩
      exact Reads.then_settles (s := ['\n']) (Reads.white (by decide)) (reads_subject_blank hsf out)
    | res i =>
      obtain ⟨h7, rfl⟩ := run_eq h5
      exact ⟨rfl, fun out => reads_subject_iri hk hsf h7 out⟩
    | stmt s => exact hsf.elim
  obtain ⟨rfl, hsub⟩ := hsub
  rw [Nat.zero_add] at h4
  -- the rest
  unfold writePredicates at h4
  dsimp only at h4
  obtain ⟨m, h7, h8⟩ := Run.bind_ok.1 h4
  obtain ⟨l, h9, h10⟩ := Run.bind_ok.1 h8
  have hperm := predicateSequence_perm h9
  have hl : l = (l.map (·.2)).map fun p => (groupOf p, p) := by
    rw [List.map_map]
    refine (List.map_id l).symm.trans (List.map_congr_left ?_)
    intro x hx
    obtain ⟨p, -, rfl⟩ := List.mem_map.1 (hperm.mem_iff.1 hx)
    rfl
  have hmem : ∀ p, p ∈ l.map (·.2) ↔ p ∈ env.graph.predicatesFor s := by
    intro p
    have := (hperm.map (·.2)).mem_iff (a := p)
    rw [this, List.map_map]
    simp only [Function.comp_def, List.map_id']
    exact (hfair.2.1 s _).mem_iff
  have hlen : (l.map (·.2)).length = (env.orders.pred s (env.graph.predicatesFor s)).length := by
    rw [List.length_map, hperm.length_eq, List.length_map]
  rw [hl] at h10
  obtain ⟨rfl, L, hL, c, r, rfl, hcd, hr⟩ := writePredicateLoop_reads hfair hk hw (subjectNode s) (l.map (·.2))
    (by
      intro e0
      have := (hmem p₀).2 (mem_predicatesFor.2 ⟨o₀, h0⟩)
      rw [e0] at this; simp at this)
    (by
      intro p hp
      have hp' := (hmem p).1 hp
      obtain ⟨o, ho⟩ := mem_predicatesFor.1 hp'
      have := (hst _ ho rfl).2.1
      exact ⟨this.1, this.2, wide_of h7 ((hfair.2.1 s _).mem_iff.2 hp'), hp'⟩)
    (fun p o ho => writesNode hk (hst _ ho rfl).2.2 k) 0 (by rw [Nat.zero_add, hlen]) h10
  refine ⟨rfl, L, ?_, fun out => ?_⟩
  · intro x
    rw [hL]
    constructor
    · rintro ⟨p, -, o, ho, rfl⟩
      exact ⟨_, ho, rfl, rfl⟩
    · rintro ⟨⟨s', p, o⟩, ho, hs', rfl⟩
      simp only [Stmt.subject] at hs'
      subst hs'
      exact ⟨p, (hmem p).2 (mem_predicatesFor.2 ⟨o, ho⟩), o, ho, rfl⟩
  · have := (hsub out).reads hcd (hr out false)
    simpa using this.append (Reads.white (t := ['\n']) (by decide))

/-! ### Documents -/

theorem writeNodes_reads {env : TurtleEnv} {d : Doc} (hfair : env.orders.Fair)
    (hk : Knows env.opts env.graph.mappings d) {k w : Nat} (hw : 0 < w)
    (hst : ∀ t ∈ env.graph.stmts, StmtFaithful env t) {l : List Subject}
    (hs : ∀ s ∈ l, env.graph.containsSubject s) {t : Str} {e' : Nat}
    (h : writeNodes env k w l 0 = .ok (t, e')) :
    e' = 0 ∧ ∃ L, (∀ x, x ∈ L ↔ ∃ t ∈ env.graph.stmts, t.subject ∈ l ∧ x = tripleOf t) ∧
      ∀ out, Reads (d.at out [] .start) t (d.at (out ++ L) [] .start) := by
  induction l generalizing t with
  | nil =>
    obtain ⟨rfl, rfl⟩ := nop_eq h
    exact ⟨rfl, [], by simp, fun out => by rw [List.append_nil]; exact Reads.nil _⟩
  | cons s l ih =>
    obtain ⟨t₁, e₁, t₂, h1, h2, rfl⟩ := Step.andThen_ok.1 h
    obtain ⟨rfl, L, hL, hr⟩ := writeBlock_reads hfair hk hw (hs s (by simp)) (fun t ht _ => hst t ht) h1
    obtain ⟨rfl, L', hL', hr'⟩ := ih (fun s h => hs s (List.mem_cons_of_mem _ h)) h2
    refine ⟨rfl, L ++ L', fun x => ?_, fun out => ?_⟩
    · rw [List.mem_append, hL, hL']
      simp only [List.mem_cons, or_and_right, and_or_left, exists_or]
    · rw [← List.append_assoc]
      exact (hr out).append (hr' _)

theorem writeBlanks_reads {env : TurtleEnv} {d : Doc} (hfair : env.orders.Fair)
    (hk : Knows env.opts env.graph.mappings d) {k w : Nat} (hw : 0 < w)
    (hst : ∀ t ∈ env.graph.stmts, StmtFaithful env t) {l : List Subject}
    (hs : ∀ s ∈ l, env.graph.containsSubject s) {t : Str} {e e' : Nat}
    (h : writeBlanks env k w l e = .ok (t, e')) :
    ∃ L, (∀ x, x ∈ L ↔ ∃ t ∈ env.graph.stmts, t.subject ∈ l ∧ x = tripleOf t) ∧
      ∀ out, Reads (d.at out [] .start) t (d.at (out ++ L) [] .start) := by
  induction l generalizing t e with
  | nil =>
    obtain ⟨rfl, rfl⟩ := nop_eq h
    exact ⟨[], by simp, fun out => by rw [List.append_nil]; exact Reads.nil _⟩
  | cons s l ih =>
    obtain ⟨t₁, e₁, t₂, h1, h2, rfl⟩ := Step.andThen_ok.1 h
    obtain ⟨t₃, e₂, t₄, h3, h4, rfl⟩ := Step.andThen_ok.1 h1
    cases h3
    obtain ⟨rfl, L, hL, hr⟩ := writeBlock_reads hfair hk hw (hs s (by simp)) (fun t ht _ => hst t ht) h4
    obtain ⟨L', hL', hr'⟩ := ih (fun s h => hs s (List.mem_cons_of_mem _ h)) h2
    refine ⟨L ++ L', fun x => ?_, fun out => ?_⟩
    · rw [List.mem_append, hL, hL']
      simp only [List.mem_cons, or_and_right, and_or_left, exists_or]
    · rw [← List.append_assoc]
      exact (hr out).append (hr' _)

theorem writeTriples_reads {env : TurtleEnv} {d : Doc} (hfair : env.orders.Fair)
    (hk : Knows env.opts env.graph.mappings d) {k : Nat} (hw : 0 < env.opts.width)
    (hst : ∀ t ∈ env.graph.stmts, StmtFaithful env t) {t : Str} {e' : Nat}
    (h : writeTriples env k 0 = .ok (t, e')) :
    ∃ L, (∀ x, x ∈ L ↔ ∃ t ∈ env.graph.stmts, x = tripleOf t) ∧
      ∀ out, Reads (d.at out [] .start) t (d.at (out ++ L) [] .start) := by
  obtain ⟨t₁, e₁, t₂, h1, h2, rfl⟩ := Step.andThen_ok.1 h
  obtain ⟨rfl, L, hL, hr⟩ := writeNodes_reads hfair hk hw hst
    (fun s hs => (mem_nodeSubjects.1 ((sortBy_perm _ _).mem_iff.1 hs)).1) h1
  obtain ⟨L', hL', hr'⟩ := writeBlanks_reads hfair hk hw hst
    (fun s hs => (mem_blankSubjects.1 ((hfair.1 _).mem_iff.1 hs)).1) h2
  refine ⟨L ++ L', fun x => ?_, fun out => ?_⟩
  · rw [List.mem_append, hL, hL']
    constructor
    · rintro (⟨t, h, -, e⟩ | ⟨t, h, -, e⟩) <;> exact ⟨t, h, e⟩
    · rintro ⟨⟨s, p, o⟩, h, e⟩
      have hc : env.graph.containsSubject s := containsSubject_iff.2 ⟨p, o, h⟩
      cases hb : s.isBlank
      · left
        exact ⟨_, h, (sortBy_perm _ _).mem_iff.2 (mem_nodeSubjects.2 ⟨hc, hb⟩), e⟩
      · right
        exact ⟨_, h, (hfair.1 _).mem_iff.2 (mem_blankSubjects.2 ⟨hc, hb⟩), e⟩
  · rw [← List.append_assoc]
    exact (hr out).append (hr' _)

/-! ### Directives -/

theorem reads_dotEnd {d d' : Doc} (h : d.step .dot = some d') : Reads d (str! " .\n") d' :=
  Reads.append (s := [' ']) (Reads.white (by decide))
    ((Settles.word (s := ['.']) (ts := [.dot]) (by simp) (by decide) (by decide +kernel)
      (by simp [Doc.steps, h])).reads (c := '\n') (t := []) (by decide) (Reads.white (by decide)))

theorem iriValue_scheme {b : Option Str} {s : Str} (h : hasScheme s = true) : iriValue b s = some s := by
  unfold iriValue; rw [if_pos h]

theorem writeBase_reads {o : TurtleOptions}
    (h : ∀ b, o.idBase = some b → hasScheme b.text = true ∧ ∀ c ∈ b.text, iriChar c = true) :
    Reads Doc.empty (writeBase .bare o) { Doc.empty with base := o.idBase.map Iri.text } := by
  unfold writeBase
  cases hb : o.idBase with
  | none => exact Reads.nil _
  | some b =>
    obtain ⟨h1, h2⟩ := h b hb
    have hend : ∀ d : Doc, Reads d (if o.intellij then [] else str! "\n") d := by
      intro d; split
      · exact Reads.nil d
      · exact Reads.white (by decide)
    have hkw : ∀ sp : Bool, Settles Doc.empty (if sp then str! "BASE" else str! "@base")
        { Doc.empty with expect := .baseIri sp } := by
      intro sp
      cases sp
      · exact Settles.at (s := str! "base") (by decide +kernel) rfl
      · exact Settles.word (s := str! "BASE") (ts := [.baseKw]) (by simp) (by decide) (by decide +kernel) rfl
    have hiri : ∀ sp : Bool, Reads { Doc.empty with expect := .baseIri sp } ('<' :: b.text ++ ['>'])
        { Doc.empty with base := some b.text, expect := if sp then .start else .directiveEnd } := by
      intro sp
      refine Reads.iri h2 ?_
      simp [Doc.step, iriValue_scheme h1]
    have hlast : ∀ sp : Bool, Reads
        { Doc.empty with base := some b.text, expect := if sp then .start else .directiveEnd }
        ((if sp then [] else str! " .") ++ str! "\n") { Doc.empty with base := some b.text } := by
      intro sp
      cases sp
      · exact reads_dotEnd rfl
      · exact Reads.white (t := ['\n']) (by decide)
    have := ((hkw (sparqlStyle o)).reads (c := ' ') (t := []) (by decide) (Reads.white (by decide))).append
      (((hiri (sparqlStyle o)).append (hlast (sparqlStyle o))).append (hend _))
    simpa [Iri.fmt] using this

theorem writePrefix_reads {o : TurtleOptions} (hc : o.convert = []) {e : Namespace × Iri} {p : Str}
    (hp : isPrefix p = true) (he : e.1.text = p ++ [':']) (h1 : hasScheme e.2.text = true)
    (h2 : ∀ c ∈ e.2.text, iriChar c = true) {d : Doc} (hd : d.expect = .start) :
    Reads d (writePrefix .bare o e) { d with prefixes := (p, e.2.text) :: d.prefixes } := by
  have hkw : ∀ sp : Bool, Settles d (if sp then str! "PREFIX" else str! "@prefix")
      { d with expect := .prefixName sp } := by
    intro sp
    cases sp
    · exact Settles.at (s := str! "prefix") (by decide +kernel) (by simp [Doc.step, hd])
    · exact Settles.word (s := str! "PREFIX") (ts := [.prefixKw]) (by simp) (by decide) (by decide +kernel)
        (by simp [Doc.steps, Doc.step, hd])
  have hname : ∀ sp : Bool, Settles { d with expect := .prefixName sp } (p ++ [':'])
      { d with expect := .prefixIri sp p } := fun sp => Settles.pname hp rfl rfl
  have hiri : ∀ sp : Bool, Reads { d with expect := .prefixIri sp p } ('<' :: e.2.text ++ ['>'])
      { d with prefixes := (p, e.2.text) :: d.prefixes, expect := if sp then .start else .directiveEnd } := by
    intro sp
    refine Reads.iri h2 ?_
    simp [Doc.step, iriValue_scheme h1]
  have hlast : ∀ sp : Bool, Reads
      { d with prefixes := (p, e.2.text) :: d.prefixes, expect := if sp then .start else .directiveEnd }
      ((if sp then [] else str! " .") ++ str! "\n") { d with prefixes := (p, e.2.text) :: d.prefixes } := by
    intro sp
    have hdd : ({ d with prefixes := (p, e.2.text) :: d.prefixes } : Doc) =
        { d with prefixes := (p, e.2.text) :: d.prefixes, expect := .start } := by rw [← hd]
    rw [hdd]
    cases sp
    · exact reads_dotEnd rfl
    · exact Reads.white (t := ['\n']) (by decide)
  have hsp : ∀ d : Doc, Reads d [' '] d := fun d => Reads.white (by decide)
  have r1 := (hkw (sparqlStyle o)).reads (c := ' ') (t := []) (by decide) (hsp _)
  have r2 := (hname (sparqlStyle o)).reads (c := ' ') (t := []) (by decide) (hsp _)
  have := (r1.append r2).append ((hiri (sparqlStyle o)).append (hlast (sparqlStyle o)))
  simpa [writePrefix, hc, convertFirst, Iri.fmt, he] using this

theorem flatMap_prefix_reads {o : TurtleOptions} (hc : o.convert = []) (l : List (Namespace × Iri))
    (h : ∀ e ∈ l, hasScheme e.2.text = true ∧ (∀ c ∈ e.2.text, iriChar c = true) ∧
      ∃ p, isPrefix p = true ∧ e.1.text = p ++ [':']) {d : Doc} (hd : d.expect = .start) :
    Reads d (l.flatMap (writePrefix .bare o))
      { d with prefixes := (l.map fun e => (e.1.text.dropLast, e.2.text)).reverse ++ d.prefixes } := by
  induction l generalizing d with
  | nil => exact Reads.nil _
  | cons e l ih =>
    obtain ⟨h1, h2, p, hp, he⟩ := h e (by simp)
    have r1 := writePrefix_reads hc hp he h1 h2 hd
    have r2 := ih (fun e he => h e (by simp [he]))
      (d := { d with prefixes := (p, e.2.text) :: d.prefixes }) hd
    have hd1 : e.1.text.dropLast = p := by rw [he, List.dropLast_concat]
    simpa [hd1] using r1.append r2

theorem find_pair {l : List (Str × Str)} {p n : Str} (h : (p, n) ∈ l)
    (hu : ∀ e ∈ l, e.1 = p → e.2 = n) : (l.find? fun e => e.1 == p).map (·.2) = some n := by
  induction l with
  | nil => simp at h
  | cons e l ih =>
    rw [List.find?_cons]
    by_cases he : e.1 = p
    · simp [he, hu e (by simp) he]
    · have : (e.1 == p) = false := by simpa using he
      rw [this]
      refine ih ?_ fun e he => hu e (by simp [he])
      rcases List.mem_cons.1 h with rfl | h
      · exact absurd rfl he
      · exact h

/-- The document after the directives. -/
theorem directives_read {o : TurtleOptions} {m : PrefixMap} (hc : o.convert = [])
    (hf : DirectivesFaithful o m) (hu : ∀ p i j, (p, i) ∈ m.mappings → (p, j) ∈ m.mappings → i = j) :
    ∃ d, Reads Doc.empty (writeBase .bare o ++ writePrefixes .bare o m) (d.at [] [] .start) ∧ Knows o m d := by
  have r1 := writeBase_reads hf.1
  unfold writePrefixes
  split
  · rename_i h
    refine ⟨{ Doc.empty with base := o.idBase.map Iri.text }, r1.append (Reads.nil _), rfl, ?_⟩
    have he : m.mappings = [] := List.isEmpty_iff.1 h
    rw [he]; simp
  · set le := fun a b : Namespace × Iri => (cmpStr a.1.text b.1.text).then (cmpStr a.2.text b.2.text) != .gt
    have hperm := sortBy_perm le m.mappings
    have r2 := flatMap_prefix_reads hc (sortBy le m.mappings) (fun e he => hf.2 e (hperm.mem_iff.1 he))
      (d := { Doc.empty with base := o.idBase.map Iri.text }) rfl
    refine ⟨{ Doc.empty with
      base := o.idBase.map Iri.text
      prefixes := ((sortBy le m.mappings).map fun e => (e.1.text.dropLast, e.2.text)).reverse ++ [] },
      r1.append (r2.append (Reads.white (t := ['\n']) (by decide))), rfl, ?_⟩
    intro p ns hm
    apply find_pair
    · simp only [Doc.empty, List.append_nil, List.mem_reverse, List.mem_map]
      exact ⟨_, hperm.mem_iff.2 hm, by simp⟩
    · simp only [Doc.empty, List.append_nil, List.mem_reverse, List.mem_map]
      rintro _ ⟨⟨q, i⟩, hq, rfl⟩ hqp
      have hq := hperm.mem_iff.1 hq
      obtain ⟨-, -, p', -, hp'⟩ := hf.2 _ hq
      simp only at hp' hqp ⊢
      rw [hp', List.dropLast_concat] at hqp
      subst hqp
      have : q = ⟨p' ++ [':']⟩ := by cases q; simp_all
      subst this
      rw [hu _ _ _ hq hm]

/-- What was read at the end of a document. -/
theorem readTurtle_of_reads {s : Str} {d : Doc} {out : List Triple}
    (h : Reads Doc.empty s (d.at out [] .start)) : readTurtle s = some out := by
  unfold readTurtle
  rw [h]
  rfl

end Rdftk
