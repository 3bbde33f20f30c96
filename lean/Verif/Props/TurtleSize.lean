import Verif.Lemmas.TurtleSize
import Verif.Props.ConvertSucceeds

/-! C173: how long Turtle text is.  `rdftk_io/src/turtle/writer.rs` 849-885 and 969-983 write a blank node anew, with all that is said
about it, each time it is an object. -/

namespace Rdftk
open Spec

/-! ### From below -/

/-- C173, from below: in the text a bracket is opened for each chain of statements through blank nodes. -/
theorem C173_brackets (pr : Char → Bool) (url : Str → Option Iri) (sty : IriStyle) (opts : TurtleOptions) (o : Orders) (gen : Nat → Str)
    (k n : Nat) (g : Graph) (s : Str) (hfair : o.Fair) (hn : opts.nest = true) (hg : ∀ t ∈ g.stmts, t.isNested = false)
    (h : writeTurtle pr url sty opts o gen k n g = .ok s) (cs : List (List Stmt)) (hd : cs.Nodup)
    (hc : ∀ c ∈ cs, c ≠ [] ∧ StmtChain g c) : cs.length ≤ s.count '[' := by
  have hs := denest_stmts (gen := gen) (k := k) hg
  obtain ⟨⟨t, e⟩, h1, h2⟩ := Run.bind_ok.1 h
  simp only [Run.ok.injEq] at h2
  subst h2
  obtain ⟨t₁, d₁, t₂, h3, h4, rfl⟩ := Step.andThen_ok.1 h1
  have hch : ∀ c, StmtChain g c → StmtChain (denest gen k g) c := by
    intro c
    induction c with
    | nil => exact fun h => h
    | cons t c ih => exact fun h => ⟨by rw [hs]; exact h.1, h.2.1, ih h.2.2⟩
  have := chains_opened (env := ⟨pr, url, sty, opts, denest gen k g, o⟩) hfair hn h4 hd fun c hm => ⟨(hc c hm).1, hch c (hc c hm).2⟩
  show _ ≤ opened (t₁ ++ t₂)
  rw [opened_append]
  omega

/-! ### From above -/

theorem walksAfter_nodup (g : Graph) (n : Nat) (o : Object) : (walksAfter g n o).Nodup := by
  induction n generalizing o with
  | zero => cases o <;> simp [walksAfter]
  | succ n ih =>
    cases o with
    | blank b =>
      rw [walksAfter, List.nodup_cons]
      refine ⟨fun h => ?_, ?_⟩
      · obtain ⟨t, -, h⟩ := List.mem_flatMap.1 h
        obtain ⟨c, -, h⟩ := List.mem_map.1 h
        cases h
      · rw [List.nodup_flatMap]
        refine ⟨fun t _ => (ih t.object).map fun a b h => (List.cons.inj h).2, (stmtsAbout_nodup g _).imp fun {a b} hab c h1 h2 => hab ?_⟩
        obtain ⟨c₁, -, rfl⟩ := List.mem_map.1 h1
        obtain ⟨c₂, -, e⟩ := List.mem_map.1 h2
        exact (List.cons.inj e).1.symm
    | _ => simp [walksAfter]

theorem walksAfter_walk {g : Graph} {n : Nat} {t : Stmt} (ht : t ∈ g.stmts) {c : List Stmt} (hc : c ∈ walksAfter g n t.object) :
    StmtWalk g (t :: c) := by
  induction n generalizing t c with
  | zero =>
    refine ⟨ht, .inl ?_⟩
    simpa [walksAfter] using hc
  | succ n ih =>
    refine ⟨ht, ?_⟩
    cases ho : t.object with
    | blank b =>
      rw [ho, walksAfter, List.mem_cons] at hc
      rcases hc with rfl | hc
      · exact .inl rfl
      · obtain ⟨u, hu, hc⟩ := List.mem_flatMap.1 hc
        obtain ⟨c', hc', rfl⟩ := List.mem_map.1 hc
        obtain ⟨hu1, hu2⟩ := mem_stmtsAbout.1 hu
        exact .inr ⟨⟨b, rfl, fun v hv => by simp at hv; subst hv; exact hu2⟩, ih hu1 hc'⟩
    | _ => rw [ho] at hc; exact .inl (by simpa [walksAfter] using hc)

/-- What is written for a statement, if no text of a node is longer than `M` and nothing is written further to the right than `D`. -/
def roomPerStatement (D M : Nat) : Nat := 3 * D + 4 * M + 13

/-- C173, from above: the text is no longer than the directives and, for each walk of statements through blank nodes, a line as long as
its nodes and the depth of the nesting require. -/
theorem C173_walks (pr : Char → Bool) (url : Str → Option Iri) (sty : IriStyle) (opts : TurtleOptions) (o : Orders) (gen : Nat → Str)
    (k n M H : Nat) (g : Graph) (s : Str) (hfair : o.Fair) (hg : ∀ t ∈ g.stmts, t.isNested = false)
    (hM : Short ⟨pr, url, sty, opts, denest gen k g, o⟩ M) (hH : ∀ c, StmtChain g c → c.length ≤ H)
    (h : writeTurtle pr url sty opts o gen k n g = .ok s) :
    ∃ ws : List (List Stmt), ws.Nodup ∧ (∀ w ∈ ws, StmtWalk g w) ∧ s.length ≤
      (writeBase sty opts).length + (writePrefixes sty opts g.mappings).length + ws.length * roomPerStatement ((H + 3) * opts.width) M := by
  have hs := denest_stmts (gen := gen) (k := k) hg
  obtain ⟨⟨t, e⟩, h1, h2⟩ := Run.bind_ok.1 h
  simp only [Run.ok.injEq] at h2
  subst h2
  obtain ⟨t₁, d₁, t₂, h3, h4, rfl⟩ := Step.andThen_ok.1 h1
  obtain ⟨t₃, d₂, t₄, h5, h6, rfl⟩ := Step.andThen_ok.1 h3
  obtain ⟨rfl, rfl⟩ := text_eq h5
  obtain ⟨rfl, rfl⟩ := text_eq h6
  have hch : ∀ c, StmtChain (denest gen k g) c → StmtChain g c := by
    intro c
    induction c with
    | nil => exact fun h => h
    | cons t c ih => exact fun h => ⟨by rw [← hs]; exact h.1, h.2.1, ih h.2.2⟩
  generalize hE : (⟨pr, url, sty, opts, denest gen k g, o⟩ : TurtleEnv) = env at hM h4
  have e1 : env.graph = denest gen k g := by rw [← hE]
  have e2 : env.opts = opts := by rw [← hE]
  have e3 : env.orders = o := by rw [← hE]
  have hf : env.orders.Fair := by rw [e3]; exact hfair
  refine ⟨(setOf g.stmts).flatMap fun t => (walksAfter env.graph n t.object).map (t :: ·), ?_, ?_, ?_⟩
  · rw [List.nodup_flatMap]
    refine ⟨fun t _ => (walksAfter_nodup _ n t.object).map fun a b h => (List.cons.inj h).2, (setOf_nodup _).imp fun {a b} hab c h1 h2 => hab ?_⟩
    obtain ⟨c₁, -, rfl⟩ := List.mem_map.1 h1
    obtain ⟨c₂, -, e⟩ := List.mem_map.1 h2
    exact (List.cons.inj e).1.symm
  · intro w hw
    obtain ⟨t, ht, hw⟩ := List.mem_flatMap.1 hw
    obtain ⟨c, hc, rfl⟩ := List.mem_map.1 hw
    have := walksAfter_walk (g := env.graph) (by rw [e1, hs]; exact mem_setOf.1 ht) hc
    have key : ∀ c, StmtWalk env.graph c → StmtWalk g c := by
      intro c
      induction c with
      | nil => exact fun h => h
      | cons t c ih => exact fun h => ⟨by rw [← hs, ← e1]; exact h.1, h.2.imp id fun h => ⟨h.1, ih h.2⟩⟩
    exact key _ this
  · have hw : env.opts.width = opts.width := by rw [e2]
    have k1 := writeTriples_length hf (n := n) (D := (H + 3) * opts.width) (M := M)
      (B := fun o => (walksAfter env.graph n o).length * roomPerStatement ((H + 3) * opts.width) M) hM
      (by rw [hw, Nat.add_mul]; omega) (fun o => by
        have := Nat.mul_le_mul_right (roomPerStatement ((H + 3) * opts.width) M) (walksAfter_pos env.graph n o)
        unfold roomPerStatement at this ⊢
        omega) (fun u hu f x e hx => by
        rw [hw] at hx
        have k := writeObject_length hf (D := (H + 3) * opts.width) (M := M) (K := 3 * ((H + 3) * opts.width) + 3 * M + 9) hM
          (by unfold extra; omega) n hu (h := H) (d := opts.width) (fun b _ c hc _ => hH c (hch c (by rw [← e1]; exact hc))) (fun b _ => by
            rw [show H + 3 = 1 + (H + 2) by omega, Nat.add_mul 1]; omega) hx
        have := Nat.mul_le_mul_right (M + 4) (walksAfter_pos env.graph n u.object)
        have e : roomPerStatement ((H + 3) * opts.width) M = (3 * ((H + 3) * opts.width) + 3 * M + 9) + (M + 4) := by unfold roomPerStatement; omega
        rw [e, Nat.mul_add]
        omega) h4
    rw [sum_mul (setOf env.graph.stmts) (fun t => (walksAfter env.graph n t.object).length)] at k1
    have e4 : setOf env.graph.stmts = setOf g.stmts := by rw [e1, hs]
    rw [e4] at k1
    simp only [List.length_append, List.length_flatMap, List.length_map]
    omega

/-- C173, what holds: if no blank node is both subject and object the text is no longer than the directives and one line for each
statement. -/
theorem C173_partial (pr : Char → Bool) (url : Str → Option Iri) (sty : IriStyle) (opts : TurtleOptions) (o : Orders) (gen : Nat → Str)
    (k n M : Nat) (g : Graph) (s : Str) (hfair : o.Fair) (hg : ∀ t ∈ g.stmts, t.isNested = false)
    (hM : Short ⟨pr, url, sty, opts, denest gen k g, o⟩ M) (hb : ∀ t ∈ g.stmts, ∀ u ∈ g.stmts, ∀ b, t.object = .blank b → u.subject ≠ .blank b)
    (h : writeTurtle pr url sty opts o gen k n g = .ok s) : s.length ≤
      (writeBase sty opts).length + (writePrefixes sty opts g.mappings).length + (setOf g.stmts).length * roomPerStatement (4 * opts.width) M := by
  obtain ⟨ws, h1, h2, h3⟩ := C173_walks pr url sty opts o gen k n M 1 g s hfair hg hM (fun c hc => by
    match c, hc with
    | [], _ => simp
    | [_], _ => simp
    | t :: u :: c, ⟨ht, ⟨b, h1, h2⟩, hu, _⟩ => exact absurd (h2 u (by simp)) (hb t ht u hu b h1)) h
  refine Nat.le_trans h3 (Nat.add_le_add_left (Nat.mul_le_mul_right _ ?_) _)
  have : ws ⊆ (setOf g.stmts).map fun t => [t] := by
    intro w hw
    match w, h2 w hw with
    | [t], ⟨ht, _⟩ => exact List.mem_map.2 ⟨t, mem_setOf.2 ht, rfl⟩
    | t :: u :: c, ⟨ht, .inr ⟨⟨b, h1, h2⟩, hu, _⟩⟩ => exact absurd (h2 u (by simp)) (hb t ht u hu b h1)
  have := (List.subperm_of_subset h1 this).length_le
  rwa [List.length_map] at this

/-- C173, with labels: if blank nodes are not nested the text is no longer than the directives and one line for each statement. -/
theorem C173_labels (pr : Char → Bool) (url : Str → Option Iri) (sty : IriStyle) (opts : TurtleOptions) (o : Orders) (gen : Nat → Str)
    (k n M : Nat) (g : Graph) (s : Str) (hfair : o.Fair) (hn : opts.nest = false) (hg : ∀ t ∈ g.stmts, t.isNested = false)
    (hM : Short ⟨pr, url, sty, opts, denest gen k g, o⟩ M) (h : writeTurtle pr url sty opts o gen k n g = .ok s) : s.length ≤
      (writeBase sty opts).length + (writePrefixes sty opts g.mappings).length + (setOf g.stmts).length * roomPerStatement (2 * opts.width) M := by
  have hs := denest_stmts (gen := gen) (k := k) hg
  obtain ⟨⟨t, e⟩, h1, h2⟩ := Run.bind_ok.1 h
  simp only [Run.ok.injEq] at h2
  subst h2
  obtain ⟨t₁, d₁, t₂, h3, h4, rfl⟩ := Step.andThen_ok.1 h1
  obtain ⟨t₃, d₂, t₄, h5, h6, rfl⟩ := Step.andThen_ok.1 h3
  obtain ⟨rfl, rfl⟩ := text_eq h5
  obtain ⟨rfl, rfl⟩ := text_eq h6
  generalize hE : (⟨pr, url, sty, opts, denest gen k g, o⟩ : TurtleEnv) = env at hM h4
  have e1 : env.graph = denest gen k g := by rw [← hE]
  have e2 : env.opts = opts := by rw [← hE]
  have e3 : env.orders = o := by rw [← hE]
  have hf : env.orders.Fair := by rw [e3]; exact hfair
  have hw : env.opts.width = opts.width := by rw [e2]
  have k1 := writeTriples_length hf (n := n) (D := 2 * opts.width) (M := M) (B := fun _ => 1 * roomPerStatement (2 * opts.width) M) hM
    (by rw [hw]; omega) (fun o => by unfold roomPerStatement; omega) (fun u hu f x e hx => by
      have hl : x.length ≤ M + 2 := by
        obtain ⟨o1, o2, o3, o4⟩ := hM.object u hu
        cases n with
        | zero => simp [writeObject] at hx
        | succ n =>
          cases ho : u.object with
          | blank b =>
            have := o1 b ho
            simp only [ho, writeObject, writeObjectStep, e2, hn] at hx
            obtain ⟨rfl, -⟩ := text_eq hx
            simp
            omega
          | res i => rw [ho] at hx; have := o2 i _ ho (run_eq hx).1; omega
          | lit l => rw [ho] at hx; have := o3 l _ ho (run_eq hx).1; omega
          | coll c => exact absurd ho (o4 c)
          | stmt t => simp [ho, writeObject, writeObjectStep] at hx
      unfold extra roomPerStatement
      omega) h4
  rw [sum_mul (setOf env.graph.stmts) (fun _ => 1)] at k1
  have e4 : setOf env.graph.stmts = setOf g.stmts := by rw [e1, hs]
  rw [e4] at k1
  have e5 : ∀ l : List Stmt, (l.map fun _ => 1).sum = l.length := fun l => by
    induction l with
    | nil => rfl
    | cons a l ih => rw [List.map_cons, List.sum_cons, ih, List.length_cons, Nat.add_comm]
  rw [e5] at k1
  simp only [List.length_append]
  omega

/-! A bound on the texts of the nodes can always be given. -/

theorem bound_exists {Q : Stmt → Nat → Prop} (mono : ∀ t m m', m ≤ m' → Q t m → Q t m') (l : List Stmt) (h : ∀ t ∈ l, ∃ m, Q t m) :
    ∃ M, ∀ t ∈ l, Q t M := by
  induction l with
  | nil => exact ⟨0, by simp⟩
  | cons a l ih =>
    obtain ⟨m, hm⟩ := h a (by simp)
    obtain ⟨M, hM⟩ := ih fun t ht => h t (List.mem_cons_of_mem _ ht)
    refine ⟨m + M, fun t ht => ?_⟩
    rcases List.mem_cons.1 ht with rfl | ht
    · exact mono _ _ _ (by omega) hm
    · exact mono _ _ _ (by omega) (hM t ht)

theorem run_bound (r : Run Str) : ∃ m, ∀ s, r = .ok s → s.length ≤ m ∧ byteLen s ≤ m := by
  cases r with
  | ok s => exact ⟨s.length + byteLen s, fun t h => by cases h; omega⟩
  | _ => exact ⟨0, fun t h => by cases h⟩

theorem short_exists (env : TurtleEnv) (hc : ∀ t ∈ env.graph.stmts, ∀ c, t.object ≠ .coll c) : ∃ M, Short env M := by
  obtain ⟨M, hM⟩ := bound_exists (l := env.graph.stmts) (Q := fun t m => ((∀ b, t.subject = .blank b → b.length ≤ m) ∧
      ∀ i s, t.subject = .res i → compressIri env i = .ok s → s.length ≤ m) ∧
      (∀ s, compressIri env t.predicate = .ok s → s.length ≤ m ∧ byteLen s ≤ m) ∧
      (∀ b, t.object = .blank b → b.length ≤ m) ∧
      (∀ i s, t.object = .res i → compressIri env i = .ok s → s.length ≤ m) ∧
      ∀ l s, t.object = .lit l → writeLiteral env l = .ok s → s.length ≤ m) (fun t m m' hm h => by
        obtain ⟨⟨h1, h2⟩, h3, h4, h5, h6⟩ := h
        exact ⟨⟨fun b e => Nat.le_trans (h1 b e) hm, fun i s e k => Nat.le_trans (h2 i s e k) hm⟩,
          fun s k => ⟨Nat.le_trans (h3 s k).1 hm, Nat.le_trans (h3 s k).2 hm⟩, fun b e => Nat.le_trans (h4 b e) hm,
          fun i s e k => Nat.le_trans (h5 i s e k) hm, fun l s e k => Nat.le_trans (h6 l s e k) hm⟩) (fun t ht => by
        obtain ⟨s, p, o⟩ := t
        obtain ⟨m1, k1⟩ : ∃ m : Nat, (∀ b, s = Subject.blank b → b.length ≤ m) ∧ ∀ i x, s = .res i → compressIri env i = .ok x → x.length ≤ m := by
          cases s with
          | blank b => exact ⟨b.length, fun _ e => (by cases e; omega), fun _ _ e => by cases e⟩
          | res i =>
            obtain ⟨m, hm⟩ := run_bound (compressIri env i)
            exact ⟨m, fun _ e => (by cases e), fun _ x e h => by cases e; exact (hm x h).1⟩
          | stmt t => exact ⟨0, fun _ e => (by cases e), fun _ _ e => by cases e⟩
        obtain ⟨m2, k2⟩ := run_bound (compressIri env p)
        obtain ⟨m3, k3⟩ : ∃ m : Nat, (∀ b, o = Object.blank b → b.length ≤ m) ∧ (∀ i x, o = .res i → compressIri env i = .ok x → x.length ≤ m) ∧
            ∀ l x, o = .lit l → writeLiteral env l = .ok x → x.length ≤ m := by
          cases o with
          | blank b => exact ⟨b.length, fun _ e => (by cases e; omega), fun _ _ e => (by cases e), fun _ _ e => by cases e⟩
          | res i =>
            obtain ⟨m, hm⟩ := run_bound (compressIri env i)
            exact ⟨m, fun _ e => (by cases e), fun _ x e h => (by cases e; exact (hm x h).1), fun _ _ e => by cases e⟩
          | lit l =>
            obtain ⟨m, hm⟩ := run_bound (writeLiteral env l)
            exact ⟨m, fun _ e => (by cases e), fun _ _ e => (by cases e), fun _ x e h => by cases e; exact (hm x h).1⟩
          | _ => exact ⟨0, fun _ e => (by cases e), fun _ _ e => (by cases e), fun _ _ e => by cases e⟩
        refine ⟨m1 + m2 + m3, ⟨fun b e => ?_, fun i x e h => ?_⟩, fun x h => ?_, fun b e => ?_, fun i x e h => ?_, fun l x e h => ?_⟩
        · have := k1.1 b e; omega
        · have := k1.2 i x e h; omega
        · have := k2 x h; omega
        · have := k3.1 b e; omega
        · have := k3.2.1 i x e h; omega
        · have := k3.2.2 l x e h; omega)
  obtain ⟨m, hm⟩ := run_bound (compressIri env rdfType)
  refine ⟨1 + m + M, by omega, fun s h => ?_, fun t ht => ⟨fun b e => ?_, fun i s e k => ?_⟩, fun t ht s k => ?_,
    fun t ht => ⟨fun b e => ?_, fun i s e k => ?_, fun l s e k => ?_, hc t ht⟩⟩
  · have := hm s h; omega
  · have := (hM t ht).1.1 b e; omega
  · have := (hM t ht).1.2 i s e k; omega
  · have := (hM t ht).2.1 s k; omega
  · have := (hM t ht).2.2.1 b e; omega
  · have := (hM t ht).2.2.2.1 i s e k; omega
  · have := (hM t ht).2.2.2.2 l s e k; omega

/-! ### The full statement -/

/-- C173, the full statement: the length of the Turtle text for a document of N-Triples is bounded by a polynomial of the length of the
document. -/
def C173_statement (sty : IriStyle) : Prop :=
  ∃ a k : Nat, ∀ (e : CliEnv) (s out : Str), e.sty = sty → StrictEnv e.read → SaneEnv e.read → WebUrl e.read.url →
    AsciiPrintable e.read.pr → e.orders.Fair → Printed e.read.pr s → cliMain e s (.convert .nTriples .turtle) = .success out →
    out.length ≤ a * (s.length + 1) ^ k

/-- The label of a blank node. -/
def manyB (i : Nat) : Str := List.replicate (i + 1) 'b'

/-- A line about one blank node and the next. -/
def nextLine (p : Str) (i : Nat) : Gaps × Line × RdfTriple :=
  (blankGaps, ⟨.blank (manyB i), p, .term (.blank (manyB (i + 1))), none⟩,
    ((.blank (manyB i), ⟨p⟩, .blank (manyB (i + 1))) : RdfTriple))

/-- Two lines about each of `n` blank nodes, both with the next one for value. -/
def twoWays : Nat → List (Gaps × Line × RdfTriple)
  | 0 => []
  | n + 1 => nextLine (str! "http://a/p") n :: nextLine (str! "http://a/q") n :: twoWays n

theorem mem_twoWays {n : Nat} {x : Gaps × Line × RdfTriple} :
    x ∈ twoWays n ↔ ∃ i < n, x = nextLine (str! "http://a/p") i ∨ x = nextLine (str! "http://a/q") i := by
  induction n with
  | zero => simp [twoWays]
  | succ n ih =>
    rw [twoWays, List.mem_cons, List.mem_cons, ih]
    constructor
    · rintro (rfl | rfl | ⟨i, hi, h⟩)
      · exact ⟨n, by omega, .inl rfl⟩
      · exact ⟨n, by omega, .inr rfl⟩
      · exact ⟨i, by omega, h⟩
    · rintro ⟨i, hi, h⟩
      by_cases e : i = n
      · subst e
        rcases h with rfl | rfl <;> simp
      · exact .inr (.inr ⟨i, by omega, h⟩)

theorem manyB_label (i : Nat) : Label (manyB i) := by
  have hu : PN_CHARS_U 'b' := (isPnCharsU_iff _).1 (by decide)
  have hb : PN_CHARS 'b' := (isPnChars_iff _).1 (by decide)
  refine ⟨⟨'b', .inl hu, ?_⟩, fun a b e => ?_⟩
  · cases i with
    | zero => exact .inl rfl
    | succ i =>
      refine .inr ⟨List.replicate i 'b', 'b', ?_, fun x hx => .inl (by rw [List.eq_of_mem_replicate hx]; exact hb), hb⟩
      rw [manyB, List.replicate_succ, List.replicate_succ', List.cons_append]
  · have : '.' ∈ manyB i := by rw [e]; simp
    have := List.eq_of_mem_replicate this
    cases this

theorem manyB_inj {i j : Nat} (h : manyB i = manyB j) : i = j := by
  have := congrArg List.length h
  simpa [manyB] using this

theorem twoWays_valid (n : Nat) : ∀ x ∈ twoWays n, x.2.1.g = none ∧ x.2.1.Valid ∧ x.1.Valid x.2.1 ∧ x.2.1.Means docEnv x.2.2 := by
  intro x hx
  obtain ⟨i, -, h⟩ := mem_twoWays.1 hx
  have hp : docEnv.url (str! "http://a/p") = some ⟨str! "http://a/p"⟩ := by decide +kernel
  have hq : docEnv.url (str! "http://a/q") = some ⟨str! "http://a/q"⟩ := by decide +kernel
  rcases h with rfl | rfl
  · exact ⟨rfl, ⟨manyB_label i, iriText_chars (s := str! "http://a/p") (by decide), manyB_label (i + 1), by simp [nextLine]⟩, blankGaps_valid _,
      rfl, ⟨str! "http://a/p", decodesIri_plain (s := str! "http://a/p") (by decide), hp⟩, rfl⟩
  · exact ⟨rfl, ⟨manyB_label i, iriText_chars (s := str! "http://a/q") (by decide), manyB_label (i + 1), by simp [nextLine]⟩, blankGaps_valid _,
      rfl, ⟨str! "http://a/q", decodesIri_plain (s := str! "http://a/q") (by decide), hq⟩, rfl⟩

/-- The text of the document. -/
def twoWaysText (n : Nat) : Str := docText [] [] ((twoWays n).map fun x => (x.1, x.2.1))

theorem nextLine_text (p : Str) (i : Nat) : (nextLine p i).2.1.text (nextLine p i).1 =
    str! "_:" ++ manyB i ++ str! " <" ++ p ++ str! "> _:" ++ manyB (i + 1) ++ str! " .\n" := by
  simp [nextLine, Line.text, Term.text, Obj.text, graphText, blankGaps]

theorem twoWays_succ (n : Nat) : twoWaysText (n + 1) = (nextLine (str! "http://a/p") n).2.1.text (nextLine (str! "http://a/p") n).1 ++
    ((nextLine (str! "http://a/q") n).2.1.text (nextLine (str! "http://a/q") n).1 ++ twoWaysText n) := by
  simp [twoWaysText, docText, twoWays, linesText]

theorem twoWays_length (n : Nat) : (twoWaysText n).length ≤ 50 * (n * (n + 1)) := by
  induction n with
  | zero => simp [twoWaysText, docText, twoWays, linesText]
  | succ n ih =>
    rw [twoWays_succ, nextLine_text, nextLine_text]
    have e : (n + 1) * (n + 1 + 1) = n * (n + 1) + 2 * (n + 1) := by
      rw [Nat.mul_comm, ← Nat.add_mul]
    rw [e]
    simp [manyB]
    omega

theorem twoWays_chars (n : Nat) : ∀ c ∈ twoWaysText n, c ∈ (str! "_:b<>http://a/pq .\n") := by
  induction n with
  | zero => simp [twoWaysText, docText, twoWays, linesText]
  | succ n ih =>
    intro c hc
    rw [twoWays_succ, nextLine_text, nextLine_text] at hc
    simp only [List.mem_append] at hc
    have hm : ∀ i, c ∈ manyB i → c = 'b' := fun i h => List.eq_of_mem_replicate h
    have h1 : ∀ (l : Str), (∀ c ∈ l, c ∈ (str! "_:b<>http://a/pq .\n")) → c ∈ l → c ∈ (str! "_:b<>http://a/pq .\n") := fun l h hc => h c hc
    have hb : ∀ i, c ∈ manyB i → c ∈ (str! "_:b<>http://a/pq .\n") := fun i h => by rw [hm i h]; decide
    rcases hc with ((((((h | h) | h) | h) | h) | h) | h) | ((((((h | h) | h) | h) | h) | h) | h) | h
    all_goals first | exact ih c h | exact hb _ h | exact h1 _ (by decide) h

theorem twoWays_ends (n : Nat) : ChainsEnd ((twoWays n).map fun x => x.2.2) := by
  have step : ∀ c b, LeadsTo ((twoWays n).map fun x => x.2.2) c b → ∃ i < n, b = manyB i ∧ c = manyB (i + 1) := by
    rintro c b ⟨⟨t, ht, h1, h2⟩, -⟩
    obtain ⟨x, hx, rfl⟩ := List.mem_map.1 ht
    obtain ⟨i, hi, h⟩ := mem_twoWays.1 hx
    refine ⟨i, hi, ?_⟩
    rcases h with rfl | rfl <;> (cases h1; cases h2; exact ⟨rfl, rfl⟩)
  have key : ∀ j i, n ≤ i + j → Acc (LeadsTo ((twoWays n).map fun x => x.2.2)) (manyB i) := by
    intro j
    induction j with
    | zero =>
      intro i hi
      refine ⟨_, fun c hc => ?_⟩
      obtain ⟨i', hi', h1, -⟩ := step _ _ hc
      have := manyB_inj h1
      omega
    | succ j ih =>
      intro i hi
      refine ⟨_, fun c hc => ?_⟩
      obtain ⟨i', hi', h1, rfl⟩ := step _ _ hc
      have := manyB_inj h1
      exact ih _ (by omega)
  intro b
  refine ⟨_, fun c hc => ?_⟩
  obtain ⟨i, -, -, rfl⟩ := step _ _ hc
  exact key n _ (by omega)

/-- A statement about one blank node and the next. -/
def nextStmt (p : Str) (i : Nat) : Stmt := .mk (.blank (manyB i)) ⟨p⟩ (.blank (manyB (i + 1)))

/-- The chains of `j` statements from the blank node `i` on. -/
def ways : Nat → Nat → List (List Stmt)
  | _, 0 => [[]]
  | i, j + 1 => (ways (i + 1) j).map (nextStmt (str! "http://a/p") i :: ·) ++ (ways (i + 1) j).map (nextStmt (str! "http://a/q") i :: ·)

theorem ways_length (i j : Nat) : (ways i j).length = 2 ^ j := by
  induction j generalizing i with
  | zero => rfl
  | succ j ih => rw [ways, List.length_append, List.length_map, List.length_map, ih, Nat.pow_succ]; omega

theorem ways_nodup (i j : Nat) : (ways i j).Nodup := by
  induction j generalizing i with
  | zero => simp [ways]
  | succ j ih =>
    rw [ways]
    refine List.nodup_append.2 ⟨(ih _).map fun a b h => (List.cons.inj h).2, (ih _).map fun a b h => (List.cons.inj h).2, ?_⟩
    rintro a ha b hb rfl
    obtain ⟨c₁, -, rfl⟩ := List.mem_map.1 ha
    obtain ⟨c₂, -, e⟩ := List.mem_map.1 hb
    have := (List.cons.inj e).1
    simp [nextStmt] at this

theorem ways_chain {g : Graph} {n : Nat}
    (hg : ∀ i < n, nextStmt (str! "http://a/p") i ∈ g.stmts ∧ nextStmt (str! "http://a/q") i ∈ g.stmts) {i j : Nat} (h : i + j ≤ n) :
    ∀ c ∈ ways i j, c.length = j ∧ StmtChain g c ∧ ∀ u ∈ c.head?, u.subject = .blank (manyB i) := by
  induction j generalizing i with
  | zero => intro c hc; simp [ways] at hc; subst hc; exact ⟨rfl, trivial, by simp⟩
  | succ j ih =>
    intro c hc
    rw [ways, List.mem_append] at hc
    rcases hc with hc | hc
    all_goals
      obtain ⟨c, hc', rfl⟩ := List.mem_map.1 hc
      obtain ⟨h1, h2, h3⟩ := ih (i := i + 1) (by omega) c hc'
      refine ⟨by simp [h1], ⟨?_, ⟨_, rfl, h3⟩, h2⟩, fun u hu => by simp at hu; subst hu; rfl⟩
      first | exact (hg i (by omega)).1 | exact (hg i (by omega)).2

/-- C173, how long it is: from a document of fewer than `50 (n + 1)²` characters Turtle text of more than `2 ^ n` characters is written. -/
theorem C173_doubles (sty : IriStyle) (n : Nat) (hn : 0 < n) :
    (twoWaysText n).length ≤ 50 * (n * (n + 1)) ∧ ∃ m out, cliMain { docCli sty with deep := m } (twoWaysText n) (.convert .nTriples .turtle) =
      .success out ∧ 2 ^ n ≤ out.length := by
  refine ⟨twoWays_length n, ?_⟩
  have hl : LastGap [] := ⟨[], [], .nil, rfl, .inl rfl⟩
  have hch : ∀ c ∈ (str! "_:b<>http://a/pq .\n"), strictEnv.pr c = true ∧ c ≠ '\x00' ∨ c ∈ (str! "\t\r\n") := by decide +kernel
  have hp : Printed docEnv.pr (twoWaysText n) := webCli_printed _ fun c hc => hch c (twoWays_chars n c hc)
  obtain ⟨m, out, hout⟩ := (C171_iff (docCli sty) [] [] (twoWays n) docEnv_strict docEnv_sane webEnv_web.type easyEnv_ascii sameOrder_fair .nil hl
    (twoWays_valid n) hp).2 ⟨fun x hx i hi => by
      obtain ⟨j, -, h⟩ := mem_twoWays.1 hx
      rcases h with rfl | rfl
      · simp [nextLine, irisOfTriple] at hi
        subst hi
        decide +kernel
      · simp [nextLine, irisOfTriple] at hi
        subst hi
        decide +kernel, twoWays_ends n⟩
  refine ⟨m, out, hout, ?_⟩
  obtain ⟨g, hr, hg⟩ := C83_reads docEnv [] [] (twoWays n) docEnv_sane .nil hl (twoWays_valid n)
  have hw := convert_turtle (e := { docCli sty with deep := m }) (source := .nTriples) (g := g) (by
    show cliRead { docCli sty with deep := m } (twoWaysText n) .nTriples = .ok g
    simp only [cliRead]
    exact congrArg Res.toRun hr) hout
  have hsim : ∀ t ∈ g.stmts, simple t = true := fun t ht => (readNt_strict docEnv_strict hr t ht).2.2.1
  have hmem : ∀ p i, nextLine p i ∈ twoWays n → nextStmt p i ∈ g.stmts := by
    intro p i hm
    obtain ⟨st, hst, e⟩ := (hg _).2 ⟨_, hm, rfl⟩
    obtain ⟨h1, h2, h3⟩ := stmtTriple_parts e
    obtain ⟨s, q, o⟩ := st
    obtain rfl : s = _ := (h2 (manyB i)).2 rfl
    obtain rfl : o = _ := (h3 (manyB (i + 1))).2 rfl
    obtain rfl : q = ⟨p⟩ := h1
    exact hst
  have := C173_brackets _ _ _ _ _ _ _ _ _ _ sameOrder_fair rfl (fun t ht => simple_notNested (hsim t ht)) hw (ways 0 n) (ways_nodup 0 n) fun c hc => by
    obtain ⟨h1, h2, -⟩ := ways_chain (g := g) (n := n) (fun i hi => ⟨hmem _ _ (mem_twoWays.2 ⟨i, hi, .inl rfl⟩), hmem _ _ (mem_twoWays.2 ⟨i, hi, .inr rfl⟩)⟩)
      (i := 0) (j := n) (by omega) c hc
    exact ⟨fun h => by rw [h] at h1; simp at h1; omega, h2⟩
  rw [ways_length] at this
  exact Nat.le_trans this List.count_le_length

theorem pow_wins (a k : Nat) : ∃ n, 0 < n ∧ a * (50 * (n * (n + 1)) + 1) ^ k < 2 ^ n := by
  have hj : ∀ j : Nat, (j + 1) * (j + 1) ≤ 2 ^ (2 * j) := by
    intro j
    have : j + 1 ≤ 2 ^ j := Nat.lt_two_pow_self
    rw [Nat.two_mul, Nat.pow_add]
    exact Nat.mul_le_mul this this
  obtain ⟨m, hm⟩ : ∃ m, a + (2 * m + 7) * k ≤ 2 ^ m := by
    refine ⟨2 * (4 * k + a + 7), Nat.le_trans ?_ (hj _)⟩
    generalize hJ : 4 * k + a + 7 = j
    have e1 : (2 * (2 * j) + 7) * k = 4 * k * j + 7 * k := by
      rw [Nat.add_mul, ← Nat.mul_assoc, Nat.mul_right_comm]
    have e2 : (j + 1) * (j + 1) = j * j + 2 * j + 1 := by rw [Nat.add_mul, Nat.mul_add]; omega
    have e3 : j * j = 4 * k * j + a * j + 7 * j := by rw [← Nat.add_mul, ← Nat.add_mul, hJ]
    have e4 : a ≤ a * j := Nat.le_mul_of_pos_right _ (by omega)
    omega
  refine ⟨2 ^ m, Nat.pow_pos (by decide), ?_⟩
  have h1 : 50 * (2 ^ m * (2 ^ m + 1)) + 1 ≤ 2 ^ (2 * m + 7) := by
    have hp : 1 ≤ 2 ^ m := Nat.one_le_two_pow
    rw [Nat.pow_add, Nat.two_mul, Nat.pow_add]
    generalize 2 ^ m = x at hp
    have : x ≤ x * x := Nat.le_mul_of_pos_left _ hp
    rw [Nat.mul_add]
    show _ ≤ x * x * 128
    omega
  calc a * (50 * (2 ^ m * (2 ^ m + 1)) + 1) ^ k ≤ a * (2 ^ (2 * m + 7)) ^ k := Nat.mul_le_mul_left _ (Nat.pow_le_pow_left h1 k)
    _ < 2 ^ a * (2 ^ (2 * m + 7)) ^ k := Nat.mul_lt_mul_of_pos_right Nat.lt_two_pow_self (Nat.pow_pos (Nat.pow_pos (by decide)))
    _ = 2 ^ (a + (2 * m + 7) * k) := by rw [← Nat.pow_mul, ← Nat.pow_add]
    _ ≤ 2 ^ 2 ^ m := Nat.pow_le_pow_right (by decide) hm

/-- C173 fails in either style: the text grows faster than every polynomial. -/
theorem C173_fails (sty : IriStyle) : ¬ C173_statement sty := by
  rintro ⟨a, k, h⟩
  obtain ⟨n, hn, hlt⟩ := pow_wins a k
  obtain ⟨hlen, m, out, hout, hge⟩ := C173_doubles sty n hn
  have hch : ∀ c ∈ (str! "_:b<>http://a/pq .\n"), strictEnv.pr c = true ∧ c ≠ '\x00' ∨ c ∈ (str! "\t\r\n") := by decide +kernel
  have hp : Printed docEnv.pr (twoWaysText n) := webCli_printed _ fun c hc => hch c (twoWays_chars n c hc)
  have := h { docCli sty with deep := m } (twoWaysText n) out rfl docEnv_strict docEnv_sane webEnv_web easyEnv_ascii sameOrder_fair hp hout
  have h2 : a * ((twoWaysText n).length + 1) ^ k ≤ a * (50 * (n * (n + 1)) + 1) ^ k :=
    Nat.mul_le_mul_left _ (Nat.pow_le_pow_left (by omega) k)
  omega

end Rdftk
