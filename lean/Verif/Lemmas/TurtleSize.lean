import Verif.Spec.Chain
import Verif.Lemmas.TurtleNested
import Verif.Lemmas.TurtleEnd
import Mathlib.Algebra.BigOperators.Group.List.Basic
import Mathlib.Algebra.Order.BigOperators.Group.List

/-! How long the text of the Turtle writer is: the brackets from below, all characters from above. -/

namespace Rdftk
open Spec

/-- The brackets that are opened in a text. -/
def opened (t : Str) : Nat := t.count '['

theorem opened_append (s t : Str) : opened (s ++ t) = opened s + opened t := List.count_append

/-- Each time the object is written so many brackets are opened. -/
def Opens (wo : Nat → TurtleFlags → Object → Step) (B : Object → Nat) : Prop :=
  ∀ w f o d t e, wo w f o d = .ok (t, e) → B o ≤ opened t

theorem writeObjects_opens {wo : Nat → TurtleFlags → Object → Step} {B : Object → Nat} (hB : Opens wo B) {w m d : Nat} {f : TurtleFlags}
    {os : List Object} {t : Str} {e : Nat} (h : writeObjects wo w m f os d = .ok (t, e)) : (os.map B).sum ≤ opened t := by
  induction os generalizing d t with
  | nil => simp
  | cons o os ih =>
    obtain ⟨t₁, d₁, t₂, h1, h2, rfl⟩ := Step.andThen_ok.1 h
    obtain ⟨t₃, d₂, t₄, h3, -, rfl⟩ := Step.andThen_ok.1 h1
    have := hB _ _ _ _ _ _ h3
    have := ih h2
    simp only [List.map_cons, List.sum_cons, opened_append]
    omega

theorem writePredicateLoop_opens {env : TurtleEnv} {wo : Nat → TurtleFlags → Object → Step} {B : Object → Nat} (hB : Opens wo B)
    (hfair : env.orders.Fair) {w m d : Nat} {s : Subject} {f : TurtleFlags} {total count : Nat} {l : List (PredGroup × Iri)} {t : Str}
    {e : Nat} (h : writePredicateLoop env wo w s m total f count l d = .ok (t, e)) :
    (l.map fun x => ((env.graph.objectsFor s x.2).map B).sum).sum ≤ opened t := by
  induction l generalizing count d t with
  | nil => simp
  | cons x l ih =>
    obtain ⟨g, p⟩ := x
    obtain ⟨t₁, d₁, t₂, h1, h2, rfl⟩ := Step.andThen_ok.1 h
    obtain ⟨t₃, d₂, t₄, -, h3, rfl⟩ := Step.andThen_ok.1 h1
    obtain ⟨os, ho, h4⟩ := Run.bind_ok.1 h3
    have h5 := writeObjects_opens hB h4
    have hp := (sortedObjects_perm ho).trans (hfair.2.2 s p _)
    rw [(hp.map B).sum_eq] at h5
    have := ih h2
    simp only [List.map_cons, List.sum_cons, opened_append]
    omega

/-- The statements about a subject, each once. -/
def stmtsAbout (g : Graph) (s : Subject) : List Stmt := (setOf g.stmts).filter fun t => t.subject = s

theorem mem_stmtsAbout {g : Graph} {s : Subject} {t : Stmt} : t ∈ stmtsAbout g s ↔ t ∈ g.stmts ∧ t.subject = s := by
  simp [stmtsAbout, mem_setOf]

theorem stmtsAbout_nodup (g : Graph) (s : Subject) : (stmtsAbout g s).Nodup := (setOf_nodup _).filter _

theorem stmtsAbout_sum {g : Graph} {s : Subject} (B : Object → Nat) :
    ((g.predicatesFor s).map fun p => ((g.objectsFor s p).map B).sum).sum = ((stmtsAbout g s).map fun t => B t.object).sum := by
  have hE := entriesOf (l := g.predicatesFor s) (s := s) (g := g) (.refl _) (F := g.objectsFor s) fun p => .refl _
  have hp : (((g.predicatesFor s).flatMap fun p => (g.objectsFor s p).map fun o => (p, o)).map fun e => Stmt.mk s e.1 e.2).Perm (stmtsAbout g s) := by
    obtain ⟨n, hm⟩ := hE.stmts
    refine (List.perm_ext_iff_of_nodup n (stmtsAbout_nodup g s)).2 fun t => ?_
    rw [hm, mem_stmtsAbout, List.mem_singleton]
  rw [← (hp.map fun t => B t.object).sum_eq, List.map_map, List.map_flatMap, List.flatMap_def, List.sum_flatten, List.map_map]
  congr 1
  refine List.map_congr_left fun p _ => ?_
  simp only [Function.comp, List.map_map]
  rfl

theorem writePredicates_opens {env : TurtleEnv} {wo : Nat → TurtleFlags → Object → Step} {B : Object → Nat} (hB : Opens wo B)
    (hfair : env.orders.Fair) {w d : Nat} {s : Subject} {f : TurtleFlags} {t : Str} {e : Nat}
    (h : writePredicates env wo w f s d = .ok (t, e)) : ((stmtsAbout env.graph s).map fun t => B t.object).sum ≤ opened t := by
  obtain ⟨m, -, h1⟩ := Run.bind_ok.1 h
  obtain ⟨l, hl, h2⟩ := Run.bind_ok.1 h1
  have h3 := writePredicateLoop_opens hB hfair h2
  have hp := (predicateSequence_perm hl).trans ((hfair.2.1 s _).map _)
  rw [(hp.map _).sum_eq, List.map_map] at h3
  rwa [← stmtsAbout_sum]

/-- The chains of statements that start at a blank node and are shorter than `n`. -/
def chainsFrom (g : Graph) : Nat → Str → List (List Stmt)
  | 0, _ => []
  | n + 1, b => [] :: (stmtsAbout g (.blank b)).flatMap fun t =>
    match t.object with
    | .blank c => (chainsFrom g n c).map (t :: ·)
    | _ => []

/-- The chains that go on after a statement with the object. -/
def chainsAfter (g : Graph) (n : Nat) : Object → Nat
  | .blank c => (chainsFrom g n c).length
  | _ => 0

theorem length_chainsFrom (g : Graph) (n : Nat) (b : Str) :
    (chainsFrom g (n + 1) b).length = 1 + ((stmtsAbout g (.blank b)).map fun t => chainsAfter g n t.object).sum := by
  simp only [chainsFrom, List.length_cons, List.length_flatMap]
  rw [Nat.add_comm]
  congr 2
  refine List.map_congr_left fun t _ => ?_
  cases t.object <;> simp [chainsAfter]

theorem writeObject_opens {env : TurtleEnv} (hfair : env.orders.Fair) (hn : env.opts.nest = true) (n : Nat) :
    Opens (writeObject env n) (chainsAfter env.graph n) := by
  induction n with
  | zero => intro w f o d t e h; simp [writeObject] at h
  | succ n ih =>
    intro w f o d t e h
    cases o with
    | blank b =>
      rw [chainsAfter, length_chainsFrom]
      simp only [writeObject, writeObjectStep, hn, if_true] at h
      split at h
      · obtain ⟨t₁, d₁, t₂, h1, h2, rfl⟩ := Step.andThen_ok.1 h
        obtain ⟨t₃, d₂, t₄, h3, h4, rfl⟩ := Step.andThen_ok.1 h1
        obtain ⟨t₅, d₃, t₆, h5, h6, rfl⟩ := Step.andThen_ok.1 h3
        obtain ⟨t₇, d₄, t₈, h7, h8, rfl⟩ := Step.andThen_ok.1 h5
        obtain ⟨rfl, rfl⟩ := text_eq h8
        have := writePredicates_opens ih hfair h6
        simp only [opened_append]
        have h9 : opened (str! "[") = 1 := by decide
        omega
      · rename_i hs
        obtain ⟨rfl, rfl⟩ := text_eq h
        have h9 : opened (str! "[]") = 1 := by decide
        have : stmtsAbout env.graph (.blank b) = [] := by
          refine List.eq_nil_iff_forall_not_mem.2 fun t ht => hs ?_
          obtain ⟨s, p, o⟩ := t
          obtain ⟨h1, rfl⟩ := mem_stmtsAbout.1 ht
          exact containsSubject_iff.2 ⟨p, o, h1⟩
        rw [this, h9]
        simp
    | _ => exact Nat.zero_le _

/-! ### The document -/

/-- The chains that start with a statement about one of the subjects. -/
theorem writeBlock_opens {env : TurtleEnv} (hfair : env.orders.Fair) (hn : env.opts.nest = true) {n w d : Nat} {s : Subject} {t : Str}
    {e : Nat} (h : writeBlock env n w s d = .ok (t, e)) :
    ((stmtsAbout env.graph s).map fun t => chainsAfter env.graph n t.object).sum ≤ opened t := by
  obtain ⟨t₁, d₁, t₂, h1, h2, rfl⟩ := Step.andThen_ok.1 h
  obtain ⟨t₃, d₂, t₄, h3, h4, rfl⟩ := Step.andThen_ok.1 h1
  have := writePredicates_opens (writeObject_opens hfair hn n) hfair h4
  simp only [opened_append]
  omega

theorem writeNodes_opens {env : TurtleEnv} (hfair : env.orders.Fair) (hn : env.opts.nest = true) {n w d : Nat} {l : List Subject} {t : Str}
    {e : Nat} (h : writeNodes env n w l d = .ok (t, e)) :
    ((l.flatMap (stmtsAbout env.graph)).map fun t => chainsAfter env.graph n t.object).sum ≤ opened t := by
  induction l generalizing d t with
  | nil => simp
  | cons s l ih =>
    obtain ⟨t₁, d₁, t₂, h1, h2, rfl⟩ := Step.andThen_ok.1 h
    have := writeBlock_opens hfair hn h1
    have := ih h2
    simp only [List.flatMap_cons, List.map_append, List.sum_append, opened_append]
    omega

theorem writeBlanks_opens {env : TurtleEnv} (hfair : env.orders.Fair) (hn : env.opts.nest = true) {n w d : Nat} {l : List Subject} {t : Str}
    {e : Nat} (h : writeBlanks env n w l d = .ok (t, e)) :
    ((l.flatMap (stmtsAbout env.graph)).map fun t => chainsAfter env.graph n t.object).sum ≤ opened t := by
  induction l generalizing d t with
  | nil => simp
  | cons s l ih =>
    obtain ⟨t₁, d₁, t₂, h1, h2, rfl⟩ := Step.andThen_ok.1 h
    obtain ⟨t₃, d₂, t₄, -, h4, rfl⟩ := Step.andThen_ok.1 h1
    have := writeBlock_opens hfair hn h4
    have := ih h2
    simp only [List.flatMap_cons, List.map_append, List.sum_append, opened_append]
    omega

/-- The subjects in the order in which they are written. -/
def subjectOrder (env : TurtleEnv) : List Subject := sortedSubjects env.graph ++ env.orders.subj env.graph.blankSubjects

theorem subjectOrder_stmts {env : TurtleEnv} (hfair : env.orders.Fair) :
    ((subjectOrder env).flatMap (stmtsAbout env.graph)).Perm (setOf env.graph.stmts) := by
  have m1 : ∀ s, s ∈ sortedSubjects env.graph ↔ _ := fun s => (sortBy_perm _ _).mem_iff.trans mem_nodeSubjects
  have m2 : ∀ s, s ∈ env.orders.subj env.graph.blankSubjects ↔ _ :=
    fun s => (hfair.1 _).mem_iff.trans mem_blankSubjects
  have hn : (subjectOrder env).Nodup := by
    refine List.nodup_append.2 ⟨(sortBy_perm _ _).nodup_iff.2 (nodeSubjects_nodup _), (hfair.1 _).nodup_iff.2 (blankSubjects_nodup _), ?_⟩
    rintro a ha b hb rfl
    have := ((m1 a).1 ha).2
    rw [((m2 a).1 hb).2] at this
    cases this
  refine (List.perm_ext_iff_of_nodup ?_ (setOf_nodup _)).2 fun t => ?_
  · rw [List.nodup_flatMap]
    refine ⟨fun s _ => stmtsAbout_nodup _ s, hn.imp fun {a b} hab t ha hb => hab ?_⟩
    rw [← (mem_stmtsAbout.1 ha).2, (mem_stmtsAbout.1 hb).2]
  · rw [List.mem_flatMap, mem_setOf]
    constructor
    · rintro ⟨s, -, ht⟩
      exact (mem_stmtsAbout.1 ht).1
    · intro ht
      refine ⟨t.subject, ?_, mem_stmtsAbout.2 ⟨ht, rfl⟩⟩
      obtain ⟨s, p, o⟩ := t
      have hc : env.graph.containsSubject s := containsSubject_iff.2 ⟨p, o, ht⟩
      rw [subjectOrder, List.mem_append, m1, m2]
      cases hb : s.isBlank
      · exact .inl ⟨hc, hb⟩
      · exact .inr ⟨hc, hb⟩

theorem writeTriples_opens {env : TurtleEnv} (hfair : env.orders.Fair) (hn : env.opts.nest = true) {n d : Nat} {t : Str}
    {e : Nat} (h : writeTriples env n d = .ok (t, e)) :
    ((setOf env.graph.stmts).map fun t => chainsAfter env.graph n t.object).sum ≤ opened t := by
  obtain ⟨t₁, d₁, t₂, h1, h2, rfl⟩ := Step.andThen_ok.1 h
  have k1 := writeNodes_opens hfair hn h1
  have k2 := writeBlanks_opens hfair hn h2
  rw [← ((subjectOrder_stmts hfair).map _).sum_eq, subjectOrder, List.flatMap_append, List.map_append, List.sum_append, opened_append]
  omega

/-! ### Chains -/

theorem mem_chainsFrom {g : Graph} {n : Nat} {b : Str} {c : List Stmt} (h : StmtChain g c) (hb : ∀ u ∈ c.head?, u.subject = .blank b)
    (hn : c.length < n) : c ∈ chainsFrom g n b := by
  induction c generalizing n b with
  | nil =>
    cases n with
    | zero => simp at hn
    | succ n => simp [chainsFrom]
  | cons t c ih =>
    cases n with
    | zero => simp at hn
    | succ n =>
      obtain ⟨h1, ⟨b', h2, h3⟩, h4⟩ := h
      refine List.mem_cons_of_mem _ (List.mem_flatMap.2 ⟨t, mem_stmtsAbout.2 ⟨h1, hb t (by simp)⟩, ?_⟩)
      rw [h2]
      exact List.mem_map.2 ⟨c, ih h4 h3 (by simpa using hn), rfl⟩

/-- A written blank node starts no chain that is as long as the room. -/
theorem wrote_short {env : TurtleEnv} (hfair : env.orders.Fair) (hn : env.opts.nest = true) {n : Nat} {b : Str}
    (h : Wrote (writeObject env n) (.blank b)) {c : List Stmt} (hc : StmtChain env.graph c) (hb : ∀ u ∈ c.head?, u.subject = .blank b) :
    c.length < n := by
  induction c generalizing n b with
  | nil =>
    cases n with
    | zero => obtain ⟨_, _, _, _, h⟩ := h; simp [writeObject] at h
    | succ n => simp
  | cons t c ih =>
    cases n with
    | zero => obtain ⟨_, _, _, _, h⟩ := h; simp [writeObject] at h
    | succ n =>
      obtain ⟨s, p, o⟩ := t
      obtain ⟨h1, ⟨b', h2, h3⟩, h4⟩ := hc
      obtain rfl : s = _ := hb _ rfl
      obtain rfl : o = _ := h2
      have := ih (wrote_properties hfair hn (containsSubject_iff.2 ⟨p, _, h1⟩) h p _ h1) h4 h3
      simpa using this

theorem chains_opened {env : TurtleEnv} (hfair : env.orders.Fair) (hn : env.opts.nest = true) {n d : Nat} {t : Str}
    {e : Nat} (h : writeTriples env n d = .ok (t, e)) {cs : List (List Stmt)} (hd : cs.Nodup)
    (hc : ∀ c ∈ cs, c ≠ [] ∧ StmtChain env.graph c) : cs.length ≤ opened t := by
  refine Nat.le_trans ?_ (writeTriples_opens hfair hn h)
  have hs : cs ⊆ (setOf env.graph.stmts).flatMap fun t =>
      match t.object with
      | .blank c => (chainsFrom env.graph n c).map (t :: ·)
      | _ => [] := by
    intro c hm
    obtain ⟨hne, hch⟩ := hc c hm
    cases c with
    | nil => exact absurd rfl hne
    | cons u c =>
      obtain ⟨h1, ⟨b, h2, h3⟩, h4⟩ := hch
      refine List.mem_flatMap.2 ⟨u, mem_setOf.2 h1, ?_⟩
      rw [h2]
      refine List.mem_map.2 ⟨c, mem_chainsFrom h4 h3 (wrote_short hfair hn ?_ h4 h3), rfl⟩
      obtain ⟨s, p, o⟩ := u
      obtain rfl : o = _ := h2
      obtain ⟨d, y, hblk⟩ := writeTriples_block hfair h (containsSubject_iff.2 ⟨p, _, h1⟩)
      exact (writeBlock_wrote hfair hblk).2 p _ h1
  have := (List.subperm_of_subset hd hs).length_le
  rw [List.length_flatMap] at this
  refine Nat.le_trans this (Nat.le_of_eq ?_)
  congr 1
  refine List.map_congr_left fun t _ => ?_
  cases t.object <;> simp [chainsAfter]

/-! ### From above -/

/-- No text of a node is longer than `M`. -/
structure Short (env : TurtleEnv) (M : Nat) : Prop where
  one : 1 ≤ M
  type : ∀ s, compressIri env rdfType = .ok s → s.length ≤ M
  subject : ∀ t ∈ env.graph.stmts, (∀ b, t.subject = .blank b → b.length ≤ M) ∧
    ∀ i s, t.subject = .res i → compressIri env i = .ok s → s.length ≤ M
  predicate : ∀ t ∈ env.graph.stmts, ∀ s, compressIri env t.predicate = .ok s → s.length ≤ M ∧ byteLen s ≤ M
  object : ∀ t ∈ env.graph.stmts, (∀ b, t.object = .blank b → b.length ≤ M) ∧
    (∀ i s, t.object = .res i → compressIri env i = .ok s → s.length ≤ M) ∧
    (∀ l s, t.object = .lit l → writeLiteral env l = .ok s → s.length ≤ M) ∧ ∀ c, t.object ≠ .coll c

theorem newLine_length {f : TurtleFlags} {d : Nat} {t : Str} {e : Nat} (h : newLine f d = .ok (t, e)) : t.length ≤ d + 1 ∧ e = d := by
  unfold newLine at h
  simp only [Run.ok.injEq, Prod.mk.injEq] at h
  obtain ⟨rfl, rfl⟩ := h
  refine ⟨?_, rfl⟩
  split <;> simp

theorem writeObjectAnd_length {wo : Nat → TurtleFlags → Object → Step} (hk : Keeps wo) {w m d D M b : Nat} {f : TurtleFlags} {o : Object} {t : Str}
    {e : Nat} (hm : m ≤ M + 1) (hd : d + w ≤ D) (hb : ∀ f x e, wo w f o d = .ok (x, e) → x.length + (D + M + 4) ≤ b)
    (h : writeObjectAnd wo w m f o d = .ok (t, e)) : t.length ≤ b := by
  obtain ⟨t₁, d₁, t₂, h1, h2, rfl⟩ := Step.andThen_ok.1 h
  have h3 := hb _ _ _ h1
  obtain rfl := hk _ _ _ _ _ _ h1
  have : t₂.length ≤ D + M + 4 := by
    split at h2
    · obtain ⟨t₃, d₂, t₄, h4, h5, rfl⟩ := Step.andThen_ok.1 h2
      have k : t₃ = [] := by
        split at h4
        · exact (outdent_eq h4).1
        · exact (nop_eq h4).1
      subst k
      split at h5
      · rename_i h0
        obtain ⟨t₅, d₃, t₆, h6, h7, rfl⟩ := Step.andThen_ok.1 h5
        obtain ⟨rfl, rfl⟩ := text_eq h6
        have := (newLine_length h7).1
        simp
        omega
      · split at h5
        · obtain ⟨rfl, -⟩ := nop_eq h5
          simp
        · obtain ⟨rfl, -⟩ := text_eq h5
          simp
    · obtain ⟨t₃, d₂, t₄, h4, h5, rfl⟩ := Step.andThen_ok.1 h2
      obtain ⟨rfl, rfl⟩ := text_eq h4
      split at h5
      · obtain ⟨rfl, -⟩ := nop_eq h5
        simp
      · obtain ⟨t₅, d₃, t₆, h6, h7, rfl⟩ := Step.andThen_ok.1 h5
        obtain ⟨rfl, -⟩ := outdent_eq h7
        obtain ⟨t₇, d₄, t₈, h8, h9, rfl⟩ := Step.andThen_ok.1 h6
        obtain ⟨t₉, d₅, t₁₀, h10, h11, rfl⟩ := Step.andThen_ok.1 h8
        obtain ⟨rfl, rfl⟩ := indent_eq h10
        have k1 := (newLine_length h11).1
        have k2 : t₈.length ≤ M + 1 := by
          split at h9
          · obtain ⟨rfl, -⟩ := text_eq h9
            unfold padding padRight
            split
            · simp
            · simp
              omega
          · obtain ⟨rfl, -⟩ := nop_eq h9
            simp
        simp
        omega
  simp only [List.length_append]
  omega

theorem writeObjects_length {wo : Nat → TurtleFlags → Object → Step} (hk : Keeps wo) {w m d D M V : Nat} {B : Object → Nat} {f : TurtleFlags}
    {os : List Object} {t : Str} {e : Nat} (hm : m ≤ M + 1) (hd : d + w ≤ D)
    (hb : ∀ o ∈ os, ∀ f x e, wo w f o d = .ok (x, e) → x.length + (D + M + 4) + V ≤ B o)
    (h : writeObjects wo w m f os d = .ok (t, e)) : t.length + os.length * V ≤ (os.map B).sum := by
  induction os generalizing t with
  | nil => simp [nop_eq h]
  | cons o os ih =>
    obtain ⟨t₁, d₁, t₂, h1, h2, rfl⟩ := Step.andThen_ok.1 h
    have hB : V ≤ B o := by
      obtain ⟨t₃, d₂, t₄, h3, -, -⟩ := Step.andThen_ok.1 h1
      have := hb o (by simp) _ _ _ h3
      omega
    have h3 : t₁.length ≤ B o - V := writeObjectAnd_length hk hm hd (fun f x e hx => by
      have := hb o (by simp) f x e hx
      omega) h1
    cases os with
    | nil =>
      obtain ⟨rfl, -⟩ := nop_eq h2
      simp
      omega
    | cons o' os =>
      have := writeObjectAnd_keeps hk h1
      simp only [List.isEmpty_cons, Bool.false_and, if_false] at this
      have hd1 : d₁ = d := by simpa using this
      subst hd1
      have := ih (fun o ho => hb o (List.mem_cons_of_mem _ ho)) h2
      simp only [List.length_append, List.map_cons, List.sum_cons, List.length_cons, Nat.add_mul] at this ⊢
      omega

theorem padded_le {s : Str} {m M : Nat} (h1 : s.length ≤ M) (h2 : m ≤ M + 1) : (padded s m).length ≤ M + 1 := by
  unfold padded padRight
  split
  · simp
    omega
  · simp
    omega

theorem writeVerb_length {env : TurtleEnv} {g : PredGroup} {p : Iri} {m d D M : Nat} {f : TurtleFlags} {t : Str} {e : Nat}
    (h0 : 1 ≤ M) (h1 : ∀ s, compressIri env rdfType = .ok s → s.length ≤ M) (h2 : ∀ s, compressIri env p = .ok s → s.length ≤ M)
    (hm : m ≤ M + 1) (hd : d ≤ D) (h : writeVerb env g p m f d = .ok (t, e)) : t.length ≤ D + M + 2 := by
  unfold writeVerb at h
  dsimp only at h
  have hv : ∀ s, (if env.opts.typeA = true then Run.ok (str! "a") else compressIri env rdfType) = .ok s → s.length ≤ M := by
    intro s hs
    split at hs
    · simp only [Run.ok.injEq] at hs
      subst hs
      exact h0
    · exact h1 s hs
  split at h
  · split at h
    · obtain ⟨h3, -⟩ := run_eq h
      obtain ⟨s, h4, h5⟩ := Run.bind_ok.1 h3
      simp only [Run.ok.injEq] at h5
      subst h5
      have := hv s h4
      simp
      omega
    · obtain ⟨t₁, d₁, t₂, h3, h4, rfl⟩ := Step.andThen_ok.1 h
      obtain ⟨k1, rfl⟩ := newLine_length h3
      obtain ⟨s, h5, h6⟩ := Run.bind_ok.1 (run_eq h4).1
      simp only [Run.ok.injEq] at h6
      subst h6
      have := padded_le (hv s h5) hm
      simp only [List.length_append]
      omega
  · obtain ⟨t₁, d₁, t₂, h3, h4, rfl⟩ := Step.andThen_ok.1 h
    obtain ⟨k1, rfl⟩ := newLine_length h3
    obtain ⟨s, h5, h6⟩ := Run.bind_ok.1 (run_eq h4).1
    simp only [Run.ok.injEq] at h6
    subst h6
    have := padded_le (h2 s h5) hm
    simp only [List.length_append]
    omega

/-- What is written for a statement besides its object. -/
def extra (D M : Nat) : Nat := (D + M + 4) + (D + M + 2)

theorem writePredicateLoop_length {env : TurtleEnv} {wo : Nat → TurtleFlags → Object → Step} (hk : Keeps wo) (hfair : env.orders.Fair)
    {w m d D M : Nat} {B : Object → Nat} {s : Subject} {f : TurtleFlags} {total count : Nat} {l : List (PredGroup × Iri)} {t : Str} {e : Nat}
    (h0 : 1 ≤ M) (h1 : ∀ s, compressIri env rdfType = .ok s → s.length ≤ M) (hm : m ≤ M + 1) (hd : d + w ≤ D)
    (hl : ∀ x ∈ l, env.graph.objectsFor s x.2 ≠ [] ∧ (∀ s, compressIri env x.2 = .ok s → s.length ≤ M) ∧
      ∀ o ∈ env.graph.objectsFor s x.2, ∀ f x e, wo w f o d = .ok (x, e) → x.length + extra D M ≤ B o)
    (hc : count + l.length = total)
    (h : writePredicateLoop env wo w s m total f count l d = .ok (t, e)) :
    t.length ≤ (l.map fun x => ((env.graph.objectsFor s x.2).map B).sum).sum := by
  induction l generalizing count t with
  | nil => simp [nop_eq h]
  | cons x l ih =>
    obtain ⟨g, p⟩ := x
    obtain ⟨t₁, d₁, t₂, h2, h3, rfl⟩ := Step.andThen_ok.1 h
    obtain ⟨t₃, d₂, t₄, h4, h5, rfl⟩ := Step.andThen_ok.1 h2
    obtain ⟨os, ho, h6⟩ := Run.bind_ok.1 h5
    obtain ⟨n1, n2, n3⟩ := hl (g, p) (by simp)
    have hp := (sortedObjects_perm ho).trans (hfair.2.2 s p _)
    have k1 := writeVerb_length h0 h1 n2 hm (D := D) (by omega) h4
    obtain rfl := writeVerb_keeps h4
    have k2 := writeObjects_length hk (V := D + M + 2) (B := B) hm hd (fun o ho f x e hx => by
      have := n3 o (hp.mem_iff.1 ho) f x e hx
      unfold extra at this
      omega) h6
    rw [(hp.map B).sum_eq] at k2
    have hne : os ≠ [] := fun h => n1 (by rw [h] at hp; exact hp.nil_eq.symm)
    have k3 : D + M + 2 ≤ os.length * (D + M + 2) := Nat.le_mul_of_pos_left _ (List.length_pos_iff.2 hne)
    simp only [List.length_cons] at hc
    cases l with
    | nil =>
      obtain ⟨rfl, -⟩ := nop_eq h3
      simp only [List.length_append, List.map_cons, List.sum_cons, List.map_nil, List.sum_nil, List.length_nil]
      omega
    | cons y l =>
      have := writeObjects_keeps hk hne h6
      have hcount : (count + 1 == total) = false := by simp only [List.length_cons] at hc; simp; omega
      simp only [hcount] at this
      have hd1 : d₁ = d₂ := by simpa using this
      subst hd1
      have := ih (fun x hx => hl x (List.mem_cons_of_mem _ hx)) (by simp only [List.length_cons] at hc ⊢; omega) h3
      rw [List.map_cons, List.sum_cons]
      simp only [List.length_append]
      omega

theorem foldl_max_le {l : List Str} {a M : Nat} (ha : a ≤ M) (h : ∀ s ∈ l, byteLen s ≤ M) : l.foldl (fun a b => max a (byteLen b)) a ≤ M := by
  induction l generalizing a with
  | nil => exact ha
  | cons s l ih =>
    rw [List.foldl_cons]
    exact ih (Nat.max_le.2 ⟨ha, h s (by simp)⟩) fun s hs => h s (List.mem_cons_of_mem _ hs)

theorem forall₂_back {α β : Type} {R : α → β → Prop} {l : List α} {l' : List β} (h : List.Forall₂ R l l') : ∀ b ∈ l', ∃ a ∈ l, R a b := by
  induction h with
  | nil => simp
  | cons hab _ ih =>
    intro b hb
    rcases List.mem_cons.1 hb with rfl | hb
    · exact ⟨_, List.mem_cons_self, hab⟩
    · obtain ⟨a, ha, h⟩ := ih b hb
      exact ⟨a, List.mem_cons_of_mem _ ha, h⟩

theorem writePredicates_length {env : TurtleEnv} {wo : Nat → TurtleFlags → Object → Step} (hk : Keeps wo) (hfair : env.orders.Fair)
    {w d D M : Nat} {B : Object → Nat} {s : Subject} {f : TurtleFlags} {t : Str} {e : Nat} (hM : Short env M) (hd : d + w ≤ D)
    (hB : ∀ u ∈ stmtsAbout env.graph s, ∀ f x e, wo w f u.object d = .ok (x, e) → x.length + extra D M ≤ B u.object)
    (h : writePredicates env wo w f s d = .ok (t, e)) : t.length ≤ ((stmtsAbout env.graph s).map fun t => B t.object).sum := by
  obtain ⟨m, hm, h1⟩ := Run.bind_ok.1 h
  obtain ⟨l, hl, h2⟩ := Run.bind_ok.1 h1
  have hp := (predicateSequence_perm hl).trans ((hfair.2.1 s _).map _)
  have hpred : ∀ p ∈ env.graph.predicatesFor s, ∀ s, compressIri env p = .ok s → s.length ≤ M ∧ byteLen s ≤ M := by
    intro p hp
    obtain ⟨o, ho⟩ := mem_predicatesFor.1 hp
    exact hM.predicate _ ho
  have hm' : m ≤ M + 1 := by
    split at hm
    · simp only [Run.ok.injEq] at hm
      omega
    · obtain ⟨k, hk, e⟩ := Run.bind_ok.1 hm
      simp only [Run.ok.injEq] at e
      obtain ⟨cs, hcs, e'⟩ := Run.bind_ok.1 hk
      simp only [Run.ok.injEq] at e'
      have : k ≤ M := by
        rw [← e']
        refine foldl_max_le (Nat.zero_le _) fun c hc => ?_
        obtain ⟨p, hp, hpc⟩ := forall₂_back (Run.mapAll_ok.1 hcs) c hc
        exact (hpred p ((hfair.2.1 s _).mem_iff.1 hp) c hpc).2
      omega
  have h3 := writePredicateLoop_length hk hfair (B := B) (D := D) hM.one hM.type hm' hd (fun x hx => by
    obtain ⟨p, hp', rfl⟩ := List.mem_map.1 (hp.mem_iff.1 hx)
    obtain ⟨o, ho⟩ := mem_predicatesFor.1 hp'
    refine ⟨List.ne_nil_of_mem (mem_objectsFor.2 ho), fun s hs => (hpred p hp' s hs).1, fun o ho => ?_⟩
    exact hB _ (mem_stmtsAbout.2 ⟨mem_objectsFor.1 ho, rfl⟩)) (by
      rw [Nat.zero_add]
      simpa using (predicateSequence_perm hl).length_eq) h2
  rw [(hp.map _).sum_eq, List.map_map] at h3
  rwa [← stmtsAbout_sum]

theorem writeSubject_length {env : TurtleEnv} {w M d : Nat} {s : Subject} {t : Str} {e : Nat} (hM : Short env M)
    (hs : env.graph.containsSubject s) (h : writeSubject env w .none s d = .ok (t, e)) : t.length ≤ M + 3 ∧ e = d + w := by
  obtain ⟨p, o, hm⟩ := containsSubject_iff.1 hs
  obtain ⟨t₁, d₁, t₂, h1, h2, rfl⟩ := Step.andThen_ok.1 h
  obtain ⟨rfl, rfl⟩ := indent_eq h2
  rw [List.append_nil]
  cases s with
  | blank b =>
    have := (hM.subject _ hm).1 b rfl
    dsimp only at h1
    split at h1
    · simp only [Run.ok.injEq, Prod.mk.injEq] at h1
      obtain ⟨rfl, rfl⟩ := h1
      refine ⟨?_, rfl⟩
      simp [TurtleFlags.none]
      omega
    · obtain ⟨rfl, rfl⟩ := nop_eq h1
      exact ⟨by simp, rfl⟩
  | res i =>
    obtain ⟨h3, rfl⟩ := run_eq h1
    have := (hM.subject _ hm).2 i _ rfl h3
    exact ⟨by omega, rfl⟩
  | stmt t => simp at h1

theorem sub_sum (l : List Stmt) (B : Object → Nat) (k : Nat) :
    (l.map fun t => B t.object - k).sum ≤ (l.map fun t => B t.object).sum := by
  induction l with
  | nil => simp
  | cons a l ih => simp only [List.map_cons, List.sum_cons]; omega

theorem writeBlock_length {env : TurtleEnv} (hfair : env.orders.Fair) {n w D M : Nat} {B : Object → Nat} {s : Subject} {t : Str} {e : Nat}
    (hM : Short env M) (hs : env.graph.containsSubject s) (hd : w + w ≤ D) (hb : ∀ o, M + 4 ≤ B o)
    (hB : ∀ u ∈ env.graph.stmts, ∀ f x e, writeObject env n w f u.object w = .ok (x, e) → x.length + extra D M + (M + 4) ≤ B u.object)
    (h : writeBlock env n w s 0 = .ok (t, e)) : e = 0 ∧ t.length ≤ ((stmtsAbout env.graph s).map fun t => B t.object).sum := by
  obtain ⟨t₁, d₁, t₂, h1, h2, rfl⟩ := Step.andThen_ok.1 h
  obtain ⟨t₃, d₂, t₄, h3, h4, rfl⟩ := Step.andThen_ok.1 h1
  obtain ⟨rfl, rfl⟩ := text_eq h2
  obtain ⟨k1, rfl⟩ := writeSubject_length hM hs h3
  rw [Nat.zero_add] at h4
  have k2 := writePredicates_keeps (writeObject_keeps hfair n) hfair hs h4
  refine ⟨by omega, ?_⟩
  obtain ⟨p, o, hm⟩ := containsSubject_iff.1 hs
  have k3 := writePredicates_length (writeObject_keeps hfair n) hfair (B := fun o => B o - (M + 4)) hM hd (fun u hu f x e hx => by
    have := hB u (mem_stmtsAbout.1 hu).1 f x e hx
    omega) h4
  have hne : Stmt.mk s p o ∈ stmtsAbout env.graph s := mem_stmtsAbout.2 ⟨hm, rfl⟩
  have k4 : ((stmtsAbout env.graph s).map fun t => B t.object - (M + 4)).sum + (M + 4) ≤ ((stmtsAbout env.graph s).map fun t => B t.object).sum := by
    clear k3
    revert hne
    induction stmtsAbout env.graph s with
    | nil => intro h; cases h
    | cons a l ih =>
      intro _
      have ha := hb a.object
      simp only [List.map_cons, List.sum_cons]
      have := sub_sum l B (M + 4)
      omega
  have k5 : (str! "\n").length = 1 := rfl
  simp only [List.length_append, k5]
  omega

theorem writeNodes_length {env : TurtleEnv} (hfair : env.orders.Fair) {n w D M : Nat} {B : Object → Nat} {l : List Subject} {t : Str} {e : Nat}
    (hM : Short env M) (hs : ∀ s ∈ l, env.graph.containsSubject s) (hd : w + w ≤ D) (hb : ∀ o, M + 4 ≤ B o)
    (hB : ∀ u ∈ env.graph.stmts, ∀ f x e, writeObject env n w f u.object w = .ok (x, e) → x.length + extra D M + (M + 4) ≤ B u.object)
    (h : writeNodes env n w l 0 = .ok (t, e)) : t.length ≤ ((l.flatMap (stmtsAbout env.graph)).map fun t => B t.object).sum := by
  induction l generalizing t with
  | nil => simp [nop_eq h]
  | cons s l ih =>
    obtain ⟨t₁, d₁, t₂, h1, h2, rfl⟩ := Step.andThen_ok.1 h
    obtain ⟨rfl, k1⟩ := writeBlock_length hfair hM (hs s (by simp)) hd hb hB h1
    have := ih (fun s h => hs s (List.mem_cons_of_mem _ h)) h2
    simp only [List.flatMap_cons, List.map_append, List.sum_append, List.length_append]
    omega

theorem writeBlanks_length {env : TurtleEnv} (hfair : env.orders.Fair) {n w d D M : Nat} {B : Object → Nat} {l : List Subject} {t : Str} {e : Nat}
    (hM : Short env M) (hs : ∀ s ∈ l, env.graph.containsSubject s) (hd : w + w ≤ D) (hb : ∀ o, M + 4 ≤ B o)
    (hB : ∀ u ∈ env.graph.stmts, ∀ f x e, writeObject env n w f u.object w = .ok (x, e) → x.length + extra D M + (M + 4) ≤ B u.object)
    (h : writeBlanks env n w l d = .ok (t, e)) : t.length ≤ ((l.flatMap (stmtsAbout env.graph)).map fun t => B t.object).sum := by
  induction l generalizing t d with
  | nil => simp [nop_eq h]
  | cons s l ih =>
    obtain ⟨t₁, d₁, t₂, h1, h2, rfl⟩ := Step.andThen_ok.1 h
    obtain ⟨t₃, d₂, t₄, h3, h4, rfl⟩ := Step.andThen_ok.1 h1
    cases h3
    obtain ⟨rfl, k1⟩ := writeBlock_length hfair hM (hs s (by simp)) hd hb hB h4
    have := ih (fun s h => hs s (List.mem_cons_of_mem _ h)) h2
    simp only [List.flatMap_cons, List.map_append, List.sum_append, List.length_append, List.length_nil]
    omega

theorem writeTriples_length {env : TurtleEnv} (hfair : env.orders.Fair) {n D M : Nat} {B : Object → Nat} {t : Str} {e : Nat}
    (hM : Short env M) (hd : env.opts.width + env.opts.width ≤ D) (hb : ∀ o, M + 4 ≤ B o)
    (hB : ∀ u ∈ env.graph.stmts, ∀ f x e, writeObject env n env.opts.width f u.object env.opts.width = .ok (x, e) →
      x.length + extra D M + (M + 4) ≤ B u.object)
    (h : writeTriples env n 0 = .ok (t, e)) : t.length ≤ ((setOf env.graph.stmts).map fun t => B t.object).sum := by
  obtain ⟨t₁, d₁, t₂, h1, h2, rfl⟩ := Step.andThen_ok.1 h
  have k1 : t₁.length ≤ (((sortedSubjects env.graph).flatMap (stmtsAbout env.graph)).map fun t => B t.object).sum := writeNodes_length hfair hM (fun s hs => (mem_nodeSubjects.1 ((sortBy_perm _ _).mem_iff.1 hs)).1) hd hb hB h1
  have k2 := writeBlanks_length hfair hM (fun s hs => (mem_blankSubjects.1 ((hfair.1 _).mem_iff.1 hs)).1) hd hb hB h2
  rw [← ((subjectOrder_stmts hfair).map _).sum_eq, subjectOrder, List.flatMap_append, List.map_append, List.sum_append, List.length_append]
  omega

/-! ### Walks -/

/-- What is written for an object, and all that can be reached from it in `n` steps through blank nodes. -/
def walksAfter (g : Graph) : Nat → Object → List (List Stmt)
  | n + 1, .blank b => [] :: (stmtsAbout g (.blank b)).flatMap fun t => (walksAfter g n t.object).map (t :: ·)
  | _, _ => [[]]

theorem walksAfter_pos (g : Graph) (n : Nat) (o : Object) : 1 ≤ (walksAfter g n o).length := by
  unfold walksAfter
  split <;> simp

theorem length_walksAfter (g : Graph) (n : Nat) (b : Str) :
    (walksAfter g (n + 1) (.blank b)).length = 1 + ((stmtsAbout g (.blank b)).map fun t => (walksAfter g n t.object).length).sum := by
  simp only [walksAfter, List.length_cons, List.length_flatMap, List.length_map]
  omega

theorem sum_mul (l : List Stmt) (f : Stmt → Nat) (K : Nat) : (l.map fun t => f t * K).sum = (l.map f).sum * K := by
  induction l with
  | nil => simp
  | cons a l ih => simp [ih, Nat.add_mul]

/-- For an object at depth `d` that starts no chain longer than `h`. -/
theorem writeObject_length {env : TurtleEnv} (hfair : env.orders.Fair) {D M K w : Nat} (hM : Short env M) (hK : extra D M + D + M + 3 ≤ K)
    (n : Nat) {h d : Nat} {u : Stmt} (hu : u ∈ env.graph.stmts)
    (hc : ∀ b, u.object = .blank b → ∀ c, StmtChain env.graph c → (∀ v ∈ c.head?, v.subject = .blank b) → c.length ≤ h)
    (hd : ∀ b, u.object = .blank b → d + (h + 2) * w ≤ D) {f : TurtleFlags} {x : Str} {e : Nat} (hx : writeObject env n w f u.object d = .ok (x, e)) :
    x.length + extra D M ≤ (walksAfter env.graph n u.object).length * K := by
  induction n generalizing h d u f x e with
  | zero => simp [writeObject] at hx
  | succ n ih =>
    obtain ⟨s, p, o⟩ := u
    obtain ⟨o1, o2, o3, o4⟩ := hM.object _ hu
    have leaf : x.length ≤ M + 2 → x.length + extra D M ≤ (walksAfter env.graph (n + 1) o).length * K := by
      intro hl
      have := Nat.mul_le_mul_right K (walksAfter_pos env.graph (n + 1) o)
      omega
    show x.length + extra D M ≤ (walksAfter env.graph (n + 1) o).length * K
    cases o with
    | blank b =>
      have hbl := o1 b rfl
      simp only [Stmt.object, writeObject, writeObjectStep] at hx
      split at hx
      · split at hx
        · rename_i hn hs
          obtain ⟨t₁, d₁, t₂, h1, h2, rfl⟩ := Step.andThen_ok.1 hx
          obtain ⟨t₃, d₂, t₄, h3, h4, rfl⟩ := Step.andThen_ok.1 h1
          obtain ⟨t₅, d₃, t₆, h5, h6, rfl⟩ := Step.andThen_ok.1 h3
          obtain ⟨t₇, d₄, t₈, h7, h8, rfl⟩ := Step.andThen_ok.1 h5
          obtain ⟨rfl, rfl⟩ := indent_eq h7
          obtain ⟨rfl, rfl⟩ := text_eq h8
          obtain ⟨rfl, rfl⟩ := text_eq h2
          have kk := writePredicates_keeps (writeObject_keeps hfair n) hfair hs h6
          obtain ⟨k1, rfl⟩ := newLine_length h4
          have hd := hd b rfl
          rw [Nat.add_mul] at hd
          have k2 := writePredicates_length (writeObject_keeps hfair n) hfair (D := D) (B := fun o => (walksAfter env.graph n o).length * K) hM
            (by omega) (fun v hv f x e hx => by
              obtain ⟨hv1, hv2⟩ := mem_stmtsAbout.1 hv
              by_cases hob : ∃ b', v.object = .blank b'
              · obtain ⟨b', hb'⟩ := hob
                have h1 : 1 ≤ h := hc b rfl [v] ⟨hv1, ⟨b', hb', by simp⟩, trivial⟩ (by simpa using hv2)
                refine ih (h := h - 1) hv1 (fun b'' hb'' c hch hcb => ?_) ?_ hx
                · have := hc b rfl (v :: c) ⟨hv1, ⟨b'', hb'', hcb⟩, hch⟩ (by simpa using hv2)
                  simp only [List.length_cons] at this
                  omega
                · intro _ _
                  rw [Nat.add_mul, Nat.sub_mul]
                  have : w ≤ h * w := Nat.le_mul_of_pos_left _ h1
                  omega
              · refine ih (h := 0) hv1 (fun b'' hb'' => absurd ⟨b'', hb''⟩ hob) (fun b'' hb'' => absurd ⟨b'', hb''⟩ hob) hx) h6
          rw [sum_mul] at k2
          rw [length_walksAfter, Nat.add_mul]
          have k5 : (str! "[").length = 1 := rfl
          have k6 : (str! "]").length = 1 := rfl
          simp only [List.length_append, List.length_nil, k5, k6]
          omega
        · obtain ⟨rfl, -⟩ := text_eq hx
          exact leaf (by simp)
      · obtain ⟨rfl, -⟩ := text_eq hx
        exact leaf (by simp; omega)
    | res i => exact leaf (by have := o2 i _ rfl (run_eq hx).1; omega)
    | lit l => exact leaf (by have := o3 l _ rfl (run_eq hx).1; omega)
    | coll c => exact absurd rfl (o4 c)
    | stmt t => simp [Stmt.object, writeObject, writeObjectStep] at hx

end Rdftk
