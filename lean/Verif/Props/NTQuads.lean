import Verif.Props.NTJoin

/-! Property C149: N-Triples and N-Quads say the same of the statements they share. -/

namespace Rdftk

open Spec

/-! ### N-Triples as N-Quads -/

theorem linesAt_all {one two : RLine → Str → Str → Prop} (h : ∀ l t r, one l t r → two l t r) {ls : List RLine} {s : Str}
    (hl : LinesAt one ls s) : LinesAt two ls s := by
  induction hl with
  | last h => exact .last h
  | line hg ho _ ih => exact .line hg (h _ _ _ ho) ih

/-- C149, the grammar: the documents of N-Triples are those of N-Quads without graphs. -/
theorem C149_grammar (ls : List RLine) (s : Str) :
    LinesAt TripleAt ls s ↔ LinesAt QuadAt ls s ∧ ∀ l ∈ ls, l.graph = none := by
  constructor
  · intro h
    refine ⟨linesAt_all (fun _ _ _ => .inl) h, ?_⟩
    induction h with
    | last => simp
    | line _ ho _ ih =>
      intro l hl
      rcases List.mem_cons.1 hl with rfl | hl
      · exact ho.1
      · exact ih l hl
  · rintro ⟨h, hn⟩
    induction h with
    | last h => exact .last h
    | line hg ho _ ih =>
      refine .line hg ?_ (ih fun l hl => hn l (List.mem_cons_of_mem _ hl))
      rcases ho with h | ⟨n, _, _, _, _, e, _⟩
      · exact h
      · rw [hn _ List.mem_cons_self] at e; cases e

/-- C149: a document of N-Triples is one of N-Quads that says its statements of the default graph. -/
def C149_statement : Prop :=
  ∀ (env : ReadEnv) (s : Str) (g : Graph), readNt env s = .ok g →
    ∃ d, readNq env s = .ok d ∧ d.content none = g.stmts

/-- C149 fails for each document that says anything: it is an error as N-Quads. -/
theorem C149_fails_each (env : ReadEnv) (s : Str) (g : Graph) (h : readNt env s = .ok g) :
    readNq env s = if g.stmts = [] then .ok DataSet.empty else .err := by
  cases hd : pDoc pTriple s with
  | none => unfold readNt at h; rw [hd] at h; cases h
  | some ls =>
    have hl := (C71_iff _ _).1 hd
    have hf := C140_lines env s g ls hl h
    obtain ⟨hq, hn⟩ := (C149_grammar _ _).1 hl
    unfold readNq
    rw [(C71_quads_iff _ _).2 hq]
    cases ls with
    | nil => generalize g.stmts = sts at hf; cases hf; rfl
    | cons l ls =>
      generalize g.stmts = sts at hf
      cases hf with
      | cons ho _ =>
        simp [evalQuads, evalQuad, ho, Res.bind, hn l List.mem_cons_self]

/-- C149, exactly when: the document says nothing. -/
theorem C149_iff (env : ReadEnv) (s : Str) (g : Graph) (h : readNt env s = .ok g) :
    (∃ d, readNq env s = .ok d ∧ d.content none = g.stmts) ↔ g.stmts = [] := by
  rw [C149_fails_each env s g h]
  constructor
  · rintro ⟨d, hd, -⟩
    split at hd
    · assumption
    · cases hd
  · intro e
    exact ⟨_, if_pos e, by rw [e]; rfl⟩

/-- C149 fails: one statement is an error. -/
theorem C149_fails : ¬C149_statement := fun h => by
  obtain ⟨d, hd, -⟩ := h easyEnv (str! "<a:s> <a:p> <a:o> .") _ rfl
  cases hd

/-! ### N-Quads as N-Triples -/

/-- A line without its graph. -/
def RLine.bare (l : RLine) : RLine := { l with graph := none }

/-- The lines about the graph of a name. -/
def linesOf (env : ReadEnv) (n : GraphName) (ls : List RLine) : List RLine :=
  ls.filter fun l =>
    match l.graph with
    | none => false
    | some x => match evalNode env x with
      | .ok s => decide (GraphName.ofSubject s = .ok n)
      | _ => false

theorem insert_named (st : Stmt) (g : Graph) (l : List Stmt) (h : g.statements = .nonUnique l) :
    (g.insert st).statements = .nonUnique (l ++ [st]) := by
  unfold Graph.insert
  rw [h]; rfl

theorem fold_slices (qs : List Quad) (d : DataSet) (hd : d.ok) (hl : ∀ k g, d.graph k = some g → ∃ l, g.statements = .nonUnique l) (n : GraphName) :
    (qs.foldl (fun d q => d.insertInto q.1 q.2) d).content (some n) =
      d.content (some n) ++ (qs.filter fun q => decide (q.1 = n)).map (·.2) := by
  induction qs generalizing d with
  | nil => simp
  | cons q qs ih =>
    obtain ⟨h1, h2⟩ := insertInto_step hd q.1 q.2
    have hl' : ∀ k g, (d.insertInto q.1 q.2).graph k = some g → ∃ l, g.statements = .nonUnique l := by
      intro k g hg
      rw [h2] at hg
      split at hg
      · injection hg with hg
        subst hg
        cases e : d.graph k with
        | none => exact ⟨_, insert_named _ _ [] rfl⟩
        | some g => obtain ⟨l, e2⟩ := hl k g e; exact ⟨_, insert_named _ _ l e2⟩
      · exact hl k g hg
    rw [List.foldl_cons, ih _ h1 hl']
    have : (d.insertInto q.1 q.2).content (some n) = d.content (some n) ++ if q.1 = n then [q.2] else [] := by
      unfold DataSet.content
      rw [h2]
      by_cases e : q.1 = n
      · subst e
        simp only [if_true]
        cases e : d.graph (some q.1) with
        | none => simp [Graph.stmts, insert_named q.2 (Graph.named q.1) [] rfl, Statements.iter]
        | some g =>
          obtain ⟨l, e2⟩ := hl _ g e
          simp [Graph.stmts, insert_named q.2 g l e2, e2, Statements.iter]
      · rw [if_neg (by simpa using e), if_neg e]; simp
    rw [this]
    by_cases e : q.1 = n
    · simp [e]
    · simp [e]

theorem evalNamed_ok {env : ReadEnv} {l : RLine} {q : Quad} (h : evalNamed env l = .ok q) :
    evalTriple env l.bare = .ok q.2 ∧ ∃ x s, l.graph = some x ∧ evalNode env x = .ok s ∧ GraphName.ofSubject s = .ok q.1 := by
  have e : evalTriple env l.bare = evalTriple env l := rfl
  rw [e]
  unfold evalNamed at h
  cases e1 : evalTriple env l with
  | err => rw [e1] at h; cases h
  | panic => rw [e1] at h; cases h
  | ok st =>
    rw [e1] at h
    simp only [Res.bind] at h
    cases e2 : l.graph with
    | none => rw [e2] at h; cases h
    | some x =>
      simp only [e2] at h
      cases e3 : evalNode env x with
      | err => rw [e3] at h; cases h
      | panic => rw [e3] at h; cases h
      | ok s =>
        simp only [e3] at h
        cases e4 : GraphName.ofSubject s with
        | panic => rw [e4] at h; cases h
        | ok n => simp only [e4] at h; cases h; exact ⟨rfl, x, s, rfl, e3, e4⟩

/-- C149, the other way: a document of N-Quads that is read says of each graph, in order and as often, what the lines about
the graph say as N-Triples. -/
theorem C149_slices (env : ReadEnv) (s t : Str) (ls : List RLine) (d : DataSet) (n : GraphName) (hs : LinesAt QuadAt ls s)
    (h : readNq env s = .ok d) (ht : LinesAt TripleAt ((linesOf env n ls).map RLine.bare) t) :
    ∃ g, readNt env t = .ok g ∧ d.content (some n) = g.stmts := by
  unfold readNq at h
  rw [(C71_quads_iff _ _).2 hs] at h
  simp only [evalQuads_all] at h
  unfold readNt
  rw [(C71_iff _ _).2 ht]
  simp only [evalTriples_all]
  cases e : resAll (evalNamed env) ls with
  | err => rw [e] at h; cases h
  | panic => rw [e] at h; cases h
  | ok qs =>
    rw [e] at h
    simp only [Res.bind, Res.ok.injEq] at h
    subst h
    have hf := resAll_ok e
    have key : resAll (evalTriple env) ((linesOf env n ls).map RLine.bare) =
        .ok ((qs.filter fun q => decide (q.1 = n)).map (·.2)) := by
      clear e hs ht
      induction hf with
      | nil => rfl
      | @cons l q ls qs ho _ ih =>
        obtain ⟨h1, x, s, h2, h3, h4⟩ := evalNamed_ok ho
        by_cases hq : q.1 = n
        · have : linesOf env n (l :: ls) = l :: linesOf env n ls := by
            simp [linesOf, List.filter_cons, h2, h3, h4, hq]
          rw [this]
          simp [resAll, h1, ih, Res.bind, hq]
        · have : linesOf env n (l :: ls) = linesOf env n ls := by
            simp [linesOf, List.filter_cons, h2, h3, h4, hq]
          rw [this, ih]
          simp [hq]
    rw [key]
    refine ⟨_, rfl, ?_⟩
    rw [fold_slices qs _ ⟨by simp [DataSet.empty], by simp [DataSet.empty]⟩ (by intro k g h; simp [DataSet.empty, DataSet.graph] at h),
      (foldl_insert_default _).1]
    rfl

theorem labelEnds_space (r : Str) : LabelEnds (' ' :: r) := by
  rw [← labelTailLen_none]
  rfl

theorem gap_space : Gap [' '] := by
  have := Gap.ws (c := ' ') (g := []) (by decide) .nil
  exact this

theorem linesAt_terms (ls : List RLine) (h : ∀ l ∈ ls, ∃ u, TermsText l u) :
    ∃ t, LinesAt TripleAt (ls.map RLine.bare) t := by
  induction ls with
  | nil => exact ⟨[], .last ⟨[], [], .nil, rfl, .inl rfl⟩⟩
  | cons l ls ih =>
    obtain ⟨t, ht⟩ := ih fun k hk => h k (List.mem_cons_of_mem _ hk)
    obtain ⟨u, hu⟩ := h l List.mem_cons_self
    refine ⟨[] ++ ((u ++ [' '] ++ ['.']) ++ t), .line .nil ⟨rfl, u, [' '], hu, gap_space, rfl, ?_⟩ ht⟩
    cases e : l.object with
    | node n =>
      simp only [RLine.bare, e, ObjectEnds]
      exact nodeEnds_of (labelEnds_space _)
    | lit a x => simp only [RLine.bare, e, ObjectEnds]

/-- C149, there are such texts for each graph of each document of N-Quads. -/
theorem C149_slices_text (env : ReadEnv) (s : Str) (ls : List RLine) (n : GraphName) (hs : LinesAt QuadAt ls s) :
    ∃ t, LinesAt TripleAt ((linesOf env n ls).map RLine.bare) t := by
  refine linesAt_terms _ fun l hl => ?_
  replace hl := (List.mem_filter.1 hl).1
  clear n
  induction hs with
  | last => simp at hl
  | line _ ho _ ih =>
    rcases List.mem_cons.1 hl with rfl | hl
    · rcases ho with ⟨-, u, -, h, -⟩ | ⟨-, u, -, -, -, -, h, -⟩ <;> exact ⟨u, h⟩
    · exact ih hl

/-! ### The order of lines -/

theorem resAll_perm {α β : Type _} {f : α → Res β} {l m : List α} (h : l.Perm m) {bs : List β} (hb : resAll f l = .ok bs) :
    ∃ cs, resAll f m = .ok cs ∧ bs.Perm cs := by
  induction h generalizing bs with
  | nil => exact ⟨_, hb, .refl _⟩
  | @cons x l m _ ih =>
    simp only [resAll] at hb ⊢
    cases e : f x with
    | ok b =>
      cases e2 : resAll f l with
      | ok as =>
        simp only [e, e2, Res.bind, Res.ok.injEq] at hb ⊢
        obtain ⟨cs, h1, h2⟩ := ih e2
        exact ⟨_, by rw [h1], hb ▸ h2.cons b⟩
      | err => simp [e, e2, Res.bind] at hb
      | panic => simp [e, e2, Res.bind] at hb
    | err => simp [e, Res.bind] at hb
    | panic => simp [e, Res.bind] at hb
  | swap x y l =>
    simp only [resAll] at hb ⊢
    cases e : f x with
    | ok b =>
      cases e3 : f y with
      | ok c =>
        cases e2 : resAll f l with
        | ok as =>
          simp only [e, e2, e3, Res.bind, Res.ok.injEq] at hb ⊢
          exact ⟨_, rfl, hb ▸ .swap _ _ _⟩
        | err => simp [e, e2, e3, Res.bind] at hb
        | panic => simp [e, e2, e3, Res.bind] at hb
      | err => simp [e3, Res.bind] at hb
      | panic => simp [e3, Res.bind] at hb
    | err => cases e3 : f y <;> simp [e, e3, Res.bind] at hb
    | panic => cases e3 : f y <;> simp [e, e3, Res.bind] at hb
  | trans _ _ ih1 ih2 =>
    obtain ⟨cs, h1, h2⟩ := ih1 hb
    obtain ⟨ds, h3, h4⟩ := ih2 h1
    exact ⟨ds, h3, h2.trans h4⟩

/-- C139: the order of the lines of a document does not matter for what it says. -/
theorem C139_order (env : ReadEnv) (s t : Str) (ls ks : List RLine) (g : Graph) (hs : LinesAt TripleAt ls s)
    (ht : LinesAt TripleAt ks t) (hp : ls.Perm ks) (h : readNt env s = .ok g) :
    ∃ g', readNt env t = .ok g' ∧ g.stmts.Perm g'.stmts := by
  unfold readNt at *
  rw [(C71_iff _ _).2 hs] at h
  rw [(C71_iff _ _).2 ht]
  simp only [evalTriples_all] at h ⊢
  cases e : resAll (evalTriple env) ls with
  | err => rw [e] at h; cases h
  | panic => rw [e] at h; cases h
  | ok sts =>
    rw [e] at h
    simp only [Res.bind, Res.ok.injEq] at h
    subst h
    obtain ⟨cs, h1, h2⟩ := resAll_perm hp e
    rw [h1]
    exact ⟨_, rfl, by rw [(foldl_insert_default _).1, (foldl_insert_default _).1]; exact h2⟩

/-- C139, the same for N-Quads and each graph. -/
theorem C139_order_quads (env : ReadEnv) (s t : Str) (ls ks : List RLine) (d : DataSet) (hs : LinesAt QuadAt ls s)
    (ht : LinesAt QuadAt ks t) (hp : ls.Perm ks) (h : readNq env s = .ok d) :
    ∃ d', readNq env t = .ok d' ∧ ∀ n, (d.content (some n)).Perm (d'.content (some n)) := by
  unfold readNq at *
  rw [(C71_quads_iff _ _).2 hs] at h
  rw [(C71_quads_iff _ _).2 ht]
  simp only [evalQuads_all] at h ⊢
  cases e : resAll (evalNamed env) ls with
  | err => rw [e] at h; cases h
  | panic => rw [e] at h; cases h
  | ok qs =>
    rw [e] at h
    simp only [Res.bind, Res.ok.injEq] at h
    subst h
    obtain ⟨cs, h1, h2⟩ := resAll_perm hp e
    rw [h1]
    refine ⟨_, rfl, fun n => ?_⟩
    rw [fold_slices qs _ ⟨by simp [DataSet.empty], by simp [DataSet.empty]⟩ (by intro k g h; simp [DataSet.empty, DataSet.graph] at h),
      fold_slices cs _ ⟨by simp [DataSet.empty], by simp [DataSet.empty]⟩ (by intro k g h; simp [DataSet.empty, DataSet.graph] at h)]
    exact ((h2.filter _).map _).append_left _

/-! ### The writers -/

/-- C149, the writers: a graph without name is written the same. -/
theorem C149_written (gen : Nat → Str) (n : Nat) (o : Orders) (sty : IriStyle) (g : Graph) (h : g.name = none) :
    (writeNqGraph gen n o sty g).1 = writeNt gen n o sty false g := by
  have : (g.simplify gen n).1.name = none := by unfold Graph.simplify; exact h
  unfold writeNqGraph writeNt
  simp only [this]
  congr 1

/-- So the text of a data set with statements in the default graph only is read by the reader of N-Triples, not by that of
N-Quads. -/
theorem C149_fails_written (env : ReadEnv) (gen : Nat → Str) (n : Nat) (o : Orders) (sty : IriStyle) (g g' : Graph)
    (h : g.name = none) (hr : readNt env (writeNt gen n o sty false g) = .ok g') (hne : g'.stmts ≠ []) :
    readNq env (writeNqGraph gen n o sty g).1 = .err := by
  rw [C149_written gen n o sty g h, C149_fails_each env _ g' hr, if_neg hne]

/-- There are documents of N-Quads to which C149_slices applies. -/
example : ∃ d, readNq easyEnv (str! "<a:s> <a:p> <a:o> <a:g> .\n<a:s> <a:p> <a:q> <a:h> .\n") = .ok d ∧
    d.content (some (.iri ⟨str! "a:g"⟩)) = [.mk (.res ⟨str! "a:s"⟩) ⟨str! "a:p"⟩ (.res ⟨str! "a:o"⟩)] :=
  ⟨_, rfl, rfl⟩

end Rdftk
