import Verif.Props.NTExact
import Verif.Props.NTMeaning

/-! N-Triples and N-Quads documents one after the other: C139; and lines that are repeated: C140. -/

namespace Rdftk

open Spec

/-! ### The grammar -/

/-- A text that is empty or ends with the end of a line. -/
def EndsLine (a : Str) : Prop := a = [] ∨ ∃ x nl, nl ∈ (str! "\r\n") ∧ a = x ++ [nl]

theorem endsLine_tail {x y : Str} (h : EndsLine (x ++ y)) (hy : y ≠ []) : EndsLine y := by
  rcases h with h | ⟨z, nl, hn, e⟩
  · simp_all
  · refine .inr ⟨y.dropLast, nl, hn, ?_⟩
    rw [← List.dropLast_append_getLast hy] at e ⊢
    rw [← List.append_assoc] at e
    have := List.append_inj' e rfl
    simp_all

/-- The gap at the end of a text that ends with the end of a line is a gap. -/
theorem lastGap_endsLine {a : Str} (h : LastGap a) (he : EndsLine a) : Gap a := by
  obtain ⟨g, c, hg, rfl, rfl | ⟨body, h1, h2, rfl⟩⟩ := h
  · simpa using hg
  · exfalso
    rcases endsLine_tail he (by simp) with h | ⟨x, nl, hn, e⟩
    · cases h
    · have hm : nl ∈ '#' :: body := by rw [e]; simp
      rcases List.mem_cons.1 hm with rfl | hm
      · revert hn; decide
      · simp only [List.mem_cons, List.not_mem_nil, or_false] at hn
        rcases hn with rfl | rfl
        · exact h1 hm
        · exact h2 hm

/-- A label in front of what does not go on with it, however the text behind goes on. -/
theorem labelEnds_long {x y : Str} (hx : 2 ≤ x.length) (h : LabelEnds x) : LabelEnds (x ++ y) := by
  match x, hx with
  | c :: d :: x, _ =>
    exact ⟨fun c s e => by cases e; exact h.1 _ _ rfl, fun c s e => by cases e; exact h.2 _ _ rfl⟩

theorem nodeEnds_long {n : RNode} {x y : Str} (hx : 2 ≤ x.length) (h : NodeEnds n x) : NodeEnds n (x ++ y) := by
  unfold NodeEnds at *
  split
  · exact labelEnds_long hx h
  · trivial

theorem objectEnds_long {o : RObject} {x y : Str} (hx : 2 ≤ x.length) (h : ObjectEnds o x) : ObjectEnds o (x ++ y) := by
  cases o with
  | node n => exact nodeEnds_long hx h
  | lit _ _ => trivial

theorem tripleAt_more {l : RLine} {t r b : Str} (hr : r ≠ []) (h : TripleAt l t r) : TripleAt l t (r ++ b) := by
  obtain ⟨h1, u, g, h2, h3, h4, h5⟩ := h
  refine ⟨h1, u, g, h2, h3, h4, ?_⟩
  have := objectEnds_long (y := b) (by have := List.length_pos_iff.2 hr; simp; omega) h5
  simpa using this

theorem quadAt_more {l : RLine} {t r b : Str} (hr : r ≠ []) (h : QuadAt l t r) : QuadAt l t (r ++ b) := by
  have hl := List.length_pos_iff.2 hr
  rcases h with h | ⟨n, u, g₁, v, g₂, h1, h2, h3, h4, h5, h6, h7, h8⟩
  · exact .inl (tripleAt_more hr h)
  · refine .inr ⟨n, u, g₁, v, g₂, h1, h2, h3, h4, h5, h6, ?_, ?_⟩
    · have := objectEnds_long (y := b) (by simp; omega) h7
      simpa using this
    · have := nodeEnds_long (y := b) (by simp; omega) h8
      simpa using this

theorem tripleAt_dot {l : RLine} {t r : Str} (h : TripleAt l t r) : ∃ x, t = x ++ ['.'] := by
  obtain ⟨-, u, g, -, -, h, -⟩ := h
  exact ⟨_, h⟩

theorem quadAt_dot {l : RLine} {t r : Str} (h : QuadAt l t r) : ∃ x, t = x ++ ['.'] := by
  rcases h with h | ⟨n, u, g₁, v, g₂, -, -, -, -, -, h, -, -⟩
  · exact tripleAt_dot h
  · exact ⟨_, h⟩

theorem linesAt_gap {one : RLine → Str → Str → Prop} {ls : List RLine} {g b : Str} (hg : Gap g) (h : LinesAt one ls b) :
    LinesAt one ls (g ++ b) := by
  cases h with
  | last h =>
    obtain ⟨g', c, h1, rfl, h2⟩ := h
    exact .last ⟨g ++ g', c, gap_append hg h1, by simp, h2⟩
  | @line l ls g' t r h1 h2 h3 =>
    have e : g ++ (g' ++ (t ++ r)) = (g ++ g') ++ (t ++ r) := by simp
    rw [e]
    exact .line (gap_append hg h1) h2 h3

theorem linesAt_join {one : RLine → Str → Str → Prop} (more : ∀ l t r b, r ≠ [] → one l t r → one l t (r ++ b))
    (dot : ∀ l t r, one l t r → ∃ x, t = x ++ ['.']) {ls ks : List RLine} {a b : Str} (h : LinesAt one ls a)
    (he : EndsLine a) (hb : LinesAt one ks b) : LinesAt one (ls ++ ks) (a ++ b) := by
  induction h with
  | last h => exact linesAt_gap (lastGap_endsLine h he) hb
  | @line l ls g t r hg ho _ ih =>
    have hr : r ≠ [] := by
      rintro rfl
      obtain ⟨x, rfl⟩ := dot _ _ _ ho
      rcases he with h | ⟨z, nl, hn, e⟩
      · simp at h
      · have := List.append_inj' (s₁ := g ++ x) (t₁ := ['.']) (s₂ := z) (t₂ := [nl]) (by simpa using e) rfl
        have := this.2
        simp only [List.cons.injEq, and_true] at this
        subst this
        revert hn; decide
    have := ih (endsLine_tail (x := g ++ t) (by simpa using he) hr)
    have e : g ++ (t ++ r) ++ b = g ++ (t ++ (r ++ b)) := by simp
    rw [e]
    exact .line hg (more _ _ _ _ hr ho) this

/-- What is left of a document after one that ends with a line is a document. -/
theorem linesAt_rest {p : Str → Option (RLine × Str)} {one : RLine → Str → Str → Prop}
    (hp : ∀ l t r, one l t r → p (t ++ r) = some (l, r) ∧ Solid (t ++ r) ∧ t ≠ [])
    (more : ∀ l t r b, r ≠ [] → one l t r → one l t (r ++ b))
    (dot : ∀ l t r, one l t r → ∃ x, t = x ++ ['.']) {ls ks : List RLine} {a b : Str} (h : LinesAt one ls a)
    (he : EndsLine a) (hb : LinesAt one ks (a ++ b)) : ∃ ms, LinesAt one ms b := by
  induction h generalizing ks with
  | @last t h =>
    have hg := lastGap_endsLine h he
    generalize hs : t ++ b = s at hb
    cases hb with
    | last h' =>
      subst hs
      have := skip_lastGap h'
      rw [skip_gap hg] at this
      exact ⟨[], .last (skip_none this)⟩
    | @line l ls g u r hg' ho hr =>
      obtain ⟨-, h2, h3⟩ := hp _ _ _ ho
      have e : skip false b = u ++ r := by
        rw [← skip_gap hg, hs, skip_gap_solid hg' h2]
      obtain ⟨c, u, rfl⟩ := List.exists_cons_of_ne_nil h3
      obtain ⟨g2, h4, h5⟩ := skip_some e
      exact ⟨_, by rw [h5]; exact .line h4 ho hr⟩
  | @line l ls g t r hg ho _ ih =>
    have hr : r ≠ [] := by
      rintro rfl
      obtain ⟨x, rfl⟩ := dot _ _ _ ho
      rcases he with h | ⟨z, nl, hn, e⟩
      · simp at h
      · have := List.append_inj' (s₁ := g ++ x) (t₁ := ['.']) (s₂ := z) (t₂ := [nl]) (by simpa using e) rfl
        have := this.2
        simp only [List.cons.injEq, and_true] at this
        subst this
        revert hn; decide
    have hel := endsLine_tail (x := g ++ t) (by simpa using he) hr
    obtain ⟨h1, h2, h3⟩ := hp _ _ _ (more _ _ _ b hr ho)
    generalize hs : g ++ (t ++ r) ++ b = s at hb
    have hs' : s = g ++ (t ++ (r ++ b)) := by rw [← hs]; simp
    cases hb with
    | last h' =>
      have := skip_lastGap h'
      rw [hs', skip_gap_solid hg h2] at this
      simp [h3] at this
    | @line l' ls' g' u r' hg' ho' hr' =>
      obtain ⟨h1', h2', h3'⟩ := hp _ _ _ ho'
      have e : t ++ (r ++ b) = u ++ r' := by
        rw [← skip_gap_solid hg h2, ← hs', skip_gap_solid hg' h2']
      rw [e, h1'] at h1
      simp only [Option.some.injEq, Prod.mk.injEq] at h1
      rw [h1.2] at hr'
      exact ih hel hr'

theorem pTriple_one {l : RLine} {t r : Str} (h : TripleAt l t r) :
    pTriple (t ++ r) = some (l, r) ∧ Solid (t ++ r) ∧ t ≠ [] := by
  refine ⟨pTriple_at h, ?_⟩
  obtain ⟨-, u, g, h1, -, rfl, -⟩ := h
  have := lineAt_solid h1 (g ++ '.' :: r)
  exact ⟨by simpa using this.1, by simp⟩

theorem pQuad_one {l : RLine} {t r : Str} (h : QuadAt l t r) :
    pQuad (t ++ r) = some (l, r) ∧ Solid (t ++ r) ∧ t ≠ [] := by
  refine ⟨pQuad_at h, ?_⟩
  rcases h with ⟨-, u, g, h1, -, rfl, -⟩ | ⟨n, u, g₁, v, g₂, -, h1, -, -, -, rfl, -⟩
  · have := lineAt_solid h1 (g ++ '.' :: r)
    exact ⟨by simpa using this.1, by simp⟩
  · have := lineAt_solid h1 (g₁ ++ (v ++ (g₂ ++ '.' :: r)))
    exact ⟨by simpa using this.1, by simp⟩

theorem pDoc_join_triples {a : Str} {ls : List RLine} (h : pDoc pTriple a = some ls) (he : EndsLine a) (b : Str) :
    pDoc pTriple (a ++ b) = (pDoc pTriple b).map (ls ++ ·) := by
  rw [C71_iff] at h
  cases hb : pDoc pTriple b with
  | some ks =>
    rw [C71_iff] at hb
    exact (C71_iff _ _).2 (linesAt_join (one := TripleAt) (fun _ _ _ _ => tripleAt_more) (fun _ _ _ => tripleAt_dot) h he hb)
  | none =>
    cases hc : pDoc pTriple (a ++ b) with
    | none => rfl
    | some ks =>
      rw [C71_iff] at hc
      obtain ⟨ms, hm⟩ := linesAt_rest (fun _ _ _ => pTriple_one) (fun _ _ _ _ => tripleAt_more) (fun _ _ _ => tripleAt_dot)
        h he hc
      rw [(C71_iff _ _).2 hm] at hb
      cases hb

theorem pDoc_join_quads {a : Str} {ls : List RLine} (h : pDoc pQuad a = some ls) (he : EndsLine a) (b : Str) :
    pDoc pQuad (a ++ b) = (pDoc pQuad b).map (ls ++ ·) := by
  rw [C71_quads_iff] at h
  cases hb : pDoc pQuad b with
  | some ks =>
    rw [C71_quads_iff] at hb
    exact (C71_quads_iff _ _).2 (linesAt_join (one := QuadAt) (fun _ _ _ _ => quadAt_more) (fun _ _ _ => quadAt_dot) h he hb)
  | none =>
    cases hc : pDoc pQuad (a ++ b) with
    | none => rfl
    | some ks =>
      rw [C71_quads_iff] at hc
      obtain ⟨ms, hm⟩ := linesAt_rest (fun _ _ _ => pQuad_one) (fun _ _ _ _ => quadAt_more) (fun _ _ _ => quadAt_dot)
        h he hc
      rw [(C71_quads_iff _ _).2 hm] at hb
      cases hb

/-! ### What is read -/

/-- The first result that is no value, or all values. -/
def resAll {α β : Type _} (f : α → Res β) : List α → Res (List β)
  | [] => .ok []
  | a :: l => (f a).bind fun b => (resAll f l).bind fun bs => .ok (b :: bs)

theorem resAll_ok {α β : Type _} {f : α → Res β} {l : List α} {bs : List β} (h : resAll f l = .ok bs) :
    List.Forall₂ (fun a b => f a = .ok b) l bs := by
  induction l generalizing bs with
  | nil => cases h; exact .nil
  | cons a l ih =>
    simp only [resAll] at h
    cases e : f a with
    | ok b =>
      cases e2 : resAll f l with
      | ok bs' => simp only [e, e2, Res.bind, Res.ok.injEq] at h; subst h; exact .cons e (ih e2)
      | err => simp [e, e2, Res.bind] at h
      | panic => simp [e, e2, Res.bind] at h
    | err => simp [e, Res.bind] at h
    | panic => simp [e, Res.bind] at h

theorem evalTriples_all (env : ReadEnv) (g : Graph) (ls : List RLine) :
    evalTriples env g ls = (resAll (evalTriple env) ls).bind fun sts => .ok (sts.foldl Graph.insert g) := by
  induction ls generalizing g with
  | nil => rfl
  | cons l ls ih =>
    simp only [evalTriples, resAll]
    cases evalTriple env l with
    | ok st =>
      simp only [Res.bind]
      rw [ih]
      cases resAll (evalTriple env) ls <;> rfl
    | _ => rfl

/-- The name and the statement of a line. -/
def evalNamed (env : ReadEnv) (l : RLine) : Res Quad :=
  (evalTriple env l).bind fun st =>
  match l.graph with
  | none => .err
  | some n =>
    (evalNode env n).bind fun s =>
    match GraphName.ofSubject s with
    | .panic => .panic
    | .ok n => .ok (n, st)

theorem evalQuads_all (env : ReadEnv) (d : DataSet) (ls : List RLine) :
    evalQuads env d ls =
      (resAll (evalNamed env) ls).bind fun qs => .ok (qs.foldl (fun d q => d.insertInto q.1 q.2) d) := by
  induction ls generalizing d with
  | nil => rfl
  | cons l ls ih =>
    have e : evalQuad env d l = (evalNamed env l).bind fun q => .ok (d.insertInto q.1 q.2) := by
      unfold evalQuad evalNamed
      cases evalTriple env l with
      | ok st =>
        simp only [Res.bind]
        cases l.graph with
        | none => rfl
        | some n =>
          simp only
          cases evalNode env n with
          | ok s =>
            simp only
            cases GraphName.ofSubject s <;> rfl
          | _ => rfl
      | _ => rfl
    simp only [evalQuads, resAll, e]
    cases evalNamed env l with
    | ok q =>
      simp only [Res.bind]
      rw [ih]
      cases resAll (evalNamed env) ls <;> rfl
    | _ => rfl

theorem resAll_append {α β : Type _} (f : α → Res β) (l m : List α) :
    resAll f (l ++ m) = (resAll f l).bind fun a => (resAll f m).bind fun b => .ok (a ++ b) := by
  induction l with
  | nil => simp only [List.nil_append, resAll, Res.bind]; cases resAll f m <;> rfl
  | cons x l ih =>
    simp only [List.cons_append, resAll, ih]
    cases f x with
    | ok b =>
      simp only [Res.bind]
      cases resAll f l with
      | ok a => simp only; cases resAll f m <;> rfl
      | _ => rfl
    | _ => rfl

/-- C139: two documents one after the other are read as the statements of both. -/
def C139_statement : Prop :=
  ∀ (env : ReadEnv) (a b : Str) (g₁ g₂ : Graph), readNt env a = .ok g₁ → readNt env b = .ok g₂ →
    ∃ g, readNt env (a ++ b) = .ok g ∧ g.stmts = g₁.stmts ++ g₂.stmts

/-- C139 fails: a comment without the end of its line takes the next line with it. -/
theorem C139_fails : ¬C139_statement := fun h => by
  obtain ⟨g, h1, h2⟩ := h easyEnv (str! "#") (str! "<a:s> <a:p> <a:o> .") Graph.default
    (Graph.default.insert (.mk (.res ⟨str! "a:s"⟩) ⟨str! "a:p"⟩ (.res ⟨str! "a:o"⟩))) rfl rfl
  have e : readNt easyEnv (str! "#<a:s> <a:p> <a:o> .") = .ok Graph.default := rfl
  rw [show str! "#" ++ str! "<a:s> <a:p> <a:o> ." = str! "#<a:s> <a:p> <a:o> ." from rfl, e] at h1
  cases h1
  cases h2

/-- Nor are they without comments: a label takes the beginning of the next line. -/
theorem C139_fails_label :
    (∃ g, readNt easyEnv (str! "<a:s> <a:p> _:b.") = .ok g) ∧ (∃ g, readNt easyEnv (str! "_:c <a:p> <a:o> .") = .ok g) ∧
      readNt easyEnv (str! "<a:s> <a:p> _:b." ++ str! "_:c <a:p> <a:o> .") = .err :=
  ⟨⟨_, rfl⟩, ⟨_, rfl⟩, rfl⟩

/-- C139, after a document that is read and ends with the end of a line: exactly what becomes of anything behind it. -/
theorem C139_partial (env : ReadEnv) (a b : Str) (g₁ : Graph) (h : readNt env a = .ok g₁) (he : EndsLine a) :
    readNt env (a ++ b) = (readNt env b).bind fun g₂ => .ok (g₂.stmts.foldl Graph.insert g₁) := by
  unfold readNt at *
  cases ha : pDoc pTriple a with
  | none => rw [ha] at h; cases h
  | some ls =>
    rw [ha] at h
    simp only [evalTriples_all] at h
    rw [pDoc_join_triples ha he]
    cases hb : pDoc pTriple b with
    | none => rfl
    | some ks =>
      simp only [Option.map_some, evalTriples_all, resAll_append]
      cases e : resAll (evalTriple env) ls with
      | ok sts =>
        rw [e] at h
        simp only [Res.bind, Res.ok.injEq] at h ⊢
        subst h
        cases resAll (evalTriple env) ks with
        | ok sts' => simp [(foldl_insert_default sts').1]
        | _ => rfl
      | err => rw [e] at h; cases h
      | panic => rw [e] at h; cases h

/-- The statements of the document joined, in order and as often as in the two. -/
theorem C139_stmts (env : ReadEnv) (a b : Str) (g₁ g₂ : Graph) (h₁ : readNt env a = .ok g₁) (he : EndsLine a)
    (h₂ : readNt env b = .ok g₂) : ∃ g, readNt env (a ++ b) = .ok g ∧ g.stmts = g₁.stmts ++ g₂.stmts := by
  refine ⟨_, by rw [C139_partial env a b g₁ h₁ he, h₂]; rfl, ?_⟩
  have : ∃ sts : List Stmt, g₁ = sts.foldl Graph.insert Graph.default := by
    unfold readNt at h₁
    split at h₁
    · cases h₁
    · rw [evalTriples_all] at h₁
      rename_i ls _
      cases e : resAll (evalTriple env) ls with
      | ok sts => rw [e] at h₁; cases h₁; exact ⟨sts, rfl⟩
      | err => rw [e] at h₁; cases h₁
      | panic => rw [e] at h₁; cases h₁
  obtain ⟨sts, rfl⟩ := this
  rw [← List.foldl_append, (foldl_insert_default _).1, (foldl_insert_default _).1]

/-- C139 for N-Quads: under each name, the statements of both; and an error or a panic behind stays one. -/
theorem C139_quads (env : ReadEnv) (a b : Str) (d₁ : DataSet) (h : readNq env a = .ok d₁) (he : EndsLine a) :
    (∀ d₂, readNq env b = .ok d₂ → ∃ d, readNq env (a ++ b) = .ok d ∧
      ∀ k st, st ∈ d.content k ↔ st ∈ d₁.content k ∨ st ∈ d₂.content k) ∧
    (readNq env b = .err → readNq env (a ++ b) = .err) ∧ (readNq env b = .panic → readNq env (a ++ b) = .panic) := by
  unfold readNq at *
  cases ha : pDoc pQuad a with
  | none => rw [ha] at h; cases h
  | some ls =>
    rw [ha] at h
    simp only [evalQuads_all] at h
    rw [pDoc_join_quads ha he]
    cases hb : pDoc pQuad b with
    | none => exact ⟨fun _ h => by simp at h, fun _ => rfl, fun h => by simp at h⟩
    | some ks =>
      simp only [Option.map_some, evalQuads_all, resAll_append]
      cases e : resAll (evalNamed env) ls with
      | ok qs =>
        rw [e] at h
        simp only [Res.bind, Res.ok.injEq] at h ⊢
        subst h
        cases resAll (evalNamed env) ks with
        | ok qs' =>
          refine ⟨fun d₂ h => ?_, fun h => by simp at h, fun h => by simp at h⟩
          simp only [Res.ok.injEq] at h
          subst h
          refine ⟨_, rfl, fun k st => ?_⟩
          have h0 : DataSet.empty.ok := ⟨by simp [DataSet.empty], by simp [DataSet.empty]⟩
          have h1 : ∀ k g, DataSet.empty.graph k = some g → g.stmts ≠ [] := by
            intro k g h; simp [DataSet.empty, DataSet.graph] at h
          have h2 : ∀ k, DataSet.empty.content k = [] := fun k => rfl
          rw [(fold_insertInto _ _ h0 h1).2.1, (fold_insertInto _ _ h0 h1).2.1, (fold_insertInto _ _ h0 h1).2.1, h2]
          simp only [List.not_mem_nil, false_or, List.mem_append]
          constructor
          · rintro ⟨n, rfl, h | h⟩
            · exact .inl ⟨n, rfl, h⟩
            · exact .inr ⟨n, rfl, h⟩
          · rintro (⟨n, rfl, h⟩ | ⟨n, rfl, h⟩)
            · exact ⟨n, rfl, .inl h⟩
            · exact ⟨n, rfl, .inr h⟩
        | err => exact ⟨fun _ h => by simp at h, fun _ => rfl, fun h => by simp at h⟩
        | panic => exact ⟨fun _ h => by simp at h, fun h => by simp at h, fun _ => rfl⟩
      | err => rw [e] at h; cases h
      | panic => rw [e] at h; cases h

theorem endsLine_lines {f : Stmt → Str} (h : ∀ st, ∃ x, f st = x ++ ['\n']) (l : List Stmt) : EndsLine (l.flatMap f) := by
  rcases List.eq_nil_or_concat l with rfl | ⟨l, st, rfl⟩
  · exact .inl rfl
  · obtain ⟨x, hx⟩ := h st
    exact .inr ⟨l.flatMap f ++ x, '\n', by decide, by simp [hx]⟩

/-- Documents that are written can be joined. -/
theorem C139_written (gen : Nat → Str) (n : Nat) (o : Orders) (sty : IriStyle) (alt : Bool) (g : Graph) :
    EndsLine (writeNt gen n o sty alt g) :=
  endsLine_lines (fun st => ⟨st.subject.display sty ++ str! " <" ++ st.predicate.fmt sty ++ str! "> " ++
    st.object.display sty alt ++ str! " .", by simp [ntLine]⟩) _

/-- There are documents to which C139 applies. -/
example : ∃ g₁, readNt easyEnv (str! "<a:s> <a:p> <a:o> . # one\n") = .ok g₁ ∧ EndsLine (str! "<a:s> <a:p> <a:o> . # one\n") :=
  ⟨_, rfl, .inr ⟨str! "<a:s> <a:p> <a:o> . # one", '\n', by decide, rfl⟩⟩

/-! ### C140 -/

/-- C140: a graph that is read holds each statement once. -/
def C140_statement : Prop := ∀ (env : ReadEnv) (s : Str) (g : Graph), readNt env s = .ok g → g.stmts.Nodup

/-- C140 fails: a line that is repeated is held twice. -/
theorem C140_fails : ¬C140_statement := fun h => by
  have := h easyEnv (str! "<a:s> <a:p> <a:o> .\n<a:s> <a:p> <a:o> .\n") _ rfl
  exact absurd (show List.Nodup [_, _] from this) (by simp)

/-- C140, what is held instead: a statement for each line, in order, that of the line. -/
theorem C140_lines (env : ReadEnv) (s : Str) (g : Graph) (ls : List RLine) (hs : LinesAt TripleAt ls s)
    (h : readNt env s = .ok g) : List.Forall₂ (fun l st => evalTriple env l = .ok st) ls g.stmts := by
  unfold readNt at h
  rw [(C71_iff _ _).2 hs] at h
  simp only [evalTriples_all] at h
  cases e : resAll (evalTriple env) ls with
  | ok sts =>
    rw [e] at h
    cases h
    rw [(foldl_insert_default _).1]
    exact resAll_ok e
  | err => rw [e] at h; cases h
  | panic => rw [e] at h; cases h

/-- C140, exactly when: no two lines stand for the same statement. -/
theorem C140_iff (env : ReadEnv) (s : Str) (g : Graph) (ls : List RLine) (hs : LinesAt TripleAt ls s)
    (h : readNt env s = .ok g) : g.stmts.Nodup ↔ ls.Pairwise fun l k => evalTriple env l ≠ evalTriple env k := by
  have hf := C140_lines env s g ls hs h
  generalize g.stmts = sts at hf
  clear hs h
  have all : ∀ {l : List RLine} {m : List Stmt}, List.Forall₂ (fun l st => evalTriple env l = .ok st) l m →
      ∀ st, (∃ x ∈ l, evalTriple env x = .ok st) ↔ st ∈ m := by
    intro l m h
    induction h with
    | nil => simp
    | @cons a b l m hab _ ih =>
      intro st
      simp only [List.mem_cons, exists_eq_or_imp, ih, hab, Res.ok.injEq]
      constructor
      · rintro (h | h)
        · exact .inl h.symm
        · exact .inr h
      · rintro (h | h)
        · exact .inl h.symm
        · exact .inr h
  induction hf with
  | nil => simp
  | @cons a b l m hab hr ih =>
    rw [List.nodup_cons, List.pairwise_cons, ← all hr b]
    refine and_congr ?_ ih
    constructor
    · intro h x hx e
      exact h ⟨x, hx, by rw [← e, hab]⟩
    · rintro h ⟨x, hx, e⟩
      exact h x hx (by rw [hab, e])

theorem joinNode_simple {env : ReadEnv} {n : RNode} {s : Subject} (h : evalNode env n = .ok s) : simpleSubject s = true := by
  cases n with
  | iri i =>
    simp only [evalNode] at h
    cases e : evalIri env i with
    | ok j => rw [e] at h; cases h; rfl
    | err => rw [e] at h; cases h
    | panic => rw [e] at h; cases h
  | blank t =>
    simp only [evalNode] at h
    cases e : blankParse env.blankOk (t.drop 2) with
    | some j => rw [e] at h; cases h; rfl
    | none => rw [e] at h; cases h

theorem evalTriple_simple {env : ReadEnv} {l : RLine} {st : Stmt} (h : evalTriple env l = .ok st) : simple st = true := by
  simp only [evalTriple] at h
  cases e : evalNode env l.subject with
  | err => rw [e] at h; cases h
  | panic => rw [e] at h; cases h
  | ok s =>
    cases e2 : evalIri env l.predicate with
    | err => rw [e, e2] at h; cases h
    | panic => rw [e, e2] at h; cases h
    | ok p =>
      cases e3 : evalObject env l.object with
      | err => rw [e, e2, e3] at h; cases h
      | panic => rw [e, e2, e3] at h; cases h
      | ok o =>
        rw [e, e2, e3] at h
        cases h
        have h1 := joinNode_simple e
        have h2 : simpleObject o = true := by
          cases hl : l.object with
          | node n =>
            rw [hl] at e3
            simp only [evalObject] at e3
            cases e4 : evalNode env n with
            | ok x =>
              rw [e4] at e3
              cases e3
              have := joinNode_simple e4
              cases x <;> first | rfl | cases this
            | err => rw [e4] at e3; cases e3
            | panic => rw [e4] at e3; cases e3
          | lit a x =>
            rw [hl] at e3
            simp only [evalObject] at e3
            cases e4 : evalLiteral env a x with
            | ok x => rw [e4] at e3; cases e3; rfl
            | err => rw [e4] at e3; cases e3
            | panic => rw [e4] at e3; cases e3
        simp [simple, Stmt.subject, Stmt.object, h1, h2]

/-- What is written of it holds each once again. -/
theorem C140_written (env : ReadEnv) (s : Str) (g : Graph) (h : readNt env s = .ok g) (gen : Nat → Str) (n : Nat) (o : Orders)
    (ho : o.Fair) (sty : IriStyle) (alt : Bool) :
    ∃ ls : List Stmt, ls.Nodup ∧ (∀ st, st ∈ ls ↔ st ∈ g.stmts) ∧
      writeNt gen n o sty alt g = ls.flatMap (ntLine sty alt) := by
  refine C40_simple gen n o ho sty alt g fun st hst => ?_
  cases hd : pDoc pTriple s with
  | none => unfold readNt at h; rw [hd] at h; cases h
  | some ls =>
    have hf := C140_lines env s g ls ((C71_iff _ _).1 hd) h
    generalize g.stmts = sts at hf hst
    clear hd
    induction hf with
    | nil => simp at hst
    | cons hab _ ih =>
      rcases List.mem_cons.1 hst with rfl | hst
      · exact evalTriple_simple hab
      · exact ih hst

/-- C139 for any number of documents: read one after the other they give the statements of all, in order. -/
theorem C139_many (env : ReadEnv) (ds : List (Str × Graph)) (h : ∀ d ∈ ds, readNt env d.1 = .ok d.2 ∧ EndsLine d.1) :
    ∃ g, readNt env (ds.flatMap (·.1)) = .ok g ∧ g.stmts = ds.flatMap (·.2.stmts) := by
  induction ds with
  | nil => exact ⟨Graph.default, rfl, rfl⟩
  | cons d ds ih =>
    obtain ⟨g, h1, h2⟩ := ih fun x hx => h x (List.mem_cons_of_mem _ hx)
    obtain ⟨h3, h4⟩ := h d List.mem_cons_self
    obtain ⟨g', h5, h6⟩ := C139_stmts env d.1 (ds.flatMap (·.1)) d.2 g h3 h4 h1
    exact ⟨g', by simpa using h5, by simp [h6, h2]⟩

end Rdftk
