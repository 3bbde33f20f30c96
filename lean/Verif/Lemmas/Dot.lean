import Verif.Spec.Dot
import Verif.Lemmas.Graph
import Verif.Lemmas.Literal
import Verif.Lemmas.Str

/-! Facts about the Graphviz writer and the reader of drawings. -/

namespace Rdftk

open Spec

/-! ### The tokenizer -/

/-- The tokens of a text and the state after it. -/
def dotRun : DotState → Str → Option (DotState × List DotTok)
  | st, [] => some (st, [])
  | st, c :: r =>
    match dotStep st c with
    | none => none
    | some (st', ts) => (dotRun st' r).map fun x => (x.1, ts ++ x.2)

theorem dotTokens_run {st st' : DotState} {a r : Str} {ts : List DotTok}
    (h : dotRun st a = some (st', ts)) :
    dotTokens st (a ++ r) = (dotTokens st' r).map (ts ++ ·) := by
  induction a generalizing st ts with
  | nil =>
    simp only [dotRun, Option.some.injEq, Prod.mk.injEq] at h
    obtain ⟨rfl, rfl⟩ := h
    simp
  | cons c a ih =>
    simp only [dotRun] at h
    cases hs : dotStep st c with
    | none => rw [hs] at h; simp at h
    | some x =>
      obtain ⟨s2, t2⟩ := x
      rw [hs] at h
      dsimp only at h
      cases hr : dotRun s2 a with
      | none => rw [hr] at h; simp at h
      | some y =>
        obtain ⟨s3, t3⟩ := y
        rw [hr] at h
        simp only [Option.map_some, Option.some.injEq, Prod.mk.injEq] at h
        obtain ⟨rfl, rfl⟩ := h
        have := ih hr
        have e : dotTokens st (c :: (a ++ r)) = (dotTokens s2 (a ++ r)).map (t2 ++ ·) := by
          rw [dotTokens, hs]
        rw [List.cons_append, e, this, Option.map_map]
        congr 1
        funext l
        simp

theorem dotRun_append {st st' : DotState} {a : Str} {ts : List DotTok} (r : Str)
    (h : dotRun st a = some (st', ts)) :
    dotRun st (a ++ r) = (dotRun st' r).map fun x => (x.1, ts ++ x.2) := by
  induction a generalizing st ts with
  | nil =>
    simp only [dotRun, Option.some.injEq, Prod.mk.injEq] at h
    obtain ⟨rfl, rfl⟩ := h
    simp
  | cons c a ih =>
    simp only [dotRun] at h
    cases hs : dotStep st c with
    | none => rw [hs] at h; simp at h
    | some x =>
      obtain ⟨s2, t2⟩ := x
      rw [hs] at h
      dsimp only at h
      cases hr : dotRun s2 a with
      | none => rw [hr] at h; simp at h
      | some y =>
        obtain ⟨s3, t3⟩ := y
        rw [hr] at h
        simp only [Option.map_some, Option.some.injEq, Prod.mk.injEq] at h
        obtain ⟨rfl, rfl⟩ := h
        rw [List.cons_append, dotRun, hs]
        dsimp only
        rw [ih hr, Option.map_map]
        congr 1
        funext l
        simp

/-- Two runs one after the other. -/
theorem dotRun_trans {st st' st'' : DotState} {a b : Str} {ts ts' : List DotTok}
    (h : dotRun st a = some (st', ts)) (h' : dotRun st' b = some (st'', ts')) :
    dotRun st (a ++ b) = some (st'', ts ++ ts') := by
  rw [dotRun_append b h, h']
  rfl

theorem dotRun_quoted {p : Bool} {s : Str} (acc : Str) (h : noBareQuote p s = true) :
    dotRun (.quoted p acc) s = some (.quoted false (acc ++ s), []) := by
  induction s generalizing p acc with
  | nil =>
    cases p with
    | true => simp [noBareQuote] at h
    | false => simp [dotRun]
  | cons c s ih =>
    cases p with
    | true =>
      simp only [noBareQuote] at h
      simp only [dotRun, dotStep, ih (acc ++ [c]) h, Option.map_some]
      simp
    | false =>
      simp only [noBareQuote] at h
      split at h
      · simp at h
      · rename_i hc
        simp only [dotRun, dotStep, hc, if_false, ih (acc ++ [c]) h, Option.map_some]
        simp

theorem dotRun_word {s : Str} (acc : Str) (h : s.all isDotWord = true) :
    dotRun (.word acc) s = some (.word (acc ++ s), []) := by
  induction s generalizing acc with
  | nil => simp [dotRun]
  | cons c s ih =>
    simp only [List.all_cons, Bool.and_eq_true] at h
    simp only [dotRun, dotStep, h.1, if_true, ih (acc ++ [c]) h.2, Option.map_some]
    simp

theorem isDotWord_other {c : Char} (h : isDotWord c = true) :
    isDotSpace c = false ∧ isDotPunct c = false ∧ c ≠ '"' ∧ c ≠ '-' := by
  have key : ∀ d : Char, isDotWord d = false → c ≠ d := by
    intro d hd e; rw [e, hd] at h; cases h
  refine ⟨?_, ?_, key _ (by decide), key _ (by decide)⟩
  · unfold isDotSpace
    simp [key ' ' (by decide), key '\n' (by decide)]
  · unfold isDotPunct
    simp [key '{' (by decide), key '}' (by decide), key '[' (by decide), key ']' (by decide),
      key '=' (by decide), key ',' (by decide), key ';' (by decide)]

theorem dotRun_idle_word {s : Str} (h : isWord s = true) :
    dotRun .idle s = some (.word s, []) := by
  cases s with
  | nil => simp [isWord] at h
  | cons c s =>
    simp only [isWord, List.isEmpty_cons, Bool.not_false, List.all_cons, Bool.true_and,
      Bool.and_eq_true] at h
    obtain ⟨h1, h2, h3, h4⟩ := isDotWord_other h.1
    simp only [dotRun, dotStep, dotStart, h1, h2, h3, h4, h.1, if_true, if_false,
      Bool.false_eq_true, dotRun_word [c] h.2, Option.map_some]
    simp

/-! ### The lines -/

theorem dotRun_edge {opts : DotOptions} {s o l : Str} (hp : dotSafe opts.nodePrefix) (hs : dotSafe s)
    (ho : dotSafe o) (hl : dotSafe l) :
    dotRun .idle (dotEdge opts s o l) = some (.idle,
      [.quoted (opts.nodePrefix ++ s), .arrow, .quoted (str! "node_" ++ o), .punct '[',
        .word (str! "label"), .punct '=', .quoted l, .punct ']', .punct ';']) := by
  unfold dotEdge
  have r1 : dotRun .idle (str! "    \"") = some (.quoted false [], []) := by decide
  have r2 : ∀ acc, dotRun (.quoted false acc) (str! "\" -> \"node_") =
      some (.quoted false (str! "node_"), [.quoted acc, .arrow]) := fun acc => rfl
  have r3 : ∀ acc, dotRun (.quoted false acc) (str! "\" [label=\"") =
      some (.quoted false [], [.quoted acc, .punct '[', .word (str! "label"), .punct '=']) := fun acc => rfl
  have r4 : ∀ acc, dotRun (.quoted false acc) (str! "\"];\n") =
      some (.idle, [.quoted acc, .punct ']', .punct ';']) := fun acc => rfl
  have := dotRun_trans (dotRun_trans (dotRun_trans (dotRun_trans (dotRun_trans (dotRun_trans (dotRun_trans r1
    (dotRun_quoted _ hp)) (dotRun_quoted _ hs)) (r2 _)) (dotRun_quoted _ ho)) (r3 _)) (dotRun_quoted _ hl))
    (r4 _)
  simpa using this

/-- The attributes shown for a node. -/
def dotNodeAttrs (opts : DotOptions) (n : DotNode) : List (Str × Str) :=
  match n.kind with
  | .blank => [(str! "label", if opts.blankLabels then opts.nodePrefix ++ n.id else []),
      (str! "shape", opts.blankShape), (str! "color", opts.blankColor)]
  | .iri => [(str! "URL", n.label), (str! "label", n.label), (str! "shape", opts.iriShape),
      (str! "color", opts.iriColor)]
  | .literal => [(str! "label", n.label), (str! "shape", opts.literalShape),
      (str! "color", opts.literalColor)]

/-- The tokens of a line of a node, without the semicolon. -/
def dotNodeToks (opts : DotOptions) (n : DotNode) : List DotTok :=
  match n.kind with
  | .blank => [.quoted (opts.nodePrefix ++ n.id), .punct '[', .word (str! "label"), .punct '=',
      .quoted (if opts.blankLabels then opts.nodePrefix ++ n.id else []), .punct ',',
      .word (str! "shape"), .punct '=', .word opts.blankShape, .punct ',',
      .word (str! "color"), .punct '=', .word opts.blankColor, .punct ']']
  | .iri => [.quoted (opts.nodePrefix ++ n.id), .punct '[', .word (str! "URL"), .punct '=',
      .quoted n.label, .punct ',', .word (str! "label"), .punct '=',
      .quoted n.label, .punct ',',
      .word (str! "shape"), .punct '=', .word opts.iriShape, .punct ',',
      .word (str! "color"), .punct '=', .word opts.iriColor, .punct ']']
  | .literal => [.quoted (opts.nodePrefix ++ n.id), .punct '[', .word (str! "label"), .punct '=',
      .quoted n.label, .punct ',',
      .word (str! "shape"), .punct '=', .word opts.literalShape, .punct ',',
      .word (str! "color"), .punct '=', .word opts.literalColor, .punct ']']

theorem dotItem_node (opts : DotOptions) (n : DotNode) :
    dotItem (dotNodeToks opts n) = some (.node (opts.nodePrefix ++ n.id) (dotNodeAttrs opts n)) := by
  unfold dotNodeToks dotNodeAttrs
  cases n.kind <;> rfl

theorem dotRun_node {opts : DotOptions} {n : DotNode} (ho : OptionsSafe opts) (hi : dotSafe n.id)
    (hl : n.kind ≠ .blank → dotSafe n.label) :
    dotRun .idle (dotNodeLine opts n) = some (.idle, dotNodeToks opts n ++ [.punct ';']) := by
  obtain ⟨h1, h2, h3, h4, h5, h6, hp⟩ := ho
  have r1 : dotRun .idle (str! "    \"") = some (.quoted false [], []) := by decide
  have r2 : ∀ acc, dotRun (.quoted false acc) (str! "\" [label=\"") =
      some (.quoted false [], [.quoted acc, .punct '[', .word (str! "label"), .punct '=']) := fun acc => rfl
  have r3 : ∀ acc, dotRun (.quoted false acc) (str! "\",shape=") =
      some (.idle, [.quoted acc, .punct ',', .word (str! "shape"), .punct '=']) := fun acc => rfl
  have r4 : ∀ acc, dotRun (.word acc) (str! ",color=") =
      some (.idle, [.word acc, .punct ',', .word (str! "color"), .punct '=']) := fun acc => rfl
  have r5 : ∀ acc, dotRun (.word acc) (str! "];\n") =
      some (.idle, [.word acc, .punct ']', .punct ';']) := fun acc => rfl
  have r6 : ∀ acc, dotRun (.quoted false acc) (str! "\" [label=\"\",shape=") =
      some (.idle, [.quoted acc, .punct '[', .word (str! "label"), .punct '=', .quoted [], .punct ',',
        .word (str! "shape"), .punct '=']) := fun acc => rfl
  have r7 : ∀ acc, dotRun (.quoted false acc) (str! "\" [URL=\"") =
      some (.quoted false [], [.quoted acc, .punct '[', .word (str! "URL"), .punct '=']) := fun acc => rfl
  have r8 : ∀ acc, dotRun (.quoted false acc) (str! "\",label=\"") =
      some (.quoted false [], [.quoted acc, .punct ',', .word (str! "label"), .punct '=']) := fun acc => rfl
  have start := dotRun_trans (dotRun_trans r1 (dotRun_quoted _ hp)) (dotRun_quoted _ hi)
  unfold dotNodeLine dotNodeToks
  cases hk : n.kind with
  | blank =>
    dsimp only
    split
    · have := dotRun_trans (dotRun_trans (dotRun_trans (dotRun_trans (dotRun_trans (dotRun_trans (dotRun_trans
        (dotRun_trans start (r2 _)) (dotRun_quoted _ hp)) (dotRun_quoted _ hi)) (r3 _)) (dotRun_idle_word h1))
        (r4 _)) (dotRun_idle_word h2)) (r5 _)
      simpa using this
    · have := dotRun_trans (dotRun_trans (dotRun_trans (dotRun_trans (dotRun_trans start (r6 _))
        (dotRun_idle_word h1)) (r4 _)) (dotRun_idle_word h2)) (r5 _)
      simpa using this
  | iri =>
    dsimp only
    have hl := hl (by simp [hk])
    have := dotRun_trans (dotRun_trans (dotRun_trans (dotRun_trans (dotRun_trans (dotRun_trans (dotRun_trans
      (dotRun_trans (dotRun_trans start (r7 _)) (dotRun_quoted _ hl)) (r8 _)) (dotRun_quoted _ hl)) (r3 _))
      (dotRun_idle_word h3)) (r4 _)) (dotRun_idle_word h4)) (r5 _)
    simpa using this
  | literal =>
    dsimp only
    have hl := hl (by simp [hk])
    have := dotRun_trans (dotRun_trans (dotRun_trans (dotRun_trans (dotRun_trans (dotRun_trans (dotRun_trans
      start (r2 _)) (dotRun_quoted _ hl)) (r3 _)) (dotRun_idle_word h5)) (r4 _)) (dotRun_idle_word h6)) (r5 _)
    simpa using this

/-- The tokens of lines that begin and end outside words and strings. -/
theorem dotRun_flatMap {α : Type _} {f : α → Str} {t : α → List DotTok} {l : List α}
    (h : ∀ a ∈ l, dotRun .idle (f a) = some (.idle, t a)) :
    dotRun .idle (l.flatMap f) = some (.idle, l.flatMap t) := by
  induction l with
  | nil => rfl
  | cons a l ih =>
    simp only [List.flatMap_cons]
    exact dotRun_trans (h a (by simp)) (ih fun b hb => h b (by simp [hb]))

/-! ### Statements of a drawing -/

theorem dotStatements_cons {a : List DotTok} (h : DotTok.punct ';' ∉ a) (r : List DotTok) :
    dotStatements (a ++ .punct ';' :: r) = (a :: (dotStatements r).1, (dotStatements r).2) := by
  induction a with
  | nil => simp [dotStatements]
  | cons t a ih =>
    simp only [List.mem_cons, not_or] at h
    simp only [List.cons_append, dotStatements, ih h.2, Ne.symm h.1, if_false]

theorem dotStatements_lines {α : Type _} {f : α → List DotTok} {l : List α}
    (h : ∀ a ∈ l, DotTok.punct ';' ∉ f a) (r : List DotTok) :
    dotStatements (l.flatMap (fun a => f a ++ [.punct ';']) ++ r) =
      (l.map f ++ (dotStatements r).1, (dotStatements r).2) := by
  induction l with
  | nil => rfl
  | cons a l ih =>
    have := ih fun b hb => h b (by simp [hb])
    simp only [List.flatMap_cons, List.append_assoc, List.cons_append, List.nil_append,
      dotStatements_cons (h a (by simp)), this, List.map_cons]

theorem dotItems_append {a b : List (List DotTok)} {x y : List DotItem} (ha : dotItems a = some x)
    (hb : dotItems b = some y) : dotItems (a ++ b) = some (x ++ y) := by
  induction a generalizing x with
  | nil => cases ha; exact hb
  | cons s a ih =>
    simp only [dotItems] at ha
    cases hs : dotItem s with
    | none => rw [hs] at ha; simp at ha
    | some i =>
      rw [hs] at ha
      cases hr : dotItems a with
      | none => rw [hr] at ha; simp at ha
      | some z =>
        rw [hr] at ha
        simp only [Option.bind_some, Option.map_some, Option.some.injEq] at ha
        subst ha
        simp only [List.cons_append, dotItems, hs, ih hr, Option.bind_some, Option.map_some]

theorem dotItems_map {α : Type _} {f : α → List DotTok} {i : α → DotItem} {l : List α}
    (h : ∀ a ∈ l, dotItem (f a) = some (i a)) : dotItems (l.map f) = some (l.map i) := by
  induction l with
  | nil => rfl
  | cons a l ih =>
    simp only [List.map_cons, dotItems, h a (by simp), ih fun b hb => h b (by simp [hb]),
      Option.bind_some, Option.map_some]

/-- An edge as the writer puts it: the head always has the prefix `node_`. -/
structure DotArrow where
  tail : Str
  head : Str
  label : Str

theorem readDot_of {s : Str} {ts : List DotTok} {ss : List (List DotTok)}
    (h : dotTokens .idle s = Option.map (ts ++ ·) (dotTokens .idle []))
    (h' : dotStatements ts = (dotHead :: ss, [.punct '}'])) : readDot s = dotItems ss := by
  unfold readDot
  simp only [dotTokens, Option.map_some, List.append_nil] at h
  rw [h]
  simp only [h', if_true]

/-- Reading the text made of lines of edges and nodes. -/
theorem readDot_lines {opts : DotOptions} (ho : OptionsSafe opts) {es : List DotArrow} {ns : List DotNode}
    (he : ∀ e ∈ es, dotSafe e.tail ∧ dotSafe e.head ∧ dotSafe e.label)
    (hn : ∀ n ∈ ns, dotSafe n.id ∧ (n.kind ≠ .blank → dotSafe n.label)) :
    readDot (str! "digraph {\n    rankdir=BT\n    charset=\"utf-8\";\n" ++ str! "\n" ++
      es.flatMap (fun e => dotEdge opts e.tail e.head e.label) ++ str! "\n" ++
      ns.flatMap (dotNodeLine opts) ++ str! "}\n") =
    some (es.map (fun e => .edge (opts.nodePrefix ++ e.tail) (str! "node_" ++ e.head) [(str! "label", e.label)]) ++
      ns.map (fun n => .node (opts.nodePrefix ++ n.id) (dotNodeAttrs opts n))) := by
  have hp : dotSafe opts.nodePrefix := ho.2.2.2.2.2.2
  have r1 : dotRun .idle (str! "digraph {\n    rankdir=BT\n    charset=\"utf-8\";\n" ++ str! "\n") =
      some (.idle, dotHead ++ [.punct ';']) := by decide +kernel
  have r2 : dotRun .idle (str! "\n") = some (.idle, []) := by decide
  have r3 : dotRun .idle (str! "}\n") = some (.idle, [.punct '}']) := by decide
  have re := dotRun_flatMap (l := es) (f := fun e => dotEdge opts e.tail e.head e.label)
    (t := fun e => [.quoted (opts.nodePrefix ++ e.tail), .arrow, .quoted (str! "node_" ++ e.head), .punct '[',
        .word (str! "label"), .punct '=', .quoted e.label, .punct ']'] ++ [.punct ';'])
    (by
      intro e h
      rw [dotRun_edge hp (he e h).1 (he e h).2.1 (he e h).2.2]
      rfl)
  have rn := dotRun_flatMap (l := ns) (f := dotNodeLine opts) (t := fun n => dotNodeToks opts n ++ [.punct ';'])
    (fun n h => dotRun_node ho (hn n h).1 (hn n h).2)
  have all := dotTokens_run (r := []) (dotRun_trans (dotRun_trans (dotRun_trans (dotRun_trans r1 re) r2) rn) r3)
  rw [List.append_nil] at all
  have ie := dotItems_map (l := es) (f := fun e => [.quoted (opts.nodePrefix ++ e.tail), .arrow,
      .quoted (str! "node_" ++ e.head), .punct '[', .word (str! "label"), .punct '=', .quoted e.label, .punct ']'])
    (i := fun e => .edge (opts.nodePrefix ++ e.tail) (str! "node_" ++ e.head) [(str! "label", e.label)])
    (fun e _ => rfl)
  have it := dotItems_append ie (dotItems_map fun n (_ : n ∈ ns) => dotItem_node opts n)
  rw [← it]
  refine readDot_of all ?_
  have e2 : dotStatements [DotTok.punct '}'] = ([], [.punct '}']) := by decide
  rw [List.append_assoc, List.append_nil, List.append_assoc, List.append_assoc]
  rw [List.singleton_append, dotStatements_cons (by decide), dotStatements_lines (by intro e _; simp),
    dotStatements_lines (by
    intro n _
    unfold dotNodeToks
    cases n.kind <;> simp), e2, List.append_nil]

end Rdftk
