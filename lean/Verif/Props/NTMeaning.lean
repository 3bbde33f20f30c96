import Verif.Spec.NTMeaning
import Verif.Props.NTriples

/-! What N-Triples and N-Quads documents say: C83 and C84. -/

namespace Rdftk
open Spec

/-! ### What is read -/

theorem evalIri_means {env : ReadEnv} (he : SaneEnv env) {s t : Str} {i : Iri} (hd : DecodesIri s t)
    (hu : env.url t = some i) : evalIri env s = .ok i := by
  rw [C44_read_partial env s t hd, hu]
  · rfl
  · rintro u rfl
    rw [he.1] at hu
    cases hu

theorem evalNode_means {env : ReadEnv} (he : SaneEnv env) {t : Term} {x : RdfTerm} (hv : t.Valid)
    (h : t.Means env x) : ∃ s, evalNode env t.raw = .ok s ∧ subjectTerm s = some x := by
  cases t with
  | iri s =>
    obtain ⟨t, i, h1, h2, rfl⟩ := h
    exact ⟨.res i, by simp [Term.raw, evalNode, evalIri_means he h1 h2, Res.bind], rfl⟩
  | blank l =>
    cases h
    exact ⟨.blank l, evalLabel_good ⟨hv, he.2 l hv⟩, rfl⟩

theorem toObject_term (s : Subject) (x : RdfTerm) (h : subjectTerm s = some x) :
    objectTerm s.toObject = some x := by
  cases s <;> first | exact h | cases h

/-- The term with the inside of its quotes escaped once more. -/
def readTerm (pr : Char → Bool) (o : Obj) (x : RdfTerm) : RdfTerm :=
  match o, x with
  | .lit a _, .lit _ d g => .lit (escapeString pr a) d g
  | _, x => x

theorem evalObject_means {env : ReadEnv} (he : SaneEnv env) {o : Obj} {x : RdfTerm} (hv : o.Valid)
    (h : o.Means env x) :
    ∃ y, evalObject env o.raw = .ok y ∧ objectTerm y = some (readTerm env.pr o x) := by
  match o, hv, h with
  | .term t, hv, h =>
    obtain ⟨s, h1, h2⟩ := evalNode_means he hv h
    exact ⟨s.toObject, by simp [Obj.raw, evalObject, h1, Res.bind], toObject_term s x h2⟩
  | .lit a .none, hv, h =>
    obtain ⟨t, h1, rfl⟩ := h
    exact ⟨_, rfl, rfl⟩
  | .lit a (.lang g), hv, h =>
    obtain ⟨t, l, h1, h2, rfl⟩ := h
    exact ⟨.lit (Literal.withLanguage env.pr a l), by
      simp [Obj.raw, Suffix.raw, evalObject, evalLiteral, h2, Res.ofOption, Res.bind], rfl⟩
  | .lit a (.type s), hv, h =>
    obtain ⟨t, u, i, h1, h2, h3, rfl⟩ := h
    exact ⟨.lit (Literal.withDataType env.pr a (.other i)), by
      simp [Obj.raw, Suffix.raw, evalObject, evalLiteral, evalIri_means he h2 h3, Res.bind], rfl⟩

/-- The triple with the inside of the quotes escaped once more. -/
def readTriple (pr : Char → Bool) (l : Line) (x : RdfTriple) : RdfTriple := (x.1, x.2.1, readTerm pr l.o x.2.2)

theorem evalTriple_means {env : ReadEnv} (he : SaneEnv env) {l : Line} {x : RdfTriple} (hv : l.Valid)
    (h : l.Means env x) :
    ∃ st, evalTriple env l.raw = .ok st ∧ stmtTriple st = some (readTriple env.pr l x) := by
  obtain ⟨h1, ⟨t, h2, h3⟩, h4⟩ := h
  obtain ⟨s, e1, f1⟩ := evalNode_means he hv.1 h1
  obtain ⟨o, e2, f2⟩ := evalObject_means he hv.2.2.1 h4
  refine ⟨.mk s x.2.1 o, ?_, ?_⟩
  · simp [evalTriple, Line.raw, e1, e2, evalIri_means he h2 h3, Res.bind]
  · simp [stmtTriple, Stmt.subject, Stmt.object, Stmt.predicate, f1, f2, readTriple]

theorem evalTriples_means {env : ReadEnv} (he : SaneEnv env) (ls : List (Line × RdfTriple))
    (hv : ∀ x ∈ ls, x.1.Valid ∧ x.1.Means env x.2) (g : Graph) :
    ∃ sts : List Stmt, evalTriples env g (ls.map fun x => x.1.raw) = .ok (sts.foldl Graph.insert g) ∧
      sts.map stmtTriple = ls.map fun x => some (readTriple env.pr x.1 x.2) := by
  induction ls generalizing g with
  | nil => exact ⟨[], rfl, rfl⟩
  | cons x ls ih =>
    obtain ⟨st, h1, h2⟩ := evalTriple_means he (hv x List.mem_cons_self).1 (hv x List.mem_cons_self).2
    obtain ⟨sts, h3, h4⟩ := ih (fun y hy => hv y (List.mem_cons_of_mem _ hy)) (g.insert st)
    refine ⟨st :: sts, ?_, by simp [h2, h4]⟩
    simp only [List.map_cons, evalTriples, h1, Res.bind, h3, List.foldl_cons]

/-! ### Escapes -/

theorem decodes_length {s t : Str} (h : DecodesString s t) : t.length ≤ s.length ∧ (t.length = s.length → t = s) := by
  induction h with
  | nil => exact ⟨Nat.le_refl _, fun _ => rfl⟩
  | plain _ _ ih =>
    refine ⟨by simpa using ih.1, fun h => ?_⟩
    rw [ih.2 (by simpa using h)]
  | echar _ _ ih =>
    have := ih.1
    simp only [List.length_cons]
    refine ⟨by omega, fun h => by omega⟩
  | @uchar ds u s t c hu _ _ ih =>
    have h1 := ih.1
    have h2 : 2 ≤ u.length := by
      rcases hu.2 with ⟨-, rfl⟩ | ⟨-, rfl⟩ <;> simp
    simp only [List.length_cons, List.length_append]
    exact ⟨by omega, fun h => by omega⟩

theorem decodes_self {s : Str} (h : '\\' ∉ s) : DecodesString s s := by
  induction s with
  | nil => exact .nil
  | cons c s ih =>
    rw [List.mem_cons, not_or] at h
    exact .plain (Ne.symm h.1) (ih h.2)

theorem decodes_no_escape {s t : Str} (h : '\\' ∉ s) (hd : DecodesString s t) : t = s := by
  induction hd with
  | nil => rfl
  | plain _ _ ih =>
    rw [List.mem_cons, not_or] at h
    rw [ih h.2]
  | echar => simp at h
  | @uchar ds u s t c hu _ _ ih =>
    exfalso
    rcases hu.2 with ⟨-, rfl⟩ | ⟨-, rfl⟩ <;> simp at h

theorem escape_no_backslash {pr : Char → Bool} {s : Str} (h : escapeString pr s = s) : '\\' ∉ s := by
  intro hm
  have := (escapeString_id_iff pr s).1 h _ hm
  simp [escapeChar] at this

theorem escape_fixed {pr : Char → Bool} {s : Str} (h : escapeString pr (escapeString pr s) = escapeString pr s) :
    escapeString pr s = s := by
  have hb := escape_no_backslash h
  rw [escapeString_id_iff]
  intro c hc
  have hsub : ∀ x ∈ escapeChar pr c, x ≠ '\\' := fun x hx e =>
    hb (by rw [← e]; exact List.mem_flatMap.2 ⟨c, hc, hx⟩)
  revert hsub
  unfold escapeChar
  repeat' split
  all_goals simp_all

/-- The string that is read for a quoted text is the one it stands for if and only if there is
nothing to escape in it. -/
theorem escape_means {pr : Char → Bool} {a t : Str} (h : DecodesString a t) :
    escapeString pr a = t ↔ escapeString pr a = a := by
  constructor
  · intro e
    rcases escape_grows pr a with h1 | h1
    · exact h1
    · have := (decodes_length h).1
      rw [e] at h1
      omega
  · intro e
    rw [e]
    exact (decodes_no_escape (escape_no_backslash e) h).symm

/-! ### C83 -/

/-- The text of a document. -/
def docText (first last : Str) (ls : List (Gaps × Line)) : Str := first ++ (linesText ls ++ last)

/-- C83, the full statement: a document is read as what it says. -/
def C83_statement : Prop :=
  ∀ (env : ReadEnv) (first last : Str) (ls : List (Gaps × Line × RdfTriple)), AsciiPrintable env.pr →
    SaneEnv env → Gap first → LastGap last →
    (∀ x ∈ ls, x.2.1.g = none ∧ x.2.1.Valid ∧ x.1.Valid x.2.1 ∧ x.2.1.Means env x.2.2) →
    ∃ g, readNt env (docText first last (ls.map fun x => (x.1, x.2.1))) = .ok g ∧
      ∀ t, (∃ st ∈ g.stmts, stmtTriple st = some t) ↔ t ∈ ls.map fun x => x.2.2

/-- C83, what is read in general: what the document says, with the insides of the quotes as they
stand and escaped once more. -/
theorem C83_reads (env : ReadEnv) (first last : Str) (ls : List (Gaps × Line × RdfTriple)) (he : SaneEnv env)
    (hf : Gap first) (hl : LastGap last)
    (hv : ∀ x ∈ ls, x.2.1.g = none ∧ x.2.1.Valid ∧ x.1.Valid x.2.1 ∧ x.2.1.Means env x.2.2) :
    ∃ g, readNt env (docText first last (ls.map fun x => (x.1, x.2.1))) = .ok g ∧
      ∀ t, (∃ st ∈ g.stmts, stmtTriple st = some t) ↔ ∃ x ∈ ls, readTriple env.pr x.2.1 x.2.2 = t := by
  obtain ⟨sts, h1, h2⟩ := evalTriples_means he (ls.map fun x => x.2) (by
    intro x hx
    obtain ⟨y, hy, rfl⟩ := List.mem_map.1 hx
    exact ⟨(hv y hy).2.1, (hv y hy).2.2.2⟩) Graph.default
  refine ⟨sts.foldl Graph.insert Graph.default, ?_, fun t => ?_⟩
  · unfold readNt docText
    rw [pDoc_triples hf hl]
    · rw [← h1]
      simp [Function.comp_def]
    · intro x hx
      obtain ⟨y, hy, rfl⟩ := List.mem_map.1 hx
      exact ⟨(hv y hy).1, (hv y hy).2.1, (hv y hy).2.2.1⟩
  · rw [(foldl_insert_default sts).1]
    have : (∃ st ∈ sts, stmtTriple st = some t) ↔ some t ∈ sts.map stmtTriple := by simp
    rw [this, h2]
    simp

theorem readTriple_id {pr : Char → Bool} {env : ReadEnv} {l : Line} {x : RdfTriple} (h : l.Means env x) :
    readTriple pr l x = x ↔ ∀ a, l.o.inner = some a → escapeString pr a = a := by
  obtain ⟨s, p, o, g⟩ := l
  obtain ⟨xs, xp, xo⟩ := x
  obtain ⟨-, -, h⟩ := h
  match o, h with
  | .term t, h => simp [readTriple, readTerm, Obj.inner]
  | .lit a .none, h =>
    obtain ⟨t, h1, rfl⟩ := h
    simp [readTriple, readTerm, Obj.inner, escape_means h1]
  | .lit a (.lang g), h =>
    obtain ⟨t, l, h1, h2, rfl⟩ := h
    simp [readTriple, readTerm, Obj.inner, escape_means h1]
  | .lit a (.type s), h =>
    obtain ⟨t, u, i, h1, h2, h3, rfl⟩ := h
    simp [readTriple, readTerm, Obj.inner, escape_means h1]

/-- The length of the text of a literal. -/
def textLength : RdfTerm → Nat
  | .lit t _ _ => t.length
  | _ => 0

theorem le_sum_of_mem {n : Nat} {l : List Nat} (h : n ∈ l) : n ≤ l.sum := by
  induction l with
  | nil => cases h
  | cons a l ih =>
    rw [List.sum_cons]
    rcases List.mem_cons.1 h with rfl | h
    · omega
    · have := ih h
      omega

/-- If what is read, as a set, is what is said, then nothing was escaped. -/
theorem read_set {env : ReadEnv} (ls : List (Line × RdfTriple)) (hv : ∀ x ∈ ls, x.1.Means env x.2)
    (h : ∀ x ∈ ls, ∃ y ∈ ls, y.2 = readTriple env.pr x.1 x.2) (x : Line × RdfTriple) (hx : x ∈ ls) :
    readTriple env.pr x.1 x.2 = x.2 := by
  by_contra hbad
  obtain ⟨m, hm⟩ : ∃ m, ∀ x ∈ ls, textLength (readTriple env.pr x.1 x.2).2.2 ≤ m := by
    refine ⟨(ls.map fun x => textLength (readTriple env.pr x.1 x.2).2.2).sum, fun x hx => ?_⟩
    exact le_sum_of_mem (List.mem_map_of_mem hx)
  -- a chain of lines whose texts get longer
  suffices ∀ k, ∃ z ∈ ls, readTriple env.pr z.1 z.2 ≠ z.2 ∧ k ≤ textLength (readTriple env.pr z.1 z.2).2.2 by
    obtain ⟨z, hz, -, hk⟩ := this (m + 1)
    have := hm z hz
    omega
  intro k
  induction k with
  | zero => exact ⟨x, hx, hbad, Nat.zero_le _⟩
  | succ k ih =>
    obtain ⟨z, hz, hb, hk⟩ := ih
    obtain ⟨y, hy, e⟩ := h z hz
    have lit : ∀ w ∈ ls, readTriple env.pr w.1 w.2 ≠ w.2 → ∃ a t d g, w.1.o.inner = some a ∧
        w.2.2.2 = .lit t d g ∧ DecodesString a t ∧ (readTriple env.pr w.1 w.2).2.2 = .lit (escapeString env.pr a) d g := by
      rintro ⟨⟨s, p, o, n⟩, xs, xp, xo⟩ hw hne
      have hmean := (hv _ hw).2.2
      match o, hmean with
      | .term t, hmean => exact absurd rfl hne
      | .lit a .none, hmean =>
        obtain ⟨t, h1, h2⟩ := hmean
        simp only at h2; subst h2
        exact ⟨a, t, none, none, rfl, rfl, h1, rfl⟩
      | .lit a (.lang g), hmean =>
        obtain ⟨t, l, h1, -, h2⟩ := hmean
        simp only at h2; subst h2
        exact ⟨a, t, none, some l, rfl, rfl, h1, rfl⟩
      | .lit a (.type s), hmean =>
        obtain ⟨t, u, i, h1, -, -, h2⟩ := hmean
        simp only at h2; subst h2
        exact ⟨a, t, some i, none, rfl, rfl, h1, rfl⟩
    obtain ⟨a, t, d, g, h1, h2, h3, h4⟩ := lit z hz hb
    have hya : escapeString env.pr a ≠ a := by
      intro e'
      refine hb ((readTriple_id (hv z hz)).2 fun b hbe => ?_)
      rw [h1] at hbe
      cases hbe
      exact e'
    -- the line that says what was read for `z`
    have hy2 : y.2.2.2 = .lit (escapeString env.pr a) d g := by rw [e, h4]
    obtain ⟨b, hb1, hb2⟩ : ∃ b, y.1.o.inner = some b ∧ DecodesString b (escapeString env.pr a) := by
      obtain ⟨⟨s, p, o, n⟩, xs, xp, xo⟩ := y
      simp only at hy2
      subst hy2
      have hmean := (hv _ hy).2.2
      match o, hmean with
      | .term (.iri _), hmean => obtain ⟨_, _, _, _, h⟩ := hmean; cases h
      | .term (.blank _), hmean => cases hmean
      | .lit b .none, hmean =>
        obtain ⟨t, h1, h2⟩ := hmean
        cases h2
        exact ⟨b, rfl, h1⟩
      | .lit b (.lang g), hmean =>
        obtain ⟨t, l, h1, -, h2⟩ := hmean
        cases h2
        exact ⟨b, rfl, h1⟩
      | .lit b (.type s), hmean =>
        obtain ⟨t, u, i, h1, -, -, h2⟩ := hmean
        cases h2
        exact ⟨b, rfl, h1⟩
    have hyb : readTriple env.pr y.1 y.2 ≠ y.2 := by
      intro e'
      have e2 := (readTriple_id (hv y hy)).1 e' b hb1
      have e3 := decodes_no_escape (escape_no_backslash e2) hb2
      rw [← e3] at e2
      exact hya (escape_fixed e2)
    refine ⟨y, hy, hyb, ?_⟩
    obtain ⟨b', t', d', g', k1, k2, k3, k4⟩ := lit y hy hyb
    rw [hb1] at k1
    cases k1
    rw [hy2] at k2
    cases k2
    have hne : escapeString env.pr b ≠ b := by
      intro e'
      refine hyb ((readTriple_id (hv y hy)).2 fun c hc => ?_)
      rw [hb1] at hc
      cases hc
      exact e'
    have l1 := (decodes_length hb2).1
    have l2 : b.length < (escapeString env.pr b).length := (escape_grows env.pr b).resolve_left hne
    rw [h4] at hk
    rw [k4]
    simp only [textLength] at hk ⊢
    omega

/-- C83: a document is read as what it says if and only if no literal has anything to escape. -/
theorem C83_iff (env : ReadEnv) (first last : Str) (ls : List (Gaps × Line × RdfTriple)) (he : SaneEnv env)
    (hf : Gap first) (hl : LastGap last)
    (hv : ∀ x ∈ ls, x.2.1.g = none ∧ x.2.1.Valid ∧ x.1.Valid x.2.1 ∧ x.2.1.Means env x.2.2) :
    (∃ g, readNt env (docText first last (ls.map fun x => (x.1, x.2.1))) = .ok g ∧
      ∀ t, (∃ st ∈ g.stmts, stmtTriple st = some t) ↔ t ∈ ls.map fun x => x.2.2) ↔
    ∀ x ∈ ls, ∀ a, x.2.1.o.inner = some a → escapeString env.pr a = a := by
  obtain ⟨g, h1, h2⟩ := C83_reads env first last ls he hf hl hv
  constructor
  · rintro ⟨g', h3, h4⟩ x hx
    rw [h1] at h3
    cases h3
    rw [← readTriple_id (hv x hx).2.2.2]
    refine read_set (env := env) (ls.map fun x => x.2) ?_ ?_ x.2 (List.mem_map_of_mem hx)
    · intro y hy
      obtain ⟨z, hz, rfl⟩ := List.mem_map.1 hy
      exact (hv z hz).2.2.2
    · intro y hy
      obtain ⟨z, hz, rfl⟩ := List.mem_map.1 hy
      obtain ⟨w, hw, e⟩ := List.mem_map.1 ((h4 _).1 ((h2 _).2 ⟨z, hz, rfl⟩))
      exact ⟨w.2, List.mem_map_of_mem hw, e⟩
  · intro h
    refine ⟨g, h1, fun t => ?_⟩
    rw [h2, List.mem_map]
    constructor
    · rintro ⟨x, hx, rfl⟩
      exact ⟨x, hx, ((readTriple_id (hv x hx).2.2.2).2 (h x hx)).symm⟩
    · rintro ⟨x, hx, rfl⟩
      exact ⟨x, hx, (readTriple_id (hv x hx).2.2.2).2 (h x hx)⟩

/-- C83, what holds: a document whose literals have nothing to escape is read as what it says. -/
theorem C83_means_partial (env : ReadEnv) (first last : Str) (ls : List (Gaps × Line × RdfTriple))
    (he : SaneEnv env) (hf : Gap first) (hl : LastGap last)
    (hv : ∀ x ∈ ls, x.2.1.g = none ∧ x.2.1.Valid ∧ x.1.Valid x.2.1 ∧ x.2.1.Means env x.2.2)
    (ha : ∀ x ∈ ls, ∀ a, x.2.1.o.inner = some a → escapeString env.pr a = a) :
    ∃ g, readNt env (docText first last (ls.map fun x => (x.1, x.2.1))) = .ok g ∧
      ∀ t, (∃ st ∈ g.stmts, stmtTriple st = some t) ↔ t ∈ ls.map fun x => x.2.2 :=
  (C83_iff env first last ls he hf hl hv).2 ha

/-- An environment as the readers need it. -/
def saneEnv : ReadEnv := { easyEnv with url := fun s => if startsWith s '<' then none else some ⟨s⟩ }

theorem saneEnv_sane : SaneEnv saneEnv := ⟨fun t => by simp [saneEnv, startsWith], fun _ _ => rfl⟩

/-- Single blanks between the parts. -/
def blankGaps : Gaps := ⟨[' '], [' '], [' '], [' '], [], [], ['\n']⟩

theorem blankGaps_valid (l : Line) : blankGaps.Valid l := by
  have h : Gap [' '] := .ws (by decide) .nil
  exact ⟨h, h, h, h, .nil, .nil, .ws (by decide) .nil, by simp [blankGaps], by simp [blankGaps], by simp [blankGaps]⟩

/-- A line with a literal of one escaped line end. -/
def escapedLine (g : Option Term) : Line := ⟨.iri (str! "a:s"), str! "a:p", .lit (str! "\\n") .none, g⟩

theorem iriText_chars {s : Str} (h : s.all (fun c => decide (0x20 < c.toNat) && decide (c ∉ (str! "<>\"{}|^`\\"))) = true) :
    IriText s :=
  tokens_of_chars fun c hc => .inl ⟨c, (plain_chars h).1 c hc, rfl⟩

theorem escapedLine_valid : (escapedLine none).Valid :=
  ⟨iriText_chars (by decide), iriText_chars (by decide),
    ⟨⟨[str! "\\n"], by simp [Echar, Uchar], by simp⟩, trivial⟩, by simp [escapedLine]⟩

theorem decodesIri_plain {s : Str} (h : '\\' ∉ s) : DecodesIri s s :=
  decodes_no_backslash fun _ hc e => h (e ▸ hc)

theorem escapedLine_means (g : Option Term) :
    (escapedLine g).Means saneEnv (.iri ⟨str! "a:s"⟩, ⟨str! "a:p"⟩, .lit ['\n'] none none) :=
  ⟨⟨_, _, decodesIri_plain (by decide), rfl, rfl⟩, ⟨str! "a:p", decodesIri_plain (s := str! "a:p") (by decide), rfl⟩, _,
    .echar (e := 'n') (by decide) .nil, rfl⟩

/-- C83 fails: an escaped line end in a literal is read as a backslash and more. -/
theorem C83_fails : ¬ C83_statement := by
  intro h
  have hv : ∀ x ∈ [(blankGaps, escapedLine none, ((.iri ⟨str! "a:s"⟩, ⟨str! "a:p"⟩, .lit ['\n'] none none) : RdfTriple))],
      x.2.1.g = none ∧ x.2.1.Valid ∧ x.1.Valid x.2.1 ∧ x.2.1.Means saneEnv x.2.2 := by
    intro x hx
    rw [List.mem_singleton] at hx
    subst hx
    exact ⟨rfl, escapedLine_valid, blankGaps_valid _, escapedLine_means _⟩
  have hl : LastGap [] := ⟨[], [], .nil, rfl, .inl rfl⟩
  have := (C83_iff saneEnv [] [] _ saneEnv_sane .nil hl hv).1
    (h saneEnv [] [] _ easyEnv_ascii saneEnv_sane .nil hl hv) _ (List.mem_singleton.2 rfl) _ rfl
  exact absurd this (by decide)

/-! ### C84 -/

/-- A line of N-Quads with the graph and the triple it stands for. -/
abbrev QuadLine := Gaps × Line × Option RdfTerm × RdfTriple

/-- The line follows the grammar and says this. -/
def QuadLine.Ok (env : ReadEnv) (x : QuadLine) : Prop :=
  x.2.1.Valid ∧ x.1.Valid x.2.1 ∧ x.2.1.GraphMeans env x.2.2.1 ∧ x.2.1.Means env x.2.2.2

/-- What the data set says is what the lines say. -/
def SaysQuads (d : DataSet) (ls : List QuadLine) : Prop :=
  ∀ k t, (∃ st ∈ d.content k, stmtTriple st = some t) ↔ ∃ x ∈ ls, x.2.2.1 = k.map graphTerm ∧ x.2.2.2 = t

/-- C84, the full statement: a document of N-Quads is read as what it says. -/
def C84_statement : Prop :=
  ∀ (env : ReadEnv) (first last : Str) (ls : List QuadLine), AsciiPrintable env.pr →
    SaneEnv env → Gap first → LastGap last → (∀ x ∈ ls, x.Ok env) →
    ∃ d, readNq env (docText first last (ls.map fun x => (x.1, x.2.1))) = .ok d ∧ d.ok ∧ SaysQuads d ls

theorem graphTerm_inj {m n : GraphName} : graphTerm m = graphTerm n ↔ m = n := by
  cases m <;> cases n <;> simp only [graphTerm, RdfTerm.iri.injEq, RdfTerm.blank.injEq, GraphName.iri.injEq, GraphName.bnode.injEq, reduceCtorEq]

theorem evalQuads_means {env : ReadEnv} (he : SaneEnv env) (ls : List QuadLine)
    (hv : ∀ x ∈ ls, x.Ok env ∧ x.2.1.g ≠ none) (d : DataSet) :
    ∃ qs : List Quad, evalQuads env d (ls.map fun x => x.2.1.raw) =
        .ok (qs.foldl (fun d q => d.insertInto q.1 q.2) d) ∧
      (qs.map fun q => (some (graphTerm q.1), stmtTriple q.2)) =
        ls.map fun x => (x.2.2.1, some (readTriple env.pr x.2.1 x.2.2.2)) := by
  induction ls generalizing d with
  | nil => exact ⟨[], rfl, rfl⟩
  | cons x ls ih =>
    obtain ⟨⟨hl, -, hk, hm⟩, hg⟩ := hv x List.mem_cons_self
    obtain ⟨st, h1, h2⟩ := evalTriple_means he hl hm
    obtain ⟨n, h3, h4⟩ : ∃ n, (∀ d, evalQuad env d x.2.1.raw = .ok (d.insertInto n st)) ∧
        x.2.2.1 = some (graphTerm n) := by
      obtain ⟨gap, ⟨s, p, o, g⟩, k, t⟩ := x
      cases k with
      | none => exact absurd hk hg
      | some y =>
        obtain ⟨u, e, hu⟩ := hk
        cases e
        obtain ⟨z, h5, h6⟩ := evalNode_means he (hl.2.2.2 u rfl) hu
        cases z with
        | blank b =>
          cases h6
          exact ⟨.bnode b, fun d => by
            simp [evalQuad, h1, Res.bind, Line.raw] at h1 h5 ⊢; simp [h1, h5, GraphName.ofSubject], rfl⟩
        | res i =>
          cases h6
          exact ⟨.iri i, fun d => by
            simp [evalQuad, h1, Res.bind, Line.raw] at h1 h5 ⊢; simp [h1, h5, GraphName.ofSubject], rfl⟩
        | stmt => cases h6
    obtain ⟨qs, h5, h6⟩ := ih (fun y hy => hv y (List.mem_cons_of_mem _ hy)) (d.insertInto n st)
    refine ⟨(n, st) :: qs, ?_, by simp [h2, h4, h6]⟩
    simp only [List.map_cons, evalQuads, h3, Res.bind, h5, List.foldl_cons]

theorem evalQuads_unnamed {env : ReadEnv} (he : SaneEnv env) (ls : List QuadLine) (hv : ∀ x ∈ ls, x.Ok env)
    (hd : ∃ x ∈ ls, x.2.1.g = none) (d : DataSet) : evalQuads env d (ls.map fun x => x.2.1.raw) = .err := by
  induction ls generalizing d with
  | nil => obtain ⟨x, hx, -⟩ := hd; cases hx
  | cons x ls ih =>
    by_cases hg : x.2.1.g = none
    · obtain ⟨hl, -, -, hm⟩ := hv x List.mem_cons_self
      obtain ⟨st, h1, -⟩ := evalTriple_means he hl hm
      simp [evalQuads, evalQuad, h1, Line.raw, hg, Res.bind] at h1 ⊢
      simp [h1]
    · obtain ⟨qs, h1, -⟩ := evalQuads_means he [x] (by
        intro y hy
        rw [List.mem_singleton] at hy
        subst hy
        exact ⟨hv y List.mem_cons_self, hg⟩) d
      have h2 : evalQuads env d (x.2.1.raw :: (ls.map fun x => x.2.1.raw)) =
          (evalQuad env d x.2.1.raw).bind fun d => evalQuads env d (ls.map fun x => x.2.1.raw) := rfl
      rw [List.map_cons, h2]
      cases e : evalQuad env d x.2.1.raw with
      | ok d' =>
        refine ih (fun y hy => hv y (List.mem_cons_of_mem _ hy)) ?_ d'
        obtain ⟨y, hy, hn⟩ := hd
        rcases List.mem_cons.1 hy with rfl | hy
        · exact absurd hn hg
        · exact ⟨y, hy, hn⟩
      | err => rfl
      | panic => simp [evalQuads, e, Res.bind] at h1

theorem readNq_lines (env : ReadEnv) (first last : Str) (ls : List QuadLine) (hf : Gap first) (hl : LastGap last)
    (hv : ∀ x ∈ ls, x.Ok env) : readNq env (docText first last (ls.map fun x => (x.1, x.2.1))) =
      evalQuads env DataSet.empty (ls.map fun x => x.2.1.raw) := by
  unfold readNq docText
  rw [pDoc_quads hf hl]
  · simp [Function.comp_def]
  · intro x hx
    obtain ⟨y, hy, rfl⟩ := List.mem_map.1 hx
    exact ⟨(hv y hy).1, (hv y hy).2.1⟩

/-- C84: a document that says anything of the default graph is an error. -/
theorem C84_fails_default (env : ReadEnv) (first last : Str) (ls : List QuadLine) (he : SaneEnv env)
    (hf : Gap first) (hl : LastGap last) (hv : ∀ x ∈ ls, x.Ok env) (hd : ∃ x ∈ ls, x.2.1.g = none) :
    readNq env (docText first last (ls.map fun x => (x.1, x.2.1))) = .err := by
  rw [readNq_lines env first last ls hf hl hv]
  exact evalQuads_unnamed he ls hv hd _

/-- C84, what is read if all statements are in named graphs: what the document says, with the
insides of the quotes as they stand and escaped once more. -/
theorem C84_reads (env : ReadEnv) (first last : Str) (ls : List QuadLine) (he : SaneEnv env)
    (hf : Gap first) (hl : LastGap last) (hv : ∀ x ∈ ls, x.Ok env) (hd : ∀ x ∈ ls, x.2.1.g ≠ none) :
    ∃ d, readNq env (docText first last (ls.map fun x => (x.1, x.2.1))) = .ok d ∧ d.ok ∧
      ∀ k t, (∃ st ∈ d.content k, stmtTriple st = some t) ↔
        ∃ x ∈ ls, x.2.2.1 = k.map graphTerm ∧ readTriple env.pr x.2.1 x.2.2.2 = t := by
  obtain ⟨qs, h1, h2⟩ := evalQuads_means he ls (fun x hx => ⟨hv x hx, hd x hx⟩) DataSet.empty
  obtain ⟨h3, h4, -⟩ := fold_insertInto qs DataSet.empty ⟨by simp [DataSet.empty], by simp [DataSet.empty]⟩
    (by intro k g h; simp [DataSet.empty, DataSet.graph] at h)
  refine ⟨_, by rw [readNq_lines env first last ls hf hl hv, h1], h3, fun k t => ?_⟩
  have : (∃ x ∈ ls, x.2.2.1 = k.map graphTerm ∧ readTriple env.pr x.2.1 x.2.2.2 = t) ↔
      (k.map graphTerm, some t) ∈ ls.map fun x => (x.2.2.1, some (readTriple env.pr x.2.1 x.2.2.2)) := by
    simp [Prod.ext_iff]
  rw [this, ← h2, List.mem_map]
  constructor
  · rintro ⟨st, hst, e⟩
    rcases (h4 k st).1 hst with h | ⟨n, rfl, h⟩
    · cases k <;> cases h
    · exact ⟨_, h, by simp [e]⟩
  · rintro ⟨⟨n, st⟩, hq, e⟩
    simp only [Prod.mk.injEq] at e
    obtain ⟨e1, e2⟩ := e
    cases k with
    | none => cases e1
    | some m =>
      simp only [Option.map_some, Option.some.injEq, graphTerm_inj] at e1
      subst e1
      exact ⟨st, (h4 _ _).2 (.inr ⟨_, rfl, hq⟩), e2⟩

/-- C84: a document is read as what it says if and only if all its statements are in named graphs
and no literal has anything to escape. -/
theorem C84_iff (env : ReadEnv) (first last : Str) (ls : List QuadLine) (he : SaneEnv env)
    (hf : Gap first) (hl : LastGap last) (hv : ∀ x ∈ ls, x.Ok env) :
    (∃ d, readNq env (docText first last (ls.map fun x => (x.1, x.2.1))) = .ok d ∧ d.ok ∧ SaysQuads d ls) ↔
    ∀ x ∈ ls, x.2.1.g ≠ none ∧ ∀ a, x.2.1.o.inner = some a → escapeString env.pr a = a := by
  by_cases hd : ∃ x ∈ ls, x.2.1.g = none
  · rw [C84_fails_default env first last ls he hf hl hv hd]
    obtain ⟨x, hx, hn⟩ := hd
    constructor
    · rintro ⟨d, h, -⟩
      cases h
    · intro h
      exact absurd hn (h x hx).1
  · have hd' : ∀ x ∈ ls, x.2.1.g ≠ none := fun x hx h => hd ⟨x, hx, h⟩
    obtain ⟨d, h1, h0, h2⟩ := C84_reads env first last ls he hf hl hv hd'
    constructor
    · rintro ⟨d', h3, -, h4⟩ x hx
      rw [h1] at h3
      cases h3
      refine ⟨hd' x hx, ?_⟩
      rw [← readTriple_id (hv x hx).2.2.2]
      refine read_set (env := env) (ls.map fun x => (x.2.1, x.2.2.2)) ?_ ?_ (x.2.1, x.2.2.2)
        (List.mem_map.2 ⟨x, hx, rfl⟩)
      · intro y hy
        obtain ⟨z, hz, rfl⟩ := List.mem_map.1 hy
        exact (hv z hz).2.2.2
      · intro y hy
        obtain ⟨z, hz, rfl⟩ := List.mem_map.1 hy
        obtain ⟨k, hk⟩ : ∃ k : Option GraphName, z.2.2.1 = k.map graphTerm := by
          cases e : z.2.2.1 with
          | none => exact ⟨none, rfl⟩
          | some y =>
            cases y with
            | iri i => exact ⟨some (.iri i), rfl⟩
            | blank b => exact ⟨some (.bnode b), rfl⟩
            | lit a b c =>
              have := (hv z hz).2.2.1
              rw [e] at this
              obtain ⟨u, -, hu⟩ := this
              cases u with
              | iri s => obtain ⟨_, _, _, _, h⟩ := hu; cases h
              | blank l => cases hu
        obtain ⟨w, hw, -, e⟩ := (h4 k _).1 ((h2 k _).2 ⟨z, hz, hk, rfl⟩)
        exact ⟨_, List.mem_map.2 ⟨w, hw, rfl⟩, e⟩
    · intro h
      refine ⟨d, h1, h0, fun k t => ?_⟩
      rw [h2]
      constructor
      · rintro ⟨x, hx, hk, rfl⟩
        exact ⟨x, hx, hk, ((readTriple_id (hv x hx).2.2.2).2 (h x hx).2).symm⟩
      · rintro ⟨x, hx, hk, rfl⟩
        exact ⟨x, hx, hk, (readTriple_id (hv x hx).2.2.2).2 (h x hx).2⟩

/-- C84, what holds: a document with all statements in named graphs and nothing to escape in its
literals is read as what it says. -/
theorem C84_means_partial (env : ReadEnv) (first last : Str) (ls : List QuadLine) (he : SaneEnv env)
    (hf : Gap first) (hl : LastGap last) (hv : ∀ x ∈ ls, x.Ok env)
    (h : ∀ x ∈ ls, x.2.1.g ≠ none ∧ ∀ a, x.2.1.o.inner = some a → escapeString env.pr a = a) :
    ∃ d, readNq env (docText first last (ls.map fun x => (x.1, x.2.1))) = .ok d ∧ d.ok ∧ SaysQuads d ls :=
  (C84_iff env first last ls he hf hl hv).2 h

/-- C84 fails for any one triple of the default graph. -/
theorem C84_fails : ¬ C84_statement := by
  intro h
  have hv : ∀ x ∈ [((blankGaps, escapedLine none, none,
      ((.iri ⟨str! "a:s"⟩, ⟨str! "a:p"⟩, .lit ['\n'] none none) : RdfTriple)) : QuadLine)], QuadLine.Ok saneEnv x := by
    intro x hx
    rw [List.mem_singleton] at hx
    subst hx
    exact ⟨escapedLine_valid, blankGaps_valid _, rfl, escapedLine_means _⟩
  have hl : LastGap [] := ⟨[], [], .nil, rfl, .inl rfl⟩
  have := (C84_iff saneEnv [] [] _ saneEnv_sane .nil hl hv).1
    (h saneEnv [] [] _ easyEnv_ascii saneEnv_sane .nil hl hv) _ (List.mem_singleton.2 rfl)
  exact this.1 rfl

/-! ### Cases -/

-- escapes of both kinds
example : DecodesString (str! "a\\t\\u0041\\U0001F600\\\\n") (str! "a\tA😀\\n") := by
  refine .plain (by decide) (.echar (by decide) ?_)
  refine .uchar (ds := str! "0041") (u := str! "\\u0041") (c := 'A') ⟨by unfold Hex; decide, .inl ⟨rfl, rfl⟩⟩ (by decide) ?_
  refine .uchar (ds := str! "0001F600") (u := str! "\\U0001F600") (c := '😀') ⟨by unfold Hex; decide, .inr ⟨rfl, rfl⟩⟩ (by decide) ?_
  exact .echar (by decide) (.plain (by decide) .nil)

-- no other string for a text without escapes
example : ¬ DecodesString (str! "n") (str! "m") := fun h => absurd (decodes_no_escape (by decide) h) (by decide)

end Rdftk
