import Verif.Props.Cli
import Mathlib.Logic.Function.Iterate

/-!
C150: converting a document again and again.
-/

namespace Rdftk

open Spec

/-- The text after a number of conversions from N-Triples to N-Triples, if each succeeds. -/
def convertAgain (e : CliEnv) : Nat → Str → Option Str
  | 0, s => some s
  | k + 1, s =>
    match cliMain e s (.convert .nTriples .nTriples) with
    | .success out => convertAgain e k out
    | _ => none

/-- C150, the full statement: what was converted once is not changed by converting it again. -/
def C150_statement (sty : IriStyle) : Prop :=
  ∀ (e : CliEnv) (s out : Str) (k : Nat), e.sty = sty → StrictEnv e.read →
    AsciiPrintable e.read.pr → e.orders.Fair → Printed e.read.pr s →
    convertAgain e 1 s = some out →
    ∃ out', convertAgain e k out = some out' ∧ ∀ g, readNt e.read out = .ok g →
      ∃ g', readNt e.read out' = .ok g' ∧ ∀ st, st ∈ g'.stmts ↔ st ∈ g.stmts

/-- A character that was printed or escaped. -/
def Shown (pr : Char → Bool) (c : Char) : Prop :=
  pr c = true ∧ c ≠ '\x00' ∧ c ≠ '\t' ∧ c ≠ '\r' ∧ c ≠ '\n'

theorem escaped_shown {pr : Char → Bool} (hp : AsciiPrintable pr) (s : Str) :
    ∀ c ∈ escapeString pr s, Shown pr c := by
  intro c hc
  obtain ⟨d, -, hd⟩ := List.mem_flatMap.1 hc
  have ne : ∀ x, (x = '\n' ∨ x = '\r' ∨ x = '\t' ∨ x = '\x00') → c ≠ x := by
    rintro x hx rfl
    exact escapeChar_ne hx hd
  refine ⟨?_, ne _ (by simp), ne _ (by simp), ne _ (by simp), ne _ (by simp)⟩
  have hex : ∀ n, ∀ x ∈ hexLower n, pr x = true := by
    intro n x hx
    obtain ⟨d, hd, rfl⟩ := toDigits_mem (by decide) hx
    have : ∀ d < 16, 0x20 ≤ (Nat.digitChar d).toNat ∧ (Nat.digitChar d).toNat < 0x7F := by decide
    exact hp _ (this d hd).1 (this d hd).2
  unfold escapeChar at hd
  split at hd
  · simp only [List.mem_cons, List.not_mem_nil, or_false] at hd
    rcases hd with rfl | rfl <;> exact hp _ (by decide) (by decide)
  split at hd
  · simp only [List.mem_cons, List.not_mem_nil, or_false] at hd
    rcases hd with rfl | rfl <;> exact hp _ (by decide) (by decide)
  split at hd
  · simp only [List.mem_cons, List.not_mem_nil, or_false] at hd
    rcases hd with rfl | rfl <;> exact hp _ (by decide) (by decide)
  split at hd
  · simp only [List.mem_cons, List.not_mem_nil, or_false] at hd
    rcases hd with rfl | rfl <;> exact hp _ (by decide) (by decide)
  split at hd
  · simp only [List.mem_cons, List.not_mem_nil, or_false] at hd
    rcases hd with rfl | rfl <;> exact hp _ (by decide) (by decide)
  split at hd
  · simp only [List.mem_cons, List.not_mem_nil, or_false] at hd
    rcases hd with rfl | rfl <;> exact hp _ (by decide) (by decide)
  split at hd
  · rename_i h
    rw [List.mem_singleton.1 hd]
    exact h
  · simp only [List.mem_append, List.mem_cons, List.not_mem_nil, or_false] at hd
    rcases hd with ((rfl | rfl | rfl) | hd) | rfl
    · exact hp _ (by decide) (by decide)
    · exact hp _ (by decide) (by decide)
    · exact hp _ (by decide) (by decide)
    · exact hex _ _ hd
    · exact hp _ (by decide) (by decide)

/-- A character that was printed is escaped only if it is a quote or a backslash. -/
theorem shown_escape {pr : Char → Bool} {c : Char} (h : Shown pr c) :
    escapeChar pr c = if c = '"' ∨ c = '\\' then ['\\', c] else [c] := by
  obtain ⟨h1, h2, h3, h4, h5⟩ := h
  by_cases hq : c = '"'
  · subst hq; simp [escapeChar]
  by_cases hb : c = '\\'
  · subst hb; simp [escapeChar]
  simp [escapeChar, *]

/-- Escaping what was printed: each quote and backslash gets a backslash. -/
theorem escape_counts {pr : Char → Bool} {s : Str} (h : ∀ c ∈ s, Shown pr c) :
    (escapeString pr s).count '\\' = 2 * s.count '\\' + s.count '"' ∧
    (escapeString pr s).count '"' = s.count '"' ∧
    (escapeString pr s).length = s.length + s.count '\\' + s.count '"' := by
  induction s with
  | nil => simp [escapeString]
  | cons c s ih =>
    obtain ⟨a, b, d⟩ := ih fun x hx => h x (List.mem_cons_of_mem _ hx)
    simp only [escapeString, List.flatMap_cons, List.count_append, List.length_append] at a b d ⊢
    rw [shown_escape (h c (by simp)), a, b, d]
    by_cases hq : c = '"'
    · subst hq; simp; omega
    by_cases hb : c = '\\'
    · subst hb; simp; omega
    simp [hq, hb]; omega

theorem escape_again_shown {pr : Char → Bool} (hp : AsciiPrintable pr) {s : Str} (h : ∀ c ∈ s, Shown pr c) (k : Nat) :
    ∀ c ∈ (escapeString pr)^[k] s, Shown pr c := by
  cases k with
  | zero => exact h
  | succ k => rw [Function.iterate_succ_apply']; exact escaped_shown hp _

/-- What escaping again and again makes of a text that was printed. -/
theorem escape_again {pr : Char → Bool} (hp : AsciiPrintable pr) {s : Str} (h : ∀ c ∈ s, Shown pr c) (k : Nat) :
    ((escapeString pr)^[k] s).count '\\' + s.count '"' = 2 ^ k * (s.count '\\' + s.count '"') ∧
    ((escapeString pr)^[k] s).count '"' = s.count '"' ∧
    ((escapeString pr)^[k] s).length + (s.count '\\' + s.count '"') =
      s.length + 2 ^ k * (s.count '\\' + s.count '"') := by
  induction k with
  | zero => simp
  | succ k ih =>
    obtain ⟨a, b, c⟩ := ih
    obtain ⟨x, y, z⟩ := escape_counts (escape_again_shown hp h k)
    rw [Function.iterate_succ_apply', x, y, z, b, Nat.pow_succ, Nat.mul_comm (2 ^ k) 2, Nat.mul_assoc]
    refine ⟨?_, rfl, ?_⟩ <;> omega

/-- A literal as reading makes it. -/
def ReadLiteral (pr : Char → Bool) (l : Literal) : Prop :=
  (∀ c ∈ l.lexicalForm, Shown pr c) ∧ (∀ t, l.dataType = some t → ∃ i, t = .other i) ∧
  (l.dataType = none ∨ l.language = none)

theorem evalTriple_shown {env : ReadEnv} (hp : AsciiPrintable env.pr) {l : RLine} {s : Subject} {p : Iri} {x : Literal}
    (h : evalTriple env l = .ok (.mk s p (.lit x))) : ReadLiteral env.pr x := by
  refine ⟨?_, evalTriple_literal h⟩
  obtain ⟨a, -, h⟩ := Res.bind_ok h
  obtain ⟨b, -, h⟩ := Res.bind_ok h
  obtain ⟨c, h1, h⟩ := Res.bind_ok h
  cases h
  cases e : l.object with
  | node n =>
    rw [e] at h1
    obtain ⟨y, -, h1⟩ := Res.bind_ok h1
    cases y <;> cases h1
  | lit t u =>
    rw [e] at h1
    obtain ⟨y, h2, h1⟩ := Res.bind_ok h1
    cases h1
    cases u with
    | none => cases h2; exact escaped_shown hp _
    | lang g =>
      obtain ⟨z, -, h2⟩ := Res.bind_ok h2
      cases h2
      exact escaped_shown hp _
    | type i =>
      obtain ⟨z, -, h2⟩ := Res.bind_ok h2
      cases h2
      exact escaped_shown hp _

theorem readNt_literal {env : ReadEnv} (hp : AsciiPrintable env.pr) {s : Str} {g : Graph} (h : readNt env s = .ok g)
    {x : Subject} {p : Iri} {l : Literal} (hx : Stmt.mk x p (.lit l) ∈ g.stmts) : ReadLiteral env.pr l := by
  unfold readNt at h
  split at h
  · cases h
  · rcases evalTriples_mem _ _ _ h _ hx with h1 | ⟨m, -, h1⟩
    · cases h1
    · exact evalTriple_shown hp h1

/-- A statement that can be written and read, and whose literal is as reading makes it. -/
def StmtAgain (env : ReadEnv) (st : Stmt) : Prop :=
  StmtGood env false st ∧ ∀ l, st.object = .lit l → ReadLiteral env.pr l

theorem reread_readLiteral {pr : Char → Bool} {l : Literal} (h : ReadLiteral pr l) :
    reread pr l = { l with lexicalForm := escapeString pr l.lexicalForm } := by
  obtain ⟨-, h2, h3⟩ := h
  obtain ⟨x, t, g⟩ := l
  cases t with
  | none => cases g <;> rfl
  | some t =>
    obtain ⟨i, rfl⟩ := h2 t rfl
    cases g with
    | none => rfl
    | some g => simp at h3

theorem StmtAgain.reread {env : ReadEnv} (hp : AsciiPrintable env.pr) {st : Stmt} (h : StmtAgain env st) :
    StmtAgain env (rereadStmt env.pr st) := by
  obtain ⟨s, p, o⟩ := st
  obtain ⟨⟨h1, h2, h3⟩, h4⟩ := h
  cases o with
  | lit l =>
    have hl := h4 l rfl
    obtain ⟨-, q2, q3, q4⟩ := h3
    have hr := reread_readLiteral hl
    constructor
    · refine ⟨h1, h2, ?_⟩
      show LiteralGood env false (Spec.reread env.pr l)
      rw [hr]
      exact ⟨quote_escape fun c hc => .inl ⟨(hl.1 c hc).1, (hl.1 c hc).2.1⟩, q2, q3, q4⟩
    · intro m hm
      have hm : Object.lit (Spec.reread env.pr l) = .lit m := hm
      injection hm with hm
      subst hm
      rw [hr]
      exact ⟨escaped_shown hp _, hl.2⟩
  | blank b => exact ⟨⟨h1, h2, h3⟩, fun l hl => by cases hl⟩
  | res i => exact ⟨⟨h1, h2, h3⟩, fun l hl => by cases hl⟩
  | coll c => exact h3.elim
  | stmt t => exact h3.elim

theorem convert_bare {e : CliEnv} {s : Str} {g : Graph} (hb : e.sty = .bare) (h : readNt e.read s = .ok g) :
    cliMain e s (.convert .nTriples .nTriples) = .success (writeNt e.gen e.startWrite e.orders .bare false g) := by
  simp only [cliMain, cliRead, h, Res.toRun, Run.bind, cliWrite, Run.exit, hb]

theorem readNt_again {e : CliEnv} {s : Str} {g : Graph} (he : StrictEnv e.read) (ha : AsciiPrintable e.read.pr)
    (hp : Printed e.read.pr s) (h : readNt e.read s = .ok g) : ∀ st ∈ g.stmts, StmtAgain e.read st := by
  intro st hst
  obtain ⟨a, b, c, o⟩ := readNt_strict he h st hst
  obtain ⟨x, y, z⟩ := st
  refine ⟨⟨a, b, o hp⟩, fun l hl => ?_⟩
  have hl : z = .lit l := hl
  subst hl
  exact readNt_literal ha h hst

theorem convertAgain_reads (e : CliEnv) (hb : e.sty = .bare) (ha : AsciiPrintable e.read.pr) (ho : e.orders.Fair)
    (k : Nat) : ∀ (s : Str) (g : Graph), readNt e.read s = .ok g → (∀ st ∈ g.stmts, StmtAgain e.read st) →
    ∃ out g', convertAgain e k s = some out ∧ readNt e.read out = .ok g' ∧
      ∀ st, st ∈ g'.stmts ↔ ∃ x ∈ g.stmts, (rereadStmt e.read.pr)^[k] x = st := by
  induction k with
  | zero => intro s g h _; exact ⟨s, g, rfl, h, fun st => by simp⟩
  | succ k ih =>
    intro s g h hg
    obtain ⟨g1, h1, -, h2⟩ := C38_reads e.read e.gen e.startWrite e.orders ho false g fun st hst => (hg st hst).1
    obtain ⟨out, g', h3, h4, h5⟩ := ih _ g1 h1 fun st hst => by
      obtain ⟨x, hx, rfl⟩ := (h2 st).1 hst
      exact (hg x hx).reread ha
    refine ⟨out, g', by simp only [convertAgain, convert_bare hb h, h3], h4, fun st => ?_⟩
    rw [h5]
    constructor
    · rintro ⟨x, hx, rfl⟩
      obtain ⟨y, hy, rfl⟩ := (h2 x).1 hx
      exact ⟨y, hy, rfl⟩
    · rintro ⟨y, hy, rfl⟩
      exact ⟨_, (h2 _).2 ⟨y, hy, rfl⟩, rfl⟩

theorem reread_again (pr : Char → Bool) (hp : AsciiPrintable pr) (k : Nat) : ∀ l : Literal, ReadLiteral pr l →
    ∀ s p, (rereadStmt pr)^[k] (.mk s p (.lit l)) =
      .mk s p (.lit { l with lexicalForm := (escapeString pr)^[k] l.lexicalForm }) := by
  induction k with
  | zero => intro l _ s p; rfl
  | succ k ih =>
    intro l hl s p
    rw [Function.iterate_succ_apply]
    have : rereadStmt pr (.mk s p (.lit l)) = .mk s p (.lit { l with lexicalForm := escapeString pr l.lexicalForm }) := by
      show Stmt.mk s p (.lit (reread pr l)) = _
      rw [reread_readLiteral hl]
    rw [this, ih ⟨escapeString pr l.lexicalForm, l.dataType, l.language⟩ ⟨escaped_shown hp _, hl.2⟩]
    rfl

theorem reread_others (pr : Char → Bool) (k : Nat) (s : Subject) (p : Iri) (o : Object) (h : ∀ l, o ≠ .lit l) :
    (rereadStmt pr)^[k] (.mk s p o) = .mk s p o := by
  induction k with
  | zero => rfl
  | succ k ih =>
    rw [Function.iterate_succ_apply]
    have : rereadStmt pr (.mk s p o) = .mk s p o := by
      cases o with
      | lit l => exact absurd rfl (h l)
      | _ => rfl
    rw [this, ih]

/-- C150, what is read after any number of conversions: the statements that were read at first,
with the texts of literals escaped as many times. -/
theorem C150_reads (e : CliEnv) (s : Str) (g : Graph) (k : Nat) (hb : e.sty = .bare) (he : StrictEnv e.read)
    (ha : AsciiPrintable e.read.pr) (ho : e.orders.Fair) (hp : Printed e.read.pr s) (h : readNt e.read s = .ok g) :
    ∃ out g', convertAgain e k s = some out ∧ readNt e.read out = .ok g' ∧
      (∀ x p l', Stmt.mk x p (.lit l') ∈ g'.stmts ↔ ∃ l, Stmt.mk x p (.lit l) ∈ g.stmts ∧
        l' = ⟨(escapeString e.read.pr)^[k] l.lexicalForm, l.dataType, l.language⟩) ∧
      ∀ x p o, (∀ l, o ≠ .lit l) → (Stmt.mk x p o ∈ g'.stmts ↔ Stmt.mk x p o ∈ g.stmts) := by
  have hg := readNt_again he ha hp h
  obtain ⟨out, g', h1, h2, h3⟩ := convertAgain_reads e hb ha ho k s g h hg
  refine ⟨out, g', h1, h2, fun x p l' => ?_, fun x p o hn => ?_⟩
  · rw [h3]
    constructor
    · rintro ⟨⟨a, b, c⟩, hx, e1⟩
      by_cases hc : ∃ l, c = .lit l
      · obtain ⟨l, rfl⟩ := hc
        rw [reread_again _ ha k l ((hg _ hx).2 l rfl)] at e1
        cases e1
        exact ⟨l, hx, rfl⟩
      · rw [reread_others _ _ _ _ _ fun l hl => hc ⟨l, hl⟩] at e1
        cases e1
        exact absurd ⟨l', rfl⟩ hc
    · rintro ⟨l, hl, rfl⟩
      exact ⟨_, hl, reread_again _ ha k l ((hg _ hl).2 l rfl) x p⟩
  · rw [h3]
    constructor
    · rintro ⟨⟨a, b, c⟩, hx, e1⟩
      by_cases hc : ∃ l, c = .lit l
      · obtain ⟨l, rfl⟩ := hc
        rw [reread_again _ ha k l ((hg _ hx).2 l rfl)] at e1
        cases e1
        exact absurd rfl (hn _)
      · rw [reread_others _ _ _ _ _ fun l hl => hc ⟨l, hl⟩] at e1
        cases e1
        exact hx
    · intro hx
      exact ⟨_, hx, reread_others _ _ _ _ _ hn⟩

/-- C150: how much there is to read in a literal after a number of conversions.  Together the
quotes and the backslashes are `n` at first; afterwards all but the quotes are backslashes, and
they double each time. -/
theorem C150_doubles (e : CliEnv) (s : Str) (g : Graph) (ha : AsciiPrintable e.read.pr) (h : readNt e.read s = .ok g)
    (x : Subject) (p : Iri) (l : Literal) (hx : Stmt.mk x p (.lit l) ∈ g.stmts) (k : Nat) :
    ((escapeString e.read.pr)^[k] l.lexicalForm).count '\\' + l.lexicalForm.count '"' =
      2 ^ k * (l.lexicalForm.count '\\' + l.lexicalForm.count '"') ∧
    ((escapeString e.read.pr)^[k] l.lexicalForm).length + (l.lexicalForm.count '\\' + l.lexicalForm.count '"') =
      l.lexicalForm.length + 2 ^ k * (l.lexicalForm.count '\\' + l.lexicalForm.count '"') := by
  have := escape_again ha (readNt_literal ha h hx).1 k
  exact ⟨this.1, this.2.2⟩

theorem shown_fixed {pr : Char → Bool} {s : Str} (h : ∀ c ∈ s, Shown pr c) :
    escapeString pr s = s ↔ s.count '\\' + s.count '"' = 0 := by
  rw [escapeString_id_iff]
  constructor
  · intro h1
    have : ∀ c ∈ s, c ≠ '"' ∧ c ≠ '\\' := by
      intro c hc
      have := h1 c hc
      rw [shown_escape (h c hc)] at this
      grind
    rw [List.count_eq_zero_of_not_mem fun h => (this _ h).2 rfl,
      List.count_eq_zero_of_not_mem fun h => (this _ h).1 rfl]
  · intro h1 c hc
    rw [shown_escape (h c hc), if_neg]
    rintro (rfl | rfl)
    · have := List.count_pos_iff.2 hc; omega
    · have := List.count_pos_iff.2 hc; omega

/-- C150, the length of the text: with one quote or backslash in a literal that was read, it is
exponential in the number of conversions. -/
theorem C150_long (e : CliEnv) (s : Str) (g : Graph) (k : Nat) (hb : e.sty = .bare) (he : StrictEnv e.read)
    (ha : AsciiPrintable e.read.pr) (ho : e.orders.Fair) (hp : Printed e.read.pr s) (h : readNt e.read s = .ok g)
    (x : Subject) (p : Iri) (l : Literal) (hx : Stmt.mk x p (.lit l) ∈ g.stmts)
    (hl : '\\' ∈ l.lexicalForm ∨ '"' ∈ l.lexicalForm) :
    ∃ out, convertAgain e (k + 1) s = some out ∧ 2 ^ k ≤ out.length := by
  have hg := readNt_again he ha hp h
  have step : ∀ (k : Nat) (s : Str) (g : Graph), readNt e.read s = .ok g → (∀ st ∈ g.stmts, StmtAgain e.read st) →
      ∀ out g', convertAgain e k s = some out → readNt e.read out = .ok g' →
      convertAgain e (k + 1) s = some (writeNt e.gen e.startWrite e.orders .bare false g') := by
    intro k
    induction k with
    | zero =>
      intro s g _ _ out g' h1 h2
      cases h1
      simp only [convertAgain, convert_bare hb h2]
    | succ k ih =>
      intro s g h hg out g' h1 h2
      obtain ⟨g1, h3, -, h4⟩ := C38_reads e.read e.gen e.startWrite e.orders ho false g fun st hst => (hg st hst).1
      have h1 : convertAgain e k (writeNt e.gen e.startWrite e.orders .bare false g) = some out := by
        simpa only [convertAgain, convert_bare hb h] using h1
      have := ih _ g1 h3 (fun st hst => by
        obtain ⟨x, hx, rfl⟩ := (h4 st).1 hst
        exact (hg x hx).reread ha) out g' h1 h2
      rw [convertAgain, convert_bare hb h]
      exact this
  obtain ⟨out, g', h1, h2, h3⟩ := convertAgain_reads e hb ha ho k s g h hg
  refine ⟨_, step k s g h hg out g' h1 h2, ?_⟩
  have hr := (hg _ hx).2 l rfl
  have hm := (h3 _).2 ⟨_, hx, reread_again _ ha k l hr x p⟩
  have hs : ∀ st ∈ g'.stmts, StmtAgain e.read st := by
    have : ∀ k st, StmtAgain e.read st → StmtAgain e.read ((rereadStmt e.read.pr)^[k] st) := by
      intro k
      induction k with
      | zero => exact fun st h => h
      | succ k ih => intro st h; exact ih _ (h.reread ha)
    intro st hst
    obtain ⟨y, hy, rfl⟩ := (h3 st).1 hst
    exact this k y (hg y hy)
  have hv : Stmt.mk x p (.lit ⟨(escapeString e.read.pr)^[k] l.lexicalForm, l.dataType, l.language⟩) ∈
      (g'.simplify e.gen e.startWrite).1.visit e.orders := by
    rw [visit_mem ho, (C34_unchanged e.gen e.startWrite g' fun st h => good_simple (hs st h).1).1]
    exact hm
  have hd := (C150_doubles e s g ha h x p l hx k).2
  have hc : 1 ≤ l.lexicalForm.count '\\' + l.lexicalForm.count '"' := by
    rcases hl with hl | hl <;> have := List.count_pos_iff.2 hl <;> omega
  have hlen : l.lexicalForm.count '\\' + l.lexicalForm.count '"' ≤ l.lexicalForm.length := by
    have := l.lexicalForm.length_eq_countP_add_countP (· == '\\')
    have h2 : l.lexicalForm.count '"' ≤ l.lexicalForm.countP (fun c => ¬ (c == '\\') = true) :=
      List.countP_mono_left fun c _ hc => by
        have : c = '"' := by simpa using hc
        subst this; decide
    simp only [List.count] at *
    omega
  have hpow : 2 ^ k ≤ 2 ^ k * (l.lexicalForm.count '\\' + l.lexicalForm.count '"') := Nat.le_mul_of_pos_right _ hc
  have hline : ((escapeString e.read.pr)^[k] l.lexicalForm).length ≤
      (ntLine .bare false (.mk x p (.lit ⟨(escapeString e.read.pr)^[k] l.lexicalForm, l.dataType, l.language⟩))).length := by
    simp only [ntLine, Stmt.object, Object.display, Literal.display, List.length_append]
    split
    · simp; omega
    split <;> simp <;> omega
  unfold writeNt
  obtain ⟨a, b, hab⟩ := List.append_of_mem hv
  rw [hab]
  simp only [List.flatMap_append, List.flatMap_cons, List.length_append]
  omega

/-- C150: with IRIs printed without brackets, the graph of a document is the same after a number
of conversions if and only if no literal has a quote or a backslash; one conversion is as good as
many. -/
theorem C150_iff (e : CliEnv) (s : Str) (g : Graph) (k : Nat) (hk : k ≠ 0) (hb : e.sty = .bare) (he : StrictEnv e.read)
    (ha : AsciiPrintable e.read.pr) (ho : e.orders.Fair) (hp : Printed e.read.pr s) (h : readNt e.read s = .ok g) :
    (∃ out g', convertAgain e k s = some out ∧ readNt e.read out = .ok g' ∧ ∀ st, st ∈ g'.stmts ↔ st ∈ g.stmts) ↔
    ∀ x p l, Stmt.mk x p (.lit l) ∈ g.stmts → '\\' ∉ l.lexicalForm ∧ '"' ∉ l.lexicalForm := by
  obtain ⟨out, g', h1, h2, h3, h4⟩ := C150_reads e s g k hb he ha ho hp h
  constructor
  · rintro ⟨out', g'', h5, h6, h7⟩ x p l hl
    rw [h1] at h5
    cases h5
    rw [h2] at h6
    cases h6
    -- a longest literal would become longer
    have zero : ∀ n l, Stmt.mk x p (.lit l) ∈ g.stmts → l.lexicalForm.length < n →
        l.lexicalForm.count '\\' + l.lexicalForm.count '"' = 0 := by
      intro n
      induction n with
      | zero => intro l _ hn; omega
      | succ n ih =>
        intro l hl hn
        obtain ⟨m, hm, rfl⟩ := (h3 x p l).1 ((h7 _).2 hl)
        obtain ⟨d1, d2⟩ := C150_doubles e s g ha h x p m hm k
        have d3 := (escape_again ha (readNt_literal ha h hm).1 k).2.1
        have h2k : 2 ≤ 2 ^ k := by
          have := Nat.pow_le_pow_right (n := 2) (by omega) (Nat.pos_of_ne_zero hk)
          simpa using this
        have hmul : 2 * (m.lexicalForm.count '\\' + m.lexicalForm.count '"') ≤
            2 ^ k * (m.lexicalForm.count '\\' + m.lexicalForm.count '"') := Nat.mul_le_mul_right _ h2k
        by_cases hz : m.lexicalForm.count '\\' + m.lexicalForm.count '"' = 0
        · rw [hz, Nat.mul_zero] at d1
          show ((escapeString e.read.pr)^[k] m.lexicalForm).count '\\' +
            ((escapeString e.read.pr)^[k] m.lexicalForm).count '"' = 0
          omega
        · exfalso
          refine hz (ih m hm ?_)
          have hn : ((escapeString e.read.pr)^[k] m.lexicalForm).length < n + 1 := hn
          omega
    have := zero _ l hl (Nat.lt_succ_self _)
    exact ⟨fun hm => by have := List.count_pos_iff.2 hm; omega, fun hm => by have := List.count_pos_iff.2 hm; omega⟩
  · intro hl
    refine ⟨out, g', h1, h2, fun st => ?_⟩
    have fixed : ∀ x p l, Stmt.mk x p (.lit l) ∈ g.stmts → (escapeString e.read.pr)^[k] l.lexicalForm = l.lexicalForm := by
      intro x p l hx
      have : escapeString e.read.pr l.lexicalForm = l.lexicalForm :=
        (shown_fixed (readNt_literal ha h hx).1).2 (by
          rw [List.count_eq_zero_of_not_mem (hl x p l hx).1, List.count_eq_zero_of_not_mem (hl x p l hx).2])
      exact Function.iterate_fixed this k
    obtain ⟨x, p, o⟩ := st
    by_cases hc : ∃ l, o = .lit l
    · obtain ⟨l, rfl⟩ := hc
      rw [h3]
      constructor
      · rintro ⟨m, hm, rfl⟩
        rw [fixed x p m hm]
        exact hm
      · intro hm
        exact ⟨l, hm, by rw [fixed x p l hm]⟩
    · exact h4 x p o fun l hl => hc ⟨l, hl⟩

/-- C150, in the style the code has: no document with a statement can be converted twice. -/
theorem C150_fails_bracketed (e : CliEnv) (s : Str) (g : Graph) (k : Nat) (hb : e.sty = .bracketed)
    (he : StrictEnv e.read) (ho : e.orders.Fair) (h : readNt e.read s = .ok g) (hne : g.stmts ≠ []) :
    convertAgain e (k + 2) s = none := by
  obtain ⟨out, h1, h2⟩ := C86_fails_bracketed e s g hb he ho h hne
  have : cliMain e out (.convert .nTriples .nTriples) = .failure := by
    simp only [cliMain, cliRead, h2, Res.toRun, Run.bind, Run.exit]
  simp only [convertAgain, h1, this]

/-- C150 fails in either style: with brackets the text is not read at all, without them the
escape is escaped again. -/
theorem C150_fails (sty : IriStyle) : ¬ C150_statement sty := by
  intro h
  have hr := escapedDoc_read sty
  have hp := escapedDoc_printed sty
  cases sty with
  | bracketed =>
    obtain ⟨out, h1, h2⟩ := C86_fails_bracketed (easyCli .bracketed) escapedDoc _ rfl strictEnv_strict sameOrder_fair hr
      (List.ne_nil_of_mem ((insert_mem _ _ _).2 (.inr rfl)))
    obtain ⟨out', h3, -⟩ := h (easyCli .bracketed) escapedDoc out 1 rfl strictEnv_strict easyEnv_ascii sameOrder_fair hp
      (by simp only [convertAgain, h1])
    have h4 := C150_fails_bracketed (easyCli .bracketed) escapedDoc _ 0 rfl strictEnv_strict sameOrder_fair hr
      (List.ne_nil_of_mem ((insert_mem _ _ _).2 (.inr rfl)))
    rw [convertAgain, h1] at h4
    have h4 : convertAgain (easyCli .bracketed) 1 out = none := h4
    rw [h4] at h3
    cases h3
  | bare =>
    obtain ⟨out, g1, h1, h2, h3, -⟩ := C150_reads (easyCli .bare) escapedDoc _ 1 rfl strictEnv_strict easyEnv_ascii
      sameOrder_fair hp hr
    obtain ⟨out', h4, h5⟩ := h (easyCli .bare) escapedDoc out 1 rfl strictEnv_strict easyEnv_ascii sameOrder_fair hp h1
    obtain ⟨g', h6, h7⟩ := h5 g1 h2
    obtain ⟨out2, g2, k1, k2, k3, -⟩ := C150_reads (easyCli .bare) escapedDoc _ 2 rfl strictEnv_strict easyEnv_ascii
      sameOrder_fair hp hr
    have e1 : cliMain (easyCli .bare) escapedDoc (.convert .nTriples .nTriples) = .success out := by
      simp only [convertAgain] at h1
      split at h1
      · rename_i o e; rw [e]; exact congrArg _ (Option.some.inj h1)
      · cases h1
    rw [convertAgain, e1] at k1
    simp only at k1
    rw [k1] at h4
    cases h4
    rw [k2] at h6
    cases h6
    have m : Stmt.mk (.res ⟨str! "a:s"⟩) ⟨str! "a:p"⟩ (.lit ⟨str! "\\\\n", none, none⟩) ∈
        (Graph.default.insert (.mk (.res ⟨str! "a:s"⟩) ⟨str! "a:p"⟩ (.lit ⟨str! "\\\\n", none, none⟩))).stmts :=
      (insert_mem _ _ _).2 (.inr rfl)
    have m1 := (h7 _).1 ((k3 _ _ _).2 ⟨_, m, rfl⟩)
    obtain ⟨l, hl, e2⟩ := (h3 _ _ _).1 m1
    have hl : l = ⟨str! "\\\\n", none, none⟩ := by
      rcases (insert_mem _ _ _).1 hl with h0 | h0
      · cases h0
      · injection h0 with _ _ h0; injection h0
    subst hl
    injection e2 with e2
    revert e2
    decide +kernel

/-- C150, what holds: what has no quote and no backslash in a literal is kept by any number of
conversions. -/
theorem C150_keeps_partial (e : CliEnv) (s : Str) (g : Graph) (k : Nat) (hb : e.sty = .bare) (he : StrictEnv e.read)
    (ha : AsciiPrintable e.read.pr) (ho : e.orders.Fair) (hp : Printed e.read.pr s) (h : readNt e.read s = .ok g)
    (hl : ∀ x p l, Stmt.mk x p (.lit l) ∈ g.stmts → '\\' ∉ l.lexicalForm ∧ '"' ∉ l.lexicalForm) :
    ∃ out g', convertAgain e k s = some out ∧ readNt e.read out = .ok g' ∧ ∀ st, st ∈ g'.stmts ↔ st ∈ g.stmts := by
  cases k with
  | zero => exact ⟨s, g, rfl, h, fun _ => Iff.rfl⟩
  | succ k => exact (C150_iff e s g (k + 1) (by omega) hb he ha ho hp h).2 hl

/-- A document of one line break, in a bit more than `2 ^ k` characters. -/
example (k : Nat) : ∃ out, convertAgain (easyCli .bare) (k + 1) escapedDoc = some out ∧ 2 ^ k ≤ out.length :=
  C150_long (easyCli .bare) escapedDoc _ k rfl strictEnv_strict easyEnv_ascii sameOrder_fair
    (escapedDoc_printed .bare) (escapedDoc_read .bare) _ _ _ ((insert_mem _ _ _).2 (.inr rfl)) (.inl (by decide))

end Rdftk
