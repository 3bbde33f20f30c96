import Verif.Lemmas.CommonPest
import Verif.Lemmas.NTEval
import Verif.Model.Pairs

/-! The rules of `common.pest` for N-Triples and N-Quads, run by the interpreter, against the functions of `Model/NTriples.lean`. -/

namespace Rdftk

open PegGrammar

variable {T : Nat} {m : PegMode} {s r : Str}


theorem PegGrammar.Reads.cast {R : Type} {g : PegGrammar R} {e : Peg R} {x y : PegRes R} (h : g.Reads T m e s x) (hx : x = y) :
    g.Reads T m e s y := hx ▸ h

/-- In atomic mode nothing is skipped. -/
theorem reads_seq_atomic {R : Type} {g : PegGrammar R} {a b : Peg R} {x y : PegRes R} (ha : g.Reads T .atomic a s x)
    (hb : ∀ r, x = some ([], r) → g.Reads T .atomic b r y) (hx : ∀ l r, x = some (l, r) → l = []) (hn : x = none → y = none) :
    g.Reads T .atomic (.seq a b) s y := by
  cases x with
  | none => rw [hn rfl]; exact reads_seq_none ha
  | some x =>
    obtain ⟨l, r⟩ := x
    obtain rfl := hx l r rfl
    refine (reads_seq ha (l' := []) (r' := r) (by simp [Skips]) (hb r rfl)).cast ?_
    cases y <;> rfl

theorem reads_rule_atomic {R : Type} {g : PegGrammar R} {i : R} {x : PegRes R} (hk : (g.body i).1 ≠ .compound)
    (h : g.Reads T .atomic (g.body i).2 s x) : g.Reads T .atomic (.rule i) s x := by
  have h1 : (g.body i).1.mode .atomic = .atomic := by cases e : (g.body i).1 <;> simp_all [PegKind.mode]
  have h2 : (g.body i).1.makes .atomic = false := by cases e : (g.body i).1 <;> simp_all [PegKind.makes]
  refine (reads_rule (i := i) (x := x) (by rw [h1]; exact h)).cast ?_
  rw [h2]; cases x <;> rfl

/-! ### Single characters -/

/-- One character of a class. -/
def gOneOf (p : Char → Bool) : Str → PegRes GRule
  | [] => none
  | c :: r => if p c then some ([], r) else none

/-- The expression reads one character of the class. -/
def One (T : Nat) (m : PegMode) (e : Peg GRule) (p : Char → Bool) : Prop := ∀ s, commonGrammar.Reads T m e s (gOneOf p s)

theorem one_chr (c : Char) : One T m (.str [c]) (· == c) := by
  intro s
  refine (reads_str [c]).cast ?_
  cases s with
  | nil => rfl
  | cons d s =>
    by_cases h : c = d
    · simp [stripPrefix, gOneOf, h]
    · simp [stripPrefix, gOneOf, h, Ne.symm h]

theorem one_range (lo hi : Nat) : One T m (.range lo hi) (inRange lo hi) := by
  intro s
  cases s with
  | nil => exact reads_range_nil
  | cons c s => exact reads_range

theorem One.alt {a b : Peg GRule} {p q : Char → Bool} (ha : One T m a p) (hb : One T m b q) :
    One T m (.alt a b) (fun c => p c || q c) := by
  intro s
  refine (reads_alt (ha s) (hb s)).cast ?_
  cases s with
  | nil => rfl
  | cons c s => cases h : p c <;> simp [gOneOf, h]

theorem One.rule {i : GRule} {p : Char → Bool} (hk : (commonGrammar.body i).1 ≠ .compound) (h : One T .atomic (commonGrammar.body i).2 p) :
    One T .atomic (.rule i) p := fun s => reads_rule_atomic hk (h s)

theorem One.congr {e : Peg GRule} {p q : Char → Bool} (h : One T m e p) (hpq : ∀ c, p c = q c) : One T m e q := by
  rw [show q = p from (funext hpq).symm]; exact h

theorem One.notAny {a : Peg GRule} {p : Char → Bool} (h : One T .atomic a p) : One T .atomic (.seq (.not a) .any) (fun c => !p c) := by
  intro s
  cases s with
  | nil =>
    refine reads_seq_atomic (reads_not (h [])) ?_ ?_ ?_
    · intro r hr; simp [gOneOf] at hr; subst hr; exact reads_any_nil
    · intro l r hr; simp [gOneOf] at hr; exact hr.1
    · intro hr; simp [gOneOf] at hr
  | cons c s =>
    refine reads_seq_atomic (reads_not (h (c :: s))) ?_ ?_ ?_
    · intro r hr
      cases hp : p c
      · simp [gOneOf, hp] at hr; rw [← hr]; simpa [gOneOf, hp] using reads_any
      · simp [gOneOf, hp] at hr
    · intro l r hr; split at hr <;> simp at hr; exact hr.1
    · intro hr; cases hp : p c <;> simp [gOneOf, hp] at hr ⊢

theorem One.ascii_alpha : One T m .asciiAlpha isAsciiAlpha :=
  ((one_range _ _).alt (one_range _ _)).congr fun c => by simp [isAsciiAlpha, Bool.or_comm]

theorem One.ascii_digit : One T m .asciiDigit isAsciiDigit := (one_range _ _).congr fun c => rfl

theorem One.ascii_alnum : One T m .asciiAlphanumeric isAsciiAlnum :=
  ((one_range _ _).alt ((one_range _ _).alt (one_range _ _))).congr fun c => by
    simp only [isAsciiAlnum, isAsciiAlpha, isAsciiDigit]
    cases inRange 0x61 0x7A c <;> cases inRange 0x41 0x5A c <;> rfl

theorem isHexDigit_ranges (c : Char) : isHexDigit c = (inRange 0x30 0x39 c || (inRange 0x61 0x66 c || inRange 0x41 0x46 c)) := by
  unfold isHexDigit hexVal
  split
  · simp_all
  · split
    · simp_all
    · split <;> simp_all

theorem One.ascii_hex : One T m .asciiHexDigit isHexDigit :=
  ((one_range _ _).alt ((one_range _ _).alt (one_range _ _))).congr fun c => (isHexDigit_ranges c).symm

theorem one_pnBase : One T .atomic (.rule .PN_CHARS_BASE) isPnCharsBase := by
  refine One.rule (by decide) ?_
  refine ((One.ascii_alpha).alt ((one_range _ _).alt ((one_range _ _).alt ((one_range _ _).alt ((one_range _ _).alt ((one_range _ _).alt
    ((one_range _ _).alt ((one_range _ _).alt ((one_range _ _).alt ((one_range _ _).alt ((one_range _ _).alt ((one_range _ _).alt
    (one_range _ _))))))))))))).congr fun c => ?_
  simp only [isPnCharsBase, isAsciiAlpha, Bool.or_assoc]

theorem one_pnU : One T .atomic (.rule .PN_CHARS_U) isPnCharsU := by
  refine One.rule (by decide) ((one_pnBase.alt (one_chr '_')).congr fun c => ?_)
  simp [isPnCharsU]

theorem one_pn : One T .atomic (.rule .PN_CHARS) isPnChars := by
  refine One.rule (by decide) ((one_pnU.alt ((one_chr '-').alt (One.ascii_digit.alt ((one_range _ _).alt ((one_range _ _).alt
    (one_range _ _)))))).congr fun c => ?_)
  have : inRange 183 183 c = (c.toNat == 183) := by
    simp only [inRange]; rw [Bool.eq_iff_iff]; simp; omega
  simp [isPnChars, Bool.or_assoc, this]

theorem one_newline : One T .atomic (.rule .newline) isNewline :=
  One.rule (by decide) ((one_chr '\r').alt (one_chr '\n'))

theorem one_space : One T .atomic (.rule .WHITESPACE) isWs :=
  One.rule (by decide) (((one_chr ' ').alt ((one_chr '\t').alt one_newline)).congr fun c => by simp [isWs, Bool.or_assoc])

/-! ### Repetition in atomic mode -/

theorem rep_drop {step : Str → Option Nat} {s : Str} {n : Nat} (h : step s = some n) (h1 : 1 ≤ n) (h2 : n ≤ s.length) :
    rep step 0 s = (s.take n ++ (rep step 0 (s.drop n)).1, (rep step 0 (s.drop n)).2) := by
  cases hs : s.take n with
  | nil =>
    have := List.length_take (i := n) (l := s)
    rw [hs] at this; simp at this; omega
  | cons c a =>
    have e : s = c :: a ++ s.drop n := by rw [← hs, List.take_append_drop]
    have hl : (c :: a).length = n := by rw [← hs, List.length_take]; omega
    have := rep_step (step := step) (c := c) (a := a) (s := s.drop n) (by rw [← e, h, hl])
    rw [← e] at this
    exact this

/-- The expression reads as many characters as the function tells. -/
def Many (T : Nat) (e : Peg GRule) (step : Str → Option Nat) : Prop :=
  (∀ s, commonGrammar.Reads T .atomic e s ((step s).map fun n => ([], s.drop n))) ∧ ∀ s n, step s = some n → 1 ≤ n ∧ n ≤ s.length

theorem Many.more {e : Peg GRule} {step : Str → Option Nat} (h : Many T e step) (s : Str) :
    commonGrammar.Reads T .atomic (.more e) s (some ([], (rep step 0 s).2)) := by
  induction hn : s.length using Nat.strongRecOn generalizing s with
  | ind N ih =>
    have h0 := h.1 s
    cases hs : step s with
    | none =>
      rw [hs] at h0
      refine (reads_more_none (l' := []) (by simp [Skips]) h0).cast ?_
      rw [rep_stop hs]
    | some n =>
      rw [hs] at h0
      obtain ⟨h1, h2⟩ := h.2 s n hs
      refine (reads_more (l' := []) (r' := s) (by simp [Skips]) h0 (ih (s.drop n).length ?_ (s.drop n) rfl)).cast ?_
      · simp; omega
      · rw [rep_drop hs h1 h2]; rfl

theorem Many.star {e : Peg GRule} {step : Str → Option Nat} (h : Many T e step) (s : Str) :
    commonGrammar.Reads T .atomic (.star e) s (some ([], (rep step 0 s).2)) := by
  have h0 := h.1 s
  cases hs : step s with
  | none =>
    rw [hs] at h0
    exact (reads_star_none h0).cast (by rw [rep_stop hs])
  | some n =>
    rw [hs] at h0
    obtain ⟨h1, h2⟩ := h.2 s n hs
    exact (reads_star h0 (h.more _)).cast (by rw [rep_drop hs h1 h2]; rfl)

theorem One.many {e : Peg GRule} {p : Char → Bool} (h : One T .atomic e p) :
    Many T e (fun s => match s with | [] => none | c :: _ => if p c then some 1 else none) := by
  refine ⟨fun s => (h s).cast ?_, fun s n hs => ?_⟩
  · cases s with
    | nil => rfl
    | cons c s => cases hp : p c <;> simp [gOneOf, hp]
  · cases s with
    | nil => cases hs
    | cons c s => cases hp : p c <;> simp [hp] at hs; subst hs; simp

theorem rep_one (p : Char → Bool) (s : Str) :
    rep (fun s => match s with | [] => none | c :: _ => if p c then some 1 else none) 0 s = (s.takeWhile p, s.dropWhile p) := by
  induction s with
  | nil => rfl
  | cons c s ih =>
    cases hp : p c
    · simp [rep, hp]
    · simp [rep, hp, ih]

theorem One.star {e : Peg GRule} {p : Char → Bool} (h : One T .atomic e p) (s : Str) :
    commonGrammar.Reads T .atomic (.star e) s (some ([], s.dropWhile p)) := (h.many.star s).cast (by rw [rep_one])

/-! ### What is skipped -/

theorem dropWhile_twice (p : Char → Bool) (s : Str) : (s.dropWhile p).dropWhile p = s.dropWhile p := by
  induction s with
  | nil => rfl
  | cons c s ih => cases h : p c <;> simp [List.dropWhile, h, ih]

theorem skip_dropWs (s : Str) : skip false (s.dropWhile isWs) = skip false s := by
  induction s with
  | nil => rfl
  | cons c s ih =>
    cases h : isWs c
    · simp [List.dropWhile, h]
    · simp only [List.dropWhile, h, ih, skip, if_true]

theorem skip_open (s : Str) : skip true s = skip false (s.dropWhile fun c => !isNewline c) := by
  induction s with
  | nil => rfl
  | cons c s ih =>
    cases h : isNewline c
    · simp [List.dropWhile, h, ih, skip]
    · simp [List.dropWhile, h, skip, isWs]

/-- What stands after a comment and the white space behind it. -/
def afterComment : Str → PegRes GRule
  | '#' :: t => some ([], (t.dropWhile fun c => !isNewline c).dropWhile isWs)
  | _ => none

theorem reads_comment (s : Str) :
    commonGrammar.Reads T .atomic (.seq (.rule .COMMENT) (.star (.rule .WHITESPACE))) s (afterComment s) := by
  have h1 : commonGrammar.Reads T .atomic (.rule .COMMENT) s
      ((stripPrefix ['#'] s).map fun t => ([], t.dropWhile fun c => !isNewline c)) := by
    refine reads_rule_atomic (by decide) ?_
    refine reads_seq_atomic (reads_str ['#']) (y := (stripPrefix ['#'] s).map fun t => ([], t.dropWhile fun c => !isNewline c)) ?_ ?_ ?_
    · intro r hr
      simp only [Option.map_eq_some_iff, Prod.mk.injEq, true_and] at hr
      obtain ⟨t, ht, rfl⟩ := hr
      rw [ht]
      exact one_newline.notAny.star t
    · intro l r hr
      simp only [Option.map_eq_some_iff, Prod.mk.injEq] at hr
      obtain ⟨t, ht, rfl, _⟩ := hr; rfl
    · intro hr; simp at hr; simp [hr]
  refine reads_seq_atomic h1 ?_ ?_ ?_
  · intro r hr
    simp only [Option.map_eq_some_iff, Prod.mk.injEq, true_and] at hr
    obtain ⟨t, ht, rfl⟩ := hr
    obtain rfl := stripPrefix_eq ht
    exact one_space.star _
  · intro l r hr
    simp only [Option.map_eq_some_iff, Prod.mk.injEq] at hr
    obtain ⟨t, ht, rfl, _⟩ := hr; rfl
  · intro hr
    simp at hr
    unfold afterComment
    split
    · simp [stripPrefix] at hr
    · rfl

theorem afterComment_some {s r : Str} {l} (h : afterComment s = some (l, r)) :
    l = [] ∧ r.length < s.length ∧ skip false s = skip false r ∧ r.dropWhile isWs = r := by
  unfold afterComment at h
  split at h
  · rename_i t
    simp only [Option.some.injEq, Prod.mk.injEq] at h
    obtain ⟨rfl, rfl⟩ := h
    refine ⟨rfl, ?_, ?_, ?_⟩
    · have h1 := (List.dropWhile_suffix isWs (l := t.dropWhile fun c => !isNewline c)).length_le
      have h2 := (List.dropWhile_suffix (fun c => !isNewline c) (l := t)).length_le
      simp; omega
    · rw [skip_dropWs, ← skip_open]; simp [skip, isWs, isNewline]
    · exact dropWhile_twice _ _
  · cases h

theorem afterComment_none {s : Str} (h : afterComment s = none) (hs : s.dropWhile isWs = s) : skip false s = s := by
  cases s with
  | nil => rfl
  | cons c s =>
    have hw : isWs c = false := by
      cases hw : isWs c
      · rfl
      · exfalso
        have := (List.dropWhile_suffix isWs (l := s)).length_le
        rw [List.dropWhile_cons, hw, if_pos rfl] at hs
        rw [hs] at this; simp at this; omega
    have hc : c ≠ '#' := by rintro rfl; simp [afterComment] at h
    simp [skip, hw, hc]

theorem reads_comments_more (s : Str) (hs : s.dropWhile isWs = s) :
    commonGrammar.Reads T .atomic (.more (.seq (.rule .COMMENT) (.star (.rule .WHITESPACE)))) s (some ([], skip false s)) := by
  induction hn : s.length using Nat.strongRecOn generalizing s with
  | ind N ih =>
    have h0 := reads_comment (T := T) s
    cases ha : afterComment s with
    | none =>
      rw [ha] at h0
      exact (reads_more_none (l' := []) (by simp [Skips]) h0).cast (by rw [afterComment_none ha hs])
    | some x =>
      obtain ⟨l, r⟩ := x
      obtain ⟨rfl, h1, h2, h3⟩ := afterComment_some ha
      rw [ha] at h0
      exact (reads_more (l' := []) (r' := s) (by simp [Skips]) h0 (ih r.length (by omega) r h3 rfl)).cast (by rw [h2]; rfl)

theorem reads_skipper (s : Str) : commonGrammar.Reads T .atomic commonGrammar.skipper s (some ([], skip false s)) := by
  refine reads_seq_atomic (one_space.star s) ?_ (by simp) (by simp)
  intro r hr
  simp only [Option.some.injEq, Prod.mk.injEq, true_and] at hr
  subst hr
  rw [← skip_dropWs s]
  have hs : (s.dropWhile isWs).dropWhile isWs = s.dropWhile isWs := dropWhile_twice _ _
  generalize s.dropWhile isWs = s at hs
  have h0 := reads_comment (T := T) s
  cases ha : afterComment s with
  | none =>
    rw [ha] at h0
    exact (reads_star_none h0).cast (by rw [afterComment_none ha hs])
  | some x =>
    obtain ⟨l, r⟩ := x
    obtain ⟨rfl, h1, h2, h3⟩ := afterComment_some ha
    rw [ha] at h0
    exact (reads_star h0 (reads_comments_more r h3)).cast (by rw [h2]; rfl)

theorem skips_free (s : Str) : commonGrammar.Skips T .free s [] (skip false s) := reads_skipper s

/-! ### Escapes -/

theorem dropWhile_eq_drop_length (p : Char → Bool) (s : Str) : s.dropWhile p = s.drop (s.takeWhile p).length := by
  induction s with
  | nil => rfl
  | cons c s ih => cases h : p c <;> simp [List.dropWhile, List.takeWhile, h, ih]

/-- So many and one hexadecimal digits. -/
def hexSeq : Nat → Peg GRule
  | 0 => .asciiHexDigit
  | n + 1 => .seq .asciiHexDigit (hexSeq n)

theorem reads_hexSeq (n : Nat) (s : Str) : commonGrammar.Reads T .atomic (hexSeq n) s
    (if n + 1 ≤ (s.takeWhile isHexDigit).length then some ([], s.drop (n + 1)) else none) := by
  induction n generalizing s with
  | zero =>
    refine (One.ascii_hex s).cast ?_
    cases s with
    | nil => rfl
    | cons c s => cases h : isHexDigit c <;> simp [gOneOf, h, List.takeWhile]
  | succ n ih =>
    refine reads_seq_atomic (One.ascii_hex s) ?_ ?_ ?_
    · intro r hr
      cases s with
      | nil => simp [gOneOf] at hr
      | cons c s =>
        cases h : isHexDigit c <;> simp [gOneOf, h] at hr
        subst hr
        refine (ih s).cast ?_
        simp [List.takeWhile, h]
    · intro l r hr
      cases s with
      | nil => simp [gOneOf] at hr
      | cons c s => cases h : isHexDigit c <;> simp [gOneOf, h] at hr; exact hr.1
    · intro hr
      cases s with
      | nil => simp
      | cons c s => cases h : isHexDigit c <;> simp [gOneOf, h] at hr ⊢

theorem ucharLen_le {s : Str} {n : Nat} (h : ucharLen s = some n) : 1 ≤ n ∧ n ≤ s.length := by
  unfold ucharLen at h
  split at h
  · rename_i r
    have := (List.takeWhile_prefix isHexDigit (l := r)).length_le
    split at h <;> simp at h; subst h; simp; omega
  · rename_i r
    have := (List.takeWhile_prefix isHexDigit (l := r)).length_le
    split at h <;> simp at h; subst h; simp; omega
  · cases h

theorem reads_strHex (t : Str) (n : Nat) (s : Str) : commonGrammar.Reads T .atomic (.seq (.str t) (hexSeq n)) s
    ((stripPrefix t s).bind fun r => if n + 1 ≤ (r.takeWhile isHexDigit).length then some ([], r.drop (n + 1)) else none) := by
  refine reads_seq_atomic (reads_str t) ?_ ?_ ?_
  · intro r hr
    simp only [Option.map_eq_some_iff, Prod.mk.injEq, true_and] at hr
    obtain ⟨t, ht, rfl⟩ := hr
    rw [ht]
    exact reads_hexSeq n t
  · intro l r hr
    simp only [Option.map_eq_some_iff, Prod.mk.injEq] at hr
    obtain ⟨t, ht, rfl, _⟩ := hr; rfl
  · intro hr; simp at hr; simp [hr]

theorem reads_uchar (s : Str) : commonGrammar.Reads T .atomic (.rule .UCHAR) s ((ucharLen s).map fun n => ([], s.drop n)) := by
  refine reads_rule_atomic (by decide) ?_
  refine (reads_alt (reads_strHex ['\\', 'U'] 7 s) (reads_strHex ['\\', 'u'] 3 s)).cast ?_
  unfold ucharLen
  split
  · rename_i r; simp [stripPrefix]
  · rename_i r; simp [stripPrefix]
  · rename_i h1 h2
    have e1 : stripPrefix ['\\', 'U'] s = none := by
      cases h : stripPrefix ['\\', 'U'] s with
      | none => rfl
      | some r => exact absurd (stripPrefix_eq h) (h1 r)
    have e2 : stripPrefix ['\\', 'u'] s = none := by
      cases h : stripPrefix ['\\', 'u'] s with
      | none => rfl
      | some r => exact absurd (stripPrefix_eq h) (h2 r)
    rw [e1, e2]; rfl

theorem echarLen_le {s : Str} {n : Nat} (h : echarLen s = some n) : 1 ≤ n ∧ n ≤ s.length := by
  unfold echarLen at h
  split at h
  · split at h <;> simp at h; subst h; simp
  · cases h

theorem reads_echar (s : Str) : commonGrammar.Reads T .atomic (.rule .ECHAR) s ((echarLen s).map fun n => ([], s.drop n)) := by
  have h1 : One T .atomic (.alt (.str ['t']) (.alt (.str ['b']) (.alt (.str ['n']) (.alt (.str ['r']) (.alt (.str ['f']) (.alt (.str ['"'])
      (.alt (.str ['\'']) (.str ['\\']))))))) : Peg GRule) (fun c => c ∈ (str! "tbnrf\"'\\")) :=
    ((one_chr _).alt ((one_chr _).alt ((one_chr _).alt ((one_chr _).alt ((one_chr _).alt ((one_chr _).alt ((one_chr _).alt
      (one_chr _)))))))).congr fun c => by
        rw [Bool.eq_iff_iff]; simp
  refine reads_rule_atomic (by decide) ?_
  refine reads_seq_atomic (one_chr '\\' s) ?_ ?_ ?_
  · intro r hr
    cases s with
    | nil => simp [gOneOf] at hr
    | cons c s =>
      by_cases hc : c = '\\'
      · subst hc
        simp [gOneOf] at hr; subst hr
        refine (h1 s).cast ?_
        cases s with
        | nil => rfl
        | cons d s =>
          simp only [gOneOf, echarLen]
          split <;> simp_all
      · simp [gOneOf, hc] at hr
  · intro l r hr
    cases s with
    | nil => simp [gOneOf] at hr
    | cons c s =>
      simp only [gOneOf] at hr
      split at hr <;> simp at hr; exact hr.1
  · intro hr
    cases s with
    | nil => rfl
    | cons c s =>
      have hc : c ≠ '\\' := by rintro rfl; simp [gOneOf] at hr
      unfold echarLen
      split
      · simp_all
      · rfl

theorem ucharLen_only {c : Char} {s : Str} (h : c ≠ '\\') : ucharLen (c :: s) = none := by
  unfold ucharLen; split <;> simp_all

theorem many_iriChar : Many T (.rule .IRIREF_CHAR) iriCharLen := by
  have h1 : One T .atomic (.alt (.str ['>']) (.alt (.range 0x0000 0x0020) (.alt (.str ['"']) (.alt (.str ['{']) (.alt (.str ['}'])
      (.alt (.str ['|']) (.alt (.str ['^']) (.alt (.str ['`']) (.str ['\\'])))))))) : Peg GRule) iriExcluded :=
    ((one_chr _).alt ((one_range _ _).alt ((one_chr _).alt ((one_chr _).alt ((one_chr _).alt ((one_chr _).alt ((one_chr _).alt
      ((one_chr _).alt (one_chr _))))))))).congr fun c => by
        rw [Bool.eq_iff_iff]; simp [iriExcluded, inRange]; grind
  refine ⟨fun s => reads_rule_atomic (by decide) ((reads_alt (h1.notAny s) (reads_uchar s)).cast ?_), fun s n hs => ?_⟩
  · cases s with
    | nil => rfl
    | cons c s => cases h : iriExcluded c <;> simp [gOneOf, iriCharLen, h]
  · cases s with
    | nil => cases hs
    | cons c s =>
      rw [iriCharLen] at hs
      split at hs
      · exact ucharLen_le hs
      · cases hs; simp

theorem many_quoteChar : Many T (.rule .QUOTE_CHAR) quoteCharLen := by
  have h1 : One T .atomic (.alt (.str ['"']) (.alt (.str ['\\']) (.alt (.str ['\r']) (.str ['\n']))) : Peg GRule)
      (fun c => c ∈ (str! "\"\\\r\n")) :=
    ((one_chr _).alt ((one_chr _).alt ((one_chr _).alt (one_chr _)))).congr fun c => by
        rw [Bool.eq_iff_iff]; simp
  refine ⟨fun s => reads_rule_atomic (by decide) ((reads_alt (h1.notAny s) (reads_alt (reads_uchar s) (reads_echar s))).cast ?_),
    fun s n hs => ?_⟩
  · cases s with
    | nil => rfl
    | cons c s =>
      simp only [gOneOf, quoteCharLen]
      by_cases h : c ∈ (str! "\"\\\r\n")
      · simp only [h, decide_true, Bool.not_true, if_true, Bool.false_eq_true, if_false, Option.none_or]
        cases ucharLen (c :: s) <;> rfl
      · simp only [h, decide_false, Bool.not_false, if_true, if_false]; rfl
  · cases s with
    | nil => cases hs
    | cons c s =>
      rw [quoteCharLen] at hs
      split at hs
      · rw [Option.or_eq_some_iff] at hs
        rcases hs with hs | ⟨_, hs⟩
        · exact ucharLen_le hs
        · exact echarLen_le hs
      · cases hs; simp

theorem many_labelTail : Many T (.rule .BLANK_NODE_LABEL_TAIL) labelTailLen := by
  have h1 : ∀ s, commonGrammar.Reads T .atomic (.seq (.str ['.']) (.rule .PN_CHARS)) s
      (match s with | '.' :: d :: r => if isPnChars d then some ([], r) else none | _ => none) := by
    intro s
    refine reads_seq_atomic (one_chr '.' s) ?_ ?_ ?_
    · intro r hr
      cases s with
      | nil => simp [gOneOf] at hr
      | cons c s =>
        by_cases hc : c = '.'
        · subst hc
          simp [gOneOf] at hr; subst hr
          refine (one_pn s).cast ?_
          cases s with
          | nil => rfl
          | cons d s => rfl
        · simp [gOneOf, hc] at hr
    · intro l r hr
      cases s with
      | nil => simp [gOneOf] at hr
      | cons c s =>
        simp only [gOneOf] at hr
        split at hr <;> simp at hr; exact hr.1
    · intro hr
      cases s with
      | nil => rfl
      | cons c s =>
        have hc : c ≠ '.' := by rintro rfl; simp [gOneOf] at hr
        split
        · simp_all
        · rfl
  have h2 : ∀ s, commonGrammar.Reads T .atomic (.seq (.look (.seq (.str ['.']) (.rule .PN_CHARS))) (.str ['.'])) s
      (match s with | '.' :: d :: r => if isPnChars d then some ([], d :: r) else none | _ => none) := by
    intro s
    by_cases hs : ∃ d r, s = '.' :: d :: r
    · obtain ⟨d, r, rfl⟩ := hs
      cases hd : isPnChars d
      · exact (reads_seq_none ((reads_look (h1 _)).cast (by simp [hd]))).cast (by simp [hd])
      · refine reads_seq_atomic ((reads_look (h1 _)).cast (y := some ([], '.' :: d :: r)) (by simp [hd])) ?_ ?_ ?_
        · intro q hq
          simp at hq; subst hq
          exact (one_chr '.' _).cast (by simp [gOneOf, hd])
        · intro l q hq; simp at hq; exact hq.1
        · intro hq; cases hq
    · have e : ∀ f : Char → Str → PegRes GRule, (match s with | '.' :: d :: r => f d r | _ => none) = none := by
        intro f
        split
        · exact absurd ⟨_, _, rfl⟩ hs
        · rfl
      rw [e]
      exact reads_seq_none ((reads_look (h1 _)).cast (by rw [e]; rfl))
  refine ⟨fun s => reads_rule_atomic (by decide) ((reads_alt (one_pn s) (h2 s)).cast ?_), fun s n hs => ?_⟩
  · cases s with
    | nil => rfl
    | cons c s =>
      simp only [gOneOf, labelTailLen]
      cases hp : isPnChars c
      · simp only [Bool.false_eq_true, if_false, Option.none_or]
        by_cases hc : c = '.'
        · subst hc
          cases s with
          | nil => rfl
          | cons d s => cases hd : isPnChars d <;> simp [hd]
        · simp only [hc, if_false]
          split
          · simp_all
          · rfl
      · simp
  · cases s with
    | nil => cases hs
    | cons c s =>
      simp only [labelTailLen] at hs
      split at hs
      · cases hs; simp
      · split at hs
        · split at hs
          · split at hs
            · cases hs; simp
            · cases hs
          · cases hs
        · cases hs

theorem many_subTag : Many T (.seq (.str ['-']) (.seq .asciiAlphanumeric (.star .asciiAlphanumeric))) subTagLen := by
  have h1 : ∀ s, commonGrammar.Reads T .atomic (.seq .asciiAlphanumeric (.star .asciiAlphanumeric)) s
      (if (s.takeWhile isAsciiAlnum).isEmpty then none else some ([], s.dropWhile isAsciiAlnum)) := by
    intro s
    refine reads_seq_atomic (One.ascii_alnum s) ?_ ?_ ?_
    · intro r hr
      cases s with
      | nil => simp [gOneOf] at hr
      | cons c s =>
        cases h : isAsciiAlnum c <;> simp [gOneOf, h] at hr
        subst hr
        refine (One.ascii_alnum.star s).cast ?_
        simp [h, List.takeWhile]
    · intro l r hr
      cases s with
      | nil => simp [gOneOf] at hr
      | cons c s => cases h : isAsciiAlnum c <;> simp [gOneOf, h] at hr; exact hr.1
    · intro hr
      cases s with
      | nil => rfl
      | cons c s => cases h : isAsciiAlnum c <;> simp [gOneOf, h, List.takeWhile] at hr ⊢
  refine ⟨fun s => ?_, fun s n hs => ?_⟩
  · refine reads_seq_atomic (one_chr '-' s) ?_ ?_ ?_
    · intro r hr
      cases s with
      | nil => simp [gOneOf] at hr
      | cons c s =>
        by_cases hc : c = '-'
        · subst hc
          simp [gOneOf] at hr; subst hr
          refine (h1 s).cast ?_
          rw [subTagLen]
          split
          · rfl
          · simp only [Option.map_some, List.drop_succ_cons]
            rw [dropWhile_eq_drop_length]
        · simp [gOneOf, hc] at hr
    · intro l r hr
      cases s with
      | nil => simp [gOneOf] at hr
      | cons c s =>
        simp only [gOneOf] at hr
        split at hr <;> simp at hr; exact hr.1
    · intro hr
      cases s with
      | nil => rfl
      | cons c s =>
        have hc : c ≠ '-' := by rintro rfl; simp [gOneOf] at hr
        unfold subTagLen
        split
        · simp_all
        · rfl
  · unfold subTagLen at hs
    split at hs
    · rename_i r
      have := (List.takeWhile_prefix isAsciiAlnum (l := r)).length_le
      split at hs <;> simp at hs; subst hs; simp; omega
    · cases hs

/-! ### Terms -/

theorem textRead_append (a r : Str) : textRead (a ++ r) r = a := by
  simp [textRead]

theorem skips_compound (s : Str) : commonGrammar.Skips T .compound s [] s := by simp [Skips]

/-- Text between two characters. -/
def pQuoted (step : Str → Option Nat) (o c : Char) : Str → Option (Str × Str)
  | [] => none
  | d :: t =>
    if d = o then
      match (rep step 0 t).2 with
      | [] => none
      | e :: r => if e = c then some ((rep step 0 t).1, r) else none
    else none

theorem reads_quoted {O I C : GRule} {o c : Char} {step : Str → Option Nat}
    (hO : commonGrammar.body O = (.compound, .seq (.str [o]) (.seq (.rule I) (.str [c]))))
    (hI : commonGrammar.body I = (.atomic, .star (.rule C))) (hC : Many T (.rule C) step) (s : Str) :
    commonGrammar.Reads T m (.rule O) s ((pQuoted step o c s).map fun x =>
      ([.mk (some O) (o :: x.1 ++ [c]) [.mk (some I) x.1 []]], x.2)) := by
  have inner : ∀ t, commonGrammar.Reads T .compound (.rule I) t (some ([.mk (some I) (rep step 0 t).1 []], (rep step 0 t).2)) := by
    intro t
    refine (reads_rule (i := I) (x := some ([], (rep step 0 t).2)) (by rw [hI]; exact hC.star t)).cast ?_
    rw [hI]
    have := textRead_append (rep step 0 t).1 (rep step 0 t).2
    rw [rep_join] at this
    simp [PegKind.makes, this]
  have body : commonGrammar.Reads T .compound (.seq (.str [o]) (.seq (.rule I) (.str [c]))) s
      ((pQuoted step o c s).map fun x => ([.mk (some I) x.1 []], x.2)) := by
    cases s with
    | nil => exact reads_seq_none (one_chr o [])
    | cons d t =>
      by_cases hd : d = o
      · subst hd
        have h1 : commonGrammar.Reads T .compound (.str [d]) (d :: t) (some ([], t)) := (one_chr d (d :: t)).cast (by simp [gOneOf])
        refine (reads_seq h1 (skips_compound t) (reads_seq (inner t) (skips_compound _) (one_chr c _))).cast ?_
        simp only [pQuoted, if_true]
        cases (rep step 0 t).2 with
        | nil => rfl
        | cons e r => by_cases he : e = c <;> simp [gOneOf, he]
      · exact (reads_seq_none ((one_chr o (d :: t)).cast (by simp [gOneOf, hd]))).cast (by simp [pQuoted, hd])
  refine (reads_rule (i := O) (x := (pQuoted step o c s).map fun x => ([.mk (some I) x.1 []], x.2)) (by rw [hO]; exact body)).cast ?_
  rw [hO]
  cases hq : pQuoted step o c s with
  | none => rfl
  | some x =>
    obtain ⟨a, r⟩ := x
    have : s = (o :: a ++ [c]) ++ r := by
      cases s with
      | nil => cases hq
      | cons d t =>
        rw [pQuoted] at hq
        split at hq
        · rename_i hd
          have hj := rep_join step 0 t
          cases hr : (rep step 0 t).2 with
          | nil => simp [hr] at hq
          | cons e q =>
            rw [hr] at hq hj
            simp only at hq
            split at hq
            · rename_i he
              simp only [Option.some.injEq, Prod.mk.injEq] at hq
              rw [← hj, hd, he, hq.1, hq.2]; simp
            · cases hq
        · cases hq
    simp only [Option.map_some, PegKind.makes, if_true]
    rw [this, textRead_append]

theorem pQuoted_iri (s : Str) : pQuoted iriCharLen '<' '>' s = pIriRef s := by
  unfold pQuoted pIriRef
  cases s with
  | nil => rfl
  | cons c s =>
    by_cases hc : c = '<'
    · subst hc
      simp only [if_true]
      generalize rep iriCharLen 0 s = x
      obtain ⟨a, b⟩ := x
      cases b with
      | nil => rfl
      | cons e r => by_cases he : e = '>' <;> simp [he]
    · simp [hc]

theorem pQuoted_string (s : Str) : pQuoted quoteCharLen '"' '"' s = pString s := by
  unfold pQuoted pString
  cases s with
  | nil => rfl
  | cons c s =>
    by_cases hc : c = '"'
    · subst hc
      simp only [if_true]
      generalize rep quoteCharLen 0 s = x
      obtain ⟨a, b⟩ := x
      cases b with
      | nil => rfl
      | cons e r => by_cases he : e = '"' <;> simp [he]
    · simp [hc]

/-- The pair of an IRI. -/
def iriPair (i : Str) : Pair GRule := .mk (some .IRIREF) ('<' :: i ++ ['>']) [.mk (some .IRIREF_INNER) i []]

theorem reads_iri (s : Str) : commonGrammar.Reads T m (.rule .IRIREF) s ((pIriRef s).map fun x => ([iriPair x.1], x.2)) := by
  rw [← pQuoted_iri]
  exact reads_quoted rfl rfl many_iriChar s

theorem reads_string (s : Str) : commonGrammar.Reads T m (.rule .STRING_LITERAL_QUOTE) s
    ((pString s).map fun x => ([.mk (some .STRING_LITERAL_QUOTE) ('"' :: x.1 ++ ['"']) [.mk (some .QUOTE_INNER) x.1 []]], x.2)) := by
  rw [← pQuoted_string]
  exact reads_quoted rfl rfl many_quoteChar s

theorem reads_label (s : Str) : commonGrammar.Reads T .free (.rule .BLANK_NODE_LABEL) s
    ((pLabel s).map fun x => ([.mk (some .BLANK_NODE_LABEL) x.1 []], x.2)) := by
  have first : One T .atomic (.alt (.rule .PN_CHARS_U) .asciiDigit) (fun c => isPnCharsU c || isAsciiDigit c) := one_pnU.alt One.ascii_digit
  have body : commonGrammar.Reads T .atomic (commonGrammar.body .BLANK_NODE_LABEL).2 s ((pLabel s).map fun x => ([], x.2)) := by
    refine reads_seq_atomic (reads_str ['_', ':']) ?_ ?_ ?_
    · intro r hr
      simp only [Option.map_eq_some_iff, Prod.mk.injEq, true_and] at hr
      obtain ⟨t, ht, rfl⟩ := hr
      obtain rfl := stripPrefix_eq ht
      refine reads_seq_atomic (first t) ?_ ?_ ?_
      · intro q hq
        cases t with
        | nil => simp [gOneOf] at hq
        | cons c t =>
          simp only [gOneOf] at hq
          split at hq
          · rename_i hc
            simp at hq; subst hq
            exact (many_labelTail.star t).cast (by simp [pLabel, hc])
          · cases hq
      · intro l q hq
        cases t with
        | nil => simp [gOneOf] at hq
        | cons c t =>
          simp only [gOneOf] at hq
          split at hq <;> simp at hq; exact hq.1
      · intro hq
        cases t with
        | nil => rfl
        | cons c t =>
          simp only [gOneOf] at hq
          split at hq
          · cases hq
          · rename_i hc; simp [pLabel, hc]
    · intro l r hr
      simp only [Option.map_eq_some_iff, Prod.mk.injEq] at hr
      obtain ⟨t, ht, rfl, _⟩ := hr; rfl
    · intro hr
      simp at hr
      unfold pLabel
      split
      · simp [stripPrefix] at hr
      · rfl
  refine (reads_rule (g := commonGrammar) (i := GRule.BLANK_NODE_LABEL) body).cast ?_
  cases hp : pLabel s with
  | none => rfl
  | some x =>
    obtain ⟨a, r⟩ := x
    have : s = a ++ r := by
      unfold pLabel at hp
      split at hp
      · rename_i c t
        split at hp
        · simp only [Option.some.injEq, Prod.mk.injEq] at hp
          obtain ⟨rfl, rfl⟩ := hp
          simp [rep_join]
        · cases hp
      · cases hp
    show some ([Pair.mk (some GRule.BLANK_NODE_LABEL) (textRead s r) []], r) = some ([Pair.mk (some GRule.BLANK_NODE_LABEL) a []], r)
    rw [this, textRead_append]

theorem pAnon_join {s a r : Str} (h : pAnon s = some (a, r)) : s = a ++ r ∧ ∃ t, a = '[' :: t ∧ t ≠ [] := by
  unfold pAnon at h
  split at h
  · rename_i t
    split at h
    · rename_i q e
      simp only [Option.some.injEq, Prod.mk.injEq] at h
      obtain ⟨rfl, rfl⟩ := h
      obtain ⟨u, hu⟩ := skip_suffix false t
      rw [e] at hu
      have : t = (u ++ [']']) ++ q := by rw [← hu]; simp
      have h2 : t.take (t.length - q.length) = u ++ [']'] := by
        have h3 := textRead_append (u ++ [']']) q
        rw [← this] at h3
        exact h3
      rw [h2]
      exact ⟨by rw [List.cons_append, ← this], _, rfl, by simp⟩
    · cases h
  · cases h

theorem reads_anon (s : Str) : commonGrammar.Reads T .free (.rule .ANON) s
    ((pAnon s).map fun x => ([.mk (some .ANON) x.1 []], x.2)) := by
  have body : commonGrammar.Reads T .free (commonGrammar.body .ANON).2 s ((pAnon s).map fun x => ([], x.2)) := by
    cases s with
    | nil => exact reads_seq_none (one_chr '[' [])
    | cons c t =>
      by_cases hc : c = '['
      · subst hc
        have h1 : commonGrammar.Reads T .free (.str ['[']) ('[' :: t) (some ([], t)) := (one_chr '[' ('[' :: t)).cast (by simp [gOneOf])
        refine (reads_seq h1 (skips_free t) (one_chr ']' _)).cast ?_
        rw [pAnon]
        cases skip false t with
        | nil => rfl
        | cons d q => by_cases hd : d = ']' <;> simp [gOneOf, hd]
      · refine (reads_seq_none ((one_chr '[' (c :: t)).cast (by simp [gOneOf, hc]))).cast ?_
        unfold pAnon
        split
        · simp_all
        · rfl
  refine (reads_rule (g := commonGrammar) (i := GRule.ANON) body).cast ?_
  cases hp : pAnon s with
  | none => rfl
  | some x =>
    obtain ⟨a, r⟩ := x
    show some ([Pair.mk (some GRule.ANON) (textRead s r) []], r) = some ([Pair.mk (some GRule.ANON) a []], r)
    rw [(pAnon_join hp).1, textRead_append]

theorem pLabel_join {s a r : Str} (hp : pLabel s = some (a, r)) : s = a ++ r ∧ ∃ t, a = '_' :: ':' :: t := by
  unfold pLabel at hp
  split at hp
  · rename_i c t
    split at hp
    · simp only [Option.some.injEq, Prod.mk.injEq] at hp
      obtain ⟨rfl, rfl⟩ := hp
      exact ⟨by simp [rep_join], _, rfl⟩
    · cases hp
  · cases hp

theorem pBlank_join {s a r : Str} (h : pBlank s = some (a, r)) : s = a ++ r ∧
    ((∃ t, a = '_' :: ':' :: t) ∨ ∃ t, a = '[' :: t ∧ t ≠ []) := by
  unfold pBlank at h
  rw [Option.or_eq_some_iff] at h
  rcases h with h | ⟨_, h⟩
  · exact ⟨(pLabel_join h).1, .inl (pLabel_join h).2⟩
  · exact ⟨(pAnon_join h).1, .inr (pAnon_join h).2⟩

/-- The pair of a blank node. -/
def blankPair (t : Str) : Pair GRule :=
  .mk (some .blankNode) t [.mk (some (if t.head? = some '_' then .BLANK_NODE_LABEL else .ANON)) t []]

theorem reads_blank (s : Str) : commonGrammar.Reads T .free (.rule .blankNode) s ((pBlank s).map fun x => ([blankPair x.1], x.2)) := by
  refine (reads_rule (g := commonGrammar) (i := GRule.blankNode) (m := .free) (reads_alt (reads_label s) (reads_anon s))).cast ?_
  unfold pBlank
  cases hl : pLabel s with
  | some x =>
    obtain ⟨a, r⟩ := x
    obtain ⟨hj, t, ht⟩ := pLabel_join hl
    show some ([Pair.mk (some GRule.blankNode) (textRead s r) [Pair.mk (some GRule.BLANK_NODE_LABEL) a []]], r) = some ([blankPair a], r)
    rw [hj, textRead_append, blankPair, ht]; rfl
  | none =>
    cases ha : pAnon s with
    | none => rfl
    | some x =>
      obtain ⟨a, r⟩ := x
      obtain ⟨hj, t, ht, _⟩ := pAnon_join ha
      show some ([Pair.mk (some GRule.blankNode) (textRead s r) [Pair.mk (some GRule.ANON) a []]], r) = some ([blankPair a], r)
      rw [hj, textRead_append, blankPair, ht]; rfl

/-- The pair of a node. -/
def nodePair : RNode → Pair GRule
  | .iri i => iriPair i
  | .blank t => blankPair t

/-- The text of a node. -/
def nodeText : RNode → Str
  | .iri i => '<' :: i ++ ['>']
  | .blank t => t

theorem pSubject_join {s r : Str} {n : RNode} (h : pSubject s = some (n, r)) : s = nodeText n ++ r := by
  unfold pSubject at h
  split at h
  · rename_i i q hq
    simp only [Option.some.injEq, Prod.mk.injEq] at h
    obtain ⟨rfl, rfl⟩ := h
    rw [pIriRef_join hq]; simp [nodeText]
  · simp only [Option.map_eq_some_iff] at h
    obtain ⟨⟨b, q⟩, h1, h2⟩ := h
    simp only [Prod.mk.injEq] at h2
    obtain ⟨rfl, rfl⟩ := h2
    exact (pBlank_join h1).1

theorem reads_node (s : Str) : commonGrammar.Reads T .free (.alt (.rule .IRIREF) (.rule .blankNode)) s
    ((pSubject s).map fun x => ([nodePair x.1], x.2)) := by
  refine (reads_alt (reads_iri s) (reads_blank s)).cast ?_
  unfold pSubject
  cases pIriRef s with
  | some x => rfl
  | none => cases pBlank s <;> rfl

/-- The pair of a subject. -/
def subjectPair (n : RNode) : Pair GRule := .mk (some .ntripleSubject) (nodeText n) [nodePair n]

theorem reads_subject (s : Str) : commonGrammar.Reads T .free (.rule .ntripleSubject) s
    ((pSubject s).map fun x => ([subjectPair x.1], x.2)) := by
  refine (reads_rule (g := commonGrammar) (i := GRule.ntripleSubject) (m := .free) (reads_node s)).cast ?_
  cases hp : pSubject s with
  | none => rfl
  | some x =>
    obtain ⟨n, r⟩ := x
    show some ([Pair.mk (some GRule.ntripleSubject) (textRead s r) [nodePair n]], r) = some ([subjectPair n], r)
    rw [pSubject_join hp, textRead_append]; rfl

/-- The pair of a predicate. -/
def predicatePair (i : Str) : Pair GRule := .mk (some .ntriplePredicate) ('<' :: i ++ ['>']) [iriPair i]

theorem reads_predicate (s : Str) : commonGrammar.Reads T .free (.rule .ntriplePredicate) s
    ((pIriRef s).map fun x => ([predicatePair x.1], x.2)) := by
  refine (reads_rule (g := commonGrammar) (i := GRule.ntriplePredicate) (m := .free) (reads_iri s)).cast ?_
  cases hp : pIriRef s with
  | none => rfl
  | some x =>
    obtain ⟨i, r⟩ := x
    show some ([Pair.mk (some GRule.ntriplePredicate) (textRead s r) [iriPair i]], r) = some ([predicatePair i], r)
    have := pIriRef_join hp
    rw [show '<' :: (i ++ '>' :: r) = ('<' :: i ++ ['>']) ++ r by simp] at this
    rw [this, textRead_append]; rfl

theorem reads_langTag (s : Str) : commonGrammar.Reads T .free (.rule .LANGTAG) s
    ((pLangTag s).map fun x => ([.mk (some .LANGTAG) ('@' :: x.1) []], x.2)) := by
  have alphas : ∀ s, commonGrammar.Reads T .atomic (.seq .asciiAlpha (.star .asciiAlpha)) s
      (if (s.takeWhile isAsciiAlpha).isEmpty then none else some ([], s.dropWhile isAsciiAlpha)) := by
    intro s
    refine reads_seq_atomic (One.ascii_alpha s) ?_ ?_ ?_
    · intro r hr
      cases s with
      | nil => simp [gOneOf] at hr
      | cons c s =>
        cases h : isAsciiAlpha c <;> simp [gOneOf, h] at hr
        subst hr
        refine (One.ascii_alpha.star s).cast ?_
        simp [h, List.takeWhile]
    · intro l r hr
      cases s with
      | nil => simp [gOneOf] at hr
      | cons c s => cases h : isAsciiAlpha c <;> simp [gOneOf, h] at hr; exact hr.1
    · intro hr
      cases s with
      | nil => rfl
      | cons c s => cases h : isAsciiAlpha c <;> simp [gOneOf, h, List.takeWhile] at hr ⊢
  have body : commonGrammar.Reads T .atomic (commonGrammar.body .LANGTAG).2 s ((pLangTag s).map fun x => ([], x.2)) := by
    cases s with
    | nil => exact reads_seq_none (one_chr '@' [])
    | cons c t =>
      by_cases hc : c = '@'
      · subst hc
        refine reads_seq_atomic (x := some ([], t)) ((one_chr '@' ('@' :: t)).cast (by simp [gOneOf])) ?_ (by simp) (by simp)
        intro r hr
        simp at hr; subst hr
        rw [pLangTag]
        refine reads_seq_atomic (alphas t) ?_ ?_ ?_
        · intro q hq
          split at hq
          · cases hq
          · rename_i he
            simp at hq; subst hq
            simp only [he]
            exact many_subTag.star _
        · intro l q hq; split at hq <;> simp at hq; exact hq.1
        · intro hq
          split at hq
          · rename_i he; simp only [he]; rfl
          · cases hq
      · refine (reads_seq_none ((one_chr '@' (c :: t)).cast (by simp [gOneOf, hc]))).cast ?_
        unfold pLangTag
        split
        · simp_all
        · rfl
  refine (reads_rule (g := commonGrammar) (i := GRule.LANGTAG) body).cast ?_
  cases hp : pLangTag s with
  | none => rfl
  | some x =>
    obtain ⟨a, r⟩ := x
    have : s = ('@' :: a) ++ r := by
      unfold pLangTag at hp
      split at hp
      · rename_i t
        simp only at hp
        split at hp
        · cases hp
        · simp only [Option.some.injEq, Prod.mk.injEq] at hp
          obtain ⟨rfl, rfl⟩ := hp
          simp only [List.cons_append, List.append_assoc, rep_join, List.takeWhile_append_dropWhile]
      · cases hp
    show some ([Pair.mk (some GRule.LANGTAG) (textRead s r) []], r) = some ([Pair.mk (some GRule.LANGTAG) ('@' :: a) []], r)
    rw [this, textRead_append]

end Rdftk
