import Verif.Spec.NTriples
import Verif.Lemmas.Sparql
import Verif.Lemmas.Grammar

/-! Properties of the SPARQL parsers: C121 – C125. -/

namespace Rdftk

open Sparql

/-! ### C121 -/

theorem underscore_not : ¬Spec.PN_CHARS_BASE '_' ∧ ¬Spec.Digit '_' ∧
    ¬Spec.InRanges [(0xB7, 0xB7), (0x300, 0x36F), (0x203F, 0x2040)] '_' := by
  rw [← Sparql.isPnCharsBase_iff, ← Sparql.isDigit_iff, ← Sparql.isCombining_iff]
  decide

theorem isVarNameHead_iff (c : Char) :
    isVarNameHead c = true ↔ (Spec.PN_CHARS_U c ∨ Spec.Digit c) ∧ c ≠ '_' := by
  have := underscore_not
  simp only [isVarNameHead, Bool.or_eq_true, Sparql.isPnCharsBase_iff, Sparql.isDigit_iff, Spec.PN_CHARS_U]
  grind

theorem isVarNameTail_iff (c : Char) : isVarNameTail c = true ↔ Spec.VarNameChar c ∧ c ≠ '_' := by
  have := underscore_not
  simp only [isVarNameTail, Bool.or_eq_true, Sparql.isPnCharsBase_iff, Sparql.isDigit_iff, isCombining_iff, Spec.VarNameChar,
    Spec.PN_CHARS_U]
  grind

/-- Variables are read: a mark, and a name that ends where the text has no further character of names. -/
def C121_statement : Prop := ∀ m v r, (m = '?' ∨ m = '$') → Spec.VARNAME v → Spec.NotNext Spec.VarNameChar r →
  variable' (m :: v ++ r) = .ok v r true

theorem varName_iff (s v r : Str) (u : Bool) : varName s = .ok v r u ↔
    s = v ++ r ∧ Spec.VARNAME v ∧ '_' ∉ v ∧ Spec.NotNext (fun c => Spec.VarNameChar c ∧ c ≠ '_') r ∧ u = true := by
  constructor
  · intro h
    cases s with
    | nil => simp [varName, andThen, satisfy_nil] at h
    | cons c s =>
      by_cases hc : isVarNameHead c = true
      · simp only [varName, andThen, satisfy_cons, hc, if_true, mapP, many_satisfy, PRes.ok.injEq, Bool.true_or] at h
        obtain ⟨rfl, rfl, rfl⟩ := h
        have ha := takeWhile_all isVarNameTail s
        have hc' := (isVarNameHead_iff c).1 hc
        refine ⟨by simp [List.takeWhile_append_dropWhile], ⟨c, _, rfl, hc'.1, fun x hx => ((isVarNameTail_iff x).1 (ha x hx)).1⟩,
          ?_, ?_, rfl⟩
        · simp only [List.mem_cons, not_or]
          exact ⟨fun e => hc'.2 e.symm, fun hx => ((isVarNameTail_iff _).1 (ha _ hx)).2 rfl⟩
        · intro d t e hd
          exact dropWhile_stops isVarNameTail s d t e ((isVarNameTail_iff d).2 hd)
      · simp [varName, andThen, satisfy_cons, hc] at h
  · rintro ⟨rfl, ⟨c, t, rfl, hc, ht⟩, hn, hr, rfl⟩
    have hc' : isVarNameHead c = true := (isVarNameHead_iff c).2 ⟨hc, fun e => hn (by simp [e])⟩
    simp only [List.cons_append, varName, andThen, satisfy_cons, hc', if_true, mapP]
    rw [many_satisfy_append isVarNameTail t r
      (fun x hx => (isVarNameTail_iff x).2 ⟨ht x hx, fun e => hn (by rw [← e]; exact .tail _ hx)⟩)
      (fun d t' e hd => hr d t' e ((isVarNameTail_iff d).1 hd))]
    simp

theorem varName_not_mark (m : Char) (hm : m = '?' ∨ m = '$') : isVarNameHead m = false := by
  rcases hm with rfl | rfl <;> decide

/-- Just what is read as a variable: a mark that may be missing, and a name without underscores, up to the
first character that is not one of names, or an underscore. -/
theorem C121_exact (s v r : Str) (u : Bool) : variable' s = .ok v r u ↔
    (∃ m, (m = [] ∨ m = ['?'] ∨ m = ['$']) ∧ s = m ++ v ++ r) ∧ Spec.VARNAME v ∧ '_' ∉ v ∧
      Spec.NotNext (fun c => Spec.VarNameChar c ∧ c ≠ '_') r ∧ u = true := by
  cases s with
  | nil =>
    constructor
    · intro h
      simp [variable', andThen, optionalP, satisfy_nil, varName] at h
    · rintro ⟨⟨m, -, e⟩, ⟨c, t, rfl, -⟩, -⟩
      simp at e
  | cons c s =>
    by_cases hc : (c == '?' || c == '$') = true
    · have hc' : c = '?' ∨ c = '$' := by simpa using hc
      have : variable' (c :: s) = .ok v r u ↔ varName s = .ok v r true ∧ u = true := by
        simp only [variable', andThen, optionalP, satisfy_cons, hc, if_true]
        cases h : varName s with
        | ok b r' u' =>
          have := (varName_iff s b r' u').1 h
          simp [this.2.2.2.2, eq_comm, and_assoc]
        | fail => simp
        | panic => simp
      rw [this, varName_iff]
      constructor
      · rintro ⟨⟨rfl, h1, h2, h3, -⟩, h4⟩
        exact ⟨⟨[c], by grind, by simp⟩, h1, h2, h3, h4⟩
      · rintro ⟨⟨m, hm, e⟩, h1, h2, h3, h4⟩
        refine ⟨⟨?_, h1, h2, h3, rfl⟩, h4⟩
        rcases hm with rfl | rfl | rfl
        · obtain ⟨d, t, rfl, hd, -⟩ := h1
          simp only [List.nil_append, List.cons_append, List.cons.injEq] at e
          have := (isVarNameHead_iff d).2 ⟨hd, fun e' => h2 (by simp [e'])⟩
          rw [← e.1, varName_not_mark c hc'] at this
          exact absurd this (by decide)
        · simpa using (List.cons.inj e).2
        · simpa using (List.cons.inj e).2
    · have hc' : ¬(c = '?' ∨ c = '$') := by simpa using hc
      have : variable' (c :: s) = .ok v r u ↔ varName (c :: s) = .ok v r u := by
        simp only [variable', andThen, optionalP, satisfy_cons, hc]
        cases h : varName (c :: s) <;> simp [h]
      rw [this, varName_iff]
      constructor
      · rintro ⟨e, h⟩
        exact ⟨⟨[], .inl rfl, by simpa using e⟩, h⟩
      · rintro ⟨⟨m, rfl | rfl | rfl, e⟩, h⟩
        · exact ⟨by simpa using e, h⟩
        · exact absurd (.inl (List.cons.inj e).1) hc'
        · exact absurd (.inr (List.cons.inj e).1) hc'

/-- A variable of the grammar is read if there is no underscore in it, and only then. -/
theorem C121_iff (m : Char) (v r : Str) (hm : m = '?' ∨ m = '$') (hv : Spec.VARNAME v)
    (hr : Spec.NotNext Spec.VarNameChar r) : variable' (m :: v ++ r) = .ok v r true ↔ '_' ∉ v := by
  rw [C121_exact]
  constructor
  · rintro ⟨-, -, h, -⟩
    exact h
  · intro h
    exact ⟨⟨[m], by grind, by simp⟩, hv, h, fun c t e hc => hr c t e hc.1, rfl⟩

/-- `?first_name` is not. -/
theorem C121_fails : ¬C121_statement := by
  intro h
  have := (C121_iff '?' (str! "first_name") [] (.inl rfl) ?_ (by intro c t e; cases e)).1
    (h '?' _ [] (.inl rfl) ?_ (by intro c t e; cases e))
  · exact this (by decide)
  all_goals
    refine ⟨'f', (str! "first_name").tail, rfl, .inl ((Sparql.isPnCharsU_iff _).1 (by decide)), ?_⟩
    intro x hx
    refine (Classical.em (x = '_')).elim (fun e => e ▸ .inl (.inr rfl)) fun e => ((isVarNameTail_iff x).1 ?_).1
    revert x
    decide

/-- A variable with an underscore inside is cut there, and the rest of its name is left as text. -/
theorem C121_cut (m : Char) (a b r : Str) (hm : m = '?' ∨ m = '$') (ha : Spec.VARNAME a) (hn : '_' ∉ a) :
    variable' (m :: a ++ '_' :: b ++ r) = .ok a ('_' :: b ++ r) true := by
  rw [C121_exact]
  exact ⟨⟨[m], by grind, by simp⟩, ha, hn, fun c t e hc => hc.2 (List.cons.inj e).1.symm, rfl⟩

/-- Bare words are read as variables. -/
theorem C121_fails_bare : ¬∀ s v r u, variable' s = .ok v r u → ∃ m, (m = '?' ∨ m = '$') ∧ s = m :: v ++ r := by
  intro h
  obtain ⟨m, hm, e⟩ := h (str! "where") (str! "where") [] true (by decide)
  simp only [List.cons_append, List.append_nil] at e
  have := congrArg List.length e
  simp at this

/-- No text makes a `Variable`: the conversion panics on every text. -/
theorem C121_fails_from_str (s : Str) : variableFromStr s = .panic := rfl

example : variable' (str! "?x1 ") = .ok (str! "x1") (str! " ") true := by decide

/-! ### C122 -/

/-- White space is that of Unicode. -/
theorem C122_space (c : Char) : isWhitespace c = true ↔ Spec.WhiteSpace c := by
  simp only [isWhitespace, inRange, Spec.WhiteSpace, Bool.or_eq_true, Bool.and_eq_true, decide_eq_true_eq, beq_iff_eq, List.mem_cons,
    List.not_mem_nil, or_false]
  omega

/-- `IRIREF` is read just where it stands: `<`, allowed characters, `>`, and the white space after it. -/
theorem C122_iff (s t r : Str) (u : Bool) : iriRef s = .ok t r u ↔
    u = true ∧ (∀ c ∈ t, Spec.IriRefChar c) ∧ Spec.NotNext (fun c => isWhitespace c = true) r ∧
      ∃ w, (∀ c ∈ w, isWhitespace c = true) ∧ s = '<' :: t ++ '>' :: w ++ r := by
  have hgt : (fun c => !isIriReserved c) '>' = false := by decide
  constructor
  · intro h
    cases s with
    | nil => simp [iriRef, andThen, char, satisfy_nil] at h
    | cons c s =>
      by_cases hc : c = '<'
      · subst hc
        simp only [iriRef, andThen, char, satisfy_cons, beq_self_eq_true, if_true, many_satisfy, mapP, skip] at h
        have hs := List.takeWhile_append_dropWhile (p := fun c => !isIriReserved c) (l := s)
        have hall := takeWhile_all (fun c => !isIriReserved c) s
        generalize s.takeWhile (fun c => !isIriReserved c) = a at h hs hall
        generalize s.dropWhile (fun c => !isIriReserved c) = b at h hs
        cases b with
        | nil => simp [satisfy_nil] at h
        | cons d b =>
          by_cases hd : d = '>'
          · subst hd
            simp only [satisfy_cons, beq_self_eq_true, if_true, spaces_eq, PRes.ok.injEq, Bool.true_or] at h
            obtain ⟨rfl, rfl, rfl⟩ := h
            refine ⟨rfl, fun c hc => (isIriReserved_iff c).1 (by simpa using hall c hc), dropWhile_stops _ _,
              b.takeWhile isWhitespace, takeWhile_all _ _, ?_⟩
            simp [← hs, List.takeWhile_append_dropWhile]
          · simp [satisfy_cons, hd] at h
      · simp [iriRef, andThen, char, satisfy_cons, hc] at h
  · rintro ⟨rfl, ht, hr, w, hw, rfl⟩
    have : many (satisfy fun c => !isIriReserved c) (t ++ '>' :: w ++ r) = .ok t ('>' :: w ++ r) (!t.isEmpty) := by
      rw [List.append_assoc]
      refine many_satisfy_append _ t _ (fun c hc => by simp [(isIriReserved_iff c).2 (ht c hc)]) ?_
      intro c t' e
      obtain ⟨rfl, -⟩ := List.cons.inj e
      simp [hgt]
    simp [iriRef, andThen, char, satisfy_cons, mapP, skip, spaces_append w r hw hr, ← List.append_assoc, this]
    
example : iriRef (str! "<http://a/b> .") = .ok (str! "http://a/b") (str! ".") true := by decide +kernel
example : iriRef (str! "<http://a b> .") = .fail true := by decide +kernel

/-- What is in `IRIREF` determines, and is determined by, the text: two readings agree. -/
theorem C122_unique (t t' w w' r r' : Str) (ht : ∀ c ∈ t, Spec.IriRefChar c) (ht' : ∀ c ∈ t', Spec.IriRefChar c)
    (hw : ∀ c ∈ w, isWhitespace c = true) (hw' : ∀ c ∈ w', isWhitespace c = true)
    (hr : Spec.NotNext (fun c => isWhitespace c = true) r) (hr' : Spec.NotNext (fun c => isWhitespace c = true) r')
    (h : '<' :: t ++ '>' :: w ++ r = '<' :: t' ++ '>' :: w' ++ r') : t = t' ∧ r = r' := by
  have h1 := (C122_iff _ t r true).2 ⟨rfl, ht, hr, w, hw, rfl⟩
  have h2 := (C122_iff _ t' r' true).2 ⟨rfl, ht', hr', w', hw', h⟩
  rw [h1] at h2
  simp only [PRes.ok.injEq, and_true] at h2
  exact h2

/-! ### C123 -/

/-- Prefixed names are read: a prefix, a colon, a local name, and the white space after it. -/
def C123_statement : Prop := ∀ p l w r, Spec.PN_PREFIX p → Spec.PN_LOCAL_PLAIN l → w ≠ [] → (∀ c ∈ w, Spec.SparqlWs c) →
  Spec.NotNext (fun c => isWhitespace c = true) r → prefixedName (p ++ ':' :: l ++ w ++ r) = .ok () r true

/-- Whatever is read as a local name is of one character. -/
theorem C123_single (s l r : Str) (u : Bool) (h : prefixedNameLocal s = .ok l r u) : ∃ c, l = [c] := by
  simp only [prefixedNameLocal, skip, andThen, mapP, optionalP] at h
  cases h1 : orElse (satisfy fun c => Sparql.isPnCharsU c || c == ':' || isAsciiDigit c) prefixedLocalEscape s with
  | ok c r1 u1 =>
    cases h2 : prefixedNameLocalTail r1 with
    | ok l r u => exact absurd h2 (tail_never _ _ _ _)
    | fail u2 =>
      cases u2 with
      | true => simp [h1, h2] at h
      | false =>
        simp only [h1, h2] at h
        cases h3 : whitespace r1 with
        | ok a r3 u3 =>
          simp [h3] at h
          exact ⟨c, h.1.symm⟩
        | fail => simp [h3] at h
        | panic => simp [h3] at h
    | panic => simp [h1, h2] at h
  | fail => simp [h1] at h
  | panic => simp [h1] at h

theorem prefixedName_ok_iff (s r : Str) (u : Bool) :
    prefixedName s = .ok () r u ↔ ∃ p l, prefixedNameLocalName s = .ok (p, l) r u := by
  simp only [prefixedName, orElse, mapP]
  cases h : prefixedNameLocalName s with
  | ok a r' u' =>
    obtain ⟨p, l⟩ := a
    simp
  | fail u' =>
    cases u' with
    | true => simp
    | false =>
      simp only [prefixedNameLocalName, andThen, mapP] at h
      cases hn : prefixedNameNamespace s with
      | ok p r' u'' =>
        have := namespace_used _ _ _ _ hn
        subst this
        simp only [hn] at h
        cases hl : prefixedNameLocal r' <;> simp [hl] at h
      | fail => simp
      | panic => simp
  | panic => simp

theorem namespace_bracket (s r : Str) (p : Option Str) (u : Bool) : prefixedNameNamespace ('<' :: s) ≠ .ok p r u := by
  have h : Sparql.isPnCharsBase '<' = false := by decide
  simp [prefixedNameNamespace, andThen, optionalP, prefixedNamePrefix, satisfy_cons, h, mapP, skip, char]

/-- C123: an `iri` is one of the two kinds. -/
theorem C123_iri (s r : Str) (u : Bool) :
    iri s = .ok () r u ↔ (∃ t, iriRef s = .ok t r u) ∨ prefixedName s = .ok () r u := by
  cases s with
  | nil =>
    have h : iriRef [] = .fail false := rfl
    simp [iri, orElse, mapP, h]
  | cons c s =>
    by_cases hc : c = '<'
    · subst hc
      have hp : prefixedName ('<' :: s) ≠ .ok () r u := fun h => by
        obtain ⟨p, l, h⟩ := (prefixedName_ok_iff _ _ _).1 h
        unfold prefixedNameLocalName andThen at h
        cases hn : prefixedNameNamespace ('<' :: s) with
        | ok p r u => exact absurd hn (namespace_bracket s r p u)
        | fail u => simp [hn] at h
        | panic => simp [hn] at h
      have hf : iriRef ('<' :: s) ≠ .fail false := by
        simp only [iriRef, andThen, char, satisfy_cons, beq_self_eq_true, if_true]
        split <;> simp_all
      unfold iri orElse mapP
      cases h : iriRef ('<' :: s) with
      | ok t r' u' => simp [hp]
      | fail u' =>
        cases u' with
        | false => exact absurd h hf
        | true => simp [hp]
      | panic => simp [hp]
    · have h : iriRef (c :: s) = .fail false := by simp [iriRef, andThen, char, satisfy_cons, hc]
      simp [iri, orElse, mapP, h]


theorem ws_stops (w r : Str) (hw : w ≠ []) (hws : ∀ c ∈ w, Spec.SparqlWs c) :
    prefixedNameLocalTail (w ++ r) = .fail false := by
  obtain ⟨c, w, rfl⟩ : ∃ c w', w = c :: w' := by
    cases w with
    | nil => exact absurd rfl hw
    | cons c w => exact ⟨c, w, rfl⟩
  have hc : Spec.SparqlWs c := hws c List.mem_cons_self
  simp only [Spec.SparqlWs, List.mem_cons, List.not_mem_nil, or_false] at hc
  rcases hc with rfl | rfl | rfl | rfl <;>
    simp [prefixedNameLocalTail, andThen, many, manyUpTo, orElse, satisfy_cons, mapP, prefixedLocalEscape, percentEscape, char,
      prefixedNameLocalEscape, show ∀ c ∈ [' ', '\t', '\r', '\n'], Sparql.isPnCharsU c = false by decide]

/-- White space between the colon and a local name of one character makes no difference. -/
theorem prefixedName_one (p g : Str) (c : Char) (w r : Str) (hp : Spec.PN_PREFIX p) (hg : ∀ c ∈ g, Spec.SparqlWs c)
    (hc : Spec.PN_CHARS_U c ∨ Spec.Digit c) (h16 : c ≠ Char.ofNat 0x1680) (hw : w ≠ []) (hws : ∀ c ∈ w, Spec.SparqlWs c)
    (hr : Spec.NotNext (fun c => isWhitespace c = true) r) :
    prefixedNameLocalName (p ++ ':' :: g ++ (c :: w ++ r)) = .ok (some p, [c]) r true := by
  have h1 := namespace_ok p g (c :: w ++ r) hp (fun c hc => ws_isWhitespace c (hg c hc)) (by
    intro d t e hd
    rw [← (List.cons.inj e).1] at hd
    exact h16 (whitespace_name c hd (.inl (by rcases hc with h | h; exact .inl h; exact .inr (.inr (.inl h))))))
  have hfirst : (Sparql.isPnCharsU c || c == ':' || isAsciiDigit c) = true := by
    rcases hc with h | h
    · simp [(Sparql.isPnCharsU_iff c).2 h]
    · simp [(isDigit_iff c).2 h]
  have hwhite : whitespace (w ++ r) = .ok () r true := by
    have hall : ∀ c ∈ w, isWhitespace c = true := fun c hc => ws_isWhitespace c (hws c hc)
    rw [whitespace_eq, takeWhile_append_stop _ w r hall hr, dropWhile_append_stop _ w r hall hr, if_neg hw]
  have h2 : prefixedNameLocal (c :: w ++ r) = .ok [c] r true := by
    simp only [prefixedNameLocal, skip, andThen, mapP, optionalP, orElse, List.cons_append, satisfy_cons, hfirst, if_true,
      ws_stops w r hw hws, hwhite]
    simp
  simp only [prefixedNameLocalName, andThen, h1, mapP, h2]
  simp

/-- A prefixed name of the grammar is read if its local name is a single character, and only then. -/
theorem C123_iff (p l w r : Str) (hp : Spec.PN_PREFIX p) (hl : Spec.PN_LOCAL_PLAIN l) (h16 : l.head? ≠ some (Char.ofNat 0x1680))
    (hw : w ≠ []) (hws : ∀ c ∈ w, Spec.SparqlWs c) (hr : Spec.NotNext (fun c => isWhitespace c = true) r) :
    prefixedName (p ++ ':' :: l ++ w ++ r) = .ok () r true ↔ l.length = 1 := by
  obtain ⟨c, t, rfl, hc, ht⟩ := local_shape l hl
  have h16' : c ≠ Char.ofNat 0x1680 := by simpa using h16
  rw [prefixedName_ok_iff]
  constructor
  · rintro ⟨p', l', h⟩
    cases t with
    | nil => rfl
    | cons d t =>
      exfalso
      have e : p ++ ':' :: (c :: d :: t) ++ w ++ r = p ++ ':' :: [] ++ (c :: d :: (t ++ w ++ r)) := by simp
      rw [e] at h
      generalize t ++ w ++ r = x at h
      have h1 := namespace_ok p [] (c :: d :: x) hp (by simp) (by
        intro d t e hd
        rw [← (List.cons.inj e).1] at hd
        exact h16' (whitespace_name c hd (.inl (by rcases hc with h | h; exact .inl h; exact .inr (.inr (.inl h))))))
      simp only [prefixedNameLocalName, andThen, h1, mapP] at h
      have hfirst : (Sparql.isPnCharsU c || c == ':' || isAsciiDigit c) = true := by
        rcases hc with h | h
        · simp [(Sparql.isPnCharsU_iff c).2 h]
        · simp [(isDigit_iff c).2 h]
      simp only [prefixedNameLocal, skip, andThen, mapP, optionalP, orElse, satisfy_cons, hfirst, if_true] at h
      cases h2 : prefixedNameLocalTail (d :: x) with
      | ok l r u => exact absurd h2 (tail_never _ _ _ _)
      | fail u2 =>
        cases u2 with
        | true => simp [h2] at h
        | false =>
          have hd : isWhitespace d = true := by
            cases hd : isWhitespace d with
            | true => rfl
            | false => simp [h2, whitespace_eq, hd] at h
          have hd' := whitespace_name d hd (by rcases ht d List.mem_cons_self with h | h; exact .inl h; exact .inr (.inl h))
          subst hd'
          have hm := manyUpTo_used (orElse (satisfy fun c => Sparql.isPnCharsU c || c == '.' || c == ':') prefixedLocalEscape)
            (Char.ofNat 0x1680 :: x).length (Char.ofNat 0x1680 :: x) (Char.ofNat 0x1680) x (by
              simp [orElse, satisfy_cons, show Sparql.isPnCharsU (Char.ofNat 0x1680) = true by decide])
          simp only [prefixedNameLocalTail, andThen, many, mapP] at h2
          rcases hm with ⟨l1, r1, hm⟩ | hm | hm
          · rw [hm] at h2
            simp only at h2
            cases h3 : orElse (satisfy fun c => Sparql.isPnCharsU c || c == ':') prefixedLocalEscape r1 <;> simp [h3] at h2
          · rw [hm] at h2
            simp at h2
          · rw [hm] at h2
            simp at h2
      | panic => simp [h2] at h
  · intro h
    obtain rfl : t = [] := by simpa using h
    refine ⟨some p, [c], ?_⟩
    have := prefixedName_one p [] c w r hp (by simp) hc h16' hw hws hr
    simpa using this

/-- `ex:ab` is not read. -/
theorem C123_fails : ¬C123_statement := by
  intro h
  have hp : Spec.PN_PREFIX (str! "ex") := ⟨'e', (Sparql.isPnCharsBase_iff _).1 (by decide),
    .inr ⟨[], 'x', rfl, by simp, (Sparql.isPnChars_iff _).1 (by decide)⟩⟩
  have hl : Spec.PN_LOCAL_PLAIN (str! "ab") := ⟨'a', .inl ((Sparql.isPnCharsU_iff _).1 (by decide)),
    .inr ⟨[], 'b', rfl, by simp, (Sparql.isPnChars_iff _).1 (by decide)⟩⟩
  have hr : Spec.NotNext (fun c => isWhitespace c = true) [] := by intro c t e; cases e
  have hw : ∀ c ∈ [' '], Spec.SparqlWs c := by simp [Spec.SparqlWs]
  have := (C123_iff _ _ [' '] [] hp hl (by decide) (by simp) hw hr).1 (h _ _ [' '] [] hp hl (by simp) hw hr)
  exact absurd this (by decide)

example : prefixedName (str! "ex:a ") = .ok () [] true := by decide +kernel
example : prefixedName (str! "ex:ab ") = .fail true := by decide +kernel

/-- A local name at the end of the text, or with no white space after it, is not read. -/
theorem C123_fails_end (p : Str) (c : Char) (r : Str) (hp : Spec.PN_PREFIX p) (hc : Spec.PN_CHARS_U c ∨ Spec.Digit c)
    (h16 : c ≠ Char.ofNat 0x1680) (hr : Spec.NotNext (fun c => isWhitespace c = true) r) (r' : Str) (u : Bool) :
    prefixedName (p ++ ':' :: c :: r) ≠ .ok () r' u := by
  rw [ne_eq, prefixedName_ok_iff]
  rintro ⟨p', l', h⟩
  have h1 := namespace_ok p [] (c :: r) hp (by simp) (by
    intro d t e hd
    rw [← (List.cons.inj e).1] at hd
    exact h16 (whitespace_name c hd (.inl (by rcases hc with h | h; exact .inl h; exact .inr (.inr (.inl h))))))
  have e : p ++ ':' :: c :: r = p ++ ':' :: [] ++ (c :: r) := by simp
  rw [e] at h
  have hfirst : (Sparql.isPnCharsU c || c == ':' || isAsciiDigit c) = true := by
    rcases hc with h | h
    · simp [(Sparql.isPnCharsU_iff c).2 h]
    · simp [(isDigit_iff c).2 h]
  simp only [prefixedNameLocalName, andThen, h1, mapP, prefixedNameLocal, skip, optionalP, orElse, satisfy_cons, hfirst, if_true] at h
  have hw : whitespace r = .fail false := by
    rw [whitespace_eq, if_pos]
    cases r with
    | nil => rfl
    | cons d r => simp [hr d r rfl]
  cases h2 : prefixedNameLocalTail r with
  | ok l r u => exact absurd h2 (tail_never _ _ _ _)
  | fail u2 => cases u2 <;> simp [h2, hw] at h
  | panic => simp [h2] at h

/-- `PNAME_NS` on its own, a prefix and a colon, is not read as a prefixed name: the first choice has used
it up, so the second is not tried. -/
theorem C123_fails_namespace (p w r : Str) (hp : Spec.PN_PREFIX p) (hw : ∀ c ∈ w, isWhitespace c = true)
    (hr : Spec.NotNext (fun c => isWhitespace c = true ∨ Spec.PN_CHARS_U c ∨ Spec.Digit c ∨ c ∈ str! ":%\\") r) :
    prefixedName (p ++ ':' :: w ++ r) = .fail true := by
  have h1 := namespace_ok p w r hp hw (fun c t e h => hr c t e (.inl h))
  have h2 : prefixedNameLocal r = .fail false := by
    cases r with
    | nil => rfl
    | cons c r =>
      have := hr c r rfl
      simp only [not_or, List.mem_cons, List.not_mem_nil, not_false_eq_true, and_true, String.toList, List.map] at this
      obtain ⟨-, h1, h2, h3⟩ := this
      have e1 : Sparql.isPnCharsU c = false := by simpa [← Sparql.isPnCharsU_iff] using h1
      have e2 : isAsciiDigit c = false := by simpa [← isDigit_iff] using h2
      have h3 : c ≠ ':' ∧ c ≠ '%' ∧ c ≠ '\\' := by simpa using h3
      simp [prefixedNameLocal, skip, andThen, orElse, satisfy_cons, e1, e2, h3.1, h3.2.1, h3.2.2, prefixedLocalEscape, percentEscape,
        char, prefixedNameLocalEscape]
  simp only [prefixedName, orElse, mapP, prefixedNameLocalName, andThen, h1, h2]
  simp

/-- White space after the colon is skipped: `ex: a` is read as a prefixed name. -/
theorem C123_fails_space : ¬∀ s r u, prefixedName s = .ok () r u →
    ∃ p l w, Spec.PNAME_NS p ∧ (∀ c ∈ l, isWhitespace c = false) ∧ l ≠ [] ∧ (∀ c ∈ w, isWhitespace c = true) ∧ s = p ++ l ++ w ++ r := by
  intro h
  obtain ⟨p, l, w, hp, hl, hl0, hw, e⟩ := h (str! "ex: a ") [] true (by decide +kernel)
  rw [List.append_nil] at e
  have hcol : ∃ q, p = q ++ [':'] ∧ ':' ∉ q := by
    rcases hp with rfl | ⟨q, hq, rfl⟩
    · exact ⟨[], rfl, by simp⟩
    · refine ⟨q, rfl, fun hm => ?_⟩
      obtain ⟨c, t, rfl, hc, ht⟩ := prefix_shape q hq
      rcases List.mem_cons.1 hm with rfl | hm
      · exact absurd ((Sparql.isPnCharsBase_iff ':').2 hc) (by decide)
      · exact colon_not_name (ht _ hm)
  obtain ⟨q, rfl, hq⟩ := hcol
  have h1 : (str! "ex: a ").takeWhile (· != ':') = q := by
    rw [e, List.append_assoc, List.append_assoc]
    exact takeWhile_append_stop _ q _ (by intro c hc; simp; rintro rfl; exact hq hc) (by
      intro c t e'
      rw [← (List.cons.inj e').1]
      simp)
  subst h1
  cases l with
  | nil => exact hl0 rfl
  | cons d l =>
    have h2 : (str! "ex: a ").takeWhile (· != ':') = str! "ex" := by decide
    rw [h2] at e
    have : d = ' ' := by
      simp only [List.cons_append, List.nil_append, List.cons.injEq] at e
      exact e.2.2.2.1.symm
    subst this
    exact absurd (hl ' ' List.mem_cons_self) (by decide)

theorem hexValue_digit (a : Char) (x : Nat) (h : Spec.sparqlHex a = some x) :
    isHexDigit a = true ∧ (isAsciiDigit a = true ↔ x < 10) ∧ (x < 10 → a.toNat - 0x30 = x) ∧ x < 16 := by
  simp only [Spec.sparqlHex] at h
  simp only [isHexDigit, isAsciiDigit, inRange, Bool.or_eq_true, Bool.and_eq_true, decide_eq_true_eq]
  split at h
  · cases h; omega
  · split at h
    · cases h; omega
    · split at h
      · cases h; omega
      · cases h

theorem percentEscape_eq (a b : Char) (x y : Nat) (r : Str) (ha : Spec.sparqlHex a = some x) (hb : Spec.sparqlHex b = some y) :
    percentEscape ('%' :: a :: b :: r) = if x < 10 ∧ y < 10 then .ok (Char.ofNat (10 * x + y)) r true else .panic := by
  obtain ⟨ha1, ha2, ha3, -⟩ := hexValue_digit a x ha
  obtain ⟨hb1, hb2, hb3, -⟩ := hexValue_digit b y hb
  have h : andThen (char '%') (fun _ => manyUpTo (satisfy isHexDigit) 2) ('%' :: a :: b :: r) = .ok [a, b] r true := by
    simp [andThen, char, satisfy_cons, manyUpTo, ha1, hb1]
  simp only [percentEscape, h, parseDecimal]
  by_cases hx : x < 10 <;> by_cases hy : y < 10
  · simp [ha2.2 hx, hb2.2 hy, hx, hy, ha3 hx, hb3 hy]
  · have : isAsciiDigit b = false := by simpa using mt hb2.1 hy
    simp [this, hy]
  · have : isAsciiDigit a = false := by simpa using mt ha2.1 hx
    simp [this, hx]
  · have : isAsciiDigit a = false := by simpa using mt ha2.1 hx
    simp [this, hx]

/-- A percent escape of two digits is the character with that number in base sixteen if the first digit
is `0` and the second is below ten, and only then. -/
theorem C123_percent_iff (a b : Char) (x y : Nat) (r : Str) (ha : Spec.sparqlHex a = some x) (hb : Spec.sparqlHex b = some y) :
    percentEscape ('%' :: a :: b :: r) = .ok (Char.ofNat (16 * x + y)) r true ↔ x = 0 ∧ y < 10 := by
  rw [percentEscape_eq a b x y r ha hb]
  have hx := (hexValue_digit a x ha).2.2.2
  have hy := (hexValue_digit b y hb).2.2.2
  by_cases h : x < 10 ∧ y < 10
  · have hv : ∀ n, n < 0x1000 → (Char.ofNat n).toNat = n := by
      intro n hn
      have : n.isValidChar := Or.inl (by omega)
      simp [Char.ofNat, this, Char.toNat, Char.ofNatAux]
    rw [if_pos h]
    constructor
    · intro e
      have e := (PRes.ok.inj e).1
      have := congrArg Char.toNat e
      rw [hv _ (by omega), hv _ (by omega)] at this
      omega
    · rintro ⟨rfl, -⟩
      simp
  · rw [if_neg h]
    constructor
    · intro e
      cases e
    · rintro ⟨rfl, h'⟩
      exact absurd ⟨by omega, h'⟩ h

/-- With a letter among the two digits the parser panics. -/
theorem C123_fails_percent (a b : Char) (x y : Nat) (r : Str) (ha : Spec.sparqlHex a = some x) (hb : Spec.sparqlHex b = some y) :
    percentEscape ('%' :: a :: b :: r) = .panic ↔ 10 ≤ x ∨ 10 ≤ y := by
  rw [percentEscape_eq a b x y r ha hb]
  by_cases h : x < 10 ∧ y < 10
  · rw [if_pos h]
    constructor
    · intro e
      cases e
    · omega
  · rw [if_neg h]
    exact ⟨fun _ => by omega, fun _ => rfl⟩

example : percentEscape (str! "%41") = .ok ')' [] true := by decide +kernel
example : percentEscape (str! "%4A") = .panic := by decide +kernel

theorem sparqlHexDigit_iff (c : Char) : isHexDigit c = true ↔ Spec.Hex c := by
  constructor
  · intro h
    simp only [isHexDigit, isAsciiDigit, inRange, Bool.or_eq_true, Bool.and_eq_true, decide_eq_true_eq] at h
    have key : ∀ n < 128, (0x30 ≤ n ∧ n ≤ 0x39) ∨ (0x41 ≤ n ∧ n ≤ 0x46) ∨ (0x61 ≤ n ∧ n ≤ 0x66) →
        (Spec.hexDigitValue (Char.ofNat n)).isSome = true := by decide +kernel
    have := key c.toNat (by omega) (by omega)
    rwa [Char.ofNat_toNat] at this
  · intro h
    have h : c ∈ str! "0123456789abcdef" ∨ c ∈ str! "0123456789ABCDEF" := by
      simpa only [Spec.Hex, Spec.hexDigitValue, Option.isSome_or, Bool.or_eq_true, List.isSome_idxOf?] using h
    have : ∀ c ∈ (str! "0123456789abcdef") ++ (str! "0123456789ABCDEF"), isHexDigit c = true := by decide
    exact this c (List.mem_append.2 h)

/-- Escapes with a backslash are those of the grammar. -/
theorem C123_escape (s r : Str) (c : Char) (u : Bool) :
    prefixedNameLocalEscape s = .ok c r u ↔ u = true ∧ Spec.LocalEscape c ∧ s = '\\' :: c :: r := by
  have hc : ∀ c, isLocalEscape c = true ↔ Spec.LocalEscape c := by
    intro c
    simp only [isLocalEscape, Spec.LocalEscape, List.contains_iff_mem]
  unfold prefixedNameLocalEscape andThen char
  cases s with
  | nil => simp [satisfy]
  | cons b s =>
    by_cases hb : b = '\\'
    · subst hb
      cases s with
      | nil => simp [satisfy]
      | cons e s =>
        cases h : isLocalEscape e with
        | true =>
          have := (hc e).1 h
          simp [satisfy, h]
          grind
        | false =>
          have : ¬Spec.LocalEscape e := fun x => by rw [← hc, h] at x; cases x
          simp [satisfy, h]
          grind
    · simp [satisfy, hb]

/-- A percent sign with one hexadecimal digit or none after it, which is no escape of the grammar, is read or makes the
parser panic. -/
theorem C123_percent_short (s : Str) (hs : Spec.NotNext Spec.Hex s) :
    percentEscape ('%' :: s) = .panic ∧
    ∀ a, Spec.Hex a → percentEscape ('%' :: a :: s) = if isAsciiDigit a then .ok (Char.ofNat (a.toNat - 0x30)) s true else .panic := by
  have hn : satisfy isHexDigit s = .fail false := by
    cases s with
    | nil => rfl
    | cons c s =>
      have : isHexDigit c = false := by
        cases e : isHexDigit c with
        | false => rfl
        | true => exact absurd ((sparqlHexDigit_iff c).1 e) (hs c s rfl)
      simp [satisfy_cons, this]
  refine ⟨?_, fun a ha => ?_⟩
  · simp [percentEscape, andThen, char, satisfy_cons, manyUpTo, hn, parseDecimal]
  · simp only [percentEscape, andThen, char, satisfy_cons, manyUpTo, (sparqlHexDigit_iff a).2 ha, hn, beq_self_eq_true, if_true, parseDecimal,
      List.all_cons, List.all_nil, Bool.and_true, reduceCtorEq, if_false]
    cases hd : isAsciiDigit a <;> simp

/-! ### C124 -/

/-- Letters and digits are neither white space nor the characters that may follow a keyword at once. -/
def AlnumOk (alnum : Char → Bool) : Prop := ∀ c, alnum c = true → ¬Spec.SparqlWs c ∧ c ≠ ':' ∧ c ≠ '<' ∧ c ≠ '#'

/-- The text that follows the prologue: no white space, and no further declaration. -/
def AfterPrologue (r : Str) : Prop := Spec.NotNext (fun c => isWhitespace c = true) r ∧
  ∀ k r', Spec.Keyword (str! "BASE") k ∨ Spec.Keyword (str! "PREFIX") k → r ≠ k ++ r'

/-- A prologue of the grammar is used up, and no more. -/
def C124_statement : Prop := ∀ alnum, AlnumOk alnum → ∀ t r, Spec.Prologue t → AfterPrologue r →
  ∃ u, prologue alnum (t ++ r) = .ok () r u

theorem notNext_cons {p : Char → Prop} {c : Char} {s : Str} (h : ¬p c) : Spec.NotNext p (c :: s) := by
  intro d t e
  rw [← (List.cons.inj e).1]
  exact h

theorem notNext_ws (alnum : Char → Bool) (h : AlnumOk alnum) (g s : Str) (hg : ∀ c ∈ g, Spec.SparqlWs c)
    (hs : g = [] → Spec.NotNext (fun c => alnum c = true) s) : Spec.NotNext (fun c => alnum c = true) (g ++ s) := by
  cases g with
  | nil => exact hs rfl
  | cons c g =>
    intro d t e hd
    rw [← (List.cons.inj e).1] at hd
    exact (h c hd).1 (hg c List.mem_cons_self)

theorem ws_all {g : Str} (h : ∀ c ∈ g, Spec.SparqlWs c) : ∀ c ∈ g, isWhitespace c = true :=
  fun c hc => ws_isWhitespace c (h c hc)

theorem iriRef_spaces (i g r : Str) (hi : ∀ c ∈ i, Spec.IriRefChar c) (hg : ∀ c ∈ g, Spec.SparqlWs c)
    (hr : Spec.NotNext (fun c => isWhitespace c = true) r) :
    skip iriRef spaces ('<' :: i ++ '>' :: g ++ r) = .ok i r true := by
  have h := (C122_iff ('<' :: i ++ '>' :: g ++ r) i r true).2 ⟨rfl, hi, hr, g, ws_all hg, rfl⟩
  simp only [skip, andThen, h, mapP, spaces_none r hr]
  simp

/-- `BASE`, white space and an `IRIREF` are read as a declaration of the base, with its IRI. -/
theorem C124_base (alnum : Char → Bool) (ha : AlnumOk alnum) (k g i g' r : Str) (hk : Spec.Keyword (str! "BASE") k) (hg0 : g ≠ [])
    (hg : ∀ c ∈ g, Spec.SparqlWs c) (hi : ∀ c ∈ i, Spec.IriRefChar c) (hg' : ∀ c ∈ g', Spec.SparqlWs c)
    (hr : Spec.NotNext (fun c => isWhitespace c = true) r) :
    baseDecl alnum (k ++ g ++ '<' :: i ++ '>' :: g' ++ r) = .ok i r true := by
  have e : k ++ g ++ '<' :: i ++ '>' :: g' ++ r = k ++ (g ++ ('<' :: i ++ '>' :: g' ++ r)) := by simp
  have h1 := keyword_ok alnum (str! "base") k (g ++ ('<' :: i ++ '>' :: g' ++ r)) ((match_base k).2 hk)
    (notNext_ws alnum ha g _ hg fun h => absurd h hg0)
  have hlt : Spec.NotNext (fun c => isWhitespace c = true) ('<' :: i ++ '>' :: g' ++ r) :=
    notNext_cons (by decide)
  have h2 : many1 space (g ++ ('<' :: i ++ '>' :: g' ++ r)) = .ok g ('<' :: i ++ '>' :: g' ++ r) true := by
    have := many1_satisfy isWhitespace (g ++ ('<' :: i ++ '>' :: g' ++ r))
    rw [takeWhile_append_stop _ _ _ (ws_all hg) hlt, dropWhile_append_stop _ _ _ (ws_all hg) hlt, if_neg hg0] at this
    exact this
  rw [e]
  simp only [baseDecl, andThen, skip, h1, mapP, h2]
  have h3 := iriRef_spaces i g' r hi hg' hr
  simp only [skip, andThen, mapP] at h3
  rw [h3]
  simp

/-- `PREFIX`, a prefix, a colon and an `IRIREF` are read as a declaration of the prefix, with its IRI. -/
theorem C124_prefix (alnum : Char → Bool) (ha : AlnumOk alnum) (k g p g1 i g' r : Str) (hk : Spec.Keyword (str! "PREFIX") k)
    (hg0 : g ≠ []) (hg : ∀ c ∈ g, Spec.SparqlWs c) (hp : Spec.PN_PREFIX p) (h16 : p.head? ≠ some (Char.ofNat 0x1680))
    (hg1 : ∀ c ∈ g1, Spec.SparqlWs c) (hi : ∀ c ∈ i, Spec.IriRefChar c) (hg' : ∀ c ∈ g', Spec.SparqlWs c)
    (hr : Spec.NotNext (fun c => isWhitespace c = true) r) :
    prefixDecl alnum (k ++ g ++ p ++ ':' :: g1 ++ '<' :: i ++ '>' :: g' ++ r) = .ok (some p, i) r true := by
  have e : k ++ g ++ p ++ ':' :: g1 ++ '<' :: i ++ '>' :: g' ++ r =
    k ++ (g ++ (p ++ ':' :: g1 ++ ('<' :: i ++ '>' :: g' ++ r))) := by simp
  have h1 := keyword_ok alnum (str! "prefix") k (g ++ (p ++ ':' :: g1 ++ ('<' :: i ++ '>' :: g' ++ r))) ((match_prefix k).2 hk)
    (notNext_ws alnum ha g _ hg fun h => absurd h hg0)
  have h2 : spaces (g ++ (p ++ ':' :: g1 ++ ('<' :: i ++ '>' :: g' ++ r))) = _ := spaces_append g _ (ws_all hg) (by
    obtain ⟨c, t, rfl, hc, ht⟩ := prefix_shape p hp
    refine notNext_cons fun hw => h16 ?_
    simpa using whitespace_name c hw (.inl (.inl (.inl hc))))
  have h3 := namespace_ok p g1 ('<' :: i ++ '>' :: g' ++ r) hp (ws_all hg1) (notNext_cons (by decide))
  have h4 := iriRef_spaces i g' r hi hg' hr
  rw [e]
  simp only [skip, andThen, mapP] at h4
  simp only [prefixDecl, andThen, skip, h1, mapP, h2, h3, h4]
  simp

/-- The same without a prefix before the colon. -/
theorem C124_no_prefix (alnum : Char → Bool) (ha : AlnumOk alnum) (k g g1 i g' r : Str) (hk : Spec.Keyword (str! "PREFIX") k)
    (hg : ∀ c ∈ g, Spec.SparqlWs c) (hg1 : ∀ c ∈ g1, Spec.SparqlWs c) (hi : ∀ c ∈ i, Spec.IriRefChar c)
    (hg' : ∀ c ∈ g', Spec.SparqlWs c) (hr : Spec.NotNext (fun c => isWhitespace c = true) r) :
    prefixDecl alnum (k ++ g ++ ':' :: g1 ++ '<' :: i ++ '>' :: g' ++ r) = .ok (none, i) r true := by
  have e : k ++ g ++ ':' :: g1 ++ '<' :: i ++ '>' :: g' ++ r =
    k ++ (g ++ (':' :: g1 ++ ('<' :: i ++ '>' :: g' ++ r))) := by simp
  have h1 := keyword_ok alnum (str! "prefix") k (g ++ (':' :: g1 ++ ('<' :: i ++ '>' :: g' ++ r))) ((match_prefix k).2 hk)
    (notNext_ws alnum ha g _ hg fun _ => notNext_cons fun h => (ha _ h).2.1 rfl)
  have h2 : spaces (g ++ (':' :: g1 ++ ('<' :: i ++ '>' :: g' ++ r))) = _ :=
    spaces_append g _ (ws_all hg) (notNext_cons (by decide))
  have h3 := namespace_none g1 ('<' :: i ++ '>' :: g' ++ r) (ws_all hg1) (notNext_cons (by decide))
  have h4 := iriRef_spaces i g' r hi hg' hr
  rw [e]
  simp only [skip, andThen, mapP] at h4
  simp only [prefixDecl, andThen, skip, h1, mapP, h2, h3, h4]
  simp

/-- One declaration, of either kind. -/
def decl (alnum : Char → Bool) : P Unit :=
  orElse (mapP (fun _ => ()) (baseDecl alnum)) (mapP (fun _ => ()) (prefixDecl alnum))

theorem keyword_apart (k : Str) (s : Str) (h : Spec.Keyword (str! "PREFIX") k) (alnum : Char → Bool) :
    keyword alnum (str! "base") (k ++ s) = .fail false := by
  refine keyword_fail _ _ _ fun r u hk => ?_
  obtain ⟨⟨t, e, hm⟩, -⟩ := (keyword_iff _ _ _ _ _).1 hk
  have hm := (match_base t).1 hm
  cases k with
  | nil => exact h
  | cons c k =>
    cases t with
    | nil => exact hm
    | cons d t =>
      obtain rfl := (List.cons.inj e).1
      have h1 := hm.1
      have h2 := h.1
      have : 'B'.toNat = 66 := rfl
      have : 'P'.toNat = 80 := rfl
      rcases h1 with rfl | ⟨-, -, h1⟩
      · rcases h2 with h2 | ⟨-, -, h2⟩
        · exact absurd h2 (by decide)
        · omega
      · rcases h2 with rfl | ⟨-, -, h2⟩
        · omega
        · omega

theorem decl_plain (alnum : Char → Bool) (ha : AlnumOk alnum) (d r : Str) (hd : Spec.PlainDeclaration d)
    (hr : Spec.NotNext (fun c => isWhitespace c = true) r) : decl alnum (d ++ r) = .ok () r true := by
  have hb : ∀ k s, Spec.Keyword (str! "PREFIX") k → baseDecl alnum (k ++ s) = .fail false := by
    intro k s hk
    simp [baseDecl, andThen, skip, keyword_apart k s hk alnum]
  cases hd with
  | base hk hg0 hg hi hg' =>
    have := C124_base alnum ha _ _ _ _ r hk hg0 hg hi hg' hr
    simp only [decl, orElse, mapP, this]
  | @noPrefix k g g1 i g' hk hg hg1 hi hg' =>
    have := C124_no_prefix alnum ha _ _ _ _ _ r hk hg hg1 hi hg' hr
    have hb := hb k (g ++ ':' :: g1 ++ '<' :: i ++ '>' :: g' ++ r) hk
    rw [show k ++ (g ++ ':' :: g1 ++ '<' :: i ++ '>' :: g' ++ r) = k ++ g ++ ':' :: g1 ++ '<' :: i ++ '>' :: g' ++ r by simp] at hb
    simp only [decl, orElse, mapP, this, hb]
  | @named k g p g1 i g' hk hg0 hg hp h16 hg1 hi hg' =>
    have := C124_prefix alnum ha _ _ _ _ _ _ r hk hg0 hg hp h16 hg1 hi hg' hr
    have hb := hb k (g ++ p ++ ':' :: g1 ++ '<' :: i ++ '>' :: g' ++ r) hk
    rw [show k ++ (g ++ p ++ ':' :: g1 ++ '<' :: i ++ '>' :: g' ++ r) = k ++ g ++ p ++ ':' :: g1 ++ '<' :: i ++ '>' :: g' ++ r by
      simp] at hb
    simp only [decl, orElse, mapP, this, hb]

theorem decl_stop (alnum : Char → Bool) (r : Str) (hr : AfterPrologue r) : decl alnum r = .fail false := by
  have h1 : keyword alnum (str! "base") r = .fail false := by
    refine keyword_fail _ _ _ fun r' u hk => ?_
    obtain ⟨⟨t, e, hm⟩, -⟩ := (keyword_iff _ _ _ _ _).1 hk
    exact hr.2 t r' (.inl ((match_base t).1 hm)) e
  have h2 : keyword alnum (str! "prefix") r = .fail false := by
    refine keyword_fail _ _ _ fun r' u hk => ?_
    obtain ⟨⟨t, e, hm⟩, -⟩ := (keyword_iff _ _ _ _ _).1 hk
    exact hr.2 t r' (.inr ((match_prefix t).1 hm)) e
  simp [decl, orElse, mapP, baseDecl, prefixDecl, andThen, skip, h1, h2]

theorem keyword_nonempty {n k : Str} (h : Spec.Keyword n k) (hn : n ≠ []) :
    ∃ c t, k = c :: t := by
  cases k with
  | nil =>
    cases n with
    | nil => exact absurd rfl hn
    | cons => exact h.elim
  | cons c t => exact ⟨c, t, rfl⟩

theorem keyword_head {n c : Char} {ns t : Str} (h : Spec.Keyword (n :: ns) (c :: t)) (hn : Spec.AsciiLetter n) : Spec.AsciiLetter c := by
  rcases h.1 with rfl | ⟨-, h, -⟩
  · exact hn
  · exact h

theorem alpha_not_ws (c : Char) (h : Spec.AsciiLetter c) : ¬isWhitespace c = true := by
  simp only [Spec.AsciiLetter, Spec.InRanges, List.mem_cons, List.not_mem_nil, or_false, exists_eq_or_imp, exists_eq_left] at h
  simp only [isWhitespace, inRange, Bool.or_eq_true, Bool.and_eq_true, decide_eq_true_eq, beq_iff_eq]
  omega

theorem plain_head (d : Str) (h : Spec.PlainDeclaration d) : ∃ c t, d = c :: t ∧ Spec.AsciiLetter c := by
  have hB : Spec.AsciiLetter 'B' := (isAsciiAlpha_iff _).1 (by decide)
  have hP : Spec.AsciiLetter 'P' := (isAsciiAlpha_iff _).1 (by decide)
  cases h with
  | base hk =>
    obtain ⟨c, t, rfl⟩ := keyword_nonempty hk (by decide)
    exact ⟨c, _, rfl, keyword_head hk hB⟩
  | noPrefix hk =>
    obtain ⟨c, t, rfl⟩ := keyword_nonempty hk (by decide)
    exact ⟨c, _, rfl, keyword_head hk hP⟩
  | named hk =>
    obtain ⟨c, t, rfl⟩ := keyword_nonempty hk (by decide)
    exact ⟨c, _, rfl, keyword_head hk hP⟩

theorem plain_notNext (t r : Str) (h : Spec.PlainPrologue t) (hr : AfterPrologue r) :
    Spec.NotNext (fun c => isWhitespace c = true) (t ++ r) := by
  cases h with
  | nil => exact hr.1
  | cons hd _ =>
    obtain ⟨c, d, rfl, hc⟩ := plain_head _ hd
    exact notNext_cons (alpha_not_ws c hc)

/-- A prologue without comments, with white space after each `BASE`, and without prefixes that begin with U+1680,
is used up, and no more, whatever the number of its declarations. -/
theorem C124_partial (alnum : Char → Bool) (ha : AlnumOk alnum) (t r : Str) (ht : Spec.PlainPrologue t) (hr : AfterPrologue r) :
    prologue alnum (t ++ r) = .ok () r (!t.isEmpty) := by
  have : ∀ n, (t ++ r).length < n → ∃ l, manyUpTo (decl alnum) n (t ++ r) = .ok l r (!t.isEmpty) := by
    induction ht with
    | nil =>
      intro n hn
      obtain ⟨n, rfl⟩ : ∃ m, n = m + 1 := ⟨n - 1, by omega⟩
      exact ⟨[], by simp [manyUpTo, decl_stop alnum r hr]⟩
    | @cons d s hd hs ih =>
      intro n hn
      obtain ⟨n, rfl⟩ : ∃ m, n = m + 1 := ⟨n - 1, by omega⟩
      obtain ⟨c, t, rfl, -⟩ := plain_head d hd
      have h1 := decl_plain alnum ha _ (s ++ r) hd (plain_notNext s r hs hr)
      obtain ⟨l, hl⟩ := ih n (by simp at hn ⊢; omega)
      refine ⟨() :: l, ?_⟩
      rw [List.append_assoc, manyUpTo, h1]
      simp [hl]
  obtain ⟨l, hl⟩ := this ((t ++ r).length + 1) (by omega)
  have : many (decl alnum) (t ++ r) = .ok l r (!t.isEmpty) := hl
  change mapP (fun _ => ()) (many (decl alnum)) (t ++ r) = _
  rw [mapP, this]

/-- `BASE` with the IRI at once after it is no declaration for the parser, though it is one in the grammar. -/
theorem C124_fails_base (alnum : Char → Bool) (ha : AlnumOk alnum) (k i r : Str) (hk : Spec.Keyword (str! "BASE") k) :
    baseDecl alnum (k ++ '<' :: i ++ '>' :: r) = .fail true := by
  have h1 := keyword_ok alnum (str! "base") k ('<' :: (i ++ '>' :: r)) ((match_base k).2 hk)
    (notNext_cons fun h => (ha _ h).2.2.1 rfl)
  have h2 : many1 space ('<' :: (i ++ '>' :: r)) = .fail false := by
    have := many1_satisfy isWhitespace ('<' :: (i ++ '>' :: r))
    rw [List.takeWhile_cons_of_neg (by decide), if_pos rfl] at this
    exact this
  rw [show k ++ '<' :: i ++ '>' :: r = k ++ '<' :: (i ++ '>' :: r) by simp]
  simp only [baseDecl, andThen, skip, h1, mapP, h2]
  simp

/-- ASCII letters and digits, for an instance. -/
def asciiAlnum (c : Char) : Bool := isAsciiAlpha c || isAsciiDigit c

theorem asciiAlnum_ok : AlnumOk asciiAlnum := by
  intro c h
  refine ⟨fun hw => ?_, ?_, ?_, ?_⟩
  · simp only [Spec.SparqlWs, List.mem_cons, List.not_mem_nil, or_false] at hw
    rcases hw with rfl | rfl | rfl | rfl <;> exact absurd h (by decide)
  all_goals
    rintro rfl
    exact absurd h (by decide)

theorem keyword_self (k : Str) : Spec.Keyword k k := by
  induction k with
  | nil => trivial
  | cons c k ih => exact ⟨.inl rfl, ih⟩

/-- `BASE<http://a/>` is not read. -/
theorem C124_fails : ¬C124_statement := by
  intro h
  have hi : ∀ c ∈ str! "http://a/", Spec.IriRefChar c := by
    intro c hc
    rw [← isIriReserved_iff]
    revert c
    decide
  obtain ⟨u, h⟩ := h asciiAlnum asciiAlnum_ok (str! "BASE<http://a/>") []
    (.cons (d := str! "BASE<http://a/>") (s := []) (.base (k := str! "BASE") (g := []) (i := str! "http://a/") (g' := []) (keyword_self _) .nil hi .nil) .nil)
    ⟨(by intro c t e; cases e), by
      rintro k r' (hk | hk) e
      · obtain ⟨c, t, rfl⟩ := keyword_nonempty hk (by decide)
        cases e
      · obtain ⟨c, t, rfl⟩ := keyword_nonempty hk (by decide)
        cases e⟩
  have : prologue asciiAlnum (str! "BASE<http://a/>" ++ []) = .fail true := by decide +kernel
  rw [this] at h
  cases h

/-- Nor is a prologue with a comment. -/
theorem C124_fails_comment : ∃ t, Spec.Prologue t ∧ prologue asciiAlnum t = .fail true := by
  have hi : ∀ c ∈ str! "u:", Spec.IriRefChar c := by
    intro c hc
    rw [← isIriReserved_iff]
    revert c
    decide
  refine ⟨str! "PREFIX : # default\n<u:>", ?_, by decide +kernel⟩
  exact .cons (d := str! "PREFIX : # default\n<u:>") (s := [])
    (.noPrefix (k := str! "PREFIX") (g := [' ']) (g1 := str! " # default\n") (i := str! "u:") (g' := []) (keyword_self _)
      (.ws (by simp [Spec.SparqlWs]) .nil)
      (.ws (by simp [Spec.SparqlWs]) (.comment (t := str! " default") (s := []) (by decide) (by decide) .nil)) hi .nil) .nil

/-- A prefix that ends in a dot is no prefix of the grammar, but is read. -/
theorem C124_fails_dot : ∃ p, ¬Spec.PN_PREFIX p ∧ prefixDecl asciiAlnum (str! "PREFIX " ++ p ++ str! ": <u:>") = .ok (some p, str! "u:") [] true := by
  refine ⟨str! "a.", ?_, by decide +kernel⟩
  intro h
  obtain ⟨c, -, h | ⟨mid, last, h, -, hl⟩⟩ := h
  · simp at h
  · have : last = '.' := by
      have h1 := congrArg List.getLast? h
      rw [List.getLast?_concat] at h1
      simp at h1
      exact h1.symm
    subst this
    rw [← Sparql.isPnChars_iff] at hl
    exact absurd hl (by decide)

/-- A prefix that begins with U+1680, a letter of the grammar and white space of the parser, is declared without it. -/
theorem C124_fails_space (alnum : Char → Bool) (ha : AlnumOk alnum) (k g p g1 i g' r : Str) (hk : Spec.Keyword (str! "PREFIX") k)
    (hg0 : g ≠ []) (hg : ∀ c ∈ g, Spec.SparqlWs c) (hp : Spec.PN_PREFIX p) (h16 : p.head? ≠ some (Char.ofNat 0x1680))
    (hg1 : ∀ c ∈ g1, Spec.SparqlWs c) (hi : ∀ c ∈ i, Spec.IriRefChar c) (hg' : ∀ c ∈ g', Spec.SparqlWs c)
    (hr : Spec.NotNext (fun c => isWhitespace c = true) r) :
    Spec.PN_PREFIX (Char.ofNat 0x1680 :: p) ∧
      prefixDecl alnum (k ++ g ++ (Char.ofNat 0x1680 :: p) ++ ':' :: g1 ++ '<' :: i ++ '>' :: g' ++ r) = .ok (some p, i) r true := by
  constructor
  · have h0 : Spec.PN_CHARS_BASE (Char.ofNat 0x1680) := (Sparql.isPnCharsBase_iff _).1 (by decide)
    obtain ⟨c, hc, rfl | ⟨mid, last, rfl, h1, h2⟩⟩ := hp
    · exact ⟨_, h0, .inr ⟨[], c, rfl, by simp, .inl (.inl hc)⟩⟩
    · refine ⟨_, h0, .inr ⟨c :: mid, last, rfl, ?_, h2⟩⟩
      intro x hx
      rcases List.mem_cons.1 hx with rfl | hx
      · exact .inl (.inl (.inl hc))
      · exact h1 x hx
  · have e : k ++ g ++ (Char.ofNat 0x1680 :: p) ++ ':' :: g1 ++ '<' :: i ++ '>' :: g' ++ r =
      k ++ (g ++ ([Char.ofNat 0x1680] ++ (p ++ ':' :: g1 ++ ('<' :: i ++ '>' :: g' ++ r)))) := by simp
    have h1 := keyword_ok alnum (str! "prefix") k (g ++ ([Char.ofNat 0x1680] ++ (p ++ ':' :: g1 ++ ('<' :: i ++ '>' :: g' ++ r))))
      ((match_prefix k).2 hk) (notNext_ws alnum ha g _ hg fun h => absurd h hg0)
    have h2 : spaces ((g ++ [Char.ofNat 0x1680]) ++ (p ++ ':' :: g1 ++ ('<' :: i ++ '>' :: g' ++ r))) = _ :=
      spaces_append (g ++ [Char.ofNat 0x1680]) _ (by
        intro c hc
        rcases List.mem_append.1 hc with hc | hc
        · exact ws_all hg c hc
        · rw [List.mem_singleton.1 hc]; decide) (by
        obtain ⟨c, t, rfl, hc, ht⟩ := prefix_shape p hp
        refine notNext_cons fun hw => h16 ?_
        simpa using whitespace_name c hw (.inl (.inl (.inl hc))))
    rw [List.append_assoc] at h2
    have h3 := namespace_ok p g1 ('<' :: i ++ '>' :: g' ++ r) hp (ws_all hg1) (notNext_cons (by decide))
    have h4 := iriRef_spaces i g' r hi hg' hr
    rw [e]
    simp only [skip, andThen, mapP] at h4
    simp only [prefixDecl, andThen, skip, h1, mapP, h2, h3, h4]
    simp

example : prologue asciiAlnum (str! "BASE <http://a/>\nprefix ex: <http://b/> PREFIX: <u:>SELECT") = .ok () (str! "SELECT") true := by
  decide +kernel

/-! ### C125 -/

theorem alnumPart_iff (c : Char) : (isAsciiAlpha c || isAsciiDigit c) = true ↔ Spec.AsciiLetter c ∨ Spec.Digit c := by
  simp [isAsciiAlpha_iff, isDigit_iff]

theorem langPart_ok (t s : Str) (h0 : t ≠ []) (ht : ∀ c ∈ t, Spec.AsciiLetter c ∨ Spec.Digit c)
    (hs : Spec.NotNext (fun c => Spec.AsciiLetter c ∨ Spec.Digit c) s) : langPart ('-' :: t ++ s) = .ok ('-' :: t) s true := by
  have h1 : ∀ c ∈ t, (isAsciiAlpha c || isAsciiDigit c) = true := fun c hc => (alnumPart_iff c).2 (ht c hc)
  have h2 : Spec.NotNext (fun c => (isAsciiAlpha c || isAsciiDigit c) = true) s := fun c t e h => hs c t e ((alnumPart_iff c).1 h)
  have := many1_satisfy (fun c => isAsciiAlpha c || isAsciiDigit c) (t ++ s)
  rw [takeWhile_append_stop _ t s h1 h2, dropWhile_append_stop _ t s h1 h2, if_neg h0] at this
  simp [langPart, andThen, char, satisfy_cons, mapP, this]

theorem langPart_cases (s : Str) : langPart s = match s with
    | [] => .fail false
    | c :: t => if c = '-' then
        if t.takeWhile (fun c => isAsciiAlpha c || isAsciiDigit c) = [] then .fail true
        else .ok ('-' :: t.takeWhile fun c => isAsciiAlpha c || isAsciiDigit c) (t.dropWhile fun c => isAsciiAlpha c || isAsciiDigit c) true
      else .fail false := by
  cases s with
  | nil => rfl
  | cons c t =>
    by_cases hc : c = '-'
    · subst hc
      have := many1_satisfy (fun c => isAsciiAlpha c || isAsciiDigit c) t
      by_cases h : t.takeWhile (fun c => isAsciiAlpha c || isAsciiDigit c) = [] <;>
        simp [langPart, andThen, char, satisfy_cons, mapP, this, h]
    · simp [langPart, andThen, char, satisfy_cons, hc]

theorem langParts_next (p r : Str) (hp : Spec.LangParts p) (hr : Spec.NotNext (fun c => Spec.AsciiLetter c ∨ Spec.Digit c ∨ c = '-') r) :
    Spec.NotNext (fun c => Spec.AsciiLetter c ∨ Spec.Digit c) (p ++ r) := by
  cases hp with
  | nil => exact fun c t e h => hr c t e (by grind)
  | part =>
    refine notNext_cons ?_
    rw [← alnumPart_iff]
    decide

theorem langParts_read (p r : Str) (hp : Spec.LangParts p) (hr : Spec.NotNext (fun c => Spec.AsciiLetter c ∨ Spec.Digit c ∨ c = '-') r)
    (n : Nat) (hn : (p ++ r).length < n) : ∃ l, l.flatten = p ∧ ∃ u, manyUpTo langPart n (p ++ r) = .ok l r u := by
  induction hp generalizing n with
  | nil =>
    obtain ⟨n, rfl⟩ : ∃ m, n = m + 1 := ⟨n - 1, by omega⟩
    refine ⟨[], rfl, false, ?_⟩
    have : langPart r = .fail false := by
      rw [langPart_cases]
      cases r with
      | nil => rfl
      | cons c r =>
        have hc : c ≠ '-' := fun h => hr c r rfl (.inr (.inr h))
        simp [hc]
    simp [manyUpTo, this]
  | @part t s h0 ht hs ih =>
    obtain ⟨n, rfl⟩ : ∃ m, n = m + 1 := ⟨n - 1, by omega⟩
    obtain ⟨l, hl, u, h⟩ := ih n (by simp at hn ⊢; omega)
    refine ⟨('-' :: t) :: l, by simp [hl], true, ?_⟩
    have := langPart_ok t (s ++ r) h0 ht (langParts_next s r hs hr)
    rw [show '-' :: t ++ s ++ r = '-' :: t ++ (s ++ r) by simp, manyUpTo, this]
    simp [h]

/-- A language tag is read whole where it stands, if neither a letter, a digit nor a hyphen follows. -/
theorem C125_read (t r : Str) (ht : Spec.LANGTAG t) (hr : Spec.NotNext (fun c => Spec.AsciiLetter c ∨ Spec.Digit c ∨ c = '-') r) :
    langTag ('@' :: t ++ r) = .ok t r true := by
  obtain ⟨m, p, rfl, h0, hm, hp⟩ := ht
  obtain ⟨l, hl, u, h⟩ := langParts_read p r hp hr ((p ++ r).length + 1) (by omega)
  have hn := langParts_next p r hp hr
  have h1 := many1_satisfy isAsciiAlpha (m ++ (p ++ r))
  have h2 : ∀ c ∈ m, isAsciiAlpha c = true := fun c hc => (isAsciiAlpha_iff c).2 (hm c hc)
  have h3 : Spec.NotNext (fun c => isAsciiAlpha c = true) (p ++ r) := fun c t e h => hn c t e (.inl ((isAsciiAlpha_iff c).1 h))
  rw [takeWhile_append_stop _ m _ h2 h3, dropWhile_append_stop _ m _ h2 h3, if_neg h0] at h1
  have h4 : many langPart (p ++ r) = .ok l r u := h
  rw [show '@' :: (m ++ p) ++ r = '@' :: (m ++ (p ++ r)) by simp]
  simp only [langTag, andThen, char, satisfy_cons, beq_self_eq_true, if_true, h1, mapP, h4]
  simp [hl]

/-- What is read as a language tag is one, stands at the start of the text, and could not be longer. -/
theorem C125_sound (s t r : Str) (u : Bool) (h : langTag s = .ok t r u) :
    s = '@' :: t ++ r ∧ Spec.LANGTAG t ∧ Spec.NotNext (fun c => Spec.AsciiLetter c ∨ c = '-') r ∧
      ('-' ∈ t → Spec.NotNext Spec.Digit r) := by
  have hmany : ∀ n s l r u, s.length < n → manyUpTo langPart n s = .ok l r u →
      s = l.flatten ++ r ∧ Spec.LangParts l.flatten ∧ Spec.NotNext (fun c => c = '-') r ∧
        ((l = [] ∧ r = s) ∨ Spec.NotNext (fun c => Spec.AsciiLetter c ∨ Spec.Digit c) r) := by
    intro n
    induction n with
    | zero => intro s l r u h; omega
    | succ n ih =>
      intro s l r u hs h
      rw [manyUpTo, langPart_cases] at h
      cases s with
      | nil =>
        simp at h
        obtain ⟨rfl, rfl, -⟩ := h
        exact ⟨rfl, .nil, (by intro c t e; cases e), .inl ⟨rfl, rfl⟩⟩
      | cons c s =>
        by_cases hc : c = '-'
        · subst hc
          simp only [if_true] at h
          by_cases ht : s.takeWhile (fun c => isAsciiAlpha c || isAsciiDigit c) = []
          · simp [ht] at h
          · rw [if_neg ht] at h
            have hall := takeWhile_all (fun c => isAsciiAlpha c || isAsciiDigit c) s
            have hstop := dropWhile_stops (fun c => isAsciiAlpha c || isAsciiDigit c) s
            have hcat := List.takeWhile_append_dropWhile (p := fun c => isAsciiAlpha c || isAsciiDigit c) (l := s)
            generalize s.takeWhile (fun c => isAsciiAlpha c || isAsciiDigit c) = a at *
            generalize s.dropWhile (fun c => isAsciiAlpha c || isAsciiDigit c) = b at *
            simp only at h
            cases hm : manyUpTo langPart n b with
            | ok l' r' u' =>
              simp only [hm, PRes.ok.injEq] at h
              obtain ⟨rfl, rfl, -⟩ := h
              have hlen : b.length < n := by
                have := congrArg List.length hcat
                simp at this hs
                omega
              obtain ⟨e, hp, hn, hor⟩ := ih b l' r' u' hlen hm
              refine ⟨?_, ?_, hn, .inr ?_⟩
              · simp [← hcat, e]
              · simpa using Spec.LangParts.part ht (fun c hc => (alnumPart_iff c).1 (hall c hc)) hp
              · rcases hor with ⟨-, rfl⟩ | hor
                · exact fun c t e h => hstop c t e ((alnumPart_iff c).2 h)
                · exact hor
            | fail => simp [hm] at h
            | panic => simp [hm] at h
        · simp only [if_neg hc] at h
          simp at h
          obtain ⟨rfl, rfl, -⟩ := h
          exact ⟨rfl, .nil, notNext_cons hc, .inl ⟨rfl, rfl⟩⟩
  cases s with
  | nil => simp [langTag, andThen, char, satisfy_nil] at h
  | cons c s =>
    by_cases hc : c = '@'
    · subst hc
      simp only [langTag, andThen, char, satisfy_cons, beq_self_eq_true, if_true, many1_satisfy, mapP] at h
      by_cases ht : s.takeWhile isAsciiAlpha = []
      · simp [ht] at h
      · rw [if_neg ht] at h
        have hall := takeWhile_all isAsciiAlpha s
        have hstop := dropWhile_stops isAsciiAlpha s
        have hcat := List.takeWhile_append_dropWhile (p := isAsciiAlpha) (l := s)
        generalize s.takeWhile isAsciiAlpha = a at *
        generalize s.dropWhile isAsciiAlpha = b at *
        simp only at h
        cases hm : many langPart b with
        | ok l r' u' =>
          simp only [hm, PRes.ok.injEq] at h
          obtain ⟨rfl, rfl, -⟩ := h
          obtain ⟨e, hp, hn, hor⟩ := hmany _ b l r' u' (by omega) hm
          refine ⟨by simp [← hcat, e], ⟨a, _, rfl, ht, fun c hc => (isAsciiAlpha_iff c).1 (hall c hc), hp⟩, ?_, ?_⟩
          · rintro c t e1 (h | h)
            · rcases hor with ⟨-, rfl⟩ | hor
              · exact hstop c t e1 ((isAsciiAlpha_iff c).2 h)
              · exact hor c t e1 (.inl h)
            · exact hn c t e1 h
          · intro hd c t e1 h
            rcases hor with ⟨rfl, -⟩ | hor
            · rw [List.flatten_nil, List.append_nil] at hd
              have := hall _ hd
              revert this
              decide
            · exact hor c t e1 (.inr h)
        | fail => simp [hm] at h
        | panic => simp [hm] at h
    · simp [langTag, andThen, char, satisfy_cons, hc] at h

/-- Exactly when a language tag is read, and which: it stands there, neither a letter nor a hyphen follows, nor a digit if the tag has
a further part. -/
theorem C125_iff (s t r : Str) : langTag s = .ok t r true ↔
    s = '@' :: t ++ r ∧ Spec.LANGTAG t ∧ Spec.NotNext (fun c => Spec.AsciiLetter c ∨ c = '-') r ∧
      ('-' ∈ t → Spec.NotNext Spec.Digit r) := by
  refine ⟨fun h => C125_sound s t r true h, ?_⟩
  rintro ⟨rfl, ht, h1, h2⟩
  by_cases hd : '-' ∈ t
  · exact C125_read t r ht fun c x e h => by
      rcases h with h | h | h
      · exact h1 c x e (.inl h)
      · exact h2 hd c x e h
      · exact h1 c x e (.inr h)
  · obtain ⟨m, p, rfl, h0, hm, hp⟩ := ht
    cases hp with
    | part => simp at hd
    | nil =>
      have h3 := many1_satisfy isAsciiAlpha (m ++ r)
      have h4 : ∀ c ∈ m, isAsciiAlpha c = true := fun c hc => (isAsciiAlpha_iff c).2 (hm c hc)
      have h5 : Spec.NotNext (fun c => isAsciiAlpha c = true) r := fun c t e h => h1 c t e (.inl ((isAsciiAlpha_iff c).1 h))
      rw [takeWhile_append_stop _ m _ h4 h5, dropWhile_append_stop _ m _ h4 h5, if_neg h0] at h3
      have h6 : langPart r = .fail false := by
        rw [langPart_cases]
        cases r with
        | nil => rfl
        | cons c r => simp [show c ≠ '-' from fun h => h1 c r rfl (.inr h)]
      have h7 : many langPart r = .ok [] r false := by simp [many, manyUpTo, h6]
      rw [show '@' :: (m ++ []) ++ r = '@' :: (m ++ r) by simp]
      simp only [langTag, andThen, char, satisfy_cons, beq_self_eq_true, if_true, h3, mapP, h7]
      simp

/-- A hyphen that begins no further part makes the parser fail, though a tag stands before it. -/
theorem C125_fails_hyphen : langTag (str! "@en- ") = .fail true ∧ Spec.LANGTAG (str! "en") := by
  refine ⟨by decide +kernel, str! "en", [], rfl, by simp, ?_, .nil⟩
  intro c hc
  rw [← isAsciiAlpha_iff]
  revert c
  decide

/-- `BASE` is read as a keyword just where it stands, in upper or lower case, and no letter or digit follows. -/
theorem C125_keyword_base (alnum : Char → Bool) (s r : Str) : keyword alnum (str! "base") s = .ok () r true ↔
    (∃ t, s = t ++ r ∧ Spec.Keyword (str! "BASE") t) ∧ Spec.NotNext (fun c => alnum c = true) r := by
  rw [keyword_iff]
  simp [match_base]

/-- So is `PREFIX`. -/
theorem C125_keyword_prefix (alnum : Char → Bool) (s r : Str) : keyword alnum (str! "prefix") s = .ok () r true ↔
    (∃ t, s = t ++ r ∧ Spec.Keyword (str! "PREFIX") t) ∧ Spec.NotNext (fun c => alnum c = true) r := by
  rw [keyword_iff]
  simp [match_prefix]

theorem match_eq (k t : Str) : Match (· == ·) k t ↔ k = t := by
  induction k generalizing t with
  | nil => cases t <;> simp [Match]
  | cons c k ih =>
    cases t with
    | nil => simp [Match]
    | cons d t => simp [Match, ih]

/-- `true` and `false` are read just where they stand, whatever follows. -/
theorem C125_boolean (s r : Str) (b u : Bool) : booleanLiteral s = .ok b r u ↔
    u = true ∧ s = (if b then str! "true" else str! "false") ++ r := by
  have key : ∀ k : Str, k ≠ [] → (∃ r, s = k ++ r ∧ stringCmp (· == ·) k s = .ok () r true) ∨
      ((∀ r, s ≠ k ++ r) ∧ ∃ u, stringCmp (· == ·) k s = .fail u) := by
    intro k hk
    rcases stringCmp_cases (· == ·) k s with ⟨t, r, e, hm, h⟩ | ⟨hn, h⟩
    · obtain rfl := (match_eq k t).1 hm
      refine .inl ⟨r, e, ?_⟩
      rw [h]
      cases k with
      | nil => exact absurd rfl hk
      | cons => rfl
    · exact .inr ⟨fun r e => hn k r e ((match_eq k k).2 rfl), h⟩
  by_cases hf : ∃ t, s = 'f' :: t
  · obtain ⟨t, rfl⟩ := hf
    rcases key (str! "false") (by decide) with ⟨r', e, h⟩ | ⟨hn, v, h⟩
    · rw [e] at h ⊢
      simp only [booleanLiteral, attempt, orElse, mapP, h]
      cases b <;> simp [and_comm, eq_comm]
    · have hv : v = true := by
        cases v with
        | true => rfl
        | false =>
          simp only [stringCmp, satisfy_cons, beq_self_eq_true, if_true] at h
          split at h <;> cases h
      subst hv
      simp only [booleanLiteral, attempt, orElse, mapP, h]
      cases b with
      | false => simpa using fun _ => hn r
      | true => simp
  · have h1 : stringCmp (· == ·) (str! "false") s = .fail false := by
      cases s with
      | nil => rfl
      | cons c t =>
        have hc : c ≠ 'f' := fun e => hf ⟨t, by rw [e]⟩
        simp [stringCmp, satisfy_cons, Ne.symm hc]
    have h2 : ∀ r, s ≠ str! "false" ++ r := fun r e => hf ⟨_, e⟩
    rcases key (str! "true") (by decide) with ⟨r', e, h⟩ | ⟨hn, v, h⟩
    · simp only [booleanLiteral, attempt, orElse, mapP, h1, h]
      rw [e] at h2 ⊢
      cases b <;> simp [and_comm, eq_comm]
    · simp only [booleanLiteral, attempt, orElse, mapP, h1, h]
      cases b with
      | false => simpa using fun _ => h2 r
      | true => simpa using fun _ => hn r

example : langTag (str! "@en-GB .") = .ok (str! "en-GB") (str! " .") true := by decide +kernel

end Rdftk
