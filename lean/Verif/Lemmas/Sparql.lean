import Verif.Model.Sparql
import Verif.Spec.Sparql

/-! What the combinators of the SPARQL parsers do. -/

namespace Rdftk.Sparql

variable {α β : Type}

theorem satisfy_nil (f : Char → Bool) : satisfy f [] = .fail false := rfl
theorem satisfy_cons (f : Char → Bool) (c : Char) (s : Str) :
    satisfy f (c :: s) = if f c then .ok c s true else .fail false := rfl

/-- What is left after the characters of a kind. -/
theorem manyUpTo_satisfy (f : Char → Bool) (n : Nat) (s : Str) (h : s.length < n) :
    manyUpTo (satisfy f) n s = .ok (s.takeWhile f) (s.dropWhile f) (!(s.takeWhile f).isEmpty) := by
  induction s generalizing n with
  | nil =>
    obtain ⟨n, rfl⟩ : ∃ k, n = k + 1 := ⟨n - 1, by simp at h; omega⟩
    simp [manyUpTo, satisfy_nil]
  | cons c s ih =>
    obtain ⟨n, rfl⟩ : ∃ k, n = k + 1 := ⟨n - 1, by simp at h; omega⟩
    rw [manyUpTo, satisfy_cons]
    by_cases hc : f c = true
    · simp [hc, ih n (by simp at h; omega)]
    · simp [hc]

theorem many_satisfy (f : Char → Bool) (s : Str) :
    many (satisfy f) s = .ok (s.takeWhile f) (s.dropWhile f) (!(s.takeWhile f).isEmpty) :=
  manyUpTo_satisfy f _ s (by omega)

theorem many1_satisfy (f : Char → Bool) (s : Str) :
    many1 (satisfy f) s = if s.takeWhile f = [] then .fail false else .ok (s.takeWhile f) (s.dropWhile f) true := by
  cases s with
  | nil => simp [many1, andThen, satisfy_nil]
  | cons c s =>
    simp only [many1, andThen, satisfy_cons, mapP, many_satisfy]
    by_cases hc : f c = true <;> simp [hc]

theorem spaces_eq (s : Str) :
    spaces s = .ok () (s.dropWhile isWhitespace) (!(s.takeWhile isWhitespace).isEmpty) := by
  simp [spaces, mapP, space, many_satisfy]

theorem whitespace_eq (s : Str) : whitespace s =
    if s.takeWhile isWhitespace = [] then .fail false else .ok () (s.dropWhile isWhitespace) true := by
  have : many1 space s = if s.takeWhile isWhitespace = [] then .fail false
      else .ok (s.takeWhile isWhitespace) (s.dropWhile isWhitespace) true := many1_satisfy _ s
  by_cases h : s.takeWhile isWhitespace = [] <;> simp [whitespace, mapP, this, h]

theorem takeWhile_append_stop (f : Char → Bool) (a b : Str) (ha : ∀ c ∈ a, f c = true)
    (hb : Spec.NotNext (fun c => f c = true) b) : (a ++ b).takeWhile f = a := by
  induction a with
  | nil =>
    cases b with
    | nil => rfl
    | cons c b => simp [hb c b rfl]
  | cons c a ih => simp [ha c List.mem_cons_self, ih fun c hc => ha c (.tail _ hc)]

theorem dropWhile_append_stop (f : Char → Bool) (a b : Str) (ha : ∀ c ∈ a, f c = true)
    (hb : Spec.NotNext (fun c => f c = true) b) : (a ++ b).dropWhile f = b := by
  induction a with
  | nil =>
    cases b with
    | nil => rfl
    | cons c b => simp [hb c b rfl]
  | cons c a ih => simp [ha c List.mem_cons_self, ih fun c hc => ha c (.tail _ hc)]

theorem dropWhile_stops (f : Char → Bool) (s : Str) : Spec.NotNext (fun c => f c = true) (s.dropWhile f) := by
  intro c t h
  induction s with
  | nil => simp at h
  | cons d s ih =>
    by_cases hd : f d = true
    · rw [List.dropWhile_cons_of_pos hd] at h
      exact ih h
    · rw [List.dropWhile_cons_of_neg hd] at h
      injection h with h1 h2
      exact h1 ▸ hd

theorem takeWhile_all (f : Char → Bool) (s : Str) : ∀ c ∈ s.takeWhile f, f c = true := by
  intro c hc
  induction s with
  | nil => simp at hc
  | cons d s ih =>
    by_cases hd : f d = true
    · rw [List.takeWhile_cons_of_pos hd] at hc
      rcases List.mem_cons.1 hc with rfl | hc
      · exact hd
      · exact ih hc
    · rw [List.takeWhile_cons_of_neg hd] at hc
      simp at hc

/-- `many (satisfy f)` on a text of which it is known where the characters of the kind end. -/
theorem many_satisfy_append (f : Char → Bool) (a b : Str) (ha : ∀ c ∈ a, f c = true)
    (hb : Spec.NotNext (fun c => f c = true) b) : many (satisfy f) (a ++ b) = .ok a b (!a.isEmpty) := by
  rw [many_satisfy, takeWhile_append_stop f a b ha hb, dropWhile_append_stop f a b ha hb]

theorem spaces_append (a b : Str) (ha : ∀ c ∈ a, isWhitespace c = true)
    (hb : Spec.NotNext (fun c => isWhitespace c = true) b) : spaces (a ++ b) = .ok () b (!a.isEmpty) := by
  rw [spaces_eq, takeWhile_append_stop _ a b ha hb, dropWhile_append_stop _ a b ha hb]

theorem spaces_none (b : Str) (hb : Spec.NotNext (fun c => isWhitespace c = true) b) : spaces b = .ok () b false :=
  spaces_append [] b (by simp) hb

/-- Two texts of the same length match, character by character. -/
def Match (eq : Char → Char → Bool) : Str → Str → Prop
  | [], [] => True
  | c :: a, d :: b => eq c d = true ∧ Match eq a b
  | _, _ => False

theorem stringCmp_ok (eq : Char → Char → Bool) (k t r : Str) (h : Match eq k t) :
    stringCmp eq k (t ++ r) = .ok () r (!k.isEmpty) := by
  induction k generalizing t with
  | nil =>
    cases t with
    | nil => rfl
    | cons d t => simp [Match] at h
  | cons c k ih =>
    cases t with
    | nil => simp [Match] at h
    | cons d t =>
      obtain ⟨h1, h2⟩ := h
      simp [stringCmp, satisfy_cons, h1, ih t h2]

theorem stringCmp_cases (eq : Char → Char → Bool) (k s : Str) :
    (∃ t r, s = t ++ r ∧ Match eq k t ∧ stringCmp eq k s = .ok () r (!k.isEmpty)) ∨
    ((∀ t r, s = t ++ r → ¬Match eq k t) ∧ ∃ u, stringCmp eq k s = .fail u) := by
  induction k generalizing s with
  | nil => exact .inl ⟨[], s, rfl, trivial, rfl⟩
  | cons c k ih =>
    cases s with
    | nil =>
      refine .inr ⟨?_, false, rfl⟩
      rintro t r h
      have : t = [] := by
        cases t with
        | nil => rfl
        | cons => simp at h
      subst this
      simp [Match]
    | cons d s =>
      by_cases hc : eq c d = true
      · rcases ih s with ⟨t, r, rfl, hm, he⟩ | ⟨hn, u, he⟩
        · exact .inl ⟨d :: t, r, rfl, ⟨hc, hm⟩, by simp [stringCmp, satisfy_cons, hc, he]⟩
        · refine .inr ⟨?_, true, by simp [stringCmp, satisfy_cons, hc, he]⟩
          rintro t r h hm
          cases t with
          | nil => simp [Match] at hm
          | cons e t =>
            rw [List.cons_append] at h
            injection h with h1 h2
            exact hn t r h2 hm.2
      · refine .inr ⟨?_, false, by simp [stringCmp, satisfy_cons, hc]⟩
        rintro t r h hm
        cases t with
        | nil => simp [Match] at hm
        | cons e t =>
          rw [List.cons_append] at h
          injection h with h1 h2
          exact hc (h1 ▸ hm.1)

/-! ### Characters -/

theorem isPnCharsBase_iff (c : Char) : isPnCharsBase c = true ↔ Spec.PN_CHARS_BASE c := by
  simp only [isPnCharsBase, inRange, Spec.PN_CHARS_BASE, Spec.InRanges, Bool.or_eq_true,
    Bool.and_eq_true, decide_eq_true_eq, List.mem_cons, List.not_mem_nil, or_false,
    exists_eq_or_imp, exists_eq_left, or_assoc]

theorem isDigit_iff (c : Char) : isAsciiDigit c = true ↔ Spec.Digit c := by
  simp [isAsciiDigit, inRange, Spec.Digit, Spec.InRanges]

theorem isPnCharsU_iff (c : Char) : isPnCharsU c = true ↔ Spec.PN_CHARS_U c := by
  simp [isPnCharsU, Spec.PN_CHARS_U, isPnCharsBase_iff]

theorem isCombining_iff (c : Char) :
    isCombining c = true ↔ Spec.InRanges [(0xB7, 0xB7), (0x300, 0x36F), (0x203F, 0x2040)] c := by
  have : (c.toNat = 0xB7) ↔ (0xB7 ≤ c.toNat ∧ c.toNat ≤ 0xB7) := by omega
  simp only [isCombining, Bool.or_eq_true, beq_iff_eq, inRange, Spec.InRanges, Bool.and_eq_true, decide_eq_true_eq,
    List.mem_cons, List.not_mem_nil, or_false, exists_eq_or_imp, exists_eq_left, or_assoc, this]

theorem isPnChars_iff (c : Char) : isPnChars c = true ↔ Spec.PN_CHARS c := by
  simp only [isPnChars, Bool.or_eq_true, isPnCharsU_iff, isDigit_iff, isCombining_iff, beq_iff_eq, Spec.PN_CHARS]
  grind

theorem isAsciiAlpha_iff (c : Char) : isAsciiAlpha c = true ↔ Spec.AsciiLetter c := by
  simp [isAsciiAlpha, inRange, Spec.AsciiLetter, Spec.InRanges]

theorem isIriReserved_iff (c : Char) : isIriReserved c = false ↔ Spec.IriRefChar c := by
  simp only [isIriReserved, Spec.IriRefChar, Bool.or_eq_false_iff, List.contains_eq_mem, decide_eq_false_iff_not, inRange,
    Bool.and_eq_false_iff]
  simp

/-! ### More on combinators -/

theorem orElse_satisfy (f g : Char → Bool) : orElse (satisfy f) (satisfy g) = satisfy fun c => f c || g c := by
  funext s
  cases s with
  | nil => rfl
  | cons c s => cases hf : f c <;> simp [orElse, satisfy_cons, hf]

/-- After `many` nothing more of the kind follows. -/
theorem manyUpTo_stops (p : P α) (hp : ∀ s a r u, p s = .ok a r u → r.length < s.length) (n : Nat) (s : Str) (h : s.length < n)
    (l : List α) (r : Str) (u : Bool) (he : manyUpTo p n s = .ok l r u) : p r = .fail false := by
  induction n generalizing s l u with
  | zero => omega
  | succ n ih =>
    rw [manyUpTo] at he
    cases hs : p s with
    | ok a r' u' =>
      have := hp s a r' u' hs
      rw [hs] at he
      simp only at he
      cases hm : manyUpTo p n r' with
      | ok l' r'' u'' =>
        rw [hm] at he
        simp only [PRes.ok.injEq] at he
        obtain ⟨-, rfl, -⟩ := he
        exact ih r' (by omega) l' u'' hm
      | fail => simp [hm] at he
      | panic => simp [hm] at he
    | fail u' =>
      cases u' with
      | false =>
        rw [hs] at he
        simp only [PRes.ok.injEq] at he
        rw [← he.2.1, hs]
      | true => simp [hs] at he
    | panic => simp [hs] at he

/-- Only `many` without a match uses no input. -/
theorem manyUpTo_used (p : P α) (n : Nat) (s : Str) (a : α) (r : Str) (h : p s = .ok a r true) :
    (∃ l r', manyUpTo p (n + 1) s = .ok l r' true) ∨ manyUpTo p (n + 1) s = .fail true ∨ manyUpTo p (n + 1) s = .panic := by
  rw [manyUpTo, h]
  cases hm : manyUpTo p n r <;> simp [hm]

theorem keyword_ok (alnum : Char → Bool) (k t r : Str) (h : Match eqIgnoreCase k t)
    (hr : Spec.NotNext (fun c => alnum c = true) r) : keyword alnum k (t ++ r) = .ok () r (!k.isEmpty) := by
  have : notFollowedBy (satisfy alnum) r = .ok () r false := by
    cases r with
    | nil => rfl
    | cons c r => simp [notFollowedBy, satisfy_cons, hr c r rfl]
  simp [keyword, attempt, skip, andThen, stringCmp_ok eqIgnoreCase k t r h, mapP, this]

theorem notFollowedBy_satisfy (alnum : Char → Bool) (s : Str) : notFollowedBy (satisfy alnum) s =
    (match s with | [] => .ok () s false | c :: _ => if alnum c then .fail false else .ok () s false) := by
  cases s with
  | nil => rfl
  | cons c s => cases h : alnum c <;> simp [notFollowedBy, satisfy_cons, h]

/-- A keyword is read just where it stands, in any case, and no letter or digit follows. -/
theorem keyword_iff (alnum : Char → Bool) (k s r : Str) (u : Bool) : keyword alnum k s = .ok () r u ↔
    (∃ t, s = t ++ r ∧ Match eqIgnoreCase k t) ∧ Spec.NotNext (fun c => alnum c = true) r ∧ u = !k.isEmpty := by
  constructor
  · intro h
    rcases stringCmp_cases eqIgnoreCase k s with ⟨t, r', rfl, hm, he⟩ | ⟨hn, u', he⟩
    · simp only [keyword, attempt, skip, andThen, he, mapP, notFollowedBy_satisfy] at h
      cases r' with
      | nil =>
        simp at h
        exact ⟨⟨t, by simp [h.1], hm⟩, (by rw [h.1]; intro c t e; cases e), by simp [h.2]⟩
      | cons c r' =>
        cases hc : alnum c with
        | true => simp [hc] at h
        | false =>
          simp [hc] at h
          obtain ⟨rfl, h2⟩ := h
          exact ⟨⟨t, rfl, hm⟩, (by intro d t' e; rw [← (List.cons.inj e).1]; simp [hc]), by simp [h2]⟩
    · simp [keyword, attempt, skip, andThen, he] at h
  · rintro ⟨⟨t, rfl, hm⟩, hr, rfl⟩
    exact keyword_ok alnum k t r hm hr

/-- Where no keyword stands nothing is used. -/
theorem keyword_fail (alnum : Char → Bool) (k s : Str) (h : ∀ r u, keyword alnum k s ≠ .ok () r u) :
    keyword alnum k s = .fail false := by
  cases hk : keyword alnum k s with
  | ok a r u => exact absurd hk (h r u)
  | fail u =>
    have : keyword alnum k s = .fail false ∨ ∀ u, keyword alnum k s ≠ .fail u := by
      simp only [keyword, attempt]
      split <;> simp_all
    rcases this with h' | h'
    · rw [← hk, h']
    · exact absurd hk (h' u)
  | panic =>
    exfalso
    rcases stringCmp_cases eqIgnoreCase k s with ⟨t, r', rfl, hm, he⟩ | ⟨hn, u', he⟩
    · simp only [keyword, attempt, skip, andThen, he, mapP, notFollowedBy_satisfy] at hk
      cases r' with
      | nil => simp at hk
      | cons c r' => cases hc : alnum c <;> simp [hc] at hk
    · simp [keyword, attempt, skip, andThen, he] at hk

theorem asciiLower_iff (k d : Char) (hk : 0x41 ≤ k.toNat ∧ k.toNat ≤ 0x5A) :
    eqIgnoreCase (Char.ofNat (k.toNat + 32)) d = true ↔
      (d = k ∨ (Spec.AsciiLetter k ∧ Spec.AsciiLetter d ∧ (d.toNat = k.toNat + 32 ∨ k.toNat = d.toNat + 32))) := by
  have hv : ∀ n, n < 0x80 → (Char.ofNat n).toNat = n := by
    intro n hn
    have : n.isValidChar := Or.inl (by omega)
    simp [Char.ofNat, this, Char.toNat, Char.ofNatAux]
  have hinj : ∀ a b : Char, a = b ↔ a.toNat = b.toNat := fun a b => ⟨fun h => h ▸ rfl, fun h => Char.toNat_inj.1 h⟩
  have e1 : asciiLower (Char.ofNat (k.toNat + 32)) = Char.ofNat (k.toNat + 32) := by
    have := hv (k.toNat + 32) (by omega)
    simp only [asciiLower, inRange, this]
    rw [if_neg]
    simp
    omega
  have e2 : (asciiLower d).toNat = if 0x41 ≤ d.toNat ∧ d.toNat ≤ 0x5A then d.toNat + 32 else d.toNat := by
    simp only [asciiLower, inRange, Bool.and_eq_true, decide_eq_true_eq]
    split
    · rw [hv _ (by omega)]
    · rfl
  simp only [eqIgnoreCase, beq_iff_eq, e1]
  rw [hinj, e2, hv _ (by omega), hinj d k]
  simp only [Spec.AsciiLetter, Spec.InRanges, List.mem_cons, List.not_mem_nil, or_false, exists_eq_or_imp, exists_eq_left]
  split <;> omega

/-- The keywords of the parsers match what the grammar says, letter by letter. -/
theorem match_iff (k t : Str) (hk : ∀ c ∈ k, 0x41 ≤ c.toNat ∧ c.toNat ≤ 0x5A) :
    Match eqIgnoreCase (k.map fun c => Char.ofNat (c.toNat + 32)) t ↔ Spec.Keyword k t := by
  induction k generalizing t with
  | nil => cases t <;> simp [Match, Spec.Keyword]
  | cons c k ih =>
    cases t with
    | nil => simp [Match, Spec.Keyword]
    | cons d t =>
      simp only [List.map_cons, Match, Spec.Keyword]
      rw [asciiLower_iff c d (hk c List.mem_cons_self), ih t fun c hc => hk c (.tail _ hc)]

theorem match_base (t : Str) : Match eqIgnoreCase (str! "base") t ↔ Spec.Keyword (str! "BASE") t := by
  have e : (str! "base") = (str! "BASE").map fun c => Char.ofNat (c.toNat + 32) := by decide
  rw [e]
  exact match_iff _ t (by decide)

theorem match_prefix (t : Str) : Match eqIgnoreCase (str! "prefix") t ↔ Spec.Keyword (str! "PREFIX") t := by
  have e : (str! "prefix") = (str! "PREFIX").map fun c => Char.ofNat (c.toNat + 32) := by decide
  rw [e]
  exact match_iff _ t (by decide)

/-! ### Names -/

/-- Only U+1680 is both white space and a character of names. -/
theorem whitespace_name (c : Char) (h : isWhitespace c = true) (hn : Spec.PN_CHARS c ∨ c = '.' ∨ c = ':') :
    c = Char.ofNat 0x1680 := by
  have hinj : ∀ a b : Char, a.toNat = b.toNat → a = b := fun a b h => Char.toNat_inj.1 h
  apply hinj
  simp only [isWhitespace, inRange, Bool.or_eq_true, Bool.and_eq_true, decide_eq_true_eq, beq_iff_eq] at h
  rw [show (Char.ofNat 0x1680).toNat = 0x1680 from rfl]
  rcases hn with (((hn | rfl) | rfl | hn | hn) | rfl | rfl)
  · simp only [Spec.PN_CHARS_BASE, Spec.InRanges, List.mem_cons, List.not_mem_nil, or_false, exists_eq_or_imp, exists_eq_left] at hn
    omega
  · exact absurd h (by decide)
  · exact absurd h (by decide)
  · simp only [Spec.Digit, Spec.InRanges, List.mem_cons, List.not_mem_nil, or_false, exists_eq_left] at hn
    omega
  · simp only [Spec.InRanges, List.mem_cons, List.not_mem_nil, or_false, exists_eq_or_imp, exists_eq_left] at hn
    omega
  · exact absurd h (by decide)
  · exact absurd h (by decide)

theorem ws_isWhitespace (c : Char) (h : Spec.SparqlWs c) : isWhitespace c = true := by
  simp only [Spec.SparqlWs, List.mem_cons, List.not_mem_nil, or_false] at h
  rcases h with rfl | rfl | rfl | rfl <;> decide

/-- A prefix: a first character, then characters of names and dots. -/
theorem prefix_shape (p : Str) (h : Spec.PN_PREFIX p) :
    ∃ c t, p = c :: t ∧ Spec.PN_CHARS_BASE c ∧ ∀ x ∈ t, Spec.PN_CHARS x ∨ x = '.' := by
  obtain ⟨c, hc, rfl | ⟨mid, last, rfl, hm, hl⟩⟩ := h
  · exact ⟨c, [], rfl, hc, by simp⟩
  · refine ⟨c, mid ++ [last], rfl, hc, ?_⟩
    intro x hx
    rcases List.mem_append.1 hx with h | h
    · exact hm x h
    · simp at h
      subst h
      exact .inl hl

theorem local_shape (p : Str) (h : Spec.PN_LOCAL_PLAIN p) :
    ∃ c t, p = c :: t ∧ (Spec.PN_CHARS_U c ∨ Spec.Digit c) ∧ ∀ x ∈ t, Spec.PN_CHARS x ∨ x = '.' := by
  obtain ⟨c, hc, rfl | ⟨mid, last, rfl, hm, hl⟩⟩ := h
  · exact ⟨c, [], rfl, hc, by simp⟩
  · refine ⟨c, mid ++ [last], rfl, hc, ?_⟩
    intro x hx
    rcases List.mem_append.1 hx with h | h
    · exact hm x h
    · simp at h
      subst h
      exact .inl hl

theorem colon_not_name : ¬(Spec.PN_CHARS ':' ∨ ':' = '.') := by
  rw [← isPnChars_iff]
  decide

theorem prefixedNamePrefix_eq (s : Str) : prefixedNamePrefix s = match s with
    | [] => .fail false
    | c :: t => if isPnCharsBase c then
        .ok (c :: t.takeWhile fun c => isPnChars c || c == '.') (t.dropWhile fun c => isPnChars c || c == '.') true
      else .fail false := by
  cases s with
  | nil => rfl
  | cons c t =>
    have : orElse (satisfy isPnChars) (char '.') = satisfy fun c => isPnChars c || c == '.' := orElse_satisfy _ _
    simp only [prefixedNamePrefix, andThen, satisfy_cons, mapP, optionalP, this, many_satisfy]
    cases isPnCharsBase c <;> simp

theorem prefixedNamePrefix_ok (c : Char) (t r : Str) (hc : Spec.PN_CHARS_BASE c) (ht : ∀ x ∈ t, Spec.PN_CHARS x ∨ x = '.')
    (hr : Spec.NotNext (fun c => Spec.PN_CHARS c ∨ c = '.') r) : prefixedNamePrefix (c :: t ++ r) = .ok (c :: t) r true := by
  have h1 := fun x hx => (show (isPnChars x || x == '.') = true by simpa [isPnChars_iff] using ht x hx)
  have h2 : Spec.NotNext (fun c => (isPnChars c || c == '.') = true) r := by
    intro d t' e hd
    exact hr d t' e (by simpa [isPnChars_iff] using hd)
  simp [prefixedNamePrefix_eq, (isPnCharsBase_iff c).2 hc, takeWhile_append_stop _ t r h1 h2, dropWhile_append_stop _ t r h1 h2]

theorem namespace_ok (p w r : Str) (hp : Spec.PN_PREFIX p) (hw : ∀ c ∈ w, isWhitespace c = true)
    (hr : Spec.NotNext (fun c => isWhitespace c = true) r) :
    prefixedNameNamespace (p ++ ':' :: w ++ r) = .ok (some p) r true := by
  obtain ⟨c, t, rfl, hc, ht⟩ := prefix_shape p hp
  have h : prefixedNamePrefix (c :: t ++ (':' :: w ++ r)) = _ := prefixedNamePrefix_ok c t (':' :: w ++ r) hc ht (by
    intro d t' e hd
    rw [← (List.cons.inj e).1] at hd
    exact colon_not_name hd)
  rw [List.append_assoc]
  simp only [prefixedNameNamespace, andThen, optionalP, h, mapP, skip]
  simp [char, satisfy_cons, spaces_append w r hw hr]

theorem namespace_none (w r : Str) (hw : ∀ c ∈ w, isWhitespace c = true)
    (hr : Spec.NotNext (fun c => isWhitespace c = true) r) :
    prefixedNameNamespace (':' :: w ++ r) = .ok none r true := by
  have h : prefixedNamePrefix (':' :: w ++ r) = .fail false := by
    rw [prefixedNamePrefix_eq]
    simp [show isPnCharsBase ':' = false by decide]
  simp only [prefixedNameNamespace, andThen, optionalP, h, mapP, skip]
  simp [char, satisfy_cons, spaces_append w r hw hr]

/-- A name with nothing in front of the colon is used up when it is read. -/
theorem namespace_used (s : Str) (p : Option Str) (r : Str) (u : Bool) (h : prefixedNameNamespace s = .ok p r u) : u = true := by
  simp only [prefixedNameNamespace, andThen] at h
  cases h1 : optionalP prefixedNamePrefix s with
  | ok a r1 u1 =>
    rw [h1] at h
    simp only [mapP, skip, andThen] at h
    cases r1 with
    | nil => simp [char, satisfy_nil] at h
    | cons c r1 =>
      by_cases hc : c = ':'
      · subst hc
        simp [char, satisfy_cons, spaces_eq] at h
        exact h.2.2
      · simp [char, satisfy_cons, hc] at h
  | fail => simp [h1] at h
  | panic => simp [h1] at h

/-- Each escape uses up input. -/
theorem localEscape_less (s : Str) (c : Char) (r : Str) (u : Bool) (h : prefixedLocalEscape s = .ok c r u) :
    r.length < s.length := by
  cases s with
  | nil => simp [prefixedLocalEscape, orElse, percentEscape, andThen, char, satisfy_nil, prefixedNameLocalEscape] at h
  | cons d s =>
    by_cases hd : d = '%'
    · subst hd
      have hlen : ∀ n t l r u, manyUpTo (satisfy isHexDigit) n t = .ok l r u → r.length ≤ t.length := by
        intro n
        induction n with
        | zero => intro t l r u h; simp [manyUpTo] at h; simp [h.2.1]
        | succ n ih =>
          intro t l r u h
          cases t with
          | nil => simp [manyUpTo, satisfy_nil] at h; simp [← h.2.1]
          | cons c t =>
            cases hc : isHexDigit c with
            | false => simp [manyUpTo, satisfy_cons, hc] at h; simp [← h.2.1]
            | true =>
              simp only [manyUpTo, satisfy_cons, hc, if_true] at h
              cases hm : manyUpTo (satisfy isHexDigit) n t with
              | ok l' r' u' =>
                simp [hm] at h
                have := ih t l' r' u' hm
                simp [← h.2.1]
                omega
              | fail => simp [hm] at h
              | panic => simp [hm] at h
      simp only [prefixedLocalEscape, orElse, percentEscape, andThen, char, satisfy_cons, beq_self_eq_true, if_true] at h
      cases hm : manyUpTo (satisfy isHexDigit) 2 s with
      | ok l r' u' =>
        have := hlen _ _ _ _ _ hm
        cases hp : parseDecimal l with
        | none => simp [hm, hp] at h
        | some n =>
          simp [hm, hp] at h
          simp [← h.2.1]
          omega
      | fail => simp [hm] at h
      | panic => simp [hm] at h
    · by_cases hb : d = '\\'
      · subst hb
        cases s with
        | nil => simp [prefixedLocalEscape, orElse, percentEscape, andThen, char, satisfy_cons, satisfy_nil, prefixedNameLocalEscape] at h
        | cons e s =>
          cases he : isLocalEscape e with
          | true =>
            simp [prefixedLocalEscape, orElse, percentEscape, andThen, char, satisfy_cons, prefixedNameLocalEscape, he] at h
            simp [← h.2.1]
            omega
          | false => simp [prefixedLocalEscape, orElse, percentEscape, andThen, char, satisfy_cons, prefixedNameLocalEscape, he] at h
      · simp [prefixedLocalEscape, orElse, percentEscape, andThen, char, satisfy_cons, prefixedNameLocalEscape, hd, hb] at h

/-- The tail of a local name is never read: what its last part asks for, the part before has used up. -/
theorem tail_never (s : Str) (l r : Str) (u : Bool) : prefixedNameLocalTail s ≠ .ok l r u := by
  intro h
  simp only [prefixedNameLocalTail, andThen, mapP] at h
  cases hm : many (orElse (satisfy fun c => isPnCharsU c || c == '.' || c == ':') prefixedLocalEscape) s with
  | ok a r' u' =>
    have hs := manyUpTo_stops _ (by
      intro s a r u h
      cases s with
      | nil =>
        rw [orElse, satisfy_nil] at h
        exact localEscape_less _ _ _ _ h
      | cons c s =>
        by_cases hc : (isPnCharsU c || c == '.' || c == ':') = true
        · simp only [orElse, satisfy_cons, hc, if_true, PRes.ok.injEq] at h
          simp [h.2.1]
        · simp only [orElse, satisfy_cons, hc] at h
          exact localEscape_less _ _ _ _ h) _ s (by omega) a r' u' hm
    have : orElse (satisfy fun c => isPnCharsU c || c == ':') prefixedLocalEscape r' = .fail false := by
      cases r' with
      | nil => exact hs
      | cons c r' =>
        by_cases hc : (isPnCharsU c || c == '.' || c == ':') = true
        · simp [orElse, satisfy_cons, hc] at hs
        · have hc' : (isPnCharsU c || c == ':') = false := by
            cases h1 : isPnCharsU c <;> cases h2 : c == ':' <;> simp_all
          simp only [orElse, satisfy_cons, hc] at hs
          simpa [orElse, satisfy_cons, hc'] using hs
    simp [hm, this] at h
  | fail => simp [hm] at h
  | panic => simp [hm] at h

end Rdftk.Sparql
