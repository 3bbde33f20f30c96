import Verif.Model.Genid
import Verif.Lemmas.Resolve
import Verif.Lemmas.IriEdit

/-! Properties of well-known IRIs for blank nodes. -/

namespace Rdftk
open Spec

theorem takeWhile_both (p q : Char → Bool) (l : Str) :
    (l.takeWhile q).takeWhile p = l.takeWhile fun c => p c && q c := by
  induction l with
  | nil => rfl
  | cons c l ih =>
    simp only [List.takeWhile_cons]
    cases hq : q c with
    | false => simp
    | true => simp [List.takeWhile_cons, ih]

theorem splitFirst_takeWhile (c : Char) (s : Str) : (splitFirst c s).1 = s.takeWhile (· != c) := by
  rcases hs : splitFirst c s with ⟨a, _ | b⟩
  · obtain ⟨rfl, h⟩ := splitFirst_none.1 hs
    have := List.takeWhile_append_of_pos (p := (· != c)) (l₁ := s) (l₂ := []) (by
      intro x hx
      simp only [bne_iff_ne, ne_eq]
      rintro rfl
      exact h hx)
    simpa using this.symm
  · obtain ⟨rfl, h⟩ := splitFirst_some.1 hs
    simp only
    rw [List.takeWhile_append_of_pos]
    · simp
    · intro x hx
      simp only [bne_iff_ne, ne_eq]
      rintro rfl
      exact h hx

theorem takeWhile_pass {p : Char → Bool} {a b : Str} (h : ∀ c ∈ a, p c = true) :
    (a ++ b).takeWhile p = a ++ b.takeWhile p := List.takeWhile_append_of_pos h

/-- Scheme and authority of the model are those of RFC 3986. -/
theorem pre_parts {i : Iri} (h : hasScheme i.text = true) :
    i.pre = (partsOf i.text).scheme ++ (partsOf i.text).authority := by
  have hs := h
  simp only [hasScheme, Bool.and_eq_true, beq_iff_eq] at hs
  have hcut := cutAt_append (str! ":/?#") i.text
  have hno : ∀ c ∈ (cutAt (str! ":/?#") i.text).1, (!(str! ":/?#").contains c) = true := by
    intro c hc
    exact takeWhile_no _ _ c hc
  generalize hx : (cutAt (str! ":/?#") i.text).1 = s at *
  obtain ⟨r, hr⟩ : ∃ r, (cutAt (str! ":/?#") i.text).2 = ':' :: r := by
    cases hc : (cutAt (str! ":/?#") i.text).2 with
    | nil => rw [hc] at hs; simp at hs
    | cons c r => rw [hc] at hs; simp at hs; exact ⟨r, by rw [hs.2]⟩
  rw [hr] at hcut
  have hne : ∀ d ∈ str! ":/?#", ∀ c ∈ s, (c != d) = true := by
    intro d hd c hc
    have := hno c hc
    simp only [bne_iff_ne, ne_eq]
    rintro rfl
    simp only [Bool.not_eq_true', List.contains_eq_mem, decide_eq_false_iff_not] at this
    exact this hd
  have hhier : i.hier = s ++ ':' :: ((r.takeWhile (· != '#')).takeWhile (· != '?')) := by
    unfold Iri.hier Iri.noFragment
    rw [splitFirst_takeWhile, splitFirst_takeWhile, ← hcut, takeWhile_pass (hne '#' (by decide)),
      List.takeWhile_cons_of_pos (by decide), takeWhile_pass (hne '?' (by decide)),
      List.takeWhile_cons_of_pos (by decide)]
  have hcolon : splitFirst ':' i.hier = (s, some ((r.takeWhile (· != '#')).takeWhile (· != '?'))) := by
    rw [hhier]
    apply splitFirst_append
    intro hm
    have := hne ':' (by decide) ':' hm
    revert this; decide
  have hparts : partsOf i.text = partsFrom (s ++ [':']) r := by
    unfold partsOf
    rw [if_pos h]
    have e1 : (cutAt (str! ":") i.text).1 = s := by
      simp only [cutAt]
      rw [← hcut, takeWhile_pass]
      · simp
      · intro c hc
        have := hne ':' (by decide) c hc
        simpa using this
    have e2 := cutAt_append (str! ":") i.text
    rw [e1] at e2
    have e3 : (cutAt (str! ":") i.text).2 = ':' :: r := List.append_cancel_left (e2.trans hcut.symm)
    simp only [e1, e3]
    rfl
  have two : ∀ x : Str, ((x.takeWhile (· != '#')).takeWhile (· != '?')).takeWhile (· != '/') =
      (cutAt (str! "/?#") x).1 := by
    intro x
    rw [takeWhile_both, takeWhile_both]
    unfold cutAt
    congr 1
    funext c
    by_cases h1 : c = '/' <;> by_cases h2 : c = '?' <;> by_cases h3 : c = '#' <;> simp [h1, h2, h3]
  unfold Iri.pre splitHier
  rw [hcolon, hparts]
  simp only [partsFrom]
  by_cases hd : ∃ x, r = '/' :: '/' :: x
  · obtain ⟨x, rfl⟩ := hd
    have : (List.takeWhile (· != '?') (List.takeWhile (· != '#') ('/' :: '/' :: x))) =
        '/' :: '/' :: (List.takeWhile (· != '?') (List.takeWhile (· != '#') x)) := by
      simp
    rw [this]
    have hp : stripPrefix ['/', '/'] ('/' :: '/' :: (List.takeWhile (· != '?') (List.takeWhile (· != '#') x))) =
        some (List.takeWhile (· != '?') (List.takeWhile (· != '#') x)) := stripPrefix_eq_some.2 rfl
    rw [hp]
    simp only [two]
    simp
  · have hp : stripPrefix ['/', '/'] (List.takeWhile (· != '?') (List.takeWhile (· != '#') r)) = none := by
      cases hq : stripPrefix ['/', '/'] (List.takeWhile (· != '?') (List.takeWhile (· != '#') r)) with
      | none => rfl
      | some x =>
        rw [stripPrefix_eq_some, takeWhile_both] at hq
        exfalso
        apply hd
        have := List.takeWhile_prefix (l := r) fun a => (a != '?' && a != '#')
        rw [hq] at this
        obtain ⟨t, ht⟩ := this
        exact ⟨x ++ t, by rw [← ht]; simp⟩
    rw [hp]
    split
    · simp only
      split
      · rename_i x; exact absurd ⟨x, rfl⟩ hd
      · simp
    · rename_i e; cases e

theorem uuidSimple_chars (u : Nat) : ∀ c ∈ uuidSimple u, c.isAlphanum = true := by
  intro c hc
  rcases List.mem_append.1 hc with hc | hc
  · rw [(List.mem_replicate.1 hc).2]; decide
  · obtain ⟨d, hd, rfl⟩ := toDigits_mem (by decide) hc
    exact (by decide : ∀ d < 16, d.digitChar.isAlphanum = true) d hd

/-- The number of hexadecimal digits. -/
def hexOf (s : Str) : Nat :=
  s.foldl (fun n c => n * 16 + (if c.isDigit then c.toNat - 48 else c.toNat - 87)) 0

theorem hexOf_append (a : Str) (c : Char) :
    hexOf (a ++ [c]) = hexOf a * 16 + (if c.isDigit then c.toNat - 48 else c.toNat - 87) := by
  simp [hexOf]

theorem digitChar_hex {d : Nat} (h : d < 16) :
    (if d.digitChar.isDigit then d.digitChar.toNat - 48 else d.digitChar.toNat - 87) = d := by
  revert d; decide

theorem hexOf_toDigits (u : Nat) : hexOf (Nat.toDigits 16 u) = u := by
  induction u using Nat.strongRecOn with
  | _ u ih =>
    by_cases h : u < 16
    · rw [Nat.toDigits_of_lt_base h]
      have := hexOf_append [] u.digitChar
      rw [List.nil_append, digitChar_hex h] at this
      simpa [hexOf] using this
    · rw [Nat.toDigits_of_base_le (by decide) (by omega), hexOf_append, ih _ (by omega),
        digitChar_hex (Nat.mod_lt _ (by decide))]
      omega

theorem hexOf_zeros (k : Nat) (s : Str) : hexOf (List.replicate k '0' ++ s) = hexOf s := by
  induction k with
  | zero => rfl
  | succ k ih => rw [← ih]; simp [hexOf, List.replicate_succ]

theorem uuidSimple_number (u : Nat) : hexOf (uuidSimple u) = u := by
  rw [uuidSimple, padLeft, hexOf_zeros, hexOf_toDigits]

theorem uuidSimple_inj {u v : Nat} (h : uuidSimple u = uuidSimple v) : u = v := by
  rw [← uuidSimple_number u, h, uuidSimple_number]

theorem genid_chars (u : Nat) :
    ∀ c ∈ str! "/.well-known/genid/" ++ uuidSimple u, c ≠ '?' ∧ c ≠ '#' ∧ c ≠ ':' := by
  intro c hc
  rcases List.mem_append.1 hc with hc | hc
  · exact (by decide : ∀ c ∈ str! "/.well-known/genid/", c ≠ '?' ∧ c ≠ '#' ∧ c ≠ ':') c hc
  · have := uuidSimple_chars u c hc
    refine ⟨?_, ?_, ?_⟩ <;> (rintro rfl; revert this; decide)

theorem segments_single {s : Str} (h : '/' ∉ s) : segments s = [s] := by
  induction s with
  | nil => rfl
  | cons c s ih =>
    simp only [List.mem_cons, not_or] at h
    simp [segments, Ne.symm h.1, ih h.2]

theorem genid_dots (u : Nat) : NoDots (str! "/.well-known/genid/" ++ uuidSimple u) := by
  have h : '/' ∉ uuidSimple u := fun hm => by
    have := uuidSimple_chars u _ hm; revert this; decide
  have hd : '.' ∉ uuidSimple u := fun hm => by
    have := uuidSimple_chars u _ hm; revert this; decide
  have e : str! "/.well-known/genid/" ++ uuidSimple u = str! "/.well-known/genid" ++ '/' :: uuidSimple u := rfl
  unfold NoDots
  rw [e, segments_append, segments_single h]
  intro w hw
  rcases List.mem_append.1 hw with hw | hw
  · exact (by decide : ∀ w ∈ segments (str! "/.well-known/genid"), w ≠ str! "." ∧ w ≠ str! "..") w hw
  · rw [List.mem_singleton.1 hw]
    constructor <;> (intro e; rw [e] at hd; simp at hd)

theorem genid_parts (u : Nat) : partsOf (str! "/.well-known/genid/" ++ uuidSimple u) =
    ⟨[], [], str! "/.well-known/genid/" ++ uuidSimple u, [], []⟩ := by
  have hn : hasScheme (str! "/.well-known/genid/" ++ uuidSimple u) = false := rfl
  have hc := genid_chars u
  generalize he : str! "/.well-known/genid/" ++ uuidSimple u = p at *
  have hcut : cutAt (str! "?#") p = (p, []) := by
    have h : ∀ c ∈ p, (!(str! "?#").contains c) = true := by
      intro c h
      have := hc c h
      simp [this.1, this.2.1]
    have ht := takeWhile_pass (b := []) h
    have hd : p.dropWhile (fun c => !(str! "?#").contains c) = [] := by
      have e := List.takeWhile_append_dropWhile (p := fun c => !(str! "?#").contains c) (l := p)
      simp only [List.append_nil, List.takeWhile_nil] at ht
      rw [ht] at e
      simpa using e
    simp only [List.append_nil, List.takeWhile_nil] at ht
    simp only [cutAt, ht, hd]
  unfold partsOf
  rw [hn]
  simp only [Bool.false_eq_true, if_false, partsFrom]
  have hm : ∀ x, p ≠ '/' :: '/' :: x := by
    intro x e; rw [← he] at e; cases e
  split
  · rename_i x; exact absurd rfl (hm x)
  · simp only [hcut]; rfl

/-! ### C95 -/

/-- C95: the new IRI is the well-known path resolved against the base by RFC 3986. -/
theorem C95_resolves (i : Iri) (u : Nat) (hs : hasScheme i.text = true) (ho : i.isOpaque = false) :
    ∃ j, i.genidOf u = some j ∧ j.text = resolve i.text (str! "/.well-known/genid/" ++ uuidSimple u) := by
  refine ⟨⟨i.pre ++ str! "/.well-known/genid/" ++ uuidSimple u⟩, by simp [Iri.genidOf, Iri.genid, ho], ?_⟩
  have hr : (str! "/.well-known/genid/" ++ uuidSimple u).head? = some '/' := rfl
  have hne : str! "/.well-known/genid/" ++ uuidSimple u ≠ [] := by simp
  unfold resolve
  simp only [genid_parts, ne_eq, not_true_eq_false, if_false, hne, hr, if_true, removeDots_id (genid_dots u), Parts.text,
    List.append_nil, pre_parts hs, List.append_assoc]

/-- C95: scheme and server are those of the base, and there is no query and no fragment. -/
theorem C95_components (i j : Iri) (u : Nat) (hs : (splitFirst ':' i.hier).2.isSome) (h : i.genidOf u = some j) :
    j.pre = i.pre ∧ j.path = str! "/.well-known/genid/" ++ uuidSimple u ∧ j.query = none ∧ j.fragment = none := by
  simp only [Iri.genidOf, Iri.genid] at h
  split at h
  · cases h
  cases h
  have e : (⟨i.pre ++ str! "/.well-known/genid/" ++ uuidSimple u⟩ : Iri) =
      composeIri i.pre (str! "/.well-known/genid/" ++ uuidSimple u) none none := by
    simp [composeIri, withSep]
  rw [e]
  have hc := genid_chars u
  have hh : ∀ c ∈ i.pre, c ≠ '?' ∧ c ≠ '#' := by
    intro c hc
    have h1 : c ∈ i.hier := by rw [Iri.hier_eq]; simp [hc]
    have h2 : c ∈ i.noFragment := by rw [Iri.noFragment_eq]; simp [hc]
    exact ⟨fun e => i.hier_q (e ▸ h1), fun e => i.noFragment_hash (e ▸ h2)⟩
  have h3 : splitHier (i.pre ++ (str! "/.well-known/genid/" ++ uuidSimple u)) =
      (i.pre, str! "/.well-known/genid/" ++ uuidSimple u) :=
    splitHier_newPath hs ⟨_, rfl⟩ fun _ => rfl
  obtain ⟨a, b, c, d, _⟩ := components_compose (q := none) (f := none)
    (by
      intro hm
      simp only [withSep, List.append_nil] at hm
      rcases List.mem_append.1 hm with hm | hm
      · exact (hh _ hm).2 rfl
      · exact (hc _ hm).2.1 rfl)
    (by
      intro hm
      rcases List.mem_append.1 hm with hm | hm
      · exact (hh _ hm).1 rfl
      · exact (hc _ hm).1 rfl) h3
  exact ⟨a, b, c, d⟩

/-- C95: two new IRIs are equal exactly for the same scheme and server and the same identifier. -/
theorem C95_distinct (i i' j j' : Iri) (u u' : Nat) (hs : (splitFirst ':' i.hier).2.isSome)
    (hs' : (splitFirst ':' i'.hier).2.isSome) (h : i.genidOf u = some j) (h' : i'.genidOf u' = some j') :
    j = j' ↔ i.pre = i'.pre ∧ u = u' := by
  constructor
  · rintro rfl
    obtain ⟨a, b, _⟩ := C95_components i j u hs h
    obtain ⟨a', b', _⟩ := C95_components i' j u' hs' h'
    exact ⟨a.symm.trans a', uuidSimple_inj (List.append_cancel_left (b.symm.trans b'))⟩
  · rintro ⟨e, rfl⟩
    simp only [Iri.genidOf, Iri.genid] at h h'
    split at h
    · cases h
    split at h'
    · cases h'
    cases h; cases h'
    rw [e]

/-- C95: there is a new IRI exactly for a base that can be one. -/
theorem C95_iff (i : Iri) (u : Nat) : (i.genidOf u).isSome = true ↔ i.isOpaque = false := by
  cases h : i.isOpaque <;> simp [Iri.genidOf, Iri.genid, h]

/-- C95: the identifier is written with 32 digits, from which it can be read. -/
theorem C95_digits (u : Nat) (h : u < 2 ^ 128) : (uuidSimple u).length = 32 ∧ hexOf (uuidSimple u) = u := by
  refine ⟨?_, uuidSimple_number u⟩
  have : (Nat.toDigits 16 u).length ≤ 32 := by
    apply (Nat.length_toDigits_le_iff (by decide) (by decide)).2
    exact h
  simp [uuidSimple, padLeft]
  omega

/-- A base with path and fragment. -/
example : Iri.genidOf ⟨str! "https://example.org/path#fragment"⟩ 255 =
    some ⟨str! "https://example.org/.well-known/genid/000000000000000000000000000000ff"⟩ := by decide +kernel

/-- A name has no place for a path. -/
example : Iri.genidOf ⟨str! "urn:a"⟩ 255 = none := by decide +kernel

end Rdftk
