import Verif.Spec.Resolve
import Verif.Spec.TurtleSafe
import Verif.Lemmas.IriEdit
import Verif.Lemmas.PName
import Verif.Lemmas.Grammar

/-! References that resolve to the base with the reference after it, and the parts of a split
IRI. -/

namespace Rdftk
open Spec

theorem cutAt_append (cs s : Str) : (cutAt cs s).1 ++ (cutAt cs s).2 = s := by
  simp [cutAt]

theorem partsFrom_text (sch s : Str) : (partsFrom sch s).text = sch ++ s := by
  unfold partsFrom Parts.text
  split
  · simp only [List.append_assoc, cutAt_append, List.cons_append]
  · simp only [List.append_assoc, cutAt_append, List.nil_append]

theorem cutAt_head {cs s : Str} {c : Char} {r : Str} (h : (cutAt cs s).2 = c :: r) : c ∈ cs := by
  have := List.head?_dropWhile_not (fun c => !cs.contains c) s
  simp only [cutAt] at h
  rw [h] at this
  simpa using this

theorem hasScheme_cut {s : Str} (h : hasScheme s = true) : ∃ r, (cutAt (str! ":") s).2 = ':' :: r := by
  cases e : (cutAt (str! ":") s).2 with
  | nil =>
    exfalso
    have hm : ':' ∉ s := by
      have h1 := cutAt_append (str! ":") s
      rw [e, List.append_nil] at h1
      intro hm
      rw [← h1] at hm
      have := takeWhile_no _ _ _ hm
      revert this; decide
    simp only [hasScheme, Bool.and_eq_true, beq_iff_eq] at h
    apply hm
    rw [← cutAt_append (str! ":/?#") s]
    exact List.mem_append_right _ (List.mem_of_head? h.2)
  | cons c r =>
    have := cutAt_head e
    simp at this
    exact ⟨r, by rw [this]⟩

theorem partsOf_text (s : Str) : (partsOf s).text = s := by
  unfold partsOf
  split
  · rename_i h
    obtain ⟨r, hr⟩ := hasScheme_cut h
    simp only [partsFrom_text, hr, List.drop_succ_cons, List.drop_zero, List.append_assoc,
      List.singleton_append]
    rw [← hr, cutAt_append]
  · simp only [partsFrom_text, List.nil_append]

theorem segments_ne (s : Str) : segments s ≠ [] := by
  cases s with
  | nil => simp [segments]
  | cons c s =>
    unfold segments
    split
    · simp
    · split <;> simp

theorem unsegments_segments (s : Str) : unsegments (segments s) = s := by
  induction s with
  | nil => rfl
  | cons c s ih =>
    unfold segments
    split
    · rename_i h
      subst h
      cases hs : segments s with
      | nil => exact absurd hs (segments_ne s)
      | cons w ws => rw [hs] at ih; simp [unsegments, ih]
    · split
      · rename_i hs; exact absurd hs (segments_ne s)
      · rename_i w ws hs
        rw [hs] at ih
        cases ws with
        | nil => simp only [unsegments] at ih ⊢; rw [ih]
        | cons v vs => simp only [unsegments, List.cons_append] at ih ⊢; rw [ih]

theorem segments_append (a b : Str) : segments (a ++ '/' :: b) = segments a ++ segments b := by
  induction a with
  | nil => simp [segments]
  | cons c a ih =>
    simp only [List.cons_append, segments]
    split
    · rw [ih]; rfl
    · rw [ih]
      cases hs : segments a with
      | nil => exact absurd hs (segments_ne a)
      | cons w ws => rfl

/-- No piece of the path is `.` or `..`. -/
def Spec.NoDots (p : Str) : Prop := ∀ w ∈ segments p, w ≠ str! "." ∧ w ≠ str! ".."

theorem dropDots_id {ws : List Str} (h : ∀ w ∈ ws, w ≠ str! "." ∧ w ≠ str! "..") (out : List Str) :
    dropDots out ws = out.reverse ++ ws := by
  induction ws generalizing out with
  | nil => simp [dropDots]
  | cons w ws ih =>
    obtain ⟨h1, h2⟩ := h w (by simp)
    unfold dropDots
    rw [if_neg h1, if_neg h2, ih fun w hw => h w (by simp [hw])]
    simp

theorem removeDots_id {p : Str} (h : NoDots p) : removeDots p = p := by
  unfold removeDots
  split
  · rename_i q
    have : ∀ w ∈ segments q, w ≠ str! "." ∧ w ≠ str! ".." := by
      intro w hw
      refine h w ?_
      simp [segments, hw]
    rw [dropDots_id this]
    simp [unsegments_segments]
  · rfl

/-- A base to which references can be appended. -/
structure Spec.PlainBase (b : Str) : Prop where
  scheme : hasScheme b = true
  query : (partsOf b).query = []
  fragment : (partsOf b).fragment = []
  slash : ∃ p, (partsOf b).path = p ++ ['/']
  dots : NoDots (partsOf b).path

/-- A reference that is no path from the root, has no scheme and no dot segments. -/
structure Spec.PlainRef (r : Str) : Prop where
  scheme : hasScheme r = false
  root : r.head? ≠ some '/'
  dots : NoDots (partsOf r).path

theorem NoDots.append {p r : Str} (hp : NoDots (p ++ ['/'])) (hr : NoDots r) : NoDots (p ++ '/' :: r) := by
  unfold NoDots at *
  rw [segments_append] at *
  intro w hw
  rcases List.mem_append.1 hw with h | h
  · exact hp w (by simp [h])
  · exact hr w h

theorem resolve_plain {b r : Str} (hb : PlainBase b) (hr : PlainRef r) : resolve b r = b ++ r := by
  have ht := partsOf_text b
  have hq := partsOf_text r
  obtain ⟨p, hp⟩ := hb.slash
  have ha : (partsOf r).authority = [] ∧ (partsOf r).scheme = [] := by
    unfold partsOf
    rw [hr.scheme]
    simp only [if_false, Bool.false_eq_true, partsFrom]
    refine ⟨?_, trivial⟩
    split
    · rename_i h; exact absurd rfl hr.root
    · rfl
  have hhead : (partsOf r).path.head? ≠ some '/' := by
    intro h
    apply hr.root
    cases hpp : (partsOf r).path with
    | nil => rw [hpp] at h; simp at h
    | cons c q =>
      rw [hpp] at h
      simp only [List.head?_cons, Option.some.injEq] at h
      subst h
      rw [← hq]
      simp [Parts.text, ha.1, ha.2, hpp]
  have e : (partsOf r).path ++ ((partsOf r).query ++ (partsOf r).fragment) = r := by
    conv => rhs; rw [← hq]
    simp [Parts.text, ha.1, ha.2]
  have e' : (partsOf b).scheme ++ ((partsOf b).authority ++ (partsOf b).path) = b := by
    conv => rhs; rw [← ht]
    simp [Parts.text, hb.query, hb.fragment]
  unfold resolve
  dsimp only
  rw [if_neg (by simp [ha.1])]
  by_cases h0 : (partsOf r).path = []
  · rw [if_pos h0]
    have : (if (partsOf r).query = [] then (partsOf b).query else (partsOf r).query) = (partsOf r).query := by
      split
      · rename_i h; rw [h, hb.query]
      · rfl
    rw [h0, List.nil_append] at e
    simp only [Parts.text, this, List.append_assoc]
    rw [e, ← List.append_assoc (partsOf b).authority, ← List.append_assoc, e']
  · rw [if_neg h0, if_neg hhead]
    have hm : mergePaths (partsOf b) (partsOf r).path = (partsOf b).path ++ (partsOf r).path := by
      unfold mergePaths
      rw [if_neg (by rw [hp]; simp), hp]
      simp
    have hd : NoDots ((partsOf b).path ++ (partsOf r).path) := by
      have := hb.dots
      rw [hp] at this ⊢
      simpa using NoDots.append this hr.dots
    rw [hm, removeDots_id hd]
    simp only [Parts.text, List.append_assoc]
    rw [e, ← List.append_assoc (partsOf b).authority, ← List.append_assoc, e']

theorem split_text {i ns : Iri} {n : Name} (hw : i.wf = true) (hne : i.fragment ≠ some [])
    (h : i.split = .ok (some (ns, n))) : ns.text ++ n.text = i.text ∧ Name.parse n.text = .ok n := by
  cases hf : i.fragment with
  | some f =>
    cases f with
    | nil => exact absurd hf hne
    | cons c cs =>
      obtain ⟨rfl, ht, hp⟩ := split_fragment_branch hf h
      refine ⟨?_, hp⟩
      have := withNewFragment_eq i _ hf (wf_fragment hw hf)
      conv => rhs; rw [← this]
      rw [ht]
      simp only [Iri.withEmptyFragment, Iri.withNewFragment, pctEncode, List.flatMap_nil]
      have h2 := wf_fragment hw hf
      have h3 := pctEncode_id h2
      unfold pctEncode at h3
      rw [h3]; simp
  | none =>
    obtain ⟨d, e, he, hs, hns, hq, hp⟩ := split_path_branch (.inl hf) h
    obtain ⟨e1, -⟩ := split_path_ns (n := n) hw e hs hns
    refine ⟨?_, hp⟩
    conv => rhs; rw [← i.compose]
    rw [e1, hq, hf, e]
    simp [composeIri, withSep]

/-! ### Names of the code are names of Turtle -/

theorem bool_eq_of_iff {a b : Bool} (h : a = true ↔ b = true) : a = b := by
  cases a <;> cases b <;> simp_all

theorem inRanges_iff (rs : List (Nat × Nat)) (c : Char) : inRanges rs c = true ↔ InRanges rs c := by
  simp [inRanges, InRanges, List.any_eq_true]

theorem pnBase_eq (c : Char) : pnBase c = isPnCharsBase c :=
  bool_eq_of_iff (by rw [isPnCharsBase_iff]; exact inRanges_iff _ c)

theorem digit_eq (c : Char) : digit c = isAsciiDigit c :=
  bool_eq_of_iff (by rw [isAsciiDigit_iff]; exact inRanges_iff _ c)

theorem pnU_eq (c : Char) : pnU c = isPnCharsU c := by simp [pnU, isPnCharsU, pnBase_eq]

theorem pnChar_eq (c : Char) : pnChar c = isPnChars c :=
  bool_eq_of_iff (by
    rw [isPnChars_iff]
    simp only [pnChar, PN_CHARS, Bool.or_eq_true, pnU_eq, isPnCharsU_iff, digit_eq, isAsciiDigit_iff,
      beq_iff_eq, inRanges_iff, or_assoc])

theorem endsWith_last {s : Str} {c : Char} : endsWith s c = true ↔ s.getLast? = some c := by
  unfold endsWith; simp

theorem isLocal_of_parse {n : Name} (h : Name.parse n.text = .ok n) : isLocal n.text = true := by
  obtain ⟨-, h1, c, cs, e, h2, h3⟩ := Name.parse_ok_iff.1 h
  rw [e] at h1 ⊢
  simp only [isLocal, Bool.and_eq_true, Bool.or_eq_true, List.all_eq_true, bne_iff_ne, beq_iff_eq]
  simp only [isPnLocalFirst, Bool.or_eq_true] at h2
  refine ⟨⟨?_, fun x hx => ?_⟩, ?_⟩
  · rw [pnU_eq, digit_eq]; rcases h2 with h | h <;> simp [h]
  · have := h3 x hx
    simp only [isPnPrefixLocalRest, Bool.or_eq_true, beq_iff_eq] at this
    rw [pnChar_eq]
    exact .inl this
  · intro hl
    have : endsWith (c :: cs) '.' = true := by
      rw [endsWith_last]
      cases cs with
      | nil => simp at hl
      | cons x xs => rw [List.getLast?_cons_cons]; exact hl
    rw [this] at h1; cases h1

end Rdftk
