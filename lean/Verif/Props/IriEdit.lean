import Verif.Lemmas.IriEdit
import Verif.Lemmas.NTriples
import Verif.Spec.Percent

/-! Properties C60 and C61: editing the components of IRIs, and percent encoding. -/

namespace Rdftk

open Spec

/-! ### C61 -/

theorem utf8Bytes_eq (c : Char) :
    (utf8Bytes c.toNat).map UInt8.ofNat = String.utf8EncodeChar c ∧ ∀ b ∈ utf8Bytes c.toNat, b < 256 := by
  have hv : c.toNat < 0x110000 := by
    rcases c.valid with h | h <;> simp only [Char.toNat, UInt32.toNat] at h ⊢ <;> omega
  have e : c.val.toNat = c.toNat := rfl
  unfold utf8Bytes String.utf8EncodeChar
  simp only [e]
  generalize c.toNat = n at hv
  by_cases a : n < 0x80
  · rw [if_pos a, if_pos (show n ≤ 0x7f by omega)]
    exact ⟨rfl, by simp; omega⟩
  rw [if_neg a, if_neg (show ¬ n ≤ 0x7f by omega)]
  by_cases b : n < 0x800
  · rw [if_pos b, if_pos (show n ≤ 0x7ff by omega)]
    have h1 : 0xC0 + n / 0x40 = n / 64 % 0x20 + 0xc0 := by omega
    refine ⟨?_, by simp; omega⟩
    simp only [List.map_cons, List.map_nil, h1, Nat.add_comm 0x80]
  rw [if_neg b, if_neg (show ¬ n ≤ 0x7ff by omega)]
  by_cases d : n < 0x10000
  · rw [if_pos d, if_pos (show n ≤ 0xffff by omega)]
    have h1 : 0xE0 + n / 0x1000 = n / 4096 % 0x10 + 0xe0 := by omega
    refine ⟨?_, by simp; omega⟩
    simp only [List.map_cons, List.map_nil, h1, Nat.add_comm 0x80]
  rw [if_neg d, if_neg (show ¬ n ≤ 0xffff by omega)]
  have h1 : 0xF0 + n / 0x40000 = n / 262144 % 0x08 + 0xf0 := by omega
  refine ⟨?_, by simp; omega⟩
  simp only [List.map_cons, List.map_nil, h1, Nat.add_comm 0x80]

theorem utf8Bytes_ne_nil (n : Nat) : utf8Bytes n ≠ [] := by
  unfold utf8Bytes
  split
  · simp
  · split
    · simp
    · split <;> simp

theorem hexUpper_value : ∀ n < 16, hexDigitValue (hexUpper n) = some n := by decide

theorem percentBytes_bytes (bs : List Nat) (h : ∀ b ∈ bs, b < 256) (r : Str) :
    percentBytes (bs.flatMap pctByte ++ r) = bs.map UInt8.ofNat ++ percentBytes r := by
  induction bs with
  | nil => rfl
  | cons b bs ih =>
    have hb := h b List.mem_cons_self
    simp only [List.flatMap_cons, pctByte, List.cons_append, List.nil_append, percentBytes,
      hexUpper_value _ (show b / 16 < 16 by omega), hexUpper_value _ (show b % 16 < 16 by omega),
      Option.getD_some, List.map_cons, ih fun x hx => h x (List.mem_cons_of_mem _ hx)]
    rw [show b / 16 * 16 + b % 16 = b by omega]

/-- C61: decoding what was encoded gives the text's bytes, whatever set of characters is
encoded, when the text holds no percent sign. -/
theorem C61_decode (esc : Char → Bool) (s : Str) (h : '%' ∉ s) :
    percentBytes (pctEncode esc s) = s.flatMap String.utf8EncodeChar := by
  induction s with
  | nil => rfl
  | cons c s ih =>
    rw [List.mem_cons, not_or] at h
    have ih := ih h.2
    simp only [pctEncode, List.flatMap_cons] at ih ⊢
    split
    · rw [pctChar, percentBytes_bytes _ (utf8Bytes_eq c).2, (utf8Bytes_eq c).1, ih]
    · simp only [List.cons_append, List.nil_append]
      rw [percentBytes, ih]
      intro a b t e
      exact absurd e.symm h.1

/-- C61: what is encoded holds none of the characters to be encoded. -/
theorem C61_clean (s : Str) :
    (∀ c ∈ pctEncode isFragEscaped s, isFragEscaped c = false) ∧
    (∀ c ∈ pctEncode isPathEscaped s, isPathEscaped c = false) ∧
    ∀ c ∈ pctEncode isCtlOrNonAscii s, isCtlOrNonAscii c = false := by
  have key : ∀ esc : Char → Bool, esc '%' = false → (∀ n < 16, esc (hexUpper n) = false) →
      ∀ c ∈ pctEncode esc s, esc c = false := by
    intro esc h1 h2 c hc
    simp only [pctEncode, List.mem_flatMap] at hc
    obtain ⟨x, -, hx⟩ := hc
    split at hx
    · simp only [pctChar, List.mem_flatMap, pctByte, List.mem_cons, List.not_mem_nil, or_false] at hx
      obtain ⟨b, hb, rfl | rfl | rfl⟩ := hx
      · exact h1
      · have := (utf8Bytes_eq x).2 b hb
        exact h2 _ (by omega)
      · exact h2 _ (by omega)
    · rename_i hx'
      rw [List.mem_singleton.1 hx]
      exact Bool.eq_false_iff.2 hx'
  exact ⟨key _ (by decide) (by decide), key _ (by decide) (by decide), key _ (by decide) (by decide)⟩

example : pctEncode isPathEscaped (str! "a é{") = (str! "a%20%C3%A9%7B") := by decide

/-! ### C60 -/

/-- C60: replacing the fragment keeps scheme, authority, path and query, and the fragment is
the new one, encoded. -/
theorem C60_fragment (i : Iri) (f : Str) :
    (i.withNewFragment f).pre = i.pre ∧ (i.withNewFragment f).path = i.path ∧
    (i.withNewFragment f).query = i.query ∧
    (i.withNewFragment f).fragment = some (pctEncode isFragEscaped f) ∧
    i.withEmptyFragment.fragment = some [] ∧ i.withEmptyFragment.pre = i.pre ∧
    i.withEmptyFragment.path = i.path ∧ i.withEmptyFragment.query = i.query := by
  have h := withNewFragment_spec i f
  have h' := withNewFragment_spec i []
  exact ⟨h.1, h.2.1, h.2.2.1, h.2.2.2, h'.2.2.2, h'.1, h'.2.1, h'.2.2.1⟩

/-- C60: removing the fragment keeps all else, and putting it back gives the IRI. -/
theorem C60_no_fragment (i : Iri) :
    i.withNoFragment.fragment = none ∧ i.withNoFragment.pre = i.pre ∧
    i.withNoFragment.path = i.path ∧ i.withNoFragment.query = i.query ∧
    (∀ f, i.withNoFragment.withNewFragment f = i.withNewFragment f) ∧
    (i.fragment = none → i.withNoFragment = i) ∧
    ∀ f, i.fragment = some f → i.text = i.withNoFragment.text ++ '#' :: f := by
  have e : splitFirst '#' i.withNoFragment.text = (i.noFragment, none) := by
    have := splitFirst_compose (o := none) i.noFragment_hash
    simp only [withSep, List.append_nil] at this
    exact this
  have e2 : i.withNoFragment.noFragment = i.noFragment := by
    show (splitFirst '#' i.withNoFragment.text).1 = _
    rw [e]
  refine ⟨?_, ?_, ?_, ?_, ?_, ?_, ?_⟩
  · show (splitFirst '#' i.withNoFragment.text).2 = none
    rw [e]
  · simp only [Iri.pre, Iri.hier, e2]
  · simp only [Iri.path, Iri.hier, e2]
  · simp only [Iri.query, e2]
  · intro f; simp only [Iri.withNewFragment, e2]
  · intro h
    have := splitFirst_text '#' i.text
    have h' : (splitFirst '#' i.text).2 = none := h
    rw [h'] at this
    cases i
    simpa [Iri.withNoFragment, Iri.noFragment, withSep] using this
  · intro f h
    have := splitFirst_text '#' i.text
    have h' : (splitFirst '#' i.text).2 = some f := h
    rw [h'] at this
    simpa [Iri.withNoFragment, Iri.noFragment, withSep] using this.symm

/-- C60: replacing the path of a hierarchical IRI keeps scheme, authority, query and fragment,
and the path is the new one, encoded.  Without an authority the new path must not start with
two slashes, as they would be taken for one. -/
theorem C60_path (i : Iri) (hw : i.wf = true) (ho : i.isOpaque = false) (p : Str)
    (h1 : ∃ t, p = '/' :: t)
    (h2 : stripPrefix ['/', '/'] i.path = none → stripPrefix ['/', '/'] p = none) :
    (i.withNewPath p).pre = i.pre ∧ (i.withNewPath p).path = pctEncode isPathEscaped p ∧
    (i.withNewPath p).query = i.query ∧ (i.withNewPath p).fragment = i.fragment := by
  have e : i.withNewPath p = composeIri i.pre (pctEncode isPathEscaped p) i.query i.fragment := by
    simp [Iri.withNewPath, composeIri, ho]
  have hclean := (C61_clean p).2.1
  have hh : '#' ∉ pctEncode isPathEscaped p := fun h => by simpa [isPathEscaped] using hclean _ h
  have hq : '?' ∉ pctEncode isPathEscaped p := fun h => by simpa [isPathEscaped] using hclean _ h
  have g1 : '#' ∉ i.pre ∧ '#' ∉ withSep '?' i.query := by
    have := i.noFragment_hash
    rw [Iri.noFragment_eq] at this
    simp only [List.mem_append, not_or] at this
    exact ⟨this.1.1, this.2⟩
  have g2 : '?' ∉ i.pre := by
    have := i.hier_q
    rw [Iri.hier_eq] at this
    simp only [List.mem_append, not_or] at this
    exact this.1
  obtain ⟨t, rfl⟩ := h1
  have hp' : pctEncode isPathEscaped ('/' :: t) = '/' :: pctEncode isPathEscaped t := by
    have : isPathEscaped '/' = false := by decide
    simp [pctEncode, this]
  have hs : stripPrefix ['/', '/'] (splitHier i.hier).2 = none →
      stripPrefix ['/', '/'] (pctEncode isPathEscaped ('/' :: t)) = none := by
    intro h
    have := h2 h
    rw [hp']
    cases t with
    | nil => rfl
    | cons c t =>
      simp only [stripPrefix, if_true] at this ⊢
      have hc : c ≠ '/' := fun e => by subst e; simp at this
      simp only [pctEncode, List.flatMap_cons]
      split
      · simp only [pctChar]
        cases hb : utf8Bytes c.toNat with
        | nil => exact absurd hb (utf8Bytes_ne_nil _)
        | cons b bs => simp [pctByte, stripPrefix]
      · simp [stripPrefix, Ne.symm hc]
  have h3 := splitHier_newPath (p' := pctEncode isPathEscaped ('/' :: t)) (wf_scheme hw) ⟨_, hp'⟩ hs
  rw [e]
  have := components_compose (pre := i.pre) (path := pctEncode isPathEscaped ('/' :: t)) (q := i.query)
    (f := i.fragment) (by simp only [List.mem_append, not_or]; exact ⟨⟨g1.1, hh⟩, g1.2⟩)
    (by simp only [List.mem_append, not_or]; exact ⟨g2, hq⟩) h3
  exact ⟨this.1, this.2.1, this.2.2.1, this.2.2.2.1⟩

example : (⟨str! "http://h/p?q#f"⟩ : Iri).wf = true ∧ (⟨str! "http://h/p?q#f"⟩ : Iri).isOpaque = false ∧
    (⟨str! "http://h/p?q#f"⟩ : Iri).withNewPath (str! "/a b") = ⟨str! "http://h/a%20b?q#f"⟩ ∧
    (⟨str! "http://h/p?q#f"⟩ : Iri).withNoFragment = ⟨str! "http://h/p?q"⟩ := by decide

end Rdftk
