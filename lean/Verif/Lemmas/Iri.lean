import Verif.Model.Iri
import Verif.Lemmas.PName

/-! Helper lemmas about IRIs: components determine the text and conversely. -/

namespace Rdftk

theorem stripPrefix_eq_some {p s t : Str} : stripPrefix p s = some t ↔ s = p ++ t := by
  induction p generalizing s with
  | nil => simp [stripPrefix, eq_comm]
  | cons c p ih =>
    cases s with
    | nil => simp [stripPrefix]
    | cons d s =>
      simp only [stripPrefix, List.cons_append, List.cons.injEq]
      split
      · rename_i h; subst h; simp [ih]
      · rename_i h; simp [Ne.symm h]

theorem splitHier_append (h : Str) : (splitHier h).1 ++ (splitHier h).2 = h := by
  unfold splitHier
  rcases hs : splitFirst ':' h with ⟨a, _ | b⟩
  · simp
  · obtain ⟨rfl, _⟩ := splitFirst_some.1 hs
    simp only
    cases h2 : stripPrefix ['/', '/'] b with
    | none => simp
    | some r =>
      rw [stripPrefix_eq_some] at h2; subst h2
      simp

theorem splitFirst_fst_not_mem (c : Char) (s : Str) : c ∉ (splitFirst c s).1 := by
  rcases hs : splitFirst c s with ⟨a, _ | b⟩
  · have := splitFirst_none.1 hs; simp; rw [← this.1]; exact this.2
  · exact (splitFirst_some.1 hs).2

theorem splitFirst_text (c : Char) (s : Str) :
    (splitFirst c s).1 ++ withSep c (splitFirst c s).2 = s := by
  rcases hs : splitFirst c s with ⟨a, _ | b⟩
  · simp [withSep, (splitFirst_none.1 hs).1]
  · simp [withSep, (splitFirst_some.1 hs).1]

theorem splitFirst_compose {c : Char} {a : Str} {o : Option Str} (h : c ∉ a) :
    splitFirst c (a ++ withSep c o) = (a, o) := by
  cases o with
  | none => simp [withSep, splitFirst_not_mem h]
  | some b => simp [withSep, splitFirst_append h]

/-- An IRI from its components. -/
def composeIri (pre path : Str) (q f : Option Str) : Iri :=
  ⟨pre ++ path ++ withSep '?' q ++ withSep '#' f⟩

theorem Iri.compose (i : Iri) : composeIri i.pre i.path i.query i.fragment = i := by
  cases i with | mk t =>
  simp only [composeIri, Iri.pre, Iri.path, Iri.query, Iri.fragment, Iri.hier, Iri.noFragment,
    splitHier_append, splitFirst_text]

theorem mem_withSep {x c : Char} {o : Option Str} (h : x ∈ withSep c o) :
    x = c ∨ ∃ s, o = some s ∧ x ∈ s := by
  cases o with
  | none => simp [withSep] at h
  | some s => simp [withSep] at h; rcases h with h | h
              · exact .inl h
              · exact .inr ⟨s, rfl, h⟩

theorem Iri.noFragment_hash (i : Iri) : '#' ∉ i.noFragment := splitFirst_fst_not_mem _ _

theorem Iri.noFragment_eq (i : Iri) : i.noFragment = i.pre ++ i.path ++ withSep '?' i.query := by
  simp only [Iri.pre, Iri.path, Iri.query, Iri.hier, splitHier_append, splitFirst_text]

theorem Iri.hier_eq (i : Iri) : i.hier = i.pre ++ i.path := by
  simp only [Iri.pre, Iri.path, splitHier_append]

theorem Iri.hier_q (i : Iri) : '?' ∉ i.hier := splitFirst_fst_not_mem _ _

/-- Components of a composed IRI. -/
theorem components_compose {pre path : Str} {q f : Option Str}
    (h1 : '#' ∉ pre ++ path ++ withSep '?' q) (h2 : '?' ∉ pre ++ path)
    (h3 : splitHier (pre ++ path) = (pre, path)) :
    (composeIri pre path q f).pre = pre ∧ (composeIri pre path q f).path = path ∧
    (composeIri pre path q f).query = q ∧ (composeIri pre path q f).fragment = f ∧
    (composeIri pre path q f).hier = pre ++ path := by
  have e1 : splitFirst '#' (composeIri pre path q f).text = (pre ++ path ++ withSep '?' q, f) :=
    splitFirst_compose h1
  have e2 : splitFirst '?' (pre ++ path ++ withSep '?' q) = (pre ++ path, q) := splitFirst_compose h2
  simp only [Iri.pre, Iri.path, Iri.query, Iri.fragment, Iri.hier, Iri.noFragment, e1, e2, h3, and_self]

theorem splitHier_pre_path (h : Str) :
    splitHier ((splitHier h).1 ++ (splitHier h).2) = ((splitHier h).1, (splitHier h).2) := by
  rw [splitHier_append]

theorem takeWhile_no (p : Char → Bool) (l : Str) : ∀ x ∈ l.takeWhile p, p x = true := by
  intro x hx
  induction l with
  | nil => simp at hx
  | cons a l ih =>
    simp only [List.takeWhile_cons] at hx
    split at hx
    · rcases List.mem_cons.1 hx with rfl | h
      · assumption
      · exact ih h
    · simp at hx

theorem takeWhile_append_stop {p : Char → Bool} {a b : Str} (h : ∀ x ∈ a, p x = true)
    (hb : b = [] ∨ ∃ c t, b = c :: t ∧ p c = false) :
    (a ++ b).takeWhile p = a ∧ (a ++ b).dropWhile p = b := by
  induction a with
  | nil =>
    rcases hb with rfl | ⟨c, t, rfl, hc⟩
    · simp
    · simp [hc]
  | cons x a ih =>
    have := ih (fun y hy => h y (by simp [hy]))
    simp [h x (by simp), this]

/-- Replacing the path by another that starts with `'/'`. -/
theorem splitHier_newPath {h p' : Str} (hs : (splitFirst ':' h).2.isSome)
    (h1 : ∃ t, p' = '/' :: t)
    (h2 : stripPrefix ['/', '/'] (splitHier h).2 = none → stripPrefix ['/', '/'] p' = none) :
    splitHier ((splitHier h).1 ++ p') = ((splitHier h).1, p') := by
  revert h2
  unfold splitHier
  rcases hs' : splitFirst ':' h with ⟨a, _ | b⟩
  · rw [hs'] at hs; simp at hs
  obtain ⟨rfl, ha⟩ := splitFirst_some.1 hs'
  simp only
  cases hb : stripPrefix ['/', '/'] b with
  | none =>
    simp only [hb]
    intro h2
    have : a ++ [':'] ++ p' = a ++ ':' :: p' := by simp
    rw [this, splitFirst_append ha]
    simp [h2]
  | some r =>
    simp only
    intro _
    have : a ++ [':', '/', '/'] ++ r.takeWhile (· != '/') ++ p' =
        a ++ ':' :: ('/' :: '/' :: (r.takeWhile (· != '/') ++ p')) := by simp
    rw [this, splitFirst_append ha]
    simp only [stripPrefix, ↓reduceIte]
    obtain ⟨t, rfl⟩ := h1
    have := takeWhile_append_stop (p := (· != '/')) (takeWhile_no (· != '/') r)
      (b := '/' :: t) (.inr ⟨'/', t, rfl, by simp⟩)
    simp only [this]

/-- The path of an IRI with scheme that does not start with `'/'` and is not empty
belongs to an opaque IRI, and conversely. -/
theorem Iri.isOpaque_iff (i : Iri) (hs : (splitFirst ':' i.hier).2.isSome) (hp : i.path ≠ []) :
    i.isOpaque = true ↔ startsWith i.path '/' = false := by
  unfold Iri.isOpaque Iri.path at *
  unfold splitHier at *
  rcases hs' : splitFirst ':' i.hier with ⟨a, _ | b⟩
  · rw [hs'] at hs; simp at hs
  simp only [hs'] at hp ⊢
  cases hb : stripPrefix ['/', '/'] b with
  | none => simp
  | some r =>
    rw [hb] at hp
    simp only at hp ⊢
    rw [stripPrefix_eq_some] at hb; subst hb
    have hd : ∃ t, r.dropWhile (· != '/') = '/' :: t := by
      cases hr : r.dropWhile (· != '/') with
      | nil => exact absurd hr hp
      | cons c t =>
        have := List.head_dropWhile_not (p := (· != '/')) (l := r) (w := hp)
        simp only [hr, List.head_cons] at this
        simp at this; subst this; exact ⟨t, rfl⟩
    obtain ⟨t, ht⟩ := hd
    rw [ht]; simp [startsWith]

theorem pctEncode_id {esc : Char → Bool} {s : Str} (h : ∀ c ∈ s, esc c = false) :
    pctEncode esc s = s := by
  induction s with
  | nil => rfl
  | cons c s ih =>
    simp only [pctEncode, List.flatMap_cons] at *
    rw [ih (fun x hx => h x (by simp [hx])), h c (by simp)]; rfl

theorem pctEncode_append {esc : Char → Bool} {s t : Str} :
    pctEncode esc (s ++ t) = pctEncode esc s ++ pctEncode esc t := by
  simp [pctEncode]

/-- Last piece of a split: the text after the last separator. -/
theorem splitOnChar_last (c : Char) (s : Str) :
    ∃ w, (splitOnChar c s).getLast? = some w ∧ c ∉ w ∧ (s = w ∨ ∃ d, s = d ++ c :: w) := by
  induction s with
  | nil => exact ⟨[], by simp [splitOnChar]⟩
  | cons x s ih =>
    obtain ⟨w, h1, h2, h3⟩ := ih
    unfold splitOnChar
    split
    · rename_i hx; subst hx
      refine ⟨w, ?_, h2, ?_⟩
      · rw [List.getLast?_cons, h1]; rfl
      · rcases h3 with rfl | ⟨d, rfl⟩
        · exact .inr ⟨[], rfl⟩
        · exact .inr ⟨x :: d, rfl⟩
    · rename_i hx
      cases hsp : splitOnChar c s with
      | nil => rw [hsp] at h1; simp at h1
      | cons v vs =>
        rw [hsp] at h1
        simp only
        cases vs with
        | nil =>
          simp only [List.getLast?_singleton, Option.some.injEq] at h1
          subst h1
          refine ⟨x :: v, by simp, ?_, ?_⟩
          · simp; exact ⟨fun e => hx e.symm, h2⟩
          · rcases h3 with rfl | ⟨d, rfl⟩
            · exact .inl rfl
            · exfalso
              -- a separator would give two pieces
              have : 2 ≤ (splitOnChar c (d ++ c :: v)).length := by
                clear hsp h2
                induction d with
                | nil =>
                  simp only [List.nil_append, splitOnChar, ↓reduceIte, List.length_cons]
                  have : 0 < (splitOnChar c v).length := by
                    cases v with
                    | nil => simp [splitOnChar]
                    | cons y v =>
                      simp only [splitOnChar]; split
                      · simp
                      · split <;> simp
                  omega
                | cons y d ih =>
                  simp only [List.cons_append, splitOnChar]
                  split
                  · simp only [List.length_cons]; omega
                  · split
                    · rename_i h0; rw [h0] at ih; simp at ih
                    · rename_i h0; rw [h0] at ih; simpa using ih
              rw [hsp] at this; simp at this
        | cons u us =>
          refine ⟨w, by rw [← h1]; simp [List.getLast?_cons], h2, ?_⟩
          rcases h3 with rfl | ⟨d, rfl⟩
          · exfalso
            have hnc : splitOnChar c s = [s] := by
              clear hsp h1 hx
              induction s with
              | nil => rfl
              | cons y s ih =>
                simp at h2
                simp only [splitOnChar]
                rw [if_neg (fun e => h2.1 e.symm), ih h2.2]
            rw [hnc] at hsp; simp at hsp
          · exact .inr ⟨x :: d, rfl⟩

theorem Name.text_ne_nil {s : Str} {n : Name} (h : Name.parse s = .ok n) : n.text ≠ [] := by
  obtain ⟨rfl, _, c, cs, rfl, _⟩ := Name.parse_ok_iff.1 h
  simp

/-- A name character that is ASCII is never escaped. -/
theorem rest_ascii_path {c : Char} (h : isPnPrefixLocalRest c = true) (ha : c.toNat < 0x80) :
    isPathEscaped c = false ∧ isFragEscaped c = false ∧ isCtlOrNonAscii c = false ∧
      c ≠ '#' ∧ c ≠ '?' ∧ c ≠ '/' := by
  have key : ∀ n < 0x80, isPnPrefixLocalRest (Char.ofNat n) = true →
      isPathEscaped (Char.ofNat n) = false ∧ isFragEscaped (Char.ofNat n) = false ∧
      isCtlOrNonAscii (Char.ofNat n) = false ∧
      Char.ofNat n ≠ '#' ∧ Char.ofNat n ≠ '?' ∧ Char.ofNat n ≠ '/' := by decide +kernel
  have := key c.toNat ha
  rw [Char.ofNat_toNat] at this
  exact this h

theorem first_rest {c : Char} (h : isPnLocalFirst c = true) : isPnPrefixLocalRest c = true := by
  simp only [isPnLocalFirst, isPnPrefixLocalRest, isPnChars, Bool.or_eq_true] at *
  rcases h with h | h
  · simp [h]
  · simp [h]

theorem Name.all_rest {s : Str} {n : Name} (h : Name.parse s = .ok n) :
    ∀ c ∈ n.text, isPnPrefixLocalRest c = true := by
  obtain ⟨rfl, _, c, cs, rfl, hf, hr⟩ := Name.parse_ok_iff.1 h
  intro x hx
  rcases List.mem_cons.1 hx with rfl | hx
  · exact first_rest hf
  · exact hr x hx

theorem not_rest_special : isPnPrefixLocalRest '/' = false ∧ isPnPrefixLocalRest '#' = false ∧
    isPnPrefixLocalRest '?' = false ∧ isPnPrefixLocalRest '%' = false := by decide

end Rdftk
