import Verif.Lemmas.Iri

namespace Rdftk

/-! ### Effect of the two editing operations on the components -/

theorem withNewFragment_spec (i : Iri) (f : Str) :
    (i.withNewFragment f).pre = i.pre ∧ (i.withNewFragment f).path = i.path ∧
    (i.withNewFragment f).query = i.query ∧
    (i.withNewFragment f).fragment = some (pctEncode isFragEscaped f) := by
  have e : i.withNewFragment f =
      composeIri i.pre i.path i.query (some (pctEncode isFragEscaped f)) := by
    simp [Iri.withNewFragment, composeIri, Iri.noFragment_eq, withSep]
  rw [e]
  have := components_compose (pre := i.pre) (path := i.path) (q := i.query)
    (f := some (pctEncode isFragEscaped f))
    (by rw [← Iri.noFragment_eq]; exact i.noFragment_hash)
    (by rw [← Iri.hier_eq]; exact i.hier_q)
    (splitHier_pre_path _)
  exact ⟨this.1, this.2.1, this.2.2.1, this.2.2.2.1⟩

theorem withNewFragment_eq (i : Iri) (f : Str) (h : i.fragment = some f)
    (hf : ∀ c ∈ f, isFragEscaped c = false) : i.withNewFragment f = i := by
  have e := i.compose
  rw [h] at e
  rw [← e, Iri.withNewFragment, pctEncode_id hf, e]
  conv => rhs; rw [← e]
  simp [composeIri, Iri.noFragment_eq, withSep]

theorem withNewFragment_idem (i : Iri) (f g : Str) :
    (i.withNewFragment f).withNewFragment g = i.withNewFragment g := by
  have := withNewFragment_spec i f
  simp [Iri.withNewFragment, Iri.noFragment_eq] at *
  simp [this]

theorem wf_scheme {i : Iri} (h : i.wf = true) : (splitFirst ':' i.hier).2.isSome := by
  simp only [Iri.wf, Bool.and_eq_true] at h; exact h.1.1

theorem wf_path {i : Iri} (h : i.wf = true) :
    ∀ c ∈ i.path, (if i.isOpaque then isCtlOrNonAscii else isPathEscaped) c = false := by
  simp only [Iri.wf, Bool.and_eq_true, List.all_eq_true, Bool.not_eq_true'] at h
  exact h.1.2

theorem wf_fragment {i : Iri} (h : i.wf = true) {f : Str} (hf : i.fragment = some f) :
    ∀ c ∈ f, isFragEscaped c = false := by
  simp only [Iri.wf, Bool.and_eq_true, List.all_eq_true, Bool.not_eq_true', hf, Option.getD_some] at h
  exact h.2

/-- Setting a path that begins with `'/'`, needs no escaping and is an authority-free
path if the old one was. -/
theorem withNewPath_spec (i : Iri) (p : Str) (hw : i.wf = true)
    (hesc : ∀ c ∈ p, (if i.isOpaque then isCtlOrNonAscii else isPathEscaped) c = false)
    (hh : '#' ∉ p) (hq : '?' ∉ p)
    (h1 : ∃ t, p = '/' :: t)
    (h2 : stripPrefix ['/', '/'] i.path = none → stripPrefix ['/', '/'] p = none) :
    i.withNewPath p = composeIri i.pre p i.query i.fragment ∧
    (i.withNewPath p).pre = i.pre ∧ (i.withNewPath p).path = p ∧
    (i.withNewPath p).query = i.query ∧ (i.withNewPath p).fragment = i.fragment ∧
    (i.withNewPath p).hier = i.pre ++ p := by
  have e : i.withNewPath p = composeIri i.pre p i.query i.fragment := by
    simp only [Iri.withNewPath, composeIri, pctEncode_id hesc]
  refine ⟨e, ?_⟩
  rw [e]
  have hn := i.noFragment_hash
  rw [Iri.noFragment_eq] at hn
  have hk := i.hier_q
  rw [Iri.hier_eq] at hk
  apply components_compose
  · simp only [List.mem_append, not_or] at hn ⊢
    exact ⟨⟨hn.1.1, hh⟩, hn.2⟩
  · simp only [List.mem_append, not_or] at hk ⊢
    exact ⟨hk.1, hq⟩
  · exact splitHier_newPath (wf_scheme hw) h1 h2

/-- The path branch of `split`, described by the text of the path. -/
theorem split_path_branch {i ns : Iri} {n : Name} (hf : i.fragment = none ∨ i.fragment = some [])
    (h : i.split = .ok (some (ns, n))) :
    ∃ d, i.path = d ++ n.text ∧ endsWith d '/' = true ∧ startsWith d '/' = true ∧
      ns = i.withNewPath d ∧ i.query = none ∧ Name.parse n.text = .ok n := by
  unfold Iri.split at h
  have : (∀ c cs, i.fragment ≠ some (c :: cs)) := by
    intro c cs e; rcases hf with hf | hf <;> rw [hf] at e <;> cases e
  split at h
  · rename_i c cs e; exact absurd e (this c cs)
  · split at h
    · rename_i hc
      simp only [Bool.and_eq_true, Bool.not_eq_true', Option.isNone_iff_eq_none] at hc
      obtain ⟨⟨hc1, hc2⟩, hc3⟩ := hc
      unfold pathSegments at h
      split at h
      · cases h
      · rename_i segs hsegs
        split at hsegs
        · rename_i r hr
          cases hsegs
          obtain ⟨w, hw1, hw2, hw3⟩ := splitOnChar_last '/' r
          rw [hw1] at h
          simp only at h
          cases hp : Name.parse w with
          | error e => rw [hp] at h; simp at h
          | ok nm =>
            rw [hp] at h
            simp only [Outcome.ok.injEq, Option.some.injEq, Prod.mk.injEq] at h
            obtain ⟨rfl, rfl⟩ := h
            have ht := Name.parse_text hp
            rw [hr] at *
            rcases hw3 with rfl | ⟨d, rfl⟩
            · refine ⟨['/'], by simp [ht], by decide, by decide, ?_, hc3, by rw [ht]; exact hp⟩
              congr 1; simp [ht]
            · refine ⟨'/' :: d ++ ['/'], by simp [ht], ?_, ?_, ?_, hc3, by rw [ht]; exact hp⟩
              · exact endsWith_iff.2 ⟨'/' :: d, rfl⟩
              · simp [startsWith]
              · congr 1; rw [ht]
                have : '/' :: (d ++ '/' :: w) = ('/' :: d ++ ['/']) ++ w := by simp
                rw [this]
                rw [List.length_append, Nat.add_sub_cancel, List.take_left]
        · cases hsegs
    · cases h

/-- The fragment branch of `split`. -/
theorem split_fragment_branch {i ns : Iri} {n : Name} {c : Char} {cs : Str}
    (hf : i.fragment = some (c :: cs)) (h : i.split = .ok (some (ns, n))) :
    ns = i.withEmptyFragment ∧ n.text = c :: cs ∧ Name.parse n.text = .ok n := by
  unfold Iri.split at h
  rw [hf] at h
  simp only at h
  cases hp : Name.parse (c :: cs) with
  | error e => rw [hp] at h; simp at h
  | ok nm =>
    rw [hp] at h
    simp only [Outcome.ok.injEq, Option.some.injEq, Prod.mk.injEq] at h
    obtain ⟨rfl, rfl⟩ := h
    have ht := Name.parse_text hp
    exact ⟨rfl, ht, by rw [ht]; exact hp⟩

theorem prefix_no_dslash {d n : Str} (h : stripPrefix ['/', '/'] (d ++ n) = none) :
    stripPrefix ['/', '/'] d = none := by
  cases hd : stripPrefix ['/', '/'] d with
  | none => rfl
  | some t =>
    rw [stripPrefix_eq_some] at hd
    subst hd
    have : stripPrefix ['/', '/'] (['/', '/'] ++ t ++ n) = some (t ++ n) :=
      stripPrefix_eq_some.2 (by simp)
    rw [this] at h; cases h

theorem startsWith_iff {s : Str} {c : Char} : startsWith s c = true ↔ ∃ t, s = c :: t := by
  cases s with
  | nil => simp [startsWith]
  | cons d s => simp [startsWith]

/-- The namespace given by the path branch. -/
theorem split_path_ns {i ns : Iri} {n : Name} {d : Str} (hw : i.wf = true)
    (e : i.path = d ++ n.text) (hs : startsWith d '/' = true) (hns : ns = i.withNewPath d) :
    ns = composeIri i.pre d i.query i.fragment ∧ ns.pre = i.pre ∧ ns.path = d ∧
      ns.query = i.query ∧ ns.fragment = i.fragment ∧ ns.hier = i.pre ++ d := by
  subst hns
  have hmem : ∀ c ∈ d, c ∈ i.path := fun c hc => by rw [e]; simp [hc]
  have hn := i.noFragment_hash
  have hk := i.hier_q
  rw [Iri.noFragment_eq] at hn
  rw [Iri.hier_eq] at hk
  apply withNewPath_spec i d hw
  · intro c hc; exact wf_path hw c (hmem c hc)
  · intro h; apply hn; simp [hmem _ h]
  · intro h; apply hk; simp [hmem _ h]
  · exact startsWith_iff.1 hs
  · intro h; rw [e] at h; exact prefix_no_dslash h

end Rdftk
