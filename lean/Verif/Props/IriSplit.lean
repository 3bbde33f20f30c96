import Verif.Props.PrefixMap
import Verif.Props.IriEdit

/-! Properties C05, C06, C12 and C13 as equivalences: for which IRIs and names the split and the
join of names, and the compression and expansion of IRIs, undo each other. -/

namespace Rdftk

/-! ### C05, C12 -/

/-- C05, exactly: an IRI that splits is restored if and only if it does not end in an empty
fragment. -/
theorem C05_iff (i ns : Iri) (n : Name) (hw : i.wf = true) (h : i.split = .ok (some (ns, n))) :
    ns.makeName n = some i ↔ i.fragment ≠ some [] := by
  refine ⟨?_, fun hne => C05_split_makeName_partial i ns n hw hne h⟩
  intro hm hf
  obtain ⟨d, e, -, hs, hns, -, hp⟩ := split_path_branch (.inr hf) h
  obtain ⟨-, -, -, -, e5, -⟩ := split_path_ns (n := n) hw e hs hns
  simp only [Iri.makeName, e5, hf, Option.isSome_some, if_true, Option.some.injEq] at hm
  have h4 := (withNewFragment_spec ns n.text).2.2.2
  rw [hm, hf] at h4
  have hne := Name.text_ne_nil hp
  cases ht : n.text with
  | nil => exact hne ht
  | cons c t =>
    rw [ht] at h4
    simp only [pctEncode, List.flatMap_cons, Option.some.injEq] at h4
    split at h4
    · simp only [pctChar] at h4
      cases hb : utf8Bytes c.toNat with
      | nil => exact absurd hb (utf8Bytes_ne_nil _)
      | cons b bs => rw [hb] at h4; simp [pctByte] at h4
    · simp at h4

example : (⟨str! "http://h/a#"⟩ : Iri).wf = true ∧
    (⟨str! "http://h/a#"⟩ : Iri).split = .ok (some (⟨str! "http://h/#"⟩, ⟨str! "a"⟩)) := by decide

theorem name_path_iff {i : Iri} {n : Name} (hf : i.fragment = none ∨ i.fragment = some []) :
    (∃ ns, i.split = .ok (some (ns, n))) ↔ Name.parse n.text = .ok n ∧ (i.fragment = some n.text ∨
      (i.fragment = none ∨ i.fragment = some []) ∧ i.query = none ∧ ∃ d, i.path = d ++ '/' :: n.text ∧
        startsWith (d ++ ['/']) '/' = true) := by
  constructor
  · rintro ⟨ns, h⟩
    obtain ⟨d, h1, h2, h3, -, h5, h6⟩ := split_path_branch hf h
    obtain ⟨d, rfl⟩ := endsWith_iff.1 h2
    exact ⟨h6, .inr ⟨hf, h5, d, by rw [h1]; simp, h3⟩⟩
  · rintro ⟨hp, h | ⟨-, hq, d, hd, hst⟩⟩
    · rcases hf with hf | hf
      · rw [hf] at h; cases h
      · rw [hf] at h
        exact absurd (Option.some.inj h).symm (Name.text_ne_nil hp)
    · have hns : '/' ∉ n.text := fun hm => by
        have := Name.all_rest hp _ hm
        revert this
        decide
      have hne := Name.text_ne_nil hp
      obtain ⟨r, hr⟩ : ∃ r, d ++ '/' :: n.text = '/' :: r := by
        cases d with
        | nil => exact ⟨_, rfl⟩
        | cons x d =>
          simp [startsWith] at hst
          subst hst
          exact ⟨_, rfl⟩
      have hlast : endsWith (d ++ '/' :: n.text) '/' = false := by
        rw [Bool.eq_false_iff]
        intro h
        obtain ⟨t, ht⟩ := endsWith_iff.1 h
        have : (d ++ '/' :: n.text).getLast? = some '/' := by rw [ht]; simp
        rw [show d ++ '/' :: n.text = (d ++ ['/']) ++ n.text by simp, List.getLast?_append,
          List.getLast?_eq_some_getLast hne] at this
        simp only [Option.some_or, Option.some.injEq] at this
        exact hns (this ▸ List.getLast_mem hne)
      have hseg : (splitOnChar '/' r).getLast? = some n.text := by
        obtain ⟨w, hw1, hw2, hw3⟩ := splitOnChar_last '/' r
        rw [hw1]
        have key : ∃ e, d ++ '/' :: n.text = e ++ '/' :: w := by
          rcases hw3 with rfl | ⟨e, rfl⟩
          · exact ⟨[], hr⟩
          · exact ⟨'/' :: e, hr⟩
        obtain ⟨e, he⟩ := key
        rcases List.append_eq_append_iff.1 he with ⟨a, h1, h2⟩ | ⟨a, h1, h2⟩
        · cases a with
          | nil => simp at h2; rw [h2]
          | cons x a =>
            simp at h2
            exact absurd (by rw [h2.2]; simp) hns
        · cases a with
          | nil => simp at h2; rw [h2]
          | cons x a =>
            simp at h2
            exact absurd (by rw [h2.2]; simp) hw2
      refine ⟨i.withNewPath (i.path.take (i.path.length - n.text.length)), ?_⟩
      · unfold Iri.split
        split
        · rename_i c cs e
          rcases hf with hf | hf <;> rw [hf] at e <;> cases e
        · rw [hd, hlast, hq, hr]
          simp only [List.isEmpty_cons, Bool.not_false, Option.isNone_none, Bool.and_self, if_true, pathSegments, hseg, hp]

/-- C05: an IRI has a namespace if and only if it has a name; made in the namespace the name is the IRI, unless that ends in an empty
fragment. -/
theorem C05_parts (i : Iri) (hw : i.wf = true) :
    ((∃ ns, i.namespaceIri = .ok (some ns)) ↔ ∃ n, i.localName = .ok (some n)) ∧
    ∀ ns n, i.namespaceIri = .ok (some ns) → i.localName = .ok (some n) → (ns.makeName n = some i ↔ i.fragment ≠ some []) := by
  cases hs : i.split with
  | panic => simp [Iri.namespaceIri, Iri.localName, hs]
  | ok r =>
    cases r with
    | none => simp [Iri.namespaceIri, Iri.localName, hs]
    | some x =>
      obtain ⟨ns, n⟩ := x
      simp only [Iri.namespaceIri, Iri.localName, hs, Option.map_some, Outcome.ok.injEq, Option.some.injEq, exists_eq', true_and]
      rintro _ _ rfl rfl
      exact C05_iff i ns n hw hs

/-- C05: the name is the fragment if there is one that is not empty; otherwise, if there is no query, it is what follows the last slash
of an absolute path.  An IRI has a name if and only if this is one. -/
theorem C05_name_iff (i : Iri) (n : Name) :
    i.localName = .ok (some n) ↔ Name.parse n.text = .ok n ∧ (i.fragment = some n.text ∨
      (i.fragment = none ∨ i.fragment = some []) ∧ i.query = none ∧ ∃ d, i.path = d ++ '/' :: n.text ∧
        startsWith (d ++ ['/']) '/' = true) := by
  have hl : i.localName = .ok (some n) ↔ ∃ ns, i.split = .ok (some (ns, n)) := by
    unfold Iri.localName
    cases i.split with
    | panic => simp
    | ok r =>
      cases r with
      | none => simp
      | some x => obtain ⟨a, b⟩ := x; simp
  rw [hl]
  cases hf : i.fragment with
  | some f =>
    cases f with
    | cons c cs =>
      simp only [Iri.split, hf]
      cases hp : Name.parse (c :: cs) with
      | error e =>
        simp only [reduceCtorEq, Outcome.ok.injEq, exists_false, false_iff]
        rintro ⟨h1, h2 | h2⟩
        · rw [← Option.some.inj h2, hp] at h1
          cases h1
        · simp at h2
      | ok m =>
        have hm : m = ⟨c :: cs⟩ := by
          unfold Name.parse at hp
          simp only at hp
          split at hp
          · cases hp
          · split at hp <;> cases hp
            rfl
        subst hm
        simp only [Outcome.ok.injEq, Option.some.injEq, Prod.mk.injEq, exists_and_right, exists_eq', true_and, reduceCtorEq, false_or,
          List.cons_ne_nil, false_and, or_false]
        constructor
        · rintro rfl; exact ⟨hp, rfl⟩
        · rintro ⟨-, h⟩; cases n; simp_all
    | nil => simpa only [hf] using name_path_iff (n := n) (.inr hf)
  | none => simpa only [hf] using name_path_iff (n := n) (.inl hf)

/-- C12, exactly: an IRI that is compressed expands to itself if and only if it does not end in an
empty fragment. -/
theorem C12_iff (m : PrefixMap) (i : Iri) (l : LocalName) (h : Reachable m) (hw : i.wf = true)
    (hc : m.compress i = .ok (some l)) : m.expand l = some i ↔ i.fragment ≠ some [] := by
  unfold PrefixMap.compress at hc
  split at hc
  · cases hc
  · cases hc
  · rename_i ns name hs
    split at hc
    · cases hc
    · rename_i p hp
      cases hc
      rw [← (C10_one_to_one m h).1] at hp
      have he : m.expand ⟨p, name⟩ = ns.makeName name := by
        simp only [PrefixMap.expand, hp, Option.map_some]
      rw [he]
      exact C05_iff i ns name hw hs

/-! ### C06, C13 -/

theorem splitHier_opaque {h p' : Str} (hs : (splitFirst ':' h).2.isSome)
    (h1 : stripPrefix ['/', '/'] (splitHier h).2 = none) (h0 : startsWith (splitHier h).2 '/' = false)
    (hne : (splitHier h).2 ≠ []) (h2 : stripPrefix ['/', '/'] p' = none) :
    splitHier ((splitHier h).1 ++ p') = ((splitHier h).1, p') := by
  revert h1 h0 hne
  unfold splitHier
  rcases hs' : splitFirst ':' h with ⟨a, _ | b⟩
  · rw [hs'] at hs; simp at hs
  obtain ⟨rfl, ha⟩ := splitFirst_some.1 hs'
  simp only
  cases hb : stripPrefix ['/', '/'] b with
  | none =>
    simp only [hb]
    intro _ _ _
    have : a ++ [':'] ++ p' = a ++ ':' :: p' := by simp
    rw [this, splitFirst_append ha]
    simp [h2]
  | some r =>
    simp only
    intro _ h0 hne
    exfalso
    rcases hd : r.dropWhile (· != '/') with _ | ⟨c, t⟩
    · exact hne hd
    · rw [hd] at h0
      have hc : (c != '/') = false := by
        have := List.head?_dropWhile_not (· != '/') r
        rw [hd] at this
        simpa using this
      simp only [bne_eq_false_iff_eq] at hc
      subst hc
      simp [startsWith] at h0

theorem ascii_of_ctl {c : Char} (h : isCtlOrNonAscii c = false) : c.toNat < 0x80 := by
  simp only [isCtlOrNonAscii, Bool.or_eq_false_iff, decide_eq_false_iff_not] at h
  omega

theorem ascii_of_frag {c : Char} (h : isFragEscaped c = false) : c.toNat < 0x80 := by
  apply ascii_of_ctl
  simp only [isFragEscaped, Bool.or_eq_false_iff] at h
  grind

theorem ascii_of_path {c : Char} (h : isPathEscaped c = false) : c.toNat < 0x80 := by
  apply ascii_of_frag
  simp only [isPathEscaped, Bool.or_eq_false_iff] at h
  grind

/-- C06, exactly: of the names made in a namespace, those that split into the namespace and the
name again are the names in ASCII, in a namespace that ends in `#` or that is hierarchical and has
no fragment. -/
theorem C06_iff (i j : Iri) (s : Str) (n : Name) (hw : i.wf = true) (hp : Name.parse s = .ok n)
    (h : i.makeName n = some j) :
    j.split = .ok (some (i, n)) ↔
      (i.fragment = some [] ∨ (i.fragment = none ∧ startsWith i.path '/' = true)) ∧
        ∀ c ∈ s, c.toNat < 0x80 := by
  have ht := Name.parse_text hp
  constructor
  · intro hj
    by_cases hf : i.fragment.isSome
    · simp only [Iri.makeName, hf, if_true, Option.some.injEq] at h
      have hjf := (withNewFragment_spec i n.text).2.2.2
      rw [h] at hjf
      cases hE : pctEncode isFragEscaped n.text with
      | nil =>
        rw [hE] at hjf
        obtain ⟨d, e, -, hs, hns, -, -⟩ := split_path_branch (.inr hjf) hj
        exfalso
        have hne := Name.text_ne_nil hp
        cases hn : n.text with
        | nil => exact hne hn
        | cons c t =>
          rw [hn] at hE
          simp only [pctEncode, List.flatMap_cons] at hE
          split at hE
          · simp only [pctChar] at hE
            cases hb : utf8Bytes c.toNat with
            | nil => exact absurd hb (utf8Bytes_ne_nil _)
            | cons b bs => rw [hb] at hE; simp [pctByte] at hE
          · simp at hE
      | cons c cs =>
        rw [hE] at hjf
        obtain ⟨e1, e2, -⟩ := split_fragment_branch hjf hj
        have e3 := (withNewFragment_spec j []).2.2.2
        change (j.withEmptyFragment).fragment = _ at e3
        rw [← e1] at e3
        refine ⟨.inl (by simpa [pctEncode] using e3), fun x hx => ascii_of_frag ((C61_clean n.text).1 x ?_)⟩
        rw [hE, ← e2, ht]; exact hx
    · have hf : i.fragment = none := by simpa using hf
      simp only [Iri.makeName, hf, Option.isSome_none, Bool.false_eq_true, if_false] at h
      split at h
      case isFalse => cases h
      rename_i hc
      simp only [Bool.and_eq_true, Option.isNone_iff_eq_none] at hc
      obtain ⟨he, hq⟩ := hc
      simp only [Option.some.injEq] at h
      have hpne : i.path ≠ [] := by intro h0; rw [h0] at he; simp [endsWith] at he
      have hns' : '/' ∉ n.text := by
        intro hm
        have hall := Name.all_rest hp
        have := hall '/' hm
        revert this; decide
      have hnq : '#' ∉ n.text ∧ '?' ∉ n.text := by
        constructor <;> intro hm <;> have := Name.all_rest hp _ hm <;> revert this <;> decide
      -- the components of the made IRI
      have key : j.path = pctEncode (if i.isOpaque then isCtlOrNonAscii else isPathEscaped) (i.path ++ n.text) ∧
          j.fragment = none := by
        by_cases ho : i.isOpaque = true
        · have hsl := (i.isOpaque_iff (wf_scheme hw) hpne).1 ho
          rw [ho, if_pos rfl]
          have hpath := wf_path hw
          rw [ho, if_pos rfl] at hpath
          have e : j = composeIri i.pre (i.path ++ pctEncode isCtlOrNonAscii n.text) i.query i.fragment := by
            rw [← h]
            simp only [Iri.withNewPath, ho, if_true, composeIri, pctEncode_append, pctEncode_id hpath]
          have hmem : ∀ c ∈ pctEncode isCtlOrNonAscii n.text, c = '#' ∨ c = '?' → c ∈ n.text := by
            intro c hc hd
            simp only [pctEncode, List.mem_flatMap] at hc
            obtain ⟨x, hx, hc⟩ := hc
            split at hc
            · exfalso
              simp only [pctChar, List.mem_flatMap, pctByte, List.mem_cons, List.not_mem_nil, or_false] at hc
              have hhex : ∀ k < 16, hexUpper k ≠ '#' ∧ hexUpper k ≠ '?' := by decide
              obtain ⟨b, hb, rfl | rfl | rfl⟩ := hc
              · revert hd; decide
              · have hlt := (utf8Bytes_eq x).2 b hb
                have := hhex (b / 16) (by omega); grind
              · have := hhex (b % 16) (by omega); grind
            · rw [List.mem_singleton.1 hc]; exact hx
          have g1 := i.noFragment_hash
          rw [Iri.noFragment_eq] at g1
          have g2 := i.hier_q
          rw [Iri.hier_eq] at g2
          simp only [List.mem_append, not_or] at g1 g2
          have hst : ∀ t, stripPrefix ['/', '/'] (i.path ++ t) = none := by
            intro t
            cases hip : i.path with
            | nil => exact absurd hip hpne
            | cons c p =>
              rw [hip] at hsl
              have : c ≠ '/' := by intro hh; subst hh; simp [startsWith] at hsl
              simp [stripPrefix, Ne.symm this]
          have h3 := splitHier_opaque (h := i.hier) (p' := i.path ++ pctEncode isCtlOrNonAscii n.text)
            (wf_scheme hw) (show stripPrefix ['/', '/'] i.path = none by simpa using hst []) hsl hpne (hst _)
          have hc := components_compose (pre := i.pre) (path := i.path ++ pctEncode isCtlOrNonAscii n.text)
            (q := i.query) (f := i.fragment)
            (by
              simp only [List.mem_append, not_or]
              exact ⟨⟨g1.1.1, g1.1.2, fun hm => hnq.1 (hmem _ hm (.inl rfl))⟩, g1.2⟩)
            (by
              simp only [List.mem_append, not_or]
              exact ⟨g2.1, g2.2, fun hm => hnq.2 (hmem _ hm (.inr rfl))⟩) h3
          rw [← e] at hc
          exact ⟨by rw [hc.2.1, pctEncode_append, pctEncode_id hpath], by rw [hc.2.2.2.1, hf]⟩
        · have ho' : i.isOpaque = false := by simpa using ho
          rw [ho', if_neg (by simp)]
          have hsl : startsWith i.path '/' = true := by
            have := i.isOpaque_iff (wf_scheme hw) hpne
            rw [ho'] at this
            simpa using this
          obtain ⟨t, hpt⟩ := startsWith_iff.1 hsl
          have hc := C60_path i hw ho' (i.path ++ n.text) ⟨t ++ n.text, by rw [hpt]; rfl⟩ (by
            intro h0
            rw [hpt] at h0 ⊢
            cases t with
            | cons x t =>
              simp only [List.cons_append, stripPrefix, if_true] at h0 ⊢
              split
              · rename_i hx; rw [if_pos hx] at h0; cases h0
              · rfl
            | nil =>
              cases hn : n.text with
              | nil => rfl
              | cons x t =>
                have : x ≠ '/' := by intro hx; apply hns'; rw [hn, hx]; simp
                simp [stripPrefix, Ne.symm this])
          rw [h] at hc
          exact ⟨hc.2.1, by rw [hc.2.2.2, hf]⟩
      obtain ⟨d, e, -, hs, -, -, -⟩ := split_path_branch (.inl key.2) hj
      refine ⟨.inr ⟨hf, ?_⟩, ?_⟩
      · obtain ⟨t, rfl⟩ := startsWith_iff.1 hs
        rw [key.1] at e
        have hpath := wf_path hw
        rw [pctEncode_append, pctEncode_id hpath] at e
        cases hip : i.path with
        | nil => exact absurd hip hpne
        | cons c p =>
          rw [hip] at e
          simp only [List.cons_append, List.cons.injEq] at e
          simp [startsWith, e.1]
      · intro c hc
        have : c ∈ j.path := by rw [e, ht]; simp [hc]
        rw [key.1] at this
        split at this
        · exact ascii_of_ctl ((C61_clean _).2.2 c this)
        · exact ascii_of_path ((C61_clean _).2.1 c this)
  · rintro ⟨hns, ha⟩
    refine C06_makeName_split_partial i j s n hw ?_ hp ha h
    rcases hns with hf | ⟨hf, hs⟩
    · exact .inl hf
    · refine .inr ⟨hf, hs, ?_⟩
      simp only [Iri.makeName, hf, Option.isSome_none, Bool.false_eq_true, if_false] at h
      split at h
      · rename_i hc
        simp only [Iri.looksLikeNamespace, hc, Bool.or_true]
      · cases h

/-- C13, exactly: the expansion of a prefixed name compresses to the name again if and only if the
name is in ASCII and the prefix stands for an IRI that ends in `#`, or that is hierarchical and has
no fragment. -/
theorem C13_iff (m : PrefixMap) (i j : Iri) (p : Namespace) (s : Str) (n : Name) (h : Reachable m)
    (hp : m.getNamespace p = some i) (hw : i.wf = true) (hn : Name.parse s = .ok n)
    (he : m.expand ⟨p, n⟩ = some j) :
    m.compress j = .ok (some ⟨p, n⟩) ↔
      (i.fragment = some [] ∨ (i.fragment = none ∧ startsWith i.path '/' = true)) ∧
        ∀ c ∈ s, c.toNat < 0x80 := by
  simp only [PrefixMap.expand, hp, Option.map_some] at he
  rw [← C06_iff i j s n hw hn he]
  constructor
  · intro hc
    unfold PrefixMap.compress at hc
    split at hc
    · cases hc
    · cases hc
    · rename_i ns name hs
      split at hc
      · cases hc
      · rename_i q hq
        cases hc
        rw [← (C10_one_to_one m h).1, hp] at hq
        cases hq
        exact hs
  · intro hs
    rw [(C10_one_to_one m h).1] at hp
    simp [PrefixMap.compress, hs, hp]

example : (⟨str! "urn:a/"⟩ : Iri).wf = true ∧
    (⟨str! "urn:a/"⟩ : Iri).makeName ⟨str! "n"⟩ = some ⟨str! "urn:a/n"⟩ ∧
    Name.parse (str! "n") = .ok ⟨str! "n"⟩ := by decide

end Rdftk
