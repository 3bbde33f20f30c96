import Verif.Lemmas.IriEdit

/-!
Properties C05-C09: IRIs, their namespace/name split, and their text form.

`Iri.wf` states what holds of the serialisation of every parsed URL (no character
that the `url` crate escapes occurs in path or fragment, and there is a scheme).
-/

namespace Rdftk

/-! ### C05 -/

/-- C05, the full statement. -/
def C05_statement : Prop :=
  ∀ (i ns : Iri) (n : Name), i.wf = true → i.split = .ok (some (ns, n)) → ns.makeName n = some i

/-- C05, what holds: splitting and making the name again restores the IRI, unless
the IRI ends in an empty fragment.  Missing: IRIs with an empty fragment, for which
the code moves the name into the fragment. -/
theorem C05_split_makeName_partial (i ns : Iri) (n : Name) (hw : i.wf = true)
    (hne : i.fragment ≠ some []) (h : i.split = .ok (some (ns, n))) :
    ns.makeName n = some i := by
  cases hf : i.fragment with
  | some f =>
    cases f with
    | nil => exact absurd hf hne
    | cons c cs =>
      obtain ⟨rfl, ht, _⟩ := split_fragment_branch hf h
      have hs := withNewFragment_spec i []
      simp only [Iri.makeName, Iri.withEmptyFragment, hs, Option.isSome_some, ↓reduceIte,
        withNewFragment_idem, Option.some.injEq]
      rw [ht]
      exact withNewFragment_eq i _ hf (wf_fragment hw hf)
  | none =>
    obtain ⟨d, e, he, hs, hns, hq, hp⟩ := split_path_branch (.inl hf) h
    obtain ⟨e1, e2, e3, e4, e5, e6⟩ := split_path_ns (n := n) hw e hs hns
    have hcolon : (splitFirst ':' ns.hier).2.isSome = true := by
      rw [e6]
      have := wf_scheme hw
      rw [Iri.hier_eq, e] at this
      -- the scheme's colon lies in `pre` or `d`: names contain none
      rcases hx : splitFirst ':' (i.pre ++ d) with ⟨a, _ | b⟩
      · exfalso
        have h1 := splitFirst_none.1 hx
        have h2 := Name.parse_no_colon hp
        have h3 : ':' ∉ i.pre ++ (d ++ n.text) := by
          rw [← List.append_assoc]; simp only [List.mem_append, not_or] at *
          exact ⟨h1.2, h2⟩
        rw [splitFirst_not_mem h3] at this; simp at this
      · rfl
    have hop : ns.isOpaque = false := by
      have hd : ns.path ≠ [] := by rw [e3]; intro h0; simp [h0, startsWith] at hs
      have := ns.isOpaque_iff hcolon hd
      rw [e3, hs] at this
      simpa using this
    have hopi : i.isOpaque = false := by
      have hd : i.path ≠ [] := by
        rw [e]; intro h0; simp at h0; simp [h0.1, startsWith] at hs
      have hsi : startsWith i.path '/' = true := by
        rw [e]; obtain ⟨t, rfl⟩ := startsWith_iff.1 hs; simp [startsWith]
      have := i.isOpaque_iff (wf_scheme hw) hd
      rw [hsi] at this
      simpa using this
    unfold Iri.makeName
    rw [e5, hf]
    simp only [Option.isSome_none, Bool.false_eq_true, ↓reduceIte, e3, he, e4, hq, Option.isNone_none,
      Bool.and_self, Option.some.injEq]
    conv => rhs; rw [← i.compose]
    simp only [Iri.withNewPath, hop, Bool.false_eq_true, ↓reduceIte, composeIri, e2, e4, e5, ← e]
    have hpath := wf_path hw
    rw [hopi] at hpath
    simp only [Bool.false_eq_true, ↓reduceIte] at hpath
    rw [pctEncode_id hpath]

/-- C05 fails for `http://h/a#`: it splits into `http://h/#` and `a`, which make
`http://h/#a`. -/
theorem C05_fails : ¬ C05_statement := by
  intro h
  have := h ⟨str! "http://h/a#"⟩ ⟨str! "http://h/#"⟩ ⟨str! "a"⟩ (by decide) (by decide)
  revert this; decide

example : (⟨str! "http://h/p/a"⟩ : Iri).wf = true ∧
    (⟨str! "http://h/p/a"⟩ : Iri).split = .ok (some (⟨str! "http://h/p/"⟩, ⟨str! "a"⟩)) := by decide
example : (⟨str! "http://h/p?q#a"⟩ : Iri).wf = true ∧
    (⟨str! "http://h/p?q#a"⟩ : Iri).split = .ok (some (⟨str! "http://h/p?q#"⟩, ⟨str! "a"⟩)) := by decide

/-! ### C06 -/

/-- C06, the full statement. -/
def C06_statement : Prop :=
  ∀ (i j : Iri) (s : Str) (n : Name), i.wf = true → i.looksLikeNamespace = true →
    Name.parse s = .ok n → i.makeName n = some j → j.split = .ok (some (i, n))

/-- C06, what holds: a namespace that ends in `#` (empty fragment), or a hierarchical
one that ends in `/` without fragment, and a name in ASCII.  Missing: non-ASCII names
(percent-encoded on the way), a namespace with a non-empty fragment, opaque
namespaces. -/
theorem C06_makeName_split_partial (i j : Iri) (s : Str) (n : Name) (hw : i.wf = true)
    (hns : i.fragment = some [] ∨
      (i.fragment = none ∧ startsWith i.path '/' = true ∧ i.looksLikeNamespace = true))
    (hp : Name.parse s = .ok n) (ha : ∀ c ∈ s, c.toNat < 0x80)
    (h : i.makeName n = some j) : j.split = .ok (some (i, n)) := by
  have ht := Name.parse_text hp
  have hall := Name.all_rest hp
  have hne := Name.text_ne_nil hp
  rw [ht] at hall hne
  have hch : ∀ c ∈ s, _ := fun c hc => rest_ascii_path (hall c hc) (ha c hc)
  rcases hns with hf | ⟨hf, hsl, hl⟩
  · simp only [Iri.makeName, hf, Option.isSome_some, ↓reduceIte, Option.some.injEq] at h
    subst h
    have hs := withNewFragment_spec i n.text
    rw [ht, pctEncode_id (fun c hc => (hch c hc).2.1)] at hs
    unfold Iri.split
    rw [ht, hs.2.2.2]
    cases s with
    | nil => exact absurd rfl hne
    | cons c cs =>
      simp only [hp, Iri.withEmptyFragment, withNewFragment_idem]
      rw [withNewFragment_eq i [] hf (by simp)]
  · simp only [Iri.looksLikeNamespace, hf, Bool.or_eq_true, Bool.and_eq_true,
      Option.isNone_iff_eq_none] at hl
    simp at hl
    obtain ⟨he, hq⟩ := hl
    simp only [Iri.makeName, hf, he, hq, Option.isSome_none, Bool.false_eq_true, ↓reduceIte,
      Option.isNone_none, Bool.and_self, Option.some.injEq] at h
    obtain ⟨t, hpt⟩ := startsWith_iff.1 hsl
    have hpne : i.path ≠ [] := by rw [hpt]; simp
    have hop : i.isOpaque = false := by
      have := i.isOpaque_iff (wf_scheme hw) hpne
      rw [hsl] at this
      simpa using this
    have hpath := wf_path hw
    rw [hop] at hpath
    simp only [Bool.false_eq_true, ↓reduceIte] at hpath
    have hn := i.noFragment_hash
    have hk := i.hier_q
    rw [Iri.noFragment_eq] at hn
    rw [Iri.hier_eq] at hk
    have spec := withNewPath_spec i (i.path ++ n.text) hw
      (by
        rw [hop, ht]; intro c hc
        rcases List.mem_append.1 hc with hc | hc
        · exact hpath c hc
        · exact (hch c hc).1)
      (by
        rw [ht]; intro hc
        rcases List.mem_append.1 hc with hc | hc
        · apply hn; simp [hc]
        · exact (hch _ hc).2.2.2.1 rfl)
      (by
        rw [ht]; intro hc
        rcases List.mem_append.1 hc with hc | hc
        · apply hk; simp [hc]
        · exact (hch _ hc).2.2.2.2.1 rfl)
      ⟨t ++ n.text, by rw [hpt]; rfl⟩
      (by
        intro h0
        cases hsp : stripPrefix ['/', '/'] (i.path ++ n.text) with
        | none => rfl
        | some u =>
          exfalso
          rw [stripPrefix_eq_some, hpt] at hsp
          cases t with
          | nil =>
            simp only [List.cons_append, List.nil_append, List.cons.injEq, true_and] at hsp
            rw [ht] at hsp
            have := hch '/' (by rw [hsp]; simp)
            exact this.2.2.2.2.2 rfl
          | cons x t =>
            simp only [List.cons_append, List.nil_append, List.cons.injEq, true_and] at hsp
            have hx : stripPrefix ['/', '/'] i.path = some t :=
              stripPrefix_eq_some.2 (by rw [hpt, hsp.1]; rfl)
            rw [hx] at h0; cases h0)
    rw [h] at spec
    obtain ⟨e1, e2, e3, e4, e5, e6⟩ := spec
    have hlast : endsWith (i.path ++ s) '/' = false := by
      cases hE : endsWith (i.path ++ s) '/' with
      | false => rfl
      | true =>
        exfalso
        obtain ⟨u, hu⟩ := endsWith_iff.1 hE
        have : s.getLast? = some '/' := by
          have h1 : (i.path ++ s).getLast? = some '/' := by rw [hu]; simp
          rw [List.getLast?_append, List.getLast?_eq_some_getLast hne] at h1
          rw [List.getLast?_eq_some_getLast hne]; simpa using h1
        exact (hch '/' (List.mem_of_getLast? this)).2.2.2.2.2 rfl
    have hopj : j.isOpaque = false := by
      have hx : (splitFirst ':' j.hier).2.isSome = true := by
        rw [e6]
        have := wf_scheme hw
        rw [Iri.hier_eq] at this
        rcases hx : splitFirst ':' (i.pre ++ i.path) with ⟨a, _ | b⟩
        · rw [hx] at this; simp at this
        · obtain ⟨e, hm⟩ := splitFirst_some.1 hx
          have : i.pre ++ (i.path ++ n.text) = a ++ ':' :: (b ++ n.text) := by
            rw [← List.append_assoc, e]; simp
          rw [this, splitFirst_append hm]; rfl
      have := j.isOpaque_iff hx (by rw [e3, hpt]; simp)
      rw [e3, hpt] at this
      simpa [startsWith] using this
    unfold Iri.split
    rw [e5, hf]
    simp only [e3, e4, hq, ht, hlast]
    rw [hpt]
    simp only [List.cons_append, List.isEmpty_cons, Bool.not_false, Option.isNone_none, Bool.and_self,
      ↓reduceIte, pathSegments]
    -- the last segment is the name
    have hseg : (splitOnChar '/' (t ++ s)).getLast? = some s := by
      obtain ⟨w, hw1, hw2, hw3⟩ := splitOnChar_last '/' (t ++ s)
      rw [hw1]
      have hns' : '/' ∉ s := fun hm => (hch '/' hm).2.2.2.2.2 rfl
      congr 1
      cases t with
      | nil =>
        rcases hw3 with h3 | ⟨d, h3⟩
        · simpa using h3.symm
        · exfalso; apply hns'; simp at h3; rw [h3]; simp
      | cons x t =>
        have he' : endsWith (x :: t) '/' = true := by
          rw [hpt] at he
          unfold endsWith at *
          rw [List.getLast?_cons] at he
          rw [List.getLast?_eq_some_getLast (List.cons_ne_nil x t)] at he ⊢
          simpa using he
        obtain ⟨u, hu⟩ := endsWith_iff.1 he'
        rw [hu] at hw3
        -- compare the texts after the last separator, via reversal
        have aux : ∀ (a b a' b' : Str), '/' ∉ b → '/' ∉ b' → a ++ '/' :: b = a' ++ '/' :: b' → b = b' := by
          intro a b a' b' h1 h2 h3
          have r := congrArg List.reverse h3
          simp only [List.reverse_append, List.reverse_cons, List.append_assoc] at r
          have s1 := splitFirst_append (c := '/') (a := b.reverse) (b := a.reverse) (by simpa using h1)
          have s2 := splitFirst_append (c := '/') (a := b'.reverse) (b := a'.reverse) (by simpa using h2)
          simp only [List.singleton_append] at r
          rw [r, s2] at s1
          simp only [Prod.mk.injEq, List.reverse_inj] at s1
          exact s1.1.symm
        rcases hw3 with h3 | ⟨d, h3⟩
        · exfalso; apply hw2; rw [← h3]; simp
        · exact (aux u s d w hns' hw2 (by simpa using h3)).symm
    rw [hseg]
    simp only [hp, ht]
    have htake : List.take (('/' :: (t ++ s)).length - s.length) ('/' :: (t ++ s)) = i.path := by
      rw [hpt]
      have : '/' :: (t ++ s) = ('/' :: t) ++ s := rfl
      rw [this, List.length_append, Nat.add_sub_cancel, List.take_left]
    rw [htake]
    congr 3
    simp only [Iri.withNewPath, hopj, Bool.false_eq_true, ↓reduceIte, e2, e4, e5]
    rw [pctEncode_id hpath]
    exact i.compose

/-- C06 fails for names outside ASCII: `http://h/` and `é` make `http://h/%C3%A9`, which
does not split. -/
theorem C06_fails_nonAscii : ¬ C06_statement := by
  intro h
  have := h ⟨str! "http://h/"⟩ ⟨str! "http://h/%C3%A9"⟩ (str! "é") ⟨str! "é"⟩
    (by decide) (by decide) (by decide) (by decide)
  revert this; decide

/-- C06 also fails in ASCII: `http://h/#a` looks like a namespace, and making `b` in it
replaces `a`. -/
theorem C06_fails_fragment : ¬ C06_statement := by
  intro h
  have := h ⟨str! "http://h/#a"⟩ ⟨str! "http://h/#b"⟩ (str! "b") ⟨str! "b"⟩
    (by decide) (by decide) (by decide) (by decide)
  revert this; decide

/-- C06 also fails for opaque IRIs: `urn:a/` looks like a namespace, and the IRI made in
it makes `split` panic. -/
theorem C06_fails_opaque : ¬ C06_statement := by
  intro h
  have := h ⟨str! "urn:a/"⟩ ⟨str! "urn:a/b"⟩ (str! "b") ⟨str! "b"⟩
    (by decide) (by decide) (by decide) (by decide)
  revert this; decide

example : (⟨str! "http://h/p/"⟩ : Iri).wf = true ∧ (⟨str! "http://h/p/"⟩ : Iri).looksLikeNamespace = true ∧
    (⟨str! "http://h/p/"⟩ : Iri).makeName ⟨str! "a"⟩ = some ⟨str! "http://h/p/a"⟩ := by decide
example : (⟨str! "http://h/p#"⟩ : Iri).wf = true ∧ (⟨str! "http://h/p#"⟩ : Iri).fragment = some [] ∧
    (⟨str! "http://h/p#"⟩ : Iri).makeName ⟨str! "a"⟩ = some ⟨str! "http://h/p#a"⟩ := by decide

/-! ### C07 -/

/-- C07, first part: an IRI that looks like a namespace accepts every name. -/
theorem C07_namespace_accepts_names (i : Iri) (n : Name) (h : i.looksLikeNamespace = true) :
    ∃ j, i.makeName n = some j := by
  simp only [Iri.looksLikeNamespace, Bool.or_eq_true, beq_iff_eq] at h
  unfold Iri.makeName
  rcases h with h | h
  · simp [h]
  · split
    · exact ⟨_, rfl⟩
    · simp

/-- C07, second part: the namespace part of a split looks like a namespace. -/
theorem C07_split_namespace (i ns : Iri) (n : Name) (hw : i.wf = true)
    (h : i.split = .ok (some (ns, n))) : ns.looksLikeNamespace = true := by
  have path : (i.fragment = none ∨ i.fragment = some []) → ns.looksLikeNamespace = true := by
    intro hf
    obtain ⟨d, e, he, hs, hns, hq, hp⟩ := split_path_branch hf h
    obtain ⟨e1, e2, e3, e4, e5, e6⟩ := split_path_ns (n := n) hw e hs hns
    simp [Iri.looksLikeNamespace, e3, e4, he, hq]
  cases hf : i.fragment with
  | none => exact path (.inl hf)
  | some f =>
    cases f with
    | nil => exact path (.inr hf)
    | cons c cs =>
      obtain ⟨rfl, _, _⟩ := split_fragment_branch hf h
      have := withNewFragment_spec i []
      simp [Iri.looksLikeNamespace, Iri.withEmptyFragment, this, pctEncode]

/-- C07, third part, the full statement: what looks like a namespace does not split. -/
def C07_no_split_statement : Prop :=
  ∀ i : Iri, i.wf = true → i.looksLikeNamespace = true → i.split = .ok none

/-- C07, third part, what holds: without a fragment, looking like a namespace and
splitting exclude each other. -/
theorem C07_no_split_partial (i : Iri) (hf : i.fragment = none)
    (h : i.looksLikeNamespace = true) : i.split = .ok none := by
  simp only [Iri.looksLikeNamespace, hf] at h
  simp at h
  unfold Iri.split
  rw [hf]
  simp [h]

/-- C07 fails: `http://h/#a` looks like a namespace and splits. -/
theorem C07_no_split_fails : ¬ C07_no_split_statement := by
  intro h
  have := h ⟨str! "http://h/#a"⟩ (by decide) (by decide)
  revert this; decide

example : (⟨str! "http://h/"⟩ : Iri).looksLikeNamespace = true ∧
    (⟨str! "http://h/"⟩ : Iri).fragment = none := by decide

/-- C07: an IRI looks like a namespace exactly when its only `#` is its last character, or its
path ends in `/` and there is no query. -/
theorem C07_looks (i : Iri) :
    i.looksLikeNamespace = true ↔
      (∃ a, i.text = a ++ ['#'] ∧ '#' ∉ a) ∨ ((∃ p, i.path = p ++ ['/']) ∧ i.query = none) := by
  have h1 : i.fragment = some [] ↔ ∃ a, i.text = a ++ ['#'] ∧ '#' ∉ a := by
    unfold Iri.fragment
    constructor
    · intro h
      have := splitFirst_text '#' i.text
      rw [h] at this
      exact ⟨_, this.symm, splitFirst_fst_not_mem _ _⟩
    · rintro ⟨a, e, ha⟩
      rw [e, splitFirst_append ha]
  simp only [Iri.looksLikeNamespace, Bool.or_eq_true, Bool.and_eq_true, beq_iff_eq, endsWith_iff,
    Option.isNone_iff_eq_none, h1]

/-! ### C08 -/

/-- C08, the full statement. -/
def C08_statement : Prop :=
  ∀ i : Iri, i.wf = true → i.split ≠ .panic ∧ i.namespaceIri ≠ .panic ∧ i.localName ≠ .panic

/-- C08: exactly which IRIs make the three functions panic: opaque ones whose path does
not end in `/`, without query and without a non-empty fragment. -/
theorem C08_panic_iff (i : Iri) :
    (i.split = .panic ↔
      (i.fragment = none ∨ i.fragment = some []) ∧ i.path ≠ [] ∧ endsWith i.path '/' = false ∧
        i.query = none ∧ startsWith i.path '/' = false) ∧
    (i.namespaceIri = .panic ↔ i.split = .panic) ∧ (i.localName = .panic ↔ i.split = .panic) := by
  refine ⟨?_, ?_, ?_⟩
  · unfold Iri.split
    split
    · rename_i c cs hf
      rw [hf]
      constructor
      · intro h; split at h <;> cases h
      · rintro ⟨h | h, _⟩ <;> cases h
    · rename_i hf
      have hf' : i.fragment = none ∨ i.fragment = some [] := by
        cases h : i.fragment with
        | none => exact .inl rfl
        | some f => cases f with
          | nil => exact .inr rfl
          | cons c cs => exact absurd h (hf c cs)
      split
      · rename_i hc
        simp only [Bool.and_eq_true, Bool.not_eq_true', Option.isNone_iff_eq_none,
          List.isEmpty_eq_false_iff] at hc
        obtain ⟨⟨hc1, hc2⟩, hc3⟩ := hc
        cases hpth : i.path with
        | nil => exact absurd hpth hc1
        | cons c t =>
          rw [hpth] at hc2
          by_cases hsl : c = '/'
          · subst hsl
            simp only [pathSegments]
            obtain ⟨w, hw1, -, -⟩ := splitOnChar_last '/' t
            rw [hw1]
            simp only [startsWith, List.head?_cons, beq_self_eq_true, Bool.true_eq_false, and_false,
              iff_false]
            split <;> simp
          · have : pathSegments (c :: t) = none := by
              unfold pathSegments
              split
              · rename_i r h; cases h; exact absurd rfl hsl
              · rfl
            rw [this]
            simp [hf', hc2, hc3, startsWith, hsl]
      · rename_i hc
        constructor
        · intro h; cases h
        · rintro ⟨_, h1, h2, h3, _⟩
          exfalso; apply hc
          simp only [Bool.and_eq_true, Bool.not_eq_true', Option.isNone_iff_eq_none,
            List.isEmpty_eq_false_iff]
          exact ⟨⟨h1, h2⟩, h3⟩
  · unfold Iri.namespaceIri; split <;> rename_i h <;> rw [h] <;> simp
  · unfold Iri.localName; split <;> rename_i h <;> rw [h] <;> simp

/-- C08, what holds: IRIs with an authority or an absolute path never panic. -/
theorem C08_no_panic_partial (i : Iri) (hw : i.wf = true) (ho : i.isOpaque = false) :
    i.split ≠ .panic ∧ i.namespaceIri ≠ .panic ∧ i.localName ≠ .panic := by
  obtain ⟨h1, h2, h3⟩ := C08_panic_iff i
  have : i.split ≠ .panic := by
    intro h
    obtain ⟨_, hp, _, _, hs⟩ := h1.1 h
    have := (i.isOpaque_iff (wf_scheme hw) hp).2 hs
    rw [ho] at this; cases this
  exact ⟨this, fun h => this (h2.1 h), fun h => this (h3.1 h)⟩

/-- C08 fails: `urn:isbn` panics. -/
theorem C08_fails : ¬ C08_statement := by
  intro h
  have := (h ⟨str! "urn:isbn"⟩ (by decide)).1
  revert this; decide

example : (⟨str! "http://h/a"⟩ : Iri).wf = true ∧ (⟨str! "http://h/a"⟩ : Iri).isOpaque = false := by
  decide

/-! ### C09 -/

/-- C09: both text forms of an IRI parse to it.  `parse` stands for `Url::parse`;
assumed of it is that the serialisation of a URL parses to that URL. -/
theorem C09_parse_display (parse : Str → Option Iri) (i : Iri) (alternate : Bool)
    (hparse : parse i.text = some i) (hhead : startsWith i.text '<' = false) :
    Iri.fromStr parse (i.display alternate) = some i := by
  cases alternate with
  | true => simp [Iri.fromStr, Iri.display, hhead, hparse]
  | false =>
    have h1 : endsWith ('<' :: (i.text ++ ['>'])) '>' = true := endsWith_iff.2 ⟨'<' :: i.text, rfl⟩
    have h2 : startsWith ('<' :: (i.text ++ ['>'])) '<' = true := by simp [startsWith]
    simp [Iri.fromStr, Iri.display, h1, h2, hparse]

/-- C09: only a pair of brackets around the whole text is removed before parsing. -/
theorem C09_brackets (parse : Str → Option Iri) (s : Str) :
    (∀ t, s = '<' :: (t ++ ['>']) → Iri.fromStr parse s = parse t) ∧
    ((∀ t, s ≠ '<' :: (t ++ ['>'])) → Iri.fromStr parse s = parse s) := by
  constructor
  · rintro t rfl
    have h1 : endsWith ('<' :: (t ++ ['>'])) '>' = true := endsWith_iff.2 ⟨'<' :: t, rfl⟩
    have h2 : startsWith ('<' :: (t ++ ['>'])) '<' = true := by simp [startsWith]
    simp [Iri.fromStr, h1, h2]
  · intro h
    have hc : (startsWith s '<' && endsWith s '>') = false := by
      rw [Bool.eq_false_iff]
      intro h'
      rw [Bool.and_eq_true, endsWith_iff] at h'
      obtain ⟨h1, r, e⟩ := h'
      cases r with
      | nil => rw [e] at h1; revert h1; decide
      | cons c r =>
        have : c = '<' := by rw [e] at h1; simpa [startsWith] using h1
        exact h r (by rw [e, this]; rfl)
    simp only [Iri.fromStr, hc, Bool.false_eq_true, if_false]

/-- The hypothesis on the first character holds of every IRI with a scheme that starts
with a letter. -/
example : startsWith (⟨str! "http://h/"⟩ : Iri).text '<' = false := by decide

end Rdftk
