import Verif.Lemmas.PrefixMap
import Verif.Props.Iri

/-! Properties C10-C14: prefix maps. -/

namespace Rdftk

/-- The operations that change a prefix map, as a client sees them. -/
inductive MapOp where
  | insert (p : Namespace) (i : Iri)
  | setDefault (i : Iri)
  | remove (p : Namespace)
  | removeDefault
  | clear
deriving DecidableEq, Repr

def MapOp.run (m : PrefixMap) : MapOp → PrefixMap
  | .insert p i => m.insert p i
  | .setDefault i => m.setDefaultNamespace i
  | .remove p => m.remove p
  | .removeDefault => m.removeDefaultNamespace
  | .clear => m.clear

/-- The maps a client can have: built by any sequence of operations from any of the
constructors `empty`, `default` and `common` (the builder methods `with`, `with_default`,
`with_vocabulary` are insertions). -/
inductive Reachable : PrefixMap → Prop where
  | empty : Reachable .empty
  | default {m} (h : PrefixMap.default = some m) : Reachable m
  | common {m} (h : PrefixMap.common = some m) : Reachable m
  | step {m} (h : Reachable m) (op : MapOp) : Reachable (op.run m)

theorem MapOp.run_inv {m : PrefixMap} (h : m.Inv) (op : MapOp) : (op.run m).Inv := by
  cases op with
  | insert p i => exact PrefixMap.inv_insert h p i
  | setDefault i => exact PrefixMap.inv_insert h _ i
  | remove p => exact PrefixMap.inv_remove h p
  | removeDefault => exact PrefixMap.inv_remove h _
  | clear => exact PrefixMap.inv_clear (m := m)

theorem Reachable.inv {m : PrefixMap} (h : Reachable m) : m.Inv := by
  induction h with
  | empty => exact PrefixMap.inv_empty
  | default h =>
    exact foldVocab_inv _ _ (fun m hm => by cases hm; exact PrefixMap.inv_empty) _ h
  | common h =>
    refine foldVocab_inv _ _ (fun m hm => ?_) _ h
    exact foldVocab_inv _ _ (fun m hm => by cases hm; exact PrefixMap.inv_empty) _ hm
  | step _ op ih => exact op.run_inv ih

/-! ### C10 -/

/-- C10: in every map a client can have, prefix lookup and IRI lookup are inverse to each
other, so the mapping is one-to-one; the listing has no repetition on either side, is
sorted by prefix, and lists exactly the mappings that lookup finds. -/
theorem C10_one_to_one (m : PrefixMap) (h : Reachable m) :
    (∀ p i, m.getNamespace p = some i ↔ m.getPrefix i = some p) ∧
    (∀ p q i, m.getNamespace p = some i → m.getNamespace q = some i → p = q) ∧
    m.prefixes.Nodup ∧ m.iris.Nodup ∧
    m.prefixes.Pairwise (fun p q => cmpStr p.text q.text = .lt) ∧
    (∀ p i, (p, i) ∈ m.mappings ↔ m.getNamespace p = some i) := by
  have hi := h.inv
  refine ⟨?_, ?_, ?_, ?_, ?_, ?_⟩
  · intro p i; rw [PrefixMap.getNamespace_iff hi, PrefixMap.getPrefix_iff hi]
  · intro p q i h1 h2
    rw [PrefixMap.getNamespace_iff hi] at h1 h2
    have := hi.val_unique h1 h2 rfl
    exact congrArg Prod.fst this
  · unfold PrefixMap.prefixes
    rw [List.Nodup, List.pairwise_map]
    refine List.Pairwise.imp ?_ hi
    rintro a b ⟨hab, _⟩ e
    rw [e, cmpStr_order.refl] at hab; cases hab
  · unfold PrefixMap.iris
    rw [List.Nodup, List.pairwise_map]
    exact List.Pairwise.imp (fun hab => hab.2) hi
  · unfold PrefixMap.prefixes
    rw [List.pairwise_map]
    exact List.Pairwise.imp (fun hab => hab.1) hi
  · intro p i; rw [PrefixMap.getNamespace_iff hi]; rfl

example : Reachable ((PrefixMap.empty.insert ⟨str! "a:"⟩ ⟨str! "http://h/"⟩).setDefaultNamespace
    ⟨str! "http://h/"⟩) :=
  .step (.step .empty (.insert _ _)) (.setDefault _)

/-! ### C11 -/

/-- What a prefix map means to a client: a partial function from prefixes to IRIs. -/
def absMap (m : PrefixMap) : Namespace → Option Iri := m.getNamespace

/-- C11, insertion: the prefix gives the IRI; any other prefix gives what it gave before,
unless that was the same IRI, in which case it gives nothing. -/
theorem C11_insert (m : PrefixMap) (h : Reachable m) (p q : Namespace) (i : Iri) :
    (m.insert p i).getNamespace q =
      if q = p then some i else if m.getNamespace q = some i then none else m.getNamespace q := by
  have hi := h.inv
  have hi' := PrefixMap.inv_insert hi p i
  have key : ∀ j, (m.insert p i).getNamespace q = some j ↔
      (q = p ∧ j = i) ∨ (m.getNamespace q = some j ∧ q ≠ p ∧ j ≠ i) := by
    intro j
    rw [PrefixMap.getNamespace_iff hi', PrefixMap.getNamespace_iff hi]
    unfold PrefixMap.insert
    rw [PrefixMap.mem_insertSorted]
    simp
  split
  · rename_i e; subst e; rw [key]; simp
  · rename_i hne
    split
    · rename_i e
      cases hx : (m.insert p i).getNamespace q with
      | none => rfl
      | some j =>
        rw [key] at hx
        rcases hx with hx | hx
        · exact absurd hx.1 hne
        · rw [e] at hx; simp at hx; exact absurd hx.1 (fun e => hx.2.2 e.symm)
    · rename_i e
      cases hx : m.getNamespace q with
      | none =>
        cases hy : (m.insert p i).getNamespace q with
        | none => rfl
        | some j => rw [key, hx] at hy; simp [hne] at hy
      | some j =>
        rw [key]; right
        exact ⟨hx, hne, fun e' => by rw [hx, e'] at e; exact e rfl⟩

/-- C11, insertion seen from the IRI side. -/
theorem C11_insert_prefix (m : PrefixMap) (h : Reachable m) (p : Namespace) (i j : Iri) :
    (m.insert p i).getPrefix j =
      if j = i then some p else if m.getPrefix j = some p then none else m.getPrefix j := by
  have h' : Reachable (m.insert p i) := .step h (.insert p i)
  have inv := (C10_one_to_one m h).1
  have inv' := (C10_one_to_one _ h').1
  have ext : ∀ {o o' : Option Namespace}, (∀ q, o = some q ↔ o' = some q) → o = o' := by
    intro o o' hx
    cases o with
    | none => cases o' with
      | none => rfl
      | some q => exact absurd ((hx q).2 rfl) (by simp)
    | some q => exact ((hx q).1 rfl).symm
  apply ext
  intro q
  rw [← inv', C11_insert m h]
  by_cases hq : q = p
  · subst hq
    by_cases hj : j = i
    · subst hj; simp
    · simp only [↓reduceIte, hj, Option.some.injEq, Ne.symm hj, false_iff]
      split
      · simp
      · assumption
  · by_cases hj : j = i
    · subst hj
      simp only [hq, ↓reduceIte, Option.some.injEq, Ne.symm hq, iff_false]
      split
      · simp
      · assumption
    · simp only [hq, hj, ↓reduceIte]
      split
      · rename_i e
        simp only [reduceCtorEq, false_iff]
        split
        · simp
        · intro e2
          rw [← inv, e] at e2; simp at e2; exact hj e2.symm
      · split
        · rename_i e2
          rw [← inv] at e2
          simp only [reduceCtorEq, iff_false]
          intro e3
          have := (C10_one_to_one m h).2.1 p q j e2 e3
          exact hq this.symm
        · exact inv q j

/-- C11, removal: exactly the mapping of the prefix is gone. -/
theorem C11_remove (m : PrefixMap) (h : Reachable m) (p q : Namespace) :
    (m.remove p).getNamespace q = if q = p then none else m.getNamespace q := by
  have hi := h.inv
  have hi' := PrefixMap.inv_remove hi p
  have key : ∀ j, (m.remove p).getNamespace q = some j ↔ (m.getNamespace q = some j ∧ q ≠ p) := by
    intro j
    rw [PrefixMap.getNamespace_iff hi', PrefixMap.getNamespace_iff hi]
    simp [PrefixMap.remove]
  cases hx : (m.remove p).getNamespace q with
  | none =>
    split
    · rfl
    · rename_i hne
      cases hy : m.getNamespace q with
      | none => rfl
      | some j => rw [(key j).2 ⟨hy, hne⟩] at hx; cases hx
  | some j =>
    obtain ⟨h1, h2⟩ := (key j).1 hx
    simp [h2, h1]

/-- C11, the remaining operations in terms of these: the default namespace is the prefix
`":"`, clearing removes everything, and length and emptiness count the mappings. -/
theorem C11_other (m : PrefixMap) (i : Iri) :
    m.setDefaultNamespace i = m.insert ⟨str! ":"⟩ i ∧
    m.removeDefaultNamespace = m.remove ⟨str! ":"⟩ ∧
    m.getDefaultNamespace = m.getNamespace ⟨str! ":"⟩ ∧
    (∀ q, m.clear.getNamespace q = none) ∧
    m.len = m.mappings.length ∧ (m.isEmpty = true ↔ ∀ q, m.getNamespace q = none) := by
  refine ⟨rfl, rfl, rfl, fun q => rfl, rfl, ?_⟩
  constructor
  · intro h q
    have : m.entries = [] := by simpa [PrefixMap.isEmpty] using h
    simp [PrefixMap.getNamespace, this]
  · intro h
    cases hm : m.entries with
    | nil => simp [PrefixMap.isEmpty, hm]
    | cons e es =>
      have := h e.1
      simp [PrefixMap.getNamespace, hm] at this

/-! ### C12 -/

/-- C12, the full statement. -/
def C12_statement : Prop :=
  ∀ (m : PrefixMap) (i : Iri) (l : LocalName), Reachable m → i.wf = true →
    m.compress i = .ok (some l) → m.expand l = some i

/-- C12, what holds: compressing loses nothing for every IRI that does not end in an empty
fragment.  Missing: IRIs ending in `#` (see `C05_fails`). -/
theorem C12_compress_expand_partial (m : PrefixMap) (i : Iri) (l : LocalName) (h : Reachable m)
    (hw : i.wf = true) (hne : i.fragment ≠ some []) (hc : m.compress i = .ok (some l)) :
    m.expand l = some i := by
  unfold PrefixMap.compress at hc
  split at hc
  · cases hc
  · cases hc
  · rename_i ns name hs
    split at hc
    · cases hc
    · rename_i p hp
      cases hc
      rw [← (C10_one_to_one m h).1] at hp
      simp only [PrefixMap.expand, hp, Option.map_some]
      exact C05_split_makeName_partial i ns name hw hne hs

/-- C12 fails for an IRI ending in an empty fragment. -/
theorem C12_fails : ¬ C12_statement := by
  intro h
  have := h (PrefixMap.empty.insert ⟨str! "p:"⟩ ⟨str! "http://h/#"⟩) ⟨str! "http://h/a#"⟩
    ⟨⟨str! "p:"⟩, ⟨str! "a"⟩⟩ (.step .empty (.insert _ _)) (by decide) (by decide)
  revert this; decide

example : (PrefixMap.empty.insert ⟨str! "p:"⟩ ⟨str! "http://h/"⟩).compress ⟨str! "http://h/a"⟩ =
    .ok (some ⟨⟨str! "p:"⟩, ⟨str! "a"⟩⟩) := by decide

/-! ### C13 -/

/-- C13, the full statement. -/
def C13_statement : Prop :=
  ∀ (m : PrefixMap) (j : Iri) (p : Namespace) (s : Str) (n : Name), Reachable m →
    (∀ i, m.getNamespace p = some i → i.wf = true) → Name.parse s = .ok n →
    m.expand ⟨p, n⟩ = some j → m.compress j = .ok (some ⟨p, n⟩)

/-- C13, what holds: expanding can be undone when the prefix stands for an IRI ending in
`#` or a hierarchical one ending in `/`, and the name is in ASCII. -/
theorem C13_expand_compress_partial (m : PrefixMap) (i j : Iri) (p : Namespace) (s : Str) (n : Name)
    (h : Reachable m) (hp : m.getNamespace p = some i) (hw : i.wf = true)
    (hns : i.fragment = some [] ∨
      (i.fragment = none ∧ startsWith i.path '/' = true ∧ i.looksLikeNamespace = true))
    (hn : Name.parse s = .ok n) (ha : ∀ c ∈ s, c.toNat < 0x80)
    (he : m.expand ⟨p, n⟩ = some j) : m.compress j = .ok (some ⟨p, n⟩) := by
  simp only [PrefixMap.expand, hp, Option.map_some] at he
  have := C06_makeName_split_partial i j s n hw hns hn ha he
  rw [(C10_one_to_one m h).1] at hp
  simp [PrefixMap.compress, this, hp]

/-- C13 fails for a non-ASCII name. -/
theorem C13_fails : ¬ C13_statement := by
  intro h
  have := h (PrefixMap.empty.insert ⟨str! "p:"⟩ ⟨str! "http://h/"⟩) ⟨str! "http://h/%C3%A9"⟩
    ⟨str! "p:"⟩ (str! "é") ⟨str! "é"⟩ (.step .empty (.insert _ _))
    (by
      intro i hi
      have e : (PrefixMap.empty.insert ⟨str! "p:"⟩ ⟨str! "http://h/"⟩).getNamespace ⟨str! "p:"⟩ =
        some ⟨str! "http://h/"⟩ := by decide
      rw [e] at hi; cases hi; decide)
    (by decide) (by decide)
  revert this; decide

example : (PrefixMap.empty.insert ⟨str! "p:"⟩ ⟨str! "http://h/"⟩).expand ⟨⟨str! "p:"⟩, ⟨str! "a"⟩⟩ =
    some ⟨str! "http://h/a"⟩ := by decide

/-! ### C14 -/

/-- C14: what compressing to a reference gives. -/
theorem C14_compress_iriref (m : PrefixMap) (h : Reachable m) (i : Iri) (r : IriRef)
    (hr : m.compressToIriRef i = .ok r) :
    (r = .iri i ∧ ∀ ns n, i.split = .ok (some (ns, n)) → m.getPrefix ns = none) ∨
    (∃ p n ns, r = .prefixed ⟨p, n⟩ ∧ i.split = .ok (some (ns, n)) ∧ m.getPrefix ns = some p ∧
      p ∈ m.prefixes) := by
  unfold PrefixMap.compressToIriRef PrefixMap.compress at hr
  cases hs : i.split with
  | panic => simp [hs] at hr
  | ok o =>
    cases o with
    | none =>
      simp [hs] at hr; subst hr
      exact .inl ⟨rfl, by intro ns n e; cases e⟩
    | some x =>
      obtain ⟨ns, n⟩ := x
      simp only [hs] at hr
      cases hp : m.getPrefix ns with
      | none =>
        simp [hp] at hr; subst hr
        left; refine ⟨rfl, ?_⟩
        intro ns' n' e; cases e; exact hp
      | some p =>
        simp [hp] at hr; subst hr
        right
        refine ⟨p, n, ns, rfl, rfl, hp, ?_⟩
        rw [PrefixMap.getPrefix_iff h.inv] at hp
        exact List.mem_map.2 ⟨_, hp, rfl⟩

/-- C14: it panics exactly when splitting does. -/
theorem C14_panic (m : PrefixMap) (i : Iri) : m.compressToIriRef i = .panic ↔ i.split = .panic := by
  unfold PrefixMap.compressToIriRef PrefixMap.compress
  cases i.split with
  | panic => simp
  | ok o =>
    cases o with
    | none => simp
    | some x => simp only; split <;> rename_i h <;> split at h <;> simp_all

/-! ### C55 -/

/-- C55: every predefined vocabulary has a valid prefix (so `prefix_as_namespace` does not
panic) and an IRI that looks like a namespace and accepts names; prefixes and IRIs are
pairwise different. -/
theorem C55_vocabularies :
    (∀ v ∈ vocabularies, v.prefixAsNamespace = some ⟨v.pfx ++ [':']⟩ ∧
      v.iriAsIri.wf = true ∧ v.iriAsIri.looksLikeNamespace = true ∧
      (v.iriAsIri.fragment = some [] ∨
        (v.iriAsIri.fragment = none ∧ startsWith v.iriAsIri.path '/' = true))) ∧
    (vocabularies.map (·.pfx)).Nodup ∧ (vocabularies.map (·.iri)).Nodup := by
  decide +kernel

/-- C55: the default and the common map exist (no panic) and hold what is documented. -/
theorem C55_default_common :
    (∃ m, PrefixMap.default = some m ∧
      m.prefixes.map (·.text) = [str! "owl:", str! "rdf:", str! "rdfs:", str! "xsd:"]) ∧
    (∃ m, PrefixMap.common = some m ∧ m.prefixes.map (·.text) =
      [str! "dcterms:", str! "owl:", str! "rdf:", str! "rdfs:", str! "skos:", str! "void:", str! "xsd:"]) := by
  refine ⟨⟨(PrefixMap.default).get (by decide +kernel), ?_, ?_⟩,
    ⟨(PrefixMap.common).get (by decide +kernel), ?_, ?_⟩⟩
  · simp
  · decide +kernel
  · simp
  · decide +kernel

/-- C55: for every predefined vocabulary, any name in ASCII made in it compresses back to
prefix and name, in every map that holds the vocabulary. -/
theorem C55_vocabulary_names (v : Vocabulary) (hv : v ∈ vocabularies) (m : PrefixMap)
    (h : Reachable m) (hm : m.getNamespace ⟨v.pfx ++ [':']⟩ = some v.iriAsIri) (s : Str) (n : Name)
    (hn : Name.parse s = .ok n) (ha : ∀ c ∈ s, c.toNat < 0x80) :
    ∃ j, m.expand ⟨⟨v.pfx ++ [':']⟩, n⟩ = some j ∧ m.compress j = .ok (some ⟨⟨v.pfx ++ [':']⟩, n⟩) := by
  obtain ⟨_, hw, hl, hf⟩ := C55_vocabularies.1 v hv
  obtain ⟨j, hj⟩ := C07_namespace_accepts_names v.iriAsIri n hl
  have he : m.expand ⟨⟨v.pfx ++ [':']⟩, n⟩ = some j := by
    simp only [PrefixMap.expand, hm, Option.map_some, hj]
  refine ⟨j, he, C13_expand_compress_partial m _ j _ s n h hm hw ?_ hn ha he⟩
  rcases hf with hf | ⟨hf, hs⟩
  · exact .inl hf
  · exact .inr ⟨hf, hs, hl⟩

example : ∃ m, PrefixMap.common = some m ∧ Reachable m ∧
    m.getNamespace ⟨str! "skos:"⟩ = some ⟨str! "http://www.w3.org/2004/02/skos/core#"⟩ :=
  ⟨(PrefixMap.common).get (by decide +kernel), by simp, .common (by simp), by decide +kernel⟩

end Rdftk
