import Verif.Lemmas.Names
import Verif.Props.PrefixMap
import Verif.Spec.W3C

/-! Properties C53, C54, C56, C57: vocabularies. -/

namespace Rdftk

/-! ### C53 -/

/-- C53: every table can be built without a panic; the function of each member gives the
IRI made of the namespace and the member's name, which is a valid name, and that IRI splits
back into the two; different functions of a vocabulary give different IRIs. -/
theorem C53_members (t : NameTable) (ht : t ∈ nameTables) :
    t.makeCache.isSome ∧ Name.parse t.pfx = .ok ⟨t.pfx⟩ ∧
    (∀ fn name, (fn, name) ∈ t.members →
      t.call fn = some ⟨t.ns ++ name⟩ ∧ Name.parse name = .ok ⟨name⟩ ∧
      Iri.split ⟨t.ns ++ name⟩ = .ok (some (⟨t.ns⟩, ⟨name⟩))) ∧
    (∀ fn fn' i, t.call fn = some i → t.call fn' = some i → fn = fn') := by
  obtain ⟨hn, hf, hp⟩ := nameTables_nodup t ht
  have he := nameTables_entries t ht
  have hc := makeCache_eq t hn (fun m hm => (he m hm).1)
  have hl : ∀ m ∈ t.members, t.lookup m.2 = some ⟨t.ns ++ m.2⟩ := by
    intro m hm
    unfold NameTable.lookup
    rw [hc, Option.bind_some, List.find?_map]
    have : t.members.find? (fun x => x.2 == m.2) = some m := find_unique (f := (·.2)) hm hn
    simp only [Function.comp_def, this, Option.map_some]
  have hcall : ∀ m ∈ t.members, t.call m.1 = some ⟨t.ns ++ m.2⟩ := by
    intro m hm
    unfold NameTable.call
    have : t.members.find? (fun x => x.1 == m.1) = some m := find_unique (f := (·.1)) hm hf
    rw [this, Option.bind_some, hl m hm]
  refine ⟨by rw [hc]; rfl, hp, ?_, ?_⟩
  · intro fn name hm
    exact ⟨hcall _ hm, (he _ hm).2.1, (he _ hm).2.2⟩
  · intro fn fn' i h1 h2
    have mem : ∀ g, t.call g = some i → ∃ m ∈ t.members, m.1 = g ∧ i = ⟨t.ns ++ m.2⟩ := by
      intro g hg
      unfold NameTable.call at hg
      cases hm : t.members.find? (fun m => m.1 == g) with
      | none => simp [hm] at hg
      | some m =>
        have h1 := List.mem_of_find?_eq_some hm
        have h2 := List.find?_some hm
        rw [hm, Option.bind_some, hl m h1] at hg
        refine ⟨m, h1, by simpa using h2, by cases hg; rfl⟩
    obtain ⟨m1, hm1, rfl, e1⟩ := mem fn h1
    obtain ⟨m2, hm2, rfl, e2⟩ := mem fn' h2
    rw [e1] at e2
    have e3 : m1.2 = m2.2 := by simpa using e2
    have u1 := find_unique (f := (·.2)) hm1 hn
    have u2 := find_unique (f := (·.2)) hm2 hn
    simp only [e3] at u1
    rw [u1] at u2
    cases u2; rfl

example : rdfTable ∈ nameTables ∧ (str! "a_type", str! "type") ∈ rdfTable.members := by decide

/-- C53: no two tables share a prefix or a namespace. -/
theorem C53_tables : (nameTables.map (·.pfx)).Nodup ∧ (nameTables.map (·.ns)).Nodup := by
  decide +kernel

/-- C53, across tables: no IRI belongs to two vocabularies. -/
theorem C53_across (t t' : NameTable) (ht : t ∈ nameTables) (ht' : t' ∈ nameTables) (f f' : Str)
    (i : Iri) (h : t.call f = some i) (h' : t'.call f' = some i) : t = t' := by
  have mem : ∀ t ∈ nameTables, ∀ g, t.call g = some i → ∃ n, Iri.split i = .ok (some (⟨t.ns⟩, n)) := by
    intro t ht g hg
    cases hm : t.members.find? (fun m => m.1 == g) with
    | none => simp [NameTable.call, hm] at hg
    | some m =>
      have h1 := List.mem_of_find?_eq_some hm
      have h2 : m.1 = g := by simpa using List.find?_some hm
      have := (C53_members t ht).2.2.1 m.1 m.2 h1
      rw [h2, hg] at this
      obtain ⟨e, _, e2⟩ := this
      cases e; exact ⟨_, e2⟩
  obtain ⟨n, e⟩ := mem t ht f h
  obtain ⟨n', e'⟩ := mem t' ht' f' h'
  rw [e] at e'
  have : t.ns = t'.ns := by
    injection e' with e'; injection e' with e'; injection e' with e'; injection e'
  have u := find_unique (f := (·.ns)) ht C53_tables.2
  have u' := find_unique (f := (·.ns)) ht' C53_tables.2
  simp only [this] at u
  rw [u] at u'; cases u'; rfl

/-- The key of an entry is the name it is made for. -/
theorem entry_name {t : NameTable} {n : Str} {e : Str × Iri × Str} (h : t.entry n = some e) : e.1 = n := by
  unfold NameTable.entry at h
  split at h
  · cases h
  · split at h
    · cases h
    · cases h; rfl

/-- C53, for any table: the cache holds the entry of every member, each name once, and nothing else. -/
theorem C53_cache (t : NameTable) (c : List (Str × Iri × Str)) (h : t.makeCache = some c) :
    (c.map (·.1)).Nodup ∧ ∀ e, e ∈ c ↔ ∃ m ∈ t.members, t.entry m.2 = some e := by
  suffices key : ∀ (l : List (Str × Str)) (b c : List (Str × Iri × Str)), (b.map (·.1)).Nodup → (∀ e ∈ b, t.entry e.1 = some e) →
      l.foldl t.cacheStep (some b) = some c →
      (c.map (·.1)).Nodup ∧ ∀ e, e ∈ c ↔ e ∈ b ∨ ∃ m ∈ l, t.entry m.2 = some e by
    have := key t.members [] c (by simp) (by simp) h
    simpa using this
  have hnone : ∀ l : List (Str × Str), l.foldl t.cacheStep none = none := by
    intro l
    induction l with
    | nil => rfl
    | cons m l ih => exact ih
  intro l
  induction l with
  | nil => intro b c hb _ h; cases h; exact ⟨hb, by simp⟩
  | cons m l ih =>
    intro b c hb he h
    rw [List.foldl_cons] at h
    cases hm : t.entry m.2 with
    | none =>
      have : t.cacheStep (some b) m = none := by simp [NameTable.cacheStep, hm]
      rw [this, hnone] at h; cases h
    | some x =>
      have : t.cacheStep (some b) m = some ((b.filter fun x => x.1 != m.2) ++ [x]) := by simp [NameTable.cacheStep, hm]
      rw [this] at h
      have hx := entry_name hm
      have h1 := ih _ c ?_ ?_ h
      · refine ⟨h1.1, fun e => (h1.2 e).trans ?_⟩
        simp only [List.mem_append, List.mem_filter, bne_iff_ne, ne_eq, List.mem_cons, List.not_mem_nil, or_false, exists_eq_or_imp, hm,
          Option.some.injEq]
        constructor
        · rintro ((⟨h, -⟩ | rfl) | h)
          · exact .inl h
          · exact .inr (.inl rfl)
          · exact .inr (.inr h)
        · rintro (h | rfl | h)
          · by_cases hn : e.1 = m.2
            · refine .inl (.inr ?_)
              have := he e h
              rw [hn, hm] at this
              exact (Option.some.inj this).symm
            · exact .inl (.inl ⟨h, hn⟩)
          · exact .inl (.inr rfl)
          · exact .inr h
      · rw [List.map_append, List.nodup_append]
        refine ⟨hb.sublist (List.filter_sublist.map _), by simp, ?_⟩
        intro a ha b' hb'
        obtain ⟨y, hy, rfl⟩ := List.mem_map.1 ha
        simp only [List.mem_filter, bne_iff_ne, ne_eq] at hy
        simp only [List.map_cons, List.map_nil, List.mem_singleton] at hb'
        rw [hb', hx]
        exact hy.2
      · intro e h
        rcases List.mem_append.1 h with h | h
        · exact he e (List.mem_filter.1 h).1
        · rw [List.mem_singleton.1 h, hx, hm]

/-! ### C54 -/

/-- C54: numbered members differ from each other, from every member of the RDF vocabulary,
and their qualified name says the same. -/
theorem C54_member_distinct (a b : Nat) :
    (rdfMember a = rdfMember b → a = b) ∧
    (∀ fn i, rdfTable.call fn = some i → i ≠ rdfMember a) ∧
    (rdfMemberQname a = rdfMemberQname b → a = b) := by
  refine ⟨?_, ?_, ?_⟩
  · intro h
    simp only [rdfMember, Iri.mk.injEq, List.append_cancel_left_eq, List.cons.injEq, true_and] at h
    exact toDigits_inj h
  · intro fn i hi e
    have hx : ∀ m ∈ rdfTable.members, m.2.head? ≠ some '_' := by decide
    cases hm : rdfTable.members.find? (fun m => m.1 == fn) with
    | none => simp [NameTable.call, hm] at hi
    | some m =>
      have h1 := List.mem_of_find?_eq_some hm
      have h2 : m.1 = fn := by simpa using List.find?_some hm
      have h3 := (C53_members rdfTable (by decide)).2.2.1 m.1 m.2 h1
      rw [h2, hi] at h3
      obtain ⟨e1, _⟩ := h3
      subst e
      have : '_' :: Nat.toDigits 10 a = m.2 := by simpa [rdfMember] using e1
      exact hx m h1 (by rw [← this]; rfl)
  · intro h
    simp only [rdfMemberQname, List.append_cancel_left_eq, List.cons.injEq, true_and] at h
    exact toDigits_inj h

/-- C54: the qualified name of a numbered member is the prefix of the vocabulary, a colon, and
the name that follows the namespace in the IRI. -/
theorem C54_member_qname (a : Nat) :
    ∃ n, (rdfMember a).text = rdfTable.ns ++ n ∧ rdfMemberQname a = (str! "rdf:") ++ n :=
  ⟨_, rfl, rfl⟩

/-- C54: a numbered member splits into the RDF namespace and a valid name. -/
theorem C54_member_name (a : Nat) :
    Name.parse ('_' :: Nat.toDigits 10 a) = .ok ⟨'_' :: Nat.toDigits 10 a⟩ ∧
    (rdfMember a).split = .ok (some (rdfTable.iri, ⟨'_' :: Nat.toDigits 10 a⟩)) := by
  have hd : ∀ c ∈ Nat.toDigits 10 a, _ := fun c hc =>
    digit_ascii (Nat.isDigit_of_mem_toDigits (by decide) (by decide) hc)
  have hp : Name.parse ('_' :: Nat.toDigits 10 a) = .ok ⟨'_' :: Nat.toDigits 10 a⟩ := by
    rw [Name.parse_ok_iff]
    refine ⟨rfl, ?_, _, _, rfl, by decide, fun c hc => (hd c hc).1⟩
    rw [← Bool.not_eq_true, endsWith_iff]
    rintro ⟨t, ht⟩
    cases t with
    | nil => simp at ht
    | cons x t =>
      simp only [List.cons_append, List.cons.injEq] at ht
      exact (hd '.' (by rw [ht.2]; simp)).2.2 rfl
  refine ⟨hp, C06_makeName_split_partial rdfTable.iri _ _ _ (by decide) (.inl (by decide)) hp ?_ ?_⟩
  · intro c hc
    rcases List.mem_cons.1 hc with rfl | hc
    · decide
    · exact (hd c hc).2.1
  · have hf : rdfTable.iri.fragment = some [] := by decide
    have hnf : rdfTable.ns = rdfTable.iri.noFragment ++ ['#'] := by decide
    unfold Iri.makeName
    simp only [hf, Option.isSome_some, if_true]
    unfold Iri.withNewFragment rdfMember
    rw [hnf, pctEncode_id]
    · simp
    · intro c hc
      rcases List.mem_cons.1 hc with rfl | hc
      · decide
      · exact (rest_ascii_path (hd c hc).1 (hd c hc).2.1).2.1

/-! ### C56 -/

/-- C56, the full statement: the members of the XSD, RDF, RDFS and OWL tables are terms of
those vocabularies as W3C defines them. -/
def C56_statement : Prop :=
  (∀ m ∈ xsdTable.members, m.2 ∈ W3C.xsd) ∧ (∀ m ∈ rdfTable.members, m.2 ∈ W3C.rdf) ∧
  (∀ m ∈ rdfsTable.members, m.2 ∈ W3C.rdfs) ∧ (∀ m ∈ owlTable.members, m.2 ∈ W3C.owl)

/-- C56 fails: `xsd:entity`, `xsd:NS`, five RDF terms in the RDFS table, `owl:version` and
`owl:incompatible_with` do not exist. -/
theorem C56_fails : ¬ C56_statement := by
  unfold C56_statement; decide +kernel

/-- C56, what holds: all members but the nine listed. -/
theorem C56_terms_partial :
    (∀ m ∈ xsdTable.members, m.2 ∈ W3C.xsd ∨ m.2 ∈ [str! "entity", str! "NS"]) ∧
    (∀ m ∈ rdfTable.members, m.2 ∈ W3C.rdf) ∧
    (∀ m ∈ rdfsTable.members, m.2 ∈ W3C.rdfs ∨
      m.2 ∈ [str! "langString", str! "HTML", str! "XMLLiteral", str! "Property", str! "value"]) ∧
    (∀ m ∈ owlTable.members, m.2 ∈ W3C.owl ∨ m.2 ∈ [str! "version", str! "incompatible_with"]) := by
  decide +kernel

/-- C56, exactly: the members that are not terms of W3C are the nine listed. -/
theorem C56_terms_iff :
    (∀ m ∈ xsdTable.members, m.2 ∈ W3C.xsd ↔ m.2 ∉ [str! "entity", str! "NS"]) ∧
    (∀ m ∈ rdfTable.members, m.2 ∈ W3C.rdf) ∧
    (∀ m ∈ rdfsTable.members, m.2 ∈ W3C.rdfs ↔
      m.2 ∉ [str! "langString", str! "HTML", str! "XMLLiteral", str! "Property", str! "value"]) ∧
    (∀ m ∈ owlTable.members, m.2 ∈ W3C.owl ↔ m.2 ∉ [str! "version", str! "incompatible_with"]) := by
  decide +kernel

/-! ### C57 -/

/-- C57: the vocabulary list of the IRI crate and the tables of the names crate agree: a
prefix known to both stands for the same namespace, and a namespace known to both has the
same prefix. -/
theorem C57_agree : ∀ v ∈ vocabularies, ∀ t ∈ nameTables, v.pfx = t.pfx ↔ v.iri = t.ns := by
  decide +kernel

example : ∃ v ∈ vocabularies, ∃ t ∈ nameTables, v.pfx = t.pfx := by decide +kernel

end Rdftk
