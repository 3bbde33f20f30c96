import Verif.Lemmas.Serde
import Verif.Props.PrefixMap

/-! Properties C88 and C89: what `serde` writes and reads. -/

namespace Rdftk

/-! ### C88 -/

/-- C88: the JSON text of a name is read as the name. -/
theorem C88_name (n : Name) : jsonFromStr Name.ofJson (jsonToString n.toJson) = some n := by
  simp only [jsonFromStr, jsonToString, parse_text false n.toJson trivial]; rfl

/-- C88: the JSON text of a namespace is read as the namespace. -/
theorem C88_namespace (n : Namespace) : jsonFromStr Namespace.ofJson (jsonToString n.toJson) = some n := by
  simp only [jsonFromStr, jsonToString, parse_text false n.toJson trivial]; rfl

/-- C88: the JSON text of an IRI is read as the IRI, if the URL parser takes its own text. -/
theorem C88_iri (url : Str → Option Iri) (i : Iri) (h : url i.text = some i) :
    jsonFromStr (Iri.ofJson url) (jsonToString i.toJson) = some i := by
  simp only [jsonFromStr, jsonToString, parse_text false i.toJson trivial]; exact h

/-- C88: the JSON text of a local name, which has its members in the order of declaration, is read
as the local name. -/
theorem C88_local (l : LocalName) : jsonFromStr LocalName.ofJson (jsonToString l.toJson) = some l := by
  simp only [jsonFromStr, jsonToString,
    parse_text false l.toJson (by simp [LocalName.toJson, Json.Loose, Json.LooseMembers, Namespace.toJson, Name.toJson])]
  rfl

/-- C88: the JSON text of a prefixed name is read as the prefixed name. -/
theorem C88_prefixed (p : PrefixedName) :
    jsonFromStr PrefixedName.ofJson (jsonToString p.toJson) = some p := by
  cases p with
  | ns n =>
    simp only [jsonFromStr, jsonToString, parse_text false (PrefixedName.toJson (.ns n))
      (by simp [PrefixedName.toJson, Json.Loose, Json.LooseMembers, Namespace.toJson])]
    rfl
  | loc l =>
    simp only [jsonFromStr, jsonToString, parse_text false (PrefixedName.toJson (.loc l))
      (by simp [PrefixedName.toJson, LocalName.toJson, Json.Loose, Json.LooseMembers, Namespace.toJson, Name.toJson])]
    rfl

/-- C88: the JSON text of an IRI reference is read as the reference. -/
theorem C88_ref (url : Str → Option Iri) (r : AnyRef) (h : ∀ i, r = .iri i → url i.text = some i) :
    jsonFromStr (AnyRef.ofJson url) (jsonToString r.toJson) = some r := by
  match r with
  | .iri i =>
    simp only [jsonFromStr, jsonToString, parse_text false (AnyRef.toJson (.iri i))
      (by simp [AnyRef.toJson, Json.Loose, Json.LooseMembers, Iri.toJson])]
    show (url i.text).map AnyRef.iri = _
    rw [h i rfl]; rfl
  | .pname (.ns n) =>
    simp only [jsonFromStr, jsonToString, parse_text false (AnyRef.toJson (.pname (.ns n)))
      (by simp [AnyRef.toJson, PrefixedName.toJson, Json.Loose, Json.LooseMembers, Namespace.toJson])]
    rfl
  | .pname (.loc l) =>
    simp only [jsonFromStr, jsonToString, parse_text false (AnyRef.toJson (.pname (.loc l)))
      (by simp [AnyRef.toJson, PrefixedName.toJson, LocalName.toJson, Json.Loose, Json.LooseMembers,
        Namespace.toJson, Name.toJson])]
    rfl

/-- C88: the JSON text of every prefix map a client can have is read as the map. -/
theorem C88_map (url : Str → Option Iri) (m : PrefixMap) (hm : Reachable m)
    (h : ∀ e ∈ m.entries, url e.2.text = some e.2) :
    jsonFromStr (PrefixMap.ofJson url) (jsonToString m.toJson) = some m := by
  have hl : ∀ l : List (Namespace × Iri), Json.LooseMembers 125 (l.map fun e => (e.1.text, e.2.toJson)) := by
    intro l
    induction l with
    | nil => trivial
    | cons e l ih => exact ⟨trivial, ih⟩
  have hn : ∀ l : List (Namespace × Iri), Json.normMembers (l.map fun e => (e.1.text, e.2.toJson)) =
      l.map fun e => (e.1.text, e.2.toJson) := by
    intro l
    induction l with
    | nil => rfl
    | cons e l ih =>
      simp only [List.map_cons, Json.normMembers, ih]
      rfl
  simp only [jsonFromStr, jsonToString, parse_text false m.toJson ⟨hl m.entries, trivial⟩]
  have hs : mapAll [] (m.entries.map fun e => (e.1.text, e.2.toJson)) = m.entries.map fun e => (e.1.text, e.2.toJson) :=
    mapAll_inOrder [] _ (by
      simp only [List.nil_append, SortedKeys, List.pairwise_map]
      exact hm.inv.imp fun h => h.1)
  have : m.toJson.norm = m.toJson := by
    show Json.obj (mapAll [] [(_, Json.obj (mapAll [] (Json.normMembers _)))]) = _
    rw [hn, hs]; rfl
  rw [this]
  exact insertMembers_sorted url [] m.entries hm.inv h

/-- C88: so two values of the same type with the same text are equal; here for maps. -/
theorem C88_map_injective (m m' : PrefixMap) (hm : Reachable m) (hm' : Reachable m')
    (h : jsonToString m.toJson = jsonToString m'.toJson) : m = m' := by
  have a := C88_map (fun s => some ⟨s⟩) m hm fun _ _ => rfl
  rw [h, C88_map (fun s => some ⟨s⟩) m' hm' fun _ _ => rfl] at a
  exact (Option.some.inj a).symm

/-! ### C89 -/

/-- C89, as a reader of the documentation expects it: names and namespaces that are read are ones that
parsing accepts. -/
def C89_statement : Prop :=
  (∀ s n, jsonFromStr Name.ofJson s = some n → Name.parse n.text = .ok n) ∧
  (∀ s n, jsonFromStr Namespace.ofJson s = some n → Namespace.parse n.text = .ok n) ∧
  (∀ s l, jsonFromStr LocalName.ofJson s = some l → LocalName.parse l.display = .ok l)

/-- C89 fails: the empty string is read as a name. -/
theorem C89_fails : ¬ C89_statement := by
  intro h
  have := h.1 (str! "\"\"") ⟨[]⟩ (C88_name ⟨[]⟩)
  revert this; decide

/-- C89 fails for namespaces: one without a colon is read. -/
theorem C89_fails_namespace :
    jsonFromStr Namespace.ofJson (str! "\"rdf\"") = some ⟨str! "rdf"⟩ ∧
    ∀ n, Namespace.parse (str! "rdf") ≠ .ok n :=
  ⟨C88_namespace ⟨str! "rdf"⟩, fun n h => by
    have e : Namespace.parse (str! "rdf") = .error (.missingSeparator (str! "rdf")) := by rfl
    rw [e] at h; cases h⟩

/-- C89, exactly: a text is read as a name if and only if it is the JSON text of a string, whatever
the string, and then the name has that string. -/
theorem C89_name_iff (s : Str) (n : Name) :
    jsonFromStr Name.ofJson s = some n ↔ Spec.JsonText 127 s (.str n.text) := by
  rw [← jParse_iff]
  unfold jsonFromStr
  constructor
  · intro h
    obtain ⟨v, hv, h⟩ := Option.bind_eq_some_iff.1 h
    cases v <;> simp [Name.ofJson] at h
    subst h; exact hv
  · intro h; rw [h]; rfl

/-- C89, exactly, for namespaces. -/
theorem C89_namespace_iff (s : Str) (n : Namespace) :
    jsonFromStr Namespace.ofJson s = some n ↔ Spec.JsonText 127 s (.str n.text) := by
  rw [← jParse_iff]
  unfold jsonFromStr
  constructor
  · intro h
    obtain ⟨v, hv, h⟩ := Option.bind_eq_some_iff.1 h
    cases v <;> simp [Namespace.ofJson] at h
    subst h; exact hv
  · intro h; rw [h]; rfl

/-- C89: an IRI that is read is one that the URL parser gave for the string. -/
theorem C89_iri (url : Str → Option Iri) (s : Str) (i : Iri) :
    jsonFromStr (Iri.ofJson url) s = some i ↔ ∃ t, Spec.JsonText 127 s (.str t) ∧ url t = some i := by
  simp only [← jParse_iff]
  unfold jsonFromStr
  constructor
  · intro h
    obtain ⟨v, hv, h⟩ := Option.bind_eq_some_iff.1 h
    cases v <;> simp [Iri.ofJson] at h
    exact ⟨_, hv, h⟩
  · rintro ⟨t, h, hu⟩; rw [h]; exact hu

theorem insertMembers_reachable (url : Str → Option Iri) (l : List (Str × Json)) (m m' : PrefixMap)
    (h : Reachable m) (e : insertMembers url m l = some m') : Reachable m' := by
  induction l generalizing m with
  | nil => cases e; exact h
  | cons x l ih =>
    obtain ⟨k, v⟩ := x
    obtain ⟨i, _, e⟩ := Option.bind_eq_some_iff.1 e
    exact ih _ (.step h (.insert _ i)) e

/-- C89: a prefix map that is read is one that could be built by insertions, so it is one-to-one
(C10); its prefixes can be any strings. -/
theorem C89_map_partial (url : Str → Option Iri) (s : Str) (m : PrefixMap)
    (h : jsonFromStr (PrefixMap.ofJson url) s = some m) : Reachable m := by
  obtain ⟨v, _, h⟩ := Option.bind_eq_some_iff.1 h
  have hb : ∀ w, biMapOfJson url w = some m → Reachable m := by
    intro w hw
    cases w <;> simp only [biMapOfJson] at hw <;> try cases hw
    exact insertMembers_reachable url _ _ _ .empty hw
  unfold PrefixMap.ofJson at h
  split at h
  · obtain ⟨w, _, h⟩ := Option.bind_eq_some_iff.1 h
    exact hb w h
  · exact hb _ h
  · cases h

/-- C89, exactly, for local names: any two strings, in an object with both members and perhaps
others or in an array of two. -/
theorem C89_local_iff (s : Str) (l : LocalName) :
    jsonFromStr LocalName.ofJson s = some l ↔
    (∃ m, Spec.JsonText 127 s (.obj m) ∧ mapGet (str! "namespace") m = some (.str l.namespace.text) ∧
      mapGet (str! "name") m = some (.str l.name.text)) ∨
    Spec.JsonText 127 s (.arr [.str l.namespace.text, .str l.name.text]) := by
  have hns : ∀ j (n : Namespace), Namespace.ofJson j = some n ↔ j = .str n.text := by
    intro j n; cases j <;> simp [Namespace.ofJson]
    constructor
    · rintro rfl; rfl
    · rintro rfl; rfl
  have hn : ∀ j (n : Name), Name.ofJson j = some n ↔ j = .str n.text := by
    intro j n; cases j <;> simp [Name.ofJson]
    constructor
    · rintro rfl; rfl
    · rintro rfl; rfl
  obtain ⟨ns, n⟩ := l
  simp only [← jParse_iff]
  unfold jsonFromStr
  constructor
  · intro h
    obtain ⟨v, hv, h⟩ := Option.bind_eq_some_iff.1 h
    unfold LocalName.ofJson at h
    split at h
    · simp only [Option.bind_eq_some_iff, hns, hn, Option.some.injEq, LocalName.mk.injEq] at h
      obtain ⟨a, ha, ns', rfl, b, hb, n', rfl, rfl, rfl⟩ := h
      exact .inl ⟨_, hv, ha, hb⟩
    · simp only [Option.bind_eq_some_iff, hns, hn, Option.some.injEq, LocalName.mk.injEq] at h
      obtain ⟨ns', rfl, n', rfl, rfl, rfl⟩ := h
      exact .inr hv
    · cases h
  · rintro (⟨m, hm, ha, hb⟩ | h)
    · rw [hm]; simp [LocalName.ofJson, ha, hb, Namespace.ofJson, Name.ofJson]
    · rw [h]; rfl

/-- A text with the members in another order and one more is read as a local name. -/
example : jsonFromStr LocalName.ofJson (str! "{\"name\":\"b\",\"x\":null,\"namespace\":\"a:\"}") =
    some ⟨⟨str! "a:"⟩, ⟨str! "b"⟩⟩ := by decide +kernel

/-- Two prefixes for one IRI: the last stays. -/
example : jsonFromStr (PrefixMap.ofJson fun s => some ⟨s⟩) (str! "{\"map\":{\"a:\":\"http://h/\",\"b:\":\"http://h/\"}}") =
    some ⟨[(⟨str! "b:"⟩, ⟨str! "http://h/"⟩)]⟩ := by decide +kernel

/-- What is written for a local name. -/
example : jsonToString (LocalName.toJson ⟨⟨str! "a:"⟩, ⟨str! "b"⟩⟩) = str! "{\"namespace\":\"a:\",\"name\":\"b\"}" := by
  decide +kernel

end Rdftk
