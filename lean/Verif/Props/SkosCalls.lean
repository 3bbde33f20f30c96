import Verif.Props.Skos
import Verif.Spec.SkosCalls

/-! Property C126: what calls make of a thesaurus, and further facts about C104, C107 and C108. -/

namespace Rdftk

open Spec

/-! ### C126 -/

/-- A concept with more said of it. -/
def Concept.add (c : Concept) (fs : List SkosFact) : Concept :=
  { c with concepts := c.concepts ++ relationsIn fs, external := c.external ++ externalsIn fs, labels := c.labels ++ labelsIn fs,
           properties := c.properties ++ propertiesIn fs }

/-- A collection with more said of it. -/
def SkosCollection.add (c : SkosCollection) (fs : List SkosFact) : SkosCollection :=
  { c with members := c.members ++ membersIn fs, labels := c.labels ++ labelsIn fs, properties := c.properties ++ propertiesIn fs }

theorem Concept.add_nil (c : Concept) : c.add [] = c := by
  simp [Concept.add, relationsIn, externalsIn, labelsIn, propertiesIn]
theorem Concept.add_add (c : Concept) (a b : List SkosFact) : (c.add a).add b = c.add (a ++ b) := by
  simp [Concept.add, relationsIn, externalsIn, labelsIn, propertiesIn]
theorem SkosCollection.add_nil (c : SkosCollection) : c.add [] = c := by
  simp [SkosCollection.add, membersIn, labelsIn, propertiesIn]
theorem SkosCollection.add_add (c : SkosCollection) (a b : List SkosFact) : (c.add a).add b = c.add (a ++ b) := by
  simp [SkosCollection.add, membersIn, labelsIn, propertiesIn]

theorem labelsIn_map (ls : List Label) : relationsIn (ls.map .label) = [] ∧ externalsIn (ls.map .label) = [] ∧
    membersIn (ls.map .label) = [] ∧ labelsIn (ls.map .label) = ls ∧ propertiesIn (ls.map .label) = [] := by
  simp [relationsIn, externalsIn, membersIn, labelsIn, propertiesIn, List.filterMap_map, Function.comp_def]

theorem said_later (n a : Nat) (op : SkosOp) (h : n + (madeConcept n op).toList.length ≤ a) : saidOfConcept n a op = [] := by
  cases op with
  | newTopConcept u ls => simp [madeConcept] at h; simp [saidOfConcept]; omega
  | newConcept i r u ls =>
    by_cases hi : i < n
    · simp [madeConcept, hi] at h
      simp [saidOfConcept, hi, show a ≠ i by omega, show a ≠ n by omega]
    · simp [saidOfConcept, hi]
  | addRelated i r j => simp [madeConcept] at h; simp [saidOfConcept]; omega
  | addExternal i r o => simp [madeConcept] at h; simp [saidOfConcept]; omega
  | addLabel t l => cases t <;> simp [madeConcept] at h <;> simp [saidOfConcept]; omega
  | addProperty t l => cases t <;> simp [madeConcept] at h <;> simp [saidOfConcept]; omega
  | _ => rfl

theorem saidC_later (n m a : Nat) (op : SkosOp) (h : n + (madeCollection n op).toList.length ≤ a) :
    saidOfCollection n m a op = [] := by
  cases op with
  | newTopCollection u o ls => simp [madeCollection] at h; simp [saidOfCollection]; omega
  | newCollection i r u ls =>
    by_cases hi : i < n
    · simp [madeCollection, hi] at h
      simp [saidOfCollection, hi, show a ≠ i by omega, show a ≠ n by omega]
    · simp [saidOfCollection, hi]
  | addMemberConcept i j => simp [madeCollection] at h; simp [saidOfCollection]; omega
  | addLabel t l => cases t <;> simp [madeCollection] at h <;> simp [saidOfCollection]; omega
  | addProperty t l => cases t <;> simp [madeCollection] at h <;> simp [saidOfCollection]; omega
  | _ => rfl

theorem getElem?_modify_add {α : Type} (l : List α) (i a : Nat) (f : α → α) :
    (l.modify i f)[a]? = if a = i ∧ i < l.length then l[a]?.map f else l[a]? := by
  rw [List.getElem?_modify]
  by_cases h : i = a
  · subst h
    by_cases hi : i < l.length
    · simp [hi]
    · simp [List.getElem?_eq_none (Nat.le_of_not_lt hi)]
  · have : ¬(a = i ∧ i < l.length) := fun e => h e.1.symm
    simp [h, this]

theorem map_add_nil (x : Option Concept) : x.map (·.add []) = x := by
  cases x <;> simp [Concept.add_nil]
theorem map_addC_nil (x : Option SkosCollection) : x.map (·.add []) = x := by
  cases x <;> simp [SkosCollection.add_nil]

/-- The concepts of the store after a call. -/
theorem apply_concepts (t : Thesaurus) (op : SkosOp) (a : Nat) :
    (t.apply op).store.concepts[a]? = (t.store.concepts ++ (madeConcept t.store.concepts.length op).toList.map Concept.new)[a]?.map
      (·.add (saidOfConcept t.store.concepts.length a op)) := by
  have hl := labelsIn_map
  cases op with
  | newTopConcept u ls =>
    simp only [Thesaurus.apply, madeConcept, Option.toList, List.map_cons, List.map_nil, saidOfConcept, List.getElem?_append]
    by_cases ha : a < t.store.concepts.length
    · simp [ha, show a ≠ t.store.concepts.length by omega, map_add_nil, Concept.add_nil]
    · by_cases ha' : a = t.store.concepts.length
      · subst ha'
        simp [Concept.add, hl, Concept.new]
      · have : a - t.store.concepts.length ≠ 0 := by omega
        simp [ha, ha', map_add_nil, Concept.add_nil, List.getElem?_cons, this]
  | newConcept i r u ls =>
    by_cases hi : i < t.store.concepts.length
    · simp only [Thesaurus.apply, madeConcept, hi, if_true, Option.toList, List.map_cons, List.map_nil, saidOfConcept, List.getElem?_append,
        Thesaurus.modifyConcept, List.length_modify, getElem?_modify_add, and_true]
      by_cases ha : a < t.store.concepts.length
      · by_cases hai : a = i
        · subst hai
          simp [ha, Concept.add, relationsIn, externalsIn, labelsIn, propertiesIn]
        · simp [ha, hai, show a ≠ t.store.concepts.length by omega, Concept.add_nil]
      · by_cases ha' : a = t.store.concepts.length
        · subst ha'
          simp [Concept.add, hl, Concept.new, show t.store.concepts.length ≠ i by omega]
        · have : a - t.store.concepts.length ≠ 0 := by omega
          simp [ha, List.getElem?_cons, this]
    · simp [Thesaurus.apply, madeConcept, hi, saidOfConcept, Concept.add_nil]
  | addRelated i r j =>
    by_cases hi : i < t.store.concepts.length ∧ j < t.store.concepts.length
    · simp only [Thesaurus.apply, madeConcept, hi, and_self, if_true, Option.toList, List.map_nil, saidOfConcept, List.append_nil,
        Thesaurus.modifyConcept, getElem?_modify_add, and_true]
      by_cases hai : a = i
      · simp [hai, Concept.add, relationsIn, externalsIn, labelsIn, propertiesIn]
      · simp [hai, Concept.add_nil]
    · have : ¬(a = i ∧ i < t.store.concepts.length ∧ j < t.store.concepts.length) := fun e => hi e.2
      simp [Thesaurus.apply, madeConcept, hi, saidOfConcept, this, Concept.add_nil]
  | addExternal i r o =>
    simp only [Thesaurus.apply, madeConcept, Option.toList, List.map_nil, saidOfConcept, List.append_nil,
      Thesaurus.modifyConcept, getElem?_modify_add]
    split
    · simp [Concept.add, relationsIn, externalsIn, labelsIn, propertiesIn]
    · simp [Concept.add_nil]
  | newTopCollection => simp [Thesaurus.apply, madeConcept, saidOfConcept, Concept.add_nil]
  | newCollection i u o ls =>
    simp only [Thesaurus.apply, madeConcept, saidOfConcept]
    split <;> simp [Thesaurus.modifyCollection, Concept.add_nil]
  | addMemberConcept i j =>
    simp only [Thesaurus.apply, madeConcept, saidOfConcept]
    split <;> simp [Thesaurus.modifyCollection, Concept.add_nil]
  | addLabel g l =>
    cases g with
    | scheme => simp [Thesaurus.apply, madeConcept, saidOfConcept, Concept.add_nil]
    | concept i =>
      simp only [Thesaurus.apply, madeConcept, Option.toList, List.map_nil, saidOfConcept, List.append_nil,
        Thesaurus.modifyConcept, getElem?_modify_add]
      split
      · simp [Concept.add, relationsIn, externalsIn, labelsIn, propertiesIn]
      · simp [Concept.add_nil]
    | collection i => simp [Thesaurus.apply, madeConcept, saidOfConcept, Concept.add_nil, Thesaurus.modifyCollection]
  | addProperty g l =>
    cases g with
    | scheme => simp [Thesaurus.apply, madeConcept, saidOfConcept, Concept.add_nil]
    | concept i =>
      simp only [Thesaurus.apply, madeConcept, Option.toList, List.map_nil, saidOfConcept, List.append_nil,
        Thesaurus.modifyConcept, getElem?_modify_add]
      split
      · simp [Concept.add, relationsIn, externalsIn, labelsIn, propertiesIn]
      · simp [Concept.add_nil]
    | collection i => simp [Thesaurus.apply, madeConcept, saidOfConcept, Concept.add_nil, Thesaurus.modifyCollection]

/-- A new collection, with nothing said of it yet. -/
def newOf (e : Iri × Bool) : SkosCollection := .new e.1 e.2

/-- The collections of the store after a call. -/
theorem apply_collections (t : Thesaurus) (op : SkosOp) (a : Nat) :
    (t.apply op).store.collections[a]? =
      (t.store.collections ++ (madeCollection t.store.collections.length op).toList.map newOf)[a]?.map
        (·.add (saidOfCollection t.store.collections.length t.store.concepts.length a op)) := by
  have hl := labelsIn_map
  cases op with
  | newTopCollection u o ls =>
    simp only [Thesaurus.apply, madeCollection, Option.toList, List.map_cons, List.map_nil, saidOfCollection, List.getElem?_append, newOf]
    by_cases ha : a < t.store.collections.length
    · simp [ha, show a ≠ t.store.collections.length by omega, SkosCollection.add_nil]
    · by_cases ha' : a = t.store.collections.length
      · subst ha'
        simp [SkosCollection.add, hl, SkosCollection.new]
      · have : a - t.store.collections.length ≠ 0 := by omega
        simp [ha, ha', SkosCollection.add_nil, List.getElem?_cons, this]
  | newCollection i u o ls =>
    by_cases hi : i < t.store.collections.length
    · simp only [Thesaurus.apply, madeCollection, hi, if_true, Option.toList, List.map_cons, List.map_nil, saidOfCollection, List.getElem?_append,
        Thesaurus.modifyCollection, List.length_modify, getElem?_modify_add, and_true, newOf]
      by_cases ha : a < t.store.collections.length
      · by_cases hai : a = i
        · subst hai
          simp [ha, SkosCollection.add, membersIn, labelsIn, propertiesIn]
        · simp [ha, hai, show a ≠ t.store.collections.length by omega, SkosCollection.add_nil]
      · by_cases ha' : a = t.store.collections.length
        · subst ha'
          simp [SkosCollection.add, hl, SkosCollection.new, show t.store.collections.length ≠ i by omega]
        · have : a - t.store.collections.length ≠ 0 := by omega
          simp [ha, List.getElem?_cons, this]
    · simp [Thesaurus.apply, madeCollection, hi, saidOfCollection, SkosCollection.add_nil]
  | addMemberConcept i j =>
    by_cases hj : j < t.store.concepts.length
    · simp only [Thesaurus.apply, madeCollection, hj, if_true, Option.toList, List.map_nil, saidOfCollection, List.append_nil,
        Thesaurus.modifyCollection, getElem?_modify_add, and_true]
      split
      · simp [SkosCollection.add, membersIn, labelsIn, propertiesIn]
      · simp [SkosCollection.add_nil]
    · simp [Thesaurus.apply, madeCollection, hj, saidOfCollection, SkosCollection.add_nil]
  | addExternal i r o => simp [Thesaurus.apply, madeCollection, saidOfCollection, SkosCollection.add_nil, Thesaurus.modifyConcept]
  | newTopConcept => simp [Thesaurus.apply, madeCollection, saidOfCollection, SkosCollection.add_nil]
  | newConcept i r u ls =>
    simp only [Thesaurus.apply, madeCollection, saidOfCollection]
    split <;> simp [Thesaurus.modifyConcept, SkosCollection.add_nil]
  | addRelated i r j =>
    simp only [Thesaurus.apply, madeCollection, saidOfCollection]
    split <;> simp [Thesaurus.modifyConcept, SkosCollection.add_nil]
  | addLabel g l =>
    cases g with
    | scheme => simp [Thesaurus.apply, madeCollection, saidOfCollection, SkosCollection.add_nil]
    | collection i =>
      simp only [Thesaurus.apply, madeCollection, Option.toList, List.map_nil, saidOfCollection, List.append_nil,
        Thesaurus.modifyCollection, getElem?_modify_add]
      split
      · simp [SkosCollection.add, membersIn, labelsIn, propertiesIn]
      · simp [SkosCollection.add_nil]
    | concept i => simp [Thesaurus.apply, madeCollection, saidOfCollection, SkosCollection.add_nil, Thesaurus.modifyConcept]
  | addProperty g l =>
    cases g with
    | scheme => simp [Thesaurus.apply, madeCollection, saidOfCollection, SkosCollection.add_nil]
    | collection i =>
      simp only [Thesaurus.apply, madeCollection, Option.toList, List.map_nil, saidOfCollection, List.append_nil,
        Thesaurus.modifyCollection, getElem?_modify_add]
      split
      · simp [SkosCollection.add, membersIn, labelsIn, propertiesIn]
      · simp [SkosCollection.add_nil]
    | concept i => simp [Thesaurus.apply, madeCollection, saidOfCollection, SkosCollection.add_nil, Thesaurus.modifyConcept]

theorem made_length (n : Nat) (op : SkosOp) : (madeConcept n op).toList.length = newConcepts n op := by
  cases op with
  | newConcept i r u ls => simp only [madeConcept, newConcepts]; split <;> rfl
  | _ => rfl

theorem madeC_length (n : Nat) (op : SkosOp) : (madeCollection n op).toList.length = newCollections n op := by
  cases op with
  | newCollection i r u ls => simp only [madeCollection, newCollections]; split <;> rfl
  | _ => rfl

theorem run_concepts (ops : List SkosOp) (t : Thesaurus) (a : Nat) :
    (ops.foldl Thesaurus.apply t).store.concepts[a]? =
      (t.store.concepts ++ (conceptsMade t.store.concepts.length ops).map Concept.new)[a]?.map
        (·.add (factsOfConcept a t.store.concepts.length ops)) := by
  induction ops generalizing t with
  | nil => simp [conceptsMade, factsOfConcept, Concept.add_nil]
  | cons op ops ih =>
    have hlen := (apply_length t op).1
    rw [← made_length] at hlen
    rw [List.foldl_cons, ih, hlen]
    simp only [conceptsMade, factsOfConcept, List.map_append]
    rw [← List.append_assoc, List.getElem?_append, List.getElem?_append (l₁ := _ ++ _)]
    simp only [List.length_append, List.length_map, hlen]
    by_cases ha : a < t.store.concepts.length + (madeConcept t.store.concepts.length op).toList.length
    · rw [if_pos ha, if_pos ha, apply_concepts, Option.map_map]
      congr 1
      funext c
      exact Concept.add_add _ _ _
    · rw [if_neg ha, if_neg ha, said_later _ _ _ (by omega), List.nil_append]

theorem run_collections (ops : List SkosOp) (t : Thesaurus) (a : Nat) :
    (ops.foldl Thesaurus.apply t).store.collections[a]? =
      (t.store.collections ++ (collectionsMade t.store.collections.length ops).map newOf)[a]?.map
        (·.add (factsOfCollection a t.store.collections.length t.store.concepts.length ops)) := by
  induction ops generalizing t with
  | nil => simp [collectionsMade, factsOfCollection, SkosCollection.add_nil]
  | cons op ops ih =>
    have hlen := (apply_length t op).2
    have hlen' := (apply_length t op).1
    rw [← madeC_length] at hlen
    rw [← made_length] at hlen'
    rw [List.foldl_cons, ih, hlen, hlen']
    simp only [collectionsMade, factsOfCollection, List.map_append]
    rw [← List.append_assoc, List.getElem?_append, List.getElem?_append (l₁ := _ ++ _)]
    simp only [List.length_append, List.length_map, hlen]
    by_cases ha : a < t.store.collections.length + (madeCollection t.store.collections.length op).toList.length
    · rw [if_pos ha, if_pos ha, apply_collections, Option.map_map]
      congr 1
      funext c
      exact SkosCollection.add_add _ _ _
    · rw [if_neg ha, if_neg ha, saidC_later _ _ _ _ (by omega), List.nil_append]

/-- C126: after any calls, the concepts are those that were made, in order, each with the relations, external relations, labels
and properties that were said of it since, in order, and nothing else. -/
theorem C126_concepts (u : Iri) (ops : List SkosOp) (a : Nat) :
    (ops.foldl Thesaurus.apply (.new u)).store.concepts[a]? = (conceptsMade 0 ops)[a]?.map fun v =>
      { uri := v
        concepts := relationsIn (factsOfConcept a 0 ops)
        external := externalsIn (factsOfConcept a 0 ops)
        labels := labelsIn (factsOfConcept a 0 ops)
        properties := propertiesIn (factsOfConcept a 0 ops) } := by
  have := run_concepts ops (.new u) a
  simp only [Thesaurus.new, List.length_nil, List.nil_append, List.getElem?_map, Option.map_map] at this
  rw [Thesaurus.new, this]
  congr 1

/-- C126: the same for collections. -/
theorem C126_collections (u : Iri) (ops : List SkosOp) (a : Nat) :
    (ops.foldl Thesaurus.apply (.new u)).store.collections[a]? = (collectionsMade 0 ops)[a]?.map fun v =>
      { uri := v.1
        ordered := v.2
        members := membersIn (factsOfCollection a 0 0 ops)
        labels := labelsIn (factsOfCollection a 0 0 ops)
        properties := propertiesIn (factsOfCollection a 0 0 ops) } := by
  have := run_collections ops (.new u) a
  simp only [Thesaurus.new, List.length_nil, List.nil_append, List.getElem?_map, Option.map_map] at this
  rw [Thesaurus.new, this]
  congr 1

theorem run_scheme (ops : List SkosOp) (t : Thesaurus) : (ops.foldl Thesaurus.apply t).scheme =
    { uri := t.scheme.uri
      concepts := t.scheme.concepts ++ topsMade t.store.concepts.length ops
      collections := t.scheme.collections ++ topCollectionsMade t.store.collections.length ops
      labels := t.scheme.labels ++ labelsIn (ops.flatMap saidOfScheme)
      properties := t.scheme.properties ++ propertiesIn (ops.flatMap saidOfScheme) } := by
  induction ops generalizing t with
  | nil => simp [topsMade, topCollectionsMade, labelsIn, propertiesIn]
  | cons op ops ih =>
    have h1 := (apply_length t op).1
    have h2 := (apply_length t op).2
    rw [← made_length] at h1
    rw [← madeC_length] at h2
    rw [List.foldl_cons, ih, h1, h2, (apply_tops t op).1, (apply_tops t op).2]
    have hr : (t.apply op).scheme.uri = t.scheme.uri ∧
        (t.apply op).scheme.labels = t.scheme.labels ++ labelsIn (saidOfScheme op) ∧
        (t.apply op).scheme.properties = t.scheme.properties ++ propertiesIn (saidOfScheme op) := by
      cases op with
      | newConcept => simp only [Thesaurus.apply]; split <;> simp [Thesaurus.modifyConcept, saidOfScheme, labelsIn, propertiesIn]
      | addRelated => simp only [Thesaurus.apply]; split <;> simp [Thesaurus.modifyConcept, saidOfScheme, labelsIn, propertiesIn]
      | newCollection => simp only [Thesaurus.apply]; split <;> simp [Thesaurus.modifyCollection, saidOfScheme, labelsIn, propertiesIn]
      | addMemberConcept => simp only [Thesaurus.apply]; split <;> simp [Thesaurus.modifyCollection, saidOfScheme, labelsIn, propertiesIn]
      | addLabel g l => cases g <;> simp [Thesaurus.apply, Thesaurus.modifyConcept, Thesaurus.modifyCollection, saidOfScheme, labelsIn, propertiesIn]
      | addProperty g l => cases g <;> simp [Thesaurus.apply, Thesaurus.modifyConcept, Thesaurus.modifyCollection, saidOfScheme, labelsIn, propertiesIn]
      | _ => simp [Thesaurus.apply, Thesaurus.modifyConcept, saidOfScheme, labelsIn, propertiesIn]
    rw [hr.1, hr.2.1, hr.2.2]
    have ht : t.scheme.concepts ++ topsMade t.store.concepts.length (op :: ops) = t.scheme.concepts ++ (match op with
        | .newTopConcept .. => [t.store.concepts.length]
        | _ => []) ++ topsMade (t.store.concepts.length + (madeConcept t.store.concepts.length op).toList.length) ops := by
      cases op <;> simp [topsMade]
    have hc : t.scheme.collections ++ topCollectionsMade t.store.collections.length (op :: ops) = t.scheme.collections ++ (match op with
        | .newTopCollection .. => [t.store.collections.length]
        | _ => []) ++ topCollectionsMade (t.store.collections.length + (madeCollection t.store.collections.length op).toList.length) ops := by
      cases op <;> simp [topCollectionsMade]
    have hf : ∀ a b, labelsIn (a ++ b) = labelsIn a ++ labelsIn b ∧ propertiesIn (a ++ b) = propertiesIn a ++ propertiesIn b := fun a b =>
      ⟨List.filterMap_append, List.filterMap_append⟩
    rw [ht, hc, List.flatMap_cons, (hf _ _).1, (hf _ _).2]
    simp only [List.append_assoc]
    cases op <;> rfl

/-- C126: the same for the scheme. -/
theorem C126_scheme (u : Iri) (ops : List SkosOp) : (ops.foldl Thesaurus.apply (.new u)).scheme =
    { uri := u
      concepts := topsMade 0 ops
      collections := topCollectionsMade 0 ops
      labels := labelsIn (ops.flatMap saidOfScheme)
      properties := propertiesIn (ops.flatMap saidOfScheme) } := by
  rw [run_scheme]
  simp [Thesaurus.new, Scheme.new]

example : (([.newTopConcept ⟨str! "a"⟩ [], .newConcept 0 .narrower ⟨str! "b"⟩ [], .addExternal 1 ⟨str! "p"⟩ ⟨str! "x"⟩, .addExternal 1 ⟨str! "p"⟩ ⟨str! "y"⟩] :
    List SkosOp).foldl Thesaurus.apply (.new ⟨[]⟩)).store.concepts[1]? =
    some ⟨⟨str! "b"⟩, [], [(⟨str! "p"⟩, ⟨str! "x"⟩), (⟨str! "p"⟩, ⟨str! "y"⟩)], [], []⟩ := by
  rw [C126_concepts]
  rfl

/-! ### C104 -/

/-- C104: which relations are taken to be narrower and broader ones, by their IRIs. -/
theorem C104_narrower (r : ConceptRelation) :
    (r.isNarrower = true ↔ r.toUri ∈ [(⟨str! "http://www.w3.org/2004/02/skos/core#narrower"⟩ : Iri),
      ⟨str! "http://purl.org/iso25964/skos-thes#narrowerPartitive"⟩, ⟨str! "http://purl.org/iso25964/skos-thes#narrowerInstantial"⟩]) ∧
    (r.isBroader = true ↔ r.toUri ∈ [(⟨str! "http://www.w3.org/2004/02/skos/core#broader"⟩ : Iri),
      ⟨str! "http://purl.org/iso25964/skos-thes#broaderPartitive"⟩, ⟨str! "http://purl.org/iso25964/skos-thes#broaderInstantial"⟩]) := by
  cases r <;> decide +kernel

/-! ### C107 -/

/-- C107: the members of a collection without order are written by their own IRIs, concepts and collections. -/
theorem C107_members (pr : Char → Bool) (gen : Nat → Str) (h : SkosStore) (s : Scheme) (n k : Nat) (sts : List Stmt)
    (hs : s.toStatements pr gen h n k = some sts) (i j : Nat) (hi : CollectionOf h s i) (ho : (h.collection i).ordered = false) :
    (.concept j ∈ (h.collection i).members →
      .mk (.res (h.collection i).uri) (skosIri (str! "member")) (.res (h.concept j).uri) ∈ sts) ∧
    (.collection j ∈ (h.collection i).members →
      .mk (.res (h.collection i).uri) (skosIri (str! "member")) (.res (h.collection j).uri) ∈ sts) := by
  constructor
  · intro hm
    exact (C107_statements pr gen h s n k sts hs _ (by intro b e; cases e)).2 (.member hi ho hm)
  · intro hm
    exact (C107_statements pr gen h s n k sts hs _ (by intro b e; cases e)).2 (.member hi ho hm)

/-! ### C108 -/

theorem collection_next (pr : Char → Bool) (gen : Nat → Str) (h : SkosStore) (o : Option Object) (c : SkosCollection) (k : Nat) :
    (c.toStatements pr gen h o k).2 = k + if c.ordered ∧ c.members ≠ [] then c.members.length + 1 else 0 := by
  simp only [SkosCollection.toStatements]
  by_cases hm : c.members = []
  · simp [hm]
  · by_cases ho : c.ordered = true
    · simp [hm, ho, listFrom_next]
      omega
    · simp [hm, ho]

/-- Where the members of lists are, by the number of the label. -/
theorem first_label {pr : Char → Bool} {gen : Nat → Str} {h : SkosStore} {u : Iri} {ks : List Nat} {k : Nat} {b : Str} {x : Object}
    (hst : .mk (.blank b) (rdfIri (str! "first")) x ∈ (collectionsToStatements pr gen h u ks k).1) : ∃ j, k ≤ j ∧ b = gen j := by
  induction ks generalizing k with
  | nil => cases hst
  | cons i ks ih =>
    simp only [collectionsToStatements, List.mem_append, List.mem_cons] at hst
    rcases hst with h1 | h1 | h1
    · rw [blank_collectionToStatements] at h1
      unfold listPart at h1
      split at h1
      · obtain ⟨j, m, -, e, -⟩ := listStatements_first.1 h1
        exact ⟨k + j, by omega, e⟩
      · cases h1
    · cases h1
    · obtain ⟨j, hj, e⟩ := ih h1
      rw [collection_next] at hj
      exact ⟨j, by omega, e⟩

theorem first_unique {pr : Char → Bool} {gen : Nat → Str} (hg : ∀ i j, gen i = gen j → i = j) {h : SkosStore} {u : Iri} {ks : List Nat}
    {k : Nat} {b : Str} {x y : Object}
    (hx : .mk (.blank b) (rdfIri (str! "first")) x ∈ (collectionsToStatements pr gen h u ks k).1)
    (hy : .mk (.blank b) (rdfIri (str! "first")) y ∈ (collectionsToStatements pr gen h u ks k).1) : x = y := by
  induction ks generalizing k with
  | nil => cases hx
  | cons i ks ih =>
    have here : ∀ z, .mk (.blank b) (rdfIri (str! "first")) z ∈ ((h.collection i).toStatements pr gen h (some (.res u)) k).1 →
        ∃ j m, ((h.collection i).members.map (·.uri h))[j]? = some m ∧ b = gen (k + j) ∧ z = .res m ∧
          k + j < ((h.collection i).toStatements pr gen h (some (.res u)) k).2 := by
      intro z h1
      rw [blank_collectionToStatements] at h1
      unfold listPart at h1
      split at h1
      · rename_i hc
        obtain ⟨j, m, hj, e, ez⟩ := listStatements_first.1 h1
        refine ⟨j, m, hj, e, ez, ?_⟩
        have := (List.getElem?_eq_some_iff.1 hj).1
        rw [List.length_map] at this
        rw [collection_next, if_pos hc]
        omega
      · cases h1
    simp only [collectionsToStatements, List.mem_append, List.mem_cons] at hx hy
    rcases hx with h1 | h1 | h1
    · obtain ⟨j, m, hj, e, ez, hlt⟩ := here x h1
      rcases hy with h2 | h2 | h2
      · obtain ⟨j', m', hj', e', ez', -⟩ := here y h2
        have := hg _ _ (e.symm.trans e')
        obtain rfl : j = j' := by omega
        rw [hj] at hj'
        cases hj'
        rw [ez, ez']
      · cases h2
      · obtain ⟨j', hj', e'⟩ := first_label h2
        have := hg _ _ (e.symm.trans e')
        omega
    · cases h1
    · rcases hy with h2 | h2 | h2
      · obtain ⟨j', m', hj', e', ez', hlt⟩ := here y h2
        obtain ⟨j, hj, e⟩ := first_label h1
        have := hg _ _ (e.symm.trans e')
        omega
      · cases h2
      · exact ih h1 h2

/-- C108: no node is in the lists of two collections, or twice in one: each has at most one member. -/
theorem C108_apart (pr : Char → Bool) (gen : Nat → Str) (hg : ∀ i j, gen i = gen j → i = j) (h : SkosStore) (s : Scheme) (n k : Nat)
    (sts : List Stmt) (hs : s.toStatements pr gen h n k = some sts) (b : Str) (x y : Object)
    (hx : .mk (.blank b) (rdfIri (str! "first")) x ∈ sts) (hy : .mk (.blank b) (rdfIri (str! "first")) y ∈ sts) : x = y := by
  unfold Scheme.toStatements at hs
  cases hc : s.conceptsFlattened h n with
  | none => rw [hc] at hs; cases hs
  | some cs =>
    cases hk : s.collectionsFlattened h n with
    | none => rw [hc, hk] at hs; cases hs
    | some ks =>
      rw [hc, hk] at hs
      simp only [Option.bind_eq_bind, Option.bind_some, Option.some.injEq] at hs
      have key : ∀ z, Stmt.mk (.blank b) (rdfIri (str! "first")) z ∈ sts →
          .mk (.blank b) (rdfIri (str! "first")) z ∈ (collectionsToStatements pr gen h s.uri ks k).1 := by
        intro z hz
        rw [← hs] at hz
        simp only [List.append_assoc, List.cons_append, List.mem_cons, List.mem_append, List.mem_flatMap, mem_conceptToStatements] at hz
        rw [← List.mem_append, mem_saysOf] at hz
        rcases hz with h1 | ⟨i, hi, (h1 | h1 | ⟨e, he, h1⟩ | ⟨e, he, h1⟩ | h1) | h1⟩ | h1 | h1
        · cases h1
        · cases h1
        · cases h1
        · cases h1
        · cases h1
        · obtain ⟨_, _, e⟩ := saysOf_subject h1
          cases e
        · split at h1
          · simp at h1
          · cases h1
        · exact h1
        · obtain ⟨_, _, e⟩ := saysOf_subject h1
          cases e
      exact first_unique hg (key x hx) (key y hy)

end Rdftk
