import Verif.Spec.Rdfs
import Verif.Model.Node

/-! Properties C115-C117: RDFS vocabularies (`rdftk_ontology`). -/

namespace Rdftk
open Spec

/-! ### C115 -/

theorem labelStatements_iff (u : Iri) (ls : List LabelProperty) (st : Stmt) :
    st ∈ labelStatements u ls ↔ LabelSays u ls st := by
  simp only [labelStatements, List.mem_map]
  constructor
  · rintro ⟨l, hl, rfl⟩
    cases l
    · exact .label hl
    · exact .comment hl
    · exact .seeAlso hl
    · exact .isDefinedBy hl
  · rintro (h | h | h | h)
    · exact ⟨_, h, rfl⟩
    · exact ⟨_, h, rfl⟩
    · exact ⟨_, h, rfl⟩
    · exact ⟨_, h, rfl⟩

/-- The orders in which the maps of a vocabulary are visited. -/
structure VisitOrders where
  classes : List RdfsClass → List RdfsClass
  properties : List RdfsProperty → List RdfsProperty
  classes_mem : ∀ l c, c ∈ classes l ↔ c ∈ l
  properties_mem : ∀ l p, p ∈ properties l ↔ p ∈ l

/-- The statements that a vocabulary is written as. -/
def VisitOrders.write (o : VisitOrders) (v : RdfsVocabulary) : List Stmt := v.toStatements o.classes o.properties

/-- C115, the full statement: a vocabulary is written as what it says. -/
def C115_statement : Prop := ∀ (o : VisitOrders) (v : RdfsVocabulary) (st : Stmt), st ∈ o.write v ↔ VocabularySays v st

/-- C115: exactly what is written.  Parents are written as types. -/
theorem C115_written (o : VisitOrders) (v : RdfsVocabulary) (st : Stmt) :
    st ∈ o.write v ↔
      (VocabularySays v st ∧ st.predicate ≠ rdfsIri (str! "subClassOf") ∧ st.predicate ≠ rdfsIri (str! "subPropertyOf")) ∨
      ∃ a b, (ClassParent v a b ∨ PropertyParent v a b) ∧ st = .mk (.res a) rdfType (.res b) := by
  simp only [VisitOrders.write, RdfsVocabulary.toStatements, RdfsClass.toStatements, RdfsProperty.toStatements,
    RdfsCommon.toStatements, List.mem_append, List.mem_flatMap, List.mem_map, o.classes_mem, o.properties_mem,
    labelStatements_iff]
  have lab : ∀ {u ls}, LabelSays u ls st → st.predicate ≠ rdfsIri (str! "subClassOf") ∧
      st.predicate ≠ rdfsIri (str! "subPropertyOf") := by
    rintro u ls (h | h | h | h) <;> exact ⟨by show rdfsIri _ ≠ _; decide +kernel, by show rdfsIri _ ≠ _; decide +kernel⟩
  constructor
  · rintro ((h | ⟨c, hc, h | ⟨i, hi, rfl⟩ | ⟨i, hi, rfl⟩⟩) |
      ⟨p, hp, ((h | ⟨i, hi, rfl⟩ | ⟨i, hi, rfl⟩) | ⟨i, hi, rfl⟩) | ⟨i, hi, rfl⟩⟩)
    · exact .inl ⟨.label h, lab h⟩
    · exact .inl ⟨.classLabel hc h, lab h⟩
    · exact .inl ⟨.classType hc hi, by show rdfType ≠ _; decide +kernel, by show rdfType ≠ _; decide +kernel⟩
    · exact .inr ⟨_, _, .inl ⟨c, hc, rfl, hi⟩, rfl⟩
    · exact .inl ⟨.propertyLabel hp h, lab h⟩
    · exact .inl ⟨.propertyType hp hi, by show rdfType ≠ _; decide +kernel, by show rdfType ≠ _; decide +kernel⟩
    · exact .inr ⟨_, _, .inr ⟨p, hp, rfl, hi⟩, rfl⟩
    · exact .inl ⟨.domain hp hi, by show rdfsIri _ ≠ _; decide +kernel, by show rdfsIri _ ≠ _; decide +kernel⟩
    · exact .inl ⟨.range hp hi, by show rdfsIri _ ≠ _; decide +kernel, by show rdfsIri _ ≠ _; decide +kernel⟩
  · rintro (⟨h, h1, h2⟩ | ⟨a, b, ⟨c, hc, rfl, hb⟩ | ⟨p, hp, rfl, hb⟩, rfl⟩)
    · cases h with
      | label h => exact .inl (.inl h)
      | classLabel hc h => exact .inl (.inr ⟨_, hc, .inl h⟩)
      | classType hc h => exact .inl (.inr ⟨_, hc, .inr (.inl ⟨_, h, rfl⟩)⟩)
      | subClassOf hc h => exact absurd rfl h1
      | propertyLabel hp h => exact .inr ⟨_, hp, .inl (.inl (.inl h))⟩
      | propertyType hp h => exact .inr ⟨_, hp, .inl (.inl (.inr (.inl ⟨_, h, rfl⟩)))⟩
      | subPropertyOf hp h => exact absurd rfl h2
      | domain hp h => exact .inr ⟨_, hp, .inl (.inr ⟨_, h, rfl⟩)⟩
      | range hp h => exact .inr ⟨_, hp, .inr ⟨_, h, rfl⟩⟩
    · exact .inl (.inr ⟨c, hc, .inr (.inr ⟨b, hb, rfl⟩)⟩)
    · exact .inr ⟨p, hp, .inl (.inl (.inr (.inr ⟨b, hb, rfl⟩)))⟩

/-- C115: no vocabulary is written with a statement about subclasses or subproperties. -/
theorem C115_never (o : VisitOrders) (v : RdfsVocabulary) (st : Stmt) (h : st ∈ o.write v) :
    st.predicate ≠ rdfsIri (str! "subClassOf") ∧ st.predicate ≠ rdfsIri (str! "subPropertyOf") := by
  rcases (C115_written o v st).1 h with ⟨-, h⟩ | ⟨a, b, -, rfl⟩
  · exact h
  · exact ⟨by show rdfType ≠ _; decide +kernel, by show rdfType ≠ _; decide +kernel⟩

/-- C115 holds exactly for vocabularies without parents. -/
theorem C115_iff (o : VisitOrders) (v : RdfsVocabulary) :
    (∀ st, st ∈ o.write v ↔ VocabularySays v st) ↔ ∀ a b, ¬ClassParent v a b ∧ ¬PropertyParent v a b := by
  constructor
  · refine fun h a b => ⟨?_, ?_⟩
    · rintro ⟨c, hc, rfl, hb⟩
      exact (C115_never o v _ ((h _).2 (.subClassOf hc hb))).1 rfl
    · rintro ⟨c, hc, rfl, hb⟩
      exact (C115_never o v _ ((h _).2 (.subPropertyOf hc hb))).2 rfl
  · intro h st
    rw [C115_written]
    constructor
    · rintro (h | ⟨a, b, h' | h', -⟩)
      · exact h.1
      · exact absurd h' (h a b).1
      · exact absurd h' (h a b).2
    · intro hs
      refine .inl ⟨hs, ?_⟩
      cases hs with
      | label hl => cases hl <;> exact ⟨by show rdfsIri _ ≠ _; decide +kernel, by show rdfsIri _ ≠ _; decide +kernel⟩
      | classLabel hc hl => cases hl <;> exact ⟨by show rdfsIri _ ≠ _; decide +kernel, by show rdfsIri _ ≠ _; decide +kernel⟩
      | classType hc hl => exact ⟨by show rdfType ≠ _; decide +kernel, by show rdfType ≠ _; decide +kernel⟩
      | subClassOf hc hl => exact absurd ⟨_, hc, rfl, hl⟩ (h _ _).1
      | propertyLabel hp hl => cases hl <;> exact ⟨by show rdfsIri _ ≠ _; decide +kernel, by show rdfsIri _ ≠ _; decide +kernel⟩
      | propertyType hp hl => exact ⟨by show rdfType ≠ _; decide +kernel, by show rdfType ≠ _; decide +kernel⟩
      | subPropertyOf hp hl => exact absurd ⟨_, hp, rfl, hl⟩ (h _ _).2
      | domain hp hl => exact ⟨by show rdfsIri _ ≠ _; decide +kernel, by show rdfsIri _ ≠ _; decide +kernel⟩
      | range hp hl => exact ⟨by show rdfsIri _ ≠ _; decide +kernel, by show rdfsIri _ ≠ _; decide +kernel⟩

/-- Maps visited in the order of the list. -/
def sameVisitOrders : VisitOrders := ⟨id, id, fun _ _ => .rfl, fun _ _ => .rfl⟩

/-- C115 fails for a subclass. -/
theorem C115_fails : ¬C115_statement := fun h =>
  ((C115_iff sameVisitOrders ((RdfsVocabulary.new ⟨str! "http://a/"⟩).addClass
      (.newSubclass ⟨str! "http://a/Dog"⟩ ⟨str! "http://a/Animal"⟩))).1 (h _ _) ⟨str! "http://a/Dog"⟩ ⟨str! "http://a/Animal"⟩).1
    ⟨_, List.mem_cons_self, rfl, List.mem_cons_self⟩

theorem Subject.toObject_inj {x y : Subject} (h : x.toObject = y.toObject) : x = y := by
  cases x <;> cases y <;> simp_all [Subject.toObject]

/-- What is known of a statement about subclasses or subproperties that follows. -/
def Trivial (st : Stmt) : Prop :=
  (st.predicate = rdfsIri (str! "subClassOf") → st.object = st.subject.toObject ∨
    st.object = .res (rdfsIri (str! "Resource")) ∨ st.object = .res (rdfsIri (str! "Literal"))) ∧
  (st.predicate = rdfsIri (str! "subPropertyOf") → st.object = st.subject.toObject ∨
    st.object = .res (rdfsIri (str! "member")))

theorem trivial_of_ne {st : Stmt} (h1 : st.predicate ≠ rdfsIri (str! "subClassOf"))
    (h2 : st.predicate ≠ rdfsIri (str! "subPropertyOf")) : Trivial st := ⟨fun h => absurd h h1, fun h => absurd h h2⟩

theorem follows_trivial {G : Stmt → Prop} (hG : ∀ st, G st → Trivial st) {st : Stmt} (h : Follows G st) : Trivial st := by
  have ty : ∀ x y, Trivial (.mk x rdfType y) := fun x y =>
    trivial_of_ne (by show rdfType ≠ _; decide +kernel) (by show rdfType ≠ _; decide +kernel)
  have ne1 : rdfsIri (str! "subClassOf") ≠ rdfsIri (str! "subPropertyOf") := by decide +kernel
  have ne2 : rdfsIri (str! "subClassOf") ≠ rdfsIri (str! "member") := by decide +kernel
  have ne3 : rdfsIri (str! "subPropertyOf") ≠ rdfsIri (str! "member") := by decide +kernel
  induction h with
  | given h => exact hG _ h
  | rdfs2 => exact ty _ _
  | rdfs3 => exact ty _ _
  | rdfs4a => exact ty _ _
  | rdfs4b => exact ty _ _
  | rdfs9 => exact ty _ _
  | @rdfs5 x y z h1 h2 i1 i2 =>
    refine ⟨fun h => absurd h.symm ne1, fun _ => ?_⟩
    rcases i1.2 rfl with e | e
    · have e : y = x := Subject.toObject_inj e
      subst e
      exact i2.2 rfl
    · have e : y = .res (rdfsIri (str! "member")) := Subject.toObject_inj e
      subst e
      rcases i2.2 rfl with e | e
      · exact .inr e
      · exact .inr e
  | rdfs6 => exact ⟨fun h => absurd h.symm ne1, fun _ => .inl rfl⟩
  | @rdfs7 a b x y h1 h2 i1 i2 =>
    rcases i1.2 rfl with e | e
    · have e : b = a := by injection e
      subst e
      exact i2
    · have e : b = rdfsIri (str! "member") := by injection e
      subst e
      exact trivial_of_ne ne2.symm ne3.symm
  | rdfs8 => exact ⟨fun _ => .inr (.inl rfl), fun h => absurd h ne1⟩
  | rdfs10 => exact ⟨fun _ => .inl rfl, fun h => absurd h ne1⟩
  | @rdfs11 x y z h1 h2 i1 i2 =>
    refine ⟨fun _ => ?_, fun h => absurd h ne1⟩
    rcases i1.1 rfl with e | e | e
    · have e : y = x := Subject.toObject_inj e
      subst e
      exact i2.1 rfl
    · have e : y = .res (rdfsIri (str! "Resource")) := Subject.toObject_inj e
      subst e
      rcases i2.1 rfl with e | e | e
      · exact .inr (.inl e)
      · exact .inr (.inl e)
      · exact .inr (.inr e)
    · have e : y = .res (rdfsIri (str! "Literal")) := Subject.toObject_inj e
      subst e
      rcases i2.1 rfl with e | e | e
      · exact .inr (.inr e)
      · exact .inr (.inl e)
      · exact .inr (.inr e)
  | rdfs12 => exact ⟨fun h => absurd h.symm ne1, fun _ => .inr rfl⟩
  | rdfs13 => exact ⟨fun _ => .inr (.inr rfl), fun h => absurd h ne1⟩

/-- C115: by the rules of RDFS nothing follows from a written vocabulary about subclasses and
subproperties but what holds of every class and property. -/
theorem C115_entailed (o : VisitOrders) (v : RdfsVocabulary) (x : Subject) (y : Object) :
    (Follows (· ∈ o.write v) (.mk x (rdfsIri (str! "subClassOf")) y) →
      y = x.toObject ∨ y = .res (rdfsIri (str! "Resource")) ∨ y = .res (rdfsIri (str! "Literal"))) ∧
    (Follows (· ∈ o.write v) (.mk x (rdfsIri (str! "subPropertyOf")) y) →
      y = x.toObject ∨ y = .res (rdfsIri (str! "member"))) := by
  have hG : ∀ st, st ∈ o.write v → Trivial st := fun st h =>
    trivial_of_ne (C115_never o v st h).1 (C115_never o v st h).2
  exact ⟨fun h => (follows_trivial hG h).1 rfl, fun h => (follows_trivial hG h).2 rfl⟩

/-- C115: from what a vocabulary says it follows that a class is a subclass of its parents, their
parents, and so on; from what is written this follows for none but itself, `rdfs:Resource` and
`rdfs:Literal`. -/
theorem C115_ancestors (o : VisitOrders) (v : RdfsVocabulary) (a b : Iri) (h : Relation.TransGen (ClassParent v) a b) :
    Follows (VocabularySays v) (.mk (.res a) (rdfsIri (str! "subClassOf")) (.res b)) ∧
    (a ≠ b → b ≠ rdfsIri (str! "Resource") → b ≠ rdfsIri (str! "Literal") →
      ¬Follows (· ∈ o.write v) (.mk (.res a) (rdfsIri (str! "subClassOf")) (.res b))) := by
  constructor
  · induction h with
    | single h =>
      obtain ⟨c, hc, rfl, hb⟩ := h
      exact .given (.subClassOf hc hb)
    | tail _ h ih =>
      obtain ⟨c, hc, rfl, hb⟩ := h
      exact .rdfs11 (y := .res c.uri) ih (.given (.subClassOf hc hb))
  · intro h1 h2 h3 hf
    rcases (C115_entailed o v _ _).1 hf with e | e | e
    · exact h1 (by injection e with e; exact e.symm)
    · exact h2 (by injection e)
    · exact h3 (by injection e)

/-- C115: the same for properties. -/
theorem C115_property_ancestors (o : VisitOrders) (v : RdfsVocabulary) (a b : Iri)
    (h : Relation.TransGen (PropertyParent v) a b) :
    Follows (VocabularySays v) (.mk (.res a) (rdfsIri (str! "subPropertyOf")) (.res b)) ∧
    (a ≠ b → b ≠ rdfsIri (str! "member") →
      ¬Follows (· ∈ o.write v) (.mk (.res a) (rdfsIri (str! "subPropertyOf")) (.res b))) := by
  constructor
  · induction h with
    | single h =>
      obtain ⟨c, hc, rfl, hb⟩ := h
      exact .given (.subPropertyOf hc hb)
    | tail _ h ih =>
      obtain ⟨c, hc, rfl, hb⟩ := h
      exact .rdfs5 (y := .res c.uri) ih (.given (.subPropertyOf hc hb))
  · intro h1 h2 hf
    rcases (C115_entailed o v _ _).2 hf with e | e
    · exact h1 (by injection e with e; exact e.symm)
    · exact h2 (by injection e)

/-! ### C116 -/

/-- C116: after `push` and `remove` calls on a vector, an element is there as often as it was added
since it was last removed. -/
theorem C116_vector {α : Type} [DecidableEq α] (l : List α) (ops : List (VecOp α)) (a : α) :
    (VecOp.remove a ∉ ops → (ops.foldl VecOp.apply l).count a = l.count a + ops.count (.add a)) ∧
    ∀ pre post, ops = pre ++ .remove a :: post → VecOp.remove a ∉ post →
      (ops.foldl VecOp.apply l).count a = post.count (.add a) := by
  have h1 : ∀ (ops : List (VecOp α)) (l : List α), VecOp.remove a ∉ ops →
      (ops.foldl VecOp.apply l).count a = l.count a + ops.count (.add a) := by
    intro ops
    induction ops with
    | nil => simp
    | cons o ops ih =>
      intro l h
      rw [List.foldl_cons, ih _ (fun h' => h (.tail _ h'))]
      cases o with
      | add b =>
        by_cases hb : b = a
        · subst hb
          simp [VecOp.apply]
          omega
        · have : (VecOp.add b == VecOp.add a) = false := by simp [hb]
          simp [VecOp.apply, List.count_cons, this, List.count_append, hb]
      | remove b =>
        have hb : b ≠ a := fun e => h (e ▸ List.mem_cons_self)
        simp [VecOp.apply, List.count_cons]
        rw [List.count_filter (by simpa using hb.symm)]
  refine ⟨h1 ops l, ?_⟩
  rintro pre post rfl h
  rw [List.foldl_append, List.foldl_cons, h1 _ _ h]
  simp [VecOp.apply, List.count_eq_zero]

/-- C116: what remains keeps the order in which it was added. -/
theorem C116_order {α : Type} [DecidableEq α] (l : List α) (ops : List (VecOp α)) :
    (ops.foldl VecOp.apply l).Sublist (l ++ ops.filterMap fun | .add a => some a | .remove _ => none) := by
  induction ops generalizing l with
  | nil => simp
  | cons o ops ih =>
    rw [List.foldl_cons]
    refine (ih _).trans ?_
    cases o with
    | add b => simp [VecOp.apply]
    | remove b =>
      simp only [VecOp.apply, List.filterMap_cons]
      exact List.filter_sublist.append (.refl _)

/-- C116: a class is in a vocabulary exactly when it was the last to be added with its IRI and no class
with its IRI was removed since; no two classes have the same IRI. -/
theorem C116_classes (uri : Iri) (ops : List VocabularyOp) :
    (∀ c, c ∈ (ops.foldl RdfsVocabulary.apply (.new uri)).classes ↔
      ∃ pre post, ops = pre ++ .addClass c :: post ∧ ∀ o ∈ post, VocabularyOp.classUri o ≠ some c.uri) ∧
    ((ops.foldl RdfsVocabulary.apply (.new uri)).classes.map fun c => c.uri).Nodup := by
  generalize hn : ops.length = n
  induction n generalizing ops with
  | zero =>
    obtain rfl := List.eq_nil_of_length_eq_zero hn
    simp [RdfsVocabulary.new]
  | succ n ih =>
    obtain ⟨ops, o, rfl⟩ : ∃ t o, ops = t ++ [o] := by
      rcases List.eq_nil_or_concat ops with rfl | ⟨t, o, rfl⟩
      · simp at hn
      · exact ⟨t, o, by simp⟩
    obtain ⟨ih1, ih2⟩ := ih ops (by simpa using hn)
    rw [List.foldl_append, List.foldl_cons, List.foldl_nil]
    generalize ops.foldl RdfsVocabulary.apply (.new uri) = v at *
    -- the calls that end with a given one
    have key : ∀ c : RdfsClass, (∃ pre post, ops ++ [o] = pre ++ .addClass c :: post ∧
          ∀ o ∈ post, VocabularyOp.classUri o ≠ some c.uri) ↔
        o = .addClass c ∨ (c ∈ v.classes ∧ VocabularyOp.classUri o ≠ some c.uri) := by
      intro c
      rw [ih1]
      constructor
      · rintro ⟨pre, post, e, h⟩
        rcases List.eq_nil_or_concat post with rfl | ⟨t, o', rfl⟩
        · have := List.append_inj' e rfl
          simp_all
        · rw [show pre ++ VocabularyOp.addClass c :: t.concat o' = (pre ++ .addClass c :: t) ++ [o'] by simp] at e
          obtain ⟨e1, e2⟩ := List.append_inj' e rfl
          obtain rfl : o = o' := by simpa using e2
          exact .inr ⟨⟨pre, t, e1, fun x hx => h x (by simp [hx])⟩, h o (by simp)⟩
      · rintro (rfl | ⟨⟨pre, post, rfl, h⟩, h'⟩)
        · exact ⟨ops, [], rfl, by simp⟩
        · refine ⟨pre, post ++ [o], by simp, fun x hx => ?_⟩
          rcases List.mem_append.1 hx with hx | hx
          · exact h x hx
          · obtain rfl : x = o := by simpa using hx
            exact h'
    refine ⟨fun c => (Iff.trans ?_ (key c).symm), ?_⟩
    · cases o <;> simp only [RdfsVocabulary.apply, RdfsVocabulary.addClass, RdfsVocabulary.removeClass,
        RdfsVocabulary.addProperty, RdfsVocabulary.removeProperty, VocabularyOp.classUri]
      · simp
      · simp only [List.mem_append, List.mem_filter, List.mem_singleton]
        grind
      · simp only [List.mem_filter]
        grind
      · simp
      · simp
    · cases o <;> simp only [RdfsVocabulary.apply, RdfsVocabulary.addClass, RdfsVocabulary.removeClass,
        RdfsVocabulary.addProperty, RdfsVocabulary.removeProperty]
      · exact ih2
      · rename_i c
        rw [List.map_append, List.nodup_append]
        refine ⟨(List.filter_sublist.map _).nodup ih2, by simp, ?_⟩
        simp only [List.mem_map, List.mem_filter]
        rintro a ⟨d, ⟨-, hd⟩, rfl⟩ b hb
        simp_all
      · exact (List.filter_sublist.map _).nodup ih2
      · exact ih2
      · exact ih2

/-- C116: the same for properties. -/
theorem C116_properties (uri : Iri) (ops : List VocabularyOp) :
    (∀ p, p ∈ (ops.foldl RdfsVocabulary.apply (.new uri)).properties ↔
      ∃ pre post, ops = pre ++ .addProperty p :: post ∧ ∀ o ∈ post, VocabularyOp.propertyUri o ≠ some p.uri) ∧
    ((ops.foldl RdfsVocabulary.apply (.new uri)).properties.map fun p => p.uri).Nodup := by
  generalize hn : ops.length = n
  induction n generalizing ops with
  | zero =>
    obtain rfl := List.eq_nil_of_length_eq_zero hn
    simp [RdfsVocabulary.new]
  | succ n ih =>
    obtain ⟨ops, o, rfl⟩ : ∃ t o, ops = t ++ [o] := by
      rcases List.eq_nil_or_concat ops with rfl | ⟨t, o, rfl⟩
      · simp at hn
      · exact ⟨t, o, by simp⟩
    obtain ⟨ih1, ih2⟩ := ih ops (by simpa using hn)
    rw [List.foldl_append, List.foldl_cons, List.foldl_nil]
    generalize ops.foldl RdfsVocabulary.apply (.new uri) = v at *
    have key : ∀ c : RdfsProperty, (∃ pre post, ops ++ [o] = pre ++ .addProperty c :: post ∧
          ∀ o ∈ post, VocabularyOp.propertyUri o ≠ some c.uri) ↔
        o = .addProperty c ∨ (c ∈ v.properties ∧ VocabularyOp.propertyUri o ≠ some c.uri) := by
      intro c
      rw [ih1]
      constructor
      · rintro ⟨pre, post, e, h⟩
        rcases List.eq_nil_or_concat post with rfl | ⟨t, o', rfl⟩
        · have := List.append_inj' e rfl
          simp_all
        · rw [show pre ++ VocabularyOp.addProperty c :: t.concat o' = (pre ++ .addProperty c :: t) ++ [o'] by simp] at e
          obtain ⟨e1, e2⟩ := List.append_inj' e rfl
          obtain rfl : o = o' := by simpa using e2
          exact .inr ⟨⟨pre, t, e1, fun x hx => h x (by simp [hx])⟩, h o (by simp)⟩
      · rintro (rfl | ⟨⟨pre, post, rfl, h⟩, h'⟩)
        · exact ⟨ops, [], rfl, by simp⟩
        · refine ⟨pre, post ++ [o], by simp, fun x hx => ?_⟩
          rcases List.mem_append.1 hx with hx | hx
          · exact h x hx
          · obtain rfl : x = o := by simpa using hx
            exact h'
    refine ⟨fun c => (Iff.trans ?_ (key c).symm), ?_⟩
    · cases o <;> simp only [RdfsVocabulary.apply, RdfsVocabulary.addClass, RdfsVocabulary.removeClass,
        RdfsVocabulary.addProperty, RdfsVocabulary.removeProperty, VocabularyOp.propertyUri]
      · simp
      · simp
      · simp
      · simp only [List.mem_append, List.mem_filter, List.mem_singleton]
        grind
      · simp only [List.mem_filter]
        grind
    · cases o <;> simp only [RdfsVocabulary.apply, RdfsVocabulary.addClass, RdfsVocabulary.removeClass,
        RdfsVocabulary.addProperty, RdfsVocabulary.removeProperty]
      · exact ih2
      · exact ih2
      · exact ih2
      · rename_i c
        rw [List.map_append, List.nodup_append]
        refine ⟨(List.filter_sublist.map _).nodup ih2, by simp, ?_⟩
        simp only [List.mem_map, List.mem_filter]
        rintro a ⟨d, ⟨-, hd⟩, rfl⟩ b hb
        simp_all
      · exact (List.filter_sublist.map _).nodup ih2

/-- C116: a call changes only the vector that it names. -/
theorem C116_frame (p : RdfsProperty) (ops : List PropertyOp) :
    (ops.foldl RdfsProperty.apply p).uri = p.uri ∧
    (ops.foldl RdfsProperty.apply p).labels = (ops.filterMap fun | .common (.label o) => some o | _ => none).foldl VecOp.apply p.labels ∧
    (ops.foldl RdfsProperty.apply p).instanceOf =
      (ops.filterMap fun | .common (.instanceOf o) => some o | _ => none).foldl VecOp.apply p.instanceOf ∧
    (ops.foldl RdfsProperty.apply p).parents =
      (ops.filterMap fun | .common (.parent o) => some o | _ => none).foldl VecOp.apply p.parents ∧
    (ops.foldl RdfsProperty.apply p).domain = (ops.filterMap fun | .domain o => some o | _ => none).foldl VecOp.apply p.domain ∧
    (ops.foldl RdfsProperty.apply p).range = (ops.filterMap fun | .range o => some o | _ => none).foldl VecOp.apply p.range := by
  induction ops generalizing p with
  | nil => simp
  | cons o ops ih =>
    rw [List.foldl_cons]
    obtain ⟨h1, h2, h3, h4, h5, h6⟩ := ih (p.apply o)
    rw [h1, h2, h3, h4, h5, h6]
    rcases o with (o | o | o) | o | o <;> simp [RdfsProperty.apply, RdfsCommon.apply]

/-- C116: `is_instance_of` and `is_child_of` are membership. -/
theorem C116_tests (c : RdfsCommon) (i : Iri) :
    (c.isInstanceOf i = true ↔ i ∈ c.instanceOf) ∧ (c.isChildOf i = true ↔ i ∈ c.parents) := by
  simp [RdfsCommon.isInstanceOf, RdfsCommon.isChildOf]

theorem says_class (v : Iri) (c : RdfsClass) (st : Stmt) (hl : c.labels = []) : VocabularySays ((RdfsVocabulary.new v).addClass c) st ↔
    (∃ i ∈ c.instanceOf, st = .mk (.res c.uri) rdfType (.res i)) ∨
    ∃ i ∈ c.parents, st = .mk (.res c.uri) (rdfsIri (str! "subClassOf")) (.res i) := by
  have hc : ((RdfsVocabulary.new v).addClass c).classes = [c] := rfl
  constructor
  · intro h
    cases h with
    | label h => cases h <;> rename_i h <;> cases h
    | classLabel hm h =>
      rw [hc, List.mem_singleton] at hm
      subst hm
      rw [hl] at h
      cases h <;> rename_i h <;> cases h
    | classType hm h =>
      rw [hc, List.mem_singleton] at hm
      subst hm
      exact .inl ⟨_, h, rfl⟩
    | subClassOf hm h =>
      rw [hc, List.mem_singleton] at hm
      subst hm
      exact .inr ⟨_, h, rfl⟩
    | propertyLabel hm | propertyType hm | subPropertyOf hm | domain hm | range hm => cases hm
  · rintro (⟨i, h, rfl⟩ | ⟨i, h, rfl⟩)
    · exact .classType (c := c) (by rw [hc]; exact List.mem_cons_self) h
    · exact .subClassOf (c := c) (by rw [hc]; exact List.mem_cons_self) h

/-- C116: what the classes that are made say: a type and at most one parent, as the name of the call has it. -/
theorem C116_class_made (v a b d : Iri) (c : RdfsClass) (st : Stmt) :
    (VocabularySays ((RdfsVocabulary.new v).addClass (.new a)) st ↔ st = axiomOf a rdfType (rdfsIri (str! "Class"))) ∧
    (VocabularySays ((RdfsVocabulary.new v).addClass (.newInstance a b)) st ↔ st = axiomOf a rdfType b) ∧
    (VocabularySays ((RdfsVocabulary.new v).addClass (.newSubclass a b)) st ↔
      st = axiomOf a rdfType (rdfsIri (str! "Class")) ∨ st = axiomOf a (rdfsIri (str! "subClassOf")) b) ∧
    (VocabularySays ((RdfsVocabulary.new v).addClass (.newInstanceAndSubclass a b d)) st ↔
      st = axiomOf a rdfType b ∨ st = axiomOf a (rdfsIri (str! "subClassOf")) d) ∧
    (VocabularySays ((RdfsVocabulary.new v).addClass (c.mkInstance a)) st ↔ st = axiomOf a rdfType c.uri) ∧
    (VocabularySays ((RdfsVocabulary.new v).addClass (c.mkSubclass a)) st ↔
      st = axiomOf a rdfType (rdfsIri (str! "Class")) ∨ st = axiomOf a (rdfsIri (str! "subClassOf")) c.uri) := by
  refine ⟨?_, ?_, ?_, ?_, ?_, ?_⟩ <;> rw [says_class _ _ _ rfl] <;>
    simp [RdfsClass.new, RdfsClass.newInstance, RdfsClass.newSubclass, RdfsClass.newInstanceAndSubclass, RdfsClass.mkInstance,
      RdfsClass.mkSubclass, axiomOf]

theorem says_property (v : Iri) (c : RdfsProperty) (st : Stmt) (hl : c.labels = []) :
    VocabularySays ((RdfsVocabulary.new v).addProperty c) st ↔
    (∃ i ∈ c.instanceOf, st = .mk (.res c.uri) rdfType (.res i)) ∨
    (∃ i ∈ c.parents, st = .mk (.res c.uri) (rdfsIri (str! "subPropertyOf")) (.res i)) ∨
    (∃ i ∈ c.domain, st = .mk (.res c.uri) (rdfsIri (str! "domain")) (.res i)) ∨
    ∃ i ∈ c.range, st = .mk (.res c.uri) (rdfsIri (str! "range")) (.res i) := by
  have hc : ((RdfsVocabulary.new v).addProperty c).properties = [c] := rfl
  have hm : c ∈ ((RdfsVocabulary.new v).addProperty c).properties := by rw [hc]; exact List.mem_cons_self
  constructor
  · intro h
    cases h with
    | label h => cases h <;> rename_i h <;> cases h
    | propertyLabel hm h =>
      rw [hc, List.mem_singleton] at hm
      subst hm
      rw [hl] at h
      cases h <;> rename_i h <;> cases h
    | propertyType hm h =>
      rw [hc, List.mem_singleton] at hm
      subst hm
      exact .inl ⟨_, h, rfl⟩
    | subPropertyOf hm h =>
      rw [hc, List.mem_singleton] at hm
      subst hm
      exact .inr (.inl ⟨_, h, rfl⟩)
    | domain hm h =>
      rw [hc, List.mem_singleton] at hm
      subst hm
      exact .inr (.inr (.inl ⟨_, h, rfl⟩))
    | range hm h =>
      rw [hc, List.mem_singleton] at hm
      subst hm
      exact .inr (.inr (.inr ⟨_, h, rfl⟩))
    | classLabel hm | classType hm | subClassOf hm => cases hm
  · rintro (⟨i, h, rfl⟩ | ⟨i, h, rfl⟩ | ⟨i, h, rfl⟩ | ⟨i, h, rfl⟩)
    · exact .propertyType hm h
    · exact .subPropertyOf hm h
    · exact .domain hm h
    · exact .range hm h

/-- C116: the same for properties.  The type of those that are made without one is `rdfs:Property`, which is no name
of RDFS. -/
theorem C116_property_made (v a b d : Iri) (p : RdfsProperty) (st : Stmt) :
    (VocabularySays ((RdfsVocabulary.new v).addProperty (.new a)) st ↔ st = axiomOf a rdfType (rdfsIri (str! "Property"))) ∧
    (VocabularySays ((RdfsVocabulary.new v).addProperty (.newWith a b d)) st ↔
      st = axiomOf a rdfType (rdfsIri (str! "Property")) ∨ st = axiomOf a (rdfsIri (str! "domain")) b ∨
      st = axiomOf a (rdfsIri (str! "range")) d) ∧
    (VocabularySays ((RdfsVocabulary.new v).addProperty (.newInstance a b)) st ↔ st = axiomOf a rdfType b) ∧
    (VocabularySays ((RdfsVocabulary.new v).addProperty (.newSubProperty a b)) st ↔
      st = axiomOf a rdfType (rdfsIri (str! "Property")) ∨ st = axiomOf a (rdfsIri (str! "subPropertyOf")) b) ∧
    (VocabularySays ((RdfsVocabulary.new v).addProperty (p.mkInstance a)) st ↔ st = axiomOf a rdfType p.uri) ∧
    (VocabularySays ((RdfsVocabulary.new v).addProperty (p.mkSubProperty a)) st ↔
      st = axiomOf a rdfType (rdfsIri (str! "Property")) ∨ st = axiomOf a (rdfsIri (str! "subPropertyOf")) p.uri) := by
  refine ⟨?_, ?_, ?_, ?_, ?_, ?_⟩ <;> rw [says_property _ _ _ rfl] <;>
    simp [RdfsProperty.new, RdfsProperty.newWith, RdfsProperty.newInstance, RdfsProperty.newSubProperty, RdfsProperty.mkInstance,
      RdfsProperty.mkSubProperty, axiomOf]

/-! ### C117 -/

/-- C117, the full statement: the schema is written with the axioms of RDFS. -/
def C117_statement : Prop := ∀ (o : VisitOrders), ∀ st ∈ rdfsAxioms, st ∈ o.write rdfSchema

theorem write_mem_iff (o : VisitOrders) (v : RdfsVocabulary) (st : Stmt) :
    st ∈ o.write v ↔ st ∈ sameVisitOrders.write v := by
  rw [C115_written, C115_written]

/-- C117: the axioms that are written are those that do not mention `rdf:Property` and are not about
subclasses and subproperties. -/
theorem C117_axioms_iff (o : VisitOrders) (st : Stmt) (h : st ∈ rdfsAxioms) :
    st ∈ o.write rdfSchema ↔ st.object ≠ .res (rdfIri (str! "Property")) ∧
      st.predicate ≠ rdfsIri (str! "subClassOf") ∧ st.predicate ≠ rdfsIri (str! "subPropertyOf") := by
  rw [write_mem_iff]
  revert st
  decide +kernel

/-- C117 fails: the schema does not say that the domain of `rdfs:domain` is `rdf:Property`. -/
theorem C117_fails : ¬C117_statement := fun h => by
  have := (C117_axioms_iff sameVisitOrders _ (List.mem_of_getElem? (i := 1) rfl)).1
    (h sameVisitOrders _ (List.mem_of_getElem? (i := 1) rfl))
  exact this.1 rfl

/-- C117: the schema mentions `rdf:Property` nowhere; in its place it has a name that RDFS does not
have. -/
theorem C117_property (o : VisitOrders) :
    (∀ st ∈ o.write rdfSchema, st.subject ≠ .res (rdfIri (str! "Property")) ∧ st.object ≠ .res (rdfIri (str! "Property"))) ∧
    ∀ p ∈ rdfSchema.properties, p.instanceOf = [rdfsIri (str! "Property")] := by
  constructor
  · intro st h
    rw [write_mem_iff] at h
    revert st
    decide +kernel
  · decide +kernel

/-- C117: every domain and range that is written is an axiom, with `rdf:Property` for the name that
RDFS does not have. -/
theorem C117_domains (o : VisitOrders) (a p b : Iri) (h : axiomOf a p b ∈ o.write rdfSchema)
    (hp : p = rdfsIri (str! "domain") ∨ p = rdfsIri (str! "range")) :
    axiomOf a p (if b = rdfsIri (str! "Property") then rdfIri (str! "Property") else b) ∈ rdfsAxioms := by
  rw [write_mem_iff] at h
  have key : ∀ st ∈ sameVisitOrders.write rdfSchema, (st.predicate = rdfsIri (str! "domain") ∨ st.predicate = rdfsIri (str! "range")) →
      (match st with
        | .mk (.res a) p (.res b) =>
          decide (axiomOf a p (if b = rdfsIri (str! "Property") then rdfIri (str! "Property") else b) ∈ rdfsAxioms)
        | _ => false) = true := by
    decide +kernel
  exact of_decide_eq_true (key _ h hp)

/-- C117: the schema describes every name of the vocabulary `rdfs` of the crate for names but
`rdfs:value`. -/
theorem C117_names : ∀ n ∈ rdfsTable.members.map (·.2),
    (rdfsIri n ∈ rdfSchema.classes.map (fun c => c.uri) ∨ rdfsIri n ∈ rdfSchema.properties.map (fun p => p.uri)) ↔
      n ≠ str! "value" := by
  decide +kernel

/-- C117: the schema has the properties of the recommendation, each once.  Of its classes it has those but for four, in whose
place it has names of RDFS that do not exist; and `rdf:nil`, which is no class. -/
theorem C117_members :
    (rdfSchema.properties.map fun p => p.uri).Perm rdfsProperties ∧
    (rdfSchema.classes.map fun c => c.uri).Perm
      ((rdfsClasses.filter fun i => i ∉ [rdfIri (str! "langString"), rdfIri (str! "HTML"), rdfIri (str! "XMLLiteral"), rdfIri (str! "Property")]) ++
        [rdfsIri (str! "langString"), rdfsIri (str! "HTML"), rdfsIri (str! "XMLLiteral"), rdfsIri (str! "Property"), rdfIri (str! "nil")]) := by
  constructor <;> decide +kernel

/-- The name in RDF in place of one of RDFS that does not exist. -/
def rightName (i : Iri) : Iri :=
  if i = rdfsIri (str! "langString") then rdfIri (str! "langString")
  else if i = rdfsIri (str! "HTML") then rdfIri (str! "HTML")
  else if i = rdfsIri (str! "XMLLiteral") then rdfIri (str! "XMLLiteral")
  else if i = rdfsIri (str! "Property") then rdfIri (str! "Property")
  else i

/-- C117: apart from these names, the classes have the types and parents of the recommendation, but that properties are made
a subclass of classes. -/
theorem C117_taxonomy : ∀ c ∈ rdfSchema.classes, c.labels = [] ∧ c.instanceOf.map rightName = rdfsTypes (rightName c.uri) ∧
    c.parents.map rightName =
      if c.uri = rdfsIri (str! "Property") then [rdfsIri (str! "Class")] else rdfsParents (rightName c.uri) := by
  decide +kernel

/-- C117: the properties have no labels and no parents; by the recommendation `rdfs:isDefinedBy` has one. -/
theorem C117_property_parents : ∀ p ∈ rdfSchema.properties, p.labels = [] ∧ p.parents = [] := by
  decide +kernel

/-- Containers and their kinds. -/
def containerClasses : List Object :=
  [.res (rdfIri (str! "Alt")), .res (rdfIri (str! "Bag")), .res (rdfIri (str! "Seq")), .res (rdfsIri (str! "Container"))]

/-- What is known of statements that follow from the schema. -/
def NoContainer (st : Stmt) : Prop :=
  ((st.predicate = rdfType ∨ st.predicate = rdfsIri (str! "domain") ∨ st.predicate = rdfsIri (str! "range")) →
    st.object ∉ containerClasses) ∧
  (st.predicate = rdfsIri (str! "subClassOf") → st.object ∈ containerClasses → st.subject.toObject ∈ containerClasses) ∧
  (st.predicate = rdfsIri (str! "subPropertyOf") → st.object = st.subject.toObject ∨ st.object = .res (rdfsIri (str! "member")))

theorem schema_noContainer {st : Stmt} (h : VocabularySays rdfSchema st) : NoContainer st := by
  have lab : ∀ {u ls}, LabelSays u ls st → NoContainer st := by
    rintro u ls (h | h | h | h) <;> refine ⟨fun h => ?_, fun h => ?_, fun h => ?_⟩ <;>
      exact absurd h (by simp only [Stmt.predicate]; decide +kernel)
  cases h with
  | label h => exact lab h
  | classLabel _ h => exact lab h
  | propertyLabel _ h => exact lab h
  | classType hc hi =>
    refine ⟨fun _ => ?_, fun h => ?_, fun h => ?_⟩
    · revert hi
      exact (show ∀ c ∈ rdfSchema.classes, ∀ i ∈ c.instanceOf, Object.res i ∉ containerClasses by decide +kernel) _ hc _
    · exact absurd h (by simp only [Stmt.predicate]; decide +kernel)
    · exact absurd h (by simp only [Stmt.predicate]; decide +kernel)
  | propertyType hc hi =>
    refine ⟨fun _ => ?_, fun h => ?_, fun h => ?_⟩
    · exact (show ∀ c ∈ rdfSchema.properties, ∀ i ∈ c.instanceOf, Object.res i ∉ containerClasses by decide +kernel) _ hc _ hi
    · exact absurd h (by simp only [Stmt.predicate]; decide +kernel)
    · exact absurd h (by simp only [Stmt.predicate]; decide +kernel)
  | subClassOf hc hi =>
    refine ⟨fun h => ?_, fun _ => ?_, fun h => ?_⟩
    · exact absurd h (by simp only [Stmt.predicate]; decide +kernel)
    · exact (show ∀ c ∈ rdfSchema.classes, ∀ i ∈ c.parents, Object.res i ∈ containerClasses →
        Object.res c.uri ∈ containerClasses by decide +kernel) _ hc _ hi
    · exact absurd h (by simp only [Stmt.predicate]; decide +kernel)
  | subPropertyOf hc hi =>
    exact absurd hi ((show ∀ c ∈ rdfSchema.properties, ∀ i, i ∉ c.parents from fun c hc => by
      rw [(show ∀ c ∈ rdfSchema.properties, c.parents = [] by decide +kernel) c hc]; simp) _ hc _)
  | domain hc hi =>
    refine ⟨fun _ => ?_, fun h => ?_, fun h => ?_⟩
    · exact (show ∀ c ∈ rdfSchema.properties, ∀ i ∈ c.domain, Object.res i ∉ containerClasses by decide +kernel) _ hc _ hi
    · exact absurd h (by simp only [Stmt.predicate]; decide +kernel)
    · exact absurd h (by simp only [Stmt.predicate]; decide +kernel)
  | range hc hi =>
    refine ⟨fun _ => ?_, fun h => ?_, fun h => ?_⟩
    · exact (show ∀ c ∈ rdfSchema.properties, ∀ i ∈ c.range, Object.res i ∉ containerClasses by decide +kernel) _ hc _ hi
    · exact absurd h (by simp only [Stmt.predicate]; decide +kernel)
    · exact absurd h (by simp only [Stmt.predicate]; decide +kernel)

theorem follows_noContainer {G : Stmt → Prop} (hG : ∀ st, G st → NoContainer st) {st : Stmt} (h : Follows G st) :
    NoContainer st := by
  have ty : ∀ x y, y ∉ containerClasses → NoContainer (.mk x rdfType y) := fun x y h =>
    ⟨fun _ => h, fun h => absurd h (by simp only [Stmt.predicate]; decide +kernel),
      fun h => absurd h (by simp only [Stmt.predicate]; decide +kernel)⟩
  have sc : ∀ x y, (y ∈ containerClasses → x.toObject ∈ containerClasses) →
      NoContainer (.mk x (rdfsIri (str! "subClassOf")) y) := fun x y h =>
    ⟨fun h => absurd h (by simp only [Stmt.predicate]; decide +kernel), fun _ => h,
      fun h => absurd h (by simp only [Stmt.predicate]; decide +kernel)⟩
  have sp : ∀ (x : Subject) (y : Object), (y = x.toObject ∨ y = .res (rdfsIri (str! "member"))) →
      NoContainer (.mk x (rdfsIri (str! "subPropertyOf")) y) := fun x y h =>
    ⟨fun h => absurd h (by simp only [Stmt.predicate]; decide +kernel),
      fun h => absurd h (by simp only [Stmt.predicate]; decide +kernel), fun _ => h⟩
  induction h with
  | given h => exact hG _ h
  | rdfs2 _ _ i1 _ => exact ty _ _ (i1.1 (.inr (.inl rfl)))
  | rdfs3 _ _ i1 _ => exact ty _ _ (i1.1 (.inr (.inr rfl)))
  | rdfs4a => exact ty _ _ (by decide +kernel)
  | rdfs4b => exact ty _ _ (by decide +kernel)
  | @rdfs5 x y z _ _ i1 i2 =>
    refine sp _ _ ?_
    rcases i1.2.2 rfl with e | e
    · have e : y = x := Subject.toObject_inj e
      subst e
      exact i2.2.2 rfl
    · have e : y = .res (rdfsIri (str! "member")) := Subject.toObject_inj e
      subst e
      rcases i2.2.2 rfl with e | e
      · exact .inr e
      · exact .inr e
  | rdfs6 => exact sp _ _ (.inl rfl)
  | @rdfs7 a b x y _ _ i1 i2 =>
    rcases i1.2.2 rfl with e | e
    · have e : b = a := by injection e
      subst e
      exact i2
    · have e : b = rdfsIri (str! "member") := by injection e
      subst e
      exact ⟨fun h => absurd h (by simp only [Stmt.predicate]; decide +kernel),
        fun h => absurd h (by simp only [Stmt.predicate]; decide +kernel),
        fun h => absurd h (by simp only [Stmt.predicate]; decide +kernel)⟩
  | rdfs8 => exact sc _ _ fun h => absurd h (by decide +kernel)
  | rdfs9 _ _ i1 i2 => exact ty _ _ fun h => i2.1 (.inl rfl) (i1.2.1 rfl h)
  | rdfs10 => exact sc _ _ id
  | rdfs11 _ _ i1 i2 => exact sc _ _ fun h => i1.2.1 rfl (i2.2.1 rfl h)
  | rdfs12 => exact sp _ _ (.inr rfl)
  | rdfs13 => exact sc _ _ fun h => absurd h (by decide +kernel)

/-- C117: the schema is written with statements that do not follow from what it says: that the kinds of
container are themselves containers. -/
theorem C117_instances (o : VisitOrders) (n : Str) (h : n ∈ [str! "Alt", str! "Bag", str! "Seq"]) :
    axiomOf (rdfIri n) rdfType (rdfsIri (str! "Container")) ∈ o.write rdfSchema ∧
    ¬Follows (VocabularySays rdfSchema) (axiomOf (rdfIri n) rdfType (rdfsIri (str! "Container"))) := by
  constructor
  · rw [write_mem_iff]
    revert n
    decide +kernel
  · exact fun h => (follows_noContainer (fun _ => schema_noContainer) h).1 (.inl rfl) (by show Object.res _ ∈ _; decide +kernel)

end Rdftk
