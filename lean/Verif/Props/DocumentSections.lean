import Verif.Props.DocumentLinks
import Verif.Props.DocumentTables
import Verif.Props.PrefixMap

/-! Properties C137 and C138: the sections of a document about a thesaurus, and when it cannot be made
(`rdftk_skos/src/document.rs`). -/

namespace Rdftk

open Spec

/-! ### C137 -/

/-- How a section begins: its title, the definition if there is one, and the IRI to which it links. -/
structure Opening where
  title : Str
  definition : Option Str
  iri : Str
deriving DecidableEq, Repr

/-- The beginnings of the sections of a document: headings to which one can link, followed by a line in italics or
none and then by a link out of the document. -/
def openings : List DocBlock → List Opening
  | .heading _ s (some _) :: .paragraph [.text .italic d] :: .paragraph [.link u none] :: bs => ⟨s, some d, u⟩ :: openings bs
  | .heading _ s (some _) :: .paragraph [.link u none] :: bs => ⟨s, none, u⟩ :: openings bs
  | _ :: bs => openings bs
  | [] => []

/-- The first definition in a language. -/
def definitionIn (lang : Option Str) (ps : List LiteralProperty) : Option Str :=
  ((ps.filter fun p => p.predicate = skosIri (str! "definition") ∧ p.language = lang).map (·.lexicalForm)).head?

/-- How the section of a resource is to begin. -/
def openingOf (x : DocContext) (kind : Str) (u : Iri) (ls : List Label) (ps : List LiteralProperty) : Opening :=
  ⟨kind ++ str! ": " ++ preferredLabelFor x.sty u ls x.lang, definitionIn x.lang ps, u.fmt x.sty⟩

theorem openings_unnamed {a : List DocBlock} (h : anchors a = []) (b : List DocBlock) : openings (a ++ b) = openings b := by
  induction a with
  | nil => rfl
  | cons c a ih =>
    rw [show c :: a = [c] ++ a from rfl, anchors_append, List.append_eq_nil_iff] at h
    rw [List.cons_append, ← ih h.2]
    cases c with
    | heading l s o =>
      cases o with
      | some a => simp [anchors] at h
      | none => rw [openings] <;> simp
    | _ => rw [openings] <;> simp

theorem openings_heading {l : Nat} {s a : Str} {b : List DocBlock} (h : ∀ p r, b ≠ .paragraph p :: r) :
    openings (.heading l s (some a) :: b) = openings b := by
  rw [openings]
  · intro _ _ _ _ _ _ _ h2; exact h _ _ h2
  · intro _ _ _ _ _ _ h2; exact h _ _ h2

theorem openings_header (x : DocContext) (u : Iri) (ls : List Label) (ps : List LiteralProperty) (k low : Str) (d : Nat)
    (b : List DocBlock) :
    openings (writeEntityHeader x u ls ps k low d ++ b) = openingOf x k u ls ps :: openings b := by
  have hd : definitionIn x.lang ps =
      (ps.find? fun p => p.predicate = skosIri (str! "definition") ∧ p.language = x.lang).map (·.lexicalForm) := by
    unfold definitionIn
    rw [List.head?_map, List.head?_filter]
  have ha : anchors ((if ls.isEmpty then [] else .heading (levelToHeading (d + 1)) (str! "Labels") none :: writeLabels x ls) ++
      (if ps.isEmpty then []
       else .heading (levelToHeading (d + 1)) (str! "Other Properties") none :: writeOtherProperties x ps)) = [] := by
    have h1 : ∀ (n : Nat) (s : Str) (bs : List DocBlock), anchors (.heading n s none :: bs) = anchors bs := fun n s bs => by simp [anchors]
    rw [anchors_append]
    split <;> split <;> simp [h1, (writeLabels_bare x ls).2.1, (writeOtherProperties_bare x ps).2.1] <;> simp [anchors]
  unfold writeEntityHeader openingOf
  rw [hd, List.append_assoc _ (ite _ _ _) (ite _ _ _)]
  cases ps.find? fun p => p.predicate = skosIri (str! "definition") ∧ p.language = x.lang with
  | none =>
    simp only [List.append_nil, Option.map_none, List.append_assoc, List.cons_append, List.nil_append]
    rw [openings, ← List.append_assoc, openings_unnamed ha]
  | some p =>
    simp only [Option.map_some, List.append_assoc, List.cons_append, List.nil_append]
    rw [openings, ← List.append_assoc, openings_unnamed ha]

theorem openings_membership (x : DocContext) (h : SkosStore) (u : Iri) (b : List DocBlock) :
    openings (writeCollectionMembership x h u ++ b) = openings b := by
  unfold writeCollectionMembership
  simp only
  split
  · rfl
  · simp only [List.cons_append, List.nil_append]
    rw [openings_heading (by simp), openings]
    · simp
    · simp

theorem openings_concept (x : DocContext) (h : SkosStore) (c : Concept) (b : List DocBlock) :
    openings (writeConcept x h c ++ b) = openingOf x (str! "Concept") c.uri c.labels c.properties :: openings b := by
  unfold writeConcept
  rw [List.append_assoc, List.append_assoc, openings_header, openings_unnamed, openings_membership]
  split <;> rfl

theorem openings_collection (x : DocContext) (h : SkosStore) (c : SkosCollection) (b : List DocBlock) :
    openings (writeSkosCollection x h c ++ b) = openingOf x (str! "Collection") c.uri c.labels c.properties :: openings b := by
  unfold writeSkosCollection
  rw [List.append_assoc, List.append_assoc, openings_header, openings_unnamed, openings_membership]
  unfold writeCollectionMembers
  split <;> rfl

theorem openings_flatMap {α : Type} (l : List α) (f : α → List DocBlock) (g : α → Opening)
    (h : ∀ i ∈ l, ∀ b, openings (f i ++ b) = g i :: openings b) (b : List DocBlock) :
    openings (l.flatMap f ++ b) = l.map g ++ openings b := by
  induction l with
  | nil => rfl
  | cons a l ih =>
    rw [List.flatMap_cons, List.append_assoc, h a (List.mem_cons_self ..), ih fun i hi => h i (List.mem_cons_of_mem _ hi)]
    rfl

theorem tree_shape {x : DocContext} {h : SkosStore} {n : Nat} {tops : List Nat} {bs : List DocBlock}
    (hd : writeConceptTree x h n tops = some bs) :
    ∃ ys : List DocBlock, (∀ y ∈ ys, ∃ l, y = .list l) ∧
      bs = .heading 2 (str! "Concepts Hierarchy") (some (str! "ConceptsHierarchy")) :: ys := by
  obtain ⟨ys, rfl, hf⟩ := tree_some hd
  refine ⟨ys, ?_, rfl⟩
  clear hd
  induction hf with
  | nil => simp
  | cons h1 _ ih =>
    obtain ⟨st, a, c, -, h2⟩ := h1
    intro y hy
    rcases List.mem_cons.1 hy with rfl | hy
    · rcases h2 with ⟨-, rfl⟩ | ⟨-, l, -, rfl⟩ <;> exact ⟨_, rfl⟩
    · exact ih y hy

theorem openings_tree {x : DocContext} {h : SkosStore} {n : Nat} {tops : List Nat} {bs : List DocBlock}
    (hd : writeConceptTree x h n tops = some bs) (b : List DocBlock) (hb : ∀ p r, b ≠ .paragraph p :: r) :
    openings (bs ++ b) = openings b := by
  obtain ⟨ls, hls, rfl⟩ := tree_shape hd
  rw [List.cons_append, openings_heading, openings_unnamed]
  · clear hd
    induction ls with
    | nil => rfl
    | cons c ls ih =>
      obtain ⟨l, rfl⟩ := hls c (List.mem_cons_self ..)
      exact ih fun d hd => hls d (List.mem_cons_of_mem _ hd)
  · intro p r he
    cases ls with
    | nil => exact hb p r he
    | cons c ls =>
      obtain ⟨l, rfl⟩ := hls c (List.mem_cons_self ..)
      cases he

/-- C137, the sections of a document: first the one about the thesaurus, then one for each concept in their order, then
one for each collection in theirs, each with the kind and the title of the resource, its first definition in the language
of the document, and its IRI. -/
theorem C137_sections (x : DocContext) (eq : Nat → Nat → Bool) (n : Nat) (t t' : Thesaurus) (bs : List DocBlock)
    (hd : documentBlocks x eq n t = some (.ok (bs, t'))) :
    ∃ cs ks : List Nat,
      openings bs = openingOf x (str! "Scheme") t.scheme.uri t.scheme.labels t.scheme.properties ::
        (cs.map (fun i => openingOf x (str! "Concept") (t.store.concept i).uri (t.store.concept i).labels (t.store.concept i).properties) ++
         ks.map fun k => openingOf x (str! "Collection") (t.store.collection k).uri (t.store.collection k).labels
          (t.store.collection k).properties) ∧
      (∀ i ∈ cs, ConceptOf t.store t.scheme i) ∧
      (∀ i, ConceptOf t.store t.scheme i → ∃ j ∈ cs, i = j ∨ eq i j = true) ∧
      (∀ k, k ∈ ks ↔ CollectionOf t.store t.scheme k) := by
  obtain ⟨d⟩ := documentParts hd
  refine ⟨d.cs, d.ks, ?_, d.cs_of, d.cs_all, d.ks_iff⟩
  have hk : ∀ k, t'.store.collection k = t.store.collection k := by
    intro k
    unfold SkosStore.collection
    rw [d.collections]
  have e := congrArg openings d.blocks
  rw [openings_header] at e
  have hkb : openings ((if t.scheme.collections = [] then [] else .heading 2 (str! "Collections") none ::
      d.ks.flatMap fun i => writeSkosCollection { x with collections := d.ks } t'.store (t'.store.collection i)) ++
      [.heading 2 (str! "Appendix - RDF") (some (str! "Appendix-RDF"))]) =
      d.ks.map fun k => openingOf x (str! "Collection") (t.store.collection k).uri (t.store.collection k).labels
        (t.store.collection k).properties := by
    have hlast : openings [.heading 2 (str! "Appendix - RDF") (some (str! "Appendix-RDF"))] = [] := rfl
    split
    · rename_i h
      rw [d.none h]
      exact hlast
    · rw [List.cons_append, openings, openings_flatMap (g := fun k => openingOf x (str! "Collection") (t.store.collection k).uri
        (t.store.collection k).labels (t.store.collection k).properties), hlast, List.append_nil]
      · intro k _ b
        rw [openings_collection, hk]
        rfl
      all_goals simp
  refine e.trans (congrArg₂ List.cons rfl ?_)
  split
  · rename_i h
    rw [List.nil_append, hkb, d.empty h]
    rfl
  · rename_i h
    simp only [List.cons_append, List.append_assoc]
    rw [openings, openings_tree (d.tree_eq h), openings_heading, openings_flatMap (g := fun i => openingOf x (str! "Concept")
      (t.store.concept i).uri (t.store.concept i).labels (t.store.concept i).properties), hkb]
    · intro i _ b
      rw [openings_concept, (d.concept i).1, (d.concept i).2.1, (d.concept i).2.2]
      rfl
    · intro p r he
      cases hc : d.cs with
      | nil =>
        rw [hc] at he
        simp only [List.flatMap_nil, List.nil_append] at he
        split at he <;> simp at he
      | cons i cs =>
        rw [hc] at he
        simp [writeConcept, writeEntityHeader] at he
    all_goals simp [jumpLine]

/-- The rows of the tables with certain columns among blocks. -/
def rowsUnder (cols : List Str) (bs : List DocBlock) : List DocRow :=
  bs.flatMap fun
    | .table cols' rows => if cols' = cols then rows else []
    | _ => []

/-- The columns of the tables of labels. -/
def labelColumns : List Str := [str! "Label text", str! "Language"]
/-- The columns of the tables of properties. -/
def propertyColumns : List Str := [str! "Predicate", str! "Literal Form", str! "Data Type", str! "Language"]

theorem rowsUnder_append (c : List Str) (a b : List DocBlock) : rowsUnder c (a ++ b) = rowsUnder c a ++ rowsUnder c b := by
  simp [rowsUnder]
theorem rowsUnder_flatMap {α : Type} (c : List Str) (l : List α) (f : α → List DocBlock) :
    rowsUnder c (l.flatMap f) = l.flatMap fun a => rowsUnder c (f a) := by
  induction l with
  | nil => rfl
  | cons a l ih => simp only [List.flatMap_cons, rowsUnder_append, ih]
theorem rowsUnder_heading (c : List Str) (l : Nat) (s : Str) (o : Option Str) (b : List DocBlock) :
    rowsUnder c (.heading l s o :: b) = rowsUnder c b := by simp [rowsUnder]
theorem rowsUnder_paragraph (c : List Str) (p : List DocSpan) (b : List DocBlock) :
    rowsUnder c (.paragraph p :: b) = rowsUnder c b := by simp [rowsUnder]

theorem rowsUnder_labels (x : DocContext) (ls : List Label) :
    (rowsUnder labelColumns (writeLabels x ls)).Perm (ls.map (labelCells x)) ∧ rowsUnder propertyColumns (writeLabels x ls) = [] := by
  obtain ⟨ks, h1, h2, h3⟩ := C130_labels x ls
  have hn : ks.Nodup := h1.imp fun h e => by rw [e, labelKind_cmp_order.refl] at h; cases h
  have hz : ∀ l : List Nat, (∀ y ∈ l, y = 0) → l.sum = 0 := by
    intro l
    induction l with
    | nil => intro _; rfl
    | cons a l ih =>
      intro h
      rw [List.sum_cons, h a (List.mem_cons_self ..), ih fun y hy => h y (List.mem_cons_of_mem _ hy)]
  rw [h3, rowsUnder_flatMap, rowsUnder_flatMap]
  constructor
  · have e : (ks.flatMap fun k => rowsUnder labelColumns (kindBlocks x ls k)) =
        (ks.flatMap fun k => ls.filter fun l => l.kind = k).map (labelCells x) := by
      rw [List.map_flatMap]
      congr 1
      funext k
      simp [kindBlocks, rowsUnder, labelColumns]
    rw [e]
    refine List.Perm.map _ ?_
    refine List.perm_iff_count.2 fun l => ?_
    rw [List.count_flatMap]
    by_cases hl : l ∈ ls
    · have hk : l.kind ∈ ks := (h2 _).2 ⟨l, hl, rfl⟩
      have e2 : (List.count l ∘ fun k => ls.filter fun l => l.kind = k) = fun k => if k = l.kind then List.count l ls else 0 := by
        funext k
        simp only [Function.comp]
        split
        · rename_i e
          subst e
          exact List.count_filter (by simp)
        · rename_i e
          refine List.count_eq_zero.2 fun hm => e ?_
          rw [List.mem_filter] at hm
          exact (of_decide_eq_true hm.2).symm
      rw [e2]
      clear e2 e h3 h1
      have : ∀ (ks : List LabelKind), ks.Nodup → l.kind ∈ ks →
          (ks.map fun k => if k = l.kind then List.count l ls else 0).sum = List.count l ls := by
        intro ks
        induction ks with
        | nil => intro _ h; cases h
        | cons k ks ih =>
          intro hn hm
          rw [List.nodup_cons] at hn
          simp only [List.map_cons, List.sum_cons]
          by_cases hk : k = l.kind
          · subst hk
            rw [if_pos rfl]
            have : (ks.map fun k => if k = l.kind then List.count l ls else 0).sum = 0 := by
              refine hz _ fun y hy => ?_
              obtain ⟨k, hk, rfl⟩ := List.mem_map.1 hy
              exact if_neg fun e => by rw [e] at hk; exact hn.1 hk
            rw [this, Nat.add_zero]
          · rw [if_neg hk, ih hn.2 ((List.mem_cons.1 hm).resolve_left fun e => hk e.symm)]
            omega
      exact this ks hn hk
    · rw [List.count_eq_zero.2 hl]
      refine hz _ fun y hy => ?_
      obtain ⟨k, _, rfl⟩ := List.mem_map.1 hy
      exact List.count_eq_zero.2 fun hm => hl (List.mem_filter.1 hm).1
  · refine flatMap_none _ _ fun k => ?_
    simp [kindBlocks, rowsUnder, propertyColumns]

theorem rowsUnder_header (x : DocContext) (u : Iri) (ls : List Label) (ps : List LiteralProperty) (k low : Str) (d : Nat) :
    (rowsUnder labelColumns (writeEntityHeader x u ls ps k low d)).Perm (ls.map (labelCells x)) ∧
    (rowsUnder propertyColumns (writeEntityHeader x u ls ps k low d)).Perm (ps.map (propertyRow x)) := by
  have h1 : rowsUnder labelColumns (writeOtherProperties x ps) = [] := by
    simp [writeOtherProperties, rowsUnder, labelColumns]
  have h2 : (rowsUnder propertyColumns (writeOtherProperties x ps)).Perm (ps.map (propertyRow x)) := by
    obtain ⟨qs, hq, -, -, e⟩ := C131_table x ps
    rw [e]
    simp only [rowsUnder, propertyColumns, List.flatMap_cons, List.flatMap_nil, List.append_nil, if_true]
    exact hq.map _
  have h4 : ∀ c, rowsUnder c [] = [] := fun _ => rfl
  have fin : (rowsUnder labelColumns (if ls.isEmpty then [] else .heading (levelToHeading (d + 1)) (str! "Labels") none :: writeLabels x ls) ++
      rowsUnder labelColumns (if ps.isEmpty then []
       else .heading (levelToHeading (d + 1)) (str! "Other Properties") none :: writeOtherProperties x ps)).Perm (ls.map (labelCells x)) ∧
      (rowsUnder propertyColumns (if ls.isEmpty then [] else .heading (levelToHeading (d + 1)) (str! "Labels") none :: writeLabels x ls) ++
      rowsUnder propertyColumns (if ps.isEmpty then []
       else .heading (levelToHeading (d + 1)) (str! "Other Properties") none :: writeOtherProperties x ps)).Perm (ps.map (propertyRow x)) := by
    constructor
    · rw [show rowsUnder labelColumns (if ps.isEmpty then []
         else .heading (levelToHeading (d + 1)) (str! "Other Properties") none :: writeOtherProperties x ps) = [] by
        split
        · rfl
        · rw [rowsUnder_heading, h1], List.append_nil]
      split
      · rename_i h
        rw [List.isEmpty_iff.1 h]
        exact List.Perm.refl _
      · rw [rowsUnder_heading]
        exact (rowsUnder_labels x ls).1
    · rw [show rowsUnder propertyColumns (if ls.isEmpty then []
         else .heading (levelToHeading (d + 1)) (str! "Labels") none :: writeLabels x ls) = [] by
        split
        · rfl
        · rw [rowsUnder_heading, (rowsUnder_labels x ls).2], List.nil_append]
      split
      · rename_i h
        rw [List.isEmpty_iff.1 h]
        exact List.Perm.refl _
      · rw [rowsUnder_heading]
        exact h2
  unfold writeEntityHeader
  cases ps.find? fun p => p.predicate = skosIri (str! "definition") ∧ p.language = x.lang <;>
    simpa only [rowsUnder_append, rowsUnder_heading, rowsUnder_paragraph, h4, List.nil_append, List.append_nil] using fin

theorem rowsUnder_rest (x : DocContext) (h : SkosStore) (c : List Str) :
    (∀ u, rowsUnder c (writeCollectionMembership x h u) = []) ∧
    (∀ ms, rowsUnder c (writeCollectionMembers x h ms) = []) ∧
    (∀ n tops bs, writeConceptTree x h n tops = some bs → rowsUnder c bs = []) ∧
    (c ≠ [str! "Relationship", str! "Concept Iri"] → ∀ k, rowsUnder c (writeConceptRelations x h k) = []) := by
  refine ⟨fun u => ?_, fun ms => ?_, fun n tops bs hb => ?_, fun hc k => ?_⟩
  · unfold writeCollectionMembership
    simp only
    split <;> simp [rowsUnder]
  · unfold writeCollectionMembers
    rw [rowsUnder_append, rowsUnder_heading]
    split <;> simp [rowsUnder]
  · obtain ⟨ys, hys, rfl⟩ := tree_shape hb
    rw [rowsUnder_heading]
    clear hb
    induction ys with
    | nil => rfl
    | cons y ys ih =>
      obtain ⟨l, rfl⟩ := hys y (List.mem_cons_self ..)
      exact ih fun d hd => hys d (List.mem_cons_of_mem _ hd)
  · simp [writeConceptRelations, rowsUnder, Ne.symm hc]

theorem flatMap_perm {α β γ : Type} (l : List α) (f : α → List β) (g : α → List γ) (k : γ → β)
    (h : ∀ a ∈ l, (f a).Perm ((g a).map k)) : (l.flatMap f).Perm ((l.flatMap g).map k) := by
  induction l with
  | nil => exact List.Perm.refl _
  | cons a l ih =>
    rw [List.flatMap_cons, List.flatMap_cons, List.map_append]
    exact (h a (List.mem_cons_self ..)).append (ih fun b hb => h b (List.mem_cons_of_mem _ hb))

/-- C137, the contents: the tables of labels and of properties of a document have a row for each label and each property of
the thesaurus and of the concepts and collections with a section, and no other. -/
theorem C137_rows (x : DocContext) (eq : Nat → Nat → Bool) (n : Nat) (t t' : Thesaurus) (bs : List DocBlock)
    (hd : documentBlocks x eq n t = some (.ok (bs, t'))) :
    ∃ cs ks : List Nat,
      (rowsUnder labelColumns bs).Perm ((t.scheme.labels ++ (cs.flatMap (fun i => (t.store.concept i).labels) ++
        ks.flatMap fun k => (t.store.collection k).labels)).map (labelCells x)) ∧
      (rowsUnder propertyColumns bs).Perm ((t.scheme.properties ++ (cs.flatMap (fun i => (t.store.concept i).properties) ++
        ks.flatMap fun k => (t.store.collection k).properties)).map (propertyRow x)) ∧
      (∀ i ∈ cs, ConceptOf t.store t.scheme i) ∧
      (∀ i, ConceptOf t.store t.scheme i → ∃ j ∈ cs, i = j ∨ eq i j = true) ∧
      (∀ k, k ∈ ks ↔ CollectionOf t.store t.scheme k) := by
  obtain ⟨d⟩ := documentParts hd
  refine ⟨d.cs, d.ks, ?_⟩
  rw [← and_assoc]
  refine ⟨?_, d.cs_of, d.cs_all, d.ks_iff⟩
  have hk : ∀ k, t'.store.collection k = t.store.collection k := by
    intro k
    unfold SkosStore.collection
    rw [d.collections]
  generalize hx : ({ x with collections := d.ks } : DocContext) = y
  have e : ∀ c : List Str, c ≠ [str! "Relationship", str! "Concept Iri"] → rowsUnder c bs =
      rowsUnder c (writeEntityHeader y t.scheme.uri t.scheme.labels t.scheme.properties (str! "Scheme") (str! "scheme") 1) ++
      (d.cs.flatMap (fun i => rowsUnder c (writeEntityHeader y (t.store.concept i).uri (t.store.concept i).labels
          (t.store.concept i).properties (str! "Concept") (str! "concept") 3)) ++
       d.ks.flatMap fun k => rowsUnder c (writeEntityHeader y (t.store.collection k).uri (t.store.collection k).labels
          (t.store.collection k).properties (str! "Collection") (str! "collection") 3)) := by
    intro c hc
    have hb := congrArg (rowsUnder c) d.blocks
    rw [hx] at hb
    rw [hb, rowsUnder_append, rowsUnder_append, rowsUnder_append]
    have h4 : rowsUnder c [] = [] := rfl
    have h1 : rowsUnder c (if t.scheme.concepts = [] then [] else
        jumpLine t.scheme :: d.tree ++ .heading 2 (str! "Concepts") (some (str! "Concepts")) ::
          d.cs.flatMap fun i => writeConcept y t'.store (t'.store.concept i)) =
        d.cs.flatMap (fun i => rowsUnder c (writeEntityHeader y (t.store.concept i).uri (t.store.concept i).labels
          (t.store.concept i).properties (str! "Concept") (str! "concept") 3)) := by
      split
      · rename_i h
        rw [d.empty h]
        rfl
      · rename_i h
        have htree := d.tree_eq h
        rw [hx] at htree
        rw [List.cons_append, jumpLine, rowsUnder_paragraph, rowsUnder_append, (rowsUnder_rest y t.store c).2.2.1 _ _ _ htree,
          List.nil_append, rowsUnder_heading, rowsUnder_flatMap]
        congr 1
        funext i
        unfold writeConcept
        rw [rowsUnder_append, rowsUnder_append, (rowsUnder_rest y t'.store c).1, (d.concept i).1, (d.concept i).2.1, (d.concept i).2.2,
          List.append_nil]
        rw [show rowsUnder c (if (t'.store.concept i).concepts.isEmpty then [] else
          writeConceptRelations y t'.store (t'.store.concept i)) = [] by
            split
            · rfl
            · exact (rowsUnder_rest y t'.store c).2.2.2 hc _, List.append_nil]
    have h2 : rowsUnder c (if t.scheme.collections = [] then [] else .heading 2 (str! "Collections") none ::
        d.ks.flatMap fun i => writeSkosCollection y t'.store (t'.store.collection i)) =
        d.ks.flatMap fun k => rowsUnder c (writeEntityHeader y (t.store.collection k).uri (t.store.collection k).labels
          (t.store.collection k).properties (str! "Collection") (str! "collection") 3) := by
      split
      · rename_i h
        rw [d.none h]
        rfl
      · rw [rowsUnder_heading, rowsUnder_flatMap]
        congr 1
        funext i
        unfold writeSkosCollection
        rw [rowsUnder_append, rowsUnder_append, (rowsUnder_rest y t'.store c).1, hk, List.append_nil]
        rw [show rowsUnder c (if (t.store.collection i).members.isEmpty then [] else
          writeCollectionMembers y t'.store (t.store.collection i).members) = [] by
            split
            · rfl
            · exact (rowsUnder_rest y t'.store c).2.1 _, List.append_nil]
    rw [h1, h2, rowsUnder_heading, h4, List.append_nil]
  have hl : labelCells x = labelCells y := by subst hx; rfl
  have hp : propertyRow x = propertyRow y := by subst hx; rfl
  rw [e labelColumns (by decide), e propertyColumns (by decide), hl, hp]
  simp only [List.map_append]
  exact ⟨(rowsUnder_header y _ _ _ _ _ _).1.append ((flatMap_perm _ _ _ _ fun i _ => (rowsUnder_header y _ _ _ _ _ _).1).append
      (flatMap_perm _ _ _ _ fun i _ => (rowsUnder_header y _ _ _ _ _ _).1)),
    (rowsUnder_header y _ _ _ _ _ _).2.append ((flatMap_perm _ _ _ _ fun i _ => (rowsUnder_header y _ _ _ _ _ _).2).append
      (flatMap_perm _ _ _ _ fun i _ => (rowsUnder_header y _ _ _ _ _ _).2))⟩

/-! ### C138 -/

/-- The IRIs that come with the labels and the properties of a resource. -/
def BringsIri (ls : List Label) (ps : List LiteralProperty) (i : Iri) : Prop :=
  (∃ l ∈ ls, l.kind = .other i) ∨ ∃ p ∈ ps, p.predicate = i ∨ ∃ d, p.dataType = some d ∧ d.asIri = i

/-- The IRIs for which a document needs a short name: those of labels and properties, and those of the relations to external
resources of a concept that is also related to a concept. -/
def NeedsName (t t' : Thesaurus) (i : Iri) : Prop :=
  BringsIri t.scheme.labels t.scheme.properties i ∨
  (∃ c, ConceptOf t.store t.scheme c ∧ (BringsIri (t.store.concept c).labels (t.store.concept c).properties i ∨
    (t'.store.concept c).concepts ≠ [] ∧ ∃ e ∈ (t.store.concept c).external, e.1 = i ∨ e.2 = i)) ∨
  ∃ k, CollectionOf t.store t.scheme k ∧ BringsIri (t.store.collection k).labels (t.store.collection k).properties i

/-- An IRI that cannot be divided: no text after `#`, no query, and a path that neither begins nor ends with `/`. -/
def Undivided (i : Iri) : Prop :=
  (i.fragment = none ∨ i.fragment = some []) ∧ i.path ≠ [] ∧ endsWith i.path '/' = false ∧
    i.query = none ∧ startsWith i.path '/' = false

theorem compressPanics_iff (m : PrefixMap) (i : Iri) : m.compressPanics i = true ↔ Undivided i := by
  refine Iff.trans ?_ (C08_panic_iff i).1
  unfold PrefixMap.compressPanics PrefixMap.compress
  cases i.split with
  | panic => simp
  | ok o =>
    cases o with
    | none => simp
    | some p =>
      obtain ⟨ns, nm⟩ := p
      simp only [reduceCtorEq, iff_false, Bool.not_eq_true]
      cases m.getPrefix ns <;> rfl

theorem headerIris_panic (m : PrefixMap) (ls : List Label) (ps : List LiteralProperty) :
    (∃ i ∈ headerIris ls ps, m.compressPanics i = true) ↔ ∃ i, BringsIri ls ps i ∧ Undivided i := by
  have hb : ∀ k : LabelKind, (∀ i, k ≠ .other i) → m.compressPanics k.toUri = false := by
    intro k hk
    rw [← Bool.not_eq_true, compressPanics_iff, Undivided]
    cases k with
    | other i => exact absurd rfl (hk i)
    | _ => decide +kernel
  simp only [headerIris, List.mem_append, List.mem_map, List.mem_flatMap, List.mem_cons, Option.mem_toList, Option.map_eq_some_iff]
  constructor
  · rintro ⟨i, ⟨l, hl, rfl⟩ | ⟨p, hp, h⟩, hi⟩
    · refine ⟨_, .inl ⟨l, hl, ?_⟩, (compressPanics_iff m _).1 hi⟩
      cases hk : l.kind with
      | other i => rfl
      | _ => rw [hb _ (by simp [hk])] at hi; cases hi
    · refine ⟨i, .inr ⟨p, hp, ?_⟩, (compressPanics_iff m _).1 hi⟩
      rcases h with rfl | h
      · exact .inl rfl
      · exact .inr h
  · rintro ⟨i, ⟨l, hl, hk⟩ | ⟨p, hp, h⟩, hi⟩
    · exact ⟨i, .inl ⟨l, hl, by rw [hk]; rfl⟩, (compressPanics_iff m _).2 hi⟩
    · refine ⟨i, .inr ⟨p, hp, ?_⟩, (compressPanics_iff m _).2 hi⟩
      rcases h with rfl | h
      · exact .inl rfl
      · exact .inr h

theorem conceptIris_panic (m : PrefixMap) (c : Concept) :
    (∃ i ∈ conceptIris c, m.compressPanics i = true) ↔
      ∃ i, (BringsIri c.labels c.properties i ∨ c.concepts ≠ [] ∧ ∃ e ∈ c.external, e.1 = i ∨ e.2 = i) ∧ Undivided i := by
  have hb : ∀ r : ConceptRelation, m.compressPanics r.toUri = false := by
    intro r
    rw [← Bool.not_eq_true, compressPanics_iff, Undivided]
    cases r <;> decide +kernel
  unfold conceptIris
  constructor
  · rintro ⟨i, hm, hi⟩
    rw [List.mem_append] at hm
    rcases hm with hm | hm
    · obtain ⟨j, hj, hu⟩ := (headerIris_panic m _ _).1 ⟨i, hm, hi⟩
      exact ⟨j, .inl hj, hu⟩
    · split at hm
      · cases hm
      · rename_i hne
        simp only [List.mem_append, List.mem_map, List.mem_flatMap, List.mem_cons, List.not_mem_nil, or_false] at hm
        rcases hm with ⟨e, _, rfl⟩ | ⟨e, he, h⟩
        · rw [hb] at hi
          cases hi
        · refine ⟨i, .inr ⟨by simpa using hne, e, he, ?_⟩, (compressPanics_iff m _).1 hi⟩
          rcases h with rfl | rfl
          · exact .inr rfl
          · exact .inl rfl
  · rintro ⟨i, h | ⟨hne, e, he, h⟩, hu⟩
    · obtain ⟨j, hj, hp⟩ := (headerIris_panic m _ _).2 ⟨i, h, hu⟩
      exact ⟨j, List.mem_append_left _ hj, hp⟩
    · refine ⟨i, List.mem_append_right _ ?_, (compressPanics_iff m _).2 hu⟩
      rw [if_neg (by simpa using hne)]
      simp only [List.mem_append, List.mem_map, List.mem_flatMap, List.mem_cons, List.not_mem_nil, or_false]
      refine .inr ⟨e, he, ?_⟩
      rcases h with rfl | rfl
      · exact .inr rfl
      · exact .inl rfl

theorem documentBlocks_external {x : DocContext} {eq : Nat → Nat → Bool} {n : Nat} {t t' : Thesaurus} {bs : List DocBlock}
    (hd : documentBlocks x eq n t = some (.ok (bs, t'))) (i : Nat) :
    (t'.store.concept i).external = (t.store.concept i).external := by
  have h := C135_thesaurus x eq n t _ hd
  simp only [makeDocument] at h
  split at h
  · simp only [Option.some.injEq, Outcome.ok.injEq] at h
    rw [h]
  · rw [Option.map_eq_some_iff] at h
    obtain ⟨l, -, h⟩ := h
    rw [addInverses_eq] at h
    split at h
    · cases h
    · simp only [Outcome.ok.injEq] at h
      subst h
      by_cases hi : i < t.store.concepts.length
      · rw [Thesaurus.concept_relate _ _ hi]
      · rw [concept_out (by rw [Thesaurus.length_relate]; omega), concept_out (by omega)]

/-- The parts of a document can be written when there is no cycle and no concept is related to itself. -/
theorem documentBlocks_ok (x : DocContext) (eq : Nat → Nat → Bool) (t : Thesaurus) (he : Ends t.store t.scheme)
    (hs : ∀ i, ∀ e ∈ (t.store.concept i).concepts, e.2 ≠ i) :
    ∃ n b t', documentBlocks x eq n t = some (.ok (b, t')) := by
  obtain ⟨n, hn⟩ := (C135_ends_iff x eq t).2 he
  obtain ⟨r, hr⟩ := Option.isSome_iff_exists.1 hn
  cases r with
  | ok r => exact ⟨n, r.1, r.2, hr⟩
  | panic =>
    have h := C135_thesaurus x eq n t _ hr
    simp only [makeDocument] at h
    split at h
    · cases h
    · rw [Option.map_eq_some_iff] at h
      obtain ⟨l, -, h⟩ := h
      rw [addInverses_eq] at h
      split at h
      · rename_i ha
        simp only [List.any_eq_true, Bool.and_eq_true, beq_iff_eq] at ha
        obtain ⟨i, -, e, he, -, h'⟩ := ha
        exact absurd h' (hs i e he)
      · cases h

/-- C138, the full statement: a document is made of every thesaurus without cycles in which no concept is related to
itself. -/
def C138_statement : Prop :=
  ∀ (m : PrefixMap) (sty : IriStyle) (safe : Str → Str → Str) (lang : Option Str) (eq : Nat → Nat → Bool) (t : Thesaurus),
    Ends t.store t.scheme → (∀ i, ∀ e ∈ (t.store.concept i).concepts, e.2 ≠ i) →
    ∃ n b t', makeDocumentBlocks m sty safe lang eq n t = some (.ok (b, t'))

/-- C138: exactly when making a document panics though its parts can be written: when it needs a short name for an
undivided IRI. -/
theorem C138_iff (m : PrefixMap) (sty : IriStyle) (safe : Str → Str → Str) (lang : Option Str) (eq : Nat → Nat → Bool) (n : Nat)
    (t t' : Thesaurus) (b : List DocBlock) (hd : documentBlocks ⟨m.nameOf, sty, safe, [], lang⟩ eq n t = some (.ok (b, t'))) :
    (makeDocumentBlocks m sty safe lang eq n t = some .panic ↔ ∃ i, NeedsName t t' i ∧ Undivided i) ∧
    (makeDocumentBlocks m sty safe lang eq n t = some (.ok (b, t')) ↔ ¬∃ i, NeedsName t t' i ∧ Undivided i) := by
  obtain ⟨d⟩ := documentParts hd
  have hext : ∀ i, (t'.store.concept i).external = (t.store.concept i).external := documentBlocks_external hd
  obtain ⟨cs, hcs⟩ : ∃ cs, t.scheme.conceptsFlattened t.store n = some cs := by
    unfold documentBlocks at hd
    simp only [Option.bind_eq_bind, Option.bind_eq_some_iff] at hd
    obtain ⟨fk, hk, hd⟩ := hd
    split at hd
    · rename_i he
      have he' : t.scheme.concepts = [] := by simpa using he
      refine ⟨[], ?_⟩
      rw [Scheme.conceptsFlattened_eq, he']
      rfl
    · simp only [Option.bind_eq_some_iff] at hd
      obtain ⟨tree, htree, l, hl, hd⟩ := hd
      exact ⟨l, hl⟩
  obtain ⟨ks, hks⟩ : ∃ ks, t.scheme.collectionsFlattened t.store n = some ks := by
    unfold documentBlocks at hd
    simp only [Option.bind_eq_bind, Option.bind_eq_some_iff] at hd
    obtain ⟨fk, hk, -⟩ := hd
    exact ⟨fk, hk⟩
  have key : (headerIris t.scheme.labels t.scheme.properties ++ cs.flatMap (fun i => conceptIris (t'.store.concept i)) ++
        ks.flatMap fun i => headerIris (t'.store.collection i).labels (t'.store.collection i).properties).any m.compressPanics = true ↔
      ∃ i, NeedsName t t' i ∧ Undivided i := by
    have hk : ∀ k, t'.store.collection k = t.store.collection k := by
      intro k
      unfold SkosStore.collection
      rw [d.collections]
    rw [List.any_eq_true]
    simp only [List.mem_append, List.mem_flatMap]
    constructor
    · rintro ⟨i, (hi | ⟨c, hc, hi⟩) | ⟨k, hk', hi⟩, hp⟩
      · obtain ⟨j, hj, hu⟩ := (headerIris_panic m _ _).1 ⟨i, hi, hp⟩
        exact ⟨j, .inl hj, hu⟩
      · obtain ⟨j, hj, hu⟩ := (conceptIris_panic m _).1 ⟨i, hi, hp⟩
        rw [(d.concept c).2.1, (d.concept c).2.2, hext c] at hj
        exact ⟨j, .inr (.inl ⟨c, (mem_conceptsFlattened hcs c).1 hc, hj⟩), hu⟩
      · obtain ⟨j, hj, hu⟩ := (headerIris_panic m _ _).1 ⟨i, hi, hp⟩
        rw [hk] at hj
        exact ⟨j, .inr (.inr ⟨k, (mem_collectionsFlattened hks k).1 hk', hj⟩), hu⟩
    · rintro ⟨i, h | ⟨c, hc, h⟩ | ⟨k, hk', h⟩, hu⟩
      · obtain ⟨j, hj, hp⟩ := (headerIris_panic m _ _).2 ⟨i, h, hu⟩
        exact ⟨j, .inl (.inl hj), hp⟩
      · rw [← (d.concept c).2.1, ← (d.concept c).2.2, ← hext c] at h
        obtain ⟨j, hj, hp⟩ := (conceptIris_panic m _).2 ⟨i, h, hu⟩
        exact ⟨j, .inl (.inr ⟨c, (mem_conceptsFlattened hcs c).2 hc, hj⟩), hp⟩
      · rw [← hk] at h
        obtain ⟨j, hj, hp⟩ := (headerIris_panic m _ _).2 ⟨i, h, hu⟩
        exact ⟨j, .inr ⟨k, (mem_collectionsFlattened hks k).2 hk', hj⟩, hp⟩
  unfold makeDocumentBlocks
  simp only [hd, hcs, hks, Option.bind_eq_bind, Option.bind_some]
  rw [← key]
  split <;> simp_all

/-- C138, what holds: a document is made if no label, property or external relation of the thesaurus brings an undivided
IRI. -/
theorem C138_partial (m : PrefixMap) (sty : IriStyle) (safe : Str → Str → Str) (lang : Option Str) (eq : Nat → Nat → Bool)
    (t : Thesaurus) (he : Ends t.store t.scheme) (hs : ∀ i, ∀ e ∈ (t.store.concept i).concepts, e.2 ≠ i)
    (h1 : ∀ i, BringsIri t.scheme.labels t.scheme.properties i → ¬Undivided i)
    (h2 : ∀ c, ConceptOf t.store t.scheme c → (∀ i, BringsIri (t.store.concept c).labels (t.store.concept c).properties i → ¬Undivided i) ∧
      ∀ e ∈ (t.store.concept c).external, ¬Undivided e.1 ∧ ¬Undivided e.2)
    (h3 : ∀ k, CollectionOf t.store t.scheme k → ∀ i, BringsIri (t.store.collection k).labels (t.store.collection k).properties i →
      ¬Undivided i) :
    ∃ n b t', makeDocumentBlocks m sty safe lang eq n t = some (.ok (b, t')) := by
  obtain ⟨n, b, t', hd⟩ := documentBlocks_ok ⟨m.nameOf, sty, safe, [], lang⟩ eq t he hs
  refine ⟨n, b, t', (C138_iff m sty safe lang eq n t t' b hd).2.2 ?_⟩
  rintro ⟨i, h | ⟨c, hc, h | ⟨_, e, he, rfl | rfl⟩⟩ | ⟨k, hk, h⟩, hu⟩
  · exact h1 i h hu
  · exact (h2 c hc).1 i h hu
  · exact ((h2 c hc).2 e he).1 hu
  · exact ((h2 c hc).2 e he).2 hu
  · exact h3 k hk i h hu

/-- A thesaurus with a property whose name is `urn:a`. -/
def urnThesaurus : Thesaurus :=
  ⟨⟨[], []⟩, ⟨⟨str! "http://a/"⟩, [], [], [], [⟨⟨str! "urn:a"⟩, str! "x", none, none⟩]⟩⟩

/-- C138 fails for a thesaurus with a property whose name is a URN. -/
theorem C138_fails : ¬C138_statement := by
  intro h
  obtain ⟨n, b, t', hd⟩ := h ⟨[]⟩ .bare (fun a _ => a) none (fun _ _ => false) urnThesaurus
    ⟨(by intro i hi; cases hi), (by intro i hi; cases hi)⟩ (by intro i e he; simp [urnThesaurus, SkosStore.concept, Concept.new] at he)
  have hd' := hd
  unfold makeDocumentBlocks at hd'
  simp only [Option.bind_eq_bind, Option.bind_eq_some_iff] at hd'
  obtain ⟨r, hr, cs, hcs, ks, hks, hd'⟩ := hd'
  cases r with
  | panic => simp at hd'
  | ok r =>
    obtain ⟨b', t''⟩ := r
    have := (C138_iff _ _ _ _ _ _ _ _ _ hr).1.2 ⟨⟨str! "urn:a"⟩, .inl (.inr ⟨_, List.mem_cons_self .., .inl rfl⟩),
      by unfold Undivided; decide +kernel⟩
    rw [hd] at this
    cases this

/-- C138, the short names: what a document shows for an IRI with a prefix is the prefix and the name that the mappings expand
to the IRI. -/
theorem C138_names (m : PrefixMap) (hm : Reachable m) (i : Iri) (hw : i.wf = true) (hne : i.fragment ≠ some []) (s : Str) :
    m.nameOf i = some s → ∃ l : LocalName, s = l.namespace.display ++ l.name.display ∧ m.expand l = some i := by
  intro h
  unfold PrefixMap.nameOf at h
  split at h
  · rename_i l hl
    simp only [Option.some.injEq] at h
    exact ⟨l, h.symm, C12_compress_expand_partial m i l hm hw hne hl⟩
  · cases h

/-- The parts of that document can be written, so C137 and C138 say something about it. -/
example : ∃ n b t', documentBlocks ⟨fun _ => none, .bare, fun a _ => a, [], none⟩ (fun _ _ => false) n urnThesaurus =
    some (.ok (b, t')) :=
  documentBlocks_ok _ _ _ ⟨(by intro i hi; cases hi), (by intro i hi; cases hi)⟩
    (by intro i e he; simp [urnThesaurus, SkosStore.concept, Concept.new] at he)

example : openings [.heading 1 (str! "Scheme: A") (some (str! "a")), .paragraph [.text .italic (str! "d")],
    .paragraph [.link (str! "http://a/") none], .heading 2 (str! "Labels") none] = [⟨str! "Scheme: A", some (str! "d"), str! "http://a/"⟩] := rfl

example : definitionIn (some (str! "en")) [⟨skosIri (str! "definition"), str! "d", none, none⟩,
    ⟨skosIri (str! "definition"), str! "e", none, some (str! "en")⟩] = some (str! "e") := by decide +kernel

end Rdftk
