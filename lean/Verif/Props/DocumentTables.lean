import Verif.Lemmas.SkosDocument
import Verif.Props.SkosDocument

/-! Properties C130, C131 and C134: the tables of a document about a thesaurus (`rdftk_skos/src/document.rs`). -/

namespace Rdftk

/-! ### C130 -/

/-- The row of a label as it should be: the text and the language, which is bold if it is that of the document. -/
def labelCells (x : DocContext) (l : Label) : DocRow :=
  [[.text .text l.text], match l.language with
    | none => []
    | some t => [.text (if x.lang = some t then .bold else .plain) t]]

/-- The part for the labels of one kind: its name, and a table of its labels. -/
def kindBlocks (x : DocContext) (ls : List Label) (k : LabelKind) : List DocBlock :=
  [.paragraph [.text .bold (x.shown k.toUri)],
   .table [str! "Label text", str! "Language"] ((ls.filter fun l => l.kind = k).map (labelCells x))]

theorem labelRow_eq (x : DocContext) (l : Label) : labelRow x l = labelCells x l := by
  unfold labelRow labelCells languageCell
  cases l.language with
  | none => rfl
  | some t => simp only [eq_comm]

theorem labelLoop_some (x : DocContext) (S : List Label) (k : LabelKind) (rows : List DocRow)
    (hs : S.Pairwise fun a b => a.kind.cmp b.kind ≠ .gt) (hk : ∀ l ∈ S, k.cmp l.kind ≠ .gt) :
    ∃ ks : List LabelKind, ks.Pairwise (fun a b => a.cmp b = .lt) ∧ (∀ k', k' ∈ ks ↔ k' ≠ k ∧ ∃ l ∈ S, l.kind = k') ∧
      labelLoop x S (some k) (some rows) =
        .table [str! "Label text", str! "Language"] (rows ++ (S.filter fun l => l.kind = k).map (labelCells x)) ::
          ks.flatMap (kindBlocks x S) := by
  induction S generalizing k rows with
  | nil => exact ⟨[], .nil, by simp, by simp [labelLoop, flushLabels]⟩
  | cons l S ih =>
    rw [List.pairwise_cons] at hs
    obtain ⟨hl, hs⟩ := hs
    unfold labelLoop
    by_cases hlk : l.kind = k
    · rw [if_neg (by simp [hlk])]
      obtain ⟨ks, h1, h2, h3⟩ := ih k (rows ++ [labelRow x l]) hs (fun y hy => hk y (.tail _ hy))
      refine ⟨ks, h1, fun k' => ?_, ?_⟩
      · rw [h2]
        constructor
        · rintro ⟨h4, y, hy, e⟩
          exact ⟨h4, y, .tail _ hy, e⟩
        · rintro ⟨h4, y, hy, e⟩
          rcases List.mem_cons.1 hy with rfl | hy
          · exact absurd (e.symm.trans hlk) h4
          · exact ⟨h4, y, hy, e⟩
      · rw [Option.map_some, h3]
        congr 1
        · simp [hlk, labelRow_eq]
        · have h4 : ∀ k' ∈ ks, kindBlocks x S k' = kindBlocks x (l :: S) k' := by
            intro k' hk'
            have : l.kind ≠ k' := by rw [hlk]; exact fun e => ((h2 k').1 hk').1 e.symm
            simp [kindBlocks, this]
          simp only [List.flatMap]
          rw [List.map_congr_left h4]
    · rw [if_pos (by simpa using hlk)]
      have hlt : ∀ y ∈ S, y.kind ≠ k := by
        intro y hy e
        have h5 := hk l (.head _)
        have h6 := hl y hy
        rw [e] at h6
        rw [labelKind_cmp_order.swap] at h6
        have : k.cmp l.kind = .eq := by
          cases hc : k.cmp l.kind with
          | eq => rfl
          | gt => exact absurd hc h5
          | lt => rw [hc] at h6; exact absurd rfl h6
        exact hlk ((labelKind_cmp_eq _ _).1 this).symm
      obtain ⟨ks, h1, h2, h3⟩ := ih l.kind [labelRow x l] hs hl
      refine ⟨l.kind :: ks, ?_, fun k' => ?_, ?_⟩
      · rw [List.pairwise_cons]
        refine ⟨fun k' hk' => ?_, h1⟩
        obtain ⟨h4, y, hy, rfl⟩ := (h2 k').1 hk'
        cases hc : l.kind.cmp y.kind with
        | lt => rfl
        | eq => exact absurd ((labelKind_cmp_eq _ _).1 hc).symm h4
        | gt => exact absurd hc (hl y hy)
      · rw [List.mem_cons, h2]
        constructor
        · rintro (rfl | ⟨h4, y, hy, rfl⟩)
          · exact ⟨hlk, l, .head _, rfl⟩
          · exact ⟨hlt y hy, y, .tail _ hy, rfl⟩
        · rintro ⟨h4, y, hy, rfl⟩
          rcases List.mem_cons.1 hy with rfl | hy
          · exact .inl rfl
          · by_cases e : y.kind = l.kind
            · exact .inl e
            · exact .inr ⟨e, y, hy, rfl⟩
      · rw [h3]
        have e1 : (S.filter fun y => y.kind = k) = [] := by
          rw [List.filter_eq_nil_iff]
          intro y hy
          simpa using hlt y hy
        have h4 : ∀ k' ∈ ks, kindBlocks x S k' = kindBlocks x (l :: S) k' := by
          intro k' hk'
          have : l.kind ≠ k' := fun e => ((h2 k').1 hk').1 e.symm
          simp [kindBlocks, this]
        simp only [List.flatMap, List.map_cons, List.flatten_cons]
        rw [List.map_congr_left h4]
        simp [flushLabels, e1, hlk, kindBlocks, labelRow_eq]

/-- C130: the labels of a resource are shown by kind, the kinds in order, each once and under its name, and under each
kind exactly the labels of that kind, in the order in which they were added. -/
theorem C130_labels (x : DocContext) (ls : List Label) :
    ∃ ks : List LabelKind, ks.Pairwise (fun a b => a.cmp b = .lt) ∧ (∀ k, k ∈ ks ↔ ∃ l ∈ ls, l.kind = k) ∧
      writeLabels x ls = ks.flatMap (kindBlocks x ls) := by
  unfold writeLabels
  generalize hS : (ls.mergeSort fun a b => a.kind.cmp b.kind != .gt) = S
  have hmem : ∀ l, l ∈ S ↔ l ∈ ls := fun l => by rw [← hS]; exact List.mem_mergeSort
  have hsorted : S.Pairwise fun a b => a.kind.cmp b.kind ≠ .gt := by
    rw [← hS]
    refine (List.pairwise_mergeSort ?_ ?_ ls).imp fun h => by simpa using h
    · exact fun a b c => labelKind_cmp_order.le_trans _ _ _
    · exact fun a b => labelKind_cmp_order.le_total _ _
  have hfil : ∀ k, kindBlocks x S k = kindBlocks x ls k := by
    intro k
    unfold kindBlocks
    rw [← hS, filter_mergeSort]
    · exact fun a b c => labelKind_cmp_order.le_trans _ _ _
    · exact fun a b => labelKind_cmp_order.le_total _ _
    · intro a b ha hb
      simp only [decide_eq_true_eq] at ha hb
      rw [ha, hb, labelKind_cmp_order.refl]; rfl
  have hfun : kindBlocks x S = kindBlocks x ls := funext hfil
  cases S with
  | nil => exact ⟨[], .nil, by simp [← hmem], by simp [labelLoop, flushLabels]⟩
  | cons l S =>
    rw [List.pairwise_cons] at hsorted
    obtain ⟨ks, h1, h2, h3⟩ := labelLoop_some x S l.kind [labelRow x l] hsorted.2 hsorted.1
    refine ⟨l.kind :: ks, ?_, fun k => ?_, ?_⟩
    · rw [List.pairwise_cons]
      refine ⟨fun k' hk' => ?_, h1⟩
      obtain ⟨h4, y, hy, rfl⟩ := (h2 k').1 hk'
      cases hc : l.kind.cmp y.kind with
      | lt => rfl
      | eq => exact absurd ((labelKind_cmp_eq _ _).1 hc).symm h4
      | gt => exact absurd hc (hsorted.1 y hy)
    · rw [List.mem_cons, h2]
      simp only [← hmem]
      constructor
      · rintro (rfl | ⟨_, y, hy, h⟩)
        · exact ⟨l, .head _, rfl⟩
        · exact ⟨y, .tail _ hy, h⟩
      · rintro ⟨y, hy, rfl⟩
        rcases List.mem_cons.1 hy with rfl | hy
        · exact .inl rfl
        · by_cases e : y.kind = l.kind
          · exact .inl e
          · exact .inr ⟨e, y, hy, rfl⟩
    · unfold labelLoop
      rw [if_pos (by simp), h3, ← hfun]
      have h4 : ∀ k' ∈ ks, kindBlocks x S k' = kindBlocks x (l :: S) k' := by
        intro k' hk'
        have : l.kind ≠ k' := fun e => ((h2 k').1 hk').1 e.symm
        simp [kindBlocks, this]
      simp only [List.flatMap, List.map_cons, List.flatten_cons]
      rw [List.map_congr_left h4]
      simp [flushLabels, kindBlocks, labelRow_eq]

/-- The texts of the first cells of the tables among blocks. -/
def firstCells (bs : List DocBlock) : List (List DocSpan) :=
  bs.flatMap fun
    | .table _ rows => rows.filterMap List.head?
    | _ => []

/-- C130, no label is lost: the texts that the tables show are the texts of the labels, each as often as it was added. -/
theorem C130_all (x : DocContext) (ls : List Label) :
    (firstCells (writeLabels x ls)).Perm (ls.map fun l => [.text .text l.text]) := by
  obtain ⟨ks, h1, h2, h3⟩ := C130_labels x ls
  rw [h3]
  have hn : ks.Nodup := h1.imp fun h e => by rw [e, labelKind_cmp_order.refl] at h; cases h
  clear h3 h1
  have e : firstCells (ks.flatMap (kindBlocks x ls)) =
      (ks.flatMap fun k => ls.filter fun l => l.kind = k).map fun l => [.text .text l.text] := by
    clear h2 hn
    induction ks with
    | nil => rfl
    | cons k ks ih =>
      have hk : firstCells (kindBlocks x ls k) = (ls.filter fun l => l.kind = k).map fun l => [.text .text l.text] := by
        simp only [firstCells, kindBlocks, List.flatMap_cons, List.flatMap_nil, List.append_nil, List.nil_append,
          List.filterMap_map]
        rw [← List.filterMap_eq_map]
        rfl
      rw [List.flatMap_cons, List.flatMap_cons, List.map_append, ← ih, ← hk]
      simp [firstCells]
  rw [e]
  apply List.Perm.map
  have h2' : ∀ l ∈ ls, l.kind ∈ ks := fun l hl => (h2 _).2 ⟨l, hl, rfl⟩
  clear h2 e
  induction ls with
  | nil => simp
  | cons l ls ih =>
    have h4 := ih fun y hy => h2' y (.tail _ hy)
    have h5 : (ks.flatMap fun k => (l :: ls).filter fun y => y.kind = k).Perm
        (l :: ks.flatMap fun k => ls.filter fun y => y.kind = k) := by
      have hm := h2' l (.head _)
      clear h2' h4 ih
      induction ks with
      | nil => cases hm
      | cons k ks ih =>
        rw [List.nodup_cons] at hn
        simp only [List.flatMap_cons]
        by_cases hk : l.kind = k
        · have h6 : (ks.flatMap fun k => (l :: ls).filter fun y => y.kind = k) = ks.flatMap fun k => ls.filter fun y => y.kind = k := by
            simp only [List.flatMap]
            congr 1
            apply List.map_congr_left
            intro k' hk'
            have : l.kind ≠ k' := fun e => hn.1 (by rw [← hk, e]; exact hk')
            simp [this]
          rw [h6]
          simp [hk]
        · have h7 := ih hn.2 (by
            rcases List.mem_cons.1 hm with e | e
            · exact absurd e hk
            · exact e)
          simp only [List.filter_cons, hk, decide_false, Bool.false_eq_true, if_false] at h7 ⊢
          exact (List.Perm.append_left _ h7).trans List.perm_middle
    exact h5.trans (h4.cons l)

/-! ### C131 -/

/-- The row of a property as it should be. -/
def propertyCells (x : DocContext) (p : LiteralProperty) : DocRow :=
  [[.text .text (x.shown p.predicate)], [.text .text p.lexicalForm],
   [.text .text (match p.dataType with
      | none => []
      | some t => x.shown t.asIri)],
   match p.language with
    | none => []
    | some t => [.text (if x.lang = some t then .bold else .plain) t]]

/-- C131, the full statement: each property is shown with its predicate, its text, its data type and its language. -/
def C131_statement : Prop := ∀ (x : DocContext) (p : LiteralProperty), propertyRow x p = propertyCells x p

/-- C131, exactly: a property is shown as it is if and only if its data type, if it has one, has a prefix or is written
like the predicate. -/
theorem C131_iff (x : DocContext) (p : LiteralProperty) :
    propertyRow x p = propertyCells x p ↔
      ∀ t, p.dataType = some t → x.name t.asIri = none → t.asIri.fmt x.sty = p.predicate.fmt x.sty := by
  have hl : languageCell x p.language = match p.language with
      | none => []
      | some t => [.text (if x.lang = some t then .bold else .plain) t] := by
    unfold languageCell
    cases p.language with
    | none => rfl
    | some t => simp only [eq_comm]
  unfold propertyRow propertyCells
  rw [hl]
  cases ht : p.dataType with
  | none => simp
  | some t =>
    unfold DocContext.shown
    cases hn : x.name t.asIri with
    | some s => simp [hn]
    | none => simp [hn, eq_comm]

/-- C131 for properties without a data type or with one that has a prefix.  Missing: data types without a prefix. -/
theorem C131_partial (x : DocContext) (p : LiteralProperty) (h : ∀ t, p.dataType = some t → x.name t.asIri ≠ none) :
    propertyRow x p = propertyCells x p := (C131_iff x p).2 fun t ht hn => absurd hn (h t ht)

/-- C131 fails: without a prefix for the data type the predicate is shown in its place. -/
theorem C131_fails : ¬C131_statement := by
  intro h
  have := (C131_iff ⟨fun _ => none, .bare, fun _ s => s, [], none⟩
    (.withDataType ⟨str! "http://example.org/size"⟩ (str! "7") .int)).1 (h _ _) .int rfl rfl
  exact absurd this (by decide +kernel)

/-- C131, two properties that differ in their data types only can be shown alike. -/
theorem C131_fails_ambiguous (x : DocContext) (p : Iri) (s : Str) (t u : DataType)
    (ht : x.name t.asIri = none) (hu : x.name u.asIri = none) :
    propertyRow x (.withDataType p s t) = propertyRow x (.withDataType p s u) := by
  simp [propertyRow, LiteralProperty.withDataType, ht, hu]

/-- C131, the table: it has one row for each property, in the order of the predicates and, for one predicate, in the
order in which the properties were added. -/
theorem C131_table (x : DocContext) (ps : List LiteralProperty) :
    ∃ qs : List LiteralProperty, qs.Perm ps ∧
      (qs.Pairwise fun a b => cmpStr (a.predicate.fmt x.sty) (b.predicate.fmt x.sty) ≠ .gt) ∧
      (∀ i : Iri, (qs.filter fun p => p.predicate = i) = ps.filter fun p => p.predicate = i) ∧
      writeOtherProperties x ps =
        [.table [str! "Predicate", str! "Literal Form", str! "Data Type", str! "Language"] (qs.map (propertyRow x))] := by
  refine ⟨_, List.mergeSort_perm _ _, ?_, fun i => ?_, rfl⟩
  · refine (List.pairwise_mergeSort ?_ ?_ ps).imp fun h => by simpa using h
    · exact fun a b c => cmpStr_order.le_trans _ _ _
    · exact fun a b => cmpStr_order.le_total _ _
  · apply filter_mergeSort
    · exact fun a b c => cmpStr_order.le_trans _ _ _
    · exact fun a b => cmpStr_order.le_total _ _
    · intro a b ha hb
      simp only [decide_eq_true_eq] at ha hb
      rw [ha, hb, cmpStr_order.refl]; rfl

/-! ### C134 -/

/-- The rows for the relations of a concept, as they should be. -/
def relationCells (x : DocContext) (h : SkosStore) (c : Concept) : List DocRow :=
  c.concepts.map (fun e => [[.text .text (x.shown e.1.toUri)],
    [.jump (x.safe (str! "concept") (x.conceptLabel (h.concept e.2))) (x.conceptLabel (h.concept e.2))]]) ++
  c.external.map fun e => [[.text .text (x.shown e.1)], [.link (e.2.fmt x.sty) (some (x.shown e.2))]]

/-- The rows of the tables with the relations among blocks. -/
def relationRows (bs : List DocBlock) : List DocRow :=
  bs.flatMap fun
    | .table cols rows => if cols = [str! "Relationship", str! "Concept Iri"] then rows else []
    | _ => []

/-- C134, the full statement: the section of a concept shows its relations to other concepts and to things elsewhere. -/
def C134_statement : Prop :=
  ∀ (x : DocContext) (h : SkosStore) (c : Concept), relationRows (writeConcept x h c) = relationCells x h c

theorem relationRows_append (a b : List DocBlock) : relationRows (a ++ b) = relationRows a ++ relationRows b := by
  simp [relationRows]

theorem relationRows_writeLabels (x : DocContext) (ls : List Label) : relationRows (writeLabels x ls) = [] := by
  obtain ⟨ks, h1, h2, h⟩ := C130_labels x ls
  rw [h]
  clear h h1 h2
  induction ks with
  | nil => rfl
  | cons k ks ih =>
    rw [List.flatMap_cons, relationRows_append, ih]
    rfl

theorem relationRows_header (x : DocContext) (u : Iri) (ls : List Label) (ps : List LiteralProperty) (a b : Str) (d : Nat) :
    relationRows (writeEntityHeader x u ls ps a b d) = [] := by
  unfold writeEntityHeader
  simp only [relationRows_append]
  have h1 : ∀ bs : List DocBlock, relationRows (.heading (levelToHeading (d + 1)) (str! "Labels") none :: bs) = relationRows bs :=
    fun bs => by simp [relationRows]
  have h2 : relationRows (.heading (levelToHeading (d + 1)) (str! "Other Properties") none :: writeOtherProperties x ps) = [] := by
    simp [relationRows, writeOtherProperties]
  split <;> split <;> split <;> simp [h1, h2, relationRows_writeLabels] <;> simp [relationRows]

/-- C134, exactly: the section shows all the relations if and only if the concept has a relation to another concept or
none at all. -/
theorem C134_iff (x : DocContext) (h : SkosStore) (c : Concept) :
    relationRows (writeConcept x h c) = relationCells x h c ↔ (c.concepts = [] → c.external = []) := by
  have h3 : relationRows (writeCollectionMembership x h c.uri) = [] := by
    unfold writeCollectionMembership
    simp only
    split <;> simp [relationRows]
  unfold writeConcept
  rw [relationRows_append, relationRows_append, relationRows_header, h3, List.nil_append, List.append_nil]
  cases hc : c.concepts with
  | nil =>
    simp only [List.isEmpty_nil, if_true, relationCells, hc, List.map_nil, List.nil_append, forall_const]
    cases c.external <;> simp [relationRows]
  | cons e es =>
    simp [relationRows, writeConceptRelations, relationCells, hc, conceptJump]

/-- C134 for concepts with a relation to another concept.  Missing: concepts with relations to things elsewhere only. -/
theorem C134_partial (x : DocContext) (h : SkosStore) (c : Concept) (hc : c.concepts ≠ []) :
    relationRows (writeConcept x h c) = relationCells x h c := (C134_iff x h c).2 fun e => absurd e hc

/-- C134 fails: a concept that is related to nothing but a concept of another thesaurus is shown without the relation. -/
theorem C134_fails : ¬C134_statement := by
  intro h
  have := (C134_iff ⟨fun _ => none, .bare, fun _ s => s, [], none⟩ ⟨[], []⟩
    { Concept.new ⟨str! "a"⟩ with external := [(⟨str! "r"⟩, ⟨str! "b"⟩)] }).1 (h _ _ _) rfl
  cases this

end Rdftk
