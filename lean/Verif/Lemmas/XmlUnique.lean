import Verif.Spec.Xml
import Mathlib.Data.List.Forall2

/-! What an RDF/XML document says is determined by it, but for how data types are held. -/

namespace Rdftk

open Spec

/-! ### Elements -/

/-- What follows the end of the innermost of `k` open elements and of one that begins. -/
def cutElement : Nat → List XmlIn → Option (List XmlIn)
  | _, [] => none
  | k, .start _ _ :: es => cutElement (k + 1) es
  | 0, .stop _ :: _ => none
  | 1, .stop _ :: es => some es
  | k + 2, .stop _ :: es => cutElement (k + 1) es
  | k, _ :: es => cutElement k es

/-- Events inside an element. -/
def IsBody (a : List XmlIn) : Prop := ∀ k rest, cutElement (k + 1) (a ++ rest) = cutElement (k + 1) rest

/-- The events of one element. -/
def IsElement (a : List XmlIn) : Prop := ∀ rest, cutElement 0 (a ++ rest) = some rest

theorem IsBody.nil : IsBody [] := fun _ _ => rfl

theorem IsBody.append {a b : List XmlIn} (ha : IsBody a) (hb : IsBody b) : IsBody (a ++ b) := fun k rest => by
  rw [List.append_assoc, ha, hb]

theorem IsBody.element {a : List XmlIn} (ha : IsBody a) (x : XName) (as : List XAttr) :
    IsBody (.start x as :: a ++ [.stop x]) := fun k rest => by
  simp only [List.cons_append, List.append_assoc, List.nil_append, cutElement, ha (k + 1)]

theorem isElement {a : List XmlIn} (ha : IsBody a) (x : XName) (as : List XAttr) :
    IsElement (.start x as :: a ++ [.stop x]) := fun rest => by
  simp only [List.cons_append, List.append_assoc, List.nil_append, cutElement, ha 0]

theorem IsBody.fill {e : XmlIn} (h : isFill e = true) : IsBody [e] := fun k rest => by
  cases e <;> first | rfl | cases h

theorem IsBody.fills {a : List XmlIn} (h : a.all isFill = true) : IsBody a := by
  induction a with
  | nil => exact IsBody.nil
  | cons e a ih =>
    simp only [List.all_cons, Bool.and_eq_true] at h
    exact (IsBody.fill h.1).append (ih h.2)

theorem IsBody.texts {a : List XmlIn} {t : Str} (h : textsOf a = some t) : IsBody a := by
  induction a generalizing t with
  | nil => exact IsBody.nil
  | cons e a ih =>
    simp only [textsOf] at h
    split at h
    · rename_i h1 h2
      have : IsBody [e] := fun k rest => by cases e <;> first | rfl | cases h1
      exact this.append (ih h2)
    · cases h

theorem element_inj {a a' b b' : List XmlIn} (h : IsElement a) (h' : IsElement a') (e : a ++ b = a' ++ b') :
    a = a' ∧ b = b' := by
  have h1 := h b
  rw [e, h' b'] at h1
  cases h1
  exact ⟨List.append_cancel_right e, rfl⟩


theorem propList_body {gen : Nat → Str} {c : XmlScope} {s : Subject} {n m : Nat} {a : List XmlIn} {T : List Stmt}
    (h : PropList gen c s n a m T) : IsBody a := by
  refine PropList.rec (motive_1 := fun _ _ a _ _ _ _ => IsBody a ∧ IsElement a)
    (motive_2 := fun _ _ _ a _ _ _ => IsBody a) (motive_3 := fun _ _ _ a _ _ _ => IsBody a ∧ IsElement a)
    ?_ ?_ ?_ ?_ ?_ ?_ ?_ ?_ ?_ h
  · intro c n n' n'' name as ps s body ts T _ _ _ _ h; exact ⟨h.element _ _, isElement h _ _⟩
  · intro c s n; exact IsBody.nil
  · intro c s n n' e es T h1 _ h; exact (IsBody.fill h1).append h
  · intro c s n n' n'' a b T T' _ _ h1 h2; exact h1.1.append h2
  · intro c s o n n' name p as a b body T _ _ h3 h4 _ h
    have := ((IsBody.fills h3).append h.1).append (IsBody.fills h4)
    exact ⟨this.element _ _, isElement this _ _⟩
  · intro c s n name p as body t type l _ _ h3 _ _ _
    exact ⟨(IsBody.texts h3).element _ _, isElement (IsBody.texts h3) _ _⟩
  · intro c s n n' name p as body T _ _ _ _ h; exact ⟨h.element _ _, isElement h _ _⟩
  · intros; exact ⟨IsBody.nil.element _ _, isElement IsBody.nil _ _⟩
  · intros; exact ⟨IsBody.nil.element _ _, isElement IsBody.nil _ _⟩

theorem nodeElt_element {gen : Nat → Str} {c : XmlScope} {n m : Nat} {a : List XmlIn} {s : Subject} {T : List Stmt}
    (h : NodeElt gen c n a s m T) : IsElement a := by
  cases h with
  | mk _ _ _ h4 => exact isElement (propList_body h4) _ _

theorem nodeElt_body {gen : Nat → Str} {c : XmlScope} {n m : Nat} {a : List XmlIn} {s : Subject} {T : List Stmt}
    (h : NodeElt gen c n a s m T) : IsBody a := by
  cases h with
  | mk _ _ _ h4 => exact (propList_body h4).element _ _

theorem nodeElt_starts {gen : Nat → Str} {c : XmlScope} {n m : Nat} {a : List XmlIn} {s : Subject} {T : List Stmt}
    (h : NodeElt gen c n a s m T) : ∃ x as b, a = .start x as :: b := by
  cases h with
  | mk _ _ _ h4 => exact ⟨_, _, _, rfl⟩

theorem propElt_element {gen : Nat → Str} {c : XmlScope} {s : Subject} {n m : Nat} {a : List XmlIn} {T : List Stmt}
    (h : PropElt gen c s n a m T) : IsElement a := by
  cases h with
  | node _ _ h3 h4 h5 =>
    have hb := nodeElt_body h5
    have := ((IsBody.fills h3).append hb).append (IsBody.fills h4)
    exact isElement this _ _
  | literal _ _ h3 _ _ _ => exact isElement (IsBody.texts h3) _ _
  | parseResource _ _ _ h4 => exact isElement (propList_body h4) _ _
  | resource _ _ _ _ _ => exact isElement IsBody.nil _ _
  | nodeId _ _ _ _ _ => exact isElement IsBody.nil _ _

theorem propElt_starts {gen : Nat → Str} {c : XmlScope} {s : Subject} {n m : Nat} {a : List XmlIn} {T : List Stmt}
    (h : PropElt gen c s n a m T) : ∃ x as b, a = .start x as :: b := by
  cases h <;> exact ⟨_, _, _, rfl⟩

theorem element_parts {x x' : XName} {as as' : List XAttr} {b b' : List XmlIn}
    (h : XmlIn.start x as :: b ++ [.stop x] = .start x' as' :: b' ++ [.stop x']) : x = x' ∧ as = as' ∧ b = b' := by
  simp only [List.cons_append, List.cons.injEq, XmlIn.start.injEq] at h
  obtain ⟨⟨h1, h2⟩, h3⟩ := h
  exact ⟨h1, h2, (List.append_inj' h3 rfl).1⟩

theorem fills_inj {a a' b b' c c' : List XmlIn} (ha : a.all isFill = true) (ha' : a'.all isFill = true)
    (hb : ∃ x as c, b = .start x as :: c) (hb' : ∃ x as c, b' = .start x as :: c)
    (e : a ++ (b ++ c) = a' ++ (b' ++ c')) : a = a' ∧ b ++ c = b' ++ c' := by
  obtain ⟨x, as, d, rfl⟩ := hb
  obtain ⟨x', as', d', rfl⟩ := hb'
  induction a generalizing a' with
  | nil =>
    cases a' with
    | nil => exact ⟨rfl, e⟩
    | cons f a' =>
      simp only [List.nil_append, List.cons_append, List.cons.injEq] at e
      rw [← e.1] at ha'
      simp [isFill] at ha'
  | cons f a ih =>
    cases a' with
    | nil =>
      simp only [List.nil_append, List.cons_append, List.cons.injEq] at e
      rw [e.1] at ha
      simp [isFill] at ha
    | cons f' a' =>
      simp only [List.cons_append, List.cons.injEq] at e
      simp only [List.all_cons, Bool.and_eq_true] at ha ha'
      obtain ⟨h1, h2⟩ := ih ha.2 ha'.2 (by simpa using e.2)
      exact ⟨by rw [h1, e.1], h2⟩

/-! ### Statements -/

/-- Literals with one meaning. -/
def SameLit (l l' : Literal) : Prop :=
  l.lexicalForm = l'.lexicalForm ∧ l.dataType.map DataType.asIri = l'.dataType.map DataType.asIri ∧ l.language = l'.language

/-- Objects that are one, but for how data types are held. -/
def SameObject (o o' : Object) : Prop := o = o' ∨ ∃ l l', o = .lit l ∧ o' = .lit l' ∧ SameLit l l'

/-- Statements that are one, but for how data types are held. -/
def SameStmt (t t' : Stmt) : Prop := t.subject = t'.subject ∧ t.predicate = t'.predicate ∧ SameObject t.object t'.object

theorem SameStmt.refl (t : Stmt) : SameStmt t t := ⟨rfl, rfl, .inl rfl⟩

theorem same_refl (T : List Stmt) : List.Forall₂ SameStmt T T := by
  induction T with
  | nil => exact .nil
  | cons t T ih => exact .cons (.refl t) ih

theorem forall₂_same_append {a b c d : List Stmt} (h : List.Forall₂ SameStmt a b) (h' : List.Forall₂ SameStmt c d) :
    List.Forall₂ SameStmt (a ++ c) (b ++ d) := by
  induction h with
  | nil => exact h'
  | cons h _ ih => exact .cons h ih

theorem literalOf_same {t : Str} {ty g : Option Str} {l l' : Literal} (h : LiteralOf t ty g l) (h' : LiteralOf t ty g l') :
    SameLit l l' := ⟨h.1.trans h'.1.symm, h.2.1.trans h'.2.1.symm, h.2.2.trans h'.2.2.symm⟩

theorem attrStmts_same {c : XmlScope} {s : Subject} {as : List XAttr} {ts ts' : List Stmt} (h : AttrStmts c s as ts)
    (h' : AttrStmts c s as ts') : List.Forall₂ SameStmt ts ts' := by
  induction h generalizing ts' with
  | nil => cases h'; exact .nil
  | cons h1 h2 ih =>
    cases h' with
    | cons h1' h2' =>
      refine .cons ?_ (ih h2')
      cases h1 with
      | type e =>
        cases h1' with
        | type e' => rw [e] at e'; cases e'; exact .refl _
        | literal hn _ _ => exact absurd rfl hn
      | literal hn hp hl =>
        cases h1' with
        | type e' => exact absurd rfl hn
        | literal hn' hp' hl' =>
          rw [hp] at hp'
          cases hp'
          exact ⟨rfl, rfl, .inr ⟨_, _, rfl, rfl, literalOf_same hl hl'⟩⟩

theorem attrStmts_no {c : XmlScope} {s : Subject} {as : List XAttr} {ts : List Stmt} (h : AttrStmts c s as ts) {a : XAttr}
    (ha : a ∈ as) (hn : propertyIri a.name = none) : False := by
  induction h with
  | nil => simp at ha
  | cons h1 h2 ih =>
    rcases List.mem_cons.1 ha with rfl | ha
    · cases h1 with
      | type e =>
        have : propertyIri (rdfX (str! "type")) ≠ none := by decide +kernel
        exact this hn
      | literal _ hp _ => rw [hp] at hn; cases hn
    · exact ih ha

theorem attr_mem {n : XName} {as : List XAttr} {v : Str} (h : attr n as = some v) : ⟨n, v⟩ ∈ as := by
  unfold attr at h
  obtain ⟨a, ha, rfl⟩ := Option.map_eq_some_iff.1 h
  have h1 := List.find?_some ha
  simp only [beq_iff_eq] at h1
  rw [← h1]
  exact List.mem_of_find?_eq_some ha

/-- An attribute that is left over among the properties, where it cannot be. -/
theorem left_over {c : XmlScope} {s : Subject} {as : List XAttr} {ts : List Stmt} {x : Str} {v : Str} {q : XAttr → Bool}
    (h : AttrStmts c s (as.filter q) ts) (ha : attr (rdfX x) as = some v) (hq : q ⟨rdfX x, v⟩ = true)
    (hn : propertyIri (rdfX x) = none) : False :=
  attrStmts_no h (List.mem_filter.2 ⟨attr_mem ha, hq⟩) hn

theorem rdfX_iff (a b : Str) : rdfX a = rdfX b ↔ a = b := by simp [rdfX]

theorem not_xml (x v : Str) : isXmlAttr ⟨rdfX x, v⟩ = false := by
  have : rdfNs ≠ str! "http://www.w3.org/XML/1998/namespace" := by decide +kernel
  simp [isXmlAttr, rdfX, this]

theorem subjectOf_unique {gen : Nat → Str} {c : XmlScope} {n m m' : Nat} {as ps ps' : List XAttr} {s s' : Subject}
    {ts ts' : List Stmt} (h : SubjectOf gen c n as s m ps) (ht : AttrStmts c s ps ts)
    (h' : SubjectOf gen c n as s' m' ps') (ht' : AttrStmts c s' ps' ts') : s = s' ∧ m = m' ∧ ps = ps' := by
  have n1 : propertyIri (rdfX (str! "about")) = none := by decide +kernel
  have n2 : propertyIri (rdfX (str! "ID")) = none := by decide +kernel
  have n3 : propertyIri (rdfX (str! "nodeID")) = none := by decide +kernel
  cases h with
  | about e1 e2 =>
    cases h' with
    | about e1' e2' => rw [e1] at e1'; cases e1'; rw [e2] at e2'; cases e2'; exact ⟨rfl, rfl, rfl⟩
    | id e1' _ _ => exact (left_over ht e1' (by simp [not_xml, rdfX_iff]) n2).elim
    | nodeId e1' _ => exact (left_over ht e1' (by simp [not_xml, rdfX_iff]) n3).elim
    | none => exact (left_over ht' e1 (by simp [not_xml]) n1).elim
  | id e1 e2 e3 =>
    cases h' with
    | about e1' e2' => exact (left_over ht e1' (by simp [not_xml, rdfX_iff]) n1).elim
    | id e1' _ e3' => rw [e1] at e1'; cases e1'; rw [e3] at e3'; cases e3'; exact ⟨rfl, rfl, rfl⟩
    | nodeId e1' _ => exact (left_over ht e1' (by simp [not_xml, rdfX_iff]) n3).elim
    | none => exact (left_over ht' e1 (by simp [not_xml]) n2).elim
  | nodeId e1 e2 =>
    cases h' with
    | about e1' e2' => exact (left_over ht e1' (by simp [not_xml, rdfX_iff]) n1).elim
    | id e1' _ e3' => exact (left_over ht e1' (by simp [not_xml, rdfX_iff]) n2).elim
    | nodeId e1' _ => rw [e1] at e1'; cases e1'; exact ⟨rfl, rfl, rfl⟩
    | none => exact (left_over ht' e1 (by simp [not_xml]) n3).elim
  | none =>
    cases h' with
    | about e1' e2' => exact (left_over ht e1' (by simp [not_xml]) n1).elim
    | id e1' _ e3' => exact (left_over ht e1' (by simp [not_xml]) n2).elim
    | nodeId e1' _ => exact (left_over ht e1' (by simp [not_xml]) n3).elim
    | none => exact ⟨rfl, rfl, rfl⟩

theorem texts_no_start {a : List XmlIn} {t : Str} (h : textsOf a = some t) (x : XName) (as : List XAttr) : .start x as ∉ a := by
  induction a generalizing t with
  | nil => simp
  | cons e a ih =>
    simp only [textsOf] at h
    split at h
    · rename_i h1 h2
      intro hm
      rcases List.mem_cons.1 hm with rfl | hm
      · cases h1
      · exact ih h2 hm
    · cases h

theorem all_no {as : List XAttr} {q : XAttr → Bool} (h : as.all q = true) {x v : Str} (ha : attr (rdfX x) as = some v)
    (hq : q ⟨rdfX x, v⟩ = false) : False := by
  have := List.all_eq_true.1 h _ (attr_mem ha)
  rw [hq] at this
  cases this

/-! ### Uniqueness -/

theorem propList_unique {gen : Nat → Str} {c : XmlScope} {s : Subject} {n m : Nat} {a : List XmlIn} {T : List Stmt}
    (h : PropList gen c s n a m T) : ∀ m' T', PropList gen c s n a m' T' → m = m' ∧ List.Forall₂ SameStmt T T' := by
  refine PropList.rec (gen := gen)
    (motive_1 := fun c n a s m T _ => ∀ s' m' T', NodeElt gen c n a s' m' T' →
      s = s' ∧ m = m' ∧ List.Forall₂ SameStmt T T')
    (motive_2 := fun c s n a m T _ => ∀ m' T', PropList gen c s n a m' T' → m = m' ∧ List.Forall₂ SameStmt T T')
    (motive_3 := fun c s n a m T _ => ∀ m' T', PropElt gen c s n a m' T' → m = m' ∧ List.Forall₂ SameStmt T T')
    ?_ ?_ ?_ ?_ ?_ ?_ ?_ ?_ ?_ h
  · intro c n n' n'' name as ps s body ts T h1 h2 h3 h4 ih s' m' T' h'
    generalize ha : XmlIn.start name as :: body ++ [.stop name] = a' at h'
    cases h' with
    | mk h1' h2' h3' h4' =>
      obtain ⟨rfl, rfl, rfl⟩ := element_parts ha
      obtain ⟨rfl, rfl, rfl⟩ := subjectOf_unique h2 h3 h2' h3'
      obtain ⟨rfl, hT⟩ := ih _ _ h4'
      exact ⟨rfl, rfl, forall₂_same_append (forall₂_same_append (same_refl _) (attrStmts_same h3 h3')) hT⟩
  · intro c s n m' T' h'
    generalize ha : ([] : List XmlIn) = a' at h'
    cases h' with
    | nil => exact ⟨rfl, .nil⟩
    | fill _ _ => cases ha
    | cons h1 h2 =>
      obtain ⟨x, as, b, rfl⟩ := propElt_starts h1
      cases ha
  · intro c s n n' e es T h1 h2 ih m' T' h'
    generalize ha : e :: es = a' at h'
    cases h' with
    | nil => cases ha
    | fill h1' h2' => cases ha; exact ih _ _ h2'
    | cons h1' h2' =>
      obtain ⟨x, as, b, rfl⟩ := propElt_starts h1'
      cases ha
      cases h1
  · intro c s n n' n'' a b T T' h1 h2 ih1 ih2 m' U h'
    generalize ha : a ++ b = a' at h'
    cases h' with
    | nil =>
      obtain ⟨x, as, b, rfl⟩ := propElt_starts h1
      cases ha
    | fill h1' h2' =>
      obtain ⟨x, as, b, rfl⟩ := propElt_starts h1
      cases ha
      cases h1'
    | cons h1' h2' =>
      obtain ⟨rfl, rfl⟩ := element_inj (propElt_element h1) (propElt_element h1') ha
      obtain ⟨rfl, e1⟩ := ih1 _ _ h1'
      obtain ⟨rfl, e2⟩ := ih2 _ _ h2'
      exact ⟨rfl, forall₂_same_append e1 e2⟩
  · intro c s o n n' name p as a b body T h1 h2 h3 h4 h5 ih m' T' h'
    generalize ha : XmlIn.start name as :: a ++ body ++ b ++ [.stop name] = a' at h'
    have hin : ∃ x as', XmlIn.start x as' ∈ a ++ body ++ b := by
      obtain ⟨x, as', d, rfl⟩ := nodeElt_starts h5
      exact ⟨x, as', by simp⟩
    cases h' with
    | node h1' h2' h3' h4' h5' =>
      obtain ⟨rfl, rfl, e⟩ := element_parts (b := a ++ body ++ b) (b' := _ ++ _ ++ _) ha
      simp only [List.append_assoc] at e
      obtain ⟨rfl, e2⟩ := fills_inj h3 h3' (nodeElt_starts h5) (nodeElt_starts h5') e
      obtain ⟨rfl, rfl⟩ := element_inj (nodeElt_element h5) (nodeElt_element h5') e2
      obtain ⟨rfl, rfl, hT⟩ := ih _ _ _ h5'
      rw [h1] at h1'
      cases h1'
      exact ⟨rfl, .cons (.refl _) hT⟩
    | literal _ _ h3' _ _ _ =>
      obtain ⟨rfl, rfl, rfl⟩ := element_parts (b := a ++ body ++ b) (by simpa using ha)
      obtain ⟨x, as', hm⟩ := hin
      exact (texts_no_start h3' _ _ hm).elim
    | parseResource _ _ h3' _ =>
      obtain ⟨rfl, rfl, rfl⟩ := element_parts (b := a ++ body ++ b) (by simpa using ha)
      exact (all_no h2 h3' (not_xml _ _)).elim
    | resource _ h3' _ _ _ =>
      obtain ⟨rfl, rfl, -⟩ := element_parts (b := a ++ body ++ b) (b' := []) (by simpa using ha)
      exact (all_no h2 h3' (not_xml _ _)).elim
    | nodeId _ h3' _ _ _ =>
      obtain ⟨rfl, rfl, -⟩ := element_parts (b := a ++ body ++ b) (b' := []) (by simpa using ha)
      exact (all_no h2 h3' (not_xml _ _)).elim
  · intro c s n name p as body t type l h1 h2 h3 h4 h5 h6 m' T' h'
    generalize ha : XmlIn.start name as :: body ++ [.stop name] = a' at h'
    cases h' with
    | node h1' h2' h3' h4' h5' =>
      obtain ⟨rfl, rfl, rfl⟩ := element_parts (b' := _ ++ _ ++ _) ha
      obtain ⟨x, as', d, rfl⟩ := nodeElt_starts h5'
      exact (texts_no_start h3 x as' (by simp)).elim
    | literal h1' _ h3' h4' _ h6' =>
      obtain ⟨rfl, rfl, rfl⟩ := element_parts ha
      rw [h3] at h3'
      cases h3'
      rw [h4] at h4'
      subst h4'
      rw [h1] at h1'
      cases h1'
      exact ⟨rfl, .cons ⟨rfl, rfl, .inr ⟨_, _, rfl, rfl, literalOf_same h6 h6'⟩⟩ .nil⟩
    | parseResource _ _ h3' _ =>
      obtain ⟨rfl, rfl, rfl⟩ := element_parts ha
      exact (all_no h2 h3' (by simp [not_xml, rdfX_iff])).elim
    | resource _ h3' _ _ _ =>
      obtain ⟨rfl, rfl, -⟩ := element_parts (b' := []) (by simpa using ha)
      exact (all_no h2 h3' (by simp [not_xml, rdfX_iff])).elim
    | nodeId _ h3' _ _ _ =>
      obtain ⟨rfl, rfl, -⟩ := element_parts (b' := []) (by simpa using ha)
      exact (all_no h2 h3' (by simp [not_xml, rdfX_iff])).elim
  · intro c s n n' name p as body T h1 h2 h3 h4 ih m' T' h'
    generalize ha : XmlIn.start name as :: body ++ [.stop name] = a' at h'
    cases h' with
    | node h1' h2' h3' h4' h5' =>
      obtain ⟨rfl, rfl, rfl⟩ := element_parts (b' := _ ++ _ ++ _) ha
      exact (all_no h2' h3 (not_xml _ _)).elim
    | literal h1' h2' h3' h4' _ h6' =>
      obtain ⟨rfl, rfl, rfl⟩ := element_parts ha
      exact (all_no h2' h3 (by simp [not_xml, rdfX_iff])).elim
    | parseResource h1' _ h3' h4' =>
      obtain ⟨rfl, rfl, rfl⟩ := element_parts ha
      obtain ⟨rfl, hT⟩ := ih _ _ h4'
      rw [h1] at h1'
      cases h1'
      exact ⟨rfl, .cons (.refl _) hT⟩
    | resource _ h3' _ _ _ =>
      obtain ⟨rfl, rfl, -⟩ := element_parts (b' := []) (by simpa using ha)
      exact (all_no h2 h3' (by simp [not_xml, rdfX_iff])).elim
    | nodeId _ h3' _ _ _ =>
      obtain ⟨rfl, rfl, -⟩ := element_parts (b' := []) (by simpa using ha)
      exact (all_no h2 h3' (by simp [not_xml, rdfX_iff])).elim
  · intro c s n name p as ps v i ts h1 h2 h3 h4 h5 m' T' h'
    generalize ha : [XmlIn.start name as, .stop name] = a' at h'
    cases h' with
    | node h1' h2' h3' h4' h5' =>
      obtain ⟨rfl, rfl, -⟩ := element_parts (b := []) (b' := _ ++ _ ++ _) ha
      exact (all_no h2' h2 (not_xml _ _)).elim
    | literal h1' h2' h3' h4' _ h6' =>
      obtain ⟨rfl, rfl, rfl⟩ := element_parts (b := []) ha
      exact (all_no h2' h2 (by simp [not_xml, rdfX_iff])).elim
    | parseResource h1' h2' h3' h4' =>
      obtain ⟨rfl, rfl, rfl⟩ := element_parts (b := []) ha
      exact (all_no h2' h2 (by simp [not_xml, rdfX_iff])).elim
    | resource h1' h2' h3' h4' h5' =>
      cases ha
      rw [h2] at h2'
      cases h2'
      rw [h3] at h3'
      cases h3'
      rw [h1] at h1'
      cases h1'
      rw [← h4] at h4'
      subst h4'
      exact ⟨rfl, .cons (.refl _) (attrStmts_same h5 h5')⟩
    | nodeId h1' h2' h3' h4' h5' =>
      cases ha
      rw [h4] at h5
      exact (left_over h5 h2' (by simp [not_xml, rdfX_iff]) (by decide +kernel)).elim
  · intro c s n name p as ps v ts h1 h2 h3 h4 h5 m' T' h'
    generalize ha : [XmlIn.start name as, .stop name] = a' at h'
    cases h' with
    | node h1' h2' h3' h4' h5' =>
      obtain ⟨rfl, rfl, -⟩ := element_parts (b := []) (b' := _ ++ _ ++ _) ha
      exact (all_no h2' h2 (not_xml _ _)).elim
    | literal h1' h2' h3' h4' _ h6' =>
      obtain ⟨rfl, rfl, rfl⟩ := element_parts (b := []) ha
      exact (all_no h2' h2 (by simp [not_xml, rdfX_iff])).elim
    | parseResource h1' h2' h3' h4' =>
      obtain ⟨rfl, rfl, rfl⟩ := element_parts (b := []) ha
      exact (all_no h2' h2 (by simp [not_xml, rdfX_iff])).elim
    | resource h1' h2' h3' h4' h5' =>
      cases ha
      rw [h4] at h5
      exact (left_over h5 h2' (by simp [not_xml, rdfX_iff]) (by decide +kernel)).elim
    | nodeId h1' h2' h3' h4' h5' =>
      cases ha
      rw [h2] at h2'
      cases h2'
      rw [h1] at h1'
      cases h1'
      rw [← h4] at h4'
      subst h4'
      exact ⟨rfl, .cons (.refl _) (attrStmts_same h5 h5')⟩

theorem nodeElt_unique {gen : Nat → Str} {c : XmlScope} {n m m' : Nat} {a : List XmlIn} {s s' : Subject} {T T' : List Stmt}
    (h : NodeElt gen c n a s m T) (h' : NodeElt gen c n a s' m' T') :
    s = s' ∧ m = m' ∧ List.Forall₂ SameStmt T T' := by
  cases h with
  | mk h1 h2 h3 h4 =>
    generalize ha : XmlIn.start _ _ :: _ ++ [XmlIn.stop _] = a' at h'
    cases h' with
    | mk h1' h2' h3' h4' =>
      obtain ⟨rfl, rfl, rfl⟩ := element_parts ha
      obtain ⟨rfl, rfl, rfl⟩ := subjectOf_unique h2 h3 h2' h3'
      obtain ⟨rfl, hT⟩ := propList_unique h4 _ _ h4'
      exact ⟨rfl, rfl, forall₂_same_append (forall₂_same_append (same_refl _) (attrStmts_same h3 h3')) hT⟩

theorem nodeList_unique {gen : Nat → Str} {c : XmlScope} {n m m' : Nat} {a : List XmlIn} {T T' : List Stmt}
    (h : NodeList gen c n a m T) (h' : NodeList gen c n a m' T') : m = m' ∧ List.Forall₂ SameStmt T T' := by
  induction h generalizing m' T' with
  | nil =>
    generalize ha : ([] : List XmlIn) = a' at h'
    cases h' with
    | nil => exact ⟨rfl, .nil⟩
    | fill _ _ => cases ha
    | cons h1 h2 =>
      obtain ⟨x, as, b, rfl⟩ := nodeElt_starts h1
      cases ha
  | @fill n n' e es T h1 h2 ih =>
    generalize ha : e :: es = a' at h'
    cases h' with
    | nil => cases ha
    | fill h1' h2' => cases ha; exact ih h2'
    | cons h1' h2' =>
      obtain ⟨x, as, b, rfl⟩ := nodeElt_starts h1'
      cases ha
      cases h1
  | @cons s n n' n'' a b T U h1 h2 ih =>
    generalize ha : a ++ b = a' at h'
    cases h' with
    | nil =>
      obtain ⟨x, as, b, rfl⟩ := nodeElt_starts h1
      cases ha
    | fill h1' h2' =>
      obtain ⟨x, as, b, rfl⟩ := nodeElt_starts h1
      cases ha
      cases h1'
    | cons h1' h2' =>
      obtain ⟨rfl, rfl⟩ := element_inj (nodeElt_element h1) (nodeElt_element h1') ha
      obtain ⟨-, rfl, e1⟩ := nodeElt_unique h1 h1'
      obtain ⟨rfl, e2⟩ := ih h2'
      exact ⟨rfl, forall₂_same_append e1 e2⟩

theorem nodeList_body {gen : Nat → Str} {c : XmlScope} {n m : Nat} {a : List XmlIn} {T : List Stmt}
    (h : NodeList gen c n a m T) : IsBody a := by
  induction h with
  | nil => exact IsBody.nil
  | fill h1 _ ih => exact (IsBody.fill h1).append ih
  | cons h1 _ ih => exact (nodeElt_body h1).append ih

/-- A document says one list of statements. -/
theorem rdfXml_unique {gen : Nat → Str} {n : Nat} {evs : List XmlIn} {T T' : List Stmt} (h : RdfXml gen n evs T)
    (h' : RdfXml gen n evs T') : List.Forall₂ SameStmt T T' := by
  obtain ⟨pre, post, as, body, m, e, h1, h2, h3, h4⟩ := h
  obtain ⟨pre', post', as', body', m', e', h1', h2', h3', h4'⟩ := h'
  rw [e] at e'
  have key : ∀ (pre post : List XmlIn) (as : List XAttr) (body : List XmlIn),
      pre ++ XmlIn.start (rdfX (str! "RDF")) as :: body ++ XmlIn.stop (rdfX (str! "RDF")) :: post =
      pre ++ ((XmlIn.start (rdfX (str! "RDF")) as :: body ++ [XmlIn.stop (rdfX (str! "RDF"))]) ++ post) := by simp
  rw [key, key] at e'
  obtain ⟨-, e2⟩ := fills_inj h1 h1' ⟨_, _, _, rfl⟩ ⟨_, _, _, rfl⟩ e'
  obtain ⟨e3, -⟩ := element_inj (isElement (nodeList_body h4) _ _) (isElement (nodeList_body h4') _ _) e2
  obtain ⟨-, rfl, rfl⟩ := element_parts e3
  exact (nodeList_unique h4 h4').2

end Rdftk
