import Verif.Props.Xml
import Verif.Lemmas.XmlFlat
import Verif.Props.NTriples

/-! Exactly which flat RDF/XML documents come back: C76 and C77. -/

namespace Rdftk
open Spec

/-- A statement whose object is an IRI. -/
def ToIri (st : Stmt) : Prop := ∃ i, st.object = .res i

theorem splitProps (qs : List (XName × Object)) : (∀ q ∈ qs, notRes q.2 = true) ∨
    ∃ as x i bs, qs = as ++ (x, .res i) :: bs ∧ ∀ q ∈ as, notRes q.2 = true := by
  induction qs with
  | nil => exact .inl (by simp)
  | cons q qs ih =>
    obtain ⟨x, o⟩ := q
    by_cases ho : notRes o = true
    · rcases ih with ih | ⟨as, y, i, bs, rfl, h⟩
      · exact .inl (List.forall_mem_cons.2 ⟨ho, ih⟩)
      · exact .inr ⟨(x, o) :: as, y, i, bs, rfl, List.forall_mem_cons.2 ⟨ho, h⟩⟩
    · cases o with
      | res i => exact .inr ⟨[], x, i, qs, rfl, by simp⟩
      | _ => exact absurd rfl ho

theorem splitDescs (ds : List (Subject × List (XName × Object))) : (∀ d ∈ ds, ∀ q ∈ d.2, notRes q.2 = true) ∨
    ∃ es s as x i bs more, ds = es ++ (s, as ++ (x, .res i) :: bs) :: more ∧ (∀ d ∈ es, ∀ q ∈ d.2, notRes q.2 = true) ∧
      ∀ q ∈ as, notRes q.2 = true := by
  induction ds with
  | nil => exact .inl (by simp)
  | cons d ds ih =>
    obtain ⟨s, qs⟩ := d
    rcases splitProps qs with h | ⟨as, x, i, bs, rfl, h⟩
    · rcases ih with ih | ⟨es, s', as, x, i, bs, more, rfl, h1, h2⟩
      · exact .inl (List.forall_mem_cons.2 ⟨h, ih⟩)
      · exact .inr ⟨(s, qs) :: es, s', as, x, i, bs, more, rfl, List.forall_mem_cons.2 ⟨h, h1⟩, h2⟩
    · exact .inr ⟨[], s, as, x, i, bs, ds, rfl, by simp, h⟩

theorem rereadDescs_flat (pr : Char → Bool) (ds : List (Subject × List (XName × Object))) :
    rereadDescs pr nameText ds = (flatStmts ds).map (xmlRereadStmt pr) := by
  unfold rereadDescs flatStmts rereadProps
  rw [List.map_flatMap]
  apply List.flatMap_congr
  intro d _
  rw [List.map_map]
  apply List.map_congr_left
  intro q _
  rfl

theorem rereadProps_flat (pr : Char → Bool) (s : Subject) (qs : List (XName × Object)) :
    rereadProps pr nameText s qs = (flatStmts [(s, qs)]).map (xmlRereadStmt pr) := by
  rw [← rereadDescs_flat]
  simp [rereadDescs]

theorem flatStmts_append (a b : List (Subject × List (XName × Object))) : flatStmts (a ++ b) = flatStmts a ++ flatStmts b := by
  simp [flatStmts]

theorem flatStmts_first (es more : List (Subject × List (XName × Object))) (s : Subject) (as bs : List (XName × Object))
    (x : XName) (o : Object) : flatStmts (es ++ (s, as ++ (x, o) :: bs) :: more) =
      (flatStmts es ++ flatStmts [(s, as)]) ++ .mk s (nameText x) o :: (flatStmts [(s, bs)] ++ flatStmts more) := by
  simp [flatStmts, List.append_assoc]

/-- What is read for a literal has no type. -/
theorem xmlReread_lit {pr : Char → Bool} {o : Object} {l : Literal} (h : xmlReread pr o = .lit l) :
    l.dataType = none := by
  cases o with
  | lit l' =>
    simp only [xmlReread] at h
    split at h <;> injection h with h <;> subst h <;> rfl
  | blank _ => injection h with h; subst h; rfl
  | _ => cases h

theorem xmlBlank_eq (c : Char) : xmlBlank c = true ↔ c = ' ' := by simp [xmlBlank]

/-- The text that is read for a literal. -/
theorem xmlReread_text {pr : Char → Bool} {l l' : Literal} (h : xmlReread pr (.lit l) = .lit l') :
    l'.lexicalForm = escapeString pr (if l.lexicalForm.all xmlBlank then [] else l.lexicalForm) := by
  simp only [xmlReread] at h
  split at h <;> injection h with h <;> subst h <;> rfl

/-- Only a literal that is steady is read as it was. -/
theorem xmlSteady_of_fixed {pr : Char → Bool} {l : Literal} (h : xmlReread pr (.lit l) = .lit l) : XmlSteady pr (.lit l) := by
  have ht := xmlReread_text h
  refine ⟨xmlReread_lit h, ?_, ?_⟩
  · split at ht
    · rw [show l.lexicalForm = [] from ht]; rfl
    · exact ht.symm
  · split at ht
    · exact .inl ht
    · rename_i hb
      right
      apply Classical.byContradiction
      intro hn
      apply hb
      rw [List.all_eq_true]
      intro c hc
      rw [xmlBlank_eq]
      exact Classical.byContradiction fun e => hn ⟨c, hc, e⟩

/-- When every statement is read for some statement, and none has a blank node as its object, all
literals are steady. -/
theorem steady_of_back {pr : Char → Bool} (A : List Stmt)
    (hb : ∀ st ∈ A, ∀ b, st.object ≠ .blank b)
    (back : ∀ s p l, Stmt.mk s p (.lit l) ∈ A → ∃ x ∈ A, xmlRereadStmt pr x = .mk s p (.lit l)) :
    ∀ s p l, Stmt.mk s p (.lit l) ∈ A → XmlSteady pr (.lit l) := by
  have pre : ∀ s p l, Stmt.mk s p (.lit l) ∈ A → ∃ y, Stmt.mk s p (.lit y) ∈ A ∧ xmlReread pr (.lit y) = .lit l := by
    intro s p l hm
    obtain ⟨⟨s', p', o'⟩, hx, e⟩ := back _ _ _ hm
    injection e with ea eb ec
    simp only [Stmt.subject, Stmt.predicate, Stmt.object] at ea eb ec
    subst ea eb
    cases o' with
    | lit y => exact ⟨y, hx, ec⟩
    | blank b => exact absurd rfl (hb _ hx b)
    | _ => cases ec
  suffices ∀ k s p l, l.lexicalForm.length < k → Stmt.mk s p (.lit l) ∈ A → xmlReread pr (.lit l) = .lit l from
    fun s p l hm => xmlSteady_of_fixed (this _ s p l (Nat.lt_succ_self _) hm)
  intro k
  induction k with
  | zero => intro s p l hl; omega
  | succ k ih =>
    intro s p l hl hm
    obtain ⟨y, hy, e⟩ := pre s p l hm
    have ht := xmlReread_text e
    by_cases hbl : y.lexicalForm.all xmlBlank = true
    · rw [if_pos hbl] at ht
      refine xmlReread_steady ⟨xmlReread_lit e, ?_, .inl ht⟩
      rw [show l.lexicalForm = [] from ht]; rfl
    · rw [if_neg hbl] at ht
      have fixed : xmlReread pr (.lit y) = .lit y := by
        rcases escape_grows pr y.lexicalForm with e' | e'
        · obtain ⟨z, -, e2⟩ := pre s p y hy
          refine xmlReread_steady ⟨xmlReread_lit e2, e', .inr ?_⟩
          apply Classical.byContradiction
          intro hn
          apply hbl
          rw [List.all_eq_true]
          intro c hc
          rw [xmlBlank_eq]
          exact Classical.byContradiction fun e => hn ⟨c, hc, e⟩
        · exact ih s p y (by rw [ht] at hl; omega) hy
      rw [fixed] at e
      rw [← e]
      exact fixed

theorem reread_steadies {pr : Char → Bool} {A : List Stmt} (h : ∀ st ∈ A, XmlSteady pr st.object) :
    A.map (xmlRereadStmt pr) = A := by
  conv => rhs; rw [← List.map_id A]
  apply List.map_congr_left
  rintro ⟨s, p, x⟩ hst
  have := h _ hst
  simp only [xmlRereadStmt, Stmt.subject, Stmt.predicate, Stmt.object, id] at this ⊢
  rw [xmlReread_steady this]

theorem notRes_reread {pr : Char → Bool} {st : Stmt} {o : Object} (h : notRes st.object = true)
    (hr : ∃ env, ReadObject env st.object) (e : (xmlRereadStmt pr st).object = o) : ∃ l, o = .lit l := by
  obtain ⟨s, p, x⟩ := st
  simp only [xmlRereadStmt, Stmt.object] at e h hr
  cases x with
  | lit l =>
    simp only [xmlReread] at e
    split at e <;> exact ⟨_, e.symm⟩
  | blank b => exact ⟨_, e.symm⟩
  | res i => cases h
  | coll _ => obtain ⟨env, hr⟩ := hr; exact hr.elim
  | stmt _ => obtain ⟨env, hr⟩ := hr; exact hr.elim

theorem flatStmts_mem {ds : List (Subject × List (XName × Object))} {st : Stmt} (h : st ∈ flatStmts ds) :
    ∃ d ∈ ds, ∃ q ∈ d.2, st = .mk d.1 (nameText q.1) q.2 := by
  obtain ⟨d, hd, h⟩ := List.mem_flatMap.1 h
  obtain ⟨q, hq, rfl⟩ := List.mem_map.1 h
  exact ⟨d, hd, q, hq, rfl⟩

/-- A flat document that has no statement twice, and no subject with a label that the reader will
make, is read as its statements exactly when its literals are steady, no object is a blank node,
and only its last statement may have an IRI as its object. -/
theorem flat_iff (env : ReadEnv) (sty : IriStyle) (gen : Nat → Str) (n : Nat) (emit : Emit)
    (ds : List (Subject × List (XName × Object))) (hne : ∀ d ∈ ds, d.2 ≠ []) (hnd : (flatStmts ds).Nodup)
    (h : ∀ d ∈ ds, ReadSubject env d.1 ∧ ∀ q ∈ d.2, NameRead env q.1 (nameText q.1) ∧ ReadTerm env q.2)
    (fresh : ∀ st ∈ flatStmts ds, ∀ j, n ≤ j → st.subject ≠ .blank (gen j)) :
    (∃ k, readXml env sty gen n emit (flatIn ds) = .ok k ∧ ∀ st, st ∈ k.stmts ↔ st ∈ flatStmts ds) ↔
    (∀ st ∈ flatStmts ds, XmlSteady env.pr st.object ∨ ToIri st) ∧
      ∀ a st b, flatStmts ds = a ++ st :: b → ToIri st → b = [] := by
  rcases splitDescs ds with hno | ⟨es, s, as, x, i, bs, more, rfl, h1, h2⟩
  · have hr := readXml_flat (sty := sty) (gen := gen) (n := n) (emit := emit) (iri := nameText) (fun d hd => ⟨(h d hd).1, fun q hq =>
      ⟨((h d hd).2 q hq).1, ((h d hd).2 q hq).2.object (hno d hd q hq)⟩⟩)
    have hk := (foldl_insert_default (rereadDescs env.pr nameText ds)).1
    rw [rereadDescs_flat] at hk hr
    have hmem : ∀ st ∈ flatStmts ds, notRes st.object = true ∧ ReadObject env st.object := fun st hst => by
      obtain ⟨d, hd, q, hq, rfl⟩ := flatStmts_mem hst
      exact ⟨hno d hd q hq, ((h d hd).2 q hq).2.object (hno d hd q hq)⟩
    have hto : ∀ st ∈ flatStmts ds, ¬ToIri st := fun st hst ⟨i, e⟩ => by
      have := (hmem st hst).1
      rw [e] at this
      cases this
    constructor
    · rintro ⟨k, e, hset⟩
      rw [hr] at e
      injection e with e
      subst e
      rw [hk] at hset
      have hl : ∀ st ∈ flatStmts ds, ∃ l, st.object = .lit l := fun st hst => by
        obtain ⟨y, hy, e⟩ := List.mem_map.1 ((hset st).2 hst)
        exact notRes_reread (hmem y hy).1 ⟨env, (hmem y hy).2⟩ (congrArg Stmt.object e)
      have := steady_of_back (pr := env.pr) (flatStmts ds)
        (fun st hst b e => by obtain ⟨l, e'⟩ := hl st hst; rw [e] at e'; cases e')
        (fun s p l hm => by
          obtain ⟨y, hy, e⟩ := List.mem_map.1 ((hset _).2 hm)
          exact ⟨y, hy, e⟩)
      refine ⟨?_, fun a st b e ht => absurd ht (hto st (by rw [e]; simp))⟩
      rintro ⟨s, p, o⟩ hst
      obtain ⟨l, e⟩ := hl _ hst
      simp only [Stmt.object] at e
      subst e
      exact .inl (this _ _ _ hst)
    · rintro ⟨hs, -⟩
      refine ⟨_, hr, fun st => ?_⟩
      rw [hk, reread_steadies fun st hst => (hs st hst).resolve_right (hto st hst)]
  · have hes : ∀ d ∈ es, ReadSubject env d.1 ∧ ∀ q ∈ d.2, NameRead env q.1 (nameText q.1) ∧ ReadObject env q.2 := fun d hd =>
      have hd' := h d (List.mem_append_left _ hd)
      ⟨hd'.1, fun q hq => ⟨(hd'.2 q hq).1, (hd'.2 q hq).2.object (h1 d hd q hq)⟩⟩
    have hs := h (s, as ++ (x, .res i) :: bs) (List.mem_append_right _ List.mem_cons_self)
    have has : ∀ q ∈ as, NameRead env q.1 (nameText q.1) ∧ ReadObject env q.2 := fun q hq =>
      have hq' := hs.2 q (List.mem_append_left _ hq)
      ⟨hq'.1, hq'.2.object (h2 q hq)⟩
    have hx := hs.2 (x, .res i) (List.mem_append_right _ List.mem_cons_self)
    have hi : IriRead env i := by
      rcases hx.2 with h | ⟨j, e, hj⟩
      · exact h.elim
      · injection e with e; rw [e]; exact hj
    have hbs : ∀ q ∈ bs, NameRead env q.1 (nameText q.1) ∧ ReadTerm env q.2 := fun q hq =>
      hs.2 q (List.mem_append_right _ (List.mem_cons_of_mem _ hq))
    have hmore : ∀ d ∈ more, ReadSubject env d.1 := fun d hd => (h d (List.mem_append_right _ (List.mem_cons_of_mem _ hd))).1
    have hr := readXml_first (sty := sty) (gen := gen) (n := n) (emit := emit) hes hs.1 has hx.1 hi hbs hmore
    have hpre : ∀ st ∈ flatStmts es ++ flatStmts [(s, as)], notRes st.object = true ∧ ReadObject env st.object := fun st hst => by
      rcases List.mem_append.1 hst with hst | hst
      · obtain ⟨d, hd, q, hq, rfl⟩ := flatStmts_mem hst
        exact ⟨h1 d hd q hq, ((hes d hd).2 q hq).2⟩
      · obtain ⟨d, hd, q, hq, rfl⟩ := flatStmts_mem hst
        rw [List.mem_singleton.1 hd] at hq
        exact ⟨h2 q hq, (has q hq).2⟩
    rw [rereadDescs_flat, rereadProps_flat, ← List.map_append] at hr
    rw [flatStmts_first] at hnd fresh ⊢
    generalize flatStmts es ++ flatStmts [(s, as)] = A at hr hnd fresh hpre ⊢
    have hto : ∀ st ∈ A, ¬ToIri st := fun st hst ⟨i, e⟩ => by
      have := (hpre st hst).1
      rw [e] at this
      cases this
    have tail : ∀ T : List Stmt, (∀ a st b, A ++ .mk s (nameText x) (.res i) :: T = a ++ st :: b → ToIri st → b = []) ↔ T = [] := by
      intro T
      constructor
      · intro hb
        exact hb A _ T rfl ⟨i, rfl⟩
      · rintro rfl a st b e ⟨j, hj⟩
        rcases List.append_eq_append_iff.1 e with ⟨a', rfl, e'⟩ | ⟨c', rfl, e'⟩
        · cases a' with
          | nil => simp only [List.nil_append, List.cons.injEq] at e'; exact e'.2.symm
          | cons y a' => simp at e'
        · cases c' with
          | nil => simp only [List.nil_append, List.cons.injEq] at e'; exact e'.2
          | cons y c' =>
            simp only [List.cons_append, List.cons.injEq] at e'
            exact absurd ⟨j, hj⟩ (hto st (by rw [e'.1]; simp))
    have empties : flatStmts [(s, bs)] ++ flatStmts more = [] ↔ bs = [] ∧ more = [] := by
      constructor
      · intro e
        rw [List.append_eq_nil_iff] at e
        refine ⟨by simpa [flatStmts] using e.1, ?_⟩
        cases more with
        | nil => rfl
        | cons d more =>
          have hd := hne d (by simp)
          have := e.2
          simp only [flatStmts, List.flatMap_cons, List.append_eq_nil_iff, List.map_eq_nil_iff] at this
          exact absurd this.1 hd
      · rintro ⟨rfl, rfl⟩; rfl
    rw [tail, empties]
    constructor
    · rintro ⟨k, e, hset⟩
      rcases hr with ⟨-, hr⟩ | ⟨rfl, L, k', hL, -, hr, rfl⟩
      · rw [hr] at e; exact absurd e (by simp)
      rw [hr] at e
      injection e with e
      subst e
      rw [(foldl_insert_default _).1] at hset
      have hnb : ∀ st ∈ A ++ Stmt.mk s (nameText x) (.res i) :: (flatStmts [(s, bs)] ++ flatStmts []), ∀ b, st.object ≠ .blank b := by
        intro st hst b e
        rcases List.mem_append.1 ((hset st).2 hst) with hm | hm
        · obtain ⟨y, hy, rfl⟩ := List.mem_map.1 hm
          obtain ⟨l, e'⟩ := notRes_reread (hpre y hy).1 ⟨env, (hpre y hy).2⟩ rfl
          rw [e] at e'; cases e'
        · rcases List.mem_cons.1 hm with rfl | hm
          · cases e
          · obtain ⟨b', j, rfl, -⟩ := hL st hm
            cases e
      have hL0 : L = [] := by
        cases L with
        | nil => rfl
        | cons t L =>
          obtain ⟨b, j, e, hb⟩ := hL t List.mem_cons_self
          have hm := (hset t).1 (by simp)
          rcases hb with ⟨c, hc, rfl⟩ | ⟨q, hq, hqb⟩
          · exact absurd (by rw [e]; rfl) (fresh t hm c hc)
          · refine absurd hqb (hnb (.mk s (nameText q.1) q.2) ?_ b)
            simp only [List.mem_append, List.mem_cons]
            exact .inr (.inr (.inl (List.mem_flatMap.2 ⟨_, List.mem_singleton.2 rfl, List.mem_map.2 ⟨q, hq, rfl⟩⟩)))
      subst hL0
      have hbs0 : bs = [] := by
        have hle := (List.subperm_of_subset hnd fun st hst => (hset st).2 hst).length_le
        simp [flatStmts] at hle
        simpa using hle
      subst hbs0
      refine ⟨?_, rfl, rfl⟩
      have hst := steady_of_back (pr := env.pr) A (fun st hst => hnb st (List.mem_append_left _ hst)) (fun s' p l hm => by
        rcases List.mem_append.1 ((hset _).2 (List.mem_append_left _ hm)) with hm | hm
        · exact List.mem_map.1 hm
        · simp at hm)
      rintro ⟨s', p, o⟩ hm
      rcases List.mem_append.1 hm with hm' | hm'
      · left
        have hn := (hpre _ hm').1
        have hro := (hpre _ hm').2
        have hb := hnb _ hm
        simp only [Stmt.object] at hn hb hro ⊢
        cases o with
        | lit l => exact hst _ _ _ hm'
        | blank b => exact absurd rfl (hb b)
        | res _ => cases hn
        | coll _ => exact hro.elim
        | stmt _ => exact hro.elim
      · right
        simp [flatStmts] at hm'
        exact ⟨i, hm'.2.2⟩
    · rintro ⟨hsteady, rfl, rfl⟩
      have hA : A.map (xmlRereadStmt env.pr) = A := reread_steadies fun st hst =>
        (hsteady st (List.mem_append_left _ hst)).resolve_right (hto st hst)
      rcases hr with ⟨hn, -⟩ | ⟨-, L, k', -, hL, hr, rfl⟩
      · simp at hn
      · refine ⟨_, hr, fun st => ?_⟩
        rw [(foldl_insert_default _).1, hL rfl, hA]
        simp [flatStmts]

theorem visit_flat (o : Orders) (hf : o.Fair) (g : Graph) (hg : ∀ st ∈ g.stmts, XmlStmt st) :
    flatStmts (graphDescs o g) = g.visit o := by
  unfold flatStmts graphDescs Graph.visit
  rw [List.flatMap_map]
  apply List.flatMap_congr
  intro s _
  dsimp only
  rw [List.map_flatMap]
  apply List.flatMap_congr
  intro p hp
  rw [List.map_map]
  apply List.map_congr_left
  intro x _
  obtain ⟨y, hy⟩ := xml_predicatesFor.1 ((hf.2.1 s _).mem_iff.1 hp)
  obtain ⟨ns, name, h1, _, _, _, _, h6, _⟩ := xmlProperty_names (hg _ hy).2.1
  have h6' : propName p = ⟨some ns, name⟩ := h6
  have h1' : ns ++ name = p.text := h1.1
  simp [nameText, h6', h1']

/-- C76, exactly: a graph of readable statements, no subject of which has a label that the reader
will make, comes back from its flat document just when its literals have no type and texts that
are neither escaped nor blank, no object is a blank node, and at most one object is an IRI, that of
the statement written last. -/
theorem C76_iff (env : ReadEnv) (emit : Emit) (gen gen' : Nat → Str) (n m : Nat) (enc : Str) (o : Orders)
    (hf : o.Fair) (d : Nat) (g : Graph) (hg : XmlGraph o (g.simplify gen n).1)
    (hr : ∀ st ∈ (g.simplify gen n).1.stmts, ReadSubject env st.subject ∧ IriRead env st.predicate ∧ ReadTerm env st.object)
    (fresh : ∀ st ∈ (g.simplify gen n).1.stmts, ∀ j, m ≤ j → st.subject ≠ .blank (gen' j)) (es : List XmlOut)
    (he : writeXml gen n .bare true enc o d g = .ok es) :
    (∃ ins h, deliver es = some ins ∧ readXml env .bare gen' m emit ins = .ok h ∧
      ∀ st, st ∈ h.stmts ↔ st ∈ (g.simplify gen n).1.stmts) ↔
    (∀ st ∈ (g.simplify gen n).1.stmts, XmlSteady env.pr st.object ∨ ToIri st) ∧
      ∀ a st b, (g.simplify gen n).1.visit o = a ++ st :: b → ToIri st → b = [] := by
  have hv := visit_flat o hf _ hg.stmts
  have hm := visit_mem hf (g.simplify gen n).1
  have key := flat_iff env .bare gen' m emit (graphDescs o (g.simplify gen n).1) ?_ ?_ ?_ ?_
  · rw [hv] at key
    simp only [hm] at key
    rw [← key, ← graphIn_flat]
    constructor
    · rintro ⟨ins, h, e, h1, h2⟩
      rw [writeXml_delivers hf hg he] at e
      injection e with e
      subst e
      exact ⟨h, h1, h2⟩
    · rintro ⟨h, h1, h2⟩
      exact ⟨_, h, writeXml_delivers hf hg he, h1, h2⟩
  · intro x hx e
    obtain ⟨s, hs, rfl⟩ := List.mem_map.1 hx
    obtain ⟨⟨s', p, y⟩, hst, rfl⟩ := xml_subjects.1 ((hf.1 _).mem_iff.1 hs)
    have hp : p ∈ o.pred s' ((g.simplify gen n).1.predicatesFor s') := (hf.2.1 _ _).mem_iff.2 (xml_predicatesFor.2 ⟨y, hst⟩)
    have hy : y ∈ o.obj s' p ((g.simplify gen n).1.objectsFor s' p) := (hf.2.2 _ _ _).mem_iff.2 (xml_objectsFor.2 hst)
    have : (propName p, y) ∈ ([] : List (XName × Object)) := by
      rw [← e]
      exact List.mem_flatMap.2 ⟨p, hp, List.mem_map.2 ⟨y, hy, rfl⟩⟩
    cases this
  · rw [hv]; exact visit_nodup hf _
  · intro x hx
    obtain ⟨s, hs, rfl⟩ := List.mem_map.1 hx
    obtain ⟨st, hst, rfl⟩ := xml_subjects.1 ((hf.1 _).mem_iff.1 hs)
    refine ⟨(hr st hst).1, fun q hq => ?_⟩
    obtain ⟨p, hp, hq⟩ := List.mem_flatMap.1 hq
    obtain ⟨x, hx, rfl⟩ := List.mem_map.1 hq
    have hst' := xml_objectsFor.1 ((hf.2.2 _ _ _).mem_iff.1 hx)
    obtain ⟨ns, name, h1, _, _, _, _, h6, _⟩ := xmlProperty_names (hg.stmts _ hst').2.1
    have h6' : propName p = ⟨some ns, name⟩ := h6
    have h1' : ns ++ name = p.text := h1.1
    have hr' := hr _ hst'
    refine ⟨⟨?_, ns, by simp [h6'], by simp [h6', nameText, h1']⟩, hr'.2.2⟩
    simp only [nameText, h6', Option.getD_some, h1']
    exact hr'.2.1
  · intro st hst
    rw [hv, hm] at hst
    exact fresh st hst

/-- C77, exactly, for flat documents that have no statement twice and no subject with a label that
the reader will make. -/
theorem C77_flat_iff (env : ReadEnv) (sty : IriStyle) (gen : Nat → Str) (n : Nat) (emit : Emit)
    (ds : List (Subject × List (XName × Object))) (hne : ∀ d ∈ ds, d.2 ≠ []) (hnd : (flatStmts ds).Nodup)
    (h : ∀ d ∈ ds, XmlSubjectOk d.1 ∧ ReadSubject env d.1 ∧
      ∀ q ∈ d.2, propertyIri q.1 = some (nameText q.1) ∧ IriRead env (nameText q.1) ∧ XmlObject q.2 ∧ ReadTerm env q.2)
    (fresh : ∀ st ∈ flatStmts ds, ∀ j, n ≤ j → st.subject ≠ .blank (gen j)) :
    RdfXml gen n (flatIn ds) (flatStmts ds) ∧
    ((∃ k, readXml env sty gen n emit (flatIn ds) = .ok k ∧ ∀ st, st ∈ k.stmts ↔ st ∈ flatStmts ds) ↔
    (∀ st ∈ flatStmts ds, XmlSteady env.pr st.object ∨ ToIri st) ∧
      ∀ a st b, flatStmts ds = a ++ st :: b → ToIri st → b = []) := by
  refine ⟨rdfXml_flat gen n ds fun d hd => ⟨(h d hd).1, fun q hq => ⟨((h d hd).2.2 q hq).1, ((h d hd).2.2 q hq).2.2.1⟩⟩,
    flat_iff env sty gen n emit ds hne hnd (fun d hd => ⟨(h d hd).2.1, fun q hq => ?_⟩) fresh⟩
  obtain ⟨h4, h5, _, h6⟩ := (h d hd).2.2 q hq
  refine ⟨⟨h5, ?_⟩, h6⟩
  cases e : q.1.ns with
  | none =>
    unfold propertyIri nameIri at h4
    rw [e] at h4
    split at h4 <;> cases h4
  | some ns => exact ⟨ns, rfl, by simp [nameText, e]⟩

/-- A document with one IRI as an object comes back, and one with two does not. -/
example (emit : Emit) :
    (∃ k, readXml easyEnv .bare blankGen 0 emit (flatIn [(.res ⟨str! "http://a/s"⟩, [(⟨some (str! "http://a/"), str! "p"⟩, .res ⟨str! "http://a/s"⟩)])]) = .ok k ∧
      ∀ st, st ∈ k.stmts ↔ st ∈ flatStmts [(.res ⟨str! "http://a/s"⟩, [(⟨some (str! "http://a/"), str! "p"⟩, .res ⟨str! "http://a/s"⟩)])]) ∧
    ¬∃ k, readXml easyEnv .bare blankGen 0 emit (flatIn [(.res ⟨str! "http://a/s"⟩, [(⟨some (str! "http://a/"), str! "p"⟩, .res ⟨str! "http://a/s"⟩), (⟨some (str! "http://a/"), str! "q"⟩, .res ⟨str! "http://a/s"⟩)])]) = .ok k ∧
      ∀ st, st ∈ k.stmts ↔ st ∈ flatStmts [(.res ⟨str! "http://a/s"⟩, [(⟨some (str! "http://a/"), str! "p"⟩, .res ⟨str! "http://a/s"⟩), (⟨some (str! "http://a/"), str! "q"⟩, .res ⟨str! "http://a/s"⟩)])] := by
  have r : IriRead easyEnv ⟨str! "http://a/s"⟩ := easyEnv_reads _ (by decide)
  have np : NameRead easyEnv ⟨some (str! "http://a/"), str! "p"⟩ (nameText ⟨some (str! "http://a/"), str! "p"⟩) :=
    ⟨easyEnv_reads _ (by decide), _, rfl, rfl⟩
  have nq : NameRead easyEnv ⟨some (str! "http://a/"), str! "q"⟩ (nameText ⟨some (str! "http://a/"), str! "q"⟩) :=
    ⟨easyEnv_reads _ (by decide), _, rfl, rfl⟩
  constructor
  · rw [flat_iff easyEnv .bare blankGen 0 emit]
    · refine ⟨?_, ?_⟩
      · intro st hst
        rw [List.mem_singleton.1 hst]
        exact .inr ⟨_, rfl⟩
      · intro a st b e _
        have := congrArg List.length e
        simp [flatStmts] at this
        exact List.eq_nil_of_length_eq_zero (by omega)
    · simp
    · exact List.nodup_singleton _
    · intro d hd
      rw [List.mem_singleton.1 hd]
      refine ⟨r, fun q hq => ?_⟩
      rw [List.mem_singleton.1 hq]
      exact ⟨np, .inr ⟨_, rfl, r⟩⟩
    · intro st hst
      rw [List.mem_singleton.1 hst]
      intro j _ h
      cases h
  · rw [flat_iff easyEnv .bare blankGen 0 emit]
    · rintro ⟨-, h⟩
      have := h [] _ _ rfl ⟨_, rfl⟩
      cases this
    · simp
    · simp [flatStmts, nameText]
    · intro d hd
      rw [List.mem_singleton.1 hd]
      refine ⟨r, fun q hq => ?_⟩
      rcases List.mem_cons.1 hq with rfl | hq
      · exact ⟨np, .inr ⟨_, rfl, r⟩⟩
      · rw [List.mem_singleton.1 hq]
        exact ⟨nq, .inr ⟨_, rfl, r⟩⟩
    · intro st hst j _ h
      rcases List.mem_cons.1 hst with rfl | hst
      · cases h
      · rw [List.mem_singleton.1 hst] at h
        cases h

end Rdftk
