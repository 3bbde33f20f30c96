import Verif.Lemmas.Dot
import Verif.Lemmas.Iri

/-! The identifiers the Graphviz writer gives. -/

namespace Rdftk

open Spec

/-- Nodes that get a place in the map. -/
def Drawable : Object → Prop
  | .blank _ | .res _ | .lit _ => True
  | _ => False

/-- The entry of a node. -/
def dotEntry (sty : IriStyle) (id : Str) : Object → DotNode
  | .blank b => ⟨id, .blank, b⟩
  | .res i => ⟨id, .iri, i.fmt sty⟩
  | .lit l => ⟨id, .literal, l.lexicalForm⟩
  | _ => ⟨id, .blank, []⟩

/-- The map for nodes in the order of insertion, numbered after `n`. -/
def entriesFrom (sty : IriStyle) (n : Nat) : List Object → DotNodes
  | [] => []
  | o :: l => (o.display sty false, dotEntry sty (Nat.toDigits 10 (n + 1)) o) :: entriesFrom sty (n + 1) l

theorem entriesFrom_append (sty : IriStyle) (n : Nat) (a b : List Object) :
    entriesFrom sty n (a ++ b) = entriesFrom sty n a ++ entriesFrom sty (n + a.length) b := by
  induction a generalizing n with
  | nil => simp [entriesFrom]
  | cons o a ih =>
    simp only [List.cons_append, entriesFrom, ih, List.length_cons]
    congr 3
    omega

theorem entriesFrom_length (sty : IriStyle) (n : Nat) (l : List Object) :
    (entriesFrom sty n l).length = l.length := by
  induction l generalizing n with
  | nil => rfl
  | cons o l ih => simp [entriesFrom, ih]

theorem Subject.display_toObject (sty : IriStyle) (s : Subject) :
    s.toObject.display sty false = s.display sty := by
  cases s <;> simp [Subject.toObject, Subject.display, Object.display]

theorem dotSubjectId_eq (sty : IriStyle) (m : DotNodes) (s : Subject) :
    dotSubjectId sty m s = dotObjectId sty m s.toObject := by
  unfold dotSubjectId dotObjectId
  rw [Subject.display_toObject]
  cases s <;> simp [Subject.toObject, Subject.display, Object.display]

/-- The displays of the nodes tell them apart. -/
def KeysDiffer (sty : IriStyle) (l : List Object) : Prop :=
  ∀ a ∈ l, ∀ b ∈ l, a.display sty false = b.display sty false → a = b

theorem dotGet_not_mem {sty : IriStyle} {L : List Object} {o : Object} (n : Nat)
    (h : ∀ a ∈ L, a.display sty false ≠ o.display sty false) :
    dotGet (entriesFrom sty n L) (o.display sty false) = none := by
  induction L generalizing n with
  | nil => rfl
  | cons a L ih =>
    have := ih (n + 1) fun b hb => h b (by simp [hb])
    simp only [dotGet, entriesFrom, Option.map_eq_none_iff] at this ⊢
    rw [List.find?_cons, beq_eq_false_iff_ne.2 (h a (by simp))]
    exact this

theorem dotGet_mem {sty : IriStyle} {L : List Object} {o : Object} (n : Nat) (hm : o ∈ L)
    (h : ∀ a ∈ L, a.display sty false = o.display sty false → a = o) :
    dotGet (entriesFrom sty n L) (o.display sty false) =
      some (dotEntry sty (Nat.toDigits 10 (n + L.idxOf o + 1)) o) := by
  induction L generalizing n with
  | nil => simp at hm
  | cons a L ih =>
    by_cases e : a = o
    · subst e
      simp [dotGet, entriesFrom]
    · have hm' : o ∈ L := by
        rcases List.mem_cons.1 hm with x | x
        · exact absurd x.symm e
        · exact x
      have := ih (n + 1) hm' fun b hb => h b (by simp [hb])
      have ne : a.display sty false ≠ o.display sty false := fun x => e (h a (by simp) x)
      unfold dotGet at this ⊢
      rw [entriesFrom, List.find?_cons]
      simp only [ne, beq_iff_eq, beq_eq_false_iff_ne.2 ne]
      rw [this]
      rw [List.idxOf_cons_ne _ e]
      congr 3
      omega

/-- The identifier of a node in a list of nodes. -/
def dotIdIn (L : List Object) (o : Object) : Str := Nat.toDigits 10 (L.idxOf o + 1)

theorem dotEntry_id (sty : IriStyle) (id : Str) (o : Object) : (dotEntry sty id o).id = id := by
  cases o <;> rfl

theorem dotObjectId_eq {sty : IriStyle} {L : List Object} {o : Object} (hd : Drawable o)
    (hk : KeysDiffer sty (o :: L)) :
    dotObjectId sty (entriesFrom sty 0 L) o =
      (dotIdIn (setInsert L o) o, entriesFrom sty 0 (setInsert L o)) := by
  unfold dotObjectId setInsert
  by_cases hm : o ∈ L
  · rw [dotGet_mem 0 hm fun a ha e => hk a (by simp [ha]) o (by simp) e]
    simp only [hm, if_true, dotEntry_id, dotIdIn, Nat.zero_add]
  · have hn : ∀ a ∈ L, a.display sty false ≠ o.display sty false := fun a ha e =>
      hm (hk a (List.mem_cons_of_mem _ ha) o (by simp) e ▸ ha)
    rw [dotGet_not_mem 0 hn]
    simp only [hm, if_false]
    have e1 : dotNextId (entriesFrom sty 0 L) = dotIdIn (L ++ [o]) o := by
      unfold dotNextId dotIdIn
      rw [entriesFrom_length, List.idxOf_append_of_notMem hm]
      simp
    have e2 : entriesFrom sty 0 (L ++ [o]) = entriesFrom sty 0 L ++
        [(o.display sty false, dotEntry sty (dotIdIn (L ++ [o]) o) o)] := by
      rw [entriesFrom_append, ← e1]
      simp [entriesFrom, dotNextId, entriesFrom_length]
    rw [e1, e2]
    cases o <;> simp_all [Drawable, dotEntry]

theorem dotIdIn_prefix {L L' : List Object} {o : Object} (h : L <+: L') (hm : o ∈ L) :
    dotIdIn L' o = dotIdIn L o := by
  obtain ⟨t, rfl⟩ := h
  unfold dotIdIn
  rw [List.idxOf_append_of_mem hm]

theorem setInsert_prefix {α : Type _} [DecidableEq α] (l : List α) (a : α) : l <+: setInsert l a := by
  unfold setInsert
  split
  · exact List.prefix_refl _
  · exact List.prefix_append _ _

theorem setExtend_prefix {α : Type _} [DecidableEq α] (l as : List α) : l <+: setExtend l as := by
  unfold setExtend
  induction as generalizing l with
  | nil => exact List.prefix_refl _
  | cons a as ih => exact (setInsert_prefix l a).trans (ih _)

theorem mem_setInsert_self {α : Type _} [DecidableEq α] (l : List α) (a : α) : a ∈ setInsert l a :=
  mem_setInsert.2 (.inr rfl)

/-- The nodes of statements, with repetitions. -/
def endsOf (sts : List Stmt) : List Object := sts.flatMap fun st => [st.subject.toObject, st.object]

theorem dotEdgeLabel_eq {sty : IriStyle} {pm : PrefixMap} {p : Iri} {l : Str}
    (h : dotEdgeLabel sty pm p = .ok l) : l = edgeLabel sty pm p := by
  unfold dotEdgeLabel at h
  unfold edgeLabel
  cases hc : pm.compress p with
  | panic => rw [hc] at h; cases h
  | ok q =>
    rw [hc] at h
    cases q with
    | none => exact (Outcome.ok.inj h).symm
    | some q => exact (Outcome.ok.inj h).symm

/-- The loop over the statements. -/
theorem dotEdges_eq {sty : IriStyle} {opts : DotOptions} {pm : PrefixMap} {sts : List Stmt}
    {L : List Object} {text : Str} {m' : DotNodes} (hd : ∀ o ∈ endsOf sts, Drawable o)
    (hk : KeysDiffer sty (L ++ endsOf sts))
    (h : dotEdges sty opts pm (entriesFrom sty 0 L) sts = .ok (text, m')) :
    m' = entriesFrom sty 0 (setExtend L (endsOf sts)) ∧
    ∀ L', setExtend L (endsOf sts) <+: L' →
      text = sts.flatMap fun st => dotEdge opts (dotIdIn L' st.subject.toObject) (dotIdIn L' st.object)
        (edgeLabel sty pm st.predicate) := by
  induction sts generalizing L text m' with
  | nil =>
    simp only [dotEdges, Outcome.ok.injEq, Prod.mk.injEq] at h
    obtain ⟨rfl, rfl⟩ := h
    exact ⟨rfl, fun _ _ => rfl⟩
  | cons st sts ih =>
    have ends : endsOf (st :: sts) = st.subject.toObject :: st.object :: endsOf sts := rfl
    rw [ends] at hk hd ⊢
    have k1 : KeysDiffer sty (st.subject.toObject :: L) := by
      intro a ha b hb
      refine hk a ?_ b ?_ <;> simp_all <;> grind
    have e1 := dotObjectId_eq (hd _ (by simp)) k1
    have k2 : KeysDiffer sty (st.object :: setInsert L st.subject.toObject) := by
      intro a ha b hb
      simp only [List.mem_cons, mem_setInsert] at ha hb
      refine hk a ?_ b ?_ <;> simp only [List.mem_append, List.mem_cons] <;> grind
    have e2 := dotObjectId_eq (hd _ (by simp)) k2
    have k3 : KeysDiffer sty (setInsert (setInsert L st.subject.toObject) st.object ++ endsOf sts) := by
      intro a ha b hb
      simp only [List.mem_append, mem_setInsert] at ha hb
      refine hk a ?_ b ?_ <;> simp only [List.mem_append, List.mem_cons] <;> grind
    simp only [dotEdges, dotSubjectId_eq, e1, e2] at h
    cases hl : dotEdgeLabel sty pm st.predicate with
    | panic => rw [hl] at h; cases h
    | ok label =>
      rw [hl] at h
      dsimp only at h
      cases hr : dotEdges sty opts pm
          (entriesFrom sty 0 (setInsert (setInsert L st.subject.toObject) st.object)) sts with
      | panic => rw [hr] at h; cases h
      | ok r =>
        obtain ⟨t', m2⟩ := r
        rw [hr] at h
        simp only [Outcome.ok.injEq, Prod.mk.injEq] at h
        obtain ⟨rfl, rfl⟩ := h
        obtain ⟨i1, i2⟩ := ih (fun o ho => hd o (by simp [ho])) k3 hr
        have ee : setExtend L (st.subject.toObject :: st.object :: endsOf sts) =
          setExtend (setInsert (setInsert L st.subject.toObject) st.object) (endsOf sts) := rfl
        refine ⟨by rw [ee]; exact i1, ?_⟩
        intro L' hL
        rw [ee] at hL
        have p2 := (setExtend_prefix _ _).trans hL
        have p1 := (setInsert_prefix _ _).trans p2
        rw [List.flatMap_cons, i2 L' hL, dotIdIn_prefix p1 (mem_setInsert_self _ _),
          dotIdIn_prefix p2 (mem_setInsert_self _ _), dotEdgeLabel_eq hl]

theorem setOf_endsOf (sts : List Stmt) : setExtend [] (endsOf sts) = nodesOf sts := rfl

theorem digits_inj {a b : Nat} (h : Nat.toDigits 10 a = Nat.toDigits 10 b) : a = b := toDigits_inj h

theorem dotIdIn_inj {L : List Object} {a b : Object} (ha : a ∈ L)
    (h : dotIdIn L a = dotIdIn L b) : a = b := by
  have := digits_inj h
  exact (List.idxOf_inj ha).1 (by omega)

end Rdftk
