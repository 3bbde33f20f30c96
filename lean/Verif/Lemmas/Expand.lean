import Mathlib.Data.List.Nodup
import Verif.Model.Expand
import Verif.Lemmas.Graph
import Verif.Spec.RdfList

/-! Facts about the expansion of collections and nested statements. -/

namespace Rdftk
open Spec

/-! ### Lists -/

theorem IsList.mono {sts sts' : List Stmt} (h : ∀ t ∈ sts, t ∈ sts') {s : Subject}
    {os : List Object} (hl : IsList sts s os) : IsList sts' s os := by
  induction hl with
  | nil => exact .nil
  | cons a b c _ ih => exact .cons (h _ a) (h _ b) (h _ c) ih

theorem Subject.toObject_inj {a b : Subject} (h : a.toObject = b.toObject) : a = b := by
  cases a <;> cases b <;> simp_all [Subject.toObject]

/-- A list has one reading when cells have one `first` and one `rest` and `nil` has none. -/
theorem IsList.unique {sts : List Stmt}
    (hf : ∀ s o o', Stmt.mk s (rdf (str! "first")) o ∈ sts →
      Stmt.mk s (rdf (str! "first")) o' ∈ sts → o = o')
    (hr : ∀ s o o', Stmt.mk s (rdf (str! "rest")) o ∈ sts →
      Stmt.mk s (rdf (str! "rest")) o' ∈ sts → o = o')
    (hn : ∀ p o, Stmt.mk (.res (rdf (str! "nil"))) p o ∉ sts)
    {s : Subject} {os os' : List Object} (h : IsList sts s os) (h' : IsList sts s os') :
    os = os' := by
  induction h generalizing os' with
  | nil =>
    cases h' with
    | nil => rfl
    | cons a _ _ _ => exact absurd a (hn _ _)
  | cons a b c _ ih =>
    cases h' with
    | nil => exact absurd a (hn _ _)
    | cons a' b' c' d' =>
      have e1 := hf _ _ _ b b'
      have e2 := Subject.toObject_inj (hr _ _ _ c c')
      subst e1; subst e2
      rw [ih d']

theorem collCells_count (gen : Nat → Str) (b : Str) (n : Nat) (o : Object) (os : List Object) :
    (collCells gen b n (o :: os)).2 = n + os.length ∧
    (collCells gen b n (o :: os)).1.length = 3 * (os.length + 1) := by
  induction os generalizing b n o with
  | nil => simp [collCells]
  | cons o' os ih =>
    have := ih (gen n) (n + 1) o'
    simp only [collCells]
    rw [this.1]
    refine ⟨by simp; omega, ?_⟩
    simp only [List.length_append, this.2, List.length_cons, List.length_nil]; omega

theorem collCells_subject (gen : Nat → Str) (b : Str) (n : Nat) (os : List Object) (t : Stmt)
    (h : t ∈ (collCells gen b n os).1) :
    t.subject = .blank b ∨ ∃ j, n ≤ j ∧ j < n + os.length - 1 ∧ t.subject = .blank (gen j) := by
  match os with
  | [] => simp [collCells] at h
  | [o] =>
    simp [collCells] at h
    rcases h with rfl | rfl | rfl <;> exact .inl rfl
  | o :: o' :: os =>
    simp only [collCells, List.cons_append, List.nil_append, List.mem_cons] at h
    rcases h with rfl | rfl | rfl | h
    · exact .inl rfl
    · exact .inl rfl
    · exact .inl rfl
    · right
      rcases collCells_subject gen (gen n) (n + 1) (o' :: os) t h with h | ⟨j, h1, h2, h3⟩
      · exact ⟨n, Nat.le_refl n, by simp, h⟩
      · exact ⟨j, by omega, by simp at h2 ⊢; omega, h3⟩

theorem collCells_isList (gen : Nat → Str) (b : Str) (n : Nat) (o : Object) (os : List Object) :
    IsList (collCells gen b n (o :: os)).1 (.blank b) (o :: os) := by
  induction os generalizing b n o with
  | nil =>
    refine .cons (r := .res (rdf (str! "nil"))) ?_ ?_ ?_ .nil <;>
      simp [collCells, rdfType, rdfList, rdfFirst, rdfRest, rdfNil, rdf, rdfIri, Subject.toObject]
  | cons o' os ih =>
    refine .cons (r := .blank (gen n)) ?_ ?_ ?_
      (IsList.mono ?_ (ih (gen n) (n + 1) o'))
    · simp [collCells, rdfType, rdfList, rdf, rdfIri]
    · simp [collCells, rdfFirst, rdf, rdfIri]
    · simp [collCells, rdfRest, rdf, rdfIri, Subject.toObject]
    · intro t ht
      simp only [collCells]
      exact List.mem_append.2 (.inr ht)

theorem rdfFirst_eq : rdf (str! "first") = rdfFirst := rfl
theorem rdfRest_eq : rdf (str! "rest") = rdfRest := rfl

/-- Each cell has at most one value for each predicate. -/
theorem collCells_functional (gen : Nat → Str) (hg : ∀ i j, gen i = gen j → i = j)
    (b : Str) (n : Nat) (hb : ∀ j, n ≤ j → gen j ≠ b) (os : List Object) (s : Subject) (p : Iri)
    (o o' : Object) (h : Stmt.mk s p o ∈ (collCells gen b n os).1)
    (h' : Stmt.mk s p o' ∈ (collCells gen b n os).1) : o = o' := by
  have d1 : rdfType ≠ rdfFirst := by decide +kernel
  have d2 : rdfType ≠ rdfRest := by decide +kernel
  have d3 : rdfFirst ≠ rdfRest := by decide +kernel
  match os with
  | [] => simp [collCells] at h
  | [x] =>
    simp only [collCells, List.mem_cons, List.not_mem_nil, or_false, Stmt.mk.injEq] at h h'
    rcases h with ⟨_, e, rfl⟩ | ⟨_, e, rfl⟩ | ⟨_, e, rfl⟩ <;>
      rcases h' with ⟨_, e', rfl⟩ | ⟨_, e', rfl⟩ | ⟨_, e', rfl⟩ <;>
      first
        | rfl
        | exact absurd (e.symm.trans e') d1
        | exact absurd (e.symm.trans e') d2
        | exact absurd (e.symm.trans e') d3
        | exact absurd (e'.symm.trans e) d1
        | exact absurd (e'.symm.trans e) d2
        | exact absurd (e'.symm.trans e) d3
  | x :: x' :: os =>
    have hfree : ∀ p o, Stmt.mk (.blank b) p o ∉ (collCells gen (gen n) (n + 1) (x' :: os)).1 := by
      intro p o hm
      rcases collCells_subject _ _ _ _ _ hm with h | ⟨j, h1, _, h2⟩
      · simp only [Stmt.subject, Subject.blank.injEq] at h
        exact hb n (Nat.le_refl n) h.symm
      · simp only [Stmt.subject, Subject.blank.injEq] at h2
        exact hb j (by omega) h2.symm
    have ih := collCells_functional gen hg (gen n) (n + 1)
      (fun j hj e => by have := hg _ _ e; omega) (x' :: os) s p o o'
    simp only [collCells, List.cons_append, List.nil_append, List.mem_cons, Stmt.mk.injEq] at h h'
    rcases h with ⟨es, e, rfl⟩ | ⟨es, e, rfl⟩ | ⟨es, e, rfl⟩ | h <;>
      rcases h' with ⟨es', e', rfl⟩ | ⟨es', e', rfl⟩ | ⟨es', e', rfl⟩ | h' <;>
      first
        | rfl
        | exact absurd (e.symm.trans e') d1
        | exact absurd (e.symm.trans e') d2
        | exact absurd (e.symm.trans e') d3
        | exact absurd (e'.symm.trans e) d1
        | exact absurd (e'.symm.trans e) d2
        | exact absurd (e'.symm.trans e) d3
        | exact ih h h'
        | (subst es; exact absurd h' (hfree _ _))
        | (subst es'; exact absurd h (hfree _ _))

theorem collCells_cells (gen : Nat → Str) (b : Str) (n : Nat) (o : Object) (os : List Object) :
    ((collCells gen b n (o :: os)).1.filter (fun t => decide (t.predicate = rdfFirst))) =
      List.zipWith (fun c x => Stmt.mk (.blank c) rdfFirst x)
        (b :: (List.range os.length).map (fun k => gen (n + k))) (o :: os) := by
  have d1 : rdfType ≠ rdfFirst := by decide +kernel
  have d3 : rdfRest ≠ rdfFirst := by decide +kernel
  induction os generalizing b n o with
  | nil => simp [collCells, Stmt.predicate, d1, d3]
  | cons o' os ih =>
    simp only [collCells, List.cons_append, List.nil_append]
    rw [List.filter_cons_of_neg (by simp [Stmt.predicate, d1]),
      List.filter_cons_of_pos (by simp [Stmt.predicate]),
      List.filter_cons_of_neg (by simp [Stmt.predicate, d3]), ih]
    rw [List.zipWith_cons_cons, List.length_cons, List.range_succ_eq_map]
    simp only [List.map_cons, List.map_map, Nat.add_zero]
    congr 1
    congr 2
    apply List.map_congr_left
    intro k _
    simp only [Function.comp]
    congr 1
    simp only [Nat.succ_eq_add_one]; omega

/-! ### Statements -/

theorem valuesOf_append (l1 l2 : List Stmt) (b : Str) (p : Iri) :
    valuesOf (l1 ++ l2) b p = valuesOf l1 b p ++ valuesOf l2 b p := by
  simp [valuesOf]

theorem valuesOf_nil_of {l : List Stmt} {b : Str} (p : Iri)
    (h : ∀ t ∈ l, t.subject ≠ .blank b) : valuesOf l b p = [] := by
  unfold valuesOf
  rw [List.map_eq_nil_iff, List.filter_eq_nil_iff]
  intro t ht
  simp [h t ht]

theorem valuesOf_single (b x : Str) (p q : Iri) (o : Object) :
    valuesOf [.mk (.blank x) q o] b p = if x = b ∧ q = p then [o] else [] := by
  unfold valuesOf
  by_cases h1 : x = b <;> by_cases h2 : q = p <;>
    simp [Stmt.subject, Stmt.predicate, Stmt.object, h1, h2]

/-- The object by which a reified statement refers to its subject. -/
def Subject.refObj (gen : Nat → Str) (n : Nat) : Subject → Object
  | .stmt _ => .blank (gen n)
  | .blank x => .blank x
  | .res i => .res i

/-- The object by which a reified statement refers to its object. -/
def Object.refObj (gen : Nat → Str) (n : Nat) : Object → Object
  | .stmt _ => .blank (gen n)
  | o => o

/-- The statements of the nested statement, if there is one. -/
def Subject.nested (gen : Nat → Str) (n : Nat) : Subject → List Stmt
  | .stmt t => (t.reify gen n).1
  | _ => []
def Object.nested (gen : Nat → Str) (n : Nat) : Object → List Stmt
  | .stmt t => (t.reify gen n).1
  | _ => []

mutual
theorem Stmt.reify_count (gen : Nat → Str) (n : Nat) (t : Stmt) :
    (t.reify gen n).2 = n + size t := by
  match t with
  | .mk s p o =>
    simp only [Stmt.reify, size]
    rw [Object.reify_count gen _ _ o, Subject.reify_count gen _ _ s]; omega
theorem Subject.reify_count (gen : Nat → Str) (b : Str) (n : Nat) (s : Subject) :
    (s.reify gen b n).2 = n + ssize s := by
  match s with
  | .stmt t => simp only [Subject.reify, ssize]; exact Stmt.reify_count gen n t
  | .blank _ => simp [Subject.reify, ssize]
  | .res _ => simp [Subject.reify, ssize]
theorem Object.reify_count (gen : Nat → Str) (b : Str) (n : Nat) (o : Object) :
    (o.reify gen b n).2 = n + osize o := by
  match o with
  | .stmt t => simp only [Object.reify, osize]; exact Stmt.reify_count gen n t
  | .blank _ => simp [Object.reify, osize]
  | .res _ => simp [Object.reify, osize]
  | .lit _ => simp [Object.reify, osize]
  | .coll _ => simp [Object.reify, osize]
end

theorem Subject.reify_eq (gen : Nat → Str) (b : Str) (n : Nat) (s : Subject) :
    (s.reify gen b n).1 = s.nested gen n ++ [.mk (.blank b) rdfSubject (s.refObj gen n)] := by
  cases s <;> simp [Subject.reify, Subject.nested, Subject.refObj]

theorem Object.reify_eq (gen : Nat → Str) (b : Str) (n : Nat) (o : Object) :
    (o.reify gen b n).1 = o.nested gen n ++ [.mk (.blank b) rdfObject (o.refObj gen n)] := by
  cases o <;> simp [Object.reify, Object.nested, Object.refObj]

/-- The statements that describe a statement, in terms of the nested ones. -/
theorem Stmt.reify_eq (gen : Nat → Str) (n : Nat) (s : Subject) (p : Iri) (o : Object) :
    ((Stmt.mk s p o).reify gen n).1 =
      [.mk (.blank (gen n)) rdfType (.res rdfStatement)] ++ s.nested gen (n + 1) ++
      [.mk (.blank (gen n)) rdfSubject (s.refObj gen (n + 1))] ++
      [.mk (.blank (gen n)) rdfPredicate (.res p)] ++ o.nested gen (n + 1 + ssize s) ++
      [.mk (.blank (gen n)) rdfObject (o.refObj gen (n + 1 + ssize s))] := by
  simp only [Stmt.reify, Subject.reify_eq, Object.reify_eq, Subject.reify_count]
  simp

mutual
theorem Stmt.reify_subject (gen : Nat → Str) (n : Nat) (t : Stmt) :
    ∀ x ∈ (t.reify gen n).1, ∃ j, n ≤ j ∧ j < n + size t ∧ x.subject = .blank (gen j) := by
  match t with
  | .mk s p o =>
    intro x hx
    rw [Stmt.reify_eq] at hx
    have hsz : n < n + size (.mk s p o) := by simp [size]
    simp only [List.mem_append, List.mem_singleton, or_assoc] at hx
    rcases hx with rfl | hx | rfl | rfl | hx | rfl
    · exact ⟨n, Nat.le_refl n, hsz, rfl⟩
    · obtain ⟨j, h1, h2, h3⟩ := Subject.nested_subject gen (n + 1) s x hx
      exact ⟨j, by omega, by simp only [size]; omega, h3⟩
    · exact ⟨n, Nat.le_refl n, hsz, rfl⟩
    · exact ⟨n, Nat.le_refl n, hsz, rfl⟩
    · obtain ⟨j, h1, h2, h3⟩ := Object.nested_subject gen (n + 1 + ssize s) o x hx
      exact ⟨j, by omega, by simp only [size]; omega, h3⟩
    · exact ⟨n, Nat.le_refl n, hsz, rfl⟩
theorem Subject.nested_subject (gen : Nat → Str) (n : Nat) (s : Subject) :
    ∀ x ∈ s.nested gen n, ∃ j, n ≤ j ∧ j < n + ssize s ∧ x.subject = .blank (gen j) := by
  match s with
  | .stmt t => simp only [Subject.nested, ssize]; exact Stmt.reify_subject gen n t
  | .blank _ => simp [Subject.nested]
  | .res _ => simp [Subject.nested]
theorem Object.nested_subject (gen : Nat → Str) (n : Nat) (o : Object) :
    ∀ x ∈ o.nested gen n, ∃ j, n ≤ j ∧ j < n + osize o ∧ x.subject = .blank (gen j) := by
  match o with
  | .stmt t => simp only [Object.nested, osize]; exact Stmt.reify_subject gen n t
  | .blank _ => simp [Object.nested]
  | .res _ => simp [Object.nested]
  | .lit _ => simp [Object.nested]
  | .coll _ => simp [Object.nested]
end

theorem rdf_distinct :
    rdfType ≠ rdfSubject ∧ rdfType ≠ rdfPredicate ∧ rdfType ≠ rdfObject ∧
    rdfSubject ≠ rdfPredicate ∧ rdfSubject ≠ rdfObject ∧ rdfPredicate ≠ rdfObject := by
  decide +kernel

/-- The predicates that describe the parts of a statement. -/
def isPartPredicate (q : Iri) : Prop := q = rdfSubject ∨ q = rdfPredicate ∨ q = rdfObject

/-- `sts` says about the parts of the nodes `gen n … gen (n+k-1)` exactly what `l` says. -/
def Agrees (gen : Nat → Str) (n k : Nat) (sts l : List Stmt) : Prop :=
  ∀ j, n ≤ j → j < n + k →
    (∀ q, isPartPredicate q → valuesOf sts (gen j) q = valuesOf l (gen j) q) ∧
    (isStmtNode l (gen j) = true → isStmtNode sts (gen j) = true)

theorem isStmtNode_append (l1 l2 : List Stmt) (x : Str) :
    isStmtNode (l1 ++ l2) x = (isStmtNode l1 x || isStmtNode l2 x) := by
  simp [isStmtNode, valuesOf_append]

theorem Agrees.refl (gen : Nat → Str) (n k : Nat) (l : List Stmt) : Agrees gen n k l l :=
  fun _ _ _ => ⟨fun _ _ => rfl, id⟩

theorem valuesOf_none {gen : Nat → Str} (hg : ∀ i j, gen i = gen j → i = j) {l : List Stmt}
    {n k j : Nat} (h : ∀ x ∈ l, ∃ i, n ≤ i ∧ i < n + k ∧ x.subject = .blank (gen i))
    (hj : j < n ∨ n + k ≤ j) (p : Iri) : valuesOf l (gen j) p = [] := by
  apply valuesOf_nil_of
  intro t ht e
  obtain ⟨i, h1, h2, h3⟩ := h t ht
  rw [h3] at e
  have := hg _ _ (Subject.blank.inj e)
  omega

mutual
theorem Stmt.read_reify (gen : Nat → Str) (hg : ∀ i j, gen i = gen j → i = j)
    (sts : List Stmt) (n f : Nat) (t : Stmt)
    (ha : Agrees gen n (size t) sts (t.reify gen n).1)
    (hb : ∀ x ∈ blanks t, isStmtNode sts x = false) (hf : depth t ≤ f) :
    readStmt sts f (gen n) = some t := by
  match t, f, hf with
  | .mk s p o, 0, hf => simp [depth] at hf
  | .mk s p o, f + 1, hf =>
    have hs := Subject.nested_subject gen (n + 1) s
    have ho := Object.nested_subject gen (n + 1 + ssize s) o
    obtain ⟨d1, d2, d3, d4, d5, d6⟩ := rdf_distinct
    have hn := ha n (Nat.le_refl n) (by simp [size])
    have hv : ∀ q, isPartPredicate q → valuesOf sts (gen n) q =
        (if rdfType = q then [.res rdfStatement] else []) ++
        (if rdfSubject = q then [s.refObj gen (n + 1)] else []) ++
        (if rdfPredicate = q then [.res p] else []) ++
        (if rdfObject = q then [o.refObj gen (n + 1 + ssize s)] else []) := by
      intro q hq
      rw [hn.1 q hq, Stmt.reify_eq]
      simp only [valuesOf_append, valuesOf_single, true_and]
      rw [valuesOf_none hg hs (by omega), valuesOf_none hg ho (by omega)]
      simp
    have e2 : valuesOf sts (gen n) (rdf (str! "subject")) = [s.refObj gen (n + 1)] := by
      have := hv rdfSubject (.inl rfl)
      simp [d1, d4.symm, d5.symm] at this
      exact this
    have e3 : valuesOf sts (gen n) (rdf (str! "predicate")) = [.res p] := by
      have := hv rdfPredicate (.inr (.inl rfl))
      simp [d2, d4, d6.symm] at this
      exact this
    have e4 : valuesOf sts (gen n) (rdf (str! "object")) =
        [o.refObj gen (n + 1 + ssize s)] := by
      have := hv rdfObject (.inr (.inr rfl))
      simp [d3, d5, d6] at this
      exact this
    have e5 : isStmtNode sts (gen n) = true := by
      apply hn.2
      rw [Stmt.reify_eq]
      simp only [isStmtNode_append]
      have : isStmtNode [Stmt.mk (.blank (gen n)) rdfType (.res rdfStatement)] (gen n) = true := by
        unfold isStmtNode
        show (valuesOf _ _ rdfType).contains (.res rdfStatement) = true
        rw [valuesOf_single]; simp
      simp [this]
    have hA : ∀ j, n < j → ∀ q, isPartPredicate q → j < n + size (.mk s p o) →
        valuesOf sts (gen j) q = valuesOf (s.nested gen (n + 1)) (gen j) q ++
        valuesOf (o.nested gen (n + 1 + ssize s)) (gen j) q := by
      intro j hj q hq hjk
      rw [(ha j (by omega) hjk).1 q hq, Stmt.reify_eq]
      have hne : gen n ≠ gen j := fun e => by have := hg _ _ e; omega
      simp only [valuesOf_append, valuesOf_single, hne, false_and, if_false, List.nil_append,
        List.append_nil]
    have rs := Subject.read_reify gen hg sts (n + 1) f s
      (by
        intro j h1 h2
        refine ⟨fun q hq => ?_, fun hi => (ha j (by omega) (by simp only [size]; omega)).2 ?_⟩
        · rw [hA j (by omega) q hq (by simp only [size]; omega),
            valuesOf_none hg ho (.inl (by omega)), List.append_nil]
        · rw [Stmt.reify_eq]
          simp only [isStmtNode_append, hi, Bool.true_or, Bool.or_true])
      (fun x hx => hb x (by simp [blanks, hx])) (by simp [depth] at hf; omega)
    have ro := Object.read_reify gen hg sts (n + 1 + ssize s) f o
      (by
        intro j h1 h2
        refine ⟨fun q hq => ?_, fun hi => (ha j (by omega) (by simp only [size]; omega)).2 ?_⟩
        · rw [hA j (by omega) q hq (by simp only [size]; omega),
            valuesOf_none hg hs (.inr (by omega)), List.nil_append]
        · rw [Stmt.reify_eq]
          simp only [isStmtNode_append, hi, Bool.true_or, Bool.or_true])
      (fun x hx => hb x (by simp [blanks, hx])) (by simp [depth] at hf; omega)
    rw [readStmt, e5, e2, e3, e4]
    simp only [if_true, rs, ro]
theorem Subject.read_reify (gen : Nat → Str) (hg : ∀ i j, gen i = gen j → i = j)
    (sts : List Stmt) (n f : Nat) (s : Subject)
    (ha : Agrees gen n (ssize s) sts (s.nested gen n))
    (hb : ∀ x ∈ sblanks s, isStmtNode sts x = false) (hf : sdepth s ≤ f) :
    readSubject sts (readStmt sts f) (s.refObj gen n) = some s := by
  match s with
  | .stmt t =>
    have h := Stmt.read_reify gen hg sts n f t ha hb hf
    have ht : isStmtNode sts (gen n) = true := by
      cases f with
      | zero => cases t; simp [sdepth, depth] at hf
      | succ f =>
        rw [readStmt] at h
        split at h
        · rename_i h1; exact h1
        · cases h
    simp [Subject.refObj, readSubject, ht, h]
  | .blank x => simp [Subject.refObj, readSubject, hb x (by simp [sblanks])]
  | .res i => simp [Subject.refObj, readSubject, Object.toSubject]
theorem Object.read_reify (gen : Nat → Str) (hg : ∀ i j, gen i = gen j → i = j)
    (sts : List Stmt) (n f : Nat) (o : Object)
    (ha : Agrees gen n (osize o) sts (o.nested gen n))
    (hb : ∀ x ∈ oblanks o, isStmtNode sts x = false) (hf : odepth o ≤ f) :
    readObject sts (readStmt sts f) (o.refObj gen n) = some o := by
  match o with
  | .stmt t =>
    have h := Stmt.read_reify gen hg sts n f t ha hb hf
    have ht : isStmtNode sts (gen n) = true := by
      cases f with
      | zero => cases t; simp [odepth, depth] at hf
      | succ f =>
        rw [readStmt] at h
        split at h
        · rename_i h1; exact h1
        · cases h
    simp [Object.refObj, readObject, ht, h]
  | .blank x => simp [Object.refObj, readObject, hb x (by simp [oblanks])]
  | .res i => simp [Object.refObj, readObject]
  | .lit l => simp [Object.refObj, readObject]
  | .coll c => simp [Object.refObj, readObject]
end

theorem not_stmtNode {gen : Nat → Str} {n : Nat} {t : Stmt} {x : Str} (hx : ∀ j, gen j ≠ x) :
    isStmtNode (t.reify gen n).1 x = false := by
  unfold isStmtNode
  rw [valuesOf_nil_of]
  · rfl
  · intro u hu e
    obtain ⟨j, _, _, h⟩ := Stmt.reify_subject gen n t u hu
    rw [h] at e
    exact hx j (Subject.blank.inj e)

/-! ### Simplifying -/

/-- How many nodes `simplify` asks for to expand a statement. -/
theorem simplifyStmt_le (gen : Nat → Str) (n : Nat) (t : Stmt) :
    n ≤ (simplifyStmt gen n t).2 := by
  match t with
  | .mk (.stmt u) p o => simp only [simplifyStmt, Stmt.reify_count]; omega
  | .mk (.blank _) p (.stmt u) | .mk (.res _) p (.stmt u) =>
    simp only [simplifyStmt, Stmt.reify_count]; omega
  | .mk (.blank _) p (.coll []) | .mk (.res _) p (.coll []) => simp [simplifyStmt, collReify]
  | .mk (.blank _) p (.coll (x :: xs)) | .mk (.res _) p (.coll (x :: xs)) =>
    simp only [simplifyStmt, collReify, (collCells_count gen (gen n) (n + 1) x xs).1]; omega
  | .mk (.blank _) p (.blank _) | .mk (.blank _) p (.res _) | .mk (.blank _) p (.lit _)
  | .mk (.res _) p (.blank _) | .mk (.res _) p (.res _) | .mk (.res _) p (.lit _) =>
    simp [simplifyStmt]

theorem collReify_subject (gen : Nat → Str) (n : Nat) (c : List Object) (x : Stmt)
    (h : x ∈ (collReify gen n c).2.1) :
    ∃ j, n ≤ j ∧ j < (collReify gen n c).2.2 ∧ x.subject = .blank (gen j) := by
  match c with
  | [] => simp [collReify] at h
  | o :: os =>
    simp only [collReify] at h ⊢
    rw [(collCells_count gen (gen n) (n + 1) o os).1]
    rcases collCells_subject _ _ _ _ _ h with h | ⟨j, h1, h2, h3⟩
    · exact ⟨n, Nat.le_refl n, by omega, h⟩
    · exact ⟨j, by omega, by simp at h2; omega, h3⟩

/-- What a statement of the result can be: about a new node, or the old statement, perhaps with
its object replaced. -/
theorem simplifyStmt_subject (gen : Nat → Str) (n : Nat) (t : Stmt) :
    ∀ x ∈ (simplifyStmt gen n t).1,
      (∃ j, n ≤ j ∧ j < (simplifyStmt gen n t).2 ∧ x.subject = .blank (gen j)) ∨
      (x.subject = t.subject ∧
        (x = t ∨ x.object ≠ .res rdfStatement)) := by
  intro x hx
  have hnil : rdfNil ≠ rdfStatement := by decide +kernel
  match t with
  | .mk (.stmt u) p o =>
    left
    simp only [simplifyStmt, List.mem_cons, Stmt.reify_count] at hx ⊢
    rcases hx with rfl | hx
    · exact ⟨n, Nat.le_refl n, by cases u; simp [size], rfl⟩
    · obtain ⟨j, h⟩ := Stmt.reify_subject gen n u x hx
      exact ⟨j, h⟩
  | .mk (.blank _) p (.stmt u) | .mk (.res _) p (.stmt u) =>
    simp only [simplifyStmt, List.mem_cons, Stmt.reify_count] at hx ⊢
    rcases hx with rfl | hx
    · right; simp [Stmt.subject, Stmt.object]
    · obtain ⟨j, h⟩ := Stmt.reify_subject gen n u x hx
      exact .inl ⟨j, h⟩
  | .mk (.blank _) p (.coll c) | .mk (.res _) p (.coll c) =>
    simp only [simplifyStmt, List.mem_cons] at hx ⊢
    rcases hx with rfl | hx
    · right
      cases c <;> simp [Stmt.subject, Stmt.object, collReify, Subject.toObject, hnil]
    · exact .inl (collReify_subject gen n c x hx)
  | .mk (.blank _) p (.blank _) | .mk (.blank _) p (.res _) | .mk (.blank _) p (.lit _)
  | .mk (.res _) p (.blank _) | .mk (.res _) p (.res _) | .mk (.res _) p (.lit _) =>
    simp only [simplifyStmt, List.mem_singleton] at hx
    exact .inr ⟨by rw [hx], .inl hx⟩

theorem simplifyAll_le (gen : Nat → Str) (n : Nat) (l : List Stmt) :
    n ≤ (simplifyAll gen n l).2 := by
  induction l generalizing n with
  | nil => simp [simplifyAll]
  | cons t ts ih => exact Nat.le_trans (simplifyStmt_le gen n t) (ih _)

theorem simplifyAll_append (gen : Nat → Str) (n : Nat) (l1 l2 : List Stmt) :
    (simplifyAll gen n (l1 ++ l2)).1 =
      (simplifyAll gen n l1).1 ++ (simplifyAll gen (simplifyAll gen n l1).2 l2).1 ∧
    (simplifyAll gen n (l1 ++ l2)).2 = (simplifyAll gen (simplifyAll gen n l1).2 l2).2 := by
  induction l1 generalizing n with
  | nil => simp [simplifyAll]
  | cons t ts ih => simp [simplifyAll, ih]

theorem simplifyAll_subject (gen : Nat → Str) (n : Nat) (l : List Stmt) :
    ∀ x ∈ (simplifyAll gen n l).1,
      (∃ j, n ≤ j ∧ j < (simplifyAll gen n l).2 ∧ x.subject = .blank (gen j)) ∨
      (∃ t ∈ l, x.subject = t.subject ∧ (x = t ∨ x.object ≠ .res rdfStatement)) := by
  induction l generalizing n with
  | nil => simp [simplifyAll]
  | cons t ts ih =>
    intro x hx
    simp only [simplifyAll, List.mem_append] at hx ⊢
    have h1 := simplifyStmt_le gen n t
    have h2 := simplifyAll_le gen (simplifyStmt gen n t).2 ts
    rcases hx with hx | hx
    · rcases simplifyStmt_subject gen n t x hx with ⟨j, a, b, c⟩ | h
      · exact .inl ⟨j, a, by omega, c⟩
      · exact .inr ⟨t, by simp, h⟩
    · rcases ih _ x hx with ⟨j, a, b, c⟩ | ⟨t', a, b⟩
      · exact .inl ⟨j, by omega, b, c⟩
      · exact .inr ⟨t', by simp [a], b⟩

theorem extend_default (l : List Stmt) : (Graph.default.extend l).stmts = l := by
  show [] ++ l = l
  simp

theorem simplify_stmts (gen : Nat → Str) (n : Nat) (g : Graph) :
    (g.simplify gen n).1.stmts = (simplifyAll gen n g.stmts).1 := by
  show (Graph.default.extend _).stmts = _
  exact extend_default _

/-- The nodes of one expanded statement are described by that expansion only. -/
theorem simplify_agrees (gen : Nat → Str) (hg : ∀ i j, gen i = gen j → i = j) (n : Nat)
    (l1 l2 : List Stmt) (t u : Stmt) (x : Stmt) (p : Iri)
    (hs : ∀ t' ∈ l1 ++ t :: l2, ∀ j, t'.subject ≠ .blank (gen j))
    (m : Nat) (hm : m = (simplifyAll gen n l1).2)
    (hb : simplifyStmt gen m t = (x :: (u.reify gen m).1, (u.reify gen m).2))
    (hx : (∃ i, x.subject = .blank (gen i) ∧ ¬ isPartPredicate x.predicate) ∨
      ∀ j, x.subject ≠ .blank (gen j)) :
    Agrees gen m (size u) (simplifyAll gen n (l1 ++ t :: l2)).1 (u.reify gen m).1 := by
  intro j h1 h2
  have e : (simplifyAll gen n (l1 ++ t :: l2)).1 =
      (simplifyAll gen n l1).1 ++ ([x] ++ (u.reify gen m).1 ++
        (simplifyAll gen (u.reify gen m).2 l2).1) := by
    rw [(simplifyAll_append gen n l1 (t :: l2)).1, ← hm]
    simp only [simplifyAll, hb]; simp
  refine ⟨fun q hq => ?_, fun hi => by
    rw [e]; simp only [isStmtNode_append, hi, Bool.true_or, Bool.or_true]⟩
  rw [e]
  simp only [valuesOf_append]
  have z1 : valuesOf (simplifyAll gen n l1).1 (gen j) q = [] := by
    apply valuesOf_nil_of
    intro y hy ey
    rcases simplifyAll_subject gen n l1 y hy with ⟨i, a, b, c⟩ | ⟨t', a, b, _⟩
    · rw [c] at ey
      have := hg _ _ (Subject.blank.inj ey); omega
    · exact hs t' (by simp [a]) j (b ▸ ey)
  have z2 : valuesOf (simplifyAll gen (u.reify gen m).2 l2).1 (gen j) q = [] := by
    apply valuesOf_nil_of
    intro y hy ey
    rcases simplifyAll_subject gen _ l2 y hy with ⟨i, a, b, c⟩ | ⟨t', a, b, _⟩
    · rw [c] at ey
      rw [Stmt.reify_count] at a
      have := hg _ _ (Subject.blank.inj ey); omega
    · exact hs t' (by simp [a]) j (b ▸ ey)
  have z3 : valuesOf [x] (gen j) q = [] := by
    rcases hx with ⟨i, _, hp⟩ | hx
    · cases x with
      | mk xs xp xo =>
        simp only [Stmt.predicate] at hp
        have : xp ≠ q := fun e => hp (e ▸ hq)
        simp [valuesOf, Stmt.predicate, this]
    · apply valuesOf_nil_of
      intro y hy
      rw [List.mem_singleton.1 hy]
      exact hx j
  rw [z1, z2, z3]; simp

/-- A label that is not a new one stands for a statement in the result only if it did before. -/
theorem simplify_isStmtNode (gen : Nat → Str) (n : Nat) (l : List Stmt) (x : Str)
    (hx : ∀ j, gen j ≠ x) (h : isStmtNode l x = false) :
    isStmtNode (simplifyAll gen n l).1 x = false := by
  rw [Bool.eq_false_iff] at h ⊢
  intro hc
  apply h
  unfold isStmtNode valuesOf at hc ⊢
  rw [List.contains_iff_mem] at hc ⊢
  obtain ⟨y, hy, ey⟩ := List.mem_map.1 hc
  rw [List.mem_filter] at hy
  obtain ⟨hy, hp⟩ := hy
  simp only [Bool.and_eq_true, decide_eq_true_eq] at hp
  rcases simplifyAll_subject gen n l y hy with ⟨j, _, _, c⟩ | ⟨t', a, b, c⟩
  · rw [hp.1] at c
    exact absurd (Subject.blank.inj c).symm (hx j)
  · rcases c with rfl | c
    · exact List.mem_map.2 ⟨y, List.mem_filter.2 ⟨a, by simp [hp.1, hp.2]⟩, ey⟩
    · exact absurd ey c

/-! ### Skolemizing -/

/-- The new IRI for an identifier. -/
def genidIri (base : Iri) (u : Str) : Iri := ⟨base.pre ++ str! "/.well-known/genid/" ++ u⟩

/-- What holds of the state of `skolemize`: the IRIs are the ones made from the identifiers so
far, one for each label. -/
structure SkolemOk (uuid : Nat → Str) (base : Iri) (st : SkolemState) : Prop where
  values : st.map.map Prod.snd = (List.range st.count).map (fun k => genidIri base (uuid k))

/-- The IRI a state gives to a label. -/
def SkolemState.get (st : SkolemState) (b : Str) : Option Iri :=
  (st.map.find? (fun e => e.1 == b)).map Prod.snd

theorem skolemBlank_spec (uuid : Nat → Str) (base : Iri) (st st' : SkolemState) (b : Str)
    (i : Iri) (hok : SkolemOk uuid base st) (h : skolemBlank uuid base st b = some (i, st')) :
    SkolemOk uuid base st' ∧ st'.get b = some i ∧
      ∀ c j, st.get c = some j → st'.get c = some j := by
  unfold skolemBlank at h
  split at h
  · rename_i e he
    simp only [Option.some.injEq, Prod.mk.injEq] at h
    obtain ⟨rfl, rfl⟩ := h
    exact ⟨hok, by simp [SkolemState.get, he], fun _ _ h => h⟩
  · rename_i he
    split at h
    · cases h
    · rename_i i' hi
      simp only [Option.some.injEq, Prod.mk.injEq] at h
      obtain ⟨rfl, rfl⟩ := h
      unfold Iri.genid at hi
      split at hi
      · cases hi
      · simp only [Option.some.injEq] at hi
        subst hi
        refine ⟨⟨?_⟩, ?_, ?_⟩
        · simp [List.range_succ, hok.values, genidIri]
        · simp [SkolemState.get, List.find?_append, he]
        · intro c j hc
          simp only [SkolemState.get, List.find?_append] at hc ⊢
          cases hf : st.map.find? (fun e => e.1 == c) with
          | none => simp [hf] at hc
          | some e => simpa [hf] using hc

/-- Put IRIs in place of blank nodes. -/
def skolemS (f : Str → Iri) : Subject → Subject
  | .blank b => .res (f b)
  | s => s
def skolemO (f : Str → Iri) : Object → Object
  | .blank b => .res (f b)
  | o => o

/-- Does a function give the IRIs of a state? -/
def Follows (f : Str → Iri) (st : SkolemState) : Prop := ∀ c j, st.get c = some j → f c = j

theorem skolemSubject_spec (uuid : Nat → Str) (base : Iri) (st st' : SkolemState)
    (s s' : Subject) (hok : SkolemOk uuid base st)
    (h : skolemSubject uuid base st s = some (s', st')) :
    SkolemOk uuid base st' ∧ (∀ c j, st.get c = some j → st'.get c = some j) ∧
    (∀ f, Follows f st' → s' = skolemS f s) ∧ (∀ b, s = .blank b → (st'.get b).isSome) := by
  cases s with
  | blank b =>
    simp only [skolemSubject, Option.map_eq_some_iff, Prod.mk.injEq] at h
    obtain ⟨⟨i, st1⟩, h, rfl, rfl⟩ := h
    obtain ⟨a, b', c⟩ := skolemBlank_spec uuid base st st1 b i hok h
    refine ⟨a, c, fun f hf => by simp [skolemS, hf b i b'], ?_⟩
    intro x hx
    rw [← Subject.blank.inj hx]; simp [b']
  | res i =>
    simp only [skolemSubject, Option.some.injEq, Prod.mk.injEq] at h
    obtain ⟨rfl, rfl⟩ := h
    exact ⟨hok, fun _ _ h => h, fun _ _ => rfl, fun b h => by cases h⟩
  | stmt t =>
    simp only [skolemSubject, Option.some.injEq, Prod.mk.injEq] at h
    obtain ⟨rfl, rfl⟩ := h
    exact ⟨hok, fun _ _ h => h, fun _ _ => rfl, fun b h => by cases h⟩

theorem skolemObject_spec (uuid : Nat → Str) (base : Iri) (st st' : SkolemState)
    (s s' : Object) (hok : SkolemOk uuid base st)
    (h : skolemObject uuid base st s = some (s', st')) :
    SkolemOk uuid base st' ∧ (∀ c j, st.get c = some j → st'.get c = some j) ∧
    (∀ f, Follows f st' → s' = skolemO f s) ∧ (∀ b, s = .blank b → (st'.get b).isSome) := by
  cases s with
  | blank b =>
    simp only [skolemObject, Option.map_eq_some_iff, Prod.mk.injEq] at h
    obtain ⟨⟨i, st1⟩, h, rfl, rfl⟩ := h
    obtain ⟨a, b', c⟩ := skolemBlank_spec uuid base st st1 b i hok h
    refine ⟨a, c, fun f hf => by simp [skolemO, hf b i b'], ?_⟩
    intro x hx
    rw [← Object.blank.inj hx]; simp [b']
  | res _ | lit _ | coll _ | stmt _ =>
    simp only [skolemObject, Option.some.injEq, Prod.mk.injEq] at h
    obtain ⟨rfl, rfl⟩ := h
    exact ⟨hok, fun _ _ h => h, fun _ _ => rfl, fun b h => by cases h⟩

theorem skolemAll_spec (uuid : Nat → Str) (base : Iri) (st st' : SkolemState)
    (l r : List Stmt) (hok : SkolemOk uuid base st)
    (h : skolemAll uuid base st l = some (r, st')) :
    SkolemOk uuid base st' ∧ (∀ c j, st.get c = some j → st'.get c = some j) ∧
    (∀ f, Follows f st' →
      r = l.map (fun t => .mk (skolemS f t.subject) t.predicate (skolemO f t.object))) ∧
    (∀ t ∈ l, ∀ b, (t.subject = .blank b ∨ t.object = .blank b) → (st'.get b).isSome) := by
  induction l generalizing st r with
  | nil =>
    simp only [skolemAll, Option.some.injEq, Prod.mk.injEq] at h
    obtain ⟨rfl, rfl⟩ := h
    exact ⟨hok, fun _ _ h => h, fun _ _ => rfl, fun t ht => by simp at ht⟩
  | cons t ts ih =>
    simp only [skolemAll] at h
    split at h
    · cases h
    · rename_i s1 st1 h1
      split at h
      · cases h
      · rename_i o1 st2 h2
        split at h
        · cases h
        · rename_i r1 st3 h3
          simp only [Option.some.injEq, Prod.mk.injEq] at h
          obtain ⟨rfl, rfl⟩ := h
          obtain ⟨a1, b1, c1, d1⟩ := skolemSubject_spec _ _ _ _ _ _ hok h1
          obtain ⟨a2, b2, c2, d2⟩ := skolemObject_spec _ _ _ _ _ _ a1 h2
          obtain ⟨a3, b3, c3, d3⟩ := ih st2 r1 a2 h3
          refine ⟨a3, fun c j h => b3 _ _ (b2 _ _ (b1 _ _ h)), ?_, ?_⟩
          · intro f hf
            rw [List.map_cons, c3 f hf, c1 f (fun c j h => hf _ _ (b3 _ _ (b2 _ _ h))),
              c2 f (fun c j h => hf _ _ (b3 _ _ h))]
          · intro t' ht' b hb
            rcases List.mem_cons.1 ht' with rfl | ht'
            · rcases hb with hb | hb
              · obtain ⟨i, hi⟩ := Option.isSome_iff_exists.1 (d1 b hb)
                rw [b3 _ _ (b2 _ _ hi)]; rfl
              · obtain ⟨i, hi⟩ := Option.isSome_iff_exists.1 (d2 b hb)
                rw [b3 _ _ hi]; rfl
            · exact d3 t' ht' b hb

/-- Two labels never have the same IRI. -/
theorem SkolemOk.inj {uuid : Nat → Str} (hu : ∀ i j, uuid i = uuid j → i = j) {base : Iri}
    {st : SkolemState} (hok : SkolemOk uuid base st) {b c : Str} {i : Iri}
    (hb : st.get b = some i) (hc : st.get c = some i) : b = c := by
  have hnd : (st.map.map Prod.snd).Nodup := by
    rw [hok.values]
    refine List.Nodup.map_on ?_ List.nodup_range
    intro x _ y _ e
    simp only [genidIri, Iri.mk.injEq, List.append_cancel_left_eq] at e
    exact hu _ _ e
  simp only [SkolemState.get, Option.map_eq_some_iff] at hb hc
  obtain ⟨e1, h1, rfl⟩ := hb
  obtain ⟨e2, h2, he⟩ := hc
  have m1 := List.mem_of_find?_eq_some h1
  have m2 := List.mem_of_find?_eq_some h2
  have p1 := List.find?_some h1
  have p2 := List.find?_some h2
  have := List.inj_on_of_nodup_map hnd m2 m1 he
  subst this
  simp only [beq_iff_eq] at p1 p2
  rw [← p1, ← p2]

theorem skolemBlank_none (uuid : Nat → Str) (base : Iri) (st : SkolemState) (b : Str)
    (h : base.isOpaque = false) : (skolemBlank uuid base st b).isSome := by
  unfold skolemBlank Iri.genid
  split <;> simp [h]

theorem skolemAll_isSome (uuid : Nat → Str) (base : Iri) (st : SkolemState) (l : List Stmt)
    (h : base.isOpaque = false) : (skolemAll uuid base st l).isSome := by
  induction l generalizing st with
  | nil => rfl
  | cons t ts ih =>
    simp only [skolemAll]
    have h1 : (skolemSubject uuid base st t.subject).isSome := by
      cases t.subject <;> simp [skolemSubject, skolemBlank_none uuid base st _ h]
    obtain ⟨⟨s1, st1⟩, e1⟩ := Option.isSome_iff_exists.1 h1
    have h2 : (skolemObject uuid base st1 t.object).isSome := by
      cases t.object <;> simp [skolemObject, skolemBlank_none uuid base st1 _ h]
    obtain ⟨⟨o1, st2⟩, e2⟩ := Option.isSome_iff_exists.1 h2
    obtain ⟨⟨r, st3⟩, e3⟩ := Option.isSome_iff_exists.1 (ih st2)
    simp [e1, e2, e3]

theorem skolemAll_opaque (uuid : Nat → Str) (base : Iri) (l : List Stmt)
    (h : base.isOpaque = true) :
    skolemAll uuid base ⟨[], 0⟩ l = none ↔
      ∃ t ∈ l, ∃ b, t.subject = .blank b ∨ t.object = .blank b := by
  have hb : ∀ b, skolemBlank uuid base ⟨[], 0⟩ b = none := by
    intro b; simp [skolemBlank, Iri.genid, h]
  induction l with
  | nil => simp [skolemAll]
  | cons t ts ih =>
    simp only [skolemAll, List.mem_cons, exists_eq_or_imp]
    have hs : skolemSubject uuid base ⟨[], 0⟩ t.subject = none ↔ ∃ b, t.subject = .blank b := by
      cases t.subject <;> simp [skolemSubject, hb]
    have ho : skolemObject uuid base ⟨[], 0⟩ t.object = none ↔ ∃ b, t.object = .blank b := by
      cases t.object <;> simp [skolemObject, hb]
    have hs' : ∀ s st, skolemSubject uuid base ⟨[], 0⟩ t.subject = some (s, st) → st = ⟨[], 0⟩ := by
      intro s st
      cases t.subject <;> simp [skolemSubject, hb] <;> (intro _ e; exact e.symm)
    have ho' : ∀ s st, skolemObject uuid base ⟨[], 0⟩ t.object = some (s, st) → st = ⟨[], 0⟩ := by
      intro s st
      cases t.object <;> simp [skolemObject, hb] <;> (intro _ e; exact e.symm)
    cases e1 : skolemSubject uuid base ⟨[], 0⟩ t.subject with
    | none =>
      obtain ⟨b, hb⟩ := hs.1 e1
      simp only [true_iff]
      exact .inl ⟨b, .inl hb⟩
    | some r1 =>
      obtain ⟨s1, st1⟩ := r1
      have := hs' s1 st1 e1
      subst this
      have n1 : ¬ ∃ b, t.subject = .blank b := fun h => by
        have := hs.2 h; rw [e1] at this; cases this
      cases e2 : skolemObject uuid base ⟨[], 0⟩ t.object with
      | none =>
        obtain ⟨b, hb⟩ := ho.1 e2
        simp only [e2, true_iff]
        exact .inl ⟨b, .inr hb⟩
      | some r2 =>
        obtain ⟨o1, st2⟩ := r2
        have := ho' o1 st2 e2
        subst this
        have n2 : ¬ ∃ b, t.object = .blank b := fun h => by
          have := ho.2 h; rw [e2] at this; cases this
        simp only [e2]
        cases e3 : skolemAll uuid base ⟨[], 0⟩ ts with
        | none => simp only [true_iff]; exact .inr (ih.1 e3)
        | some r3 =>
          simp only [reduceCtorEq, false_iff]
          rintro (⟨b, h | h⟩ | h)
          · exact n1 ⟨b, h⟩
          · exact n2 ⟨b, h⟩
          · have := ih.2 h; rw [e3] at this; cases this

end Rdftk
