import Verif.Props.Expand

/-! C33, exactly: which statements can be read back after they were reified. -/

namespace Rdftk
open Spec

mutual
/-- The labels of blank nodes in a term, at any depth of statements, but not in collections. -/
def Spec.snodes : Subject → List Str
  | .blank b => [b]
  | .res _ => []
  | .stmt t => Spec.nodes t
def Spec.nodes : Stmt → List Str
  | .mk s _ o => Spec.snodes s ++ Spec.onodes o
def Spec.onodes : Object → List Str
  | .blank b => [b]
  | .stmt t => Spec.nodes t
  | .res _ => []
  | .lit _ => []
  | .coll _ => []
end

theorem typeStmt_node (b : Str) : isStmtNode [Stmt.mk (.blank b) rdfType (.res rdfStatement)] b = true := by
  unfold isStmtNode
  show (valuesOf _ _ rdfType).contains (.res rdfStatement) = true
  rw [valuesOf_single]
  simp

theorem agrees_node {gen : Nat → Str} {sts : List Stmt} {n : Nat} {t : Stmt} (ha : Agrees gen n (size t) sts (t.reify gen n).1) :
    isStmtNode sts (gen n) = true := by
  obtain ⟨s, p, o⟩ := t
  refine (ha n (Nat.le_refl n) (by simp [size])).2 ?_
  rw [Stmt.reify_eq]
  simp only [isStmtNode_append, typeStmt_node, Bool.true_or]

/-- One step of reading, and what is left to read. -/
theorem reify_step (gen : Nat → Str) (hg : ∀ i j, gen i = gen j → i = j) (sts : List Stmt) (n f : Nat) (s : Subject) (p : Iri) (o : Object)
    (ha : Agrees gen n (size (.mk s p o)) sts ((Stmt.mk s p o).reify gen n).1) :
    readStmt sts (f + 1) (gen n) = (match readSubject sts (readStmt sts f) (s.refObj gen (n + 1)),
        readObject sts (readStmt sts f) (o.refObj gen (n + 1 + ssize s)) with
      | some s', some o' => some (.mk s' p o')
      | _, _ => none) ∧
    Agrees gen (n + 1) (ssize s) sts (s.nested gen (n + 1)) ∧
    Agrees gen (n + 1 + ssize s) (osize o) sts (o.nested gen (n + 1 + ssize s)) := by
  have hs := Subject.nested_subject gen (n + 1) s
  have ho := Object.nested_subject gen (n + 1 + ssize s) o
  obtain ⟨d1, d2, d3, d4, d5, d6⟩ := rdf_distinct
  have hn := ha n (Nat.le_refl n) (by simp [size])
  have hv : ∀ q, isPartPredicate q → valuesOf sts (gen n) q =
      (if rdfType = q then [.res rdfStatement] else []) ++
      (if rdfSubject = q then [s.refObj gen (n + 1)] else []) ++
      (if rdfPredicate = q then [.res p] else []) ++
      (if rdfObject = q then [o.refObj gen (n + 1 + ssize s)] else []) := by
    intro q hq
    rw [hn.1 q hq, Stmt.reify_eq]
    simp only [valuesOf_append, valuesOf_single, true_and]
    rw [valuesOf_none hg hs (by omega), valuesOf_none hg ho (by omega)]
    simp
  have e2 : valuesOf sts (gen n) (rdf (str! "subject")) = [s.refObj gen (n + 1)] := by
    have := hv rdfSubject (.inl rfl)
    simp [d1, d4.symm, d5.symm] at this
    exact this
  have e3 : valuesOf sts (gen n) (rdf (str! "predicate")) = [.res p] := by
    have := hv rdfPredicate (.inr (.inl rfl))
    simp [d2, d4, d6.symm] at this
    exact this
  have e4 : valuesOf sts (gen n) (rdf (str! "object")) = [o.refObj gen (n + 1 + ssize s)] := by
    have := hv rdfObject (.inr (.inr rfl))
    simp [d3, d5, d6] at this
    exact this
  have hA : ∀ j, n < j → ∀ q, isPartPredicate q → j < n + size (.mk s p o) →
      valuesOf sts (gen j) q = valuesOf (s.nested gen (n + 1)) (gen j) q ++
      valuesOf (o.nested gen (n + 1 + ssize s)) (gen j) q := by
    intro j hj q hq hjk
    rw [(ha j (by omega) hjk).1 q hq, Stmt.reify_eq]
    have hne : gen n ≠ gen j := fun e => by have := hg _ _ e; omega
    simp only [valuesOf_append, valuesOf_single, hne, false_and, if_false, List.nil_append, List.append_nil]
  refine ⟨?_, ?_, ?_⟩
  · rw [readStmt, agrees_node ha, e2, e3, e4]
    simp only [if_true]
    cases readSubject sts (readStmt sts f) (s.refObj gen (n + 1)) <;>
      cases readObject sts (readStmt sts f) (o.refObj gen (n + 1 + ssize s)) <;> rfl
  · intro j h1 h2
    refine ⟨fun q hq => ?_, fun hi => (ha j (by omega) (by simp only [size]; omega)).2 ?_⟩
    · rw [hA j (by omega) q hq (by simp only [size]; omega), valuesOf_none hg ho (.inl (by omega)), List.append_nil]
    · rw [Stmt.reify_eq]
      simp only [isStmtNode_append, hi, Bool.true_or, Bool.or_true]
  · intro j h1 h2
    refine ⟨fun q hq => ?_, fun hi => (ha j (by omega) (by simp only [size]; omega)).2 ?_⟩
    · rw [hA j (by omega) q hq (by simp only [size]; omega), valuesOf_none hg hs (.inr (by omega)), List.nil_append]
    · rw [Stmt.reify_eq]
      simp only [isStmtNode_append, hi, Bool.true_or, Bool.or_true]

mutual
theorem Stmt.read_iff (gen : Nat → Str) (hg : ∀ i j, gen i = gen j → i = j) (sts : List Stmt) (n f : Nat) (t : Stmt)
    (ha : Agrees gen n (size t) sts (t.reify gen n).1) (hf : depth t ≤ f) :
    readStmt sts f (gen n) = some t ↔ ∀ x ∈ nodes t, isStmtNode sts x = false := by
  match t, f, hf with
  | .mk s p o, 0, hf => simp [depth] at hf
  | .mk s p o, f + 1, hf =>
    obtain ⟨h1, h2, h3⟩ := reify_step gen hg sts n f s p o ha
    have hs := Subject.read_iff gen hg sts (n + 1) f s h2 (by simp [depth] at hf; omega)
    have ho := Object.read_iff gen hg sts (n + 1 + ssize s) f o h3 (by simp [depth] at hf; omega)
    rw [h1]
    have : (∀ x ∈ nodes (.mk s p o), isStmtNode sts x = false) ↔
        (∀ x ∈ snodes s, isStmtNode sts x = false) ∧ ∀ x ∈ onodes o, isStmtNode sts x = false := by
      simp only [nodes, List.mem_append]
      exact ⟨fun h => ⟨fun x hx => h x (.inl hx), fun x hx => h x (.inr hx)⟩, fun h x hx => hx.elim (h.1 x) (h.2 x)⟩
    rw [this, ← hs, ← ho]
    constructor
    · intro h
      split at h
      · rename_i e1 e2
        cases h
        exact ⟨e1, e2⟩
      · cases h
    · rintro ⟨e1, e2⟩
      rw [e1, e2]
theorem Subject.read_iff (gen : Nat → Str) (hg : ∀ i j, gen i = gen j → i = j) (sts : List Stmt) (n f : Nat) (s : Subject)
    (ha : Agrees gen n (ssize s) sts (s.nested gen n)) (hf : sdepth s ≤ f) :
    readSubject sts (readStmt sts f) (s.refObj gen n) = some s ↔ ∀ x ∈ snodes s, isStmtNode sts x = false := by
  match s with
  | .stmt t =>
    have h := Stmt.read_iff gen hg sts n f t ha hf
    simp only [Subject.refObj, readSubject, agrees_node (t := t) ha, if_true, snodes, ← h]
    cases readStmt sts f (gen n) <;> simp
  | .blank x =>
    simp only [Subject.refObj, readSubject, snodes, List.mem_singleton, forall_eq]
    cases isStmtNode sts x
    · simp
    · cases readStmt sts f x <;> simp
  | .res i => simp [Subject.refObj, readSubject, Object.toSubject, snodes]
theorem Object.read_iff (gen : Nat → Str) (hg : ∀ i j, gen i = gen j → i = j) (sts : List Stmt) (n f : Nat) (o : Object)
    (ha : Agrees gen n (osize o) sts (o.nested gen n)) (hf : odepth o ≤ f) :
    readObject sts (readStmt sts f) (o.refObj gen n) = some o ↔ ∀ x ∈ onodes o, isStmtNode sts x = false := by
  match o with
  | .stmt t =>
    have h := Stmt.read_iff gen hg sts n f t ha hf
    simp only [Object.refObj, readObject, agrees_node (t := t) ha, if_true, onodes, ← h]
    cases readStmt sts f (gen n) <;> simp
  | .blank x =>
    simp only [Object.refObj, readObject, onodes, List.mem_singleton, forall_eq]
    cases isStmtNode sts x
    · simp
    · cases readStmt sts f x <;> simp
  | .res i => simp [Object.refObj, readObject, onodes]
  | .lit l => simp [Object.refObj, readObject, onodes]
  | .coll c => simp [Object.refObj, readObject, onodes]
end

mutual
theorem Stmt.reify_nodes (gen : Nat → Str) (n : Nat) (t : Stmt) (j : Nat) (h1 : n ≤ j) (h2 : j < n + size t) :
    isStmtNode (t.reify gen n).1 (gen j) = true := by
  match t with
  | .mk s p o =>
    rw [Stmt.reify_eq]
    simp only [isStmtNode_append]
    by_cases e : j = n
    · subst e; simp [typeStmt_node]
    · by_cases hs : j < n + 1 + ssize s
      · simp [Subject.nested_nodes gen (n + 1) s j (by omega) hs]
      · simp [Object.nested_nodes gen (n + 1 + ssize s) o j (by omega) (by simp [size] at h2; omega)]
theorem Subject.nested_nodes (gen : Nat → Str) (n : Nat) (s : Subject) (j : Nat) (h1 : n ≤ j) (h2 : j < n + ssize s) :
    isStmtNode (s.nested gen n) (gen j) = true := by
  match s with
  | .stmt t => exact Stmt.reify_nodes gen n t j h1 h2
  | .blank _ => simp [ssize] at h2; omega
  | .res _ => simp [ssize] at h2; omega
theorem Object.nested_nodes (gen : Nat → Str) (n : Nat) (o : Object) (j : Nat) (h1 : n ≤ j) (h2 : j < n + osize o) :
    isStmtNode (o.nested gen n) (gen j) = true := by
  match o with
  | .stmt t => exact Stmt.reify_nodes gen n t j h1 h2
  | .blank _ => simp [osize] at h2; omega
  | .res _ => simp [osize] at h2; omega
  | .lit _ => simp [osize] at h2; omega
  | .coll _ => simp [osize] at h2; omega
end

/-- C33, exactly: a statement can be read back if and only if no blank node in it, outside collections, has one of the labels
that are made for it. -/
theorem C33_iff (gen : Nat → Str) (hg : ∀ i j, gen i = gen j → i = j) (n : Nat) (t : Stmt) (f : Nat) (hf : depth t ≤ f) :
    readStmt (t.reify gen n).1 f (gen n) = some t ↔ ∀ j, n ≤ j → j < n + size t → gen j ∉ nodes t := by
  rw [Stmt.read_iff gen hg _ n f t (Agrees.refl _ _ _ _) hf]
  constructor
  · intro h j h1 h2 hm
    exact absurd (h _ hm) (by rw [Stmt.reify_nodes gen n t j h1 h2]; simp)
  · intro h x hx
    cases e : isStmtNode (t.reify gen n).1 x with
    | false => rfl
    | true =>
      exfalso
      unfold isStmtNode at e
      by_cases hj : ∃ j, n ≤ j ∧ j < n + size t ∧ gen j = x
      · obtain ⟨j, h1, h2, rfl⟩ := hj
        exact h j h1 h2 hx
      · rw [valuesOf_nil_of _ fun u hu e' => by
          obtain ⟨j, h1, h2, h3⟩ := Stmt.reify_subject gen n t u hu
          rw [h3] at e'
          exact hj ⟨j, h1, h2, Subject.blank.inj e'⟩] at e
        simp at e

/-- C33: what the labels in collections are does not matter, nor do labels that are made later or were made earlier. -/
example (gen : Nat → Str) (hg : ∀ i j, gen i = gen j → i = j) (p : Iri) :
    readStmt ((Stmt.mk (.blank (gen 1)) p (.coll [.blank (gen 0)])).reify gen 0).1 1 (gen 0) =
      some (.mk (.blank (gen 1)) p (.coll [.blank (gen 0)])) := by
  refine (C33_iff gen hg 0 _ 1 (by simp [depth, sdepth, odepth])).2 fun j h1 h2 hm => ?_
  simp only [size, ssize, osize] at h2
  simp only [nodes, snodes, onodes, List.append_nil, List.mem_singleton] at hm
  have := hg _ _ hm
  omega

end Rdftk
