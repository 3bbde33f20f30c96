import Verif.Spec.Entail
import Verif.Props.ConvertTurtle
import Verif.Props.Expand

/-!
What follows from graphs, by the model theory of RDF: C168 for graphs whose blank nodes were
replaced by IRIs, C169 for Turtle.
-/

namespace Rdftk

open Spec

/-- The interpretation made of the triples themselves. -/
def herbrand (L : List Triple) : Interp where
  Res := Node
  IsProp _ := True
  ext p s o := ∃ t ∈ L, p = .iri t.p ∧ s = t.s ∧ o = t.o
  ofIri := .iri
  ofLit t d l := some (.lit t d l)

/-- The nodes without the blank nodes stay. -/
def overlay (A : Node → Node) : Node → Node
  | .blank b => A (.blank b)
  | .fresh n => A (.fresh n)
  | x => x

theorem overlay_instance (A : Node → Node) : IsInstance (overlay A) := by
  intro x hx
  cases x <;> first | rfl | exact (hx trivial).elim

theorem herbrand_node (L : List Triple) (A : Node → Node) (x y : Node)
    (h : (herbrand L).node A x = some y) : overlay A x = y := by
  cases x <;> exact Option.some.inj h

theorem herbrand_satisfies (L : List Triple) : (herbrand L).Satisfies L := by
  have hn : ∀ x : Node, (herbrand L).node (fun x => x) x = some x := fun x => by cases x <;> rfl
  exact ⟨fun x => x, fun t ht => ⟨trivial, t.s, t.o, hn _, hn _, t, ht, rfl, rfl, rfl⟩⟩

/-- C168, the interpolation lemma of RDF 1.1 Semantics: a graph follows from another exactly when an
instance of it is a part of the other. -/
theorem C168_interpolation (L M : List Triple) :
    Entails L M ↔ ∃ σ, IsInstance σ ∧ ∀ t ∈ M, mapTriple σ t ∈ L := by
  constructor
  · intro h
    obtain ⟨A, hA⟩ := h _ (herbrand_satisfies L)
    refine ⟨overlay A, overlay_instance A, fun t ht => ?_⟩
    obtain ⟨-, x, y, hx, hy, u, hu, hp, h1, h2⟩ := hA t ht
    have hp' : t.p = u.p := by injection hp
    rw [mapTriple, herbrand_node L A _ _ hx, herbrand_node L A _ _ hy, hp', h1, h2]
    exact hu
  · rintro ⟨σ, hσ, hM⟩ I ⟨A, hA⟩
    have hn : ∀ x y, I.node A (σ x) = some y →
        I.node (fun x => (I.node A (σ x)).getD (I.ofIri [])) x = some y := by
      intro x y hy
      by_cases h : x.IsBlank
      · have : I.node (fun x => (I.node A (σ x)).getD (I.ofIri [])) x = some ((I.node A (σ x)).getD (I.ofIri [])) := by
          cases x <;> first | exact h.elim | rfl
        rw [this, hy]; rfl
      · rw [hσ x h] at hy
        cases x <;> first | exact (h trivial).elim | exact hy
    refine ⟨fun x => (I.node A (σ x)).getD (I.ofIri []), fun t ht => ?_⟩
    obtain ⟨hp, x, y, hx, hy, he⟩ := hA _ (hM t ht)
    exact ⟨hp, x, y, hn _ _ hx, hn _ _ hy, he⟩

theorem entails_refl (L : List Triple) : Entails L L := fun _ h => h

theorem entails_trans {L M N : List Triple} (h : Entails L M) (h' : Entails M N) : Entails L N := fun I hI => h' I (h I hI)

/-- Graphs that differ in the names of blank nodes only follow from each other. -/
theorem isomorphic_entails {L M : List Triple} (h : Isomorphic L M) : Entails L M ∧ Entails M L := by
  obtain ⟨ρ, h1, h2, h3⟩ := h
  constructor
  · rw [C168_interpolation]
    have key : ∀ y, ∃ x, (¬ y.IsBlank → x = y) ∧ ((∃ z, InTriples L z ∧ ρ z = y) → InTriples L x ∧ ρ x = y) := by
      intro y
      by_cases h : ∃ z, InTriples L z ∧ ρ z = y
      · obtain ⟨z, hz, rfl⟩ := h
        refine ⟨z, fun hb => ?_, fun _ => ⟨hz, rfl⟩⟩
        exact ((h1 z hz).2 (fun hz' => hb ((h1 z hz).1.1 hz'))).symm
      · exact ⟨y, fun _ => rfl, fun h' => absurd h' h⟩
    obtain ⟨σ, hσ⟩ := Classical.skolem (p := fun y x => (¬ y.IsBlank → x = y) ∧
      ((∃ z, InTriples L z ∧ ρ z = y) → InTriples L x ∧ ρ x = y)) |>.1 key
    refine ⟨σ, fun x => (hσ x).1, fun t ht => ?_⟩
    obtain ⟨x, hx, rfl⟩ := (h3 t).1 ht
    have i1 : InTriples L x.s := ⟨x, hx, .inl rfl⟩
    have i2 : InTriples L x.o := ⟨x, hx, .inr rfl⟩
    obtain ⟨j1, k1⟩ := (hσ (ρ x.s)).2 ⟨_, i1, rfl⟩
    obtain ⟨j2, k2⟩ := (hσ (ρ x.o)).2 ⟨_, i2, rfl⟩
    have : mapTriple σ ⟨ρ x.s, x.p, ρ x.o⟩ = x := by
      unfold mapTriple
      simp only [h2 _ _ j1 i1 k1, h2 _ _ j2 i2 k2]
    rw [this]; exact hx
  · rw [C168_interpolation]
    refine ⟨fun x => open Classical in if InTriples L x then ρ x else x, fun x hx => ?_, fun t ht => ?_⟩
    · beta_reduce
      split
      · rename_i hi; exact (h1 x hi).2 hx
      · rfl
    · have i1 : InTriples L t.s := ⟨t, ht, .inl rfl⟩
      have i2 : InTriples L t.o := ⟨t, ht, .inr rfl⟩
      refine (h3 _).2 ⟨t, ht, ?_⟩
      simp only [mapTriple, if_pos i1, if_pos i2]

/-! ### Graphs whose blank nodes were replaced -/

/-- Every label in the triple was made. -/
def LabelsMade (gen : Nat → Str) (t : Triple) : Prop := ∀ b, t.s = .blank b ∨ t.o = .blank b → ∃ k, b = gen k

theorem objectNode_ground {o : Object} (h : oblanks o = []) (b : Str) : objectNode o ≠ .blank b := by
  cases o with
  | blank c => simp [oblanks] at h
  | lit l =>
    obtain ⟨t, d, g⟩ := l
    cases d <;> cases g <;> simp [objectNode, literalNode]
  | _ => simp [objectNode]

theorem made_ground {gen : Nat → Str} {k : Nat} {p : Iri} {o : Object} (h : oblanks o = []) :
    LabelsMade gen (tripleOf (.mk (.blank (gen k)) p o)) := by
  rintro b (hb | hb)
  · exact ⟨k, by simpa [tripleOf, Stmt.subject, subjectNode] using hb.symm⟩
  · exact absurd hb (objectNode_ground h b)

theorem made_link {gen : Nat → Str} {k j : Nat} {p : Iri} : LabelsMade gen (tripleOf (.mk (.blank (gen k)) p (.blank (gen j)))) := by
  rintro b (hb | hb)
  · exact ⟨k, by simpa [tripleOf, Stmt.subject, subjectNode] using hb.symm⟩
  · exact ⟨j, by simpa [tripleOf, Stmt.object, objectNode] using hb.symm⟩

mutual
theorem reify_made {gen : Nat → Str} {n : Nat} : ∀ {u : Stmt}, blanks u = [] → ∀ st ∈ (u.reify gen n).1, LabelsMade gen (tripleOf st)
  | .mk s p o, h, st, hst => by
    simp only [blanks, List.append_eq_nil_iff] at h
    simp only [Stmt.reify, List.mem_cons, List.mem_append] at hst
    rcases hst with rfl | hst | rfl | hst
    · exact made_ground (by simp [oblanks])
    · exact subject_made h.1 st hst
    · exact made_ground (by simp [oblanks])
    · exact object_made h.2 st hst
theorem subject_made {gen : Nat → Str} {k n : Nat} : ∀ {s : Subject}, sblanks s = [] →
    ∀ st ∈ (s.reify gen (gen k) n).1, LabelsMade gen (tripleOf st)
  | .blank b, h, st, hst => by simp [sblanks] at h
  | .res i, h, st, hst => by
    simp only [Subject.reify, List.mem_singleton] at hst
    rw [hst]; exact made_ground (by simp [oblanks])
  | .stmt t, h, st, hst => by
    simp only [Subject.reify, List.mem_append, List.mem_singleton] at hst
    rcases hst with hst | rfl
    · exact reify_made (by simpa [sblanks] using h) st hst
    · exact made_link
theorem object_made {gen : Nat → Str} {k n : Nat} : ∀ {o : Object}, oblanks o = [] →
    ∀ st ∈ (o.reify gen (gen k) n).1, LabelsMade gen (tripleOf st)
  | .blank b, h, st, hst => by simp [oblanks] at h
  | .res i, h, st, hst => by
    simp only [Object.reify, List.mem_singleton] at hst
    rw [hst]; exact made_ground h
  | .lit l, h, st, hst => by
    simp only [Object.reify, List.mem_singleton] at hst
    rw [hst]; exact made_ground h
  | .coll c, h, st, hst => by
    simp only [Object.reify, List.mem_singleton] at hst
    rw [hst]; exact made_ground h
  | .stmt t, h, st, hst => by
    simp only [Object.reify, List.mem_append, List.mem_singleton] at hst
    rcases hst with hst | rfl
    · exact reify_made (by simpa [oblanks] using h) st hst
    · exact made_link
end

theorem cells_made {gen : Nat → Str} : ∀ (c : List Object) (k n : Nat), cblanks c = [] →
    ∀ st ∈ (collCells gen (gen k) n c).1, LabelsMade gen (tripleOf st)
  | [], k, n, h, st, hst => by simp [collCells] at hst
  | [o], k, n, h, st, hst => by
    simp only [cblanks, List.append_eq_nil_iff] at h
    simp only [collCells, List.mem_cons, List.not_mem_nil, or_false] at hst
    rcases hst with rfl | rfl | rfl
    · exact made_ground (by simp [oblanks])
    · exact made_ground h.1
    · exact made_ground (by simp [oblanks])
  | o :: o' :: os, k, n, h, st, hst => by
    rw [cblanks, List.append_eq_nil_iff] at h
    simp only [collCells, List.cons_append, List.nil_append, List.mem_cons] at hst
    rcases hst with rfl | rfl | rfl | hst
    · exact made_ground (by simp [oblanks])
    · exact made_ground h.1
    · exact made_link
    · exact cells_made (o' :: os) n (n + 1) h.2 st hst

/-- The label is that of a subject or object of the graph. -/
def TopBlank (l : List Stmt) (b : Str) : Prop := ∃ t ∈ l, t.subject = .blank b ∨ t.object = .blank b

open Classical in
/-- Nodes with some labels become IRIs. -/
noncomputable def skolemNode (P : Str → Prop) (f : Str → Iri) : Node → Node
  | .blank b => if P b then .iri (f b).text else .blank b
  | x => x

theorem skolemNode_instance (P : Str → Prop) (f : Str → Iri) : IsInstance (skolemNode P f) := by
  intro x hx
  cases x <;> first | rfl | exact (hx trivial).elim

theorem made_fixed {gen : Nat → Str} {P : Str → Prop} {f : Str → Iri} (hP : ∀ k, ¬ P (gen k)) {t : Triple} (h : LabelsMade gen t) :
    mapTriple (skolemNode P f) t = t := by
  have key : ∀ x : Node, (∀ b, x = .blank b → ∃ k, b = gen k) → skolemNode P f x = x := by
    intro x hx
    cases x with
    | blank b =>
      obtain ⟨k, rfl⟩ := hx b rfl
      simp [skolemNode, hP k]
    | _ => rfl
  obtain ⟨s, p, o⟩ := t
  simp only [mapTriple, key s fun b hb => h b (.inl hb), key o fun b hb => h b (.inr hb)]

theorem subject_skolem {P : Str → Prop} {f : Str → Iri} {s : Subject} (h : ∀ b, s = .blank b → P b) :
    subjectNode (skolemS f s) = skolemNode P f (subjectNode s) := by
  cases s with
  | blank b => simp [skolemS, subjectNode, skolemNode, h b rfl]
  | _ => rfl

theorem object_skolem {P : Str → Prop} {f : Str → Iri} {o : Object} (h : ∀ b, o = .blank b → P b) :
    objectNode (skolemO f o) = skolemNode P f (objectNode o) := by
  cases o with
  | blank b => simp [skolemO, objectNode, skolemNode, h b rfl]
  | lit l =>
    obtain ⟨t, d, g⟩ := l
    cases d <;> cases g <;> rfl
  | _ => rfl

/-- Making a statement simple and replacing its blank nodes can be exchanged. -/
theorem simplifyStmt_skolem {gen : Nat → Str} {P : Str → Prop} {f : Str → Iri} (hP : ∀ k, ¬ P (gen k)) (n : Nat) (t : Stmt)
    (ht : ∀ b, t.subject = .blank b ∨ t.object = .blank b → P b) (hn : nestedBlanks t = []) :
    (simplifyStmt gen n (.mk (skolemS f t.subject) t.predicate (skolemO f t.object))).1.map tripleOf =
      (simplifyStmt gen n t).1.map (fun x => mapTriple (skolemNode P f) (tripleOf x)) ∧
    (simplifyStmt gen n (.mk (skolemS f t.subject) t.predicate (skolemO f t.object))).2 = (simplifyStmt gen n t).2 := by
  obtain ⟨s, p, o⟩ := t
  simp only [Stmt.subject, Stmt.object, Stmt.predicate] at ht ⊢
  have fixed : ∀ l : List Stmt, (∀ st ∈ l, LabelsMade gen (tripleOf st)) →
      l.map tripleOf = l.map (fun x => mapTriple (skolemNode P f) (tripleOf x)) := fun l hl =>
    List.map_congr_left fun st hst => (made_fixed hP (hl st hst)).symm
  have hs := subject_skolem (f := f) fun b hb => ht b (.inl hb)
  have ho := object_skolem (f := f) fun b hb => ht b (.inr hb)
  have hg : ∀ k, skolemNode P f (.blank (gen k)) = .blank (gen k) := fun k => by simp [skolemNode, hP k]
  simp only [nestedBlanks, List.append_eq_nil_iff, Stmt.subject, Stmt.object] at hn
  cases s with
  | stmt u =>
    simp only [skolemS, simplifyStmt, List.map_cons]
    refine ⟨?_, trivial⟩
    rw [fixed _ (reify_made (by simpa [sblanks] using hn.1))]
    simp only [tripleOf, mapTriple, Stmt.subject, Stmt.object, Stmt.predicate, ho, subjectNode, hg]
  | _ =>
    cases o with
    | stmt u =>
      simp only [skolemS, skolemO, simplifyStmt, List.map_cons]
      refine ⟨?_, trivial⟩
      rw [fixed _ (reify_made (by simpa [oblanks] using hn.2))]
      simp only [tripleOf, mapTriple, Stmt.subject, Stmt.object, Stmt.predicate, objectNode, hg]
      rw [← hs]; rfl
    | coll c =>
      cases c with
      | nil =>
        simp only [skolemS, skolemO, simplifyStmt, List.map_cons, collReify]
        refine ⟨?_, trivial⟩
        simp only [tripleOf, mapTriple, Stmt.subject, Stmt.object, Stmt.predicate, List.map_nil]
        rw [← hs]; rfl
      | cons x c =>
        simp only [skolemS, skolemO, simplifyStmt, List.map_cons, collReify]
        refine ⟨?_, trivial⟩
        rw [fixed _ (cells_made (x :: c) n (n + 1) (by simpa [oblanks] using hn.2))]
        simp only [tripleOf, mapTriple, Stmt.subject, Stmt.object, Stmt.predicate, Subject.toObject, objectNode, hg]
        rw [← hs]; rfl
    | _ =>
      simp only [skolemS, skolemO, simplifyStmt, List.map_cons, List.map_nil]
      refine ⟨?_, trivial⟩
      simp only [tripleOf, mapTriple, Stmt.subject, Stmt.object, Stmt.predicate]
      rw [← hs, ← ho]; rfl

theorem simplifyAll_skolem {gen : Nat → Str} {P : Str → Prop} {f : Str → Iri} (hP : ∀ k, ¬ P (gen k)) :
    ∀ (l : List Stmt) (n : Nat), (∀ t ∈ l, ∀ b, t.subject = .blank b ∨ t.object = .blank b → P b) →
    (∀ t ∈ l, nestedBlanks t = []) →
    (simplifyAll gen n (l.map fun t => .mk (skolemS f t.subject) t.predicate (skolemO f t.object))).1.map tripleOf =
      (simplifyAll gen n l).1.map (fun x => mapTriple (skolemNode P f) (tripleOf x))
  | [], n, _, _ => rfl
  | t :: l, n, h, hn => by
    obtain ⟨h1, h2⟩ := simplifyStmt_skolem (f := f) hP n t (h t (List.mem_cons_self ..)) (hn t (List.mem_cons_self ..))
    simp only [List.map_cons, simplifyAll, List.map_append, h1, h2]
    rw [simplifyAll_skolem hP l _ (fun t ht => h t (List.mem_cons_of_mem _ ht)) (fun t ht => hn t (List.mem_cons_of_mem _ ht))]

/-- The triples of a graph: those of its statements after they were made simple. -/
def graphTriples (gen : Nat → Str) (n : Nat) (g : Graph) : List Triple := (g.simplify gen n).1.stmts.map tripleOf

theorem skolem_triples {uuid : Nat → Str} (hu : ∀ i j, uuid i = uuid j → i = j) {base : Iri} {g g' : Graph}
    (h : g.skolemize uuid base = some g') {gen : Nat → Str} {n : Nat} (hgen : ∀ k, ¬ TopBlank g.stmts (gen k))
    (hn : ∀ t ∈ g.stmts, nestedBlanks t = []) :
    ∃ f : Str → Iri, graphTriples gen n g' = (graphTriples gen n g).map (mapTriple (skolemNode (TopBlank g.stmts) f)) ∧
      (∀ b b', TopBlank g.stmts b → TopBlank g.stmts b' → f b = f b' → b = b') ∧
      ∀ b, TopBlank g.stmts b → ∃ k, f b = genidIri base (uuid k) := by
  obtain ⟨f, h1, h2, h3⟩ := C35_consistent_partial uuid hu base g g' h
  refine ⟨f, ?_, fun b b' ⟨t, ht, hb⟩ ⟨t', ht', hb'⟩ => h2 t ht t' ht' b b' hb hb', fun b ⟨t, ht, hb⟩ => h3 t ht b hb⟩
  unfold graphTriples
  rw [simplify_stmts, simplify_stmts, h1,
    simplifyAll_skolem hgen g.stmts n (fun t ht b hb => ⟨t, ht, hb⟩) hn, List.map_map]
  rfl

/-- C168: the graph follows from the one with IRIs for its blank nodes, if no blank nodes are nested. -/
theorem C168_partial (uuid : Nat → Str) (hu : ∀ i j, uuid i = uuid j → i = j) (base : Iri) (g g' : Graph)
    (h : g.skolemize uuid base = some g') (gen : Nat → Str) (n : Nat) (hgen : ∀ k, ¬ TopBlank g.stmts (gen k))
    (hn : ∀ t ∈ g.stmts, nestedBlanks t = []) :
    Entails (graphTriples gen n g') (graphTriples gen n g) := by
  obtain ⟨f, h1, -, -⟩ := skolem_triples hu h (n := n) hgen hn
  rw [C168_interpolation, h1]
  exact ⟨_, skolemNode_instance _ f, fun t ht => List.mem_map_of_mem ht⟩

/-- C168, nothing more follows: what does not mention the new IRIs follows from the graph with IRIs for its blank nodes
exactly when it follows from the graph, if no blank nodes are nested and the new IRIs were not in use. -/
theorem C168_iff (uuid : Nat → Str) (hu : ∀ i j, uuid i = uuid j → i = j) (base : Iri) (g g' : Graph)
    (h : g.skolemize uuid base = some g') (gen : Nat → Str) (n : Nat) (hgen : ∀ k, ¬ TopBlank g.stmts (gen k))
    (hn : ∀ t ∈ g.stmts, nestedBlanks t = [])
    (hnew : ∀ k, ¬ Mentions (graphTriples gen n g) (genidIri base (uuid k)).text)
    (M : List Triple) (hM : ∀ k, ¬ Mentions M (genidIri base (uuid k)).text) :
    Entails (graphTriples gen n g') M ↔ Entails (graphTriples gen n g) M := by
  obtain ⟨f, h1, h2, h3⟩ := skolem_triples hu h (n := n) hgen hn
  refine ⟨fun he => ?_, fun he => entails_trans (C168_partial uuid hu base g g' h gen n hgen hn) he⟩
  rw [C168_interpolation, h1] at he
  rw [C168_interpolation]
  obtain ⟨σ, hσ, hm⟩ := he
  have key : ∀ x, ∃ y, (¬ x.IsBlank → y = x) ∧ ∀ z, InTriples (graphTriples gen n g) z → (¬ x.IsBlank → InTriples M x) →
      σ x = skolemNode (TopBlank g.stmts) f z → y = z := by
    have minted : ∀ b, TopBlank g.stmts b → ¬ InTriples (graphTriples gen n g) (.iri (f b).text) := by
      intro b hb hi
      obtain ⟨k, hk⟩ := h3 b hb
      rw [hk] at hi
      exact hnew k hi
    have inj : ∀ z z', InTriples (graphTriples gen n g) z → InTriples (graphTriples gen n g) z' →
        skolemNode (TopBlank g.stmts) f z = skolemNode (TopBlank g.stmts) f z' → z = z' := by
      have one : ∀ b, TopBlank g.stmts b → ∀ z, InTriples (graphTriples gen n g) z →
          Node.iri (f b).text = skolemNode (TopBlank g.stmts) f z → Node.blank b = z := by
        intro b hb z hz he
        cases z with
        | blank c =>
          simp only [skolemNode] at he
          split at he
          · rename_i hc
            injection he with he
            have : f b = f c := by
              cases h5 : f b
              cases h6 : f c
              rw [h5, h6] at he
              simpa using he
            rw [h2 b c hb hc this]
          · cases he
        | iri i =>
          have he : Node.iri (f b).text = .iri i := he
          rw [← he] at hz
          exact absurd hz (minted b hb)
        | _ => simp [skolemNode] at he
      intro z z' hz hz' he
      by_cases hb : ∃ b, z = .blank b ∧ TopBlank g.stmts b
      · obtain ⟨b, rfl, hb⟩ := hb
        exact one b hb z' hz' (by rw [← he]; simp [skolemNode, hb])
      · by_cases hb' : ∃ b, z' = .blank b ∧ TopBlank g.stmts b
        · obtain ⟨b, rfl, hb'⟩ := hb'
          exact (one b hb' z hz (by rw [he]; simp [skolemNode, hb'])).symm
        · have same : ∀ z, (¬ ∃ b, z = .blank b ∧ TopBlank g.stmts b) → skolemNode (TopBlank g.stmts) f z = z := by
            intro z hz
            cases z with
            | blank b =>
              have : ¬ TopBlank g.stmts b := fun hb => hz ⟨b, rfl, hb⟩
              simp [skolemNode, this]
            | _ => rfl
          rwa [same z hb, same z' hb'] at he
    intro x
    by_cases hx : x.IsBlank
    · by_cases hz : ∃ z, InTriples (graphTriples gen n g) z ∧ σ x = skolemNode (TopBlank g.stmts) f z
      · obtain ⟨z, hz, hz'⟩ := hz
        exact ⟨z, fun h => absurd hx h, fun w hw _ hw' => inj z w hz hw (by rw [← hz', hw'])⟩
      · exact ⟨x, fun _ => rfl, fun z h1 _ h2 => absurd ⟨z, h1, h2⟩ hz⟩
    · refine ⟨x, fun _ => rfl, fun z hz hi he => ?_⟩
      have hi := hi hx
      rw [hσ x hx] at he
      cases z with
      | blank b =>
        simp only [skolemNode] at he
        split at he
        · rename_i hb
          obtain ⟨k, hk⟩ := h3 b hb
          rw [he, hk] at hi
          exact absurd hi (hM k)
        · exact he
      | _ => exact he
  obtain ⟨τ, hτ⟩ := Classical.skolem (p := fun x y => (¬ x.IsBlank → y = x) ∧ ∀ z, InTriples (graphTriples gen n g) z →
    (¬ x.IsBlank → InTriples M x) → σ x = skolemNode (TopBlank g.stmts) f z → y = z) |>.1 key
  refine ⟨τ, fun x => (hτ x).1, fun t ht => ?_⟩
  obtain ⟨u, hu', hue⟩ := List.mem_map.1 (hm t ht)
  have e1 : skolemNode (TopBlank g.stmts) f u.s = σ t.s := congrArg Triple.s hue
  have e2 : u.p = t.p := by injection hue
  have e3 : skolemNode (TopBlank g.stmts) f u.o = σ t.o := congrArg Triple.o hue
  have : mapTriple τ t = u := by
    unfold mapTriple
    rw [(hτ t.s).2 u.s ⟨u, hu', .inl rfl⟩ (fun _ => ⟨t, ht, .inl rfl⟩) e1.symm,
      (hτ t.o).2 u.o ⟨u, hu', .inr rfl⟩ (fun _ => ⟨t, ht, .inr rfl⟩) e3.symm, ← e2]
  rw [this]
  exact hu'

/-- C168 in full: the graph follows from the one with IRIs for its blank nodes. -/
def C168_statement : Prop :=
  ∀ (uuid : Nat → Str), (∀ i j, uuid i = uuid j → i = j) → ∀ (base : Iri) (g g' : Graph),
    g.skolemize uuid base = some g' → ∀ (gen : Nat → Str) (n : Nat), (∀ i j, gen i = gen j → i = j) →
    (∀ t ∈ g.stmts, ∀ k, gen k ∉ blanks t) → Entails (graphTriples gen n g') (graphTriples gen n g)

/-- A member of a collection that is described. -/
def listedGraph : Graph := Graph.default.extend
  [.mk (.res ⟨str! "http://a/s"⟩) ⟨str! "http://a/p"⟩ (.coll [.blank (str! "x")]),
   .mk (.blank (str! "x")) ⟨str! "http://a/q"⟩ (.res ⟨str! "http://a/o"⟩)]

/-- C168 fails: a member of a collection keeps its label, and what is said of it does not. -/
theorem C168_fails : ¬ C168_statement := by
  intro h
  have hg : ∀ i j, blankGen i = blankGen j → i = j := fun i j e => by
    simp only [blankGen, List.cons.injEq, true_and] at e
    exact toDigits_inj e
  cases hs : listedGraph.skolemize (Nat.toDigits 10) ⟨str! "http://a/"⟩ with
  | none => revert hs; decide +kernel
  | some g' =>
    have he := h (Nat.toDigits 10) (fun _ _ => toDigits_inj) ⟨str! "http://a/"⟩ listedGraph g' hs blankGen 0 hg (by
      intro t ht k hk
      have hx : ∀ t ∈ listedGraph.stmts, ∀ b ∈ blanks t, b = ['x'] := by decide +kernel
      have := hx t ht _ hk
      simp [blankGen] at this)
    rw [C168_interpolation] at he
    obtain ⟨σ, hσ, hm⟩ := he
    have hL : graphTriples blankGen 0 g' =
        [⟨.iri (str! "http://a/s"), str! "http://a/p", .blank (blankGen 0)⟩,
         ⟨.blank (blankGen 0), rdfType.text, .iri rdfList.text⟩,
         ⟨.blank (blankGen 0), rdfFirst.text, .blank ['x']⟩,
         ⟨.blank (blankGen 0), rdfRest.text, .iri rdfNil.text⟩,
         ⟨.iri (str! "http://a/.well-known/genid/0"), str! "http://a/q", .iri (str! "http://a/o")⟩] := by
      have : (listedGraph.skolemize (Nat.toDigits 10) ⟨str! "http://a/"⟩).map (graphTriples blankGen 0) = some
        [⟨.iri (str! "http://a/s"), str! "http://a/p", .blank (blankGen 0)⟩,
         ⟨.blank (blankGen 0), rdfType.text, .iri rdfList.text⟩,
         ⟨.blank (blankGen 0), rdfFirst.text, .blank ['x']⟩,
         ⟨.blank (blankGen 0), rdfRest.text, .iri rdfNil.text⟩,
         ⟨.iri (str! "http://a/.well-known/genid/0"), str! "http://a/q", .iri (str! "http://a/o")⟩] := by decide +kernel
      rw [hs] at this
      exact Option.some.inj this
    have m1 := hm ⟨.blank (blankGen 0), rdfFirst.text, .blank ['x']⟩ (by decide +kernel)
    have m2 := hm ⟨.blank ['x'], str! "http://a/q", .iri (str! "http://a/o")⟩ (by decide +kernel)
    rw [hL] at m1 m2
    have p1 : ∀ a b : Node, (⟨a, rdfFirst.text, b⟩ : Triple) ∈
        [⟨.iri (str! "http://a/s"), str! "http://a/p", .blank (blankGen 0)⟩,
         ⟨.blank (blankGen 0), rdfType.text, .iri rdfList.text⟩,
         ⟨.blank (blankGen 0), rdfFirst.text, .blank ['x']⟩,
         ⟨.blank (blankGen 0), rdfRest.text, .iri rdfNil.text⟩,
         ⟨.iri (str! "http://a/.well-known/genid/0"), str! "http://a/q", .iri (str! "http://a/o")⟩] → b = .blank ['x'] := by
      intro a b hab
      simp only [List.mem_cons, List.not_mem_nil, or_false, Triple.mk.injEq] at hab
      rcases hab with ⟨-, h, -⟩ | ⟨-, h, -⟩ | ⟨-, -, h⟩ | ⟨-, h, -⟩ | ⟨-, h, -⟩
      · exact absurd h (by decide +kernel)
      · exact absurd h (by decide +kernel)
      · exact h
      · exact absurd h (by decide +kernel)
      · exact absurd h (by decide +kernel)
    have e1 := p1 _ _ m1
    simp only [mapTriple, e1] at m2
    rw [hσ (.iri (str! "http://a/o")) (fun h => h.elim)] at m2
    revert m2
    decide +kernel

/-- C168, with a new IRI that was in use already: more follows from the graph with IRIs. -/
theorem C168_fails_used : ∃ (g g' : Graph) (M : List Triple), g.skolemize (Nat.toDigits 10) ⟨str! "http://a/"⟩ = some g' ∧
    (∀ t ∈ g.stmts, nestedBlanks t = []) ∧ (∀ s, ¬ Mentions M s ∨ s = str! "http://a/o") ∧
    Entails (graphTriples blankGen 0 g') M ∧ ¬ Entails (graphTriples blankGen 0 g) M := by
  refine ⟨Graph.default.extend
    [.mk (.res ⟨str! "http://a/.well-known/genid/0"⟩) ⟨str! "http://a/p"⟩ (.res ⟨str! "http://a/o"⟩),
     .mk (.blank (str! "x")) ⟨str! "http://a/q"⟩ (.res ⟨str! "http://a/o"⟩)], Graph.default.extend
    [.mk (.res ⟨str! "http://a/.well-known/genid/0"⟩) ⟨str! "http://a/p"⟩ (.res ⟨str! "http://a/o"⟩),
     .mk (.res ⟨str! "http://a/.well-known/genid/0"⟩) ⟨str! "http://a/q"⟩ (.res ⟨str! "http://a/o"⟩)],
    [⟨.blank ['y'], str! "http://a/p", .iri (str! "http://a/o")⟩, ⟨.blank ['y'], str! "http://a/q", .iri (str! "http://a/o")⟩],
    rfl, by decide +kernel, ?_, ?_, ?_⟩
  · intro s
    by_cases h : s = str! "http://a/o"
    · exact .inr h
    · refine .inl fun ⟨t, ht, hs⟩ => h ?_
      rcases List.mem_cons.1 ht with rfl | ht
      · rcases hs with hs | hs <;> simp_all
      · rw [List.mem_singleton.1 ht] at hs
        rcases hs with hs | hs <;> simp_all
  · rw [C168_interpolation]
    refine ⟨overlay fun _ => .iri (str! "http://a/.well-known/genid/0"), overlay_instance _, ?_⟩
    decide +kernel
  · rw [C168_interpolation]
    rintro ⟨σ, hσ, hm⟩
    have m1 := hm _ (List.mem_cons_self ..)
    have m2 := hm _ (List.mem_cons_of_mem _ (List.mem_singleton.2 rfl))
    simp only [mapTriple, hσ (.iri (str! "http://a/o")) (fun h => h.elim)] at m1 m2
    have hG : graphTriples blankGen 0 (Graph.default.extend
      [.mk (.res ⟨str! "http://a/.well-known/genid/0"⟩) ⟨str! "http://a/p"⟩ (.res ⟨str! "http://a/o"⟩),
       .mk (.blank (str! "x")) ⟨str! "http://a/q"⟩ (.res ⟨str! "http://a/o"⟩)]) =
      [⟨.iri (str! "http://a/.well-known/genid/0"), str! "http://a/p", .iri (str! "http://a/o")⟩,
       ⟨.blank ['x'], str! "http://a/q", .iri (str! "http://a/o")⟩] := by decide +kernel
    rw [hG] at m1 m2
    have ne : str! "http://a/p" ≠ str! "http://a/q" := by decide +kernel
    rcases List.mem_cons.1 m1 with m1 | m1
    · rcases List.mem_cons.1 m2 with m2 | m2
      · exact ne (congrArg Triple.p m2).symm
      · have m2 := List.mem_singleton.1 m2
        injection m1 with m1
        injection m2 with m2
        rw [m1] at m2
        cases m2
    · exact ne (congrArg Triple.p (List.mem_singleton.1 m1))

/-- An unnamed thing with a collection. -/
def ownerGraph : Graph :=
  Graph.default.extend [.mk (.blank (str! "x")) ⟨str! "http://a/q"⟩ (.coll [.res ⟨str! "http://a/o"⟩])]

/-- The hypotheses hold together. -/
example : ∃ g', ownerGraph.skolemize
    (Nat.toDigits 10) ⟨str! "http://a/"⟩ = some g' ∧ Entails (graphTriples blankGen 0 g')
      [⟨.fresh 0, str! "http://a/q", .fresh 1⟩, ⟨.fresh 1, rdfFirst.text, .iri (str! "http://a/o")⟩] := by
  obtain ⟨g', hg⟩ : ∃ g', ownerGraph.skolemize (Nat.toDigits 10) ⟨str! "http://a/"⟩ = some g' := ⟨_, rfl⟩
  refine ⟨g', hg, ?_⟩
  rw [C168_iff (Nat.toDigits 10) (fun _ _ => toDigits_inj) ⟨str! "http://a/"⟩ ownerGraph g' hg blankGen 0 ?_ (by decide +kernel) ?_ _ ?_]
  · rw [C168_interpolation]
    refine ⟨overlay fun x => if x = .fresh 0 then .blank ['x'] else .blank (blankGen 0), overlay_instance _, ?_⟩
    decide +kernel
  · rintro k ⟨t, ht, hb⟩
    rw [ownerGraph, extend_default] at ht
    rw [List.mem_singleton.1 ht] at hb
    simp [Stmt.subject, Stmt.object, blankGen] at hb
  · rintro k ⟨t, ht, hb⟩
    have hx : ∀ t ∈ graphTriples blankGen 0 ownerGraph,
        ∀ s ∈ [t.s, t.o], s = .blank ['x'] ∨ s = .blank (blankGen 0) ∨ s = .iri rdfList.text ∨ s = .iri (str! "http://a/o") ∨
          s = .iri rdfNil.text := by decide +kernel
    have hy : ∀ s ∈ [rdfList.text, str! "http://a/o", rdfNil.text], s.take 18 ≠ (str! "http://a/.well-known").take 18 := by
      decide +kernel
    have ht18 : ((genidIri ⟨str! "http://a/"⟩ (Nat.toDigits 10 k)).text).take 18 = (str! "http://a/.well-known").take 18 := by
      have : (genidIri ⟨str! "http://a/"⟩ (Nat.toDigits 10 k)).text = str! "http://a/.well-known/genid/" ++ Nat.toDigits 10 k := rfl
      rw [this, List.take_append_of_le_length (by decide +kernel)]
      decide +kernel
    rcases hx t ht (.iri (genidIri ⟨str! "http://a/"⟩ (Nat.toDigits 10 k)).text) (by simpa using hb) with h | h | h | h | h
    · cases h
    · cases h
    all_goals
      injection h with h
      rw [h] at ht18
      exact hy _ (by simp) ht18
  · rintro k ⟨t, ht, hb⟩
    have ht18 : ((genidIri ⟨str! "http://a/"⟩ (Nat.toDigits 10 k)).text).take 10 = (str! "http://a/.well-known").take 10 := by
      have : (genidIri ⟨str! "http://a/"⟩ (Nat.toDigits 10 k)).text = str! "http://a/.well-known/genid/" ++ Nat.toDigits 10 k := rfl
      rw [this, List.take_append_of_le_length (by decide +kernel)]
      decide +kernel
    rcases List.mem_cons.1 ht with rfl | ht
    · rcases hb with hb | hb <;> cases hb
    · rw [List.mem_singleton.1 ht] at hb
      rcases hb with hb | hb
      · cases hb
      · injection hb with hb
        rw [hb] at ht18
        exact absurd ht18 (by decide +kernel)

/-! ### Turtle -/

/-- C169: what the Turtle text of a graph says follows from the graph, whatever becomes of its blank nodes, if no predicate
is written as another. -/
theorem C169_sound (pr : Char → Bool) (url : Str → Option Iri) (opts : TurtleOptions)
    (o : Orders) (gen : Nat → Str) (k n : Nat) (g : Graph) (s : Str) (hfair : o.Fair)
    (hw : 0 < opts.width) (hc : opts.convert = []) (hm : Reachable g.mappings)
    (hd : DirectivesFaithful opts g.mappings)
    (hst : ∀ t ∈ g.stmts, StmtReadable (turtleEnv pr url opts o g) t)
    (h : writeTurtle pr url .bare opts o gen k n g = .ok s) (hp : ∀ t ∈ g.stmts, t.predicate ∉ mistyped) :
    ∃ L, readTurtle s = some L ∧ Entails (g.stmts.map tripleSays) L := by
  obtain ⟨L, σ, hL, hs⟩ := C129_says pr url opts o gen k n g s hfair hw hc hm hd hst h
  refine ⟨L, hL, ?_⟩
  rw [C168_interpolation]
  refine ⟨renameNode σ, fun x hx => ?_, fun x hx => ?_⟩
  · cases x <;> first | rfl | exact (hx trivial).elim
  · obtain ⟨t, ht, e⟩ := (hs _).1 ⟨x, hx, rfl⟩
    have e : mapTriple (renameNode σ) x = tripleWritten t := e
    rw [e, tripleWritten_eq (hp t ht)]
    exact List.mem_map_of_mem ht

/-- C169, a graph with a predicate that is written as another does not follow from its text. -/
theorem C169_needs (pr : Char → Bool) (url : Str → Option Iri) (opts : TurtleOptions)
    (o : Orders) (gen : Nat → Str) (k n : Nat) (g : Graph) (s : Str) (hfair : o.Fair)
    (hw : 0 < opts.width) (hc : opts.convert = []) (hm : Reachable g.mappings)
    (hd : DirectivesFaithful opts g.mappings)
    (hst : ∀ t ∈ g.stmts, StmtReadable (turtleEnv pr url opts o g) t)
    (h : writeTurtle pr url .bare opts o gen k n g = .ok s) (L : List Triple) (hL : readTurtle s = some L)
    (he : Entails L (g.stmts.map tripleSays)) : ∀ t ∈ g.stmts, t.predicate ∉ mistyped := by
  obtain ⟨L', σ, hL', hs⟩ := C129_says pr url opts o gen k n g s hfair hw hc hm hd hst h
  rw [hL] at hL'
  cases hL'
  rw [C168_interpolation] at he
  obtain ⟨τ, -, hτ⟩ := he
  intro t ht hmis
  obtain ⟨t', -, e⟩ := (hs _).1 ⟨_, hτ _ (List.mem_map_of_mem ht), rfl⟩
  have h1 : t.predicate.text = (verbSays t'.predicate).text := congrArg Triple.p e
  have h2 : t.predicate = verbSays t'.predicate := by
    cases h5 : t.predicate
    cases h4 : verbSays t'.predicate
    rw [h5, h4] at h1
    simpa using h1
  exact verbSays_right _ (h2 ▸ hmis)

/-- C169, exactly, for graphs without blank nodes as objects or text without nested nodes: text and graph follow from each
other if and only if no predicate is written as another. -/
theorem C169_iff (pr : Char → Bool) (url : Str → Option Iri) (opts : TurtleOptions)
    (o : Orders) (gen : Nat → Str) (k n : Nat) (g : Graph) (s : Str) (hfair : o.Fair)
    (hw : 0 < opts.width) (hc : opts.convert = []) (hm : Reachable g.mappings)
    (hd : DirectivesFaithful opts g.mappings)
    (hst : ∀ t ∈ g.stmts, StmtReadable (turtleEnv pr url opts o g) t)
    (h : writeTurtle pr url .bare opts o gen k n g = .ok s)
    (hb : opts.nest = true → ∀ t ∈ g.stmts, ∀ b, t.object ≠ .blank b) :
    (∃ L, readTurtle s = some L ∧ Entails (g.stmts.map tripleSays) L ∧ Entails L (g.stmts.map tripleSays)) ↔
      ∀ t ∈ g.stmts, t.predicate ∉ mistyped := by
  constructor
  · rintro ⟨L, hL, -, he⟩
    exact C169_needs pr url opts o gen k n g s hfair hw hc hm hd hst h L hL he
  · intro hp
    obtain ⟨L, hL, hi⟩ := (C129_iff pr url opts o gen k n g s hfair hw hc hm hd hst h).2
      ⟨hp, fun hn t ht b e => absurd e (hb hn t ht b)⟩
    exact ⟨L, hL, (isomorphic_entails hi).2, (isomorphic_entails hi).1⟩

/-- C169 in full, for documents of N-Triples: the graph that was read and the Turtle that was written follow from each
other. -/
def C169_statement (sty : IriStyle) : Prop :=
  ∀ (e : CliEnv) (s out : Str) (g : Graph), e.sty = sty → StrictEnv e.read → WebUrl e.read.url → AsciiPrintable e.read.pr →
    e.orders.Fair → Printed e.read.pr s → readNt e.read s = .ok g →
    cliMain e s (.convert .nTriples .turtle) = .success out →
    ∃ L, readTurtle out = some L ∧ Entails (g.stmts.map tripleOf) L ∧ Entails L (g.stmts.map tripleOf)

/-- C169, half of it: the Turtle that was written follows from the graph that was read, if no predicate is written as
another. -/
theorem C169_partial (e : CliEnv) (s out : Str) (g : Graph) (hb : e.sty = .bare) (he : StrictEnv e.read)
    (hw : WebUrl e.read.url) (hpr : AsciiPrintable e.read.pr) (ho : e.orders.Fair) (hp : Printed e.read.pr s)
    (h : readNt e.read s = .ok g) (hm : ∀ t ∈ g.stmts, t.predicate ∉ mistyped)
    (hout : cliMain e s (.convert .nTriples .turtle) = .success out) :
    ∃ L, readTurtle out = some L ∧ Entails (g.stmts.map tripleOf) L := by
  have hw' := convert_turtle (source := .nTriples) (g := g) (by simp [cliRead, h, Res.toRun]) hout
  rw [hb] at hw'
  have hr := readNt_readable he hw hpr e.orders hp h (readNt_split hb he hpr ho hp h hout)
  have hg : g.mappings = Graph.default.mappings := (readNt_fresh h).nameless.2
  have := C169_sound e.read.pr e.read.url TurtleOptions.default e.orders e.gen e.startWrite e.deep g out ho (by decide) rfl
    (by rw [hg]; exact defaultMappings_reachable) (by rw [hg]; exact defaultMappings_faithful) (fun t ht => (hr t ht).1) hw' hm
  have hmap : g.stmts.map tripleSays = g.stmts.map tripleOf := List.map_congr_left fun t ht => (hr t ht).2
  rwa [hmap] at this

/-- C169 for documents of N-Triples without blank nodes as objects, exactly: graph and Turtle text follow from each other if and
only if no predicate is written as another. -/
theorem C169_nt_iff (e : CliEnv) (s out : Str) (g : Graph) (hb : e.sty = .bare) (he : StrictEnv e.read)
    (hw : WebUrl e.read.url) (hpr : AsciiPrintable e.read.pr) (ho : e.orders.Fair) (hp : Printed e.read.pr s)
    (h : readNt e.read s = .ok g) (hbl : ∀ t ∈ g.stmts, ∀ b, t.object ≠ .blank b)
    (hout : cliMain e s (.convert .nTriples .turtle) = .success out) :
    (∃ L, readTurtle out = some L ∧ Entails (g.stmts.map tripleOf) L ∧ Entails L (g.stmts.map tripleOf)) ↔
      ∀ t ∈ g.stmts, t.predicate ∉ mistyped := by
  have hw' := convert_turtle (source := .nTriples) (g := g) (by simp [cliRead, h, Res.toRun]) hout
  rw [hb] at hw'
  have hr := readNt_readable he hw hpr e.orders hp h (readNt_split hb he hpr ho hp h hout)
  have hg : g.mappings = Graph.default.mappings := (readNt_fresh h).nameless.2
  have := C169_iff e.read.pr e.read.url TurtleOptions.default e.orders e.gen e.startWrite e.deep g out ho (by decide) rfl
    (by rw [hg]; exact defaultMappings_reachable) (by rw [hg]; exact defaultMappings_faithful) (fun t ht => (hr t ht).1) hw'
    fun _ => hbl
  have hmap : g.stmts.map tripleSays = g.stmts.map tripleOf := List.map_congr_left fun t ht => (hr t ht).2
  rwa [hmap] at this

/-- C169 fails: one unnamed thing with two descriptions becomes two; and nothing can be read with the brackets of the
code. -/
theorem C169_fails (sty : IriStyle) : ¬ C169_statement sty := by
  intro h
  obtain ⟨out, ho⟩ := sharedDoc_out sty
  have hp : Printed webEnv.pr sharedDoc := webCli_printed _ (by decide +kernel)
  obtain ⟨L, hL, -, he⟩ := h (webCli sty) sharedDoc out sharedGraph rfl webEnv_strict webEnv_web easyEnv_ascii sameOrder_fair hp
    sharedDoc_read ho
  cases sty with
  | bracketed =>
    rw [C153_fails_bracketed (webCli .bracketed) sharedDoc out .nTriples rfl ho] at hL
    cases hL
  | bare =>
    have hc : (match cliMain (webCli .bare) sharedDoc (.convert .nTriples .turtle) with | .success s => readTurtle s | _ => none) =
      some [⟨.iri (str! "http://a/s"), str! "http://a/p", .fresh 0⟩, ⟨.iri (str! "http://a/t"), str! "http://a/p", .fresh 1⟩] := by
      decide +kernel
    rw [ho] at hc
    have hc : readTurtle out = _ := hc
    rw [hL] at hc
    rw [Option.some.inj hc, C168_interpolation] at he
    obtain ⟨σ, hσ, hm⟩ := he
    have m1 := hm ⟨.iri (str! "http://a/s"), str! "http://a/p", .blank ['b']⟩ (by decide +kernel)
    have m2 := hm ⟨.iri (str! "http://a/t"), str! "http://a/p", .blank ['b']⟩ (by decide +kernel)
    simp only [mapTriple, hσ (.iri (str! "http://a/s")) (fun h => h.elim)] at m1
    simp only [mapTriple, hσ (.iri (str! "http://a/t")) (fun h => h.elim)] at m2
    have ne : Node.iri (str! "http://a/s") ≠ .iri (str! "http://a/t") := by decide +kernel
    rcases List.mem_cons.1 m1 with m1 | m1
    · rcases List.mem_cons.1 m2 with m2 | m2
      · exact ne (congrArg Triple.s m2).symm
      · have m2 := List.mem_singleton.1 m2
        have m1 : σ (.blank ['b']) = .fresh 0 := congrArg Triple.o m1
        have m2 : σ (.blank ['b']) = .fresh 1 := congrArg Triple.o m2
        rw [m1] at m2
        cases m2
    · exact ne (congrArg Triple.s (List.mem_singleton.1 m1))

/-- C169, the condition on predicates is needed: that a class is part of another becomes that it is a member of it, and this
does not follow. -/
theorem C169_fails_type : ∃ (s out : Str) (g : Graph) (L : List Triple), readNt (webCli .bare).read s = .ok g ∧
    cliMain (webCli .bare) s (.convert .nTriples .turtle) = .success out ∧ readTurtle out = some L ∧
    ¬ Entails (g.stmts.map tripleOf) L := by
  have hc : (match cliMain (webCli .bare) (str! "<http://a/s> <http://www.w3.org/2000/01/rdf-schema#subClassOf> <http://a/t> .\n")
      (.convert .nTriples .turtle) with | .success s => readTurtle s | _ => none) =
      some [⟨.iri (str! "http://a/s"), rdfType.text, .iri (str! "http://a/t")⟩] := by
    decide +kernel
  split at hc
  · rename_i out ho
    refine ⟨_, out, Graph.default.insert (.mk (.res ⟨str! "http://a/s"⟩) ⟨str! "http://www.w3.org/2000/01/rdf-schema#subClassOf"⟩
      (.res ⟨str! "http://a/t"⟩)), _, rfl, ho, hc, fun he => ?_⟩
    rw [C168_interpolation] at he
    obtain ⟨σ, hσ, hm⟩ := he
    have m := hm _ (List.mem_singleton.2 rfl)
    have m : rdfType.text = str! "http://www.w3.org/2000/01/rdf-schema#subClassOf" := congrArg Triple.p (List.mem_singleton.1 m)
    exact absurd m (by decide +kernel)
  · cases hc

/-- The hypotheses of `C169_partial` hold together, and not those of C153: the two nodes follow from the one. -/
example : ∃ out L, cliMain (webCli .bare) sharedDoc (.convert .nTriples .turtle) = .success out ∧ readTurtle out = some L ∧
    Entails (sharedGraph.stmts.map tripleOf) L := by
  obtain ⟨out, ho⟩ := sharedDoc_out .bare
  obtain ⟨L, h1, h2⟩ := C169_partial (webCli .bare) sharedDoc out sharedGraph rfl webEnv_strict webEnv_web easyEnv_ascii sameOrder_fair
    (webCli_printed _ (by decide +kernel)) sharedDoc_read (by decide +kernel) ho
  exact ⟨out, L, ho, h1, h2⟩

end Rdftk
