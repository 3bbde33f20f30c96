import Verif.Props.Entail
import Verif.Props.XmlNested

/-!
C170: what follows from nested RDF/XML, by the model theory of RDF.
-/

namespace Rdftk

open Spec

/-- Nodes with other labels. -/
def relabelNode (f : Str → Str) : Node → Node
  | .blank b => .blank (f b)
  | x => x

theorem relabelNode_instance (f : Str → Str) : IsInstance (relabelNode f) := by
  intro x hx
  cases x <;> first | rfl | exact (hx trivial).elim

theorem tripleOf_relabel (f : Str → Str) (t : Stmt) : tripleOf (relabelStmt f t) = mapTriple (relabelNode f) (tripleOf t) := by
  obtain ⟨s, p, o⟩ := t
  have hs : subjectNode (relabelSubject f s) = relabelNode f (subjectNode s) := by cases s <;> rfl
  have ho : objectNode (relabelObject f o) = relabelNode f (objectNode o) := by
    cases o with
    | lit l =>
      obtain ⟨t, d, g⟩ := l
      cases d <;> cases g <;> rfl
    | _ => rfl
  simp only [tripleOf, relabelStmt, mapTriple, Stmt.subject, Stmt.object, Stmt.predicate, hs, ho]

/-- C170, half of it: what nested RDF/XML says follows from the graph, whatever becomes of its blank nodes. -/
theorem C170_sound (gen : Nat → Str) (n : Nat) (enc : Str) (o : Orders) (hf : o.Fair) (d : Nat) (g : Graph)
    (hg : XmlGraph o (g.simplify gen n).1) (es : List XmlOut) (he : writeXml gen n .bare false enc o d g = .ok es)
    (gen' : Nat → Str) (hgen : ∀ i j, gen' i = gen' j → i = j) (k : Nat) :
    ∃ ins T, deliver es = some ins ∧ RdfXml gen' k ins T ∧ Entails (graphTriples gen n g) (T.map tripleOf) := by
  obtain ⟨ins, T, σ, h1, h2, h3⟩ := C80_says gen n enc o hf d g hg es he gen' hgen k
  refine ⟨ins, T, h1, h2, ?_⟩
  rw [C168_interpolation]
  refine ⟨relabelNode σ, relabelNode_instance σ, fun t ht => ?_⟩
  obtain ⟨x, hx, rfl⟩ := List.mem_map.1 ht
  rw [← tripleOf_relabel]
  exact List.mem_map_of_mem ((h3 _).1 ⟨x, hx, rfl⟩).1

/-- C170: text and graph follow from each other if every blank node is reached from an IRI and is the object of one statement
only. -/
theorem C170_partial (gen : Nat → Str) (n : Nat) (enc : Str) (o : Orders) (hf : o.Fair) (d : Nat) (g : Graph)
    (hg : XmlGraph o (g.simplify gen n).1) (es : List XmlOut) (he : writeXml gen n .bare false enc o d g = .ok es)
    (gen' : Nat → Str) (hgen : ∀ i j, gen' i = gen' j → i = j) (k : Nat)
    (hr : ∀ st ∈ (g.simplify gen n).1.stmts, Reached (g.simplify gen n).1.stmts st.subject)
    (ho : OneParent (g.simplify gen n).1.stmts) :
    ∃ ins T, deliver es = some ins ∧ RdfXml gen' k ins T ∧
      Entails (graphTriples gen n g) (T.map tripleOf) ∧ Entails (T.map tripleOf) (graphTriples gen n g) := by
  obtain ⟨ins, T, f, h1, h2, h3, h4⟩ := (C80_iff gen n enc o hf d g hg es he gen' hgen k).2 ⟨hr, ho⟩
  have hT : ∀ st, st ∈ T ↔ ∃ x ∈ (g.simplify gen n).1.stmts, relabelStmt f x = st := h4
  refine ⟨ins, T, h1, h2, ?_, ?_⟩
  · rw [C168_interpolation]
    have key : ∀ y, ∃ x, (¬ y.IsBlank → x = y) ∧ ∀ z, InTriples (graphTriples gen n g) z → relabelNode f z = y → x = z := by
      have lab : ∀ b, InTriples (graphTriples gen n g) (.blank b) → LabelIn (g.simplify gen n).1.stmts b := by
        rintro b ⟨t, ht, hb⟩
        obtain ⟨x, hx, rfl⟩ := List.mem_map.1 ht
        obtain ⟨s, p, o⟩ := x
        refine ⟨_, hx, ?_⟩
        rcases hb with hb | hb
        · left
          cases s <;> first | cases hb; done | (cases hb; rfl)
        · right
          cases o with
          | lit l =>
            obtain ⟨t, d, g⟩ := l
            cases d <;> cases g <;> cases hb
          | _ => first | cases hb; done | (cases hb; rfl)
      have inj : ∀ z z', InTriples (graphTriples gen n g) z → InTriples (graphTriples gen n g) z' →
          relabelNode f z = relabelNode f z' → z = z' := by
        intro z z' hz hz' e
        cases z with
        | blank b =>
          cases z' with
          | blank c =>
            injection e with e
            rw [h3 b c (lab b hz) (lab c hz') e]
          | _ => cases e
        | _ =>
          cases z' with
          | blank c => cases e
          | _ => exact e
      intro y
      by_cases h : ∃ z, InTriples (graphTriples gen n g) z ∧ relabelNode f z = y
      · obtain ⟨z, hz, rfl⟩ := h
        refine ⟨z, fun hb => ?_, fun w hw e => inj z w hz hw e.symm⟩
        cases z <;> first | rfl | exact (hb trivial).elim
      · exact ⟨y, fun _ => rfl, fun z h1 h2 => absurd ⟨z, h1, h2⟩ h⟩
    obtain ⟨σ, hσ⟩ := Classical.skolem (p := fun y x => (¬ Node.IsBlank y → x = y) ∧
      ∀ z, InTriples (graphTriples gen n g) z → relabelNode f z = y → x = z) |>.1 key
    refine ⟨σ, fun x => (hσ x).1, fun t ht => ?_⟩
    obtain ⟨u, hu, rfl⟩ := List.mem_map.1 ht
    obtain ⟨x, hx, rfl⟩ := (hT u).1 hu
    rw [tripleOf_relabel]
    have hm : tripleOf x ∈ graphTriples gen n g := List.mem_map_of_mem hx
    have : mapTriple σ (mapTriple (relabelNode f) (tripleOf x)) = tripleOf x := by
      unfold mapTriple
      rw [(hσ _).2 (tripleOf x).s ⟨_, hm, .inl rfl⟩ rfl, (hσ _).2 (tripleOf x).o ⟨_, hm, .inr rfl⟩ rfl]
    rw [this]; exact hm
  · rw [C168_interpolation]
    refine ⟨relabelNode f, relabelNode_instance f, fun t ht => ?_⟩
    obtain ⟨x, hx, rfl⟩ := List.mem_map.1 ht
    rw [← tripleOf_relabel]
    exact List.mem_map_of_mem ((hT _).2 ⟨x, hx, rfl⟩)

/-- C170 in full: nested RDF/XML and the graph follow from each other. -/
def C170_statement : Prop :=
  ∀ (gen : Nat → Str) (n : Nat) (enc : Str) (o : Orders) (d : Nat) (g : Graph) (es : List XmlOut),
    o.Fair → XmlGraph o (g.simplify gen n).1 → writeXml gen n .bare false enc o d g = .ok es →
    ∀ gen' : Nat → Str, (∀ i j, gen' i = gen' j → i = j) → ∀ k,
    ∃ ins T, deliver es = some ins ∧ RdfXml gen' k ins T ∧
      Entails (graphTriples gen n g) (T.map tripleOf) ∧ Entails (T.map tripleOf) (graphTriples gen n g)

/-- C170 fails: what is said of a blank node that nothing refers to is lost. -/
theorem C170_fails : ¬ C170_statement := by
  intro h
  have hb : ∀ st ∈ (aboutBlank.simplify blankGen 0).1.stmts, ∃ b, st.subject = .blank b := by
    intro st hst
    have : st ∈ [_] := hst
    simp only [List.mem_cons, List.not_mem_nil, or_false] at this
    subst this
    exact ⟨_, rfl⟩
  have hw := C80_fails_lost blankGen 0 .bare (str! "utf-8") sameOrder sameOrder_fair 1 aboutBlank hb
  have hi : ∀ i j, List.replicate i 'a' = List.replicate j 'a' → i = j := fun i j e => by simpa using congrArg List.length e
  obtain ⟨ins, T, h1, h2, -, he⟩ := h blankGen 0 (str! "utf-8") sameOrder 1 aboutBlank _ sameOrder_fair
    (aboutBlank_ok _ sameOrder_fair) hw (fun k => List.replicate k 'a') hi 0
  obtain ⟨ins', T', σ, h1', h2', h3⟩ := C80_says blankGen 0 (str! "utf-8") sameOrder sameOrder_fair 1 aboutBlank
    (aboutBlank_ok _ sameOrder_fair) _ hw (fun k => List.replicate k 'a') hi 0
  rw [h1] at h1'
  cases h1'
  have hT' : T' = [] := by
    refine List.eq_nil_iff_forall_not_mem.2 fun x hx => ?_
    obtain ⟨hm, hr⟩ := (h3 _).1 ⟨x, hx, rfl⟩
    obtain ⟨b, hb⟩ := hb _ hm
    rw [hb] at hr
    cases hr with
    | step _ hm' =>
      have : Stmt.mk _ _ _ ∈ [_] := hm'
      have := List.mem_singleton.1 this
      injection this with _ _ this
      cases this
  have hT : T = [] := by
    refine List.eq_nil_iff_forall_not_mem.2 fun x hx => ?_
    obtain ⟨t, ht, -⟩ := (same_mem (rdfXml_unique h2' h2)).2 x hx
    rw [hT'] at ht
    cases ht
  rw [hT, C168_interpolation] at he
  obtain ⟨σ, -, hm⟩ := he
  have : tripleOf _ ∈ graphTriples blankGen 0 aboutBlank := List.mem_map_of_mem (show _ ∈ [_] from List.mem_singleton.2 rfl)
  exact absurd (hm _ this) (by simp)

/-- The hypotheses hold together. -/
example : ∃ d es ins T, writeXml blankGen 0 .bare false (str! "utf-8") sameOrder d oneBlank = .ok es ∧
    deliver es = some ins ∧ RdfXml (fun k => List.replicate k 'a') 0 ins T ∧
    Entails (graphTriples blankGen 0 oneBlank) (T.map tripleOf) ∧ Entails (T.map tripleOf) (graphTriples blankGen 0 oneBlank) := by
  obtain ⟨d, es, he⟩ := (C80_ends_iff blankGen 0 (str! "utf-8") sameOrder sameOrder_fair oneBlank
    (oneBlank_ok _ sameOrder_fair).1).2 (by
      intro i
      refine ⟨_, ?_⟩
      rintro c ⟨p, b, rfl, h⟩
      rcases oneBlank_stmts h with e | e <;> cases e
      refine ⟨_, ?_⟩
      rintro c ⟨p, b, rfl, h⟩
      rcases oneBlank_stmts h with e | e <;> cases e)
  obtain ⟨ins, T, h⟩ := C170_partial blankGen 0 (str! "utf-8") sameOrder sameOrder_fair d oneBlank
    (oneBlank_ok _ sameOrder_fair) es he (fun k => List.replicate k 'a') (fun i j e => by simpa using congrArg List.length e) 0
    (by
      intro st hst
      rcases oneBlank_stmts hst with rfl | rfl
      · exact .iri _
      · exact .step (p := ⟨str! "http://a/p"⟩) (.iri ⟨str! "http://a/s"⟩) (.head _))
    (by
      intro t ht t' ht' b e e'
      rcases oneBlank_stmts ht with rfl | rfl <;> rcases oneBlank_stmts ht' with rfl | rfl <;>
        first | rfl | (cases e; done) | (cases e'; done))
  exact ⟨d, es, ins, T, he, h⟩

end Rdftk
