import Verif.Model.Trig
import Verif.Lemmas.Str

/-! Property C45: what the TriG writer says about a data set. -/

namespace Rdftk

/-- C45, the full statement: data sets written alike hold the same statements in the graphs of
the same names. -/
def C45_statement (sty : IriStyle) (noKeyword : Bool) : Prop :=
  ∀ d d' : DataSet, writeTrig sty noKeyword d = writeTrig sty noKeyword d' →
    ∀ k, (d.graph k).map Graph.stmts = (d'.graph k).map Graph.stmts

/-- C45: the text depends on nothing but the names of the graphs, whatever they hold. -/
theorem C45_blind (sty : IriStyle) (noKeyword : Bool) (d d' : DataSet)
    (h : d.allGraphs.map Graph.name = d'.allGraphs.map Graph.name) :
    writeTrig sty noKeyword d = writeTrig sty noKeyword d' := by
  unfold writeTrig
  generalize d.allGraphs = l at h
  generalize d'.allGraphs = l' at h
  induction l generalizing l' with
  | nil => cases l' with
    | nil => rfl
    | cons _ _ => simp at h
  | cons g gs ih => cases l' with
    | nil => simp at h
    | cons g' gs' =>
      simp only [List.map_cons, List.cons.injEq] at h
      simp only [List.flatMap_cons, writeTrigGraph, h.1, ih _ h.2]

/-- C45 fails with every option: a graph with a statement is written as the empty graph. -/
theorem C45_fails (sty : IriStyle) (noKeyword : Bool) : ¬ C45_statement sty noKeyword := by
  intro h
  have := h ⟨[(none, Graph.fromIter [.mk (.blank (str! "a")) ⟨str! "http://a/p"⟩ (.blank (str! "b"))])]⟩
    ⟨[(none, Graph.fromIter [])]⟩ (C45_blind _ _ _ _ rfl) none
  have := congrArg (Option.map List.length) this
  revert this
  decide

/-- A name whose text has no blank in it. -/
def SpaceFree : Option GraphName → Prop
  | some (.bnode b) => ' ' ∉ b
  | some (.iri i) => ' ' ∉ i.text
  | none => True

theorem SpaceFree.display {sty : IriStyle} {n : GraphName} (h : SpaceFree (some n)) :
    ' ' ∉ n.display sty := by
  cases n with
  | bnode b => simpa [GraphName.display, SpaceFree] using h
  | iri i => cases sty <;> simpa [GraphName.display, SpaceFree, Iri.fmt] using h

theorem GraphName.display_inj {sty : IriStyle} {a b : GraphName} (h : a.display sty = b.display sty) :
    a = b := by
  cases a with
  | bnode x => cases b with
    | bnode y => simpa [GraphName.display] using h
    | iri j => simp [GraphName.display] at h
  | iri i => cases b with
    | bnode y => simp [GraphName.display] at h
    | iri j =>
      cases i; cases j
      cases sty <;> simpa [GraphName.display, Iri.fmt] using h

/-- The head of a graph and what follows it can be told apart. -/
theorem trig_head_inj {sty : IriStyle} {k : Bool} {a b : Graph} (ha : SpaceFree a.name)
    (hb : SpaceFree b.name) {r r' : Str}
    (h : writeTrigGraph sty k a ++ r = writeTrigGraph sty k b ++ r') : a.name = b.name ∧ r = r' := by
  have start : ∀ n : GraphName, ∃ c t, n.display sty = c :: t ∧ c ≠ '{' := by
    intro n
    cases n with
    | bnode x => exact ⟨'_', _, rfl, by decide⟩
    | iri j => exact ⟨'<', _, rfl, by decide⟩
  unfold writeTrigGraph at h
  cases ea : a.name with
  | none =>
    cases eb : b.name with
    | none =>
      simp only [ea, eb] at h
      exact ⟨rfl, List.append_cancel_left h⟩
    | some y =>
      obtain ⟨c, t, e, hc⟩ := start y
      simp only [ea, eb] at h
      cases k <;> simp [e] at h
      exact absurd h.1.symm hc
  | some x =>
    cases eb : b.name with
    | none =>
      obtain ⟨c, t, e, hc⟩ := start x
      simp only [ea, eb] at h
      cases k <;> simp [e] at h
      exact absurd h.1 hc
    | some y =>
      rw [ea] at ha
      rw [eb] at hb
      simp only [ea, eb, List.append_assoc, List.append_cancel_left_eq] at h
      have key : x.display sty ++ ' ' :: (str! "{\n" ++ (str! "}\n" ++ r)) =
          y.display sty ++ ' ' :: (str! "{\n" ++ (str! "}\n" ++ r')) := h
      have e1 := splitFirst_append (b := str! "{\n" ++ (str! "}\n" ++ r)) (ha.display (sty := sty))
      have e2 := splitFirst_append (b := str! "{\n" ++ (str! "}\n" ++ r')) (hb.display (sty := sty))
      rw [key, e2] at e1
      simp only [Prod.mk.injEq, Option.some.injEq] at e1
      refine ⟨congrArg _ (GraphName.display_inj e1.1).symm, ?_⟩
      have := e1.2
      simpa using this.symm

/-- C45, what holds: the text tells the number of graphs, their names and the order in which
they were visited, for names without blanks.  Missing are the statements. -/
theorem C45_names_partial (sty : IriStyle) (noKeyword : Bool) (d d' : DataSet)
    (hd : ∀ g ∈ d.allGraphs, SpaceFree g.name) (hd' : ∀ g ∈ d'.allGraphs, SpaceFree g.name) :
    writeTrig sty noKeyword d = writeTrig sty noKeyword d' ↔
      d.allGraphs.map Graph.name = d'.allGraphs.map Graph.name := by
  refine ⟨?_, C45_blind _ _ _ _⟩
  unfold writeTrig
  intro h
  generalize d.allGraphs = l at h hd
  generalize d'.allGraphs = l' at h hd'
  have ne : ∀ g : Graph, ∀ r, writeTrigGraph sty noKeyword g ++ r ≠ [] := by
    intro g r; simp [writeTrigGraph]
  induction l generalizing l' with
  | nil => cases l' with
    | nil => rfl
    | cons g _ => exact absurd h.symm (ne g _)
  | cons g gs ih => cases l' with
    | nil => exact absurd h (ne g _)
    | cons g' gs' =>
      simp only [List.flatMap_cons] at h
      obtain ⟨e1, e2⟩ := trig_head_inj (hd g (by simp)) (hd' g' (by simp)) h
      simp only [List.map_cons, e1, ih (fun g hg => hd g (by simp [hg])) gs' e2
        (fun g hg => hd' g (by simp [hg]))]

/-- Non-vacuity: two names, in order. -/
example : writeTrig .bracketed false
    ⟨[(none, Graph.default), (some (.bnode (str! "b")), Graph.named (.bnode (str! "b")))]⟩ =
    str! "{\n}\nGRAPH _:b {\n}\n" := by decide +kernel

end Rdftk
