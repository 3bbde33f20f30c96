import Verif.Lemmas.PegTrig
import Verif.Props.GrammarTurtle

/-! What the writer of TriG writes, under the grammar of TriG of the same crate. -/

namespace Rdftk

open PegGrammar Spec

/-! ### C192 -/

/-- C192, the full statement: what the writer of TriG writes is a document of the grammar of TriG. -/
def C192_statement (sty : IriStyle) : Prop :=
  ∀ (noKeyword : Bool) (d : DataSet), (∀ g ∈ d.allGraphs, GraphNameOk g.name) → GReads .trigDoc (writeTrig sty noKeyword d)

/-- C192, exactly: when the names are labels and IRIs of the grammar, the document is read if IRIs are printed without brackets or no graph
has an IRI for its name, and refused otherwise. -/
theorem C192_iff (sty : IriStyle) (noKeyword : Bool) (d : DataSet) (h : ∀ g ∈ d.allGraphs, GraphNameOk g.name) :
    (GReads .trigDoc (writeTrig sty noKeyword d) ↔ sty = .bare ∨ ∀ g ∈ d.allGraphs, ∀ i, g.name ≠ some (.iri i)) ∧
    (GRefuses .trigDoc (writeTrig sty noKeyword d) ↔ sty = .bracketed ∧ ∃ g ∈ d.allGraphs, ∃ i, g.name = some (.iri i)) := by
  obtain ⟨r, h1, h2⟩ := trig_star (T := (writeTrig sty noKeyword d).length) sty noKeyword d.allGraphs h
  have key : (∀ g ∈ d.allGraphs, OneLabel sty g.name) ↔ sty = .bare ∨ ∀ g ∈ d.allGraphs, ∀ i, g.name ≠ some (.iri i) := by
    constructor
    · intro h
      cases sty with
      | bare => exact .inl rfl
      | bracketed =>
        refine .inr fun g hg i e => ?_
        have := h g hg
        rw [e] at this
        cases this
    · intro h g hg
      cases hn : g.name with
      | none => trivial
      | some n =>
        cases n with
        | bnode b => trivial
        | iri i =>
          rcases h with h | h
          · exact h
          · exact absurd hn (h g hg i)
  have hor : (sty = .bracketed ∧ ∃ g ∈ d.allGraphs, ∃ i, g.name = some (.iri i)) ↔
      ¬ (sty = .bare ∨ ∀ g ∈ d.allGraphs, ∀ i, g.name ≠ some (.iri i)) := by
    cases sty <;> simp
  have hdoc : ∀ s : Str, Acc s.length (.star (.alt (.rule .directive) (.rule .block))) (skip false s) r →
      (skip false r = [] → Acc s.length (.rule .trigDoc) s []) ∧ (skip false r ≠ [] → Rej s.length (.rule .trigDoc) s) := by
    intro s hs
    constructor
    · intro e
      refine Acc.rule rfl (Acc.seq (r := s) ⟨[], reads_soi.cast (by simp)⟩ (Acc.seq hs ?_))
      rw [e]; exact ⟨[.mk none [] []], reads_eoi.cast (by simp)⟩
    · intro e
      refine Rej.rule rfl (Acc.seq_rej (r := s) ⟨[], reads_soi.cast (by simp)⟩ (Acc.seq_rej hs ?_))
      refine (reads_eoi (g := commonGrammar)).cast ?_
      cases hk : skip false r with
      | nil => exact absurd hk e
      | cons c u => rfl
  obtain ⟨ha, hr⟩ := hdoc (writeTrig sty noKeyword d) h1
  rw [hor, ← key, ← h2]
  by_cases e : skip false r = []
  · have := reads_of_acc (ha e)
    exact ⟨⟨fun _ => e, fun _ => this⟩, ⟨fun h => absurd this h.not_reads, fun h => absurd e h⟩⟩
  · have := refuses_of_rej (hr e)
    exact ⟨⟨fun h => absurd h this.not_reads, fun h => absurd h e⟩, ⟨fun _ => e, fun _ => this⟩⟩

/-- C192 fails for the way the code prints IRIs. -/
theorem C192_fails : ¬ C192_statement .bracketed := by
  intro h
  have hok : GraphNameOk (some (.iri ⟨str! "a:b"⟩)) := ⟨[['a'], [':'], ['b']], by
    intro t ht
    simp only [List.mem_cons, List.not_mem_nil, or_false] at ht
    rcases ht with rfl | rfl | rfl <;> exact .inl ⟨_, .inl ((iriPlain_iff _).1 ⟨by decide, by decide⟩), rfl⟩, rfl⟩
  have hg : ∀ g ∈ (DataSet.mk [(some (.iri ⟨str! "a:b"⟩), Graph.named (.iri ⟨str! "a:b"⟩))]).allGraphs, GraphNameOk g.name := by
    intro g hg
    rw [List.mem_singleton.1 hg]; exact hok
  have h1 := h true _ hg
  rw [(C192_iff .bracketed true _ hg).1] at h1
  rcases h1 with h1 | h1
  · cases h1
  · exact h1 _ (List.mem_singleton.2 rfl) ⟨str! "a:b"⟩ rfl

/-- C192 for IRIs printed without brackets. -/
theorem C192_partial : C192_statement .bare := fun k d h => (C192_iff .bare k d h).1.2 (.inl rfl)

/-- A named graph and the one without a name. -/
example : ∃ d : DataSet, (∀ g ∈ d.allGraphs, GraphNameOk g.name) ∧ writeTrig .bare false d = str! "{\n}\nGRAPH _:b {\n}\n" :=
  ⟨⟨[(none, Graph.default), (some (.bnode ['b']), Graph.named (.bnode ['b']))]⟩, by
    intro g hg
    simp only [DataSet.allGraphs, List.map_cons, List.map_nil, List.mem_cons, List.not_mem_nil, or_false] at hg
    rcases hg with rfl | rfl
    · trivial
    · exact (label_of_tailOk (a := []) (by decide) rfl : Label ['b']), rfl⟩

end Rdftk
