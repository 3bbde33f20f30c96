import Verif.Lemmas.PegLaid
import Verif.Lemmas.PegN3
import Verif.Model.Trig
import Verif.Spec.TrigText

/-! What the TriG writer writes under the rules of TriG. -/

namespace Rdftk

open PegGrammar Spec

variable {T : Nat} {s r u : Str}

/-- The name is written as one label. -/
def OneLabel (sty : IriStyle) : Option GraphName → Prop
  | some (.iri _) => sty = .bare
  | _ => True

theorem rej_no_directive {c : Char} {w : Str} (h : c ∉ (str! "@bBpP")) : Rej T (.rule .directive) (c :: w) := by
  simp only [List.mem_cons, List.not_mem_nil, or_false, not_or] at h
  obtain ⟨h1, h2⟩ := rej_sparql (T := T) (c := c) (u := w) (by simp [h])
  exact Rej.rule rfl (Rej.alt (Rej.rule rfl (Rej.seq (rej_chr (Ne.symm h.1)))) (Rej.alt (Rej.rule rfl (Rej.seq (rej_chr (Ne.symm h.1)))) (Rej.alt h2 h1)))

theorem rej_triplesBlock {w : Str} : Rej T (.rule .triplesBlock) ('}' :: w) := by
  refine Rej.rule rfl (Rej.seq (Rej.rule rfl (Rej.alt (Rej.seq (Rej.rule rfl (Rej.alt (rej_iri (by decide) (by decide) (by decide) (by decide)
    (pIriRef_head (by decide))) (Rej.alt (rej_blank (by decide) (by decide)) (Rej.alt (Rej.rule rfl (Rej.seq (rej_chr (by decide))))
      (Rej.rule rfl (Rej.seq (rej_chr (by decide))))))))) (Rej.seq (Rej.rule rfl (Rej.seq (rej_chr (by decide))))))))

/-- The empty graph. -/
theorem acc_wrapped : Acc T (.rule .wrappedGraph) ('{' :: '\n' :: '}' :: u) u := by
  have h1 : skip false ('\n' :: '}' :: u) = '}' :: u := by simp [skip, isWs, isNewline]
  refine Acc.rule rfl (Acc.seq (r := '\n' :: '}' :: u) (acc_str rfl) (Acc.seq (r := '}' :: u) ?_ ?_))
  · rw [h1]; exact Rej.opt rej_triplesBlock
  · rw [skip_lead (by decide) (by decide)]; exact acc_str rfl

theorem rej_wrapped {c : Char} {w : Str} (h : c ≠ '{') : Rej T (.rule .wrappedGraph) (c :: w) := Rej.rule rfl (Rej.seq (rej_chr (Ne.symm h)))

theorem rej_triples2 {c : Char} {w : Str} (h1 : c ≠ '[') (h2 : c ≠ '(') : Rej T (.rule .triples2) (c :: w) :=
  Rej.rule rfl (Rej.alt (Rej.seq (Rej.rule rfl (Rej.seq (rej_chr (Ne.symm h1))))) (Rej.seq (Rej.rule rfl (Rej.seq (rej_chr (Ne.symm h2))))))

theorem rej_closing {w : Str} : Rej T (.rule .predicateObjectList) ('>' :: w) := Rej.rule rfl (Rej.seq (Rej.rule rfl (Rej.seq (Rej.rule rfl (Rej.alt
  (Rej.rule rfl (rej_iri (by decide) (by decide) (by decide) (by decide) (pIriRef_head (by decide)))) (rej_chr (by decide)))))))

/-- The name of a graph, before a blank: read whole, or up to the second of its closing brackets. -/
theorem display_cases (sty : IriStyle) {n : GraphName} (h : GraphNameOk (some n)) (u : Str) :
    (OneLabel sty (some n) ∧ Acc T (.rule .labelOrSubject) (n.display sty ++ ' ' :: u) (' ' :: u)) ∨
    (¬ OneLabel sty (some n) ∧ Acc T (.rule .labelOrSubject) (n.display sty ++ ' ' :: u) ('>' :: ' ' :: u)) := by
  cases n with
  | bnode b =>
    obtain ⟨h1, h2⟩ := acc_label (T := T) (u := ' ' :: u) h ⟨' ', u, rfl, .inl rfl⟩
    exact .inl ⟨trivial, Acc.rule rfl (Rej.right h1 h2)⟩
  | iri i =>
    have hi : LooseIri i.text := h
    cases sty with
    | bare =>
      refine .inl ⟨rfl, Acc.rule rfl (Acc.left (acc_iri (i := i.text) ?_))⟩
      simpa [GraphName.display, Iri.fmt] using pIriRef_loose hi (' ' :: u)
    | bracketed =>
      refine .inr ⟨by simp [OneLabel], Acc.rule rfl (Acc.left (acc_iri (i := '<' :: i.text) ?_))⟩
      have hl : LooseIri ('<' :: i.text) := by
        obtain ⟨ts, h1, e⟩ := hi
        exact ⟨['<'] :: ts, by
          intro t ht
          rcases List.mem_cons.1 ht with rfl | ht
          · exact .inl ⟨'<', .inr rfl, rfl⟩
          · exact h1 t ht, by rw [e]; rfl⟩
      simpa [GraphName.display, Iri.fmt] using pIriRef_loose hl ('>' :: ' ' :: u)

theorem display_head (sty : IriStyle) (n : GraphName) : ∃ c w, n.display sty = c :: w ∧ (c = '_' ∨ c = '<') := by
  cases n with
  | bnode b => exact ⟨'_', _, rfl, .inl rfl⟩
  | iri i => exact ⟨'<', _, rfl, .inr rfl⟩

/-- The word before the name is no name itself. -/
theorem rej_graph_word {c : Char} {w : Str} (hc : c = '_' ∨ c = '<') : Rej T (.rule .labelOrSubject) ((str! "GRAPH ") ++ c :: w) := by
  refine Rej.rule rfl (Rej.alt ?_ (rej_blank (by decide) (by decide)))
  refine rej_word (c := 'G') (p := str! "RAPH") (u := ' ' :: c :: w) (d := c) (w := w) (by decide) (by decide) ⟨' ', _, rfl, .inl rfl⟩ ?_ ?_
  · rw [skip_sp]; rcases hc with rfl | rfl <;> exact skip_lead (by decide) (by decide)
  · rcases hc with rfl | rfl <;> decide

theorem trig_begins (sty : IriStyle) (k : Bool) (g : Graph) : ∃ c w, writeTrigGraph sty k g = c :: w ∧ (c = '{' ∨ c = 'G' ∨ c = '_' ∨ c = '<') := by
  unfold writeTrigGraph
  cases hn : g.name with
  | none => exact ⟨'{', _, rfl, by simp⟩
  | some n =>
    cases k with
    | false => exact ⟨'G', _, rfl, by simp⟩
    | true =>
      obtain ⟨c, w, e, hc⟩ := display_head sty n
      exact ⟨c, w ++ [' '] ++ ['{', '\n'] ++ ['}', '\n'], by simp only [if_true, List.nil_append, e, List.cons_append], by grind⟩

/-- A graph is read up to the end of its last line, or not at all. -/
theorem trig_graph (sty : IriStyle) (k : Bool) (g : Graph) (h : GraphNameOk g.name) (u : Str) :
    (OneLabel sty g.name ∧ Acc T (.alt (.rule .directive) (.rule .block)) (writeTrigGraph sty k g ++ u) ('\n' :: u)) ∨
    (¬ OneLabel sty g.name ∧ Rej T (.alt (.rule .directive) (.rule .block)) (writeTrigGraph sty k g ++ u)) := by
  have hdir : Rej T (.rule .directive) (writeTrigGraph sty k g ++ u) := by
    obtain ⟨c, w, e, hc⟩ := trig_begins sty k g
    rw [e]; exact rej_no_directive (by rcases hc with rfl | rfl | rfl | rfl <;> decide)
  cases hn : g.name with
  | none =>
    refine .inl ⟨trivial, Rej.right hdir ?_⟩
    have e : writeTrigGraph sty k g ++ u = '{' :: '\n' :: '}' :: '\n' :: u := by simp [writeTrigGraph, hn]
    rw [e]
    exact Acc.rule rfl (Rej.right (Rej.rule rfl (Rej.seq (Rej.rule rfl (Rej.alt (rej_iri (by decide) (by decide) (by decide) (by decide)
      (pIriRef_head (by decide))) (rej_blank (by decide) (by decide)))))) (Acc.left acc_wrapped))
  | some n =>
    rw [hn] at h
    have hb : skip false (' ' :: '{' :: '\n' :: '}' :: '\n' :: u) = '{' :: '\n' :: '}' :: '\n' :: u := by simp [skip, isWs, isNewline]
    have hg : ∀ w, skip false ('>' :: w) = '>' :: w := fun w => skip_lead (by decide) (by decide)
    obtain ⟨c, w, ec, hc⟩ := display_head sty n
    cases k with
    | true =>
      have e : writeTrigGraph sty true g ++ u = n.display sty ++ ' ' :: '{' :: '\n' :: '}' :: '\n' :: u := by simp [writeTrigGraph, hn]
      rw [e] at hdir ⊢
      rcases display_cases (T := T) sty h ('{' :: '\n' :: '}' :: '\n' :: u) with ⟨h1, h2⟩ | ⟨h1, h2⟩
      · refine .inl ⟨h1, Rej.right hdir (Acc.rule rfl (Acc.left (Acc.rule rfl (Acc.seq h2 ?_))))⟩
        rw [hb]; exact Acc.left acc_wrapped
      · refine .inr ⟨h1, Rej.alt hdir (Rej.rule rfl (Rej.alt (Rej.rule rfl (Acc.seq_rej h2 ?_)) ?_))⟩
        · rw [hg]; exact Rej.alt (rej_wrapped (by decide)) (Rej.seq rej_closing)
        · rw [ec]
          exact Rej.alt (rej_wrapped (by rcases hc with rfl | rfl <;> decide)) (Rej.alt (rej_triples2 (by rcases hc with rfl | rfl <;> decide)
            (by rcases hc with rfl | rfl <;> decide)) (Rej.rule rfl (Rej.seq (rej_chr (by rcases hc with rfl | rfl <;> decide)))))
    | false =>
      have e : writeTrigGraph sty false g ++ u = (str! "GRAPH ") ++ (n.display sty ++ ' ' :: '{' :: '\n' :: '}' :: '\n' :: u) := by
        simp [writeTrigGraph, hn]
      rw [e] at hdir ⊢
      have h0 : Rej T (.rule .labelOrSubject) ((str! "GRAPH ") ++ (n.display sty ++ ' ' :: '{' :: '\n' :: '}' :: '\n' :: u)) := by
        rw [ec]; exact rej_graph_word hc
      have hk : skip false (' ' :: (n.display sty ++ ' ' :: '{' :: '\n' :: '}' :: '\n' :: u)) = n.display sty ++ ' ' :: '{' :: '\n' :: '}' :: '\n' :: u := by
        rw [skip_sp, ec]; rcases hc with rfl | rfl <;> exact skip_lead (by decide) (by decide)
      have hword : Acc T (.str (str! "GRAPH")) ((str! "GRAPH ") ++ (n.display sty ++ ' ' :: '{' :: '\n' :: '}' :: '\n' :: u))
        (' ' :: (n.display sty ++ ' ' :: '{' :: '\n' :: '}' :: '\n' :: u)) := acc_str rfl
      rcases display_cases (T := T) sty h ('{' :: '\n' :: '}' :: '\n' :: u) with ⟨h1, h2⟩ | ⟨h1, h2⟩
      · refine .inl ⟨h1, Rej.right hdir (Acc.rule rfl (Rej.right (Rej.rule rfl (Rej.seq h0)) (Rej.right (rej_wrapped (by decide))
          (Rej.right (rej_triples2 (by decide) (by decide)) (Acc.rule rfl (Acc.seq hword (Acc.seq (r := ' ' :: '{' :: '\n' :: '}' :: '\n' :: u) ?_ ?_)))))))⟩
        · rw [hk]; exact h2
        · rw [hb]; exact acc_wrapped
      · refine .inr ⟨h1, Rej.alt hdir (Rej.rule rfl (Rej.alt (Rej.rule rfl (Rej.seq h0)) (Rej.alt (rej_wrapped (by decide))
          (Rej.alt (rej_triples2 (by decide) (by decide)) (Rej.rule rfl (Acc.seq_rej hword ?_))))))⟩
        rw [hk]
        refine Acc.seq_rej h2 ?_
        rw [hg]; exact rej_wrapped (by decide)

theorem trig_skip (sty : IriStyle) (k : Bool) (g : Graph) (u : Str) : skip false (writeTrigGraph sty k g ++ u) = writeTrigGraph sty k g ++ u := by
  obtain ⟨c, w, e, hc⟩ := trig_begins sty k g
  rw [e]; rcases hc with rfl | rfl | rfl | rfl <;> exact skip_lead (by decide) (by decide)

/-- The graphs are read up to the first whose name is not. -/
theorem trig_more (sty : IriStyle) (k : Bool) (gs : List Graph) (h : ∀ g ∈ gs, GraphNameOk g.name) (x : Str) (hx : x = [] ∨ x = ['\n']) :
    ∃ r, Acc T (.more (.alt (.rule .directive) (.rule .block))) (x ++ gs.flatMap (writeTrigGraph sty k)) r ∧
      (skip false r = [] ↔ ∀ g ∈ gs, OneLabel sty g.name) := by
  have hsk : ∀ w, skip false (x ++ w) = skip false w := by
    intro w; rcases hx with rfl | rfl
    · rfl
    · simp [skip, isWs, isNewline]
  induction gs generalizing x with
  | nil =>
    rw [List.flatMap_nil, List.append_nil]
    refine ⟨x, Rej.more ?_, by have := hsk []; simp only [List.append_nil] at this; rw [this]; simp [skip]⟩
    have := hsk []
    simp only [List.append_nil] at this
    rw [this]; simpa [skip] using rej_empty (T := T) (e := .alt (.rule .directive) (.rule .block)) (by decide) (by decide)
  | cons g gs ih =>
    rw [List.flatMap_cons]
    rcases trig_graph (T := T) sty k g (h g (by simp)) (gs.flatMap (writeTrigGraph sty k)) with ⟨h1, h2⟩ | ⟨h1, h2⟩
    · obtain ⟨r, h3, h4⟩ := ih (fun g hg => h g (by simp [hg])) ['\n'] (.inr rfl) (by intro w; simp [skip, isWs, isNewline])
      refine ⟨r, Acc.more ?_ h3, h4.trans (by simp [h1])⟩
      rw [hsk, trig_skip]; exact h2
    · refine ⟨_, Rej.more (by rw [hsk, trig_skip]; exact h2), ?_⟩
      rw [hsk, trig_skip]
      obtain ⟨c, w, e, -⟩ := trig_begins sty k g
      constructor
      · intro h; rw [e] at h; simp at h
      · intro h; exact absurd (h g (by simp)) h1

theorem trig_star (sty : IriStyle) (k : Bool) (gs : List Graph) (h : ∀ g ∈ gs, GraphNameOk g.name) :
    ∃ r, Acc T (.star (.alt (.rule .directive) (.rule .block))) (skip false (gs.flatMap (writeTrigGraph sty k))) r ∧
      (skip false r = [] ↔ ∀ g ∈ gs, OneLabel sty g.name) := by
  cases gs with
  | nil => exact ⟨[], by simpa [skip] using Rej.star (rej_empty (T := T) (e := .alt (.rule .directive) (.rule .block)) (by decide) (by decide)), by simp [skip]⟩
  | cons g gs =>
    rw [List.flatMap_cons, trig_skip]
    rcases trig_graph (T := T) sty k g (h g (by simp)) (gs.flatMap (writeTrigGraph sty k)) with ⟨h1, h2⟩ | ⟨h1, h2⟩
    · obtain ⟨r, h3, h4⟩ := trig_more (T := T) sty k gs (fun g hg => h g (by simp [hg])) ['\n'] (.inr rfl)
      exact ⟨r, Acc.star h2 h3, h4.trans (by simp [h1])⟩
    · refine ⟨_, Rej.star h2, ?_⟩
      rw [trig_skip]
      obtain ⟨c, w, e, -⟩ := trig_begins sty k g
      constructor
      · intro h; rw [e] at h; simp at h
      · intro h; exact absurd (h g (by simp)) h1

end Rdftk
