import Verif.Lemmas.TurtleLayout
import Verif.Props.TurtleStable

/-! How Turtle output is laid out: C176. -/

namespace Rdftk
open Spec

/-- C176: the block of every subject is laid out as described, whatever the options, nested blank nodes included. -/
theorem C176_block (env : TurtleEnv) (hfair : env.orders.Fair) (n : Nat) (s : Subject) (hs : ∃ p o, Stmt.mk s p o ∈ env.graph.stmts)
    (t : Str) (e : Nat) (h : writeBlock env n env.opts.width s 0 = .ok (t, e)) : e = 0 ∧ BlockLaid env s t :=
  writeBlock_lays hfair (writeBlock_pos hfair (containsSubject_iff.2 hs) h) (containsSubject_iff.2 hs) h

/-- C176: every object is laid out as described, at every indentation that the writer gets to. -/
theorem C176_object (env : TurtleEnv) (hfair : env.orders.Fair) (hw : 0 < env.opts.width) (n d : Nat) (o : Object) (hd : env.opts.width ≤ d)
    (t : Str) (e : Nat) (h : writeObject env n env.opts.width .none o d = .ok (t, e)) : e = d ∧ Laid env d o t :=
  writeObject_lays hfair hw n .none d o t e rfl hd h

theorem triples_laid (env : TurtleEnv) (hfair : env.orders.Fair) (n : Nat) (t : Str) (e : Nat) (h : writeTriples env n 0 = .ok (t, e)) :
    ∃ (ss bs : List Subject) (ts : List Str), ss.Nodup ∧ bs.Nodup ∧ (ss.Pairwise fun a b => Subject.cmp a b = .lt) ∧
      (∀ s, s ∈ ss ++ bs ↔ ∃ p o, Stmt.mk s p o ∈ env.graph.stmts) ∧ (∀ s, s ∈ bs → s.isBlank = true) ∧ (∀ s ∈ ss, s.isBlank = false) ∧
      List.Forall₂ (BlockLaid env) (ss ++ bs) ts ∧ t = ts.flatten ∧ (ss ++ bs = [] ∨ 0 < env.opts.width) := by
  obtain ⟨ss, hn, hlt, hm, hss⟩ := C69_subjects env n
  rw [hss] at h
  obtain ⟨t1, d1, t2, h1, h2, rfl⟩ := Step.andThen_ok.1 h
  have hmem1 : ∀ s, s ∈ ss ↔ env.graph.containsSubject s = true ∧ s.isBlank = false := fun s => by
    rw [hm, containsSubject_iff]
    constructor
    · rintro ⟨⟨⟨s', p, o⟩, h, rfl⟩, hb⟩
      exact ⟨⟨p, o, h⟩, by cases s' <;> simp_all [Subject.isBlank]⟩
    · rintro ⟨⟨p, o, h⟩, hb⟩
      exact ⟨⟨_, h, rfl⟩, fun ⟨b, e⟩ => by subst e; simp [Subject.isBlank] at hb⟩
  have hmem2 : ∀ s, s ∈ env.orders.subj env.graph.blankSubjects ↔ _ := fun s => (hfair.1 _).mem_iff.trans mem_blankSubjects
  obtain ⟨bs, hbs⟩ : ∃ bs, bs = env.orders.subj env.graph.blankSubjects := ⟨_, rfl⟩
  rw [← hbs] at h2 hmem2
  have hblocks : ∃ ts : List Str, List.Forall₂ (BlockLaid env) (ss ++ bs) ts ∧ t1 ++ t2 = ts.flatten ∧ (ss ++ bs = [] ∨ 0 < env.opts.width) := by
    have hw : (ss ++ bs = [] ∨ 0 < env.opts.width) := by
      cases hs : ss with
      | cons s r =>
        rw [hs] at h1
        obtain ⟨_, _, _, g, -, -⟩ := Step.andThen_ok.1 h1
        exact .inr (writeBlock_pos hfair ((hmem1 s).1 (by simp [hs])).1 g)
      | nil =>
        cases hb : bs with
        | nil => exact .inl rfl
        | cons b r =>
          rw [hb] at h2
          obtain ⟨_, _, _, g, -, -⟩ := Step.andThen_ok.1 h2
          obtain ⟨_, _, _, g1, g2, -⟩ := Step.andThen_ok.1 g
          simp only [Step.reset, Run.ok.injEq, Prod.mk.injEq] at g1
          obtain ⟨rfl, rfl⟩ := g1
          exact .inr (writeBlock_pos hfair ((hmem2 b).1 (by simp [hb])).1 g2)
    rcases hw with hnil | hw
    · obtain ⟨e1, e2⟩ := List.append_eq_nil_iff.1 hnil
      rw [e1] at h1
      rw [e2] at h2
      obtain ⟨rfl, -⟩ := nop_eq h1
      obtain ⟨rfl, -⟩ := nop_eq h2
      exact ⟨[], by rw [hnil]; exact .nil, rfl, .inl hnil⟩
    · obtain ⟨rfl, ts1, g1, rfl⟩ := writeNodes_lays hfair hw (fun s hs => ((hmem1 s).1 hs).1) h1
      obtain ⟨ts2, g2, rfl⟩ := writeBlanks_lays hfair hw (fun s hs => ((hmem2 s).1 hs).1) h2
      exact ⟨ts1 ++ ts2, List.rel_append g1 g2, by simp, .inr hw⟩
  obtain ⟨ts, g, e⟩ := hblocks
  have hbn : bs.Nodup := hbs ▸ (hfair.1 _).nodup_iff.2 (setOf_nodup _)
  refine ⟨ss, bs, ts, hn, hbn, hlt, fun s => ?_, fun s hs => ((hmem2 s).1 hs).2, fun s hs => ((hmem1 s).1 hs).2, g, e⟩
  · rw [List.mem_append, hmem1, hmem2, ← containsSubject_iff]
    cases s.isBlank <;> simp

/-- C176: the statements of a graph are written as the blocks of its subjects, one after the other, first those of the subjects that
are no blank nodes in their order and then those of the blank nodes. -/
theorem C176_triples (env : TurtleEnv) (hfair : env.orders.Fair) (n : Nat) (t : Str) (e : Nat) (h : writeTriples env n 0 = .ok (t, e)) :
    ∃ (ss bs : List Subject) (ts : List Str), ss.Nodup ∧ bs.Nodup ∧ (ss.Pairwise fun a b => Subject.cmp a b = .lt) ∧
      (∀ s, s ∈ ss ++ bs ↔ ∃ p o, Stmt.mk s p o ∈ env.graph.stmts) ∧ (∀ s, s ∈ bs → s.isBlank = true) ∧ (∀ s ∈ ss, s.isBlank = false) ∧
      List.Forall₂ (BlockLaid env) (ss ++ bs) ts ∧ t = ts.flatten := by
  obtain ⟨ss, bs, ts, h1, h2, h3, h4, h5, h6, h7, h8, -⟩ := triples_laid env hfair n t e h
  exact ⟨ss, bs, ts, h1, h2, h3, h4, h5, h6, h7, h8⟩

/-- C176: without indentation nothing is written. -/
theorem C176_zero (env : TurtleEnv) (hfair : env.orders.Fair) (n : Nat) (hw : env.opts.width = 0) (t : Str) (e : Nat)
    (h : writeTriples env n 0 = .ok (t, e)) : env.graph.stmts = [] ∧ t = [] := by
  obtain ⟨ss, bs, ts, -, -, -, hm, -, -, hf, rfl, hpos⟩ := triples_laid env hfair n t e h
  have this : ss ++ bs = [] := hpos.resolve_right (by omega)
  have hnil : env.graph.stmts = [] := by
    cases hst : env.graph.stmts with
    | nil => rfl
    | cons a r =>
      obtain ⟨s, p, o⟩ := a
      have := (hm s).2 ⟨p, o, by simp [hst]⟩
      simp_all
  rw [this] at hf
  cases hf
  exact ⟨hnil, rfl⟩

/-- C176: the whole text. -/
theorem C176_text (pr : Char → Bool) (url : Str → Option Iri) (sty : IriStyle) (opts : TurtleOptions) (o : Orders) (gen : Nat → Str)
    (k deep : Nat) (g : Graph) (hfair : o.Fair) (s : Str) (h : writeTurtle pr url sty opts o gen k deep g = .ok s) :
    ∃ t e, writeTriples ⟨pr, url, sty, opts, denest gen k g, o⟩ deep 0 = .ok (t, e) ∧
      s = writeBase sty opts ++ writePrefixes sty opts g.mappings ++ t := by
  obtain ⟨x, h1, h2⟩ := Run.bind_ok.1 h
  obtain ⟨t, e⟩ := x
  obtain ⟨_, _, t2, h3, h4, rfl⟩ := Step.andThen_ok.1 h1
  obtain ⟨_, _, _, h5, h6, rfl⟩ := Step.andThen_ok.1 h3
  obtain ⟨rfl, rfl⟩ := text_eq h5
  obtain ⟨rfl, rfl⟩ := text_eq h6
  exact ⟨t2, e, h4, (Run.ok.inj h2).symm⟩

/-- C176: the base in the style of SPARQL. -/
theorem C176_base_sparql (sty : IriStyle) (o : TurtleOptions) (b : Iri) (hb : o.idBase = some b) (h : o.sparql = true) (hi : o.intellij = false) :
    writeBase sty o = str! "BASE <" ++ b.fmt sty ++ str! ">\n\n" := by
  simp [writeBase, hb, sparqlStyle, h, hi]

/-- C176: the base in the style of Turtle. -/
theorem C176_base (sty : IriStyle) (o : TurtleOptions) (b : Iri) (hb : o.idBase = some b) (h : o.sparql = false ∨ o.intellij = true) :
    writeBase sty o = str! "@base <" ++ b.fmt sty ++ str! "> .\n" ++ (if o.intellij then [] else str! "\n") := by
  rcases h with h | h <;> simp [writeBase, hb, sparqlStyle, h]

/-- C176: a prefix in the style of SPARQL. -/
theorem C176_prefix_sparql (sty : IriStyle) (o : TurtleOptions) (p : Namespace) (i : Iri) (hc : o.convert = []) (h : o.sparql = true)
    (hi : o.intellij = false) : writePrefix sty o (p, i) = str! "PREFIX " ++ p.text ++ str! " <" ++ i.fmt sty ++ str! ">\n" := by
  simp [writePrefix, hc, convertFirst, sparqlStyle, h, hi]

/-- C176: a prefix in the style of Turtle. -/
theorem C176_prefix (sty : IriStyle) (o : TurtleOptions) (p : Namespace) (i : Iri) (hc : o.convert = [])
    (h : o.sparql = false ∨ o.intellij = true) :
    writePrefix sty o (p, i) = str! "@prefix " ++ p.text ++ str! " <" ++ i.fmt sty ++ str! "> .\n" := by
  rcases h with h | h <;> simp [writePrefix, hc, convertFirst, sparqlStyle, h]

/-- C176: the prefixes, one on each line, sorted by their names, and an empty line. -/
theorem C176_prefixes (sty : IriStyle) (o : TurtleOptions) (m : PrefixMap) :
    (m.mappings = [] → writePrefixes sty o m = []) ∧
    (m.mappings ≠ [] → ∃ l : List (Namespace × Iri), l.Perm m.mappings ∧ (l.Pairwise fun a b => cmpStr a.1.text b.1.text ≠ .gt) ∧
      writePrefixes sty o m = (l.map (writePrefix sty o)).flatten ++ str! "\n") := by
  have he : m.isEmpty = true ↔ m.mappings = [] := by simp [PrefixMap.isEmpty, PrefixMap.mappings, List.isEmpty_iff]
  refine ⟨fun h => by simp [writePrefixes, he.2 h], fun h => ?_⟩
  refine ⟨sortBy (fun a b => (cmpStr a.1.text b.1.text).then (cmpStr a.2.text b.2.text) != .gt) m.mappings, sortBy_perm _ _, ?_, ?_⟩
  rotate_left
  · simp only [writePrefixes]
    rw [if_neg (fun h' => h (he.1 h')), List.flatMap_def]
  · have ho : TotalOrder fun a b : Namespace × Iri => (cmpStr a.1.text b.1.text).then (cmpStr a.2.text b.2.text) :=
      then_order cmpStr_order cmpStr_order (fun a : Namespace × Iri => a.1.text) (fun a => a.2.text) fun a b h1 h2 => by
        obtain ⟨⟨x⟩, ⟨y⟩⟩ := a
        obtain ⟨⟨x'⟩, ⟨y'⟩⟩ := b
        simp_all
    refine (sortBy_pairwise (fun a b c => ho.le_trans a b c) (fun a b => ho.le_total a b) m.mappings).imp ?_
    intro a b h
    cases hc : cmpStr a.1.text b.1.text <;> simp_all [Ordering.then]

theorem predicatesText_end (verb objects : Iri → Str) (ps : List Iri) (h : ps ≠ []) :
    ∃ t, predicatesText false verb objects ps = t ++ str! " .\n" := by
  induction ps with
  | nil => exact absurd rfl h
  | cons p ps ih =>
    cases ps with
    | nil => exact ⟨verb p ++ objects p, rfl⟩
    | cons q ps =>
      obtain ⟨t, e⟩ := ih (by simp)
      exact ⟨verb p ++ objects p ++ str! " ;" ++ t, by simp only [predicatesText, e, List.append_assoc]⟩

/-- C176: every block ends with a full stop and an empty line. -/
theorem C176_end (env : TurtleEnv) (s : Subject) (hs : ∃ p o, Stmt.mk s p o ∈ env.graph.stmts) (t : Str) (h : BlockLaid env s t) :
    ∃ t', t = t' ++ str! " .\n\n" := by
  obtain ⟨m, head, ps, os, text, verb, -, ha, -, -, -⟩ := h
  obtain ⟨p, o, hm⟩ := hs
  obtain ⟨t', e⟩ := predicatesText_end verb (fun p => objectsText env.opts.width env.opts.width m (text p) (os p)) ps
    (List.ne_nil_of_mem ((ha.each p).2 ⟨o, hm⟩))
  exact ⟨head ++ t', by rw [e]; simp⟩

/-- A graph with a blank node, a collection and several objects. -/
def layoutGraph : Graph :=
  (Graph.fromIter [.mk (.res ⟨str! "s:/s"⟩) ⟨str! "s:/p"⟩ (.blank (str! "b")),
    .mk (.res ⟨str! "s:/s"⟩) ⟨str! "s:/p"⟩ (.res ⟨str! "s:/o"⟩),
    .mk (.res ⟨str! "s:/s"⟩) ⟨str! "s:/p"⟩ (.res ⟨str! "s:/x"⟩),
    .mk (.res ⟨str! "s:/s"⟩) ⟨str! "s:/long"⟩ (.coll [.res ⟨str! "s:/o"⟩, .coll []]),
    .mk (.blank (str! "b")) ⟨str! "s:/q"⟩ (.res ⟨str! "s:/o"⟩)]).withMappings PrefixMap.empty

/-- C176 speaks of something. -/
example : writeTurtle easyEnv.pr easyEnv.url .bare TurtleOptions.default sameOrder (fun _ => []) 0 5 layoutGraph = .ok
    (str! "<s:/s>\n    <s:/long> (\n        <s:/o>, ()\n        ) ;\n    <s:/p>    <s:/o>,\n                  <s:/x>,[\n        <s:/q> <s:/o>\n    ] .\n\n\n_:b\n    <s:/q> <s:/o> .\n\n") := by
  decide +kernel

end Rdftk
