import Verif.Lemmas.PegLaid
import Verif.Props.GrammarTurtle
import Verif.Props.TurtleLayout
import Verif.Props.Turtle

/-! What the writer of Turtle writes, under the grammar of Turtle of the same crate. -/

namespace Rdftk

open PegGrammar Spec

/-! ### C188 -/

/-- C188, the full statement: what the writer of Turtle writes is a document of the grammar of Turtle. -/
def C188_statement (sty : IriStyle) : Prop :=
  ∀ (pr : Char → Bool) (url : Str → Option Iri) (opts : TurtleOptions) (o : Orders) (gen : Nat → Str) (k n : Nat) (g : Graph) (s : Str),
    o.Fair → (∀ x j, url x = some j → LooseIri j.text) → writeTurtle pr url sty opts o gen k n g = .ok s → GReads .turtleStarDoc s

/-- When base, prefixes and terms are written as texts of the grammar and no collection has two members, every part of the document is a
statement. -/
theorem written_stmts (pr : Char → Bool) (url : Str → Option Iri) (sty : IriStyle) (opts : TurtleOptions) (o : Orders) (gen : Nat → Str)
    (k n : Nat) (g : Graph) (s : Str) (hfair : o.Fair) (hd : WritesDirectives sty opts g.mappings)
    (hst : ∀ t ∈ (denest gen k g).stmts, WritesStmt ⟨pr, url, sty, opts, denest gen k g, o⟩ t)
    (h : writeTurtle pr url sty opts o gen k n g = .ok s) : Stmts s := by
  obtain ⟨t, e, h1, rfl⟩ := C176_text pr url sty opts o gen k n g hfair s h
  obtain ⟨ss, bs, ts, -, -, -, hm, -, -, hf, rfl⟩ := C176_triples _ hfair n t e h1
  refine (Stmts.append ?_ ?_).append (Stmts.flatten ?_)
  · cases hb : opts.idBase with
    | none =>
      have : writeBase sty opts = [] := by simp [writeBase, hb]
      rw [this]; exact .nil
    | some b =>
      have := Stmts.stmt (base_stmt sty opts b hb (hd.1 b hb)) .nil
      simpa using this
  · by_cases he : g.mappings.mappings = []
    · rw [(C176_prefixes sty opts g.mappings).1 he]; exact .nil
    · obtain ⟨l, hp, -, e⟩ := (C176_prefixes sty opts g.mappings).2 he
      rw [e]
      refine Stmts.append (Stmts.flatten fun x hx => ?_) ?_
      · obtain ⟨y, hy, rfl⟩ := List.mem_map.1 hx
        obtain ⟨h1, p, h2, h3⟩ := hd.2 y (hp.mem_iff.1 hy)
        exact prefix_stmt sty opts y h1 h2 h3
      · have := Stmts.blank (g := ['\n']) (by intro c hc; simp at hc; simp [hc]) Stmts.nil
        simpa using this
  · intro x hx
    obtain ⟨i, hi, rfl⟩ := List.getElem_of_mem hx
    have hi' : i < (ss ++ bs).length := by rw [hf.length_eq]; exact hi
    have hb : BlockLaid _ _ _ := hf.get hi' hi
    exact block_stmt hst ((hm _).1 (List.getElem_mem hi')) hb

/-- C188, what holds: when base, prefixes and terms are written as texts of the grammar and no collection has two members, the document is
read, whatever the layout, the nesting of blank nodes and the order of the statements. -/
theorem C188_reads_partial (pr : Char → Bool) (url : Str → Option Iri) (sty : IriStyle) (opts : TurtleOptions) (o : Orders) (gen : Nat → Str)
    (k n : Nat) (g : Graph) (s : Str) (hfair : o.Fair) (hd : WritesDirectives sty opts g.mappings)
    (hst : ∀ t ∈ (denest gen k g).stmts, WritesStmt ⟨pr, url, sty, opts, denest gen k g, o⟩ t)
    (h : writeTurtle pr url sty opts o gen k n g = .ok s) : GReads .turtleStarDoc s :=
  reads_of_acc (written_stmts pr url sty opts o gen k n g s hfair hd hst h).doc

/-- An IRI in two pairs of brackets at the start of a statement is refused. -/
theorem rej_bracketed {T : Nat} {i u : Str} (h : LooseIri i) : Rej T (.rule .statement) ('<' :: '<' :: (i ++ '>' :: '>' :: u)) := by
  have hl : LooseIri ('<' :: i) := by
    obtain ⟨ts, h1, rfl⟩ := h
    exact ⟨['<'] :: ts, by
      intro t ht
      rcases List.mem_cons.1 ht with rfl | ht
      · exact .inl ⟨'<', .inr rfl, rfl⟩
      · exact h1 t ht, rfl⟩
  have hp := pIriRef_loose hl ('>' :: u)
  simp only [List.cons_append] at hp
  have hgt : skip false ('>' :: u) = '>' :: u := skip_solid ⟨'>', u, rfl, by decide, by decide⟩
  have hpol : Rej T (.rule .predicateObjectList) ('>' :: u) := Rej.rule rfl (Rej.seq (Rej.rule rfl (Rej.seq (Rej.rule rfl (Rej.alt
    (Rej.rule rfl (rej_iri (by decide) (by decide) (by decide) (by decide) (pIriRef_head (by decide)))) (rej_chr (by decide)))))))
  refine Rej.rule rfl (Rej.alt (rej_directive (x := (.iri ('<' :: i), '>' :: u)) (by unfold pSubject; rw [hp])) (Rej.seq (Rej.rule rfl (Rej.alt
    (Acc.seq_rej (Acc.rule rfl (Acc.left (acc_iri hp))) (by rw [hgt]; exact hpol)) (Rej.seq (Rej.rule rfl (Rej.seq (rej_chr (by decide)))))))))

theorem loose_plain {x : Str} (h : ∀ c ∈ x, iriExcluded c = false) : LooseIri x := by
  refine ⟨x.map fun c => [c], ?_, ?_⟩
  · intro t ht
    obtain ⟨c, hc, rfl⟩ := List.mem_map.1 ht
    by_cases hl : c = '<'
    · exact .inl ⟨c, .inr hl, rfl⟩
    · exact .inl ⟨c, .inl ((iriPlain_iff c).1 ⟨h c hc, hl⟩), rfl⟩
  · clear h
    induction x with
    | nil => rfl
    | cons c x ih => rw [List.map_cons, List.flatten_cons, ← ih]; rfl

theorem compress_empty (j : Iri) : PrefixMap.empty.compress j = .panic ∨ PrefixMap.empty.compress j = .ok none := by
  unfold PrefixMap.compress
  split
  · exact .inl rfl
  · exact .inr rfl
  · exact .inr rfl

/-- The way the code prints IRIs makes the grammar refuse every document of a graph with an IRI for a subject, when there are no base and no
prefixes. -/
theorem C188_bracketed (pr : Char → Bool) (url : Str → Option Iri) (opts : TurtleOptions) (o : Orders) (gen : Nat → Str)
    (k n : Nat) (g : Graph) (s : Str) (hfair : o.Fair) (hurl : ∀ x j, url x = some j → LooseIri j.text) (hb : opts.idBase = none)
    (hm : g.mappings = PrefixMap.empty) (hn : ∀ t ∈ g.stmts, t.isNested = false) (hi : ∃ i p o, Stmt.mk (.res i) p o ∈ g.stmts)
    (h : writeTurtle pr url .bracketed opts o gen k n g = .ok s) : GRefuses .turtleStarDoc s := by
  obtain ⟨t, e, h1, rfl⟩ := C176_text pr url .bracketed opts o gen k n g hfair s h
  obtain ⟨ss, bs, ts, -, -, -, hmem, hbs, hss, hf, rfl⟩ := C176_triples _ hfair n t e h1
  have hg : (denest gen k g).stmts = g.stmts := denest_stmts hn
  have hbase : writeBase .bracketed opts = [] := by simp [writeBase, hb]
  have hpre : writePrefixes .bracketed opts g.mappings = [] := by
    rw [hm]; rfl
  rw [hbase, hpre]
  obtain ⟨i, p, ob, hst⟩ := hi
  have hin := (hmem (.res i)).2 ⟨p, ob, by rw [hg]; exact hst⟩
  have hsne : .res i ∈ ss := by
    rcases List.mem_append.1 hin with h | h
    · exact h
    · have := hbs _ h
      cases this
  cases ss with
  | nil => simp at hsne
  | cons s0 ss =>
    rw [List.cons_append] at hf
    cases hf with
    | @cons _ _ _ t0 hblock hrest =>
      obtain ⟨m, head, ps, os, text, verb, hhead, -⟩ := hblock
      have hhd : ∃ x w, LooseIri x ∧ head = '<' :: '<' :: (x ++ '>' :: '>' :: w) := by
        cases hhead with
        | blank b =>
          have := hss (.blank b) (by simp)
          cases this
        | res i _ hc =>
          simp only [compressIri, turtleRelative, hb] at hc
          split at hc
          · cases hc
          · rename_i j hj
            have hmap : (denest gen k g).mappings = PrefixMap.empty := hm
            rw [hmap] at hc
            rcases compress_empty j with hz | hz
            · rw [hz] at hc; cases hc
            · rw [hz] at hc
              simp only [Run.ok.injEq] at hc
              exact ⟨j.text, [], hurl _ j hj, by rw [← hc]; simp [Iri.fmt]⟩
      obtain ⟨x, w, hx, rfl⟩ := hhd
      refine refuses_of_rej (rej_doc (e := .rule .statement) rfl ?_ ?_)
      · simp [skip, isWs, isNewline]
      · simp only [List.nil_append, List.flatten_cons, List.cons_append, List.append_assoc]
        rw [skip_lt]
        exact rej_bracketed hx

/-- C188 fails for the way the code prints IRIs. -/
theorem C188_fails : ¬ C188_statement .bracketed := by
  intro h
  have hurl : ∀ x j, (fun x : Str => if x = str! "http://a/s" ∨ x = str! "http://a/p" then some (⟨x⟩ : Iri) else none) x = some j → LooseIri j.text := by
    intro x j hx
    have key : x = str! "http://a/s" ∨ x = str! "http://a/p" := by
      simp only at hx
      split at hx
      · assumption
      · cases hx
    simp only [key, if_true, Option.some.injEq] at hx
    subst hx
    refine loose_plain ?_
    rcases key with rfl | rfl <;> decide
  have hw : writeTurtle easyEnv.pr (fun x : Str => if x = str! "http://a/s" ∨ x = str! "http://a/p" then some (⟨x⟩ : Iri) else none) .bracketed
      flatOptions sameOrder (fun _ => []) 0 2 (litTurtle ⟨str! "x", none, none⟩) =
      .ok (str! "<<http://a/s>>\n    <<http://a/p>> \"x\" .\n\n") := by decide +kernel
  refine (C188_bracketed _ _ _ sameOrder _ _ _ _ _ sameOrder_fair hurl rfl rfl ?_ ?_ hw).not_reads (h _ _ _ sameOrder _ _ _ _ _ sameOrder_fair hurl hw)
  · decide
  · exact ⟨_, _, _, List.mem_singleton.2 rfl⟩

/-- A collection with a comma after its first member is no object of the grammar; the writer puts one between any two members. -/
theorem C188_members (T d : Nat) (t w : Str) (h : ObjTok t) : Rej T (.rule .turtleObject) ('(' :: (onNewLine d ++ (t ++ ',' :: w))) := by
  have hs : skip false (',' :: w) = ',' :: w := skip_solid ⟨',', w, rfl, by decide, by decide⟩
  obtain ⟨r, h1, h2⟩ := h.2 T (',' :: w) ⟨⟨',', w, rfl, by simp⟩, ',', w, hs, by simp⟩
  have hcomma : Rej T (.rule .turtleObject) (',' :: w) :=
    Rej.rule rfl (Rej.alt (rej_iri (by decide) (by decide) (by decide) (by decide) (pIriRef_head (by decide))) (Rej.alt
      (rej_blank (by decide) (by decide)) (Rej.alt (rej_turtleLiteral (by decide) (by decide) (by simp)) (Rej.alt
        (Rej.rule rfl (Rej.seq (rej_chr (by decide)))) (Rej.alt (Rej.rule rfl (Rej.seq (rej_chr (by decide))))
          (Rej.rule rfl (Rej.seq (rej_chr (by decide)))))))))
  refine Rej.rule rfl (Rej.alt (rej_iri (by decide) (by decide) (by decide) (by decide) (pIriRef_head (by decide))) (Rej.alt
      (rej_blank (by decide) (by decide)) (Rej.alt (rej_turtleLiteral (by decide) (by decide) (by simp)) (Rej.alt
        (Rej.rule rfl (Acc.seq_rej (acc_str rfl) ?_)) (Rej.alt (Rej.rule rfl (Rej.seq (rej_chr (by decide))))
          (Rej.rule rfl (Rej.seq (rej_chr (by decide)))))))))
  rw [(blank_newLine d).skip, h.1.skip]
  refine Acc.seq_rej (Acc.star h1 (Rej.more (by rw [h2, hs]; exact hcomma))) ?_
  rw [h2, hs]
  exact rej_chr (by decide)

/-- A graph with a type that is written with the empty prefix. -/
def typeTurtle : Graph :=
  (Graph.fromIter [.mk (.res ⟨str! "http://b/s"⟩) rdfType (.res ⟨str! "http://a/C"⟩)]).withMappings
    (PrefixMap.empty.insert ⟨[':']⟩ ⟨str! "http://a/"⟩)

/-- C188 fails also with IRIs in one pair of brackets: `a` and a name with the empty prefix are read as one name. -/
theorem C188_fails_type : ¬ C188_statement .bare := by
  intro h
  have hurl : ∀ x j, (fun x : Str => if x.all (fun c => !iriExcluded c) then some (⟨x⟩ : Iri) else none) x = some j → LooseIri j.text := by
    intro x j hx
    simp only at hx
    split at hx
    · rename_i hall
      cases hx
      exact loose_plain (by simpa using hall)
    · cases hx
  have hw : writeTurtle easyEnv.pr (fun x : Str => if x.all (fun c => !iriExcluded c) then some (⟨x⟩ : Iri) else none) .bare
      { TurtleOptions.default with typeA := true, padding := true } sameOrder (fun _ => []) 0 2 typeTurtle =
      .ok (str! "@prefix : <http://a/> .\n\n<http://b/s>\n    a :C .\n\n") := by decide +kernel
  have hr : GRefuses .turtleStarDoc (str! "@prefix : <http://a/> .\n\n<http://b/s>\n    a :C .\n\n") := ⟨60, by rfl⟩
  exact hr.not_reads (h _ _ _ sameOrder _ _ _ _ _ sameOrder_fair hurl hw)

/-- C188 fails for numbers that are no numbers of the grammar. -/
theorem C188_fails_nan : ∃ s, writeTurtle easyEnv.pr easyEnv.url .bare flatOptions sameOrder (fun _ => []) 0 2
    (litTurtle ⟨str! "NaN", some .double, none⟩) = .ok s ∧ GRefuses .turtleStarDoc s :=
  ⟨str! "<http://a/s>\n    <http://a/p> NaN .\n\n", by decide +kernel, 60, by rfl⟩

/-- The hypotheses of `C188_reads_partial` hold for a graph with a nested blank node, and the document is read. -/
def nestTurtle : Graph :=
  (Graph.fromIter [.mk (.res ⟨str! "http://a/s"⟩) ⟨str! "http://a/p"⟩ (.blank (str! "b")),
    .mk (.blank (str! "b")) ⟨str! "http://a/q"⟩ (.lit ⟨str! "5", some .int, none⟩)]).withMappings PrefixMap.empty

example : ∃ s, writeTurtle easyEnv.pr easyEnv.url .bare TurtleOptions.default sameOrder (fun _ => []) 0 3 nestTurtle = .ok s ∧
    GReads .turtleStarDoc s := by
  have hw : writeTurtle easyEnv.pr easyEnv.url .bare TurtleOptions.default sameOrder (fun _ => []) 0 3 nestTurtle =
    .ok (str! "<http://a/s>\n    <http://a/p> [\n        <http://a/q> 5\n    ] .\n\n\n_:b\n    <http://a/q> 5 .\n\n") := by decide +kernel
  refine ⟨_, hw, C188_reads_partial _ _ _ _ sameOrder _ _ _ _ _ sameOrder_fair ⟨fun b hb => (by cases hb), fun e he => (by cases he)⟩ ?_ hw⟩
  have hiri : ∀ (x : Str) (hx : ∀ c ∈ x, iriExcluded c = false) (env : TurtleEnv), compressIri env ⟨x⟩ = .ok ('<' :: (x ++ ['>'])) →
      WritesIri env ⟨x⟩ := by
    intro x hx env he v hv
    rw [he] at hv
    cases hv
    exact .inl ⟨x, loose_plain hx, rfl⟩
  have hb : Spec.Label (str! "b") := label_of_tailOk (by decide) (by decide)
  intro t ht
  have ht' : t ∈ [Stmt.mk (.res ⟨str! "http://a/s"⟩) ⟨str! "http://a/p"⟩ (.blank (str! "b")),
    .mk (.blank (str! "b")) ⟨str! "http://a/q"⟩ (.lit ⟨str! "5", some .int, none⟩)] := ht
  rcases List.mem_cons.1 ht' with rfl | ht'
  · exact ⟨hiri _ (by decide) _ (by decide +kernel), hiri _ (by decide) _ (by decide +kernel), .blank _ hb, fun h => absurd h (by decide +kernel)⟩
  · rw [List.mem_singleton.1 ht']
    refine ⟨hb, hiri _ (by decide) _ (by decide +kernel), .lit _ ?_, fun h => absurd h (by decide +kernel)⟩
    intro v hv
    cases hv
    exact .inr (.inl ⟨.Integer, .inr (.inr ⟨rfl, [], str! "5", .inl rfl, by simp [DigitsText], by simp, rfl⟩)⟩)

end Rdftk
