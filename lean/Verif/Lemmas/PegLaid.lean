import Verif.Lemmas.PegWrite

/-! The documents of the Turtle writer under the rules of Turtle. -/

namespace Rdftk

open PegGrammar Spec

variable {T : Nat} {s r r' u : Str} {env : TurtleEnv}

/-! ### From the layout to clauses -/

theorem objectsText_cons (w d m : Nat) (text : Object → Str) (o : Object) (l : List Object) : objectsText w d m text (o :: l) =
    text o ++ l.flatMap fun o' => ',' :: ((if o'.isBlank then [] else onNewLine (d + w) ++ List.replicate m ' ') ++ text o') := by
  induction l generalizing o with
  | nil => simp [objectsText]
  | cons o' l ih => simp only [objectsText, ih, List.flatMap_cons, List.append_assoc, List.cons_append]

theorem predicatesText_cons (inner : Bool) (verb objects : Iri → Str) (p : Iri) (l : List Iri) : predicatesText inner verb objects (p :: l) =
    verb p ++ objects p ++ (l.flatMap (fun q => ' ' :: ';' :: (verb q ++ objects q)) ++ if inner then [] else str! " .\n") := by
  induction l generalizing p with
  | nil => simp [predicatesText]
  | cons q l ih => simp only [predicatesText, ih, List.flatMap_cons, List.append_assoc, List.cons_append, List.nil_append]

/-- A predicate with its objects as they are laid out. -/
def clauseOf (w d m : Nat) (verb : Iri → Str) (text : Iri → Object → Str) (os : Iri → List Object) (p : Iri) : Clause :=
  match os p with
  | [] => ⟨verb p, [], []⟩
  | o :: l => ⟨verb p, text p o, l.map fun o' => (if o'.isBlank then [] else onNewLine (d + w) ++ List.replicate m ' ', text p o')⟩

theorem clauseOf_text (w d m : Nat) (verb : Iri → Str) (text : Iri → Object → Str) (os : Iri → List Object) (p : Iri) :
    (clauseOf w d m verb text os p).text = verb p ++ objectsText w d m (text p) (os p) := by
  unfold clauseOf
  cases os p with
  | nil => simp [Clause.text, objectsText]
  | cons o l => simp only [Clause.text, objectsText_cons, List.flatMap_map]

theorem acc_a (hu : Brk u) {c : Char} {w : Str} (hs : skip false u = c :: w) (hc : c ≠ ':') : Acc T (.rule .verb) ('a' :: u) u :=
  Acc.rule rfl (Rej.right (Rej.rule rfl (rej_word (p := []) (by decide) (by simp) hu hs hc)) (acc_str rfl))

theorem filled_eq {v : Str} {m : Nat} (h : m = 0 ∨ v.length < m) : ∃ n, filled v m = v ++ List.replicate (n + 1) ' ' := by
  cases m with
  | zero => exact ⟨0, rfl⟩
  | succ m =>
    have h : v.length < m + 1 := h.resolve_left (by omega)
    exact ⟨m - v.length, by rw [filled]; congr 2; omega⟩

theorem Begins.pos {v : Str} (h : Begins v) : 0 < v.length := by
  obtain ⟨c, w, rfl, -⟩ := h
  simp

theorem verb_iri {v : Str} (h : GIriText v) {g : Str} (hg : Blank g ∧ g ≠ []) (n : Nat) : VerbTok (g ++ (v ++ List.replicate (n + 1) ' ')) true :=
  ⟨g, v, n, rfl, hg, h.begins, fun _ _ hu _ => Acc.rule rfl (Acc.left (Acc.rule rfl (acc_iriText h hu)))⟩

theorem verb_a {g : Str} (hg : Blank g ∧ g ≠ []) (n : Nat) : VerbTok (g ++ (['a'] ++ List.replicate (n + 1) ' ')) false :=
  ⟨g, ['a'], n, rfl, hg, ⟨'a', [], rfl, by decide, by decide, by decide⟩, fun _ _ hu h => by
    obtain ⟨c, w, h1, h2⟩ := h rfl
    exact acc_a hu h1 h2⟩

theorem newLine_ok (d : Nat) : Blank (onNewLine d) ∧ onNewLine d ≠ [] := ⟨blank_newLine d, by simp [onNewLine]⟩

/-- A predicate of a statement of the graph, before its first object. -/
theorem verb_laid {s : Subject} {p : Iri} {o : Object} {d m : Nat} {t f : Str} (hst : ∀ t ∈ env.graph.stmts, WritesStmt env t)
    (hm : Stmt.mk s p o ∈ env.graph.stmts) (hcol : Column env s m) (hv : VerbLaid env d m p t)
    (hf : NotBareName env o → f.head? ≠ some ':') : ∃ colon, VerbTok t colon ∧ (colon = false → f.head? ≠ some ':') := by
  obtain ⟨-, hp, -, htype⟩ := hst _ hm
  have hlen : m = 0 ∨ ∃ v, compressIri env p = .ok v ∧ byteLen v < m := by
    unfold Column at hcol
    split at hcol
    · exact .inl hcol
    · exact .inr (hcol.1 p o hm)
  have hself : ∀ v, compressIri env p = .ok v → m = 0 ∨ v.length < m := by
    intro v hv
    rcases hlen with h | ⟨v', h1, h2⟩
    · exact .inl h
    · rw [hv] at h1
      cases h1
      exact .inr (Nat.lt_of_le_of_lt (length_le_byteLen v) h2)
  have hone : m = 0 ∨ 1 < m := by
    rcases hlen with h | ⟨v', h1, h2⟩
    · exact .inl h
    · have := (hp v' h1).begins.pos
      have := length_le_byteLen v'
      omega
  cases hv with
  | other v hg hc =>
    obtain ⟨n, e⟩ := filled_eq (hself v hc)
    rw [e]
    exact ⟨true, verb_iri (hp v hc) (newLine_ok d) n, by simp⟩
  | type v hg hc hl =>
    have ht := htype hg
    by_cases ha : env.opts.typeA = true
    · rw [if_pos ha] at hc ht
      subst hc
      obtain ⟨n, e⟩ := filled_eq (v := ['a']) (m := m) (by simpa using hone)
      rw [e]
      exact ⟨false, verb_a (newLine_ok d) n, fun _ => hf ht⟩
    · rw [if_neg ha] at hc ht
      subst ht
      obtain ⟨n, e⟩ := filled_eq (hself v hc)
      rw [e]
      exact ⟨true, verb_iri (hp v hc) (newLine_ok d) n, by simp⟩
  | onLine v hg hc hl =>
    have ht := htype hg
    have hb : Blank [' '] ∧ ([' '] : Str) ≠ [] := ⟨blank_spaces 1, by simp⟩
    by_cases ha : env.opts.typeA = true
    · rw [if_pos ha] at hc ht
      subst hc
      exact ⟨false, verb_a hb 0, fun _ => hf ht⟩
    · rw [if_neg ha] at hc ht
      subst ht
      exact ⟨true, verb_iri (hp v hc) hb 0, by simp⟩

theorem laid_head {d : Nat} {o : Object} {t : Str} (h : Laid env d o t) (hn : NotBareName env o) : t.head? ≠ some ':' := by
  cases h with
  | res _ i t h => exact hn _ h
  | lit _ l t h => exact hn _ h
  | label => simp
  | alone => simp
  | nested => simp
  | none => simp
  | coll => simp

/-- The clauses of a subject of the graph. -/
theorem clauses_ok {s : Subject} {d m w : Nat} {ps : List Iri} {os : Iri → List Object} {text : Iri → Object → Str} {verb : Iri → Str}
    (hst : ∀ t ∈ env.graph.stmts, WritesStmt env t) (ha : Arranged env s ps os) (hcol : Column env s m)
    (hv : ∀ p ∈ ps, VerbLaid env d m p (verb p)) (ho : ∀ p ∈ ps, ∀ o ∈ os p, Laid env d o (text p o))
    (hobj : ∀ p ∈ ps, ∀ o ∈ os p, WritesObject env o → ObjTok (text p o)) : ∀ p ∈ ps, (clauseOf w d m verb text os p).Ok := by
  intro p hp
  have hmem := (ha.objects p hp).1
  unfold clauseOf
  cases hos : os p with
  | nil =>
    obtain ⟨o, hm⟩ := (ha.each p).1 hp
    have := (hmem o).2 hm
    rw [hos] at this
    simp at this
  | cons o l =>
    have hin : ∀ x ∈ o :: l, x ∈ os p := by simp [hos]
    refine ⟨verb_laid hst ((hmem o).1 (hin o (by simp))) hcol (hv p hp) (laid_head (ho p hp o (hin o (by simp)))),
      hobj p hp o (hin o (by simp)) (hst _ ((hmem o).1 (hin o (by simp)))).object, ?_⟩
    intro x hx
    obtain ⟨o', ho', rfl⟩ := List.mem_map.1 hx
    have h' := hin o' (by simp [ho'])
    refine ⟨?_, hobj p hp o' h' (hst _ ((hmem o').1 h')).object⟩
    simp only
    split
    · intro c hc; simp at hc
    · exact (blank_newLine _).append (blank_spaces _)

theorem flat_clauses (w d m : Nat) (verb : Iri → Str) (text : Iri → Object → Str) (os : Iri → List Object) (l : List Iri) :
    l.flatMap (fun q => ' ' :: ';' :: (verb q ++ objectsText w d m (text q) (os q))) =
      (l.map (clauseOf w d m verb text os)).flatMap (fun x => ' ' :: ';' :: x.text) := by
  rw [List.flatMap_map]
  simp only [clauseOf_text]

theorem laid_obj (hst : ∀ t ∈ env.graph.stmts, WritesStmt env t) {d : Nat} {o : Object} {t : Str} (h : Laid env d o t) :
    WritesObject env o → ObjTok t := by
  induction h with
  | res d i t h => intro hw; cases hw with | res _ hi => exact obj_iri (hi t h)
  | lit d l t h => intro hw; cases hw with | lit _ hl => exact obj_literal (hl t h)
  | label d b h => intro hw; cases hw with | blank _ hb => exact obj_label hb
  | alone d b h h' => intro _; exact obj_anon
  | nested d m b ps os text verb hn hex ha hcol hv ho ih =>
    intro _
    have hok := clauses_ok (w := env.opts.width) hst ha hcol hv ho ih
    cases ps with
    | nil =>
      obtain ⟨p, o, hm⟩ := hex
      have := (ha.each p).2 ⟨o, hm⟩
      simp at this
    | cons p ps =>
      have := obj_nested (c := clauseOf env.opts.width (d + env.opts.width) m verb text os p)
        (cs := ps.map (clauseOf env.opts.width (d + env.opts.width) m verb text os)) (d := d) (hok p (by simp))
        (by intro x hx; obtain ⟨q, hq, rfl⟩ := List.mem_map.1 hx; exact hok q (by simp [hq]))
      rw [predicatesText_cons, flat_clauses]
      rw [clauseOf_text] at this
      simpa [List.append_assoc] using this
  | none d => intro _; exact obj_none
  | coll d c text hne ho ih =>
    intro hw
    cases hw with
    | none => exact absurd rfl hne
    | one o hw =>
      have := obj_one (d := d + env.opts.width) (e := if env.opts.outdentColl then d else d + env.opts.width) (ih o (by simp) hw)
      simpa [membersText, List.append_assoc] using this

/-! ### Blocks -/

/-- A text that is read as a statement, up to a gap. -/
def StmtTok (t : Str) : Prop := ∀ T u, ∃ r, Acc T (.rule .statement) (skip false (t ++ u)) r ∧ skip false r = skip false u

theorem block_stmt (hst : ∀ t ∈ env.graph.stmts, WritesStmt env t) {s : Subject} {t : Str} (hs : ∃ p o, Stmt.mk s p o ∈ env.graph.stmts)
    (h : BlockLaid env s t) : StmtTok t := by
  obtain ⟨m, head, ps, os, text, verb, hhead, ha, hcol, hv, ho⟩ := h
  obtain ⟨p₀, o₀, hm⟩ := hs
  have hsub := (hst _ hm).subject
  have hh : ∃ g v, head = g ++ v ∧ Blank g ∧ SubjTok v := by
    cases hhead with
    | res i _ h => exact ⟨[], head, rfl, by intro c hc; simp at hc, subj_iri (hsub _ h)⟩
    | blank b => exact ⟨['\n'], _, rfl, by intro c hc; simp at hc; simp [hc], subj_label hsub⟩
  obtain ⟨g, v, rfl, hg, hv1, hv2⟩ := hh
  have hok := clauses_ok (w := env.opts.width) hst ha hcol hv ho fun p hp o hp' => laid_obj hst (ho p hp o hp')
  cases ps with
  | nil =>
    have := (ha.each p₀).2 ⟨o₀, hm⟩
    simp at this
  | cons p ps =>
    intro T u
    have hk : (clauseOf env.opts.width env.opts.width m verb text os p).Ok := hok p (by simp)
    have hdot : skip false (' ' :: '.' :: '\n' :: '\n' :: u) = '.' :: '\n' :: '\n' :: u := by simp [skip, isWs, isNewline]
    obtain ⟨r, h1, h2⟩ := acc_clauses (T := T) (u := ' ' :: '.' :: '\n' :: '\n' :: u)
      (cs := ps.map (clauseOf env.opts.width env.opts.width m verb text os)) hk
      (by intro x hx; obtain ⟨q, hq, rfl⟩ := List.mem_map.1 hx; exact hok q (by simp [hq])) ⟨' ', _, rfl, by simp⟩ ⟨'.', _, hdot, .inl rfl⟩
    have hbrk : ∀ w, Brk ((clauseOf env.opts.width env.opts.width m verb text os p).text ++ w) := by
      obtain ⟨⟨colon, ⟨g, v, n, e, ⟨hg, hne⟩, -⟩, -⟩, -⟩ := hk
      intro w
      cases g with
      | nil => exact absurd rfl hne
      | cons c g =>
        refine ⟨c, _, by rw [Clause.text, e]; rfl, ?_⟩
        rcases hg c (by simp) with rfl | rfl <;> simp
    refine ⟨'\n' :: '\n' :: u, ?_, by simp [skip, isWs, isNewline]⟩
    have e : (g ++ v ++ predicatesText false verb (fun p => objectsText env.opts.width env.opts.width m (text p) (os p)) (p :: ps) ++ ['\n']) ++ u =
        g ++ (v ++ ((clauseOf env.opts.width env.opts.width m verb text os p).text ++
          ((ps.map (clauseOf env.opts.width env.opts.width m verb text os)).flatMap (fun x => ' ' :: ';' :: x.text) ++
            ' ' :: '.' :: '\n' :: '\n' :: u))) := by
      rw [predicatesText_cons, flat_clauses, clauseOf_text]
      simp [List.append_assoc]
    rw [e, hg.skip, hv1.skip]
    obtain ⟨hd, hs⟩ := hv2 T _ (hbrk _)
    refine Acc.rule rfl (Rej.right hd (Acc.seq (Acc.rule rfl (Acc.left (Acc.seq hs h1))) ?_))
    rw [h2, hdot]
    exact acc_end

/-! ### Directives -/

theorem acc_iriref {i : Str} (h : LooseIri i) : Acc T (.rule .IRIREF) ('<' :: (i ++ '>' :: u)) u :=
  ⟨_, (reads_iri _).cast (by rw [pIriRef_loose h]; rfl)⟩

theorem skip_space (u : Str) : skip false (' ' :: u) = skip false u := by simp [skip, isWs, isNewline]

theorem skip_lt (u : Str) : skip false ('<' :: u) = '<' :: u := skip_solid ⟨'<', u, rfl, by decide, by decide⟩

theorem acc_prefixName {p : Str} (h : NamePrefix p) : Acc T (.rule .PNAME_NS) (p ++ ':' :: u) u ∧ skip false (p ++ ':' :: u) = p ++ ':' :: u := by
  rcases h with rfl | ⟨c, q, rfl, hc, hq⟩
  · exact ⟨acc_colon, skip_solid ⟨':', u, rfl, by decide, by decide⟩⟩
  · have := pn_solid (base_pn hc)
    exact ⟨by simpa using acc_ns (T := T) (g := []) (u := u) hc hq .nil, skip_solid ⟨c, _, rfl, this.1, this.2.1⟩⟩

theorem base_stmt (sty : IriStyle) (o : TurtleOptions) (b : Iri) (hb : o.idBase = some b) (hl : LooseIri (b.fmt sty)) : StmtTok (writeBase sty o) := by
  intro T u
  simp only [writeBase, hb]
  generalize b.fmt sty = i at hl
  have tail : ∀ w : Str, skip false ((['\n'] ++ if o.intellij = true then [] else ['\n']) ++ w) = skip false w := by
    intro w
    split <;> simp [skip, isWs, isNewline]
  cases hs : sparqlStyle o
  · refine ⟨(['\n'] ++ if o.intellij = true then [] else ['\n']) ++ u, ?_, tail u⟩
    simp only [Bool.false_eq_true, if_false, List.append_assoc, List.cons_append, List.nil_append]
    rw [skip_solid ⟨'@', _, rfl, by decide, by decide⟩]
    refine Acc.rule rfl (Acc.left (Acc.rule rfl (Rej.right (Rej.rule rfl (Rej.seq (rej_str rfl))) (Acc.left (Acc.rule rfl
      (Acc.seq (acc_str rfl) ?_))))))
    rw [skip_space, skip_lt]
    refine Acc.seq (acc_iriref hl) ?_
    rw [skip_space, skip_dot]
    exact acc_end
  · refine ⟨(['\n'] ++ if o.intellij = true then [] else ['\n']) ++ u, ?_, tail u⟩
    simp only [if_true, List.append_assoc, List.cons_append, List.nil_append]
    rw [skip_solid ⟨'B', _, rfl, by decide, by decide⟩]
    refine Acc.rule rfl (Acc.left (Acc.rule rfl (Rej.right (Rej.rule rfl (Rej.seq (rej_chr (by decide)))) (Rej.right (Rej.rule rfl
      (Rej.seq (rej_chr (by decide)))) (Rej.right (Rej.rule rfl (Rej.seq (rej_istr rfl))) (Acc.rule rfl (Acc.seq
        ⟨[], (reads_istr _).cast rfl⟩ ?_)))))))
    rw [skip_space, skip_lt]
    exact acc_iriref hl

theorem prefix_stmt (sty : IriStyle) (o : TurtleOptions) (e : Namespace × Iri) (hl : LooseIri (convertFirst sty o.convert (e.2.fmt sty)))
    {p : Str} (hp : NamePrefix p) (he : e.1.text = p ++ [':']) : StmtTok (writePrefix sty o e) := by
  intro T u
  simp only [writePrefix, he]
  generalize convertFirst sty o.convert (e.2.fmt sty) = i at hl
  have tail : skip false ('\n' :: u) = skip false u := by simp [skip, isWs, isNewline]
  cases hs : sparqlStyle o
  · refine ⟨'\n' :: u, ?_, tail⟩
    simp only [Bool.false_eq_true, if_false, List.append_assoc, List.cons_append, List.nil_append]
    rw [skip_solid ⟨'@', _, rfl, by decide, by decide⟩]
    refine Acc.rule rfl (Acc.left (Acc.rule rfl (Acc.left (Acc.rule rfl (Acc.seq (acc_str rfl) ?_)))))
    obtain ⟨h1, h2⟩ := acc_prefixName (T := T) (u := ' ' :: '<' :: (i ++ '>' :: ' ' :: '.' :: '\n' :: u)) hp
    rw [skip_space, h2]
    refine Acc.seq h1 ?_
    rw [skip_space, skip_lt]
    refine Acc.seq (acc_iriref hl) ?_
    rw [skip_space, skip_dot]
    exact acc_end
  · refine ⟨'\n' :: u, ?_, tail⟩
    simp only [if_true, List.append_assoc, List.cons_append, List.nil_append]
    rw [skip_solid ⟨'P', _, rfl, by decide, by decide⟩]
    refine Acc.rule rfl (Acc.left (Acc.rule rfl (Rej.right (Rej.rule rfl (Rej.seq (rej_chr (by decide)))) (Rej.right (Rej.rule rfl
      (Rej.seq (rej_chr (by decide)))) (Acc.left (Acc.rule rfl (Acc.seq ⟨[], (reads_istr _).cast rfl⟩ ?_)))))))
    obtain ⟨h1, h2⟩ := acc_prefixName (T := T) (u := ' ' :: '<' :: (i ++ '>' :: '\n' :: u)) hp
    rw [skip_space, h2]
    refine Acc.seq h1 ?_
    rw [skip_space, skip_lt]
    exact acc_iriref hl

/-! ### Documents -/

/-- Statements one after the other, with white space between them. -/
inductive Stmts : Str → Prop
  | nil : Stmts []
  | blank {g t : Str} : Blank g → Stmts t → Stmts (g ++ t)
  | stmt {h t : Str} : StmtTok h → Stmts t → Stmts (h ++ t)

theorem Stmts.append {t t' : Str} (h : Stmts t) (h' : Stmts t') : Stmts (t ++ t') := by
  induction h with
  | nil => exact h'
  | blank hg _ ih => rw [List.append_assoc]; exact .blank hg ih
  | stmt hs _ ih => rw [List.append_assoc]; exact .stmt hs ih

theorem Stmts.flatten {l : List Str} (h : ∀ t ∈ l, StmtTok t) : Stmts l.flatten := by
  induction l with
  | nil => exact .nil
  | cons t l ih => exact .stmt (h t (by simp)) (ih fun x hx => h x (by simp [hx]))

theorem rej_statement_nil : Rej T (.rule .statement) [] := rej_empty (by decide) (by decide)

theorem Stmts.more {t : Str} (h : Stmts t) (s : Str) (hs : skip false s = skip false t) :
    ∃ r, Acc T (.more (.rule .statement)) s r ∧ skip false r = [] := by
  induction h generalizing s with
  | nil => exact ⟨s, Rej.more (by rw [hs]; exact rej_statement_nil), hs⟩
  | blank hg _ ih => exact ih s (by rw [hs, hg.skip])
  | @stmt h t hh _ ih =>
    obtain ⟨r1, h1, h2⟩ := hh T t
    obtain ⟨r2, h3, h4⟩ := ih r1 h2
    exact ⟨r2, Acc.more (by rw [hs]; exact h1) h3, h4⟩

theorem Stmts.star {t : Str} (h : Stmts t) : ∃ r, Acc T (.star (.rule .statement)) (skip false t) r ∧ skip false r = [] := by
  induction h with
  | nil => exact ⟨[], Rej.star rej_statement_nil, rfl⟩
  | blank hg _ ih => rw [hg.skip]; exact ih
  | @stmt h t hh ht ih =>
    obtain ⟨r1, h1, h2⟩ := hh T t
    obtain ⟨r2, h3, h4⟩ := ht.more r1 h2
    exact ⟨r2, Acc.star h1 h3, h4⟩

theorem Stmts.doc (h : Stmts s) : Acc s.length (.rule .turtleStarDoc) s [] := by
  obtain ⟨r, h1, h2⟩ := h.star (T := s.length)
  refine Acc.rule rfl (Acc.seq (r := s) ⟨[], reads_soi.cast (by simp)⟩ (Acc.seq h1 ?_))
  rw [h2]
  exact ⟨[.mk none [] []], reads_eoi.cast (by simp)⟩

end Rdftk
