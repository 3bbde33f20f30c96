import Verif.Lemmas.PegDepth
import Verif.Lemmas.PegTrig
import Verif.Lemmas.PegLaid
import Verif.Lemmas.PegStarN3
import Verif.Lemmas.PegStar
import Verif.Props.GrammarTurtle

/-! C200: how deep the calls of the generated parser are nested. -/

namespace Rdftk

open PegGrammar Spec

/-- **C200**, in full: there is a depth that is enough for every text that the rule is asked to read. -/
def C200_statement (i : GRule) : Prop :=
  ∃ d, ∀ (s : Str) (x : PegRes GRule), commonGrammar.Reads s.length .free (.rule i) s x → CallsWithin commonGrammar s.length d .free (.rule i) s x

/-- The depth counts what happens: whatever has a depth is what the parser does. -/
theorem C200_counts {T d : Nat} {m : PegMode} {e : Peg GRule} {s : Str} {x : PegRes GRule} (h : CallsWithin commonGrammar T d m e s x) :
    commonGrammar.Reads T m e s x := h.reads

/-- Documents of N-Triples and N-Quads of any length are read or refused with 41 and 42 calls within each other. -/
theorem C200_lines : (∀ (s : Str) (x : PegRes GRule), commonGrammar.Reads s.length .free (.rule .ntripleDoc) s x →
      CallsWithin commonGrammar s.length 41 .free (.rule .ntripleDoc) s x) ∧
    ∀ (s : Str) (x : PegRes GRule), commonGrammar.Reads s.length .free (.rule .nquadDoc) s x →
      CallsWithin commonGrammar s.length 42 .free (.rule .nquadDoc) s x :=
  ⟨fun _ _ => flat_within (by decide +kernel), fun _ _ => flat_within (by decide +kernel)⟩

/-- Only brackets make it deep: without lists, properties in brackets and quoted statements, documents of Turtle of any length need 77 calls; without braces as
well, documents of TriG need 80; and without paths as well, documents of N3 need 85. -/
theorem C200_flat (s : Str) (x : PegRes GRule) :
    (Lacks [str! "(", str! "[", str! "<<"] s → commonGrammar.Reads s.length .free (.rule .turtleStarDoc) s x →
      CallsWithin commonGrammar s.length 77 .free (.rule .turtleStarDoc) s x) ∧
    (Lacks [str! "(", str! "[", str! "<<", str! "{"] s → commonGrammar.Reads s.length .free (.rule .trigDoc) s x →
      CallsWithin commonGrammar s.length 80 .free (.rule .trigDoc) s x) ∧
    (Lacks [str! "(", str! "[", str! "{", str! "!", str! "^"] s → commonGrammar.Reads s.length .free (.rule .n3Doc) s x →
      CallsWithin commonGrammar s.length 85 .free (.rule .n3Doc) s x) :=
  ⟨fun h => lacks_within (by decide +kernel) h, fun h => lacks_within (by decide +kernel) h, fun h => lacks_within (by decide +kernel) h⟩

/-- Every rule ends on every text, and the depth is at most linear in the length of the text. -/
theorem C200_linear (i : GRule) (s : Str) : ∃ x, CallsWithin commonGrammar s.length (273 * (s.length + 1) + 1) .free (.rule i) s x := by
  obtain ⟨x, h⟩ := commonGrammar_ends.reads (total := s.length) ⟨rfl, rfl⟩ .free i s
  exact ⟨x, linear_within h⟩

/-- A document of Turtle, TriG or N3 that begins with opening brackets needs nine calls for each bracket within another, whether it is read or refused. -/
theorem C200_nested {i : GRule} (hi : i ∈ [GRule.turtleStarDoc, .trigDoc, .n3Doc]) (n : Nat) (u : Str) {d : Nat} {x : PegRes GRule}
    (h : CallsWithin commonGrammar (List.replicate n '(' ++ '(' :: u).length d .free (.rule i) (List.replicate n '(' ++ '(' :: u) x) : 9 * n < d := by
  obtain ⟨w, hw⟩ : ∃ w, List.replicate n '(' ++ '(' :: u = '(' :: w := by
    cases n with
    | zero => exact ⟨_, rfl⟩
    | succ n => exact ⟨_, rfl⟩
  have hl := goes_lists (T := (List.replicate n '(' ++ '(' :: u).length) (w := u) n
  have go : ∃ k, Goes (List.replicate n '(' ++ '(' :: u).length (k + 1) (.rule i) (List.replicate n '(' ++ '(' :: u)
      (.rule .collection) (List.replicate n '(' ++ '(' :: u) := by
    generalize List.replicate n '(' ++ '(' :: u = s at *
    subst hw
    obtain ⟨h1, h2, h3⟩ := rej_list (T := ('(' :: w).length) (w := w)
    have hs : skip false ('(' :: w) = '(' :: w := skip_solid ⟨'(', w, rfl, by decide, by decide⟩
    have doc : ∀ {j : GRule} {e : Peg GRule} {k : Nat}, commonGrammar.body j = (.normal, .seq .soi (.seq (.star e) .eoi)) →
        Goes ('(' :: w).length k e ('(' :: w) (.rule .collection) ('(' :: w) →
        Goes ('(' :: w).length (k + 3 + 1) (.rule j) ('(' :: w) (.rule .collection) ('(' :: w) := by
      intro j e k hj he
      refine Goes.rule (by rw [hj]; rfl) ?_
      rw [hj]
      refine Goes.then (q := '(' :: w) ⟨[], reads_soi.cast (by simp)⟩ ?_
      rw [hs]
      exact Goes.first (Goes.star he)
    have hd : Rej ('(' :: w).length (.rule .directive) ('(' :: w) := rej_no_directive (by decide)
    simp only [List.mem_cons, List.not_mem_nil, or_false] at hi
    rcases hi with rfl | rfl | rfl
    · exact ⟨_, doc rfl (Goes.rule rfl (Goes.right hd (Goes.first (Goes.rule rfl (Goes.left (Goes.first
        (Goes.rule rfl (Goes.right h1 (Goes.right h2 (Goes.left Goes.refl))))))))))⟩
    · have hb : Rej ('(' :: w).length (.rule .triplesOrGraph) ('(' :: w) := Rej.rule rfl (Rej.seq (Rej.rule rfl (Rej.alt h1 h2)))
      have hg : Rej ('(' :: w).length (.rule .wrappedGraph) ('(' :: w) := Rej.rule rfl (Rej.seq (rej_chr (by decide)))
      exact ⟨_, doc rfl (Goes.right hd (Goes.rule rfl (Goes.right hb (Goes.right hg (Goes.left (Goes.rule rfl
        (Goes.right (Rej.seq (rej_props (by decide))) (Goes.first Goes.refl))))))))⟩
    · exact ⟨_, doc rfl (Goes.left (Goes.first (Goes.rule rfl (Goes.right (rej_n3_at (by decide)) (Goes.rule rfl (Goes.first
        (Goes.rule rfl (Goes.rule rfl (Goes.rule rfl (Goes.first (Goes.rule rfl (Goes.right h1 (Goes.right h2
          (Goes.right (rej_quickVar (by decide)) (Goes.left Goes.refl)))))))))))))))⟩
  obtain ⟨k, hk⟩ := go
  obtain ⟨d', x', h1, -⟩ := (hk.trans hl) d x h
  omega

theorem acc_lists {T : Nat} (n : Nat) (u : Str) : Acc T (.rule .collection) (List.replicate (n + 1) '(' ++ (List.replicate (n + 1) ')' ++ u)) u := by
  have close : ∀ w : Str, Rej T (.rule .turtleObject) (')' :: w) := fun w => Rej.rule rfl (Rej.alt
    (rej_iri (by decide) (by decide) (by decide) (by decide) (pIriRef_head (by decide))) (Rej.alt (rej_blank (by decide) (by decide))
      (Rej.alt (rej_turtleLiteral (by decide) (by decide) (by simp)) (Rej.alt (rej_coll (by decide)) (Rej.alt (rej_props (by decide)) (rej_tripleX (by decide)))))))
  have solid : ∀ w : Str, skip false (')' :: w) = ')' :: w := fun w => skip_solid ⟨')', w, rfl, by decide, by decide⟩
  induction n generalizing u with
  | zero =>
    refine Acc.rule rfl (Acc.seq (r := ')' :: u) (acc_str rfl) ?_)
    rw [solid]
    refine Acc.seq (close u).star ?_
    rw [solid]
    exact acc_str rfl
  | succ n ih =>
    have h := ih (')' :: u)
    rw [show List.replicate (n + 1) ')' ++ ')' :: u = List.replicate (n + 1 + 1) ')' ++ u by simp [List.replicate_succ' (n := n + 1)]] at h
    obtain ⟨w, hw⟩ : ∃ w, List.replicate (n + 1) '(' ++ (List.replicate (n + 1 + 1) ')' ++ u) = '(' :: w := ⟨_, rfl⟩
    rw [show List.replicate (n + 1 + 1) '(' ++ (List.replicate (n + 1 + 1) ')' ++ u) =
      '(' :: (List.replicate (n + 1) '(' ++ (List.replicate (n + 1 + 1) ')' ++ u)) from rfl]
    rw [hw] at h ⊢
    refine Acc.rule rfl (Acc.seq (r := '(' :: w) (acc_str rfl) ?_)
    rw [skip_solid ⟨'(', w, rfl, by decide, by decide⟩]
    refine Acc.seq (Acc.star (object_list.1 h) (Rej.more (by rw [solid]; exact close u))) ?_
    rw [solid]
    exact acc_str rfl

/-- The depth is needed for documents that are read: lists within lists, closed again. -/
theorem C200_read (n : Nat) : GReads .turtleStarDoc (List.replicate (n + 1) '(' ++ (List.replicate (n + 1) ')' ++ (str! " <p:p> <p:o> ."))) := by
  refine reads_of_acc ?_
  generalize hT : (List.replicate (n + 1) '(' ++ (List.replicate (n + 1) ')' ++ (str! " <p:p> <p:o> ."))).length = T
  have h := acc_lists (T := T) n (str! " <p:p> <p:o> .")
  generalize hs : List.replicate (n + 1) '(' ++ (List.replicate (n + 1) ')' ++ (str! " <p:p> <p:o> .")) = s at *
  obtain ⟨w, rfl⟩ : ∃ w, s = '(' :: w := ⟨_, hs.symm⟩
  obtain ⟨h1, h2, h3⟩ := rej_list (T := T) (w := w)
  have hst : Acc T (.rule .statement) ('(' :: w) [] := Acc.rule rfl (Rej.right (rej_no_directive (by decide)) (Acc.seq
    (Acc.rule rfl (Acc.left (Acc.seq (Acc.rule rfl (Rej.right h1 (Rej.right h2 (Acc.left h)))) (r' := (str! "."))
      ⟨_, 60, rfl⟩))) (acc_end)))
  refine Acc.rule rfl (Acc.seq (r := '(' :: w) ⟨[], reads_soi.cast (by simp [hT])⟩ ?_)
  rw [skip_solid ⟨'(', w, rfl, by decide, by decide⟩]
  exact Acc.seq (Acc.star hst (Rej.more rej_statement_nil)) ⟨_, 1, rfl⟩

theorem block_skip (dot : Bool) (t : Stmt) (ts : List Stmt) (u : Str) :
    skip false ('\n' :: (blockText dot (t :: ts) ++ '}' :: u)) = blockText dot (t :: ts) ++ '}' :: u := by
  have hb : ∃ v, blockText dot (t :: ts) ++ '}' :: u = t.subject.display .bare ++ v := by
    cases t with
    | mk s p o =>
      cases ts with
      | nil => cases dot <;> exact ⟨_, by simp only [blockText, Stmt.display, List.append_assoc]; rfl⟩
      | cons t'' ts => exact ⟨_, by simp only [blockText, Stmt.display, List.append_assoc]; rfl⟩
  obtain ⟨v, e⟩ := hb
  rw [e, ← display_solid .bare t.subject v]
  simp [skip, isWs, isNewline, display_solid]

theorem goes_block {T : Nat} (dot : Bool) (t : Stmt) (ts : List Stmt) (h : ∀ x ∈ t :: ts, StmtShows x ∧ SubjectQuotes x.subject ∧ ObjectQuotes x.object)
    (u : Str) : ∃ s', Goes T (5 * ts.length) (.rule .triplesBlock) (blockText dot (t :: ts) ++ '}' :: u) (.rule .triplesBlock) s' := by
  induction ts generalizing t with
  | nil => exact ⟨_, Goes.refl⟩
  | cons t' ts ih =>
    obtain ⟨h1, h2, h3⟩ := h t (by simp)
    obtain ⟨s', h4⟩ := ih t' (fun x hx => h x (by simp [List.mem_cons.1 hx]))
    have hdot : ∀ w, skip false (' ' :: '.' :: w) = '.' :: w := by intro w; rw [skip_sp]; exact skip_lead (by decide) (by decide)
    have hf : ∀ w, Fol (' ' :: '.' :: w) := fun w => ⟨⟨' ', _, rfl, .inl rfl⟩, '.', _, hdot w, by decide⟩
    cases t with
    | mk s p o =>
    have h5 := triples_shown (T := T) h1 h2 h3 (hf ('\n' :: (blockText dot (t' :: ts) ++ '}' :: u))) (hdot _) ⟨by decide, by decide⟩
    have e : blockText dot (Stmt.mk s p o :: t' :: ts) ++ '}' :: u = (Stmt.mk s p o).display .bare ++ ' ' :: '.' :: '\n' :: (blockText dot (t' :: ts) ++ '}' :: u) := by
      simp [blockText]
    refine ⟨s', ?_⟩
    rw [e, List.length_cons, Nat.mul_add]
    refine Goes.rule rfl (Goes.then h5 ?_)
    rw [show ∀ w, skip false ('.' :: w) = '.' :: w from fun w => skip_lead (by decide) (by decide)]
    refine Goes.opt (Goes.then acc_end ?_)
    rw [block_skip]
    exact Goes.opt h4

/-- In a graph of TriG the statements are nested too: each but the last needs five calls within those of the one before it, although nothing is nested in
the text. -/
theorem C200_graph (k dot : Bool) (t : Stmt) (ts : List Stmt) (h : ∀ x ∈ t :: ts, StmtShows x ∧ SubjectQuotes x.subject ∧ ObjectQuotes x.object)
    {d : Nat} {x : PegRes GRule}
    (hx : CallsWithin commonGrammar (trigGraphText k dot none (t :: ts)).length d .free (.rule .trigDoc) (trigGraphText k dot none (t :: ts)) x) :
    5 * ts.length < d := by
  have e : trigGraphText k dot none (t :: ts) = '{' :: '\n' :: (blockText dot (t :: ts) ++ '}' :: ['\n']) := by simp [trigGraphText]
  rw [e] at hx
  generalize hw : '\n' :: (blockText dot (t :: ts) ++ '}' :: ['\n']) = w at hx
  have hs : skip false ('{' :: w) = '{' :: w := skip_lead (by decide) (by decide)
  obtain ⟨s', hg⟩ := goes_block (T := ('{' :: w).length) dot t ts h ['\n']
  have go : Goes ('{' :: w).length (12 + 5 * ts.length) (.rule .trigDoc) ('{' :: w) (.rule .triplesBlock) s' := by
    refine Goes.trans ?_ hg
    refine Goes.rule rfl (Goes.then (q := '{' :: w) ⟨[], reads_soi.cast (by simp)⟩ ?_)
    rw [hs]
    refine Goes.first (Goes.star (Goes.right (rej_no_directive (by decide)) (Goes.rule rfl (Goes.right (Rej.rule rfl (Rej.seq (Rej.rule rfl (Rej.alt
      (rej_iri (by decide) (by decide) (by decide) (by decide) (pIriRef_head (by decide))) (rej_blank (by decide) (by decide)))))) (Goes.left
        (Goes.rule rfl (Goes.then (q := w) (acc_str rfl) ?_)))))))
    rw [← hw, block_skip]
    exact Goes.first (Goes.opt Goes.refl)
  obtain ⟨d', x', h1, -⟩ := go d x hx
  omega

/-- No depth is enough for Turtle, TriG or N3. -/
theorem C200_fails : ¬ C200_statement .turtleStarDoc ∧ ¬ C200_statement .trigDoc ∧ ¬ C200_statement .n3Doc := by
  have key : ∀ {i : GRule}, i ∈ [GRule.turtleStarDoc, .trigDoc, .n3Doc] → ¬ C200_statement i := by
    rintro i hi ⟨d, h⟩
    obtain ⟨x, hx⟩ := commonGrammar_ends.reads (total := (List.replicate d '(' ++ '(' :: []).length) ⟨rfl, rfl⟩ .free i (List.replicate d '(' ++ '(' :: [])
    have := C200_nested hi d [] (h _ _ hx)
    omega
  exact ⟨key (by decide), key (by decide), key (by decide)⟩

example : Lacks [str! "(", str! "[", str! "<<"] (str! "<a:b> a <c:d> .") := by unfold Lacks; decide

end Rdftk
