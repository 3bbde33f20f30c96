import Verif.Lemmas.NTriples

/-! Lemmas about the evaluation of N-Triples terms. -/

namespace Rdftk

open Spec

/-! ### Numeric escapes -/

theorem toNat_ofNat_valid {n : Nat} (h : n.isValidChar) : (Char.ofNat n).toNat = n := by
  unfold Char.ofNat
  rw [dif_pos h]
  rfl

theorem char_valid (c : Char) : c.toNat.isValidChar := c.valid

/-- The map on outcomes. -/
def Outcome.map {α β : Type _} (f : α → β) : Outcome α → Outcome β
  | .ok a => .ok (f a)
  | .panic => .panic

theorem unescape_pass (a s : Str) : unescapeIri a.length (a ++ s) = unescapeIri 0 s := by
  induction a with
  | nil => rfl
  | cons c a ih => simp [unescapeIri, ih]

theorem unescape_plain {c : Char} {s : Str} (h : ucharLen (c :: s) = none) :
    unescapeIri 0 (c :: s) = (unescapeIri 0 s).map (c :: ·) := by
  simp only [unescapeIri, h]
  cases unescapeIri 0 s <;> rfl

theorem unescape_escape {ds u : Str} (h : UcharOf ds u) (s : Str) :
    unescapeIri 0 (u ++ s) =
      if (hexValue ds).isValidChar then (unescapeIri 0 s).map (Char.ofNat (hexValue ds) :: ·)
      else .panic := by
  obtain ⟨h1, h2⟩ := ucharLen_of h s
  have hu : ∃ x, u = '\\' :: x :: ds := by
    obtain ⟨_, ⟨_, rfl⟩ | ⟨_, rfl⟩⟩ := h <;> exact ⟨_, rfl⟩
  obtain ⟨x, rfl⟩ := hu
  have e1 : ((x :: (ds ++ s)).drop 1).take (ds.length + 2 - 2) = ds := by simp
  have e2 : unescapeIri (ds.length + 2 - 1) (x :: (ds ++ s)) = unescapeIri 0 s :=
    unescape_pass (x :: ds) s
  simp only [List.cons_append] at h1 h2 ⊢
  simp only [unescapeIri, h1, h2, e1, e2, hexNumber_eq]
  split
  · cases unescapeIri 0 s <;> rfl
  · rfl

theorem not_uchar_prefix {c : Char} {s : Str} :
    ucharLen (c :: s) = none ↔ ∀ u r, Uchar u → c :: s ≠ u ++ r := by
  constructor
  · rintro h u r ⟨ds, hu⟩ e
    rw [e, (ucharLen_of hu r).1] at h
    cases h
  · intro h
    cases e : ucharLen (c :: s) with
    | none => rfl
    | some n =>
      obtain ⟨ds, t, r, hu, e', _⟩ := ucharLen_some e
      exact absurd e' (h t r ⟨ds, hu⟩)

theorem unescape_iff (s t : Str) : unescapeIri 0 s = .ok t ↔ DecodesIri s t := by
  constructor
  · suffices H : ∀ n s t, s.length ≤ n → unescapeIri 0 s = .ok t → DecodesIri s t from
      H s.length s t (Nat.le_refl _)
    intro n
    induction n with
    | zero =>
      intro s t hn h
      cases s with
      | nil =>
        simp only [unescapeIri, Outcome.ok.injEq] at h
        rw [← h]; exact .nil
      | cons c s => simp at hn
    | succ n ih =>
      intro s t hn h
      cases s with
      | nil =>
        simp only [unescapeIri, Outcome.ok.injEq] at h
        rw [← h]; exact .nil
      | cons c s =>
        simp only [List.length_cons] at hn
        cases hu : ucharLen (c :: s) with
        | none =>
          rw [unescape_plain hu] at h
          cases e : unescapeIri 0 s with
          | panic => rw [e] at h; cases h
          | ok r =>
            rw [e] at h
            simp only [Outcome.map, Outcome.ok.injEq] at h
            rw [← h]
            exact .plain (not_uchar_prefix.1 hu) (ih s r (by omega) e)
        | some m =>
          obtain ⟨ds, u, r, hu', e', _⟩ := ucharLen_some hu
          rw [e', unescape_escape hu'] at h
          split at h
          · rename_i hv
            cases e : unescapeIri 0 r with
            | panic => rw [e] at h; cases h
            | ok x =>
              rw [e] at h
              simp only [Outcome.map, Outcome.ok.injEq] at h
              rw [← h, e']
              refine .escape hu' (toNat_ofNat_valid hv) (ih r x ?_ e)
              have h1 := congrArg List.length e'
              have h2 := (ucharLen_of hu' r).2
              simp only [List.length_cons, List.length_append] at h1
              omega
          · cases h
  · intro h
    induction h with
    | nil => rfl
    | @plain c s t hc _ ih =>
      rw [unescape_plain (not_uchar_prefix.2 hc), ih]; rfl
    | @escape ds u s t c hu hv _ ih =>
      rw [unescape_escape hu, ih, ← hv, if_pos (char_valid c), Char.ofNat_toNat]
      rfl

theorem decodes_no_backslash {s : Str} (h : ∀ c ∈ s, c ≠ '\\') : DecodesIri s s := by
  induction s with
  | nil => exact .nil
  | cons c s ih =>
    refine .plain ?_ (ih fun x hx => h x (List.mem_cons_of_mem _ hx))
    rintro u r ⟨ds, hu⟩ e
    obtain ⟨a, rfl⟩ := uchar_head hu
    injection e with e1 _
    exact h c List.mem_cons_self e1

theorem unescape_panic {s : Str} (h : unescapeIri 0 s = .panic) :
    ∃ ds u, UcharOf ds u ∧ u <:+: s ∧ ¬ (hexValue ds).isValidChar := by
  suffices H : ∀ n s, s.length ≤ n → unescapeIri 0 s = .panic →
      ∃ ds u, UcharOf ds u ∧ u <:+: s ∧ ¬ (hexValue ds).isValidChar from H s.length s (Nat.le_refl _) h
  intro n
  induction n with
  | zero =>
    intro s hn h
    cases s with
    | nil => cases h
    | cons c s => simp at hn
  | succ n ih =>
    intro s hn h
    cases s with
    | nil => cases h
    | cons c s =>
      simp only [List.length_cons] at hn
      cases hu : ucharLen (c :: s) with
      | none =>
        rw [unescape_plain hu] at h
        cases e : unescapeIri 0 s with
        | ok r => rw [e] at h; cases h
        | panic =>
          obtain ⟨ds, u, h1, h2, h3⟩ := ih s (by omega) e
          exact ⟨ds, u, h1, h2.trans (List.suffix_cons c s).isInfix, h3⟩
      | some m =>
        obtain ⟨ds, u, r, hu', e', _⟩ := ucharLen_some hu
        rw [e', unescape_escape hu'] at h
        split at h
        · cases e : unescapeIri 0 r with
          | ok x => rw [e] at h; cases h
          | panic =>
            have h1 := congrArg List.length e'
            have h2 := (ucharLen_of hu' r).2
            simp only [List.length_cons, List.length_append] at h1
            obtain ⟨ds', u', g1, g2, g3⟩ := ih r (by omega) e
            rw [e']
            exact ⟨ds', u', g1, g2.trans (List.suffix_append u r).isInfix, g3⟩
        · rename_i hv
          rw [e']
          exact ⟨ds, u, hu', (List.prefix_append u r).isInfix, hv⟩

/-! ### What is matched stands in the text -/

theorem skip_suffix (b : Bool) (s : Str) : skip b s <:+ s := by
  induction s generalizing b with
  | nil => rw [skip_nil]; exact List.suffix_rfl
  | cons c s ih =>
    cases b with
    | true =>
      simp only [skip]
      split <;> exact (ih _).trans (List.suffix_cons c s)
    | false =>
      simp only [skip]
      split
      · exact (ih _).trans (List.suffix_cons c s)
      · split
        · exact (ih _).trans (List.suffix_cons c s)
        · exact List.suffix_rfl

theorem pIriRef_join {s a r : Str} (h : pIriRef s = some (a, r)) : s = '<' :: (a ++ '>' :: r) := by
  unfold pIriRef at h
  split at h
  · rename_i s'
    split at h
    · rename_i x y e
      simp only [Option.some.injEq, Prod.mk.injEq] at h
      have := rep_join iriCharLen 0 s'
      rw [e] at this
      rw [← this, h.1, h.2]
    · cases h
  · cases h

theorem pIriRef_inside {s a r : Str} (h : pIriRef s = some (a, r)) : a <:+: s ∧ r <:+ s := by
  rw [pIriRef_join h]
  exact ⟨⟨['<'], '>' :: r, by simp⟩, ⟨'<' :: a ++ ['>'], by simp⟩⟩

theorem pLabel_suffix {s a r : Str} (h : pLabel s = some (a, r)) : r <:+ s := by
  unfold pLabel at h
  split at h
  · rename_i c s'
    split at h
    · simp only [Option.some.injEq, Prod.mk.injEq] at h
      have := rep_join labelTailLen 0 s'
      rw [h.2] at this
      exact ⟨'_' :: ':' :: c :: (rep labelTailLen 0 s').1, by simp [this]⟩
    · cases h
  · cases h

theorem pAnon_suffix {s a r : Str} (h : pAnon s = some (a, r)) : r <:+ s := by
  unfold pAnon at h
  split at h
  · rename_i s'
    split at h
    · rename_i r' e
      simp only [Option.some.injEq, Prod.mk.injEq] at h
      have := skip_suffix false s'
      rw [e, h.2] at this
      exact (List.suffix_cons ']' r).trans (this.trans (List.suffix_cons '[' s'))
    · cases h
  · cases h

/-- The IRI of a node stands in the text. -/
def RNode.inside (s : Str) : RNode → Prop
  | .iri i => i <:+: s
  | .blank _ => True

theorem RNode.inside_mono {n : RNode} {s t : Str} (h : n.inside s) (hs : s <:+ t) : n.inside t := by
  cases n with
  | iri i => exact List.IsInfix.trans h hs.isInfix
  | blank b => trivial

theorem pSubject_inside {s r : Str} {n : RNode} (h : pSubject s = some (n, r)) :
    n.inside s ∧ r <:+ s := by
  unfold pSubject at h
  split at h
  · rename_i e
    simp only [Option.some.injEq, Prod.mk.injEq] at h
    obtain ⟨rfl, rfl⟩ := h
    exact pIriRef_inside e
  · simp only [Option.map_eq_some_iff, pBlank, Option.or_eq_some_iff] at h
    obtain ⟨⟨b, x⟩, h1, h2⟩ := h
    simp only [Prod.mk.injEq] at h2
    obtain ⟨rfl, rfl⟩ := h2
    refine ⟨trivial, ?_⟩
    rcases h1 with h1 | ⟨_, h1⟩
    · exact pLabel_suffix h1
    · exact pAnon_suffix h1

theorem pString_suffix {s a r : Str} (h : pString s = some (a, r)) : r <:+ s := by
  unfold pString at h
  split at h
  · rename_i s'
    split at h
    · rename_i x y e
      simp only [Option.some.injEq, Prod.mk.injEq] at h
      have := rep_join quoteCharLen 0 s'
      rw [e, h.2] at this
      exact ⟨'"' :: x ++ ['"'], by simp [this]⟩
    · cases h
  · cases h

theorem pLangTag_suffix {s a r : Str} (h : pLangTag s = some (a, r)) : r <:+ s := by
  unfold pLangTag at h
  split at h
  · rename_i s'
    simp only at h
    split at h
    · cases h
    · simp only [Option.some.injEq, Prod.mk.injEq] at h
      have := rep_join subTagLen 0 (s'.dropWhile isAsciiAlpha)
      rw [h.2] at this
      have h1 : r <:+ s'.dropWhile isAsciiAlpha := ⟨_, this⟩
      exact h1.trans ((List.dropWhile_suffix _).trans (List.suffix_cons '@' s'))
  · cases h

/-- The IRI of a suffix stands in the text. -/
def RSuffix.inside (s : Str) : RSuffix → Prop
  | .type i => i <:+: s
  | _ => True

theorem stripPrefix_join {p s r : Str} (h : stripPrefix p s = some r) : s = p ++ r := by
  induction p generalizing s with
  | nil => simp only [stripPrefix, Option.some.injEq] at h; simp [h]
  | cons c p ih =>
    cases s with
    | nil => cases h
    | cons d s =>
      simp only [stripPrefix] at h
      split at h
      · rename_i e; rw [e, ih h]; rfl
      · cases h

theorem pSuffix_inside (s : Str) : (pSuffix s).1.inside s ∧ (pSuffix s).2 <:+ s := by
  unfold pSuffix
  split
  · rename_i e; exact ⟨trivial, pLangTag_suffix e⟩
  · split
    · rename_i r e
      split
      · rename_i i r' e'
        obtain ⟨h1, h2⟩ := pIriRef_inside e'
        have hr : r <:+ s := ⟨_, (stripPrefix_join e).symm⟩
        have hk := (skip_suffix false r).trans hr
        exact ⟨List.IsInfix.trans h1 hk.isInfix, h2.trans hk⟩
      · exact ⟨trivial, List.suffix_rfl⟩
    · exact ⟨trivial, List.suffix_rfl⟩

/-- The IRIs of an object stand in the text. -/
def RObject.inside (s : Str) : RObject → Prop
  | .node n => n.inside s
  | .lit _ x => x.inside s

theorem RObject.inside_mono {o : RObject} {s t : Str} (h : o.inside s) (hs : s <:+ t) : o.inside t := by
  cases o with
  | node n => exact RNode.inside_mono (n := n) h hs
  | lit a x =>
    cases x with
    | type i => exact List.IsInfix.trans h hs.isInfix
    | none => trivial
    | lang t => trivial

theorem pObject_inside {s r : Str} {o : RObject} (h : pObject s = some (o, r)) :
    o.inside s ∧ r <:+ s := by
  unfold pObject at h
  split at h
  · rename_i e
    simp only [Option.some.injEq, Prod.mk.injEq] at h
    obtain ⟨rfl, rfl⟩ := h
    exact pSubject_inside e
  · split at h
    · rename_i a r' e
      simp only [Option.some.injEq, Prod.mk.injEq] at h
      obtain ⟨rfl, rfl⟩ := h
      have hk := (skip_suffix false r').trans (pString_suffix e)
      obtain ⟨h1, h2⟩ := pSuffix_inside (skip false r')
      exact ⟨RObject.inside_mono (o := .lit a _) h1 hk, h2.trans hk⟩
    · cases h

/-- The IRIs of a statement stand in the text. -/
def RLine.inside (s : Str) (l : RLine) : Prop :=
  l.subject.inside s ∧ l.predicate <:+: s ∧ l.object.inside s ∧ ∀ n ∈ l.graph, n.inside s

theorem RLine.inside_mono {l : RLine} {s t : Str} (h : l.inside s) (hs : s <:+ t) : l.inside t :=
  ⟨RNode.inside_mono h.1 hs, h.2.1.trans hs.isInfix, RObject.inside_mono h.2.2.1 hs,
    fun n hn => RNode.inside_mono (h.2.2.2 n hn) hs⟩

theorem pTerms_inside {s r : Str} {a : RNode} {b : Str} {c : RObject}
    (h : pTerms s = some ((a, b, c), r)) :
    a.inside s ∧ b <:+: s ∧ c.inside s ∧ r <:+ s := by
  unfold pTerms at h
  split at h
  · cases h
  · rename_i a' r1 e1
    split at h
    · cases h
    · rename_i b' r2 e2
      split at h
      · cases h
      · rename_i c' r3 e3
        simp only [Option.some.injEq, Prod.mk.injEq] at h
        obtain ⟨⟨rfl, rfl, rfl⟩, rfl⟩ := h
        obtain ⟨i1, s1⟩ := pSubject_inside e1
        obtain ⟨i2, s2⟩ := pIriRef_inside e2
        obtain ⟨i3, s3⟩ := pObject_inside e3
        have k1 := (skip_suffix false r1).trans s1
        have k2 := (skip_suffix false r2).trans (s2.trans k1)
        exact ⟨i1, i2.trans k1.isInfix, RObject.inside_mono i3 k2, s3.trans k2⟩

theorem pEnd_suffix {s r : Str} (h : pEnd s = some r) : r <:+ s := by
  unfold pEnd at h
  split at h
  · rename_i x e
    simp only [Option.some.injEq] at h
    have := skip_suffix false s
    rw [e, h] at this
    exact (List.suffix_cons '.' r).trans this
  · cases h

theorem pTriple_inside {s r : Str} {l : RLine} (h : pTriple s = some (l, r)) :
    l.inside s ∧ r <:+ s := by
  unfold pTriple at h
  split at h
  · cases h
  · rename_i a b c r1 e
    obtain ⟨h1, h2, h3, h4⟩ := pTerms_inside e
    simp only [Option.map_eq_some_iff, Prod.mk.injEq] at h
    obtain ⟨x, hx, rfl, rfl⟩ := h
    exact ⟨⟨h1, h2, h3, by simp⟩, (pEnd_suffix hx).trans h4⟩

theorem pQuad_inside {s r : Str} {l : RLine} (h : pQuad s = some (l, r)) :
    l.inside s ∧ r <:+ s := by
  unfold pQuad at h
  split at h
  · cases h
  · rename_i a b c r1 e
    obtain ⟨h1, h2, h3, h4⟩ := pTerms_inside e
    split at h
    · rename_i g r2 e2
      obtain ⟨i2, s2⟩ := pSubject_inside e2
      have k := (skip_suffix false r1).trans h4
      simp only [Option.map_eq_some_iff, Prod.mk.injEq] at h
      obtain ⟨x, hx, rfl, rfl⟩ := h
      refine ⟨⟨h1, h2, h3, ?_⟩, (pEnd_suffix hx).trans (s2.trans k)⟩
      intro n hn
      simp only [Option.mem_def, Option.some.injEq] at hn
      rw [← hn]
      exact RNode.inside_mono i2 k
    · simp only [Option.map_eq_some_iff, Prod.mk.injEq] at h
      obtain ⟨x, hx, rfl, rfl⟩ := h
      exact ⟨⟨h1, h2, h3, by simp⟩, (pEnd_suffix hx).trans h4⟩

theorem pLines_inside {p : Str → Option (RLine × Str)}
    (hp : ∀ s l r, p s = some (l, r) → l.inside s ∧ r <:+ s) (n : Nat) (s : Str) :
    ∀ l ∈ (pLines p n s).1, l.inside s := by
  induction n generalizing s with
  | zero => simp [pLines]
  | succ n ih =>
    intro l hl
    simp only [pLines] at hl
    split at hl
    · simp at hl
    · rename_i l' r e
      obtain ⟨h1, h2⟩ := hp s l' r e
      simp only [List.mem_cons] at hl
      rcases hl with rfl | hl
      · exact h1
      · exact RLine.inside_mono (ih _ l hl) ((skip_suffix false r).trans h2)

theorem pDoc_inside {p : Str → Option (RLine × Str)}
    (hp : ∀ s l r, p s = some (l, r) → l.inside s ∧ r <:+ s) {s : Str} {ls : List RLine}
    (h : pDoc p s = some ls) : ∀ l ∈ ls, l.inside s := by
  unfold pDoc at h
  split at h
  · rename_i ls' e
    simp only [Option.some.injEq] at h
    intro l hl
    have := pLines_inside hp s.length (skip false s) l
    rw [e, h] at this
    exact RLine.inside_mono (this hl) (skip_suffix false s)
  · cases h

/-! ### No panic without a bad escape -/

theorem Res.bind_ne_panic {α β : Type _} {x : Res α} {f : α → Res β} (h1 : x ≠ .panic)
    (h2 : ∀ a, x = .ok a → f a ≠ .panic) : x.bind f ≠ .panic := by
  cases x with
  | ok a => exact h2 a rfl
  | err => exact fun h => by cases h
  | panic => exact absurd rfl h1

theorem Res.ofOption_ne_panic {α : Type _} (x : Option α) : Res.ofOption x ≠ .panic := by
  cases x <;> exact fun h => by cases h

theorem evalIri_ne_panic (env : ReadEnv) {i s : Str} (hs : GoodEscapes s) (hi : i <:+: s) :
    evalIri env i ≠ .panic := by
  unfold evalIri
  split
  · rename_i e
    obtain ⟨ds, u, h1, h2, h3⟩ := unescape_panic e
    exact absurd (hs ds u h1 (h2.trans hi)) h3
  · exact Res.ofOption_ne_panic _

theorem evalNode_ne_panic (env : ReadEnv) {n : RNode} {s : Str} (hs : GoodEscapes s)
    (hn : n.inside s) : evalNode env n ≠ .panic := by
  cases n with
  | iri i => exact Res.bind_ne_panic (evalIri_ne_panic env hs hn) fun _ _ h => by cases h
  | blank t => exact Res.bind_ne_panic (Res.ofOption_ne_panic _) fun _ _ h => by cases h

theorem evalObject_ne_panic (env : ReadEnv) {o : RObject} {s : Str} (hs : GoodEscapes s)
    (ho : o.inside s) : evalObject env o ≠ .panic := by
  cases o with
  | node n => exact Res.bind_ne_panic (evalNode_ne_panic env hs ho) fun _ _ h => by cases h
  | lit a x =>
    refine Res.bind_ne_panic ?_ fun _ _ h => by cases h
    cases x with
    | none => exact fun h => by cases h
    | lang t => exact Res.bind_ne_panic (Res.ofOption_ne_panic _) fun _ _ h => by cases h
    | type i => exact Res.bind_ne_panic (evalIri_ne_panic env hs ho) fun _ _ h => by cases h

theorem evalTriple_ne_panic (env : ReadEnv) {l : RLine} {s : Str} (hs : GoodEscapes s)
    (hl : l.inside s) : evalTriple env l ≠ .panic :=
  Res.bind_ne_panic (evalNode_ne_panic env hs hl.1) fun _ _ =>
    Res.bind_ne_panic (evalIri_ne_panic env hs hl.2.1) fun _ _ =>
      Res.bind_ne_panic (evalObject_ne_panic env hs hl.2.2.1) fun _ _ h => by cases h

theorem evalTriples_ne_panic (env : ReadEnv) {s : Str} (hs : GoodEscapes s) (ls : List RLine)
    (hl : ∀ l ∈ ls, l.inside s) (g : Graph) : evalTriples env g ls ≠ .panic := by
  induction ls generalizing g with
  | nil => exact fun h => by cases h
  | cons l ls ih =>
    exact Res.bind_ne_panic (evalTriple_ne_panic env hs (hl l List.mem_cons_self)) fun st _ =>
      ih (fun x hx => hl x (List.mem_cons_of_mem _ hx)) _

theorem evalNode_not_stmt (env : ReadEnv) (n : RNode) (t : Stmt) : evalNode env n ≠ .ok (.stmt t) := by
  intro h
  cases n with
  | iri i =>
    simp only [evalNode] at h
    cases e : evalIri env i <;> simp [e, Res.bind] at h
  | blank b =>
    simp only [evalNode] at h
    cases e : blankParse env.blankOk (b.drop 2) <;> simp [e, Res.bind, Res.ofOption] at h

theorem evalQuad_ne_panic (env : ReadEnv) {l : RLine} {s : Str} (hs : GoodEscapes s)
    (hl : l.inside s) (d : DataSet) : evalQuad env d l ≠ .panic := by
  refine Res.bind_ne_panic (evalTriple_ne_panic env hs hl) fun st _ => ?_
  cases hg : l.graph with
  | none => exact fun h => by cases h
  | some n =>
    refine Res.bind_ne_panic (evalNode_ne_panic env hs (hl.2.2.2 n (by simp [hg]))) fun x hx => ?_
    cases x with
    | blank b => exact fun h => by cases h
    | res i => exact fun h => by cases h
    | stmt t => exact absurd hx (evalNode_not_stmt env n t)

theorem evalQuads_ne_panic (env : ReadEnv) {s : Str} (hs : GoodEscapes s) (ls : List RLine)
    (hl : ∀ l ∈ ls, l.inside s) (d : DataSet) : evalQuads env d ls ≠ .panic := by
  induction ls generalizing d with
  | nil => exact fun h => by cases h
  | cons l ls ih =>
    exact Res.bind_ne_panic (evalQuad_ne_panic env hs (hl l List.mem_cons_self) d) fun st _ =>
      ih (fun x hx => hl x (List.mem_cons_of_mem _ hx)) _

end Rdftk
