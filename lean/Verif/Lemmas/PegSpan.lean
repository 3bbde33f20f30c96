import Verif.Spec.PairSpan
import Verif.Lemmas.Peg

/-! The pairs of every parse lie in the text that was read. -/

namespace Rdftk

open PegGrammar Spec

variable {R : Type} {l k : List (Pair R)} {s t r : Str}

theorem Spec.Lies.before (h : Lies l t) (g : Str) : Lies l (g ++ t) := by
  cases h with
  | nil => exact .nil
  | cons hp hl => rw [← List.append_assoc]; exact .cons hp hl

theorem Spec.Lies.append {k : List (Pair R)} {r : Str} (hk : Lies k r) : ∀ {l : List (Pair R)} {t : Str}, Lies l t → Lies (l ++ k) (t ++ r)
  | _, _, .nil => hk.before _
  | _, _, .cons hp hl => by
    rw [List.append_assoc, List.append_assoc]
    exact .cons hp (hk.append hl)

/-- What a run leaves is the end of the text, and its pairs lie in what it has read. -/
def Spans (s : Str) (x : Option (PegRes R)) : Prop := ∀ l r, x = some (some (l, r)) → ∃ t, s = t ++ r ∧ Lies l t

theorem Spans.next {x : Option (PegRes R)} {f : Str → Option (PegRes R)} (hx : Spans s x) (hf : ∀ r, Spans r (f r)) : Spans s (PegRes.next x f) := by
  intro l r h
  unfold PegRes.next at h
  split at h
  · cases h
  · cases h
  · rename_i l1 r1
    obtain ⟨t, rfl, h1⟩ := hx l1 r1 rfl
    split at h
    · cases h
    · cases h
    · rename_i l2 r2 e2
      obtain ⟨t2, rfl, h2⟩ := hf r1 l2 r2 e2
      cases h
      exact ⟨t ++ t2, by simp, h2.append h1⟩

theorem Spans.other {x : Option (PegRes R)} {y : Unit → Option (PegRes R)} (hx : Spans s x) (hy : Spans s (y ())) : Spans s (PegRes.other x y) := by
  intro l r h
  unfold PegRes.other at h
  split at h
  · exact hy l r h
  · exact hx l r h

theorem spans_stay : Spans (R := R) s (some (some ([], s))) := by
  intro l r h; cases h; exact ⟨[], rfl, .nil⟩

theorem stripPrefixI_left {t s r : Str} (h : stripPrefixI t s = some r) : ∃ u, s = u ++ r := by
  induction t generalizing s with
  | nil => cases h; exact ⟨[], rfl⟩
  | cons a t ih =>
    cases s with
    | nil => cases h
    | cons b s =>
      simp only [stripPrefixI] at h
      split at h
      · obtain ⟨u, rfl⟩ := ih h
        exact ⟨b :: u, rfl⟩
      · cases h

theorem run_spans (g : PegGrammar R) (T n : Nat) (m : PegMode) (e : Peg R) (s : Str) : Spans s (g.run T n m e s) := by
  induction n generalizing m e s with
  | zero => intro l r h; simp [PegGrammar.run] at h
  | succ n ih =>
    have hskip : ∀ r, Spans r (if m = .free then g.run T n .atomic g.skipper r else some (some ([], r))) := by
      intro r
      split
      · exact ih _ _ _
      · exact spans_stay
    cases e with
    | str t =>
      intro l r h
      simp only [PegGrammar.run, Option.some.injEq, Option.map_eq_some_iff, Prod.mk.injEq] at h
      obtain ⟨u, hu, rfl, rfl⟩ := h
      exact ⟨t, stripPrefix_eq hu, .nil⟩
    | istr t =>
      intro l r h
      simp only [PegGrammar.run, Option.some.injEq, Option.map_eq_some_iff, Prod.mk.injEq] at h
      obtain ⟨u, hu, rfl, rfl⟩ := h
      obtain ⟨v, e⟩ := stripPrefixI_left hu
      exact ⟨v, e, .nil⟩
    | range lo hi =>
      intro l r h
      cases s with
      | nil => simp [PegGrammar.run] at h
      | cons c s =>
        simp only [PegGrammar.run, Option.some.injEq] at h
        split at h
        · cases h; exact ⟨[c], rfl, .nil⟩
        · cases h
    | any =>
      intro l r h
      cases s with
      | nil => simp [PegGrammar.run] at h
      | cons c s => cases h; exact ⟨[c], rfl, .nil⟩
    | soi =>
      intro l r h
      simp only [PegGrammar.run, Option.some.injEq] at h
      split at h
      · cases h; exact ⟨[], rfl, .nil⟩
      · cases h
    | eoi =>
      intro l r h
      simp only [PegGrammar.run, Option.some.injEq] at h
      split at h
      · cases h
        refine ⟨[], rfl, ?_⟩
        split
        · exact .nil
        · exact .cons (g := []) (t := []) (.mk .nil) .nil
      · cases h
    | rule x =>
      intro l r h
      simp only [PegGrammar.run] at h
      cases hx : g.run T n ((g.body x).1.mode m) (g.body x).2 s with
      | none => rw [hx] at h; cases h
      | some y =>
        rw [hx] at h
        cases y with
        | none => cases h
        | some y =>
          obtain ⟨l1, r1⟩ := y
          obtain ⟨t, rfl, ht⟩ := ih _ _ _ l1 r1 hx
          simp only [Option.some.injEq, Prod.mk.injEq] at h
          obtain ⟨rfl, rfl⟩ := h
          refine ⟨t, rfl, ?_⟩
          split
          · have e : textRead (t ++ r1) r1 = t := by simp [textRead]
            rw [e]
            have := Lies.cons (R := R) (p := .mk (some x) t l1) (l := []) (g := []) (t := []) (.mk ht) .nil
            simpa [Pair.text] using this
          · exact ht
    | seq a b =>
      rw [PegGrammar.run]
      exact (ih _ _ _).next fun r => (hskip r).next fun r => ih _ _ _
    | alt a b => rw [PegGrammar.run]; exact (ih _ _ _).other (ih _ _ _)
    | opt a => rw [PegGrammar.run]; exact (ih _ _ _).other spans_stay
    | star a => rw [PegGrammar.run]; exact ((ih _ _ _).next fun r => ih _ _ _).other spans_stay
    | more a => rw [PegGrammar.run]; exact ((hskip s).next fun r => (ih _ _ _).next fun r => ih _ _ _).other spans_stay
    | not a =>
      intro l r h
      simp only [PegGrammar.run] at h
      split at h
      · cases h
      · cases h; exact ⟨[], rfl, .nil⟩
      · cases h
    | look a =>
      intro l r h
      simp only [PegGrammar.run] at h
      split at h
      · cases h
      · cases h
      · cases h; exact ⟨[], rfl, .nil⟩

theorem Spec.Lies.infix {p : Pair R} : ∀ {l : List (Pair R)} {t : Str}, Lies l t → p ∈ l → p.text <:+: t ∧ Nested p
  | _, _, .nil, h => by simp at h
  | _, _, .cons (p := q) (l := l) (g := g) (t := t) hq hl, h => by
    rcases List.mem_cons.1 h with rfl | h
    · exact ⟨⟨g, t, by simp⟩, hq⟩
    · obtain ⟨⟨a, b, e⟩, h2⟩ := hl.infix h
      exact ⟨⟨g ++ (q.text ++ a), b, by simp [← e]⟩, h2⟩

theorem Spec.Nested.inside {p q : Pair R} (hp : Nested p) (h : Inside p q) : q.text <:+: p.text ∧ Nested q := by
  induction h with
  | self => exact ⟨List.infix_rfl, hp⟩
  | inner hc _ ih =>
    cases hp with
    | mk hl =>
      obtain ⟨h1, h2⟩ := hl.infix hc
      obtain ⟨h3, h4⟩ := ih h2
      exact ⟨h3.trans h1, h4⟩

theorem Spec.Lies.sublist : ∀ {l : List (Pair R)} {t : Str}, Lies l t → List.Sublist (l.map (·.text)).flatten t
  | _, _, .nil => by simp
  | _, _, .cons (p := q) (l := l) (g := g) (t := t) hq hl => by
    rw [List.map_cons, List.flatten_cons]
    exact List.sublist_append_of_sublist_right ((List.Sublist.refl _).append hl.sublist)

end Rdftk
