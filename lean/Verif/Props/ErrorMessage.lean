import Verif.Props.ErrorTrace
import Verif.Props.JsonJson

/-! C148: the texts in the messages of errors. -/

namespace Rdftk

open Spec

theorem quotes_debugStr (pr : Char → Bool) (s : Str) : Quotes (debugStr pr s) s :=
  ⟨escapeString pr s, rfl, noBareQuote_escapeString pr s, unescape_escapeString pr s⟩

theorem quotes_cancel {q q' a a' r r' : Str} (h : Quotes q a) (h' : Quotes q' a') (e : q ++ r = q' ++ r') : a = a' ∧ r = r' := by
  obtain ⟨b, rfl, h1, h2⟩ := h
  obtain ⟨b', rfl, h1', h2'⟩ := h'
  simp only [List.cons_append, List.append_assoc, List.cons.injEq, true_and, List.nil_append] at e
  have := readQuoted_of_noBareQuote false b r h1
  rw [e, readQuoted_of_noBareQuote false b' r' h1'] at this
  simp only [Option.some.injEq, Prod.mk.injEq] at this
  obtain ⟨rfl, rfl⟩ := this
  exact ⟨Option.some.inj (h2.symm.trans h2'), rfl⟩

theorem listItems_debug (pr : Char → Bool) (a : Str) (l : List Str) :
    ListItems ((((a :: l).map (debugStr pr)).intersperse (str! ", ")).flatten ++ [']']) (a :: l) := by
  induction l generalizing a with
  | nil => simpa using ListItems.last (quotes_debugStr pr a)
  | cons b l ih => simpa using ListItems.more (quotes_debugStr pr a) (ih b)

theorem listItems_unique {s : Str} {l l' : List Str} (h : ListItems s l) (h' : ListItems s l') : l = l' := by
  induction h generalizing l' with
  | @last q a hq =>
    generalize hs : q ++ str! "]" = s at h'
    cases h' with
    | last hq' => rw [(quotes_cancel hq hq' hs).1]
    | more hq' _ =>
      rw [List.append_assoc] at hs
      exact absurd (quotes_cancel hq hq' hs).2 (by simp)
  | @more q a s l hq _ ih =>
    generalize hs : q ++ str! ", " ++ s = s' at h'
    rw [List.append_assoc] at hs
    cases h' with
    | last hq' => exact absurd (quotes_cancel hq hq' hs).2 (by simp)
    | more hq' h' =>
      rw [List.append_assoc] at hs
      obtain ⟨rfl, e⟩ := quotes_cancel hq hq' hs
      rw [ih (List.append_cancel_left e ▸ h')]

/-- C148: the debug output of a list of texts is that list and no other. -/
theorem C148_list (pr : Char → Bool) (l l' : List Str) : ListText (debugStrs pr l) l' ↔ l = l' := by
  have main : ListText (debugStrs pr l) l := by
    cases l with
    | nil => exact .inl ⟨rfl, rfl⟩
    | cons a l => exact .inr ⟨_, rfl, listItems_debug pr a l⟩
  have no : ∀ l, ¬ ListItems (str! "]") l := by
    intro l h
    generalize hs : str! "]" = s at h
    cases h with
    | last h => obtain ⟨b, rfl, -⟩ := h; simp at hs
    | more h => obtain ⟨b, rfl, -⟩ := h; simp at hs
  refine ⟨fun h => ?_, fun h => h ▸ main⟩
  rcases main with ⟨e, rfl⟩ | ⟨t, e, h1⟩ <;> rcases h with ⟨e', rfl⟩ | ⟨t', e', h2⟩
  · rfl
  · rw [e] at e'
    cases e'
    exact absurd h2 (no _)
  · rw [e] at e'
    cases e'
    exact absurd h1 (no _)
  · rw [e] at e'
    cases e'
    exact listItems_unique h1 h2

/-- C148: messages have the texts of errors in them, some in quotes. -/
theorem C148_texts (pr : Char → Bool) (e : CoreError) :
    (∀ t ∈ plainTexts e, t <:+: e.display pr) ∧ ∀ t ∈ quotedTexts e, ∃ q, Quotes q t ∧ q <:+: e.display pr := by
  have hl : ∀ l : List Str, ∀ t ∈ l, debugStr pr t <:+: debugStrs pr l := by
    intro l t ht
    have h1 : debugStr pr t <:+: ((l.map (debugStr pr)).intersperse (str! ", ")).flatten := by
      induction l with
      | nil => cases ht
      | cons a l ih =>
        cases l with
        | nil =>
          cases List.mem_singleton.1 ht
          exact ⟨[], [], by simp⟩
        | cons b l =>
          rcases List.mem_cons.1 ht with rfl | ht
          · exact ⟨[], _, by simp; rfl⟩
          · have := ih ht
            simp only [List.map_cons, List.intersperse_cons₂, List.flatten_cons]
            exact (this.trans (List.suffix_append ..).isInfix).trans (List.suffix_append ..).isInfix
    exact h1.trans ⟨['['], [']'], rfl⟩
  have in1 : ∀ a b c : Str, b <:+: a ++ b ++ c := fun a b c => ⟨a, c, rfl⟩
  have tail : ∀ a b c : Str, b <:+: c → b <:+: a ++ c := fun a b c h => h.trans (List.suffix_append ..).isInfix
  have head : ∀ b c : Str, b <:+: b ++ c := fun b c => (List.prefix_append ..).isInfix
  constructor
  · cases e <;> simp only [plainTexts, List.mem_cons, List.not_mem_nil, or_false, false_imp_iff, implies_true, forall_eq_or_imp, forall_eq, CoreError.display, List.append_assoc]
    all_goals first
      | exact ⟨tail _ _ _ (head _ _), tail _ _ _ (tail _ _ _ (tail _ _ _ (head _ _)))⟩
      | exact ⟨tail _ _ _ (tail _ _ _ (tail _ _ _ (head _ _))), tail _ _ _ (head _ _)⟩
      | exact ⟨tail _ _ _ (head _ _), tail _ _ _ (tail _ _ _ (tail _ _ _ List.infix_rfl))⟩
      | exact tail _ _ _ (head _ _)
      | exact tail _ _ _ List.infix_rfl
  · intro t ht
    refine ⟨debugStr pr t, quotes_debugStr pr t, ?_⟩
    cases e <;> simp only [quotedTexts, List.mem_cons, List.not_mem_nil, or_false] at ht
    all_goals simp only [CoreError.display, List.append_assoc]
    case parserUnexpected f g l => exact tail _ _ _ (tail _ _ _ (tail _ _ _ (tail _ _ _ (tail _ _ _ ((hl l t ht).trans (head _ _))))))
    case providerMismatch a b =>
      rcases ht with rfl | rfl
      · exact tail _ _ _ (head _ _)
      · exact tail _ _ _ (tail _ _ _ (tail _ _ _ (head _ _)))
    all_goals subst ht; exact tail _ _ _ (head _ _)

/-- C148: what a parser expected can be told from the end of the message, when what was given has no quote in it. -/
theorem C148_expected (pr : Char → Bool) (f g f' g' : Str) (l l' : List Str)
    (h : (CoreError.parserUnexpected f g l).display pr = (CoreError.parserUnexpected f' g' l').display pr)
    (hg : '`' ∉ f ∧ '`' ∉ g ∧ '`' ∉ f' ∧ '`' ∉ g') : f = f' ∧ g = g' ∧ l = l' := by
  have cut : ∀ {a a' r r' : Str}, '`' ∉ a → '`' ∉ a' → a ++ '`' :: r = a' ++ '`' :: r' → a = a' ∧ r = r' := by
    intro a
    induction a with
    | nil =>
      intro a' r r' _ h2 e
      cases a' with
      | nil => simpa using e
      | cons c a' => simp at e; exact absurd (e.1 ▸ List.mem_cons_self) h2
    | cons c a ih =>
      intro a' r r' h1 h2 e
      cases a' with
      | nil => simp at e; exact absurd (e.1 ▸ List.mem_cons_self) h1
      | cons c' a' =>
        simp only [List.cons_append, List.cons.injEq] at e
        obtain ⟨h3, h4⟩ := ih (fun h => h1 (List.mem_cons_of_mem _ h)) (fun h => h2 (List.mem_cons_of_mem _ h)) e.2
        exact ⟨by rw [e.1, h3], h4⟩
  simp only [CoreError.display, List.append_assoc, List.append_cancel_left_eq] at h
  obtain ⟨rfl, h⟩ := cut hg.2.1 hg.2.2.2 h
  simp only [List.append_assoc, List.append_cancel_left_eq] at h
  have h : f ++ '`' :: (str! "; expecting " ++ (debugStrs pr l ++ str! ".")) = f' ++ '`' :: (str! "; expecting " ++ (debugStrs pr l' ++ str! ".")) := by
    simpa using h
  obtain ⟨rfl, h5⟩ := cut hg.1 hg.2.2.1 h
  have e : debugStrs pr l = debugStrs pr l' := List.append_cancel_right (List.append_cancel_left h5)
  exact ⟨rfl, rfl, ((C148_list pr l' l).1 (e ▸ (C148_list pr l l).2 rfl)).symm⟩

set_option maxHeartbeats 4000000 in
/-- C148: a text that is the only one of its message can be told from it. -/
theorem C148_single (pr : Char → Bool) (e f : CoreError) (h : e.display pr = f.display pr)
    (hs : (plainTexts e).length + (quotedTexts e).length ≤ 1) :
    kind e = kind f ∧ (kind e ≠ 2 → plainTexts e = plainTexts f ∧ quotedTexts e = quotedTexts f) := by
  have hk := C148_kind pr e f h
  refine ⟨hk, fun h2 => ?_⟩
  have qu : ∀ {a b : Str}, debugStr pr a = debugStr pr b → a = b := fun h =>
    (quotes_cancel (r := []) (r' := []) (quotes_debugStr pr _) (quotes_debugStr pr _) (by rw [h])).1
  cases e <;> cases f <;> first | exact (Nat.ne_of_beq_eq_false rfl hk).elim | skip
  all_goals simp only [CoreError.display] at h
  all_goals first | (exfalso; simp only [plainTexts, quotedTexts, List.length_cons, List.length_nil] at hs; omega) | skip
  all_goals first
    | exact ⟨rfl, rfl⟩
    | exact ⟨congrArg (fun x => [x]) (List.append_cancel_left (List.append_cancel_right h)), rfl⟩
    | exact ⟨congrArg (fun x => [x]) (List.append_cancel_left h), rfl⟩
    | exact ⟨rfl, congrArg (fun x => [x]) (qu (List.append_cancel_left (List.append_cancel_right h)))⟩

end Rdftk
