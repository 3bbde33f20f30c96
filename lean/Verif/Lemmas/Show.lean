import Verif.Spec.Show
import Verif.Lemmas.Literal
import Verif.Props.Literal

/-! Taking printed terms apart. -/

namespace Rdftk
open Spec

/-- What can follow a printed term. -/
def Cut (r : Str) : Prop := r = [] ∨ ∃ t, r = ' ' :: t

theorem word_cut {a b r r' : Str} (ha : Word a) (hb : Word b) (hr : Cut r) (hr' : Cut r')
    (h : a ++ r = b ++ r') : a = b ∧ r = r' := by
  induction a generalizing b with
  | nil =>
    cases b with
    | nil => exact ⟨rfl, h⟩
    | cons c b =>
      simp only [List.nil_append, List.cons_append] at h
      rcases hr with rfl | ⟨t, rfl⟩
      · cases h
      · cases h; exact absurd (List.mem_cons_self) hb
  | cons c a ih =>
    cases b with
    | nil =>
      simp only [List.nil_append, List.cons_append] at h
      rcases hr' with rfl | ⟨t, rfl⟩
      · cases h
      · cases h; exact absurd (List.mem_cons_self) ha
    | cons d b =>
      simp only [List.cons_append, List.cons.injEq] at h
      obtain ⟨rfl, h⟩ := h
      obtain ⟨rfl, e⟩ := ih (fun m => ha (List.mem_cons_of_mem _ m)) (fun m => hb (List.mem_cons_of_mem _ m)) h
      exact ⟨rfl, e⟩

theorem word_fmt {sty : IriStyle} {i : Iri} (h : Word i.text) : Word (i.fmt sty) := by
  cases sty <;> simp_all [Word, Iri.fmt]

theorem fmt_inj {sty : IriStyle} {i j : Iri} (h : i.fmt sty = j.fmt sty) : i = j := by
  cases i; cases j
  cases sty <;> simpa [Iri.fmt] using h

theorem word_angle {sty : IriStyle} {i : Iri} (h : Word i.text) : Word ('<' :: i.fmt sty ++ str! ">") := by
  have := word_fmt (sty := sty) h
  simp_all [Word]

theorem angle_inj {sty : IriStyle} {i j : Iri} (h : '<' :: i.fmt sty ++ str! ">" = '<' :: j.fmt sty ++ str! ">") :
    i = j := by
  apply fmt_inj (sty := sty)
  simpa using h

theorem iri_cut {sty : IriStyle} {i j : Iri} {r r' : Str} (hi : Word i.text) (hj : Word j.text) (hr : Cut r)
    (hr' : Cut r') (h : ('<' :: i.fmt sty ++ str! ">") ++ r = ('<' :: j.fmt sty ++ str! ">") ++ r') :
    i = j ∧ r = r' := by
  obtain ⟨e, h⟩ := word_cut (word_angle hi) (word_angle hj) hr hr' h
  exact ⟨angle_inj e, h⟩

theorem iri_not_stmt {sty : IriStyle} {i : Iri} {r r' : Str} (hi : Word i.text) (hr : Cut r)
    (h : ('<' :: i.fmt sty ++ str! ">") ++ r = str! "<< " ++ r') : False := by
  have e : str! "<< " ++ r' = str! "<<" ++ ' ' :: r' := rfl
  rw [e] at h
  obtain ⟨e, _⟩ := word_cut (word_angle hi) (by simp [Word]) hr (.inr ⟨_, rfl⟩) h
  have := congrArg List.getLast? e
  rw [List.getLast?_append] at this
  have e2 : (str! "<<").getLast? = some '<' := rfl
  rw [e2] at this
  simp at this

theorem nodup_inj {α β : Type _} {f : α → β} {l : List α} (h : (l.map f).Nodup) {a b : α} (ha : a ∈ l) (hb : b ∈ l)
    (e : f a = f b) : a = b := by
  induction l with
  | nil => cases ha
  | cons x l ih =>
    simp only [List.map_cons, List.nodup_cons, List.mem_map, not_exists, not_and] at h
    rcases List.mem_cons.1 ha with ea | ha' <;> rcases List.mem_cons.1 hb with eb | hb'
    · rw [ea, eb]
    · exact absurd (ea ▸ e).symm (h.1 b hb')
    · exact absurd (eb ▸ e) (h.1 a ha')
    · exact ih h.2 ha' hb'

theorem asIri_named {t u : DataType} (ht : TypeNamed t) (hu : TypeNamed u) (h : t.asIri = u.asIri) : t = u := by
  have key : ∀ {t : DataType}, (∃ i, t = .other i) ∨ t ∈ DataType.builtin := by
    intro t; cases t <;> simp [DataType.builtin]
  rcases key (t := t) with ⟨i, rfl⟩ | ht'
  · exact (ht u h.symm).symm
  · rcases key (t := u) with ⟨i, rfl⟩ | hu'
    · exact hu t h
    · exact nodup_inj C21_iris.2.2 ht' hu' h

theorem word_suffix {sty : IriStyle} {l : Literal} (h : LiteralSane l) : Word (l.suffix sty) := by
  unfold Literal.suffix
  split
  · rename_i t e _
    have := word_fmt (sty := sty) (h.type t e).2
    simp_all [Word]
  · rename_i t _ e
    have := h.lang t e
    simp_all [Word]
  · simp [Word]

theorem suffix_inj {sty : IriStyle} {l m : Literal} (hl : LiteralSane l) (hm : LiteralSane m)
    (h : l.suffix sty = m.suffix sty) : l.dataType = m.dataType ∧ l.language = m.language := by
  obtain ⟨a, t, g⟩ := l
  obtain ⟨b, u, k⟩ := m
  have hl1 := hl.one
  have hm1 := hm.one
  cases t <;> cases u <;> cases g <;> cases k <;> simp_all [Literal.suffix]
  exact asIri_named (hl.type _ rfl).1 (hm.type _ rfl).1 (fmt_inj h)

theorem lit_display {sty : IriStyle} {alt : Bool} {l : Literal} (h : Shown alt l) :
    l.display sty alt = '"' :: (l.lexicalForm ++ '"' :: l.suffix sty) := by
  unfold Literal.display
  rw [if_neg h.1, if_neg]
  · simp
  · intro c
    rcases e : l.dataType with _ | t
    · simp [e] at c
    · rcases h.2 t e with rfl | ht
      · simp at c
      · simp [e, ht] at c

theorem lit_cut {sty : IriStyle} {alt alt' : Bool} {l m : Literal} {r r' : Str} (hl : shownLit alt l) (hm : shownLit alt' m)
    (hr : Cut r) (hr' : Cut r') (h : l.display sty alt ++ r = m.display sty alt' ++ r') : l = m ∧ r = r' := by
  rw [lit_display hl.2, lit_display hm.2] at h
  simp only [List.cons_append, List.append_assoc, List.cons.injEq, true_and] at h
  have h1 := readQuoted_of_noBareQuote false _ (l.suffix sty ++ r) hl.1.quoted
  rw [h, readQuoted_of_noBareQuote false _ _ hm.1.quoted] at h1
  simp only [Option.some.injEq, Prod.mk.injEq] at h1
  obtain ⟨e, h1⟩ := h1
  obtain ⟨e', h2⟩ := word_cut (word_suffix hm.1) (word_suffix hl.1) hr' hr h1
  obtain ⟨e1, e2⟩ := suffix_inj hm.1 hl.1 e'
  refine ⟨?_, h2.symm⟩
  cases l; cases m
  simp_all

/-- The members of a collection after the first, and what follows. -/
def tailText (sty : IriStyle) (r : Str) : List Object → Str
  | [] => str! " )" ++ r
  | o :: os => ' ' :: (o.display sty false ++ tailText sty r os)

theorem cut_tail (sty : IriStyle) (r : Str) (os : List Object) : Cut (tailText sty r os) := by
  cases os
  · exact .inr ⟨_, rfl⟩
  · exact .inr ⟨_, rfl⟩

theorem join_tail (sty : IriStyle) (r : Str) (o : Object) (os : List Object) :
    joinSpace (Object.displayAll sty (o :: os)) ++ (str! " )" ++ r) = o.display sty false ++ tailText sty r os := by
  induction os generalizing o with
  | nil => rfl
  | cons p os ih =>
    have := ih p
    simp only [Object.displayAll, joinSpace, List.append_assoc, List.cons_append, tailText] at this ⊢
    rw [this]

theorem coll_display (sty : IriStyle) (alt : Bool) (r : Str) (c : List Object) :
    (Object.coll c).display sty alt ++ r = str! "(" ++ match c with
      | [] => str! "  )" ++ r
      | o :: os => ' ' :: (o.display sty false ++ tailText sty r os) := by
  cases c with
  | nil => rfl
  | cons o os =>
    have := join_tail sty r o os
    simp only [Object.display, List.append_assoc]
    rw [this]; rfl

/-- How a printed term begins. -/
theorem object_head (sty : IriStyle) {alt : Bool} {o : Object} (h : ObjectAll shownLit alt o) (r : Str) :
    ∃ c t, o.display sty alt ++ r = c :: t ∧ c ≠ ' ' ∧ c ≠ ')' := by
  cases o with
  | blank b => exact ⟨'_', _, rfl, by decide, by decide⟩
  | res i => exact ⟨'<', _, rfl, by decide, by decide⟩
  | lit l =>
    simp only [Object.display, lit_display h.2]
    exact ⟨'"', _, rfl, by decide, by decide⟩
  | coll c => rw [coll_display]; exact ⟨'(', _, rfl, by decide, by decide⟩
  | stmt s => exact ⟨'<', _, rfl, by decide, by decide⟩

mutual
theorem subject_cut (sty : IriStyle) (s s' : Subject) (hs : SubjectAll shownLit s) (hs' : SubjectAll shownLit s') (r r' : Str) (hr : Cut r)
    (hr' : Cut r') (h : s.display sty ++ r = s'.display sty ++ r') : s = s' ∧ r = r' := by
  match s, s', hs, hs' with
  | .blank b, .blank b', hs, hs' =>
    simp only [Subject.display, List.append_assoc, List.cons_append, List.nil_append, List.cons.injEq, true_and] at h
    obtain ⟨e, g1⟩ := word_cut hs hs' hr hr' h
    subst e
    exact ⟨rfl, g1⟩
  | .res i, .res j, hs, hs' =>
    obtain ⟨e, g2⟩ := iri_cut hs hs' hr hr' h
    subst e
    exact ⟨rfl, g2⟩
  | .stmt t, .stmt t', hs, hs' =>
    simp only [Subject.display, List.append_assoc] at h
    have h := List.append_cancel_left h
    obtain ⟨e, g3⟩ := stmt_cut sty t t' hs hs' _ _ (.inr ⟨_, rfl⟩) (.inr ⟨_, rfl⟩) h
    subst e
    exact ⟨rfl, by simpa using g3⟩
  | .blank b, .res j, _, _ => simp [Subject.display] at h
  | .blank b, .stmt j, _, _ => simp [Subject.display] at h
  | .res b, .blank j, _, _ => simp [Subject.display] at h
  | .stmt b, .blank j, _, _ => simp [Subject.display] at h
  | .res i, .stmt t, hs, _ =>
    simp only [Subject.display, List.append_assoc (str! "<< ")] at h
    exact (iri_not_stmt hs hr h).elim
  | .stmt t, .res i, _, hs =>
    simp only [Subject.display, List.append_assoc (str! "<< ")] at h
    exact (iri_not_stmt hs hr' h.symm).elim

theorem stmt_cut (sty : IriStyle) (t t' : Stmt) (ht : StmtAll shownLit t) (ht' : StmtAll shownLit t') (r r' : Str) (hr : Cut r)
    (hr' : Cut r') (h : t.display sty ++ r = t'.display sty ++ r') : t = t' ∧ r = r' := by
  match t, t', ht, ht' with
  | .mk s p o, .mk s' p' o', ht, ht' =>
    have ex : ∀ (s : Subject) (p : Iri) (o : Object) (r : Str), (Stmt.mk s p o).display sty ++ r =
        s.display sty ++ ' ' :: (('<' :: p.fmt sty ++ str! ">") ++ ' ' :: (o.display sty false ++ r)) := by
      intro s p o r; simp [Stmt.display]
    rw [ex, ex] at h
    obtain ⟨e, g4⟩ := subject_cut sty s s' ht.1 ht'.1 _ _ (.inr ⟨_, rfl⟩) (.inr ⟨_, rfl⟩) h
    subst e
    obtain ⟨e, g5⟩ := iri_cut ht.2.1 ht'.2.1 (.inr ⟨_, rfl⟩) (.inr ⟨_, rfl⟩) (List.cons.inj g4).2
    subst e
    obtain ⟨e, g6⟩ := object_cut sty false false o o' ht.2.2 ht'.2.2 _ _ hr hr' (List.cons.inj g5).2
    subst e
    exact ⟨rfl, g6⟩

theorem object_cut (sty : IriStyle) (alt alt' : Bool) (o o' : Object) (ho : ObjectAll shownLit alt o) (ho' : ObjectAll shownLit alt' o')
    (r r' : Str) (hr : Cut r) (hr' : Cut r') (h : o.display sty alt ++ r = o'.display sty alt' ++ r') : o = o' ∧ r = r' := by
  match o, o', ho, ho' with
  | .blank b, .blank b', hs, hs' =>
    simp only [Object.display, List.append_assoc, List.cons_append, List.nil_append, List.cons.injEq, true_and] at h
    obtain ⟨e, g7⟩ := word_cut hs hs' hr hr' h
    subst e
    exact ⟨rfl, g7⟩
  | .res i, .res j, hs, hs' =>
    obtain ⟨e, g8⟩ := iri_cut hs hs' hr hr' h
    subst e
    exact ⟨rfl, g8⟩
  | .lit l, .lit m, hs, hs' =>
    obtain ⟨e, g9⟩ := lit_cut hs hs' hr hr' h
    subst e
    exact ⟨rfl, g9⟩
  | .stmt t, .stmt t', hs, hs' =>
    simp only [Object.display, List.append_assoc] at h
    have h := List.append_cancel_left h
    obtain ⟨e, g10⟩ := stmt_cut sty t t' hs hs' _ _ (.inr ⟨_, rfl⟩) (.inr ⟨_, rfl⟩) h
    subst e
    exact ⟨rfl, by simpa using g10⟩
  | .coll [], .coll [], _, _ => exact ⟨rfl, List.append_cancel_left h⟩
  | .coll [], .coll (o' :: os'), _, hs' =>
    rw [coll_display, coll_display] at h
    obtain ⟨c, t, e, h1, h2⟩ := object_head sty hs'.1 (tailText sty r' os')
    simp only [e] at h
    simp at h
    exact absurd h.1.symm h1
  | .coll (o :: os), .coll [], hs, _ =>
    rw [coll_display, coll_display] at h
    obtain ⟨c, t, e, h1, h2⟩ := object_head sty hs.1 (tailText sty r os)
    simp only [e] at h
    simp at h
    exact absurd h.1 h1
  | .coll (o :: os), .coll (o' :: os'), hs, hs' =>
    rw [coll_display, coll_display] at h
    simp only [List.cons_append, List.nil_append, List.cons.injEq, true_and] at h
    obtain ⟨e, g11⟩ := object_cut sty false false o o' hs.1 hs'.1 _ _ (cut_tail _ _ _) (cut_tail _ _ _) h
    subst e
    obtain ⟨e, g12⟩ := objects_cut sty os os' hs.2 hs'.2 r r' g11
    subst e
    exact ⟨rfl, g12⟩
  | .res i, .stmt t, hs, _ =>
    simp only [Object.display, List.append_assoc (str! "<< ")] at h
    exact (iri_not_stmt hs hr h).elim
  | .stmt t, .res i, _, hs =>
    simp only [Object.display, List.append_assoc (str! "<< ")] at h
    exact (iri_not_stmt hs hr' h.symm).elim
  | .lit l, .blank _, hs, _ => simp [Object.display, lit_display hs.2] at h
  | .lit l, .res _, hs, _ => simp [Object.display, lit_display hs.2] at h
  | .lit l, .coll _, hs, _ => simp [Object.display, lit_display hs.2] at h
  | .lit l, .stmt _, hs, _ => simp [Object.display, lit_display hs.2] at h
  | .blank _, .lit l, _, hs => simp [Object.display, lit_display hs.2] at h
  | .res _, .lit l, _, hs => simp [Object.display, lit_display hs.2] at h
  | .coll _, .lit l, _, hs => simp [Object.display, lit_display hs.2] at h
  | .stmt _, .lit l, _, hs => simp [Object.display, lit_display hs.2] at h
  | .blank _, .res _, _, _ => simp [Object.display] at h
  | .blank _, .coll _, _, _ => simp [Object.display] at h
  | .blank _, .stmt _, _, _ => simp [Object.display] at h
  | .res _, .blank _, _, _ => simp [Object.display] at h
  | .res _, .coll _, _, _ => simp [Object.display] at h
  | .stmt _, .blank _, _, _ => simp [Object.display] at h
  | .stmt _, .coll _, _, _ => simp [Object.display] at h
  | .coll _, .blank _, _, _ => simp [Object.display] at h
  | .coll _, .res _, _, _ => simp [Object.display] at h
  | .coll _, .stmt _, _, _ => simp [Object.display] at h

theorem objects_cut (sty : IriStyle) (os os' : List Object) (ho : ObjectsAll shownLit os) (ho' : ObjectsAll shownLit os')
    (r r' : Str) (h : tailText sty r os = tailText sty r' os') : os = os' ∧ r = r' := by
  match os, os', ho, ho' with
  | [], [], _, _ => exact ⟨rfl, List.append_cancel_left h⟩
  | [], o :: os, _, hs =>
    obtain ⟨c, t, e, h1, h2⟩ := object_head sty hs.1 (tailText sty r' os)
    simp only [tailText, e] at h
    simp at h
    exact absurd h.1.symm h2
  | o :: os, [], hs, _ =>
    obtain ⟨c, t, e, h1, h2⟩ := object_head sty hs.1 (tailText sty r os)
    simp only [tailText, e] at h
    simp at h
    exact absurd h.1 h2
  | o :: os, o' :: os', hs, hs' =>
    obtain ⟨e, g13⟩ := object_cut sty false false o o' hs.1 hs'.1 _ _ (cut_tail _ _ _) (cut_tail _ _ _) (List.cons.inj h).2
    subst e
    obtain ⟨e, g14⟩ := objects_cut sty os os' hs.2 hs'.2 r r' g13
    subst e
    exact ⟨rfl, g14⟩
end

end Rdftk
