import Verif.Props.Show
import Verif.Spec.Shape

/-! Property C90, exactly: when two printed terms are the same. -/

namespace Rdftk
open Spec

mutual
/-- How a term is printed. -/
def shapeText (sty : IriStyle) : Shape → Str
  | .word w => w
  | .quoted l => '"' :: (l.lexicalForm ++ '"' :: l.suffix sty)
  | .coll c => str! "( " ++ joinSpace (shapesText sty c) ++ str! " )"
  | .stmt s p o => str! "<< " ++ (shapeText sty s ++ ' ' :: (shapeText sty p ++ ' ' :: (shapeText sty o ++ str! " >>")))
def shapesText (sty : IriStyle) : List Shape → List Str
  | [] => []
  | s :: ss => shapeText sty s :: shapesText sty ss
end

/-- A statement as a term of its own. -/
def bareText (sty : IriStyle) : Shape → Str
  | .stmt s p o => shapeText sty s ++ ' ' :: (shapeText sty p ++ ' ' :: shapeText sty o)
  | s => shapeText sty s

theorem bare_nested (sty : IriStyle) (t : Stmt) :
    str! "<< " ++ bareText sty (stmtShape sty t) ++ str! " >>" = shapeText sty (stmtShape sty t) := by
  cases t
  simp [stmtShape, bareText, shapeText]

mutual
theorem subject_text (sty : IriStyle) (s : Subject) : s.display sty = shapeText sty (subjectShape sty s) := by
  match s with
  | .blank b => simp [Subject.display, subjectShape, shapeText]
  | .res i => simp [Subject.display, subjectShape, shapeText]
  | .stmt t => rw [Subject.display, stmt_text sty t, bare_nested, subjectShape]
theorem stmt_text (sty : IriStyle) (t : Stmt) : t.display sty = bareText sty (stmtShape sty t) := by
  match t with
  | .mk s p o =>
    simp only [Stmt.display, stmtShape, bareText, subject_text sty s, object_text sty false o, shapeText]
    simp
theorem object_text (sty : IriStyle) (alt : Bool) (o : Object) : o.display sty alt = shapeText sty (objectShape sty alt o) := by
  match o with
  | .blank b => simp [Object.display, objectShape, shapeText]
  | .res i => simp [Object.display, objectShape, shapeText]
  | .lit l =>
    simp only [Object.display, objectShape, Literal.display]
    cases h : l.dataType with
    | none => simp [shapeText]
    | some t =>
      cases t <;> cases alt <;> simp [shapeText, DataType.isBare]
  | .coll c => simp only [Object.display, objectShape, shapeText, objects_text sty c]
  | .stmt t => rw [Object.display, stmt_text sty t, bare_nested, objectShape]
theorem objects_text (sty : IriStyle) (os : List Object) : Object.displayAll sty os = shapesText sty (objectsShape sty os) := by
  match os with
  | [] => rfl
  | o :: os => simp only [Object.displayAll, objectsShape, shapesText, object_text sty false o, objects_text sty os]
end

mutual
/-- The words are single words, the literals from constructors. -/
def ShapeGood : Shape → Prop
  | .word w => OneWord w
  | .quoted l => LiteralSane l
  | .coll c => ShapesGood c
  | .stmt s p o => ShapeGood s ∧ ShapeGood p ∧ ShapeGood o
def ShapesGood : List Shape → Prop
  | [] => True
  | s :: ss => ShapeGood s ∧ ShapesGood ss
end

theorem angle_word {w : Str} (h : Word w) : OneWord ('<' :: w ++ ['>']) := by
  refine ⟨?_, ?_, '<', w ++ ['>'], rfl, by decide, by decide, by decide⟩
  · simp_all [Word]
  · intro e
    have := congrArg List.getLast? e
    rw [List.getLast?_append] at this
    simp at this

theorem blank_word {w : Str} (h : Word w) : OneWord (str! "_:" ++ w) := by
  refine ⟨?_, by simp, '_', ':' :: w, rfl, by decide, by decide, by decide⟩
  simp_all [Word]

mutual
theorem subject_good (sty : IriStyle) (s : Subject) (h : SubjectAll wordLit s) : ShapeGood (subjectShape sty s) := by
  match s, h with
  | .blank b, h => exact blank_word h
  | .res i, h => exact angle_word (word_fmt h)
  | .stmt t, h => exact stmt_good sty t h
theorem stmt_good (sty : IriStyle) (t : Stmt) (h : StmtAll wordLit t) : ShapeGood (stmtShape sty t) := by
  match t, h with
  | .mk s p o, h => exact ⟨subject_good sty s h.1, angle_word (word_fmt h.2.1), object_good sty false o h.2.2⟩
theorem object_good (sty : IriStyle) (alt : Bool) (o : Object) (h : ObjectAll wordLit alt o) : ShapeGood (objectShape sty alt o) := by
  match o, h with
  | .blank b, h => exact blank_word h
  | .res i, h => exact angle_word (word_fmt h)
  | .lit l, h =>
    obtain ⟨h1, h2, h3⟩ := h
    simp only [objectShape]
    split
    · rename_i e; exact angle_word (h2 e)
    · rename_i t e ht
      split
      · rename_i hb
        simp at hb
        exact h3 t ht (fun e' => by subst e'; exact e rfl) hb.1 hb.2
      · exact h1
    · exact h1
  | .coll c, h => exact objects_good sty c h
  | .stmt t, h => exact stmt_good sty t h
theorem objects_good (sty : IriStyle) (os : List Object) (h : ObjectsAll wordLit os) : ShapesGood (objectsShape sty os) := by
  match os, h with
  | [], _ => trivial
  | o :: os, h => exact ⟨object_good sty false o h.1, objects_good sty os h.2⟩
end

/-- The members of a collection after the first, and what follows. -/
def shapeTail (sty : IriStyle) (r : Str) : List Shape → Str
  | [] => str! " )" ++ r
  | o :: os => ' ' :: (shapeText sty o ++ shapeTail sty r os)

theorem cut_shapeTail (sty : IriStyle) (r : Str) (os : List Shape) : Cut (shapeTail sty r os) := by
  cases os <;> exact .inr ⟨_, rfl⟩

theorem join_shapeTail (sty : IriStyle) (r : Str) (o : Shape) (os : List Shape) :
    joinSpace (shapesText sty (o :: os)) ++ (str! " )" ++ r) = shapeText sty o ++ shapeTail sty r os := by
  induction os generalizing o with
  | nil => rfl
  | cons p os ih =>
    have := ih p
    simp only [shapesText, joinSpace, List.append_assoc, List.cons_append, shapeTail] at this ⊢
    rw [this]

theorem coll_shapeText (sty : IriStyle) (r : Str) (c : List Shape) :
    shapeText sty (.coll c) ++ r = '(' :: match c with
      | [] => str! "  )" ++ r
      | o :: os => ' ' :: (shapeText sty o ++ shapeTail sty r os) := by
  cases c with
  | nil => rfl
  | cons o os =>
    have := join_shapeTail sty r o os
    simp only [shapeText, List.append_assoc]
    rw [this]; rfl

theorem shape_head (sty : IriStyle) {s : Shape} (h : ShapeGood s) (r : Str) :
    ∃ c t, shapeText sty s ++ r = c :: t ∧ c ≠ ' ' ∧ c ≠ ')' := by
  cases s with
  | word w =>
    obtain ⟨h0, h1, c, t, rfl, h2, h3, h4⟩ := h
    exact ⟨c, t ++ r, rfl, fun e => h0 (by rw [e]; exact List.mem_cons_self), h4⟩
  | quoted l => exact ⟨'"', _, rfl, by decide, by decide⟩
  | coll c => rw [coll_shapeText]; exact ⟨'(', _, rfl, by decide, by decide⟩
  | stmt s p o => exact ⟨'<', _, rfl, by decide, by decide⟩

theorem word_not_stmt {w r r' : Str} (h : OneWord w) (hr : Cut r) (e : w ++ r = str! "<< " ++ r') : False := by
  have e' : w ++ r = str! "<<" ++ ' ' :: r' := e
  exact h.2.1 (word_cut h.1 (by decide) hr (.inr ⟨_, rfl⟩) e').1

mutual
theorem shape_cut (sty : IriStyle) (s s' : Shape) (hs : ShapeGood s) (hs' : ShapeGood s') (r r' : Str) (hr : Cut r)
    (hr' : Cut r') (h : shapeText sty s ++ r = shapeText sty s' ++ r') : s = s' ∧ r = r' := by
  match s, s', hs, hs' with
  | .word w, .word w', hs, hs' =>
    obtain ⟨e, g⟩ := word_cut hs.1 hs'.1 hr hr' h
    exact ⟨by rw [show w = w' from e], g⟩
  | .quoted l, .quoted m, hs, hs' =>
    simp only [shapeText, List.cons_append, List.append_assoc, List.cons.injEq, true_and] at h
    have h1 := readQuoted_of_noBareQuote false _ (l.suffix sty ++ r) hs.quoted
    rw [h, readQuoted_of_noBareQuote false _ _ hs'.quoted] at h1
    simp only [Option.some.injEq, Prod.mk.injEq] at h1
    obtain ⟨e, h1⟩ := h1
    obtain ⟨e', h2⟩ := word_cut (word_suffix hs') (word_suffix hs) hr' hr h1
    obtain ⟨e1, e2⟩ := suffix_inj hs' hs e'
    refine ⟨?_, h2.symm⟩
    cases l; cases m
    simp_all
  | .stmt a p o, .stmt a' p' o', hs, hs' =>
    simp only [shapeText, List.append_assoc, List.cons_append, List.nil_append, List.cons.injEq, true_and] at h
    obtain ⟨e1, g⟩ := shape_cut sty a a' hs.1 hs'.1 _ _ (.inr ⟨_, rfl⟩) (.inr ⟨_, rfl⟩) h
    obtain ⟨e2, g⟩ := shape_cut sty p p' hs.2.1 hs'.2.1 _ _ (.inr ⟨_, rfl⟩) (.inr ⟨_, rfl⟩) (List.cons.inj g).2
    obtain ⟨e3, g⟩ := shape_cut sty o o' hs.2.2 hs'.2.2 _ _ (.inr ⟨_, rfl⟩) (.inr ⟨_, rfl⟩) (List.cons.inj g).2
    exact ⟨by rw [e1, e2, e3], by simpa using g⟩
  | .coll [], .coll [], _, _ => exact ⟨rfl, List.append_cancel_left h⟩
  | .coll [], .coll (o' :: os'), _, hs' =>
    rw [coll_shapeText, coll_shapeText] at h
    obtain ⟨c, t, e, h1, h2⟩ := shape_head sty hs'.1 (shapeTail sty r' os')
    simp only [e] at h
    simp at h
    exact absurd h.1.symm h1
  | .coll (o :: os), .coll [], hs, _ =>
    rw [coll_shapeText, coll_shapeText] at h
    obtain ⟨c, t, e, h1, h2⟩ := shape_head sty hs.1 (shapeTail sty r os)
    simp only [e] at h
    simp at h
    exact absurd h.1 h1
  | .coll (o :: os), .coll (o' :: os'), hs, hs' =>
    rw [coll_shapeText, coll_shapeText] at h
    simp only [List.cons.injEq, true_and] at h
    obtain ⟨e, g⟩ := shape_cut sty o o' hs.1 hs'.1 _ _ (cut_shapeTail _ _ _) (cut_shapeTail _ _ _) h
    obtain ⟨e', g⟩ := shapes_cut sty os os' hs.2 hs'.2 r r' g
    exact ⟨by rw [e, e'], g⟩
  | .word w, .stmt a p o, hs, _ =>
    exact (word_not_stmt hs hr (by simpa only [shapeText, List.append_assoc] using h)).elim
  | .stmt a p o, .word w, _, hs =>
    exact (word_not_stmt hs hr' (by simpa only [shapeText, List.append_assoc] using h.symm)).elim
  | .word w, .quoted l, hs, _ =>
    obtain ⟨_, _, c, t, rfl, h2, h3, h4⟩ := hs
    simp [shapeText] at h
    exact absurd h.1 h2
  | .quoted l, .word w, _, hs =>
    obtain ⟨_, _, c, t, rfl, h2, h3, h4⟩ := hs
    simp [shapeText] at h
    exact absurd h.1.symm h2
  | .word w, .coll l, hs, _ =>
    obtain ⟨_, _, c, t, rfl, h2, h3, h4⟩ := hs
    simp [shapeText] at h
    exact absurd h.1 h3
  | .coll l, .word w, _, hs =>
    obtain ⟨_, _, c, t, rfl, h2, h3, h4⟩ := hs
    simp [shapeText] at h
    exact absurd h.1.symm h3
  | .quoted _, .coll _, _, _ => simp [shapeText] at h
  | .quoted _, .stmt _ _ _, _, _ => simp [shapeText] at h
  | .coll _, .quoted _, _, _ => simp [shapeText] at h
  | .coll _, .stmt _ _ _, _, _ => simp [shapeText] at h
  | .stmt _ _ _, .quoted _, _, _ => simp [shapeText] at h
  | .stmt _ _ _, .coll _, _, _ => simp [shapeText] at h
theorem shapes_cut (sty : IriStyle) (os os' : List Shape) (ho : ShapesGood os) (ho' : ShapesGood os')
    (r r' : Str) (h : shapeTail sty r os = shapeTail sty r' os') : os = os' ∧ r = r' := by
  match os, os', ho, ho' with
  | [], [], _, _ => exact ⟨rfl, List.append_cancel_left h⟩
  | [], o :: os, _, hs =>
    obtain ⟨c, t, e, h1, h2⟩ := shape_head sty hs.1 (shapeTail sty r' os)
    simp only [shapeTail, e] at h
    simp at h
    exact absurd h.1.symm h2
  | o :: os, [], hs, _ =>
    obtain ⟨c, t, e, h1, h2⟩ := shape_head sty hs.1 (shapeTail sty r os)
    simp only [shapeTail, e] at h
    simp at h
    exact absurd h.1 h2
  | o :: os, o' :: os', hs, hs' =>
    obtain ⟨e, g⟩ := shape_cut sty o o' hs.1 hs'.1 _ _ (cut_shapeTail _ _ _) (cut_shapeTail _ _ _) (List.cons.inj h).2
    obtain ⟨e', g⟩ := shapes_cut sty os os' hs.2 hs'.2 r r' g
    exact ⟨by rw [e, e'], g⟩
end

/-- C90, exactly: two statements print the same if and only if they show the same, that is, they differ
at most in the types of numbers and in IRIs given as literals. -/
theorem C90_iff (sty : IriStyle) (s t : Stmt) (hs : StmtAll wordLit s) (ht : StmtAll wordLit t) :
    s.display sty = t.display sty ↔ stmtShape sty s = stmtShape sty t := by
  constructor
  · intro h
    refine (shape_cut sty _ _ (stmt_good sty s hs) (stmt_good sty t ht) [] [] (.inl rfl) (.inl rfl) ?_).1
    rw [← bare_nested, ← bare_nested, ← stmt_text, ← stmt_text, h]
  · intro h
    rw [stmt_text, stmt_text, h]

/-- C90, exactly, for objects, in either form. -/
theorem C90_object_iff (sty : IriStyle) (alt : Bool) (s t : Object) (hs : ObjectAll wordLit alt s) (ht : ObjectAll wordLit alt t) :
    s.display sty alt = t.display sty alt ↔ objectShape sty alt s = objectShape sty alt t := by
  rw [object_text, object_text]
  constructor
  · intro h
    exact (shape_cut sty _ _ (object_good sty alt s hs) (object_good sty alt t ht) [] [] (.inl rfl) (.inl rfl) (by rw [h])).1
  · intro h
    rw [h]

/-- C90, exactly, for subjects. -/
theorem C90_subject_iff (sty : IriStyle) (s t : Subject) (hs : SubjectAll wordLit s) (ht : SubjectAll wordLit t) :
    s.display sty = t.display sty ↔ subjectShape sty s = subjectShape sty t := by
  rw [subject_text, subject_text]
  constructor
  · intro h
    exact (shape_cut sty _ _ (subject_good sty s hs) (subject_good sty t ht) [] [] (.inl rfl) (.inl rfl) (by rw [h])).1
  · intro h
    rw [h]

theorem lit_shape (sty : IriStyle) (l : Literal) (h : l.dataType ≠ some .iri) :
    objectShape sty false (.lit l) = if (l.dataType.map DataType.isBare).getD false then .word l.lexicalForm else .quoted l := by
  simp only [objectShape]
  split
  · rename_i e; exact absurd e h
  · rename_i t e ht; simp [ht]
  · rename_i ht; simp [ht]

/-- C90: two literals but for those of the type IRI, exactly: they are the same, or both numbers or truth values
with the same text. -/
theorem C90_literal_iff (sty : IriStyle) (l m : Literal) (hl : wordLit false l) (hm : wordLit false m)
    (hl' : l.dataType ≠ some .iri) (hm' : m.dataType ≠ some .iri) :
    (Object.lit l).display sty false = (Object.lit m).display sty false ↔
      l = m ∨ (l.lexicalForm = m.lexicalForm ∧ ∃ t u, l.dataType = some t ∧ m.dataType = some u ∧ t.isBare = true ∧ u.isBare = true) := by
  rw [C90_object_iff sty false (.lit l) (.lit m) hl hm, lit_shape sty l hl', lit_shape sty m hm']
  cases hx : l.dataType <;> cases hy : m.dataType <;> simp only [Option.map_none, Option.map_some, Option.getD_none, Option.getD_some]
  · simp
  · rename_i u
    by_cases hb : u.isBare = true <;> simp [hb]
    rintro rfl; rw [hx] at hy; cases hy
  · rename_i u
    by_cases hb : u.isBare = true <;> simp [hb]
    rintro rfl; rw [hx] at hy; cases hy
  · rename_i t u
    by_cases hb : t.isBare = true <;> by_cases hc : u.isBare = true <;> simp [hb, hc]
    · rintro rfl; rfl
    · rintro rfl; rw [hx] at hy; cases hy; exact hc hb
    · rintro rfl; rw [hx] at hy; cases hy; exact hb hc

/-- C90 fails, the other way, when a text without quotes is no single word: two numbers, or one. -/
theorem C90_fails_word (sty : IriStyle) :
    (Object.coll [.lit ⟨str! "1", some .int, none⟩, .lit ⟨str! "2", some .int, none⟩]).display sty false =
      (Object.coll [.lit ⟨str! "1 2", some .int, none⟩]).display sty false := rfl

/-- A statement with numbers of two types meets the conditions. -/
example : StmtAll wordLit (.mk (.blank ['a']) ⟨str! "http://h/p"⟩ (.coll [.lit ⟨str! "1", some .int, none⟩, .lit ⟨str! "1", some .long, none⟩])) := by
  have w : ∀ {s : Str}, Word s → Word s := id
  have n : ∀ t : DataType, t = .int ∨ t = .long → wordLit false ⟨['1'], some t, none⟩ := by
    rintro t (rfl | rfl) <;>
      exact ⟨⟨rfl, .inr rfl, (fun _ h => by cases h), (fun _ h => by cases h; exact ⟨trivial, by decide⟩)⟩,
        (fun _ => w (by decide)), fun _ _ _ _ _ => ⟨w (by decide), by decide, '1', [], rfl, by decide, by decide, by decide⟩⟩
  exact ⟨w (by decide), w (by decide), n _ (.inl rfl), n _ (.inr rfl), trivial⟩

end Rdftk
