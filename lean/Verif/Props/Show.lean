import Verif.Lemmas.Show

/-! Property C90: printed terms can be told apart. -/

namespace Rdftk
open Spec

/-- C90, the full statement: two statements that print the same are equal, for all statements made of labels
and IRIs without spaces and literals from the constructors. -/
def C90_statement (sty : IriStyle) : Prop :=
  ∀ s t : Stmt, StmtAll saneLit s → StmtAll saneLit t → s.display sty = t.display sty → s = t

/-- C90 fails in either style: a number of two types. -/
theorem C90_fails (sty : IriStyle) : ¬ C90_statement sty := by
  intro h
  have hs : ∀ t : DataType, t = .int ∨ t = .long → LiteralSane ⟨['1'], some t, none⟩ := by
    rintro t (rfl | rfl) <;>
      exact ⟨rfl, .inr rfl, (fun _ h => by cases h), (fun _ h => by cases h; exact ⟨trivial, by decide⟩)⟩
  have w : ∀ {s : Str}, Word s → Word s := id
  have := h (.mk (.blank ['b']) ⟨str! "http://h/p"⟩ (.lit ⟨['1'], some .int, none⟩))
    (.mk (.blank ['b']) ⟨str! "http://h/p"⟩ (.lit ⟨['1'], some .long, none⟩))
    ⟨w (by decide), w (by decide), hs _ (.inl rfl)⟩ ⟨w (by decide), w (by decide), hs _ (.inr rfl)⟩ rfl
  cases this

/-- C90 fails for every IRI: the literal with the text of the IRI prints as the IRI does. -/
theorem C90_fails_iri (sty : IriStyle) (alt : Bool) (i : Iri) :
    (Object.lit ⟨i.fmt sty, some .iri, none⟩).display sty alt = (Object.res i).display sty alt := rfl

/-- C90, what holds for statements of any depth: without literals of the type IRI and of the types that
are printed without quotes, the printed form determines the statement. -/
theorem C90_statement_partial (sty : IriStyle) (s t : Stmt) (hs : StmtAll shownLit s) (ht : StmtAll shownLit t)
    (h : s.display sty = t.display sty) : s = t :=
  (stmt_cut sty s t hs ht [] [] (.inl rfl) (.inl rfl) (by rw [h])).1

/-- C90 for subjects. -/
theorem C90_subject_partial (sty : IriStyle) (s t : Subject) (hs : SubjectAll shownLit s) (ht : SubjectAll shownLit t)
    (h : s.display sty = t.display sty) : s = t :=
  (subject_cut sty s t hs ht [] [] (.inl rfl) (.inl rfl) (by rw [h])).1

/-- C90 for objects, in either form; in the explicit form numbers may stand outside collections and nested
statements. -/
theorem C90_object_partial (sty : IriStyle) (alt : Bool) (s t : Object) (hs : ObjectAll shownLit alt s)
    (ht : ObjectAll shownLit alt t) (h : s.display sty alt = t.display sty alt) : s = t :=
  (object_cut sty alt alt s t hs ht [] [] (.inl rfl) (.inl rfl) (by rw [h])).1

/-- C90: in the explicit form two objects that are no collections and no statements print the same
exactly if they are equal, literals of the type IRI apart. -/
theorem C90_explicit (sty : IriStyle) (l m : Literal) (hl : LiteralSane l) (hm : LiteralSane m)
    (hl' : l.dataType ≠ some .iri) (hm' : m.dataType ≠ some .iri) :
    (Object.lit l).display sty true = (Object.lit m).display sty true ↔ l = m := by
  constructor
  · intro h
    have := C90_object_partial sty true (.lit l) (.lit m) ⟨hl, hl', fun _ _ => .inl rfl⟩ ⟨hm, hm', fun _ _ => .inl rfl⟩ h
    cases this; rfl
  · rintro rfl; rfl

/-- C90: the printed form is also found when a space follows, as in lines and collections: it is never the
beginning of another printed form. -/
theorem C90_followed (sty : IriStyle) (s t : Stmt) (hs : StmtAll shownLit s) (ht : StmtAll shownLit t) (r r' : Str)
    (h : s.display sty ++ ' ' :: r = t.display sty ++ ' ' :: r') : s = t ∧ r = r' := by
  obtain ⟨e, h⟩ := stmt_cut sty s t hs ht _ _ (.inr ⟨_, rfl⟩) (.inr ⟨_, rfl⟩) h
  exact ⟨e, (List.cons.inj h).2⟩

/-- A statement about a statement, with a collection, meets the conditions. -/
example : StmtAll shownLit (.mk (.stmt (.mk (.blank ['a']) ⟨str! "http://h/p"⟩ (.coll [.blank ['c'], .coll []])))
    ⟨str! "http://h/q"⟩ (.lit ⟨str! "a b", none, some (str! "en")⟩)) :=
  have w : ∀ {s : Str}, Word s → Word s := id
  ⟨⟨w (by decide), w (by decide), w (by decide), trivial, trivial⟩, w (by decide),
    ⟨rfl, .inl rfl, (fun _ h => by cases h; decide), (fun _ h => by cases h)⟩, by decide, (fun _ h => by cases h)⟩

example : (Object.coll []).display .bare false = str! "(  )" := rfl

end Rdftk
