import Verif.Spec.Options

namespace Rdftk

/-! ### Calls one after the other -/

theorem lastTold_nil {C V : Type} (told : C → Option V) (v : V) : Spec.lastTold told v [] = v := rfl

theorem lastTold_cons {C V : Type} (told : C → Option V) (v : V) (c : C) (cs : List C) :
    Spec.lastTold told v (c :: cs) = Spec.lastTold told ((told c).getD v) cs := by
  unfold Spec.lastTold
  cases h : told c with
  | none => simp [h]
  | some w => rw [List.filterMap_cons_some h, List.getLastD_cons, Option.getD_some]

theorem lastTold_foldl {C O V : Type} (step : O → C → O) (get : O → V) (told : C → Option V)
    (h : ∀ o c, get (step o c) = (told c).getD (get o)) (cs : List C) :
    ∀ o, get (cs.foldl step o) = Spec.lastTold told (get o) cs := by
  induction cs with
  | nil => intro o; rfl
  | cons c cs ih => intro o; rw [List.foldl_cons, ih, lastTold_cons, h]

theorem turtleCalls_last {V : Type} (get : TurtleOptions → V) (told : TurtleCall → Option V)
    (h : ∀ o c p, c.run o = .ok p → get p = (told c).getD (get o)) (cs : List TurtleCall) :
    ∀ o p, turtleCalls o cs = .ok p → get p = Spec.lastTold told (get o) cs := by
  induction cs with
  | nil => intro o p e; cases e; rfl
  | cons c cs ih =>
    intro o p e
    unfold turtleCalls at e
    cases e1 : c.run o with
    | panic => rw [e1] at e; cases e
    | ok q =>
      rw [e1] at e
      rw [lastTold_cons, ih q p e, h o c q e1]

/-! ### C141 -/

/-- C141: each option of the Turtle writer has the value that was given to it last. -/
theorem C141_turtle (cs : List TurtleCall) (o p : TurtleOptions) (h : turtleCalls o cs = .ok p) :
    p.idBase = Spec.lastTold Spec.toldBase o.idBase cs ∧
    p.nest = Spec.lastTold Spec.toldNest o.nest cs ∧
    p.sparql = Spec.lastTold Spec.toldSparql o.sparql cs ∧
    p.intellij = Spec.lastTold Spec.toldIntellij o.intellij cs ∧
    p.typeOnLine = Spec.lastTold Spec.toldTypeOnLine o.typeOnLine cs ∧
    p.convertTo = Spec.lastTold Spec.toldConvertTo o.convertTo cs ∧
    p.width = Spec.lastTold Spec.toldWidth o.width cs ∧
    p.padding = Spec.lastTold Spec.toldPadding o.padding cs := by
  refine ⟨turtleCalls_last (·.idBase) _ ?_ cs o p h, turtleCalls_last (·.nest) _ ?_ cs o p h,
    turtleCalls_last (·.sparql) _ ?_ cs o p h, turtleCalls_last (·.intellij) _ ?_ cs o p h,
    turtleCalls_last (·.typeOnLine) _ ?_ cs o p h, turtleCalls_last (·.convertTo) _ ?_ cs o p h,
    turtleCalls_last (·.width) _ ?_ cs o p h, turtleCalls_last (·.padding) _ ?_ cs o p h⟩ <;>
  · intro o c p e
    cases c <;> simp only [TurtleCall.run] at e <;> first
      | (split at e <;> cases e; rfl)
      | (cases e; rfl)

/-- C141, when calls panic: exactly if the width is set to 0. -/
theorem C141_panic (cs : List TurtleCall) : ∀ o, turtleCalls o cs = .panic ↔ .setWidth 0 ∈ cs := by
  induction cs with
  | nil => intro o; simp [turtleCalls]
  | cons c cs ih =>
    intro o
    unfold turtleCalls
    cases c with
    | setWidth n =>
      cases n with
      | zero => simp [TurtleCall.run]
      | succ n => simp [TurtleCall.run, ih]
    | _ => simp [TurtleCall.run, ih]

/-- C141 for DOT. -/
theorem C141_dot (cs : List DotCall) (o : DotOptions) :
    let p := cs.foldl DotCall.run o
    p.blankShape = Spec.lastTold (fun | .blankShape s => some s | _ => none) o.blankShape cs ∧
    p.blankColor = Spec.lastTold (fun | .blankColor s => some s | _ => none) o.blankColor cs ∧
    p.blankLabels = Spec.lastTold (fun | .blankLabels s => some s | _ => none) o.blankLabels cs ∧
    p.iriShape = Spec.lastTold (fun | .iriShape s => some s | _ => none) o.iriShape cs ∧
    p.iriColor = Spec.lastTold (fun | .iriColor s => some s | _ => none) o.iriColor cs ∧
    p.literalShape = Spec.lastTold (fun | .literalShape s => some s | _ => none) o.literalShape cs ∧
    p.literalColor = Spec.lastTold (fun | .literalColor s => some s | _ => none) o.literalColor cs ∧
    p.nodePrefix = Spec.lastTold (fun | .nodePrefix s => some s | _ => none) o.nodePrefix cs := by
  refine ⟨lastTold_foldl _ (·.blankShape) _ ?_ cs o, lastTold_foldl _ (·.blankColor) _ ?_ cs o,
    lastTold_foldl _ (·.blankLabels) _ ?_ cs o, lastTold_foldl _ (·.iriShape) _ ?_ cs o,
    lastTold_foldl _ (·.iriColor) _ ?_ cs o, lastTold_foldl _ (·.literalShape) _ ?_ cs o,
    lastTold_foldl _ (·.literalColor) _ ?_ cs o, lastTold_foldl _ (·.nodePrefix) _ ?_ cs o⟩ <;>
  · intro o c
    cases c <;> rfl

/-- C141 for RDF/XML. -/
theorem C141_xml (cs : List XmlCall) (o : XmlOptions) :
    let p := cs.foldl XmlCall.run o
    p.flat = Spec.lastTold (fun | .flat => some true | .striped => some false | _ => none) o.flat cs ∧
    p.pretty = Spec.lastTold (fun | .pretty => some true | .plain => some false | _ => none) o.pretty cs ∧
    p.encoding = Spec.lastTold (fun | .withEncoding s => some s | _ => none) o.encoding cs := by
  refine ⟨lastTold_foldl _ (·.flat) _ ?_ cs o, lastTold_foldl _ (·.pretty) _ ?_ cs o,
    lastTold_foldl _ (·.encoding) _ ?_ cs o⟩ <;>
  · intro o c
    cases c <;> rfl

/-- C141 for TriG; options made of those of Turtle have the keyword again. -/
theorem C141_trig (cs : List TrigCall) (o : TrigOptions) :
    let p := cs.foldl TrigCall.run o
    p.turtle = Spec.lastTold (fun | .fromTurtle t => some t | _ => none) o.turtle cs ∧
    p.omitKeyword = Spec.lastTold (fun | .fromTurtle _ => some false | .withOmit b => some b | .setOmit b => some b)
      o.omitKeyword cs := by
  refine ⟨lastTold_foldl _ (·.turtle) _ ?_ cs o, lastTold_foldl _ (·.omitKeyword) _ ?_ cs o⟩ <;>
  · intro o c
    cases c <;> rfl

/-- C141 for JSON and N-Triples. -/
theorem C141_flag (cs : List Bool) (o : Bool) : cs.foldl flagCall o = cs.getLastD o := by
  have := lastTold_foldl flagCall id (some : Bool → Option Bool) (fun _ _ => rfl) cs o
  simpa [Spec.lastTold] using this

/-- C141, what the options are before the first call: the documented values. -/
theorem C141_defaults :
    TurtleOptions.default = ⟨none, true, false, false, false, false, false, none, [], 4, false⟩ ∧
    DotOptions.default = ⟨"circle".toList, "green".toList, false, "ellipse".toList, "blue".toList, "record".toList,
      "black".toList, "node_".toList⟩ ∧
    XmlOptions.default = ⟨true, false, "utf-8".toList⟩ ∧
    TrigOptions.default = ⟨TurtleOptions.default, false⟩ := ⟨rfl, rfl, rfl, rfl⟩

/-- Some calls: the last one counts. -/
example : ∃ o, turtleCalls .default [.withWidth 2, .setPadding true, .withIntellij, .setPadding false] = .ok o ∧
    o.width = 4 ∧ o.padding = false ∧ o.intellij = true ∧ o.nest = true := ⟨_, rfl, rfl, rfl, rfl, rfl⟩

/-! ### C142 -/

/-- C142: the `with_` function and the `set_` function of an option do the same. -/
def C142_statement : Prop := ∀ a b o, Spec.Pair a b → a.run o = b.run o

/-- C142 fails: the style of IntelliJ sets the width, or not. -/
theorem C142_fails : ¬C142_statement := fun h => by
  have := h _ _ { TurtleOptions.default with width := 2 } .intellij
  simp [TurtleCall.run, TurtleOptions.default] at this

/-- C142 fails: a width of 0 panics, or not. -/
theorem C142_fails_zero (o : TurtleOptions) :
    TurtleCall.run o (.setWidth 0) = .panic ∧ TurtleCall.run o (.withWidth 0) = .ok { o with width := 0 } := ⟨rfl, rfl⟩

/-- C142, exactly when: unless the style is chosen with another width, or the width is 0. -/
theorem C142_iff (a b : TurtleCall) (o : TurtleOptions) (h : Spec.Pair a b) :
    a.run o = b.run o ↔ (a = .withIntellij → o.width = 4) ∧ a ≠ .withWidth 0 := by
  cases h with
  | intellij =>
    obtain ⟨a1, a2, a3, a4, a5, a6, a7, a8, a9, a10, a11⟩ := o
    simp [TurtleCall.run, eq_comm]
  | width n => cases n <;> simp [TurtleCall.run]
  | _ => simp [TurtleCall.run]

/-! ### C143 -/

/-- C143: all options of the Turtle writer can be chosen. -/
def C143_statement : Prop := ∀ o : TurtleOptions, 0 < o.width → ∃ cs, turtleCalls .default cs = .ok o

/-- C143, exactly which: those with the predicate for types in full, no base converted, and collections ended in their
own column.  A width of 0 is among them. -/
theorem C143_iff (o : TurtleOptions) :
    (∃ cs, turtleCalls .default cs = .ok o) ↔ o.typeA = false ∧ o.outdentColl = false ∧ o.convert = [] := by
  constructor
  · rintro ⟨cs, h⟩
    have key : ∀ cs : List TurtleCall, ∀ o p, turtleCalls o cs = .ok p →
        p.typeA = o.typeA ∧ p.outdentColl = o.outdentColl ∧ p.convert = o.convert := by
      intro cs
      induction cs with
      | nil => intro o p e; cases e; exact ⟨rfl, rfl, rfl⟩
      | cons c cs ih =>
        intro o p e
        unfold turtleCalls at e
        cases e1 : c.run o with
        | panic => rw [e1] at e; cases e
        | ok q =>
          rw [e1] at e
          have : q.typeA = o.typeA ∧ q.outdentColl = o.outdentColl ∧ q.convert = o.convert := by
            cases c <;> simp only [TurtleCall.run] at e1 <;> first
              | (split at e1 <;> cases e1; exact ⟨rfl, rfl, rfl⟩)
              | (cases e1; exact ⟨rfl, rfl, rfl⟩)
          obtain ⟨h1, h2, h3⟩ := ih q p e
          exact ⟨h1.trans this.1, h2.trans this.2.1, h3.trans this.2.2⟩
    exact key cs _ o h
  · obtain ⟨b, n, oc, ta, sp, ij, tl, ct, cv, w, pd⟩ := o
    rintro ⟨h1, h2, h3⟩
    simp only at h1 h2 h3
    subst h1 h2 h3
    cases b <;> cases ct
    · exact ⟨[.setNest n, .setSparql sp, .setIntellij ij, .setTypeOnLine tl, .withWidth w, .setPadding pd], rfl⟩
    · exact ⟨[.setNest n, .setSparql sp, .setIntellij ij, .setTypeOnLine tl, .withWidth w, .setPadding pd, .setConvertTo _], rfl⟩
    · exact ⟨[.setNest n, .setSparql sp, .setIntellij ij, .setTypeOnLine tl, .withWidth w, .setPadding pd, .setIdBase _], rfl⟩
    · exact ⟨[.setNest n, .setSparql sp, .setIntellij ij, .setTypeOnLine tl, .withWidth w, .setPadding pd, .setIdBase _,
        .setConvertTo _], rfl⟩

/-- C143 fails: `a` cannot be chosen for the predicate of types. -/
theorem C143_fails : ¬C143_statement := fun h => by
  have := (C143_iff _).1 (h { TurtleOptions.default with typeA := true } (by decide))
  cases this.1

/-- C143: so no writer whose options were made with the functions writes `a`: the verb of a type is the compressed
IRI. -/
theorem C143_verb (env : TurtleEnv) (h : ∃ cs, turtleCalls .default cs = .ok env.opts) (m : Nat) (f : TurtleFlags) :
    writeVerb env .type rdfType m f =
      if env.opts.typeOnLine then .run ((compressIri env rdfType).bind fun s => .ok (' ' :: s ++ [' ']))
      else newLine f ⊹ .run ((compressIri env rdfType).bind fun s => .ok (padded s m)) := by
  unfold writeVerb
  rw [((C143_iff _).1 h).1]
  simp

/-- The other options of DOT and RDF/XML can all be chosen. -/
theorem C143_others :
    (∀ o : DotOptions, ∃ cs : List DotCall, cs.foldl DotCall.run .default = o) ∧ (∀ o : XmlOptions, ∃ cs : List XmlCall, cs.foldl XmlCall.run .default = o) ∧
    (∀ o : TrigOptions, ∃ cs : List TrigCall, cs.foldl TrigCall.run .default = o) := by
  refine ⟨fun ⟨a, b, c, d, e, f, g, h⟩ => ⟨[.blankShape a, .blankColor b, .blankLabels c, .iriShape d,
    .iriColor e, .literalShape f, .literalColor g, .nodePrefix h], rfl⟩,
    fun o => ?_, fun o => ⟨[.fromTurtle o.turtle, .setOmit o.omitKeyword], rfl⟩⟩
  obtain ⟨f, p, e⟩ := o
  cases f <;> cases p
  · exact ⟨[.striped, .plain, .withEncoding e], rfl⟩
  · exact ⟨[.striped, .pretty, .withEncoding e], rfl⟩
  · exact ⟨[.flat, .plain, .withEncoding e], rfl⟩
  · exact ⟨[.flat, .pretty, .withEncoding e], rfl⟩

end Rdftk
