import Verif.Lemmas.XmlRead
import Verif.Props.JsonNTriples

/-! What the reader of RDF/XML makes of documents: subjects, predicates and objects of all statements. -/

namespace Rdftk
open Spec

variable {env : ReadEnv} {sty : IriStyle} {gen : Nat → Str} {emit : Emit}

/-- The IRIs that the reader makes by itself are taken, and so are generated labels. -/
structure KnowsRdf (env : ReadEnv) (gen : Nat → Str) : Prop where
  type : env.url rdfType.text = some rdfType
  xmlLiteral : env.url DataType.xmlLiteral.asIri.text = some DataType.xmlLiteral.asIri
  labels : ∀ n, Label (gen n)

/-- An object that the reader makes. -/
def ObjectGot (env : ReadEnv) (o : Object) : Prop :=
  (∃ i, o = .res i ∧ IriGood env i) ∨
  ∃ v d g, o = .lit ⟨escapeString env.pr v, d, g⟩ ∧ Printed env.pr v ∧ (d = none ∨ d = some .xmlLiteral ∧ g = none) ∧
    ∀ h, g = some h → LangTag h ∧ env.lang h = some h

/-- A statement that the reader makes. -/
def XmlGot (env : ReadEnv) : Stmt → Prop
  | .mk s p o => SubjectGood env s ∧ IriGood env p ∧ ObjectGot env o

/-- A node identifier without the two characters that precede labels elsewhere. -/
def idPlain (a : XAttr) : Bool := a.name != rdfX (str! "nodeID") || (stripPrefix (str! "_:") a.value).isNone

/-- All node identifiers are such, and all texts have only characters that are printed or written by one letter. -/
def EventPlain (pr : Char → Bool) : XmlIn → Prop
  | .start _ as => ∀ a ∈ as, idPlain a = true ∧ Printed pr a.value
  | .chars t => Printed pr t
  | .cdata t => Printed pr t
  | _ => True

/-- So is a document, with the texts of the XML literals in it. -/
structure DocPlain (pr : Char → Bool) (emit : Emit) (evs : List XmlIn) : Prop where
  events : ∀ ev ∈ evs, EventPlain pr ev
  literals : ∀ l t, emit l = some t → Printed pr t
  brackets : Printed pr (str! "<>&gtl;")

theorem Printed.append {pr : Char → Bool} {a b : Str} (h : Printed pr a) (k : Printed pr b) : Printed pr (a ++ b) := fun c hc => by
  rcases List.mem_append.1 hc with hc | hc
  · exact h c hc
  · exact k c hc

theorem replaceChar_printed {pr : Char → Bool} {s t : Str} {c : Char} (h : Printed pr s) (k : Printed pr t) : Printed pr (replaceChar c t s) := by
  intro d hd
  obtain ⟨x, hx, hd⟩ := List.mem_flatMap.1 hd
  split at hd
  · exact k d hd
  · rw [List.mem_singleton.1 hd]
    exact h x hx

/-- What is known of attributes that were read. -/
structure AttrsGot (env : ReadEnv) (a : XmlAttributes) : Prop where
  type : a.dataType = none
  lang : ∀ l, a.language = some l → LangTag l ∧ env.lang l = some l
  about : ∀ i, a.subject = some (.resource i) → IriGood env i
  id : ∀ b, a.subject = some (.blankNamed b) → stripPrefix (str! "_:") b = none
  resource : ∀ i, a.resource = some i → IriGood env i
  inner : ∀ x ∈ a.inner, Printed env.pr x.value

theorem valueToIri_good (he : StrictEnv env) {s : Str} {i : Iri} (h : valueToIri env s = .ok i) : IriGood env i := by
  unfold valueToIri Iri.fromStr at h
  cases e : env.url (if startsWith s '<' && endsWith s '>' then (s.drop 1).dropLast else s) with
  | none => rw [e] at h; cases h
  | some j => rw [e] at h; cases h; exact he.url _ _ e

theorem nameToIri_good (he : StrictEnv env) {x : XName} {i : Iri} (h : nameToIri env x = .ok i) : IriGood env i := by
  unfold nameToIri at h
  cases e : x.ns with
  | none => rw [e] at h; cases h
  | some ns => rw [e] at h; exact valueToIri_good he h

theorem xmlAttribute_got (he : StrictEnv env) {r r' : XmlAttributes} {a : XAttr} (h : xmlAttribute env r a = .ok r')
    (hi : idPlain a = true ∧ Printed env.pr a.value) (hr : AttrsGot env r) : AttrsGot env r' := by
  unfold xmlAttribute at h
  split at h
  · split at h
    · obtain ⟨_, _, h⟩ := Res.bind_ok h; cases h; exact ⟨hr.1, hr.2, hr.3, hr.4, hr.5, hr.6⟩
    · split at h
      · obtain ⟨l, hl, h⟩ := Res.bind_ok h
        cases h
        refine ⟨hr.1, fun g hg => ?_, hr.3, hr.4, hr.5, hr.6⟩
        cases hg
        cases e : env.lang a.value with
        | none => rw [e] at hl; cases hl
        | some k => rw [e] at hl; cases hl; exact he.lang _ _ e
      · cases h; exact hr
  · split at h
    · rename_i hns
      split at h
      · obtain ⟨i, hi', h⟩ := Res.bind_ok h
        cases h
        exact ⟨hr.1, hr.2, (fun j hj => by cases hj; exact valueToIri_good he ‹_›), (fun b hb => by cases hb), hr.5, hr.6⟩
      · split at h
        · rename_i hloc
          cases h
          refine ⟨hr.1, hr.2, (fun j hj => by cases hj), fun b hb => ?_, hr.5, hr.6⟩
          cases hb
          have : a.name = rdfX (str! "nodeID") := by
            cases hn : a.name with
            | mk ns loc => rw [hn] at hns hloc; simp only at hns hloc; subst hns hloc; rfl
          simpa [idPlain, this] using hi.1
        · split at h
          · cases h; exact ⟨hr.1, hr.2, (fun j hj => by cases hj), (fun b hb => by cases hb), hr.5, hr.6⟩
          · split at h
            · obtain ⟨i, hi', h⟩ := Res.bind_ok h
              cases h
              exact ⟨hr.1, hr.2, hr.3, hr.4, (fun j hj => by cases hj; exact valueToIri_good he hi'), hr.6⟩
            · split at h
              · split at h
                · cases h; exact ⟨hr.1, hr.2, hr.3, hr.4, hr.5, hr.6⟩
                · split at h
                  · cases h; exact ⟨hr.1, hr.2, hr.3, hr.4, hr.5, hr.6⟩
                  · split at h
                    · cases h; exact ⟨hr.1, hr.2, hr.3, hr.4, hr.5, hr.6⟩
                    · cases h
              · cases h; exact hr
    · cases h
      refine ⟨hr.1, hr.2, hr.3, hr.4, hr.5, fun x hx => ?_⟩
      rcases List.mem_append.1 hx with hx | hx
      · exact hr.6 x hx
      · rw [List.mem_singleton.1 hx]
        exact hi.2

theorem xmlAttributes_got (he : StrictEnv env) {as : List XAttr} {r : XmlAttributes} (h : xmlAttributes env as = .ok r)
    (hi : ∀ a ∈ as, idPlain a = true ∧ Printed env.pr a.value) : AttrsGot env r := by
  have : ∀ (as : List XAttr) (r r' : XmlAttributes), (∀ a ∈ as, idPlain a = true ∧ Printed env.pr a.value) → AttrsGot env r →
      xmlAttributesFrom env r as = .ok r' → AttrsGot env r' := by
    intro as
    induction as with
    | nil => intro r r' _ hr h; cases h; exact hr
    | cons a as ih =>
      intro r r' hi hr h
      obtain ⟨r1, h1, h⟩ := Res.bind_ok h
      exact ih r1 r' (fun x hx => hi x (List.mem_cons_of_mem _ hx)) (xmlAttribute_got he h1 (hi a List.mem_cons_self) hr) h
  exact this as _ r hi ⟨rfl, by simp, by simp, by simp, by simp, by simp⟩ h

theorem content_got {a : XmlAttributes} (h : AttrsGot env a) {t : Str} (ht : Printed env.pr t) :
    ObjectGot env (.lit (xmlContentLiteral env a t)) := by
  unfold xmlContentLiteral
  rw [h.type]
  cases e : a.language with
  | none => exact .inr ⟨t, none, none, rfl, ht, .inl rfl, by simp⟩
  | some l => exact .inr ⟨t, none, some l, rfl, ht, .inl rfl, fun k hk => by cases hk; exact h.lang l e⟩

/-- All statements so far are such as the reader makes. -/
def StateGot (env : ReadEnv) (st : XmlState) : Prop := ∀ t ∈ st.graph.stmts, XmlGot env t

/-- What is known of a call that has not returned. -/
def FrameGot (env : ReadEnv) : XmlFrame → Prop
  | .subject _ => True
  | .predicate _ s _ => SubjectGood env s
  | .object _ s _ a t _ _ => SubjectGood env s ∧ AttrsGot env a ∧ Printed env.pr t
  | .literal s _ _ _ => SubjectGood env s

theorem StateGot.insert {st : XmlState} (h : StateGot env st) {s : Subject} {p : Iri} {o : Object}
    (hs : SubjectGood env s) (hp : IriGood env p) (ho : ObjectGot env o) : StateGot env (st.insert s p o) := by
  intro t ht
  rcases mem_insert ht with ht | rfl
  · exact h t ht
  · exact ⟨hs, hp, ho⟩

theorem subject_got (he : StrictEnv env) (hsane : SaneEnv env) (hk : KnowsRdf env gen) {base : Option Iri} {n : Nat} {a : XmlAttributes}
    (ha : AttrsGot env a) {r : Subject × Nat} (h : xmlSubjectNode env sty gen base n a.subject = .ok r) : SubjectGood env r.1 := by
  cases e : a.subject with
  | none => rw [e] at h; cases h; exact ⟨hk.labels n, hsane.2 _ (hk.labels n)⟩
  | some x =>
    rw [e] at h
    cases x with
    | resource i => cases h; exact ha.about i e
    | relative s =>
      cases base with
      | none => cases h
      | some b =>
        obtain ⟨i, hi, h⟩ := Res.bind_ok h
        cases h
        exact valueToIri_good he hi
    | blankNamed b =>
      obtain ⟨b', hb, h⟩ := Res.bind_ok h
      cases h
      unfold blankParse blankValid at hb
      rw [ha.id b e] at hb
      cases hv : env.blankOk b with
      | false => rw [hv] at hb; cases hb
      | true => rw [hv] at hb; cases hb; exact ⟨he.label _ hv, hv⟩

theorem propertyAttributes_got (he : StrictEnv env) {s : Subject} (hs : SubjectGood env s) {as : List XAttr} {st st' : XmlState}
    (hp : ∀ x ∈ as, Printed env.pr x.value) (h : xmlPropertyAttributes env s st as = .ok st') (hst : StateGot env st) : StateGot env st' := by
  induction as generalizing st with
  | nil => cases h; exact hst
  | cons a as ih =>
    obtain ⟨p, hp', h⟩ := Res.bind_ok h
    exact ih (fun x hx => hp x (List.mem_cons_of_mem _ hx)) h
      (hst.insert hs (nameToIri_good he hp') (.inr ⟨a.value, none, none, rfl, hp a List.mem_cons_self, .inl rfl, by simp⟩))

theorem xmlStep_got (he : StrictEnv env) (hsane : SaneEnv env) (hk : KnowsRdf env gen) {stack stack' : List XmlFrame} {st st' : XmlState}
    {ev : XmlIn} (hev : EventPlain env.pr ev) (hem : ∀ l t, emit l = some t → Printed env.pr t) (hbr : Printed env.pr (str! "<>&gtl;")) (h : xmlStep env sty gen emit stack st ev = .ok (stack', st')) (hst : StateGot env st)
    (hf : ∀ f ∈ stack, FrameGot env f) : StateGot env st' ∧ ∀ f ∈ stack', FrameGot env f := by
  cases stack with
  | nil =>
    cases ev with
    | start name attrs =>
      obtain ⟨a, _, h⟩ := Res.bind_ok h
      split at h
      · cases h; exact ⟨hst, by simp [FrameGot]⟩
      · cases h
    | bad => cases h
    | _ => cases h; exact ⟨hst, hf⟩
  | cons f rest =>
    have hrest : ∀ f ∈ rest, FrameGot env f := fun f hm => hf f (List.mem_cons_of_mem _ hm)
    have hfirst := hf f (List.mem_cons_self ..)
    have put : ∀ {f : XmlFrame} {r : List XmlFrame}, FrameGot env f → (∀ f ∈ r, FrameGot env f) → ∀ f' ∈ f :: r, FrameGot env f' :=
      fun h1 h2 f' hm => by
        rcases List.mem_cons.1 hm with rfl | hm
        · exact h1
        · exact h2 f' hm
    cases f with
    | subject base =>
      cases ev with
      | start name attrs =>
        obtain ⟨r, hr, h⟩ := Res.bind_ok h
        cases h
        obtain ⟨a, ha, hr⟩ := Res.bind_ok hr
        obtain ⟨b, hb, hr⟩ := Res.bind_ok hr
        obtain ⟨c, hc, hr⟩ := Res.bind_ok hr
        obtain ⟨d, hd, hr⟩ := Res.bind_ok hr
        cases hr
        have hat := xmlAttributes_got he ha hev
        have hsub := subject_got he hsane hk hat hb
        refine ⟨propertyAttributes_got he hsub hat.inner hd ?_, put hsub hf⟩
        split at hc
        · cases hc; exact hst
        · obtain ⟨t, ht, hc⟩ := Res.bind_ok hc
          cases hc
          exact StateGot.insert (st := { st with count := b.2 }) hst hsub (he.url _ _ hk.type) (.inl ⟨t, rfl, nameToIri_good he ht⟩)
      | stop _ => cases h; exact ⟨hst, hrest⟩
      | bad => cases h
      | _ => cases h; exact ⟨hst, hf⟩
    | predicate base s noChild =>
      cases ev with
      | start name attrs =>
        simp only [xmlStep] at h
        split at h
        · cases h
        · obtain ⟨r, hr, h⟩ := Res.bind_ok h
          cases h
          obtain ⟨a, ha, hr⟩ := Res.bind_ok hr
          have hu := xmlAttributes_got he ha hev
          split at hr
          · rename_i r' hres
            obtain ⟨p, hp, hr⟩ := Res.bind_ok hr
            cases hr
            exact ⟨hst.insert hfirst (nameToIri_good he hp) (.inl ⟨_, rfl, hu.resource _ hres⟩), put hfirst hrest⟩
          · split at hr
            · cases hr
              exact ⟨hst, put ⟨hfirst, hu, by simp [Printed]⟩ (put hfirst hrest)⟩
            · cases hr
              exact ⟨hst, put hfirst (put hfirst hrest)⟩
            · cases hr
              exact ⟨hst, put trivial (put hfirst hrest)⟩
            · cases hr
      | stop _ => cases h; exact ⟨hst, hrest⟩
      | bad => cases h
      | _ => cases h; exact ⟨hst, hf⟩
    | object base s name a content hel hc =>
      cases ev with
      | start n attrs =>
        simp only [xmlStep] at h
        split at h
        · cases h
        · obtain ⟨r, hr, h⟩ := Res.bind_ok h
          cases h
          exact ⟨hst, put trivial (put hfirst hrest)⟩
      | stop _ =>
        obtain ⟨r, hr, h⟩ := Res.bind_ok h
        cases h
        exact ⟨hst.insert hfirst.1 (nameToIri_good he hr) (content_got hfirst.2.1 hfirst.2.2), hrest⟩
      | chars t =>
        simp only [xmlStep] at h
        split at h
        · cases h
        · cases h
          exact ⟨hst, put ⟨hfirst.1, hfirst.2.1, hfirst.2.2.append hev⟩ hrest⟩
      | cdata t =>
        simp only [xmlStep] at h
        split at h
        · cases h
        · cases h
          exact ⟨hst, put ⟨hfirst.1, hfirst.2.1, hfirst.2.2.append hev⟩ hrest⟩
      | bad => cases h
      | _ => cases h; exact ⟨hst, hf⟩
    | literal s name opened content =>
      have more : ∀ o c, ∀ f ∈ XmlFrame.literal s name o c :: rest, FrameGot env f := fun o c => put hfirst hrest
      cases ev with
      | start n attrs => cases h; exact ⟨hst, more _ _⟩
      | stop n =>
        match opened, h with
        | 0, h => cases h
        | 1, h =>
          simp only [xmlStep] at h
          split at h
          · cases h
          · rename_i t ht
            obtain ⟨r, hr, h⟩ := Res.bind_ok h
            cases h
            have hpt : Printed env.pr (replaceChar '>' (str! "&gt;") (replaceChar '<' (str! "&lt;") t)) := by
              refine replaceChar_printed (replaceChar_printed (hem _ _ ht) ?_) ?_ <;> intro c hc <;> refine hbr c ?_ <;>
                simp only [List.mem_cons, List.not_mem_nil, or_false] at hc ⊢ <;> grind
            exact ⟨hst.insert hfirst (nameToIri_good he hr) (.inr ⟨_, _, none, rfl, hpt, .inr ⟨rfl, rfl⟩, by simp⟩), hrest⟩
        | k + 2, h => cases h; exact ⟨hst, more _ _⟩
      | bad => cases h
      | chars t => cases h; exact ⟨hst, more _ _⟩
      | cdata t => cases h; exact ⟨hst, more _ _⟩
      | space t => cases h; exact ⟨hst, more _ _⟩
      | other => cases h; exact ⟨hst, more _ _⟩

/-- Whatever document is read, its statements are such. -/
theorem readXml_got (he : StrictEnv env) (hsane : SaneEnv env) (hk : KnowsRdf env gen) {n : Nat} {evs : List XmlIn}
    (hi : DocPlain env.pr emit evs) {g : Graph} (h : readXml env sty gen n emit evs = .ok g) : ∀ t ∈ g.stmts, XmlGot env t := by
  have main : ∀ (evs : List XmlIn) (stack : List XmlFrame) (st : XmlState), (∀ ev ∈ evs, EventPlain env.pr ev) → StateGot env st →
      (∀ f ∈ stack, FrameGot env f) → xmlRun env sty gen emit stack st evs = .ok g → ∀ t ∈ g.stmts, XmlGot env t := by
    intro evs
    induction evs with
    | nil =>
      intro stack st _ hst hf h
      cases stack with
      | nil => cases h; exact hst
      | cons _ _ => cases h
    | cons ev evs ih =>
      intro stack st hev hst hf h
      generalize hs : xmlStep env sty gen emit stack st ev = r at *
      cases r with
      | ok r =>
        obtain ⟨stack', st'⟩ := r
        rw [xmlRun_ok hs] at h
        obtain ⟨h1, h2⟩ := xmlStep_got he hsane hk (hev ev List.mem_cons_self) hi.literals hi.brackets hs hst hf
        exact ih _ _ (fun x hx => hev x (List.mem_cons_of_mem _ hx)) h1 h2 h
      | err => rw [xmlRun_err hs] at h; cases h
      | panic => cases stack <;> simp [xmlRun, hs] at h
  exact main evs [] _ hi.events (fun t ht => by cases ht) (by simp) h

/-- A statement that the reader makes stands for a triple, with the text of a literal escaped. -/
theorem XmlGot.triple (he : StrictEnv env) (hk : KnowsRdf env gen) {st : Stmt} (h : XmlGot env st) :
    ∃ t : RdfTriple, stmtTriple st = some (escTriple env.pr t) ∧ TermGood env t.1 ∧ (∀ v d g, t.1 ≠ .lit v d g) ∧ IriGood env t.2.1 ∧
      TermGood env t.2.2 ∧ (∀ b, t.2.2 ≠ .blank b) ∧ ∀ v d g, t.2.2 = .lit v d g → Printed env.pr v ∧ (d = none ∨ d = some DataType.xmlLiteral.asIri) := by
  obtain ⟨s, p, o⟩ := st
  obtain ⟨h1, h2, h3⟩ := h
  obtain ⟨x, hx, hx1, hx2⟩ : ∃ x, subjectTerm s = some x ∧ TermGood env x ∧ ∀ v d g, x ≠ .lit v d g := by
    cases s with
    | blank b => exact ⟨_, rfl, h1, by simp⟩
    | res i => exact ⟨_, rfl, h1, by simp⟩
    | stmt u => cases h1
  rcases h3 with ⟨i, rfl, hi⟩ | ⟨v, d, g, rfl, hv, hd, hg⟩
  · exact ⟨(x, p, .iri i), by simp [stmtTriple, Stmt.subject, Stmt.object, Stmt.predicate, hx, objectTerm, escTriple, escTerm],
      hx1, hx2, h2, hi, by simp, by simp⟩
  · refine ⟨(x, p, .lit v (d.map DataType.asIri) g),
      by simp [stmtTriple, Stmt.subject, Stmt.object, Stmt.predicate, hx, objectTerm, escTriple, escTerm],
      hx1, hx2, h2, ⟨?_, hg, ?_⟩, by simp, ?_⟩
    · rcases hd with rfl | ⟨rfl, -⟩
      · simp
      · intro i hi
        cases hi
        exact he.url _ _ hk.xmlLiteral
    · rcases hd with rfl | ⟨-, rfl⟩ <;> simp
    · rintro v d g e
      simp only [RdfTerm.lit.injEq] at e
      rcases hd with rfl | ⟨rfl, -⟩
      · exact ⟨e.1 ▸ hv, .inl e.2.1.symm⟩
      · exact ⟨e.1 ▸ hv, .inr e.2.1.symm⟩

end Rdftk
