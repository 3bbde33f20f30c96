import Verif.Lemmas.XmlPanic
import Verif.Spec.XmlReader

/-! The calls of the RDF/XML reader and the grammar of what they take. -/

namespace Rdftk

open Spec

variable {env : ReadEnv} {sty : IriStyle} {gen : Nat → Str} {emit : Emit}

/-! ### Attributes -/

theorem lastRdf_cons (loc : Str) (a : XAttr) (as : List XAttr) : lastRdf loc (a :: as) = (lastRdf loc as).or (lastRdf loc [a]) := by
  rw [← List.singleton_append, lastRdf, List.filter_append, List.getLast?_append]; rfl

theorem lastXml_cons (loc : Str) (a : XAttr) (as : List XAttr) : lastXml loc (a :: as) = (lastXml loc as).or (lastXml loc [a]) := by
  rw [← List.singleton_append, lastXml, List.filter_append, List.getLast?_append]; rfl

/-- What an option says of the value of the last attribute. -/
def ValueSaid {α : Type} (f : Str → Option α) (x : Option XAttr) (old new : Option α) : Prop :=
  match x with
  | none => new = old
  | some a => new.isSome = true ∧ new = f a.value

theorem ValueSaid.or {α : Type} {f : Str → Option α} {x y : Option XAttr} {old mid new : Option α} (h1 : ValueSaid f y old mid)
    (h2 : ValueSaid f x mid new) : ValueSaid f (x.or y) old new := by
  cases x with
  | none => simp only [ValueSaid] at h2; subst h2; simpa using h1
  | some a => exact h2

/-- The IRI of `rdf:about` is that of the value. -/
def AboutSaid (env : ReadEnv) (x : Option XAttr) (s : Option XmlSubject) : Prop :=
  ∀ i, s = some (.resource i) → ∃ a, x = some a ∧ Iri.fromStr env.url a.value = some i

theorem AboutSaid.or {x y : Option XAttr} {s : Option XmlSubject} : AboutSaid env x s → AboutSaid env (x.or y) s := by
  intro h i hi
  obtain ⟨a, h1, h2⟩ := h i hi
  exact ⟨a, by simp [h1], h2⟩

/-- The rest of what one attribute says. -/
structure AttrSays (env : ReadEnv) (a : XAttr) (r r' : XmlAttributes) : Prop where
  base : ValueSaid (Iri.fromStr env.url) (lastXml (str! "base") [a]) r.base r'.base
  language : ValueSaid env.lang (lastXml (str! "lang") [a]) r.language r'.language
  resource : ValueSaid (Iri.fromStr env.url) (lastRdf (str! "resource") [a]) r.resource r'.resource
  type : r'.dataType = r.dataType
  about : (lastSubject [a] = none ∧ r'.subject = r.subject) ∨ AboutSaid env (lastSubject [a]) r'.subject

theorem xmlAttribute_says {r r' : XmlAttributes} {a : XAttr} (h : xmlAttribute env r a = .ok r') : AttrSays env a r r' := by
  have h0 := xml_ne_rdf
  have d1 : (str! "base") ≠ (str! "lang") := by decide
  have d2 : str! "about" ≠ str! "resource" ∧ str! "nodeID" ≠ str! "resource" ∧ str! "ID" ≠ str! "resource" ∧ str! "parseType" ≠ str! "resource" := by decide
  have d3 : str! "resource" ≠ str! "about" ∧ str! "resource" ≠ str! "nodeID" ∧ str! "resource" ≠ str! "ID" := by decide
  have d4 : str! "parseType" ≠ str! "about" ∧ str! "parseType" ≠ str! "nodeID" ∧ str! "parseType" ≠ str! "ID" := by decide
  unfold xmlAttribute at h
  split at h
  · rename_i hx
    have hr : ¬a.name.ns = some rdfTable.ns := fun e => h0 (hx.symm.trans e)
    have e1 : lastSubject [a] = none := by simp [lastSubject, List.filter_cons, hr]
    have e2 (l : Str) : lastRdf l [a] = none := by simp [lastRdf, List.filter_cons, hr]
    split at h
    · rename_i hb
      obtain ⟨i, hi, e⟩ := Res.bind_isOk.1 h
      cases e
      have hi := Res.ofOption_isOk.1 hi
      have e3 : lastXml (str! "base") [a] = some a := by simp [lastXml, List.filter_cons, hx, hb]
      have e4 : lastXml (str! "lang") [a] = none := by simp [lastXml, List.filter_cons, hb, d1]
      exact ⟨by simp [e3, ValueSaid, hi], by simp [e4, ValueSaid], by simp [e2, ValueSaid], rfl, .inl ⟨e1, rfl⟩⟩
    · rename_i hb
      have e3 : lastXml (str! "base") [a] = none := by simp [lastXml, List.filter_cons, hb]
      split at h
      · rename_i hl
        obtain ⟨i, hi, e⟩ := Res.bind_isOk.1 h
        cases e
        have hi := Res.ofOption_isOk.1 hi
        have e4 : lastXml (str! "lang") [a] = some a := by simp [lastXml, List.filter_cons, hx, hl]
        exact ⟨by simp [e3, ValueSaid], by simp [e4, ValueSaid, hi], by simp [e2, ValueSaid], rfl, .inl ⟨e1, rfl⟩⟩
      · rename_i hl
        cases h
        have e4 : lastXml (str! "lang") [a] = none := by simp [lastXml, List.filter_cons, hl]
        exact ⟨by simp [e3, ValueSaid], by simp [e4, ValueSaid], by simp [e2, ValueSaid], rfl, .inl ⟨e1, rfl⟩⟩
  · rename_i hx
    have e3 (l : Str) : lastXml l [a] = none := by simp [lastXml, List.filter_cons, hx]
    split at h
    · rename_i hr
      split at h
      · rename_i h1
        obtain ⟨i, hi, e⟩ := Res.bind_isOk.1 h
        cases e
        have hi := Res.ofOption_isOk.1 hi
        have e1 : lastSubject [a] = some a := by simp [lastSubject, List.filter_cons, hr, h1]
        have e2 : lastRdf (str! "resource") [a] = none := by simp [lastRdf, List.filter_cons, h1, d2]
        exact ⟨by simp [e3, ValueSaid], by simp [e3, ValueSaid], by simp [e2, ValueSaid], rfl,
          .inr fun j hj => by cases hj; exact ⟨a, e1, hi⟩⟩
      · rename_i h1
        split at h
        · rename_i h2
          cases h
          have e2 : lastRdf (str! "resource") [a] = none := by simp [lastRdf, List.filter_cons, h2, d2]
          exact ⟨by simp [e3, ValueSaid], by simp [e3, ValueSaid], by simp [e2, ValueSaid], rfl, .inr fun j hj => by cases hj⟩
        · rename_i h2
          split at h
          · rename_i h3
            cases h
            have e2 : lastRdf (str! "resource") [a] = none := by simp [lastRdf, List.filter_cons, h3, d2]
            exact ⟨by simp [e3, ValueSaid], by simp [e3, ValueSaid], by simp [e2, ValueSaid], rfl, .inr fun j hj => by cases hj⟩
          · rename_i h3
            have e1 : lastSubject [a] = none := by simp [lastSubject, List.filter_cons, h1, h2, h3]
            split at h
            · rename_i h4
              obtain ⟨i, hi, e⟩ := Res.bind_isOk.1 h
              cases e
              have hi := Res.ofOption_isOk.1 hi
              have e2 : lastRdf (str! "resource") [a] = some a := by simp [lastRdf, List.filter_cons, hr, h4]
              exact ⟨by simp [e3, ValueSaid], by simp [e3, ValueSaid], by simp [e2, ValueSaid, hi], rfl, .inl ⟨e1, rfl⟩⟩
            · rename_i h4
              have e2 : lastRdf (str! "resource") [a] = none := by simp [lastRdf, List.filter_cons, h4]
              repeat' split at h
              all_goals cases h
              all_goals exact ⟨by simp [e3, ValueSaid], by simp [e3, ValueSaid], by simp [e2, ValueSaid], rfl, .inl ⟨e1, rfl⟩⟩
    · rename_i hr
      cases h
      have e1 : lastSubject [a] = none := by simp [lastSubject, List.filter_cons, hr]
      have e2 : lastRdf (str! "resource") [a] = none := by simp [lastRdf, List.filter_cons, hr]
      exact ⟨by simp [e3, ValueSaid], by simp [e3, ValueSaid], by simp [e2, ValueSaid], rfl, .inl ⟨e1, rfl⟩⟩

/-- The rest of what all attributes say. -/
structure AttrsSay (env : ReadEnv) (as : List XAttr) (r r' : XmlAttributes) : Prop where
  base : ValueSaid (Iri.fromStr env.url) (lastXml (str! "base") as) r.base r'.base
  language : ValueSaid env.lang (lastXml (str! "lang") as) r.language r'.language
  resource : ValueSaid (Iri.fromStr env.url) (lastRdf (str! "resource") as) r.resource r'.resource
  type : r'.dataType = r.dataType
  about : (lastSubject as = none ∧ r'.subject = r.subject) ∨ AboutSaid env (lastSubject as) r'.subject

theorem xmlAttributesFrom_says {as : List XAttr} {r r' : XmlAttributes} (h : xmlAttributesFrom env r as = .ok r') : AttrsSay env as r r' := by
  induction as generalizing r with
  | nil =>
    cases h
    exact ⟨rfl, rfl, rfl, rfl, .inl ⟨rfl, rfl⟩⟩
  | cons a as ih =>
    obtain ⟨m, h1, h2⟩ := Res.bind_isOk.1 h
    have h1 := xmlAttribute_says h1
    have h2 := ih h2
    have e := lastSubject_append [a] as
    rw [List.singleton_append] at e
    refine ⟨?_, ?_, ?_, h2.type.trans h1.type, ?_⟩
    · rw [lastXml_cons]; exact h1.base.or h2.base
    · rw [lastXml_cons]; exact h1.language.or h2.language
    · rw [lastRdf_cons]; exact h1.resource.or h2.resource
    · rw [e]
      rcases h2.about with ⟨h3, h4⟩ | h3
      · rw [h3, h4]
        rcases h1.about with ⟨h5, h6⟩ | h5
        · exact .inl ⟨by simp [h5], h6⟩
        · exact .inr (by simpa using h5)
      · exact .inr h3.or

/-- All that is known of attributes that were read. -/
theorem xmlAttributes_says {as : List XAttr} {a : XmlAttributes} (h : xmlAttributes env as = .ok a) :
    (∀ base, xmlBase a base = baseInside env as base) ∧
    (∀ base sty gen n s m, xmlSubjectNode env sty gen base n a.subject = .ok (s, m) ↔ SubjectIs env sty gen base as n s m) ∧
    (∀ t, xmlContentLiteral env a t = textLiteral env as t) ∧
    (∀ r, a.resource = some r ↔ ∃ x, lastRdf (str! "resource") as = some x ∧ Iri.fromStr env.url x.value = some r) ∧
    (a.resource = none ↔ lastRdf (str! "resource") as = none) := by
  have hk := xmlAttributes_known h
  have hs := xmlAttributesFrom_says h
  refine ⟨fun base => ?_, fun base sty gen n s m => ?_, fun t => ?_, fun r => ?_, ?_⟩
  · have := hs.base
    unfold baseInside xmlBase
    cases hx : lastXml (str! "base") as with
    | none => rw [hx] at this; simp only [ValueSaid] at this; simp [this]
    | some x => rw [hx] at this; simp only [ValueSaid] at this; simp [this.1, ← this.2]
  · have d1 : str! "about" ≠ str! "ID" ∧ str! "about" ≠ str! "nodeID" ∧ str! "nodeID" ≠ str! "ID" := by decide
    have hsub := hk.2.2.1
    cases ha : a.subject with
    | none =>
      rw [ha] at hsub
      cases hx : lastSubject as with
      | some x => rw [hx] at hsub; exact hsub.elim
      | none =>
        simp only [xmlSubjectNode, Res.ok.injEq, Prod.mk.injEq]
        constructor
        · rintro ⟨rfl, rfl⟩; exact .blank n hx
        · intro h1; cases h1 with
          | blank => exact ⟨rfl, rfl⟩
          | about a i h => rw [hx] at h; cases h
          | nodeId a i h => rw [hx] at h; cases h
          | id a b i h => rw [hx] at h; cases h
    | some z =>
      rw [ha] at hsub
      cases hx : lastSubject as with
      | none => rw [hx] at hsub; cases z <;> exact hsub.elim
      | some x =>
        rw [hx] at hsub
        cases z with
        | resource i =>
          have hi : Iri.fromStr env.url x.value = some i := by
            rcases hs.about with ⟨h1, -⟩ | h1
            · rw [hx] at h1; cases h1
            · obtain ⟨y, h2, h3⟩ := h1 i ha
              rw [hx] at h2; cases h2; exact h3
          have hl : x.name.loc = str! "about" := hsub
          simp only [xmlSubjectNode, Res.ok.injEq, Prod.mk.injEq]
          constructor
          · rintro ⟨rfl, rfl⟩; exact .about n x i hx hl hi
          · intro h1; cases h1 with
            | blank h => rw [hx] at h; cases h
            | about a j h hl hj => rw [hx] at h; cases h; rw [hi] at hj; cases hj; exact ⟨rfl, rfl⟩
            | nodeId a j h h2 => rw [hx] at h; cases h; exact absurd (hl.symm.trans h2) d1.2.1
            | id a b i h h2 => rw [hx] at h; cases h; exact absurd (hl.symm.trans h2) d1.1
        | blankNamed b =>
          obtain ⟨hl, rfl⟩ := hsub
          simp only [xmlSubjectNode, Res.bind_isOk, Res.ofOption_isOk, Res.ok.injEq, Prod.mk.injEq]
          constructor
          · rintro ⟨b, hb, rfl, rfl⟩; exact .nodeId n x b hx hl hb
          · intro h1; cases h1 with
            | blank h => rw [hx] at h; cases h
            | about a j h h2 => rw [hx] at h; cases h; exact absurd (h2.symm.trans hl) d1.2.1
            | nodeId a b h h2 hb => rw [hx] at h; cases h; exact ⟨b, hb, rfl, rfl⟩
            | id a b i h h2 => rw [hx] at h; cases h; exact absurd (hl.symm.trans h2) d1.2.2
        | relative t =>
          obtain ⟨hl, rfl⟩ := hsub
          simp only [xmlSubjectNode]
          constructor
          · intro h1
            cases base with
            | none => cases h1
            | some b =>
              obtain ⟨i, hi, e⟩ := Res.bind_isOk.1 h1
              cases e
              exact .id n x b i hx hl rfl (Res.ofOption_isOk.1 hi)
          · intro h1; cases h1 with
            | blank h => rw [hx] at h; cases h
            | about a j h h2 => rw [hx] at h; cases h; exact absurd (h2.symm.trans hl) d1.1
            | nodeId a b h h2 hb => rw [hx] at h; cases h; exact absurd (h2.symm.trans hl) d1.2.2
            | id a b i h h2 hb hi =>
              rw [hx] at h; cases h; subst hb
              exact Res.bind_isOk.2 ⟨i, Res.ofOption_isOk.2 hi, rfl⟩
  · have h1 := hs.language
    have h2 := hs.type
    unfold xmlContentLiteral textLiteral
    rw [h2]
    cases hx : lastXml (str! "lang") as with
    | none => rw [hx] at h1; simp only [ValueSaid] at h1; simp [h1]
    | some x =>
      rw [hx] at h1; simp only [ValueSaid] at h1; simp only [Option.bind_some, ← h1.2]
      cases a.language <;> rfl
  · have h1 := hs.resource
    cases hx : lastRdf (str! "resource") as with
    | none => rw [hx] at h1; simp only [ValueSaid] at h1; simp [h1]
    | some x => rw [hx] at h1; simp only [ValueSaid] at h1; simp [← h1.2]
  · have h1 := hs.resource
    cases hx : lastRdf (str! "resource") as with
    | none => rw [hx] at h1; simp only [ValueSaid] at h1; simp [h1]
    | some x =>
      rw [hx] at h1; simp only [ValueSaid] at h1
      simp only [reduceCtorEq, iff_false]
      intro e; rw [e] at h1; cases h1.1

/-! ### Elements -/

theorem nameToIri_is {n : XName} {i : Iri} : nameToIri env n = .ok i ↔ NameIs env n i := by
  unfold nameToIri NameIs
  cases n.ns <;> simp [Res.ofOption_isOk]

theorem xmlPropertyAttributes_says {s : Subject} {as : List XAttr} {st st' : XmlState} :
    xmlPropertyAttributes env s st as = .ok st' ↔
      ∃ ts, AttributesSay env s as ts ∧ st' = ⟨ts.foldl Graph.insert st.graph, st.count⟩ := by
  induction as generalizing st with
  | nil =>
    simp only [xmlPropertyAttributes, Res.ok.injEq]
    constructor
    · rintro rfl; exact ⟨[], .nil, rfl⟩
    · rintro ⟨ts, h, rfl⟩; cases h; rfl
  | cons a as ih =>
    simp only [xmlPropertyAttributes, Res.bind_isOk, nameToIri_is]
    constructor
    · rintro ⟨p, h1, h2⟩
      obtain ⟨ts, h3, h4⟩ := ih.1 h2
      exact ⟨_, .cons a p as ts h1 h3, h4⟩
    · rintro ⟨ts, h, h4⟩
      cases h with
      | cons _ p _ ts h1 h3 => exact ⟨p, h1, ih.2 ⟨ts, h3, h4⟩⟩

theorem xmlNodeElement_says {base : Option Iri} {st : XmlState} {name : XName} {as : List XAttr} {r : XmlFrame × XmlState} :
    xmlNodeElement env sty gen base st name as = .ok r ↔
      ∃ s n₁ t₁ t₂, AttributesRead env as ∧ SubjectIs env sty gen base as st.count s n₁ ∧ TypeSays env name s t₁ ∧
        AttributesSay env s (propertyAttributes as) t₂ ∧
        r = (.predicate (baseInside env as base) s false, ⟨(t₁ ++ t₂).foldl Graph.insert st.graph, n₁⟩) := by
  unfold xmlNodeElement
  simp only [Res.bind_isOk]
  have typed (s : Subject) (m : Nat) (st' : XmlState) : (if name = ⟨some rdfTable.ns, str! "Description"⟩ then Res.ok { st with count := m }
      else (nameToIri env name).bind fun t => .ok ({ st with count := m }.insert s rdfType (.res t))) = .ok st' ↔
      ∃ t₁, TypeSays env name s t₁ ∧ st' = ⟨t₁.foldl Graph.insert st.graph, m⟩ := by
    split
    · rename_i h
      simp only [Res.ok.injEq]
      constructor
      · rintro rfl; exact ⟨[], .description h, rfl⟩
      · rintro ⟨t, h1, rfl⟩
        cases h1 with
        | description => rfl
        | typed t h2 => exact absurd h h2
    · rename_i h
      simp only [Res.bind_isOk, nameToIri_is, Res.ok.injEq]
      constructor
      · rintro ⟨t, h1, rfl⟩; exact ⟨_, .typed t h h1, rfl⟩
      · rintro ⟨t, h1, rfl⟩
        cases h1 with
        | description h2 => exact absurd h2 h
        | typed t _ h1 => exact ⟨t, h1, rfl⟩
  constructor
  · rintro ⟨a, h1, ⟨s, n₁⟩, h2, st', h3, st'', h4, h5⟩
    obtain ⟨k1, k2, -⟩ := xmlAttributes_says h1
    have hk := xmlAttributes_known h1
    obtain ⟨t₁, h6, rfl⟩ := (typed _ _ _).1 h3
    obtain ⟨t₂, h7, rfl⟩ := xmlPropertyAttributes_says.1 h4
    cases h5
    refine ⟨s, n₁, t₁, t₂, hk.1, (k2 ..).1 h2, h6, hk.2.1 ▸ h7, ?_⟩
    rw [k1, List.foldl_append]
  · rintro ⟨s, n₁, t₁, t₂, h1, h2, h3, h4, rfl⟩
    obtain ⟨a, ha⟩ := xmlAttributes_taken h1
    obtain ⟨k1, k2, -⟩ := xmlAttributes_says ha
    have hk := xmlAttributes_known ha
    refine ⟨a, ha, (s, n₁), (k2 ..).2 h2, _, (typed _ _ _).2 ⟨t₁, h3, rfl⟩, _,
      xmlPropertyAttributes_says.2 ⟨t₂, hk.2.1 ▸ h4, rfl⟩, ?_⟩
    rw [k1, List.foldl_append]

/-- The calls after the start of a property element. -/
inductive PropertyOpens (env : ReadEnv) (base : Option Iri) (s : Subject) (st : XmlState) (name : XName) (as : List XAttr) :
    List XmlFrame × XmlState → Prop
  | resource (a : XAttr) (p r : Iri) (hl : lastRdf (str! "resource") as = some a) (hi : Iri.fromStr env.url a.value = some r)
      (hp : NameIs env name p) :
      PropertyOpens env base s st name as ([.predicate base s true], ⟨st.graph.insert (.mk s p (.res r)), st.count⟩)
  | content (a : XmlAttributes) (hl : lastRdf (str! "resource") as = none) (ht : lastParseType as = none)
      (ha : ∀ t, xmlContentLiteral env a t = textLiteral env as t) :
      PropertyOpens env base s st name as ([.object base s name a [] false false, .predicate base s false], st)
  | literal (hl : lastRdf (str! "resource") as = none) (ht : lastParseType as = some (str! "Literal")) :
      PropertyOpens env base s st name as ([.literal s name 0 [], .predicate base s false], st)
  | nested (hl : lastRdf (str! "resource") as = none) (ht : lastParseType as = some (str! "Resource")) :
      PropertyOpens env base s st name as
        ([.subject (baseInside env as base), .predicate base s false], ⟨st.graph, st.count + 1⟩)

theorem parseSaid_none {x : Option Str} (h : ParseSaid x none) : x = none := by
  cases x with
  | none => rfl
  | some _ => exact h.elim

theorem parseSaid_some {x : Option Str} {p : ParseType} (h : ParseSaid x (some p)) :
    x = some (match p with | .xmlLiteral => str! "Literal" | .resource => str! "Resource" | .collection => str! "Collection") := by
  cases x with
  | none => cases p <;> exact h.elim
  | some _ => cases p <;> exact congrArg some h

theorem xmlPropertyElement_opens {base : Option Iri} {s : Subject} {st : XmlState} {name : XName} {as : List XAttr}
    {r : List XmlFrame × XmlState} (h : xmlPropertyElement env base s st name as = .ok r) :
    AttributesRead env as ∧ PropertyOpens env base s st name as r := by
  obtain ⟨a, ha, h⟩ := Res.bind_isOk.1 h
  obtain ⟨k1, -, k3, k4, k5⟩ := xmlAttributes_says ha
  have hk := xmlAttributes_known ha
  refine ⟨hk.1, ?_⟩
  have hp := hk.2.2.2.1
  split at h
  · rename_i i hr
    obtain ⟨x, h1, h2⟩ := (k4 i).1 hr
    obtain ⟨p, h3, h4⟩ := Res.bind_isOk.1 h
    cases h4
    exact .resource x p i h1 h2 (nameToIri_is.1 h3)
  · rename_i hr
    have hr := k5.1 hr
    split at h
    · rename_i e
      rw [e] at hp
      cases h
      exact .content a hr (parseSaid_none hp) k3
    · rename_i e
      rw [e] at hp
      cases h
      exact .literal hr (parseSaid_some hp)
    · rename_i e
      rw [e] at hp
      cases h
      rw [k1]
      exact .nested hr (parseSaid_some hp)
    · cases h

theorem xmlPropertyElement_taken {base : Option Iri} {s : Subject} {st : XmlState} {name : XName} {as : List XAttr} (ha : AttributesRead env as) :
    (∀ a p r, lastRdf (str! "resource") as = some a → Iri.fromStr env.url a.value = some r → NameIs env name p →
      xmlPropertyElement env base s st name as = .ok ([.predicate base s true], ⟨st.graph.insert (.mk s p (.res r)), st.count⟩)) ∧
    (lastRdf (str! "resource") as = none → lastParseType as = none → ∃ a, (∀ t, xmlContentLiteral env a t = textLiteral env as t) ∧
      xmlPropertyElement env base s st name as = .ok ([.object base s name a [] false false, .predicate base s false], st)) ∧
    (lastRdf (str! "resource") as = none → lastParseType as = some (str! "Literal") →
      xmlPropertyElement env base s st name as = .ok ([.literal s name 0 [], .predicate base s false], st)) ∧
    (lastRdf (str! "resource") as = none → lastParseType as = some (str! "Resource") →
      xmlPropertyElement env base s st name as =
        .ok ([.subject (baseInside env as base), .predicate base s false], ⟨st.graph, st.count + 1⟩)) := by
  obtain ⟨a, ha⟩ := xmlAttributes_taken ha
  obtain ⟨k1, -, k3, k4, k5⟩ := xmlAttributes_says ha
  have hp := (xmlAttributes_known ha).2.2.2.1
  have d : str! "Literal" ≠ str! "Resource" ∧ str! "Literal" ≠ str! "Collection" ∧ str! "Resource" ≠ str! "Collection" := by decide
  unfold xmlPropertyElement
  rw [ha]
  simp only [Res.bind]
  refine ⟨fun x p r h1 h2 h3 => ?_, fun h1 h2 => ⟨a, k3, ?_⟩, fun h1 h2 => ?_, fun h1 h2 => ?_⟩
  · rw [(k4 r).2 ⟨x, h1, h2⟩]
    simp only [nameToIri_is.2 h3]
    rfl
  · rw [k5.2 h1]
    rw [h2] at hp
    cases e : a.parseType with
    | none => rfl
    | some p => rw [e] at hp; have := parseSaid_some hp; cases this
  · rw [k5.2 h1]
    rw [h2] at hp
    cases e : a.parseType with
    | none => rw [e] at hp; exact hp.elim
    | some p =>
      rw [e] at hp
      cases p with
      | xmlLiteral => rfl
      | resource => exact absurd hp d.1
      | collection => exact absurd hp d.2.1
  · rw [k5.2 h1]
    rw [h2] at hp
    cases e : a.parseType with
    | none => rw [e] at hp; exact hp.elim
    | some p =>
      rw [e] at hp
      cases p with
      | xmlLiteral => exact absurd hp.symm d.1
      | resource => simp only [k1]
      | collection => exact absurd hp d.2.2

theorem markupLiteral_eq (t : Str) :
    Literal.withDataType env.pr (replaceChar '>' (str! "&gt;") (replaceChar '<' (str! "&lt;") t)) .xmlLiteral = markupLiteral env t := by
  unfold markupLiteral replaceChar
  congr 1
  rw [List.flatMap_assoc]
  congr 1
  funext c
  split
  · rename_i h; subst h; decide
  · simp

/-! ### The grammar is taken -/

theorem childless_run {evs : List XmlIn} (h : Childless evs) (base : Option Iri) (s : Subject) (rest : List XmlFrame) (st : XmlState)
    (e2 : List XmlIn) :
    xmlRun env sty gen emit (.predicate base s true :: rest) st (evs ++ e2) = xmlRun env sty gen emit rest st e2 := by
  induction h with
  | stop x => rfl
  | pass ev evs hp _ ih => cases ev <;> first | exact hp.elim | exact ih

theorem textOnly_run {evs : List XmlIn} {t : Str} (h : TextOnly evs t) (base : Option Iri) (s : Subject) (name : XName) (a : XmlAttributes)
    (content : Str) (hc : Bool) (rest : List XmlFrame) (st : XmlState) (e2 : List XmlIn) (p : Iri) (hp : NameIs env name p) :
    xmlRun env sty gen emit (.object base s name a content false hc :: rest) st (evs ++ e2) =
      xmlRun env sty gen emit rest (st.insert s p (.lit (xmlContentLiteral env a (content ++ t)))) e2 := by
  induction h generalizing content hc with
  | stop x => simp only [List.singleton_append, xmlRun, xmlStep, nameToIri_is.2 hp, Res.bind, List.append_nil]
  | space _ _ _ _ ih => exact ih content hc
  | other _ _ _ ih => exact ih content hc
  | chars u evs t _ ih =>
    have := ih (content ++ u) true
    rw [List.append_assoc] at this
    exact this
  | cdata u evs t _ ih =>
    have := ih (content ++ u) true
    rw [List.append_assoc] at this
    exact this

theorem closes_run {evs : List XmlIn} {k : Nat} (h : Closes k evs) (s : Subject) (name : XName) (content : List XmlIn)
    (rest : List XmlFrame) (st : XmlState) (e2 : List XmlIn) (p : Iri) (t : Str) (hp : NameIs env name p) (he : emit (content ++ evs) = some t) :
    xmlRun env sty gen emit (.literal s name k content :: rest) st (evs ++ e2) =
      xmlRun env sty gen emit rest (st.insert s p (.lit (markupLiteral env t))) e2 := by
  induction h generalizing content with
  | last x => simp only [List.singleton_append, xmlRun, xmlStep, he, nameToIri_is.2 hp, Res.bind, markupLiteral_eq]
  | start k x as evs _ ih => exact ih (content ++ [.start x as]) (by simpa using he)
  | stop k x evs _ ih => exact ih (content ++ [.stop x]) (by simpa using he)
  | pass k ev evs hp' _ ih =>
    have := ih (content ++ [ev]) (by simpa using he)
    cases ev <;> first | exact hp'.elim | exact this

mutual
theorem nodes_run {base : Option Iri} {n : Nat} {evs : List XmlIn} {ts : List Stmt} {m : Nat} :
    Nodes env sty gen emit base n evs ts m → ∀ (rest : List XmlFrame) (g : Graph) (e2 : List XmlIn),
      xmlRun env sty gen emit (.subject base :: rest) ⟨g, n⟩ (evs ++ e2) = xmlRun env sty gen emit rest ⟨ts.foldl Graph.insert g, m⟩ e2
  | .stop _ _ x => fun _ _ _ => rfl
  | .pass _ _ _ ev evs ts hp hr => fun rest g e2 => by
    have ih := nodes_run hr rest g e2
    cases ev <;> first | exact hp.elim | exact ih
  | .node _ _ n₁ n₂ n₃ name as s evs₁ evs₂ t₁ t₂ t₃ t₄ ha hs ht hp hi hr => fun rest g e2 => by
    have h1 := properties_run hi (.subject base :: rest) ((t₁ ++ t₂).foldl Graph.insert g) (evs₂ ++ e2)
    have h2 := nodes_run hr rest ((t₁ ++ t₂ ++ t₃).foldl Graph.insert g) e2
    have h3 := (xmlNodeElement_says (env := env) (sty := sty) (gen := gen) (base := base) (st := ⟨g, n⟩) (name := name) (as := as)).2
      ⟨s, n₁, t₁, t₂, ha, hs, ht, hp, rfl⟩
    simp only [List.cons_append, xmlRun, xmlStep, h3, Res.bind]
    rw [List.append_assoc, h1, ← List.foldl_append, h2, ← List.foldl_append]

theorem properties_run {base : Option Iri} {s : Subject} {n : Nat} {evs : List XmlIn} {ts : List Stmt} {m : Nat} :
    Properties env sty gen emit base s n evs ts m → ∀ (rest : List XmlFrame) (g : Graph) (e2 : List XmlIn),
      xmlRun env sty gen emit (.predicate base s false :: rest) ⟨g, n⟩ (evs ++ e2) =
        xmlRun env sty gen emit rest ⟨ts.foldl Graph.insert g, m⟩ e2
  | .stop _ _ _ x => fun _ _ _ => rfl
  | .pass _ _ _ _ ev evs ts hp hr => fun rest g e2 => by
    have ih := properties_run hr rest g e2
    cases ev <;> first | exact hp.elim | exact ih
  | .resource _ _ _ name as a p r evs ha hl hi hp hr => fun rest g e2 => by
    have h3 := (xmlPropertyElement_taken (base := base) (s := s) (st := ⟨g, n⟩) (name := name) ha).1 a p r hl hi hp
    simp only [List.cons_append, xmlRun, xmlStep, Bool.false_eq_true, if_false, h3, Res.bind, List.nil_append]
    rw [childless_run hr]
    rfl
  | .text _ _ _ _ name as p t evs₁ evs₂ ts ha hl ht hp hc hr => fun rest g e2 => by
    obtain ⟨a, k, h3⟩ := (xmlPropertyElement_taken (base := base) (s := s) (st := ⟨g, n⟩) (name := name) ha).2.1 hl ht
    have ih := properties_run hr rest (g.insert (.mk s p (.lit (textLiteral env as t)))) e2
    simp only [List.cons_append, xmlRun, xmlStep, Bool.false_eq_true, if_false, h3, Res.bind, List.nil_append]
    rw [List.append_assoc, textOnly_run hc _ _ _ _ _ _ _ _ _ p hp, k, List.nil_append]
    exact ih
  | .elements _ _ _ n₁ _ name as p evs₁ evs₂ t₁ t₂ ha hl ht hp hc hr => fun rest g e2 => by
    obtain ⟨a, k, h3⟩ := (xmlPropertyElement_taken (base := base) (s := s) (st := ⟨g, n⟩) (name := name) ha).2.1 hl ht
    have ih1 := elements_run hc s name a [] false p hp (.predicate base s false :: rest) g (evs₂ ++ e2)
    have ih := properties_run hr rest ((t₁ ++ [Stmt.mk s p (.lit (textLiteral env as []))]).foldl Graph.insert g) e2
    simp only [List.cons_append, xmlRun, xmlStep, Bool.false_eq_true, if_false, h3, Res.bind, List.nil_append]
    rw [List.append_assoc, ih1, k, ih, ← List.foldl_append, List.append_assoc, List.singleton_append]
  | .literal _ _ _ _ name as p t evs₁ evs₂ ts ha hl ht hp hc he hr => fun rest g e2 => by
    have h3 := (xmlPropertyElement_taken (base := base) (s := s) (st := ⟨g, n⟩) (name := name) ha).2.2.1 hl ht
    have ih := properties_run hr rest (g.insert (.mk s p (.lit (markupLiteral env t)))) e2
    simp only [List.cons_append, xmlRun, xmlStep, Bool.false_eq_true, if_false, h3, Res.bind, List.nil_append]
    rw [List.append_assoc, closes_run hc _ _ _ _ _ _ p t hp (by simpa using he)]
    exact ih
  | .nested _ _ _ n₁ _ name as evs₁ evs₂ t₁ t₂ ha hl ht hc hr => fun rest g e2 => by
    have h3 := (xmlPropertyElement_taken (base := base) (s := s) (st := ⟨g, n⟩) (name := name) ha).2.2.2 hl ht
    have ih1 := nodes_run hc (.predicate base s false :: rest) g (evs₂ ++ e2)
    have ih := properties_run hr rest (t₁.foldl Graph.insert g) e2
    simp only [List.cons_append, xmlRun, xmlStep, Bool.false_eq_true, if_false, h3, Res.bind, List.nil_append]
    rw [List.append_assoc, ih1, ih, ← List.foldl_append]

theorem elements_run {base : Option Iri} {n : Nat} {evs : List XmlIn} {ts : List Stmt} {m : Nat} :
    Elements env sty gen emit base n evs ts m → ∀ (s : Subject) (name : XName) (a : XmlAttributes) (content : Str) (he : Bool) (p : Iri)
      (_ : NameIs env name p) (rest : List XmlFrame) (g : Graph) (e2 : List XmlIn),
      xmlRun env sty gen emit (.object base s name a content he false :: rest) ⟨g, n⟩ (evs ++ e2) =
        xmlRun env sty gen emit rest ⟨(ts ++ [Stmt.mk s p (.lit (xmlContentLiteral env a content))]).foldl Graph.insert g, m⟩ e2
  | .stop _ _ x => fun s name a content he p hp rest g e2 => by
    simp only [List.singleton_append, xmlRun, xmlStep, nameToIri_is.2 hp, Res.bind]
    rfl
  | .space _ _ _ u evs ts hr => fun s name a content he p hp rest g e2 => by
    have ih := elements_run hr s name a content he p hp rest g e2
    exact ih
  | .other _ _ _ evs ts hr => fun s name a content he p hp rest g e2 => by
    have ih := elements_run hr s name a content he p hp rest g e2
    exact ih
  | .element _ _ n₁ _ nm as evs₁ evs₂ t₁ t₂ ha hc hr => fun s name a content he p hp rest g e2 => by
    obtain ⟨b, hb⟩ := xmlAttributes_taken ha
    have k1 := (xmlAttributes_says hb).1
    have ih1 := nodes_run hc (.object base s name a content true false :: rest) g (evs₂ ++ e2)
    have ih := elements_run hr s name a content true p hp rest (t₁.foldl Graph.insert g) e2
    simp only [List.cons_append, xmlRun, xmlStep, Bool.false_eq_true, if_false, hb, Res.bind, k1]
    rw [List.append_assoc, ih1, ih, ← List.foldl_append, List.append_assoc]
end

/-! ### Only the grammar is taken -/

/-- What a call takes until it returns. -/
def BodyOf (env : ReadEnv) (sty : IriStyle) (gen : Nat → Str) (emit : Emit) (n : Nat) (evs : List XmlIn) (ts : List Stmt) (m : Nat) :
    XmlFrame → Prop
  | .subject base => Nodes env sty gen emit base n evs ts m
  | .predicate base s false => Properties env sty gen emit base s n evs ts m
  | .predicate _ _ true => Childless evs ∧ ts = [] ∧ m = n
  | .object base s name a content he hc => ∃ p, NameIs env name p ∧
    ((he = false ∧ ∃ t, TextOnly evs t ∧ ts = [.mk s p (.lit (xmlContentLiteral env a (content ++ t)))] ∧ m = n) ∨
     (hc = false ∧ ∃ t₁, Elements env sty gen emit base n evs t₁ m ∧ ts = t₁ ++ [.mk s p (.lit (xmlContentLiteral env a content))]))
  | .literal s name k content => ∃ t p, Closes k evs ∧ emit (content ++ evs) = some t ∧ NameIs env name p ∧
    ts = [.mk s p (.lit (markupLiteral env t))] ∧ m = n

/-- Text and elements are never both in a property element. -/
def XmlFrame.Fine : XmlFrame → Prop
  | .object _ _ _ _ _ he hc => he = false ∨ hc = false
  | _ => True

theorem xmlRun_cons {f : List XmlFrame} {st : XmlState} {ev : XmlIn} {evs : List XmlIn} {g : Graph}
    (h : xmlRun env sty gen emit f st (ev :: evs) = .ok g) :
    ∃ f' st', xmlStep env sty gen emit f st ev = .ok (f', st') ∧ xmlRun env sty gen emit f' st' evs = .ok g := by
  simp only [xmlRun] at h
  split at h
  · rename_i f' st' e; exact ⟨f', st', e, h⟩
  · cases h
  · cases h

theorem xmlRun_body (len : Nat) : ∀ (evs : List XmlIn) (f : XmlFrame) (rest : List XmlFrame) (st : XmlState) (g : Graph), evs.length ≤ len →
    xmlRun env sty gen emit (f :: rest) st evs = .ok g → f.Fine →
    ∃ e1 e2 ts m, evs = e1 ++ e2 ∧ BodyOf env sty gen emit st.count e1 ts m f ∧
      xmlRun env sty gen emit rest ⟨ts.foldl Graph.insert st.graph, m⟩ e2 = .ok g := by
  induction len with
  | zero =>
    intro evs f rest st g hl h _
    cases evs with
    | nil => cases h
    | cons _ _ => simp at hl
  | succ len ih =>
    intro evs f rest st g hl0 h0 hf
    cases evs with
    | nil => cases h0
    | cons ev evs =>
      have hl : evs.length ≤ len := by simpa using hl0
      clear hl0
      obtain ⟨f', st', hs, h⟩ := xmlRun_cons h0
      clear h0
      cases f with
      | subject base =>
        have pass (hp : Passed ev) (h : xmlRun env sty gen emit (.subject base :: rest) st evs = .ok g) :
            ∃ e1 e2 ts m, ev :: evs = e1 ++ e2 ∧ BodyOf env sty gen emit st.count e1 ts m (.subject base) ∧
              xmlRun env sty gen emit rest ⟨ts.foldl Graph.insert st.graph, m⟩ e2 = .ok g := by
          obtain ⟨e1, e2, ts, m, rfl, hb, hr⟩ := ih _ _ _ _ _ hl h trivial
          exact ⟨ev :: e1, e2, ts, m, rfl, .pass _ _ _ ev e1 ts hp hb, hr⟩
        cases ev with
        | start name as =>
          obtain ⟨⟨fr, st1⟩, h1, h2⟩ := Res.bind_isOk.1 hs
          cases h2
          obtain ⟨s, n₁, t₁, t₂, ha, hsu, ht, hp, e⟩ := xmlNodeElement_says.1 h1
          cases e
          obtain ⟨e1, e2, t₃, m, rfl, hb, hr⟩ := ih _ _ _ _ _ hl h trivial
          obtain ⟨e3, e4, t₄, m2, rfl, hb2, hr2⟩ := ih _ _ _ _ _ (by simp at hl; omega) hr trivial
          refine ⟨.start name as :: (e1 ++ e3), e4, t₁ ++ t₂ ++ t₃ ++ t₄, m2, by simp, .node _ _ _ _ _ _ _ _ _ _ _ _ _ _ ha hsu ht hp hb hb2, ?_⟩
          rw [List.foldl_append, List.foldl_append]
          exact hr2
        | stop x => cases hs; exact ⟨[.stop x], evs, [], st.count, rfl, .stop _ _ x, h⟩
        | bad => cases hs
        | chars _ => cases hs; exact pass trivial h
        | cdata _ => cases hs; exact pass trivial h
        | space _ => cases hs; exact pass trivial h
        | other => cases hs; exact pass trivial h
      | predicate base s nc =>
        cases nc with
        | true =>
          have pass (hp : Passed ev) (h : xmlRun env sty gen emit (.predicate base s true :: rest) st evs = .ok g) :
              ∃ e1 e2 ts m, ev :: evs = e1 ++ e2 ∧ BodyOf env sty gen emit st.count e1 ts m (.predicate base s true) ∧
                xmlRun env sty gen emit rest ⟨ts.foldl Graph.insert st.graph, m⟩ e2 = .ok g := by
            obtain ⟨e1, e2, ts, m, rfl, hb, hr⟩ := ih _ _ _ _ _ hl h trivial
            exact ⟨ev :: e1, e2, ts, m, rfl, ⟨.pass ev e1 hp hb.1, hb.2⟩, hr⟩
          cases ev with
          | start name as => cases hs
          | stop x => cases hs; exact ⟨[.stop x], evs, [], st.count, rfl, ⟨.stop x, rfl, rfl⟩, h⟩
          | bad => cases hs
          | chars _ => cases hs; exact pass trivial h
          | cdata _ => cases hs; exact pass trivial h
          | space _ => cases hs; exact pass trivial h
          | other => cases hs; exact pass trivial h
        | false =>
          have pass (hp : Passed ev) (h : xmlRun env sty gen emit (.predicate base s false :: rest) st evs = .ok g) :
              ∃ e1 e2 ts m, ev :: evs = e1 ++ e2 ∧ BodyOf env sty gen emit st.count e1 ts m (.predicate base s false) ∧
                xmlRun env sty gen emit rest ⟨ts.foldl Graph.insert st.graph, m⟩ e2 = .ok g := by
            obtain ⟨e1, e2, ts, m, rfl, hb, hr⟩ := ih _ _ _ _ _ hl h trivial
            exact ⟨ev :: e1, e2, ts, m, rfl, .pass _ _ _ _ ev e1 ts hp hb, hr⟩
          cases ev with
          | start name as =>
            obtain ⟨⟨fs, st1⟩, h1, h2⟩ := Res.bind_isOk.1 hs
            cases h2
            obtain ⟨ha, ho⟩ := xmlPropertyElement_opens h1
            cases ho with
            | resource a p r hl' hi hp =>
              obtain ⟨e1, e2, ts, m, rfl, ⟨hb, rfl, rfl⟩, hr⟩ := ih _ _ _ _ _ hl h trivial
              exact ⟨.start name as :: e1, e2, _, _, rfl, .resource _ _ _ _ _ a p r e1 ha hl' hi hp hb, hr⟩
            | content a hl' ht hk =>
              obtain ⟨e1, e2, ts, m, rfl, hb, hr⟩ := ih _ _ _ _ _ hl h (.inl rfl)
              obtain ⟨e3, e4, t₂, m2, rfl, hb2, hr2⟩ := ih _ _ _ _ _ (by simp at hl; omega) hr trivial
              obtain ⟨p, hp, ⟨-, t, h3, rfl, rfl⟩ | ⟨-, t₁, h3, rfl⟩⟩ := hb
              · refine ⟨.start name as :: (e1 ++ e3), e4, _ :: t₂, m2, by simp, .text _ _ _ _ _ _ p t _ _ _ ha hl' ht hp h3 hb2, ?_⟩
                rw [← hk]
                exact hr2
              · refine ⟨.start name as :: (e1 ++ e3), e4, t₁ ++ _ :: t₂, m2, by simp, .elements _ _ _ _ _ _ _ p _ _ _ _ ha hl' ht hp h3 hb2, ?_⟩
                rw [← hk, List.append_cons, List.foldl_append]
                exact hr2
            | literal hl' ht =>
              obtain ⟨e1, e2, ts, m, rfl, hb, hr⟩ := ih _ _ _ _ _ hl h trivial
              obtain ⟨e3, e4, t₂, m2, rfl, hb2, hr2⟩ := ih _ _ _ _ _ (by simp at hl; omega) hr trivial
              obtain ⟨t, p, hc, he, hp, rfl, rfl⟩ := hb
              exact ⟨.start name as :: (e1 ++ e3), e4, _ :: t₂, m2, by simp,
                .literal _ _ _ _ _ _ p t _ _ _ ha hl' ht hp hc (by simpa using he) hb2, hr2⟩
            | nested hl' ht =>
              obtain ⟨e1, e2, t₁, m, rfl, hb, hr⟩ := ih _ _ _ _ _ hl h trivial
              obtain ⟨e3, e4, t₂, m2, rfl, hb2, hr2⟩ := ih _ _ _ _ _ (by simp at hl; omega) hr trivial
              refine ⟨.start name as :: (e1 ++ e3), e4, t₁ ++ t₂, m2, by simp, .nested _ _ _ _ _ _ _ _ _ _ _ ha hl' ht hb hb2, ?_⟩
              rw [List.foldl_append]
              exact hr2
          | stop x => cases hs; exact ⟨[.stop x], evs, [], st.count, rfl, .stop _ _ _ x, h⟩
          | bad => cases hs
          | chars _ => cases hs; exact pass trivial h
          | cdata _ => cases hs; exact pass trivial h
          | space _ => cases hs; exact pass trivial h
          | other => cases hs; exact pass trivial h
      | object base s name a content he hc =>
        cases ev with
        | start nm as =>
          cases hc with
          | true => cases hs
          | false =>
            obtain ⟨b, h1, h2⟩ := Res.bind_isOk.1 hs
            cases h2
            have k1 := (xmlAttributes_says h1).1
            rw [k1] at h
            obtain ⟨e1, e2, t₁, m, rfl, hb, hr⟩ := ih _ _ _ _ _ hl h trivial
            obtain ⟨e3, e4, t₂, m2, rfl, hb2, hr2⟩ := ih _ _ _ _ _ (by simp at hl; omega) hr (.inr rfl)
            obtain ⟨p, hp, ⟨h3, -⟩ | ⟨-, t₃, h3, rfl⟩⟩ := hb2
            · cases h3
            · refine ⟨.start nm as :: (e1 ++ e3), e4, t₁ ++ t₃ ++ [_], m2, by simp,
                ⟨p, hp, .inr ⟨rfl, t₁ ++ t₃, .element _ _ _ _ _ _ _ _ _ _ (xmlAttributes_known h1).1 hb h3, rfl⟩⟩, ?_⟩
              rw [List.append_assoc, List.foldl_append]
              exact hr2
        | stop x =>
          obtain ⟨p, h1, h2⟩ := Res.bind_isOk.1 hs
          cases h2
          have hp := nameToIri_is.1 h1
          rcases hf with e | e <;> subst e
          · exact ⟨[.stop x], evs, _, st.count, rfl, ⟨p, hp, .inl ⟨rfl, [], .stop x, rfl, rfl⟩⟩, by rw [List.append_nil]; exact h⟩
          · exact ⟨[.stop x], evs, _, st.count, rfl, ⟨p, hp, .inr ⟨rfl, [], .stop _ _ x, rfl⟩⟩, h⟩
        | bad => cases hs
        | chars u =>
          cases he with
          | true => cases hs
          | false =>
            cases hs
            obtain ⟨e1, e2, ts, m, rfl, hb, hr⟩ := ih _ _ _ _ _ hl h (.inl rfl)
            obtain ⟨p, hp, ⟨-, t, h3, rfl, rfl⟩ | ⟨h3, -⟩⟩ := hb
            · exact ⟨.chars u :: e1, e2, _, _, rfl, ⟨p, hp, .inl ⟨rfl, u ++ t, .chars u _ _ h3, rfl, rfl⟩⟩, by rw [← List.append_assoc]; exact hr⟩
            · cases h3
        | cdata u =>
          cases he with
          | true => cases hs
          | false =>
            cases hs
            obtain ⟨e1, e2, ts, m, rfl, hb, hr⟩ := ih _ _ _ _ _ hl h (.inl rfl)
            obtain ⟨p, hp, ⟨-, t, h3, rfl, rfl⟩ | ⟨h3, -⟩⟩ := hb
            · exact ⟨.cdata u :: e1, e2, _, _, rfl, ⟨p, hp, .inl ⟨rfl, u ++ t, .cdata u _ _ h3, rfl, rfl⟩⟩, by rw [← List.append_assoc]; exact hr⟩
            · cases h3
        | space u =>
          cases hs
          obtain ⟨e1, e2, ts, m, rfl, hb, hr⟩ := ih _ _ _ _ _ hl h hf
          refine ⟨.space u :: e1, e2, ts, m, rfl, ?_, hr⟩
          obtain ⟨p, hp, ⟨h2, t, h3, h4⟩ | ⟨h2, t₁, h3, h4⟩⟩ := hb
          · exact ⟨p, hp, .inl ⟨h2, t, .space u _ _ h3, h4⟩⟩
          · exact ⟨p, hp, .inr ⟨h2, t₁, .space _ _ _ u _ _ h3, h4⟩⟩
        | other =>
          cases hs
          obtain ⟨e1, e2, ts, m, rfl, hb, hr⟩ := ih _ _ _ _ _ hl h hf
          refine ⟨.other :: e1, e2, ts, m, rfl, ?_, hr⟩
          obtain ⟨p, hp, ⟨h2, t, h3, h4⟩ | ⟨h2, t₁, h3, h4⟩⟩ := hb
          · exact ⟨p, hp, .inl ⟨h2, t, .other _ _ h3, h4⟩⟩
          · exact ⟨p, hp, .inr ⟨h2, t₁, .other _ _ _ _ _ h3, h4⟩⟩
      | literal s name k content =>
        have pass (hp : Passed ev) (h : xmlRun env sty gen emit (.literal s name k (content ++ [ev]) :: rest) st evs = .ok g) :
            ∃ e1 e2 ts m, ev :: evs = e1 ++ e2 ∧ BodyOf env sty gen emit st.count e1 ts m (.literal s name k content) ∧
              xmlRun env sty gen emit rest ⟨ts.foldl Graph.insert st.graph, m⟩ e2 = .ok g := by
          obtain ⟨e1, e2, ts, m, rfl, ⟨t, p, h1, h2, h3⟩, hr⟩ := ih _ _ _ _ _ hl h trivial
          exact ⟨ev :: e1, e2, ts, m, rfl, ⟨t, p, .pass _ _ _ hp h1, by simpa using h2, h3⟩, hr⟩
        cases ev with
        | start nm as =>
          cases hs
          obtain ⟨e1, e2, ts, m, rfl, ⟨t, p, h1, h2, h3⟩, hr⟩ := ih _ _ _ _ _ hl h trivial
          exact ⟨.start nm as :: e1, e2, ts, m, rfl, ⟨t, p, .start _ _ _ _ h1, by simpa using h2, h3⟩, hr⟩
        | stop x =>
          match k, hs with
          | 1, hs =>
            simp only [xmlStep] at hs
            split at hs
            · cases hs
            · rename_i t he
              obtain ⟨p, h1, h2⟩ := Res.bind_isOk.1 hs
              cases h2
              rw [markupLiteral_eq] at h
              exact ⟨[.stop x], evs, _, st.count, rfl, ⟨t, p, .last x, he, nameToIri_is.1 h1, rfl, rfl⟩, h⟩
          | k + 2, hs =>
            cases hs
            obtain ⟨e1, e2, ts, m, rfl, ⟨t, p, h1, h2, h3⟩, hr⟩ := ih _ _ _ _ _ hl h trivial
            exact ⟨.stop x :: e1, e2, ts, m, rfl, ⟨t, p, .stop _ _ _ h1, by simpa using h2, h3⟩, hr⟩
        | bad => cases hs
        | chars _ => cases hs; exact pass trivial h
        | cdata _ => cases hs; exact pass trivial h
        | space _ => cases hs; exact pass trivial h
        | other => cases hs; exact pass trivial h

end Rdftk
