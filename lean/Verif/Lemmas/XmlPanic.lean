import Verif.Spec.XmlPanic

/-! When the steps of the reader of RDF/XML panic. -/

namespace Rdftk

open Spec

theorem Res.bind_isPanic {α β : Type _} {x : Res α} {f : α → Res β} : x.bind f = .panic ↔ x = .panic ∨ ∃ a, x = .ok a ∧ f a = .panic := by
  cases x <;> simp [Res.bind]

theorem Res.bind_isOk {α β : Type _} {x : Res α} {f : α → Res β} {b : β} : x.bind f = .ok b ↔ ∃ a, x = .ok a ∧ f a = .ok b := by
  cases x <;> simp [Res.bind]

theorem Res.ofOption_calm {α : Type _} {x : Option α} : Res.ofOption x ≠ .panic := by
  cases x <;> simp [Res.ofOption]

theorem Res.ofOption_isOk {α : Type _} {x : Option α} {a : α} : Res.ofOption x = .ok a ↔ x = some a := by
  cases x <;> simp [Res.ofOption]

theorem xml_ne_rdf : some xmlNamespace ≠ some rdfTable.ns := by decide +kernel

variable {env : ReadEnv} {sty : IriStyle}

theorem xmlAttribute_panic {r : XmlAttributes} {a : XAttr} : xmlAttribute env r a = .panic ↔ Strange a := by
  have h0 := xml_ne_rdf
  unfold xmlAttribute Strange IsRdf valueToIri
  split
  · rename_i h
    have : ¬a.name.ns = some rdfTable.ns := fun e => h0 (h.symm.trans e)
    split
    · simp [Res.bind_isPanic, Res.ofOption_calm, this]
    · split
      · simp [Res.bind_isPanic, Res.ofOption_calm, this]
      · simp [this]
  · split
    · rename_i h
      split
      · rename_i h1; simp [Res.bind_isPanic, Res.ofOption_calm, h1]
      · split
        · rename_i h1; simp [h1]
        · split
          · rename_i h1; simp [h1]
          · split
            · rename_i h1; simp [Res.bind_isPanic, Res.ofOption_calm, h1]
            · split
              · rename_i h1
                simp only [h, h1, true_and]
                split
                · rename_i h2; simp [h2]
                · split
                  · rename_i h2; simp [h2]
                  · split
                    · rename_i h2; simp [h2]
                    · rename_i h2 h3 h4; simp [h2, h3, h4]
              · rename_i h1; simp [h1]
    · rename_i h; simp [h]

/-- What the attributes read so far say of the subject. -/
def SubjectSaid : Option XAttr → Option XmlSubject → Prop
  | none, none => True
  | some a, some (.resource _) => a.name.loc = str! "about"
  | some a, some (.blankNamed b) => a.name.loc = str! "nodeID" ∧ a.value = b
  | some a, some (.relative s) => a.name.loc = str! "ID" ∧ a.value = s
  | _, _ => False

/-- What they say of the parse type. -/
def ParseSaid : Option Str → Option ParseType → Prop
  | none, none => True
  | some s, some .xmlLiteral => s = str! "Literal"
  | some s, some .resource => s = str! "Resource"
  | some s, some .collection => s = str! "Collection"
  | _, _ => False

/-- What is the same for one attribute that is read. -/
structure AttrRead (env : ReadEnv) (a : XAttr) (r r' : XmlAttributes) : Prop where
  fine : ¬Refused env a ∧ ¬Strange a
  inner : r'.inner = r.inner ++ propertyAttributes [a]
  subject : ∀ x, SubjectSaid x r.subject → SubjectSaid ((lastSubject [a]).or x) r'.subject
  parse : ∀ x, ParseSaid x r.parseType → ParseSaid ((lastParseType [a]).or x) r'.parseType
  resource : r'.resource.isSome = true ↔ r.resource.isSome = true ∨ IsRdf (str! "resource") a

theorem xmlAttribute_read {r r' : XmlAttributes} {a : XAttr} (h : xmlAttribute env r a = .ok r') : AttrRead env a r r' := by
  have h0 := xml_ne_rdf
  have hs : ¬Strange a := fun hs => by rw [xmlAttribute_panic.2 hs] at h; cases h
  have dd : (str! "base") ≠ (str! "lang") := by decide
  have da : str! "about" ≠ str! "nodeID" ∧ str! "about" ≠ str! "ID" ∧ str! "about" ≠ str! "resource" ∧ str! "about" ≠ str! "parseType" := by decide
  have dn : str! "nodeID" ≠ str! "about" ∧ str! "nodeID" ≠ str! "ID" ∧ str! "nodeID" ≠ str! "resource" ∧ str! "nodeID" ≠ str! "parseType" := by decide
  have di : str! "ID" ≠ str! "about" ∧ str! "ID" ≠ str! "nodeID" ∧ str! "ID" ≠ str! "resource" ∧ str! "ID" ≠ str! "parseType" := by decide
  have dr : str! "resource" ≠ str! "about" ∧ str! "resource" ≠ str! "nodeID" ∧ str! "resource" ≠ str! "ID" ∧ str! "resource" ≠ str! "parseType" := by decide
  have dp : str! "parseType" ≠ str! "about" ∧ str! "parseType" ≠ str! "nodeID" ∧ str! "parseType" ≠ str! "ID" ∧ str! "parseType" ≠ str! "resource" := by decide
  unfold xmlAttribute at h
  split at h
  · rename_i hx
    have hr : ¬a.name.ns = some rdfTable.ns := fun e => h0 (hx.symm.trans e)
    have e1 : lastSubject [a] = none := by simp [lastSubject, List.filter_cons, hr]
    have e2 : lastParseType [a] = none := by simp [lastParseType, List.filter_cons, hr]
    have e3 : propertyAttributes [a] = [] := by simp [propertyAttributes, List.filter_cons, hx]
    have e4 (s : Str) : ¬IsRdf s a := fun h => hr h.1
    split at h
    · rename_i hb
      obtain ⟨i, hi, e⟩ := Res.bind_isOk.1 h
      cases e
      have hi := Res.ofOption_isOk.1 hi
      exact ⟨⟨by simp [Refused, IsXml, hb, hi, e4], hs⟩, by simp [e3], by simp [e1], by simp [e2], by simp [e4]⟩
    · rename_i hb
      split at h
      · rename_i hl
        obtain ⟨i, hi, e⟩ := Res.bind_isOk.1 h
        cases e
        have hi := Res.ofOption_isOk.1 hi
        exact ⟨⟨by simp [Refused, IsXml, hb, hi, e4], hs⟩, by simp [e3], by simp [e1], by simp [e2], by simp [e4]⟩
      · rename_i hl
        cases h
        exact ⟨⟨by simp [Refused, IsXml, hb, hl, e4], hs⟩, by simp [e3], by simp [e1], by simp [e2], by simp [e4]⟩
  · rename_i hx
    have e0 (s : Str) : ¬IsXml s a := fun h => hx h.1
    split at h
    · rename_i hr
      have e3 : propertyAttributes [a] = [] := by simp [propertyAttributes, List.filter_cons, hr]
      split at h
      · rename_i h1
        obtain ⟨i, hi, e⟩ := Res.bind_isOk.1 h
        cases e
        have hi := Res.ofOption_isOk.1 hi
        have e1 : lastSubject [a] = some a := by simp [lastSubject, List.filter_cons, hr, h1]
        have e2 : lastParseType [a] = none := by simp [lastParseType, List.filter_cons, hr, h1, da]
        exact ⟨⟨by simp [Refused, e0, hi], hs⟩, by simp [e3], by simp [e1, SubjectSaid, h1], by simp [e2], by simp [IsRdf, h1, da]⟩
      · rename_i h1
        split at h
        · rename_i h2
          cases h
          have e1 : lastSubject [a] = some a := by simp [lastSubject, List.filter_cons, hr, h2]
          have e2 : lastParseType [a] = none := by simp [lastParseType, List.filter_cons, hr, h2, dn]
          exact ⟨⟨by simp [Refused, e0, IsRdf, h2, dn], hs⟩, by simp [e3], by simp [e1, SubjectSaid, h2], by simp [e2], by simp [IsRdf, h2, dn]⟩
        · rename_i h2
          split at h
          · rename_i h3
            cases h
            have e1 : lastSubject [a] = some a := by simp [lastSubject, List.filter_cons, hr, h3]
            have e2 : lastParseType [a] = none := by simp [lastParseType, List.filter_cons, hr, h3, di]
            exact ⟨⟨by simp [Refused, e0, IsRdf, h3, di], hs⟩, by simp [e3], by simp [e1, SubjectSaid, h3], by simp [e2], by simp [IsRdf, h3, di]⟩
          · rename_i h3
            have e1 : lastSubject [a] = none := by simp [lastSubject, List.filter_cons, h1, h2, h3]
            split at h
            · rename_i h4
              obtain ⟨i, hi, e⟩ := Res.bind_isOk.1 h
              cases e
              have hi := Res.ofOption_isOk.1 hi
              have e2 : lastParseType [a] = none := by simp [lastParseType, List.filter_cons, hr, h4, dr]
              exact ⟨⟨by simp [Refused, e0, hi], hs⟩, by simp [e3], by simp [e1], by simp [e2], by simp [IsRdf, hr, h4]⟩
            · rename_i h4
              have e5 : ¬IsRdf (str! "resource") a := fun h => h4 h.2
              have e6 : ¬IsRdf (str! "about") a := fun h => h1 h.2
              split at h
              · rename_i h5
                have e2 : lastParseType [a] = some a.value := by simp [lastParseType, List.filter_cons, hr, h5]
                split at h
                · rename_i h6
                  cases h
                  exact ⟨⟨by simp [Refused, e0, e5, e6], hs⟩, by simp [e3], by simp [e1], by simp [e2, ParseSaid, h6], by simp [e5]⟩
                · split at h
                  · rename_i h6
                    cases h
                    exact ⟨⟨by simp [Refused, e0, e5, e6], hs⟩, by simp [e3], by simp [e1], by simp [e2, ParseSaid, h6], by simp [e5]⟩
                  · split at h
                    · rename_i h6
                      cases h
                      exact ⟨⟨by simp [Refused, e0, e5, e6], hs⟩, by simp [e3], by simp [e1], by simp [e2, ParseSaid, h6], by simp [e5]⟩
                    · cases h
              · rename_i h5
                cases h
                have e2 : lastParseType [a] = none := by simp [lastParseType, List.filter_cons, h5]
                exact ⟨⟨by simp [Refused, e0, e5, e6], hs⟩, by simp [e3], by simp [e1], by simp [e2], by simp [e5]⟩
    · rename_i hr
      cases h
      have e1 : lastSubject [a] = none := by simp [lastSubject, List.filter_cons, hr]
      have e2 : lastParseType [a] = none := by simp [lastParseType, List.filter_cons, hr]
      have e3 : propertyAttributes [a] = [a] := by simp [propertyAttributes, List.filter_cons, hx, hr]
      have e4 (s : Str) : ¬IsRdf s a := fun h => hr h.1
      exact ⟨⟨by simp [Refused, e0, e4], hs⟩, by simp [e3], by simp [e1], by simp [e2], by simp [e4]⟩

theorem xmlAttribute_err {r : XmlAttributes} {a : XAttr} (h : xmlAttribute env r a = .err) : Refused env a := by
  unfold xmlAttribute valueToIri at h
  have of {x : Option Iri} {f : Iri → Res XmlAttributes} (hf : ∀ i, f i ≠ .err) (h : (Res.ofOption x).bind f = .err) : x = none := by
    cases x with
    | none => rfl
    | some i => exact absurd h (hf i)
  split at h
  · rename_i hx
    split at h
    · rename_i hb
      exact .inl ⟨.inl ⟨hx, hb⟩, of (fun _ => by simp) h⟩
    · split at h
      · rename_i hl
        refine .inr ⟨⟨hx, hl⟩, ?_⟩
        cases e : env.lang a.value with
        | none => rfl
        | some t => rw [e] at h; cases h
      · cases h
  · split at h
    · rename_i hr
      split at h
      · rename_i h1; exact .inl ⟨.inr (.inl ⟨hr, h1⟩), of (fun _ => by simp) h⟩
      · split at h
        · cases h
        · split at h
          · cases h
          · split at h
            · rename_i h1; exact .inl ⟨.inr (.inr ⟨hr, h1⟩), of (fun _ => by simp) h⟩
            · split at h
              · split at h
                · cases h
                · split at h
                  · cases h
                  · split at h <;> cases h
              · cases h
    · cases h

theorem refused_not_strange {a : XAttr} (h : Refused env a) : ¬Strange a := by
  have h0 := xml_ne_rdf
  rintro ⟨⟨h1, h2⟩, -⟩
  rcases h with ⟨⟨h3, -⟩ | ⟨-, h3⟩ | ⟨-, h3⟩, -⟩ | ⟨⟨h3, -⟩, -⟩
  · exact h0 (h3.symm.trans h1)
  · exact absurd (h3.symm.trans h2) (by decide)
  · exact absurd (h3.symm.trans h2) (by decide)
  · exact h0 (h3.symm.trans h1)

theorem lastSubject_append (l r : List XAttr) : lastSubject (l ++ r) = (lastSubject r).or (lastSubject l) := by
  simp [lastSubject, List.filter_append, List.getLast?_append]

theorem lastParseType_append (l r : List XAttr) : lastParseType (l ++ r) = (lastParseType r).or (lastParseType l) := by
  simp only [lastParseType, List.filter_append, List.getLast?_append]
  cases (r.filter _).getLast? <;> simp

/-- What is the same for all attributes that are read. -/
structure AttrsRead (env : ReadEnv) (as : List XAttr) (r r' : XmlAttributes) : Prop where
  fine : AttributesRead env as
  inner : r'.inner = r.inner ++ propertyAttributes as
  subject : ∀ x, SubjectSaid x r.subject → SubjectSaid ((lastSubject as).or x) r'.subject
  parse : ∀ x, ParseSaid x r.parseType → ParseSaid ((lastParseType as).or x) r'.parseType
  resource : r'.resource.isSome = true ↔ r.resource.isSome = true ∨ ∃ a ∈ as, IsRdf (str! "resource") a

theorem xmlAttributesFrom_read {as : List XAttr} {r r' : XmlAttributes} (h : xmlAttributesFrom env r as = .ok r') : AttrsRead env as r r' := by
  induction as generalizing r with
  | nil =>
    simp only [xmlAttributesFrom, Res.ok.injEq] at h
    subst h
    exact ⟨fun a ha => by (cases ha), by simp [propertyAttributes], fun x hx => by simpa [lastSubject] using hx,
      fun x hx => by simpa [lastParseType] using hx, by simp⟩
  | cons a as ih =>
    obtain ⟨m, h1, h2⟩ := Res.bind_isOk.1 h
    have h1 := xmlAttribute_read h1
    have h2 := ih h2
    have e (a : XAttr) (as : List XAttr) : a :: as = [a] ++ as := rfl
    refine ⟨fun b hb => ?_, ?_, fun x hx => ?_, fun x hx => ?_, ?_⟩
    · rcases List.mem_cons.1 hb with rfl | hb
      · exact h1.fine
      · exact h2.fine b hb
    · rw [h2.inner, h1.inner, e a as]
      simp only [propertyAttributes, List.filter_append, List.append_assoc]
    · have := h2.subject _ (h1.subject x hx)
      rwa [e a as, lastSubject_append, Option.or_assoc]
    · have := h2.parse _ (h1.parse x hx)
      rwa [e a as, lastParseType_append, Option.or_assoc]
    · rw [h2.resource, h1.resource]
      simp only [List.mem_cons, exists_eq_or_imp, or_assoc]

theorem xmlAttributesFrom_panic {as : List XAttr} {r : XmlAttributes} : xmlAttributesFrom env r as = .panic ↔ AttributesStrange env as := by
  induction as generalizing r with
  | nil => simp [xmlAttributesFrom, AttributesStrange]
  | cons a as ih =>
    simp only [xmlAttributesFrom, Res.bind_isPanic]
    constructor
    · rintro (h | ⟨m, h1, h2⟩)
      · exact ⟨[], a, as, rfl, fun b hb => by (cases hb), xmlAttribute_panic.1 h⟩
      · obtain ⟨l, b, s, rfl, h3, h4⟩ := ih.1 h2
        refine ⟨a :: l, b, s, rfl, fun c hc => ?_, h4⟩
        rcases List.mem_cons.1 hc with rfl | hc
        · exact (xmlAttribute_read h1).fine
        · exact h3 c hc
    · rintro ⟨l, b, s, e, h3, h4⟩
      cases l with
      | nil =>
        simp only [List.nil_append, List.cons.injEq] at e
        obtain ⟨rfl, rfl⟩ := e
        exact .inl (xmlAttribute_panic.2 h4)
      | cons c l =>
        simp only [List.cons_append, List.cons.injEq] at e
        obtain ⟨rfl, rfl⟩ := e
        have h5 := h3 a (by simp)
        cases h6 : xmlAttribute env r a with
        | panic => exact .inl rfl
        | err => exact absurd (xmlAttribute_err h6) h5.1
        | ok m => exact .inr ⟨m, rfl, ih.2 ⟨l, b, s, rfl, fun d hd => h3 d (by simp [hd]), h4⟩⟩

theorem xmlAttributesFrom_taken {as : List XAttr} {r : XmlAttributes} (h : AttributesRead env as) : ∃ r', xmlAttributesFrom env r as = .ok r' := by
  induction as generalizing r with
  | nil => exact ⟨r, rfl⟩
  | cons a as ih =>
    have h5 := h a (by simp)
    cases h6 : xmlAttribute env r a with
    | panic => exact absurd (xmlAttribute_panic.1 h6) h5.2
    | err => exact absurd (xmlAttribute_err h6) h5.1
    | ok m =>
      obtain ⟨r', h7⟩ := ih (r := m) fun d hd => h d (by simp [hd])
      exact ⟨r', by simp only [xmlAttributesFrom, h6, Res.bind, h7]⟩

/-- What is known of the attributes of an element that are read. -/
theorem xmlAttributes_known {as : List XAttr} {r : XmlAttributes} (h : xmlAttributes env as = .ok r) :
    AttributesRead env as ∧ r.inner = propertyAttributes as ∧ SubjectSaid (lastSubject as) r.subject ∧
    ParseSaid (lastParseType as) r.parseType ∧ (r.resource.isSome = true ↔ ∃ a ∈ as, IsRdf (str! "resource") a) := by
  have h := xmlAttributesFrom_read h
  refine ⟨h.fine, by simpa using h.inner, by simpa using h.subject none trivial, by simpa using h.parse none trivial, ?_⟩
  simpa using h.resource

theorem xmlAttributes_panic {as : List XAttr} : xmlAttributes env as = .panic ↔ AttributesStrange env as := xmlAttributesFrom_panic

theorem xmlAttributes_taken {as : List XAttr} (h : AttributesRead env as) : ∃ r, xmlAttributes env as = .ok r := xmlAttributesFrom_taken h

theorem nameToIri_panic {n : XName} : nameToIri env n = .panic ↔ n.ns = none := by
  unfold nameToIri
  cases n.ns <;> simp [Res.ofOption_calm]

theorem nameToIri_named {n : XName} : (∃ i, nameToIri env n = .ok i) ↔ Named env n := by
  unfold nameToIri Named
  cases n.ns <;> simp [Res.ofOption_isOk, Option.isSome_iff_exists]

theorem xmlPropertyAttributes_panic {s : Subject} {st : XmlState} {as : List XAttr} :
    xmlPropertyAttributes env s st as = .panic ↔ ∃ l a r, as = l ++ a :: r ∧ (∀ b ∈ l, Named env b.name) ∧ a.name.ns = none := by
  induction as generalizing st with
  | nil => simp [xmlPropertyAttributes]
  | cons a as ih =>
    simp only [xmlPropertyAttributes, Res.bind_isPanic, nameToIri_panic]
    constructor
    · rintro (h | ⟨i, h1, h2⟩)
      · exact ⟨[], a, as, rfl, fun b hb => by (cases hb), h⟩
      · obtain ⟨l, b, r, rfl, h3, h4⟩ := ih.1 h2
        refine ⟨a :: l, b, r, rfl, fun c hc => ?_, h4⟩
        rcases List.mem_cons.1 hc with rfl | hc
        · exact nameToIri_named.1 ⟨i, h1⟩
        · exact h3 c hc
    · rintro ⟨l, b, r, e, h3, h4⟩
      cases l with
      | nil =>
        simp only [List.nil_append, List.cons.injEq] at e
        obtain ⟨rfl, rfl⟩ := e
        exact .inl h4
      | cons c l =>
        simp only [List.cons_append, List.cons.injEq] at e
        obtain ⟨rfl, rfl⟩ := e
        obtain ⟨i, hi⟩ := nameToIri_named.2 (h3 a (by simp))
        exact .inr ⟨i, hi, ih.2 ⟨l, b, r, rfl, fun d hd => h3 d (by simp [hd]), h4⟩⟩

theorem xmlSubjectNode_panic {gen : Nat → Str} {base : Option Iri} {n : Nat} {x : Option XAttr} {s : Option XmlSubject} (h : SubjectSaid x s) :
    xmlSubjectNode env sty gen base n s = .panic ↔ base = none ∧ ∃ a, x = some a ∧ a.name.loc = str! "ID" := by
  have d1 : str! "about" ≠ str! "ID" := by decide
  have d2 : str! "nodeID" ≠ str! "ID" := by decide
  cases s with
  | none => cases x <;> simp_all [SubjectSaid, xmlSubjectNode]
  | some s =>
    cases x with
    | none => cases s <;> simp [SubjectSaid] at h
    | some a =>
      cases s with
      | resource i => simp only [SubjectSaid] at h; simp [xmlSubjectNode, h, d1]
      | blankNamed b =>
        simp only [SubjectSaid] at h
        simp [xmlSubjectNode, h.1, d2, Res.bind_isPanic, Res.ofOption_calm]
      | relative t =>
        simp only [SubjectSaid] at h
        cases base <;> simp [xmlSubjectNode, h.1, valueToIri, Res.bind_isPanic, Res.ofOption_calm]

theorem xmlSubjectNode_made {gen : Nat → Str} {base : Option Iri} {n : Nat} {as : List XAttr} {s : Option XmlSubject}
    (h : SubjectSaid (lastSubject as) s) :
    (∃ r, xmlSubjectNode env sty gen base n s = .ok r) ↔ SubjectMade env sty base as := by
  have d1 : str! "about" ≠ str! "ID" := by decide
  have d2 : str! "nodeID" ≠ str! "ID" := by decide
  have d3 : str! "about" ≠ str! "nodeID" := by decide
  unfold SubjectMade
  generalize lastSubject as = x at h
  cases s with
  | none => cases x <;> simp_all [SubjectSaid, xmlSubjectNode]
  | some s =>
    cases x with
    | none => cases s <;> simp [SubjectSaid] at h
    | some a =>
      cases s with
      | resource i => simp only [SubjectSaid] at h; simp [xmlSubjectNode, h, d1, d3]
      | blankNamed b =>
        simp only [SubjectSaid] at h
        simp only [xmlSubjectNode, Res.bind_isOk, Res.ofOption_isOk, Option.some.injEq, forall_eq', h.1, h.2, d2, false_implies, and_true,
          true_implies, Option.isSome_iff_exists]
        grind
      | relative t =>
        simp only [SubjectSaid] at h
        have d2' : str! "ID" ≠ str! "nodeID" := d2.symm
        cases base with
        | none => simp [xmlSubjectNode, h.1]
        | some b =>
          simp only [xmlSubjectNode, valueToIri, Res.bind_isOk, Res.ofOption_isOk, Option.some.injEq, forall_eq', h.1, h.2, d2', false_implies,
            true_and, true_implies, Option.isSome_iff_exists, exists_eq_left']
          grind

theorem xmlNodeElement_panic {gen : Nat → Str} {base : Option Iri} {st : XmlState} {name : XName} {as : List XAttr} :
    xmlNodeElement env sty gen base st name as = .panic ↔ NodePanics env sty base name as := by
  have typed (st' : XmlState) (s : Subject) : (if name = ⟨some rdfTable.ns, str! "Description"⟩ then Res.ok st'
      else (nameToIri env name).bind fun t => .ok (st'.insert s rdfType (.res t))) = .panic ↔ name.ns = none := by
    split
    · rename_i h; simp [h]
    · simp [Res.bind_isPanic, nameToIri_panic]
  have typed' (st' : XmlState) (s : Subject) : (∃ r, (if name = ⟨some rdfTable.ns, str! "Description"⟩ then Res.ok st'
      else (nameToIri env name).bind fun t => .ok (st'.insert s rdfType (.res t))) = .ok r) ↔
      (name = ⟨some rdfTable.ns, str! "Description"⟩ ∨ Named env name) := by
    split
    · rename_i h; simp [h]
    · rename_i h
      rw [← nameToIri_named]
      simp only [h, false_or, Res.bind_isOk]
      grind
  unfold xmlNodeElement
  rw [Res.bind_isPanic]
  constructor
  · rintro (h | ⟨a, h1, h⟩)
    · exact .parseType (xmlAttributes_panic.1 h)
    · obtain ⟨k1, k2, k3, k4, k5⟩ := xmlAttributes_known h1
      rcases Res.bind_isPanic.1 h with h | ⟨sn, h2, h⟩
      · obtain ⟨hb, x, hx, hi⟩ := (xmlSubjectNode_panic k3).1 h
        exact .noBase k1 x hx hi hb
      · have hm := (xmlSubjectNode_made k3).1 ⟨sn, h2⟩
        rcases Res.bind_isPanic.1 h with h | ⟨st', h3, h⟩
        · exact .type k1 hm ((typed _ _).1 h)
        · have hn := (typed' _ _).1 ⟨st', h3⟩
          rcases Res.bind_isPanic.1 h with h | ⟨_, _, h⟩
          · rw [k2] at h
            obtain ⟨l, b, r, e, hl, hb⟩ := xmlPropertyAttributes_panic.1 h
            exact .property k1 hm hn l b r e hl hb
          · cases h
  · intro h
    cases h with
    | parseType h => exact .inl (xmlAttributes_panic.2 h)
    | noBase h a ha hi hb =>
      obtain ⟨r, hr⟩ := xmlAttributes_taken h
      obtain ⟨k1, k2, k3, k4, k5⟩ := xmlAttributes_known hr
      exact .inr ⟨r, hr, Res.bind_isPanic.2 (.inl ((xmlSubjectNode_panic k3).2 ⟨hb, a, ha, hi⟩))⟩
    | type h hs hn =>
      obtain ⟨r, hr⟩ := xmlAttributes_taken h
      obtain ⟨k1, k2, k3, k4, k5⟩ := xmlAttributes_known hr
      obtain ⟨sn, h2⟩ := (xmlSubjectNode_made (gen := gen) (n := st.count) k3).2 hs
      exact .inr ⟨r, hr, Res.bind_isPanic.2 (.inr ⟨sn, h2, Res.bind_isPanic.2 (.inl ((typed _ _).2 hn))⟩)⟩
    | property h hs hn l b r' e hl hb =>
      obtain ⟨r, hr⟩ := xmlAttributes_taken h
      obtain ⟨k1, k2, k3, k4, k5⟩ := xmlAttributes_known hr
      obtain ⟨sn, h2⟩ := (xmlSubjectNode_made (gen := gen) (n := st.count) k3).2 hs
      obtain ⟨st', h3⟩ := (typed' { st with count := sn.2 } sn.1).2 hn
      refine .inr ⟨r, hr, Res.bind_isPanic.2 (.inr ⟨sn, h2, Res.bind_isPanic.2 (.inr ⟨st', h3, Res.bind_isPanic.2 (.inl ?_)⟩)⟩)⟩
      rw [k2]
      exact xmlPropertyAttributes_panic.2 ⟨l, b, r', e, hl, hb⟩

theorem xmlPropertyElement_panic {base : Option Iri} {s : Subject} {st : XmlState} {name : XName} {as : List XAttr} :
    xmlPropertyElement env base s st name as = .panic ↔ PropertyPanics env name as := by
  unfold xmlPropertyElement
  rw [Res.bind_isPanic]
  constructor
  · rintro (h | ⟨a, h1, h⟩)
    · exact .parseType (xmlAttributes_panic.1 h)
    · obtain ⟨k1, k2, k3, k4, k5⟩ := xmlAttributes_known h1
      cases e : a.resource with
      | some i =>
        simp only [e, Res.bind_isPanic, nameToIri_panic] at h
        rcases h with h | ⟨_, _, h⟩
        · exact .resource k1 (k5.1 (by simp [e])) h
        · cases h
      | none =>
        have hr : ¬∃ a ∈ as, IsRdf (str! "resource") a := fun hr => by have := k5.2 hr; simp [e] at this
        simp only [e] at h
        cases e' : a.parseType with
        | none => simp [e'] at h
        | some t =>
          cases t <;> simp [e'] at h
          rw [e'] at k4
          cases e'' : lastParseType as with
          | none => simp [e'', ParseSaid] at k4
          | some v =>
            rw [e''] at k4
            simp only [ParseSaid] at k4
            exact .collection k1 hr (by rw [e'', k4])
  · intro h
    cases h with
    | parseType h => exact .inl (xmlAttributes_panic.2 h)
    | resource h hr hn =>
      obtain ⟨r, hr'⟩ := xmlAttributes_taken h
      obtain ⟨k1, k2, k3, k4, k5⟩ := xmlAttributes_known hr'
      obtain ⟨i, hi⟩ := Option.isSome_iff_exists.1 (k5.2 hr)
      refine .inr ⟨r, hr', ?_⟩
      simp only [hi]
      exact Res.bind_isPanic.2 (.inl (nameToIri_panic.2 hn))
    | collection h hr hp =>
      obtain ⟨r, hr'⟩ := xmlAttributes_taken h
      obtain ⟨k1, k2, k3, k4, k5⟩ := xmlAttributes_known hr'
      have hi : r.resource = none := by
        cases e : r.resource with
        | none => rfl
        | some i => exact absurd (k5.1 (by simp [e])) hr
      have dl : str! "Collection" ≠ str! "Literal" := by decide
      have dr : str! "Collection" ≠ str! "Resource" := by decide
      rw [hp] at k4
      refine .inr ⟨r, hr', ?_⟩
      simp only [hi]
      cases e' : r.parseType with
      | none => simp [e', ParseSaid] at k4
      | some t =>
        rw [e'] at k4
        cases t with
        | xmlLiteral => exact absurd k4 dl
        | resource => exact absurd k4 dr
        | collection => rfl

/-- A step panics just for these events. -/
theorem xmlStep_panic {gen : Nat → Str} {emit : Emit} {stack : List XmlFrame} {st : XmlState} {ev : XmlIn} :
    xmlStep env sty gen emit stack st ev = .panic ↔ EventPanics env sty emit stack ev := by
  constructor
  · intro h
    unfold xmlStep at h
    split at h
    · split at h <;> try (cases h)
      rcases Res.bind_isPanic.1 h with h | ⟨a, _, h⟩
      · exact .document _ _ (xmlAttributes_panic.1 h)
      · split at h <;> cases h
    · split at h <;> try (cases h)
      rcases Res.bind_isPanic.1 h with h | ⟨a, _, h⟩
      · exact .node _ _ _ _ (xmlNodeElement_panic.1 h)
      · cases h
    · split at h <;> try (cases h)
      split at h
      · cases h
      · rename_i hc
        simp only [Bool.not_eq_true] at hc
        subst hc
        rcases Res.bind_isPanic.1 h with h | ⟨a, _, h⟩
        · exact .property _ _ _ _ _ (xmlPropertyElement_panic.1 h)
        · cases h
    · split at h <;> try (cases h)
      · split at h
        · cases h
        · rename_i hc
          simp only [Bool.not_eq_true] at hc
          subst hc
          rcases Res.bind_isPanic.1 h with h | ⟨a, _, h⟩
          · exact .inside _ _ _ _ _ _ _ _ _ (xmlAttributes_panic.1 h)
          · cases h
      · rcases Res.bind_isPanic.1 h with h | ⟨a, _, h⟩
        · exact .unnamed _ _ _ _ _ _ _ _ _ (nameToIri_panic.1 h)
        · cases h
      · split at h <;> cases h
      · split at h <;> cases h
    · split at h <;> try (cases h)
      split at h
      · exact .closed _ _ _ _ _
      · split at h
        · rename_i he; exact .notWritten _ _ _ _ _ he
        · rename_i t he
          rcases Res.bind_isPanic.1 h with h | ⟨a, _, h⟩
          · exact .literalUnnamed _ _ _ _ _ t he (nameToIri_panic.1 h)
          · cases h
      · cases h
  · intro h
    cases h with
    | document name as h => exact Res.bind_isPanic.2 (.inl (xmlAttributes_panic.2 h))
    | node base rest name as h => exact Res.bind_isPanic.2 (.inl (xmlNodeElement_panic.2 h))
    | property base s rest name as h => exact Res.bind_isPanic.2 (.inl (xmlPropertyElement_panic.2 h))
    | inside base s name at' content e rest n as h => exact Res.bind_isPanic.2 (.inl (xmlAttributes_panic.2 h))
    | unnamed base s name at' content e c rest n h => exact Res.bind_isPanic.2 (.inl (nameToIri_panic.2 h))
    | closed s name content rest n => rfl
    | notWritten s name content rest n h => simp only [xmlStep, h]
    | literalUnnamed s name content rest n t h hn =>
      simp only [xmlStep, h]
      exact Res.bind_isPanic.2 (.inl (nameToIri_panic.2 hn))

end Rdftk
