import Verif.Spec.XmlRead
import Verif.Lemmas.XmlRead
import Verif.Lemmas.Xml

/-! Reading documents of RDF/XML with node elements, property elements and nothing deeper. -/

namespace Rdftk

open Spec

section
variable {env : ReadEnv} {sty : IriStyle} {gen : Nat → Str} {emit : Emit}

theorem rdfNs_table : rdfTable.ns = rdfNs := rdfTable_ns

theorem isXmlAttr_iff {a : XAttr} : isXmlAttr a = true ↔ a.name.ns = some xmlNamespace := by
  simp [isXmlAttr, xmlNamespace]

theorem xname_ext {x y : XName} (h1 : x.ns = y.ns) (h2 : x.loc = y.loc) : x = y := by
  cases x; cases y; simp_all

theorem xmlX_ns (s : Str) : (xmlX s).ns = some xmlNamespace := rfl

theorem valueToIri_ok {v : Str} (h : IriRead env ⟨v⟩) : valueToIri env v = .ok ⟨v⟩ := by
  have := fromStr_fmt h .bare
  simp only [Iri.fmt] at this
  simp [valueToIri, this, Res.ofOption]

/-- An attribute of XML that can be read changes the base and the language only. -/
theorem xmlAttribute_xml {r : XmlAttributes} {a : XAttr} (hx : isXmlAttr a = true) (h : ReadAttr env a) :
    ∃ b, xmlAttribute env r a = .ok { r with
      base := b, language := if a.name = xmlX (str! "lang") then some a.value else r.language } := by
  have hns := isXmlAttr_iff.1 hx
  unfold ReadAttr at h
  rw [if_pos hx] at h
  unfold xmlAttribute
  rw [if_pos hns]
  by_cases h1 : a.name.loc = str! "base"
  · have hn : a.name = xmlX (str! "base") := xname_ext hns h1
    have hne : ¬a.name = xmlX (str! "lang") := by rw [hn]; decide +kernel
    rw [if_pos h1, valueToIri_ok (h.1 hn), if_neg hne]
    exact ⟨_, rfl⟩
  · rw [if_neg h1]
    by_cases h2 : a.name.loc = str! "lang"
    · have hn : a.name = xmlX (str! "lang") := xname_ext hns h2
      rw [if_pos h2, (h.2 hn).2, if_pos hn]
      exact ⟨r.base, rfl⟩
    · rw [if_neg h2, if_neg (fun hn => h2 (by rw [hn]; rfl))]
      exact ⟨r.base, rfl⟩

/-- An attribute that is neither of XML nor of RDF is kept for later. -/
theorem xmlAttribute_inner {r : XmlAttributes} {a : XAttr} (hx : isXmlAttr a = false) (hr : a.name.ns ≠ some rdfNs) :
    xmlAttribute env r a = .ok { r with inner := r.inner ++ [a] } := by
  have : a.name.ns ≠ some xmlNamespace := fun h => by
    rw [isXmlAttr_iff.2 h] at hx; cases hx
  unfold xmlAttribute
  rw [if_neg this, rdfNs_table, if_neg hr]

/-- Attributes that are kept for later. -/
def keptAttr (a : XAttr) : Bool := !isXmlAttr a && a.name.ns != some rdfNs

/-- The attributes of an element whose attributes of RDF are all one. -/
theorem xmlAttributesFrom_node {σ : Option XmlSubject} {as : List XAttr} {r : XmlAttributes} (hl : noLang as = true)
    (h : ∀ a ∈ as, ReadAttr env a)
    (hs : ∀ a ∈ as, isXmlAttr a = false → a.name.ns = some rdfNs → ∀ r, xmlAttribute env r a = .ok { r with subject := σ }) :
    ∃ b, xmlAttributesFrom env r as = .ok { r with
      subject := if as.any (fun a => !isXmlAttr a && a.name.ns == some rdfNs) then σ else r.subject,
      base := b, inner := r.inner ++ as.filter keptAttr } := by
  induction as generalizing r with
  | nil => exact ⟨r.base, by simp [xmlAttributesFrom]⟩
  | cons a as ih =>
    have ih := fun r => ih (r := r) (by simp [noLang] at hl ⊢; exact hl.2) (fun a ha => h a (List.mem_cons_of_mem _ ha))
      (fun a ha => hs a (List.mem_cons_of_mem _ ha))
    unfold xmlAttributesFrom
    by_cases hx : isXmlAttr a = true
    · obtain ⟨b, hb⟩ := xmlAttribute_xml (r := r) hx (h a (List.mem_cons_self ..))
      have hne : ¬a.name = xmlX (str! "lang") := by simp [noLang] at hl; exact hl.1
      rw [if_neg hne] at hb
      obtain ⟨b', hb'⟩ := ih { r with base := b, language := r.language }
      refine ⟨b', ?_⟩
      rw [hb]
      simp only [Res.bind]
      rw [hb']
      simp [hx, keptAttr]
    · have hx : isXmlAttr a = false := by simpa using hx
      by_cases hr : a.name.ns = some rdfNs
      · obtain ⟨b', hb'⟩ := ih { r with subject := σ }
        refine ⟨b', ?_⟩
        rw [hs a (List.mem_cons_self ..) hx hr]
        simp only [Res.bind]
        rw [hb']
        simp [hx, hr, keptAttr]
      · obtain ⟨b', hb'⟩ := ih { r with inner := r.inner ++ [a] }
        refine ⟨b', ?_⟩
        rw [xmlAttribute_inner hx hr]
        simp only [Res.bind]
        rw [hb']
        simp [hx, hr, keptAttr]

/-- The attributes of an element that are all of XML. -/
theorem xmlAttributesFrom_xml {as : List XAttr} {r : XmlAttributes} (hx : as.all isXmlAttr = true)
    (h : ∀ a ∈ as, ReadAttr env a) {v : Option Str}
    (hv : ∀ a ∈ as, a.name = xmlX (str! "lang") → some a.value = v) :
    ∃ b, xmlAttributesFrom env r as = .ok { r with
      base := b, language := if as.any (fun a => a.name == xmlX (str! "lang")) then v else r.language } := by
  induction as generalizing r with
  | nil => exact ⟨r.base, by simp [xmlAttributesFrom]⟩
  | cons a as ih =>
    rw [List.all_cons, Bool.and_eq_true] at hx
    obtain ⟨b, hb⟩ := xmlAttribute_xml (r := r) hx.1 (h a (List.mem_cons_self ..))
    obtain ⟨b', hb'⟩ := ih (r := _) hx.2 (fun a ha => h a (List.mem_cons_of_mem _ ha))
      (fun a ha => hv a (List.mem_cons_of_mem _ ha))
    refine ⟨b', ?_⟩
    unfold xmlAttributesFrom
    rw [hb]
    simp only [Res.bind]
    rw [hb']
    by_cases hn : a.name = xmlX (str! "lang")
    · simp [hn, hv a (List.mem_cons_self ..) hn]
    · simp [hn]

theorem attr_some {n : XName} {as : List XAttr} {v : Str} (h : attr n as = some v) : ⟨n, v⟩ ∈ as := by
  unfold attr at h
  cases e : as.find? fun a => a.name == n with
  | none => rw [e] at h; cases h
  | some a =>
    rw [e] at h
    have h1 := List.mem_of_find?_eq_some e
    have h2 := List.find?_some e
    simp only [Option.map_some, Option.some.injEq] at h
    simp only [beq_iff_eq] at h2
    have : a = ⟨n, v⟩ := by cases a; simp_all
    exact this ▸ h1

theorem attr_none {n : XName} {as : List XAttr} (h : attr n as = none) : ∀ a ∈ as, a.name ≠ n := by
  intro a ha e
  unfold attr at h
  rw [Option.map_eq_none_iff, List.find?_eq_none] at h
  exact absurd (h a ha) (by simp [e])

theorem attr_unique {n : XName} {as : List XAttr} (hd : (as.map (·.name)).Nodup) {v : Str} (h : attr n as = some v) :
    ∀ a ∈ as, a.name = n → a.value = v := by
  intro a ha e
  have h1 := attr_some h
  have : a = ⟨n, v⟩ := by
    refine List.inj_on_of_nodup_map hd ha h1 e
  rw [this]

theorem still_literal {pr : Char → Bool} {t : Str} (h : StillText pr t) : escapeString pr t = t :=
  (escapeString_id_iff pr t).2 h

/-- Property attributes of literals are read as their statements. -/
theorem xmlPropertyAttributes_ok {c : XmlScope} (hc : c.lang = none) {s : Subject} {as : List XAttr} {ts : List Stmt}
    (h : AttrStmts c s as ts) (hk : ∀ a ∈ as, keptAttr a = true) (hr : ∀ a ∈ as, ReadAttr env a) {st : XmlState} :
    xmlPropertyAttributes env s st as = .ok { st with graph := ts.foldl Graph.insert st.graph } := by
  induction h generalizing st with
  | nil => rfl
  | @cons a as t ts ha _ ih =>
    have h1 := hk a (List.mem_cons_self ..)
    have h2 := hr a (List.mem_cons_self ..)
    have ih := @ih (fun a ha => hk a (List.mem_cons_of_mem _ ha)) (fun a ha => hr a (List.mem_cons_of_mem _ ha))
    simp only [keptAttr, Bool.and_eq_true, Bool.not_eq_true', bne_iff_ne, ne_eq] at h1
    cases ha with
    | type _ => exact absurd rfl h1.2
    | @literal n v p l hn hp hl =>
      unfold ReadAttr at h2
      rw [if_neg (by simp [h1.1]), if_neg (fun e => h1.2 (by rw [e]; rfl)), if_neg (fun e => h1.2 (by rw [e]; rfl))] at h2
      obtain ⟨h3, h4⟩ := h2
      have hp' : ∃ ns, n.ns = some ns ∧ ns ++ n.loc = p.text := by
        unfold propertyIri nameIri at hp
        split at hp
        · cases hp
        · cases e : n.ns with
          | none => rw [e] at hp; cases hp
          | some ns =>
            rw [e] at hp
            dsimp only at hp
            split at hp
            · cases hp
            · cases hp
              exact ⟨ns, rfl, rfl⟩
      have hpe : nameSpelled n = p := by
        obtain ⟨ns, e1, e2⟩ := hp'
        simp [nameSpelled, e1, e2]
      have hl' : l = Literal.plain env.pr v := by
        obtain ⟨l1, l2, l3⟩ := hl
        rw [hc] at l3
        cases l
        simp only [Option.map_eq_none_iff] at l1 l2 l3
        unfold Literal.plain
        rw [still_literal h4]
        simp_all
      unfold xmlPropertyAttributes
      rw [nameToIri_read (p := p) ⟨hpe ▸ h3, hp'⟩]
      simp only [Res.bind]
      rw [ih, hl']
      rfl

/-! ### Property elements -/

theorem twoLevel_inside {k : Nat} {e : XmlIn} {es : List XmlIn} (hi : isInside e = true)
    (h : twoLevel k (e :: es) = true) : twoLevel k es = true := by
  cases e with
  | start => cases hi
  | stop => cases hi
  | space s =>
    rcases k with _ | _ | _ | k <;> simp [twoLevel] at h ⊢ <;> first | exact h | exact h.2
  | _ => rcases k with _ | _ | _ | k <;> simpa [twoLevel] using h

theorem twoLevel_fills {k : Nat} {a es : List XmlIn} (ha : a.all isFill = true)
    (h : twoLevel k (a ++ es) = true) : twoLevel k es = true := by
  induction a with
  | nil => exact h
  | cons e a ih =>
    simp only [List.all_cons, Bool.and_eq_true] at ha
    refine ih ha.2 (twoLevel_inside ?_ h)
    cases e <;> first | rfl | cases ha.1

/-- The text of a literal is collected. -/
theorem xmlRun_texts {base : Option Iri} {s : Subject} {x : XName} {a : XmlAttributes} {rest : List XmlFrame}
    {body : List XmlIn} {t : Str} (ht : textsOf body = some t) {st : XmlState} {evs : List XmlIn} {p : Iri}
    (hx : NameRead env x p) {y : XName} {c : Str} {h : Bool} (h3 : twoLevel 3 (body ++ .stop y :: evs) = true) :
    xmlRun env sty gen emit (.object base s x a c false h :: rest) st (body ++ .stop y :: evs) =
      xmlRun env sty gen emit rest (st.insert s p (.lit (xmlContentLiteral env a (c ++ t)))) evs ∧
    twoLevel 2 evs = true := by
  induction body generalizing t c h with
  | nil =>
    cases ht
    refine ⟨?_, by simpa [twoLevel] using h3⟩
    rw [List.nil_append, xmlRun_ok (stack' := rest) (st' := st.insert s p (.lit (xmlContentLiteral env a c)))
      (by simp [xmlStep, nameToIri_read hx, Res.bind]), List.append_nil]
  | cons e body ih =>
    unfold textsOf at ht
    cases e1 : textOf e with
    | none => rw [e1] at ht; cases ht
    | some u =>
      cases e2 : textsOf body with
      | none => rw [e1, e2] at ht; cases ht
      | some w =>
        rw [e1, e2] at ht
        cases ht
        have hi : isInside e = true := by cases e <;> first | rfl | cases e1
        have h3' := twoLevel_inside hi (List.cons_append .. ▸ h3)
        rw [List.cons_append]
        cases e with
        | start => cases e1
        | stop => cases e1
        | bad => cases e1
        | chars v =>
          cases e1
          rw [xmlRun_ok (by rfl)]
          have := ih (c := c ++ u) (h := true) e2 h3'
          rwa [List.append_assoc] at this
        | cdata v =>
          cases e1
          rw [xmlRun_ok (by rfl)]
          have := ih (c := c ++ u) (h := true) e2 h3'
          rwa [List.append_assoc] at this
        | space v =>
          cases e1
          have hv : u = [] := by
            rw [List.cons_append] at h3
            simp [twoLevel] at h3
            exact h3.1
          subst hv
          rw [xmlRun_ok (by rfl)]
          exact ih e2 h3'
        | other =>
          cases e1
          rw [xmlRun_ok (by rfl)]
          exact ih e2 h3'

theorem still_append {pr : Char → Bool} {a b : Str} (ha : StillText pr a) (hb : StillText pr b) :
    StillText pr (a ++ b) := fun c hc => by
  rcases List.mem_append.1 hc with h | h
  · exact ha c h
  · exact hb c h

theorem still_texts {body : List XmlIn} {t : Str} (ht : textsOf body = some t) (hr : ∀ e ∈ body, ReadIn env e)
    (h3 : ∀ s, .space s ∈ body → s = []) : StillText env.pr t := by
  induction body generalizing t with
  | nil => cases ht; exact fun c hc => by cases hc
  | cons e body ih =>
    unfold textsOf at ht
    cases e1 : textOf e with
    | none => rw [e1] at ht; cases ht
    | some u =>
      cases e2 : textsOf body with
      | none => rw [e1, e2] at ht; cases ht
      | some w =>
        rw [e1, e2] at ht
        cases ht
        refine still_append ?_ (ih e2 (fun e he => hr e (List.mem_cons_of_mem _ he))
          (fun s hs => h3 s (List.mem_cons_of_mem _ hs)))
        have := hr e (List.mem_cons_self ..)
        cases e with
        | start => cases e1
        | stop => cases e1
        | bad => cases e1
        | chars v => cases e1; exact this
        | cdata v => cases e1; exact this
        | space v => cases e1; rw [h3 _ (List.mem_cons_self ..)]; exact fun c hc => by cases hc
        | other => cases e1; exact fun c hc => by cases hc

theorem twoLevel_space {body : List XmlIn} {t : Str} (ht : textsOf body = some t) {evs : List XmlIn}
    (h3 : twoLevel 3 (body ++ evs) = true) : ∀ s, .space s ∈ body → s = [] := by
  induction body generalizing t with
  | nil => intro s hs; cases hs
  | cons e body ih =>
    intro s hs
    unfold textsOf at ht
    cases e1 : textOf e with
    | none => rw [e1] at ht; cases ht
    | some u =>
      cases e2 : textsOf body with
      | none => rw [e1, e2] at ht; cases ht
      | some w =>
        have hi : isInside e = true := by cases e <;> first | rfl | cases e1
        have h3' := twoLevel_inside hi (List.cons_append .. ▸ h3)
        rcases List.mem_cons.1 hs with h | h
        · subst h
          rw [List.cons_append] at h3
          simp [twoLevel] at h3
          exact h3.1
        · exact ih e2 h3' s h

theorem property_spelled {n : XName} {p : Iri} (hp : propertyIri n = some p) :
    nameSpelled n = p ∧ ∃ ns, n.ns = some ns ∧ ns ++ n.loc = p.text := by
  have hp' : ∃ ns, n.ns = some ns ∧ ns ++ n.loc = p.text := by
    unfold propertyIri nameIri at hp
    split at hp
    · cases hp
    · cases e : n.ns with
      | none => rw [e] at hp; cases hp
      | some ns =>
        rw [e] at hp
        dsimp only at hp
        split at hp
        · cases hp
        · cases hp
          exact ⟨ns, rfl, rfl⟩
  refine ⟨?_, hp'⟩
  obtain ⟨ns, e1, e2⟩ := hp'
  simp [nameSpelled, e1, e2]

theorem name_spelled {n : XName} {p : Iri} (hp : nameIri n = some p) :
    nameSpelled n = p ∧ ∃ ns, n.ns = some ns ∧ ns ++ n.loc = p.text := by
  have hp' : ∃ ns, n.ns = some ns ∧ ns ++ n.loc = p.text := by
    unfold nameIri at hp
    cases e : n.ns with
    | none => rw [e] at hp; cases hp
    | some ns =>
      rw [e] at hp
      dsimp only at hp
      split at hp
      · cases hp
      · cases hp
        exact ⟨ns, rfl, rfl⟩
  refine ⟨?_, hp'⟩
  obtain ⟨ns, e1, e2⟩ := hp'
  simp [nameSpelled, e1, e2]

theorem property_read {x : XName} {p : Iri} (hp : propertyIri x = some p) {as : List XAttr}
    (hr : ReadIn env (.start x as)) : NameRead env x p := by
  obtain ⟨h1, h2⟩ := property_spelled hp
  refine ⟨?_, h2⟩
  rcases hr.1 with h | h | h
  · rw [h, show propertyIri (rdfX (str! "RDF")) = none by decide +kernel] at hp
    cases hp
  · rw [h, show propertyIri (rdfX (str! "Description")) = none by decide +kernel] at hp
    cases hp
  · exact h1 ▸ h

/-- Where the language of a property element comes from. -/
theorem xmlAttributes_property {as : List XAttr} (hx : as.all isXmlAttr = true) {x : XName}
    (hr : ReadIn env (.start x as)) {c : XmlScope} (hc : c.lang = none) :
    ∃ b, xmlAttributes env as = .ok { noAttributes with base := b, language := (c.enter as).lang } := by
  have hl : (c.enter as).lang = attr (xmlX (str! "lang")) as := by
    simp only [XmlScope.enter]
    cases e : attr (xmlX (str! "lang")) as with
    | none => exact hc
    | some v =>
      have h1 := hr.2.2 _ (attr_some e)
      unfold ReadAttr at h1
      rw [if_pos (isXmlAttr_iff.2 rfl)] at h1
      cases v with
      | nil => exact absurd rfl (h1.2 rfl).1
      | cons => rfl
  obtain ⟨b, hb⟩ := xmlAttributesFrom_xml (env := env) (r := noAttributes) (v := attr (xmlX (str! "lang")) as) hx hr.2.2 (by
    intro a ha hn
    cases e : attr (xmlX (str! "lang")) as with
    | none => exact absurd hn (attr_none e a ha)
    | some v => rw [attr_unique hr.2.1 e a ha hn])
  refine ⟨b, ?_⟩
  unfold xmlAttributes
  rw [hl]
  have : (if as.any (fun a => a.name == xmlX (str! "lang")) then attr (xmlX (str! "lang")) as
      else noAttributes.language) = attr (xmlX (str! "lang")) as := by
    split
    · rfl
    · rename_i h
      cases e : attr (xmlX (str! "lang")) as with
      | none => rfl
      | some v =>
        exact absurd (List.any_eq_true.2 ⟨_, attr_some e, by simp⟩) h
  rw [this] at hb
  exact hb

theorem xmlRun_propElt {c : XmlScope} (hc : c.lang = none) {s : Subject} {n n' : Nat} {a : List XmlIn} {T : List Stmt}
    (h : PropElt gen c s n a n' T) {base : Option Iri} {rest : List XmlFrame} {st : XmlState} {evs : List XmlIn}
    (h2 : twoLevel 2 (a ++ evs) = true) (hr : ∀ e ∈ a, ReadIn env e) :
    n' = n ∧ xmlRun env sty gen emit (.predicate base s false :: rest) st (a ++ evs) =
      xmlRun env sty gen emit (.predicate base s false :: rest) { st with graph := T.foldl Graph.insert st.graph } evs ∧
    twoLevel 2 evs = true := by
  have no : ∀ {as : List XAttr} {m : XName} {v : Str}, attr m as = some v → m.ns ≠ some xmlNamespace →
      as.all isXmlAttr = true → False := fun h h' h'' => by
    exact h' (isXmlAttr_iff.1 (List.all_eq_true.1 h'' _ (attr_some h)))
  have rn : ∀ t, (rdfX t).ns ≠ some xmlNamespace := fun t => by
    show some rdfNs ≠ some xmlNamespace
    decide +kernel
  cases h with
  | node hp ha h3 h4 h5 =>
    exfalso
    simp only [List.cons_append, List.append_assoc, twoLevel, Bool.and_eq_true] at h2
    have := twoLevel_fills h3 h2.2
    cases h5
    simp [twoLevel] at this
  | parseResource _ _ h5 _ =>
    simp only [List.cons_append, List.append_assoc, twoLevel, Bool.and_eq_true] at h2
    exact (no h5 (rn _) h2.1).elim
  | resource _ h5 _ _ _ =>
    simp only [List.cons_append, twoLevel, Bool.and_eq_true] at h2
    exact (no h5 (rn _) h2.1).elim
  | nodeId _ h5 _ _ _ =>
    simp only [List.cons_append, twoLevel, Bool.and_eq_true] at h2
    exact (no h5 (rn _) h2.1).elim
  | @literal _ _ _ name p as body t type l hp ha ht hty hty' hl =>
    simp only [List.cons_append, List.append_assoc, twoLevel, Bool.and_eq_true] at h2
    obtain ⟨hx, h3⟩ := h2
    rw [List.nil_append] at h3
    have hrd := hr _ (List.mem_append_left _ (List.mem_cons_self ..))
    have htype : type = none := by
      cases e : attr (rdfX (str! "datatype")) as with
      | none => rw [e] at hty; exact hty.symm
      | some v => exact (no e (rn _) hx).elim
    subst htype
    have hx' := property_read hp hrd
    obtain ⟨b, hb⟩ := xmlAttributes_property hx hrd hc
    have hlit : l = xmlContentLiteral env { noAttributes with base := b, language := (c.enter as).lang } ([] ++ t) := by
      have still := still_literal (still_texts ht (fun e he => hr e (List.mem_append_left _ (List.mem_cons_of_mem _ he)))
        (twoLevel_space ht h3))
      obtain ⟨l1, l2, l3⟩ := hl
      have l2 : l.dataType = none := by simpa using l2
      cases l
      simp only at l1 l2 l3
      unfold xmlContentLiteral
      cases e : (c.enter as).lang with
      | none => simp [noAttributes, Literal.plain, still, l1, l2, l3, e]
      | some v => simp [noAttributes, Literal.withLanguage, still, l1, l2, l3, e]
    obtain ⟨h6, h7⟩ := xmlRun_texts (env := env) (sty := sty) (gen := gen) (emit := emit) (base := base) (s := s)
      (a := { noAttributes with base := b, language := (c.enter as).lang }) (rest := .predicate base s false :: rest)
      (st := st) (c := []) (h := false) ht hx' h3
    refine ⟨rfl, ?_, h7⟩
    rw [List.cons_append, List.cons_append, List.append_assoc, xmlRun_ok (stack' := .object base s name
      { noAttributes with base := b, language := (c.enter as).lang } [] false false :: .predicate base s false :: rest)
      (st' := st) (by simp only [xmlStep, xmlPropertyElement, hb]; rfl), List.cons_append, List.nil_append, h6, ← hlit]
    rfl

theorem xmlRun_propList {c : XmlScope} (hc : c.lang = none) {s : Subject} {n n' : Nat} {a : List XmlIn} {T : List Stmt}
    (h : PropList gen c s n a n' T) : ∀ {base : Option Iri} {rest : List XmlFrame} {st : XmlState} {evs : List XmlIn},
    twoLevel 2 (a ++ evs) = true → (∀ e ∈ a, ReadIn env e) →
    n' = n ∧ xmlRun env sty gen emit (.predicate base s false :: rest) st (a ++ evs) =
      xmlRun env sty gen emit (.predicate base s false :: rest) { st with graph := T.foldl Graph.insert st.graph } evs ∧
    twoLevel 2 evs = true := by
  refine PropList.rec (gen := gen) (motive_1 := fun _ _ _ _ _ _ _ => True) (motive_3 := fun _ _ _ _ _ _ _ => True)
    (motive_2 := fun c s n a n' T _ => c.lang = none →
      ∀ {base : Option Iri} {rest : List XmlFrame} {st : XmlState} {evs : List XmlIn},
      twoLevel 2 (a ++ evs) = true → (∀ e ∈ a, ReadIn env e) →
      n' = n ∧ xmlRun env sty gen emit (.predicate base s false :: rest) st (a ++ evs) =
        xmlRun env sty gen emit (.predicate base s false :: rest) { st with graph := T.foldl Graph.insert st.graph } evs ∧
      twoLevel 2 evs = true) ?_ ?_ ?_ ?_ ?_ ?_ ?_ ?_ ?_ h hc
  · intros; trivial
  · intro c s n _ base rest st evs h2 _
    exact ⟨rfl, rfl, h2⟩
  · intro c s n n' e es T hf _ ih hc base rest st evs h2 hr
    have hi : isInside e = true := by cases e <;> first | rfl | cases hf
    obtain ⟨h3, h4, h5⟩ := ih hc (base := base) (rest := rest) (st := st) (evs := evs) (twoLevel_inside hi h2)
      (fun e he => hr e (List.mem_cons_of_mem _ he))
    refine ⟨h3, ?_, h5⟩
    rw [List.cons_append, xmlRun_ok (stack' := .predicate base s false :: rest) (st' := st)
      (by cases e <;> first | rfl | cases hf)]
    exact h4
  · intro c s n n' n'' a b T T' ha _ _ ih hc base rest st evs h2 hr
    rw [List.append_assoc] at h2
    obtain ⟨h3, h4, h5⟩ := xmlRun_propElt (sty := sty) (emit := emit) (base := base) (rest := rest) (st := st) hc ha h2
      (fun e he => hr e (List.mem_append_left _ he))
    obtain ⟨h6, h7, h8⟩ := ih hc (base := base) (rest := rest)
      (st := { st with graph := T.foldl Graph.insert st.graph }) h5 (fun e he => hr e (List.mem_append_right _ he))
    refine ⟨h6.trans h3, ?_, h8⟩
    rw [List.append_assoc, h4, h7, List.foldl_append]
  all_goals intros; trivial

/-! ### Node elements -/

theorem attrStmts_mem {c : XmlScope} {s : Subject} {as : List XAttr} {ts : List Stmt} (h : AttrStmts c s as ts) :
    ∀ a ∈ as, a.name = rdfX (str! "type") ∨ (propertyIri a.name).isSome = true := by
  induction h with
  | nil => intro a ha; cases ha
  | cons h _ ih =>
    intro a ha
    rcases List.mem_cons.1 ha with e | e
    · subst e
      cases h with
      | type _ => exact .inl rfl
      | literal _ hp _ => right; simp [hp]
    · exact ih a e

/-- The attributes of a node element and the subject they give. -/
theorem xmlNode_attrs {c : XmlScope} {n n' : Nat} {as ps : List XAttr} {s : Subject} {ts : List Stmt}
    (hs : SubjectOf gen c n as s n' ps) (ht : AttrStmts c s ps ts) (hn : nodeEltAttrs as = true)
    (hd : (as.map (·.name)).Nodup) (hr : ∀ a ∈ as, ReadAttr env a) {base : Option Iri} :
    ∃ b σ, xmlAttributes env as = .ok { noAttributes with subject := σ, base := b, inner := ps } ∧
      xmlSubjectNode env sty gen base n σ = .ok (s, n') ∧ ∀ a ∈ ps, keptAttr a = true := by
  simp only [nodeEltAttrs, Bool.and_eq_true, List.all_eq_true, Bool.or_eq_true, bne_iff_ne, ne_eq, beq_iff_eq] at hn
  obtain ⟨hl, hn⟩ := hn
  have nx : ∀ {a : XAttr} {t : Str}, a.name = rdfX t → isXmlAttr a = false := fun {a t} e => by
    rw [Bool.eq_false_iff]
    intro h
    have := isXmlAttr_iff.1 h
    rw [e] at this
    have h' : some rdfNs = some xmlNamespace := this
    exact absurd h' (by decide +kernel)
  have notProp : ∀ {a : XAttr}, (a.name = rdfX (str! "about") ∨ a.name = rdfX (str! "nodeID")) → a ∉ ps := by
    intro a ha hm
    rcases attrStmts_mem ht a hm with h | h <;> rcases ha with e | e <;> rw [e] at h <;>
      exact absurd h (by decide +kernel)
  cases hs with
  | @about v i h1 h2 =>
    have only : ∀ a ∈ as, isXmlAttr a = false → a.name.ns = some rdfNs → a = ⟨rdfX (str! "about"), v⟩ := by
      intro a ha hx hns
      have hna : a.name = rdfX (str! "about") := by
        rcases hn a ha with (h | h) | h
        · exact absurd hns h
        · exact h
        · refine absurd ?_ (notProp (a := a) (.inr h))
          refine List.mem_filter.2 ⟨ha, ?_⟩
          simp only [hx, h, Bool.not_false, Bool.true_and, bne_iff_ne, ne_eq]
          decide +kernel
      have := attr_unique hd h1 a ha hna
      cases a; simp_all
    have hv := hr _ (attr_some h1)
    unfold ReadAttr at hv
    rw [if_neg (by rw [nx (a := ⟨rdfX (str! "about"), v⟩) rfl]; decide), if_pos rfl] at hv
    have hi : i = v := by simpa [iriValue, hv.2] using h2.symm
    subst hi
    obtain ⟨b, hb⟩ := xmlAttributesFrom_node (env := env) (r := noAttributes) (σ := some (.resource ⟨i⟩)) hl hr (by
      intro a ha hx hns r
      rw [only a ha hx hns, xmlAttribute_rdf, if_pos rfl, valueToIri_ok hv.1]
      rfl)
    have hk : as.filter keptAttr = as.filter fun a => !isXmlAttr a && a.name != rdfX (str! "about") := by
      apply List.filter_congr
      intro a ha
      unfold keptAttr
      cases hx : isXmlAttr a with
      | true => rfl
      | false =>
        by_cases hns : a.name.ns = some rdfNs
        · have := only a ha hx hns
          simp [this, rdfX]
        · have : a.name ≠ rdfX (str! "about") := fun e => hns (by rw [e]; rfl)
          rw [bne_iff_ne.2 hns, bne_iff_ne.2 this]
    refine ⟨b, some (.resource ⟨i⟩), ?_, rfl, ?_⟩
    · unfold xmlAttributes
      rw [show (⟨none, none, none, none, none, none, []⟩ : XmlAttributes) = noAttributes from rfl, hb, hk]
      rw [if_pos (List.any_eq_true.2 ⟨_, attr_some h1, by
        rw [nx (a := ⟨rdfX (str! "about"), i⟩) rfl]; simp [rdfX]⟩)]
      rfl
    · intro a ha
      rw [← hk] at ha
      exact (List.mem_filter.1 ha).2
  | @id v i h1 _ _ =>
    exfalso
    rcases hn _ (attr_some h1) with (h | h) | h
    · exact h rfl
    · exact absurd (show rdfX (str! "ID") = rdfX (str! "about") from h) (by decide +kernel)
    · exact absurd (show rdfX (str! "ID") = rdfX (str! "nodeID") from h) (by decide +kernel)
  | @nodeId v h1 _ =>
    have only : ∀ a ∈ as, isXmlAttr a = false → a.name.ns = some rdfNs → a = ⟨rdfX (str! "nodeID"), v⟩ := by
      intro a ha hx hns
      have hna : a.name = rdfX (str! "nodeID") := by
        rcases hn a ha with (h | h) | h
        · exact absurd hns h
        · refine absurd ?_ (notProp (a := a) (.inl h))
          refine List.mem_filter.2 ⟨ha, ?_⟩
          simp only [hx, h, Bool.not_false, Bool.true_and, bne_iff_ne, ne_eq]
          decide +kernel
        · exact h
      have := attr_unique hd h1 a ha hna
      cases a; simp_all
    have hv := hr _ (attr_some h1)
    unfold ReadAttr at hv
    rw [if_neg (by rw [nx (a := ⟨rdfX (str! "nodeID"), v⟩) rfl]; decide), if_neg (show ¬rdfX (str! "nodeID") = rdfX (str! "about") by decide +kernel), if_pos rfl] at hv
    obtain ⟨b, hb⟩ := xmlAttributesFrom_node (env := env) (r := noAttributes) (σ := some (.blankNamed v)) hl hr (by
      intro a ha hx hns r
      rw [only a ha hx hns, xmlAttribute_rdf, if_neg (by decide), if_pos rfl])
    have hk : as.filter keptAttr = as.filter fun a => !isXmlAttr a && a.name != rdfX (str! "nodeID") := by
      apply List.filter_congr
      intro a ha
      unfold keptAttr
      cases hx : isXmlAttr a with
      | true => rfl
      | false =>
        by_cases hns : a.name.ns = some rdfNs
        · have := only a ha hx hns
          simp [this, rdfX]
        · have : a.name ≠ rdfX (str! "nodeID") := fun e => hns (by rw [e]; rfl)
          rw [bne_iff_ne.2 hns, bne_iff_ne.2 this]
    refine ⟨b, some (.blankNamed v), ?_, ?_, ?_⟩
    · unfold xmlAttributes
      rw [show (⟨none, none, none, none, none, none, []⟩ : XmlAttributes) = noAttributes from rfl, hb, hk]
      rw [if_pos (List.any_eq_true.2 ⟨_, attr_some h1, by
        rw [nx (a := ⟨rdfX (str! "nodeID"), v⟩) rfl]; simp [rdfX]⟩)]
      rfl
    · simp [xmlSubjectNode, blankParse, hv, Res.ofOption, Res.bind]
    · intro a ha
      rw [← hk] at ha
      exact (List.mem_filter.1 ha).2
  | none =>
    have only : ∀ a ∈ as, isXmlAttr a = false → a.name.ns = some rdfNs → False := by
      intro a ha hx hns
      have hm : a ∈ as.filter fun a => !isXmlAttr a := List.mem_filter.2 ⟨ha, by simp [hx]⟩
      rcases hn a ha with (h | h) | h
      · exact h hns
      · exact notProp (.inl h) hm
      · exact notProp (.inr h) hm
    obtain ⟨b, hb⟩ := xmlAttributesFrom_node (env := env) (r := noAttributes) (σ := none) hl hr
      (fun a ha hx hns => (only a ha hx hns).elim)
    have hk : as.filter keptAttr = as.filter fun a => !isXmlAttr a := by
      apply List.filter_congr
      intro a ha
      unfold keptAttr
      cases hx : isXmlAttr a with
      | true => rfl
      | false =>
        have hns : a.name.ns ≠ some rdfNs := fun e => only a ha hx e
        simp [hns]
    refine ⟨b, none, ?_, rfl, ?_⟩
    · unfold xmlAttributes
      rw [show (⟨none, none, none, none, none, none, []⟩ : XmlAttributes) = noAttributes from rfl, hb, hk]
      split <;> rfl
    · intro a ha
      rw [← hk] at ha
      exact (List.mem_filter.1 ha).2

theorem enter_noLang {c : XmlScope} (hc : c.lang = none) {as : List XAttr} (h : noLang as = true) :
    (c.enter as).lang = none := by
  simp only [XmlScope.enter]
  cases e : attr (xmlX (str! "lang")) as with
  | none => exact hc
  | some v =>
    have := List.all_eq_true.1 h _ (attr_some e)
    simp at this

theorem xmlRun_nodeElt {c : XmlScope} (hc : c.lang = none) {s : Subject} {n n' : Nat} {a : List XmlIn} {T : List Stmt}
    (h : NodeElt gen c n a s n' T) {base : Option Iri} {rest : List XmlFrame} {g : Graph} {evs : List XmlIn}
    (h1 : twoLevel 1 (a ++ evs) = true) (hr : ∀ e ∈ a, ReadIn env e) :
    xmlRun env sty gen emit (.subject base :: rest) ⟨g, n⟩ (a ++ evs) =
      xmlRun env sty gen emit (.subject base :: rest) ⟨T.foldl Graph.insert g, n'⟩ evs ∧
    twoLevel 1 evs = true := by
  cases h with
  | @mk _ _ n₁ _ name as ps _ body ts T hname hs ht hp =>
    simp only [List.cons_append, List.append_assoc, twoLevel, Bool.and_eq_true] at h1
    obtain ⟨hn, h2⟩ := h1
    rw [List.nil_append] at h2
    have hrd := hr _ (List.mem_append_left _ (List.mem_cons_self ..))
    have hlang : (c.enter as).lang = none := enter_noLang hc (by
      simp only [nodeEltAttrs, Bool.and_eq_true] at hn; exact hn.1)
    obtain ⟨b, σ, hb, hσ, hk⟩ := xmlNode_attrs (env := env) (sty := sty) (base := base) hs ht hn hrd.2.1 hrd.2.2
    have hps : ∀ a ∈ ps, ReadAttr env a := by
      intro a ha
      refine hrd.2.2 a ?_
      cases hs with
      | about _ _ => exact (List.mem_filter.1 ha).1
      | id _ _ _ => exact (List.mem_filter.1 ha).1
      | nodeId _ _ => exact (List.mem_filter.1 ha).1
      | none => exact (List.mem_filter.1 ha).1
    have hstep : xmlStep env sty gen emit (.subject base :: rest) ⟨g, n⟩ (.start name as) =
        .ok (.predicate (xmlBase { noAttributes with subject := σ, base := b, inner := ps } base) s false ::
          .subject base :: rest, ⟨(typeStmts name s ++ ts).foldl Graph.insert g, n₁⟩) := by
      simp only [xmlStep, xmlNodeElement, hb, Res.bind]
      rw [hσ]
      simp only []
      rw [List.foldl_append]
      by_cases hdesc : name = rdfX (str! "Description")
      · have e1 : typeStmts name s = [] := by simp [typeStmts, hdesc]
        rw [if_pos (by rw [hdesc]; exact description_eq)]
        simp only [e1]
        rw [xmlPropertyAttributes_ok hlang ht hk hps]
        rfl
      · obtain ⟨t, ht'⟩ := Option.isSome_iff_exists.1 hname
        have e1 : typeStmts name s = [.mk s rdfType (.res t)] := by simp [typeStmts, hdesc, ht']
        have hne : ¬name = ⟨some rdfTable.ns, str! "Description"⟩ := by rw [← description_eq]; exact hdesc
        have hread : NameRead env name t := by
          obtain ⟨e2, e3⟩ := name_spelled ht'
          refine ⟨?_, e3⟩
          rcases hrd.1 with h | h | h
          · rw [h, show nameIri (rdfX (str! "RDF")) = none by decide +kernel] at ht'; cases ht'
          · exact absurd h hdesc
          · exact e2 ▸ h
        rw [if_neg hne, nameToIri_read hread]
        simp only [e1]
        rw [xmlPropertyAttributes_ok hlang ht hk hps]
        rfl
    obtain ⟨h3, h4, h5⟩ := xmlRun_propList (env := env) (sty := sty) (emit := emit)
      (base := xmlBase { noAttributes with subject := σ, base := b, inner := ps } base)
      (rest := .subject base :: rest) (st := ⟨(typeStmts name s ++ ts).foldl Graph.insert g, n₁⟩) hlang hp h2
      (fun e he => hr e (List.mem_append_left _ (List.mem_cons_of_mem _ he)))
    subst h3
    refine ⟨?_, by simpa [twoLevel] using h5⟩
    rw [List.cons_append, List.cons_append, List.append_assoc, xmlRun_ok hstep, List.cons_append, List.nil_append, h4,
      xmlRun_ok (by rfl), List.foldl_append, List.foldl_append, List.foldl_append]

theorem xmlRun_nodeList {c : XmlScope} (hc : c.lang = none) {n n' : Nat} {a : List XmlIn} {T : List Stmt}
    (h : NodeList gen c n a n' T) {base : Option Iri} {rest : List XmlFrame} {g : Graph} {evs : List XmlIn}
    (h1 : twoLevel 1 (a ++ evs) = true) (hr : ∀ e ∈ a, ReadIn env e) :
    xmlRun env sty gen emit (.subject base :: rest) ⟨g, n⟩ (a ++ evs) =
      xmlRun env sty gen emit (.subject base :: rest) ⟨T.foldl Graph.insert g, n'⟩ evs := by
  induction h generalizing g with
  | nil => rfl
  | @fill n n' e es T hf _ ih =>
    have hi : isInside e = true := by cases e <;> first | rfl | cases hf
    rw [List.cons_append, xmlRun_ok (stack' := .subject base :: rest) (st' := ⟨g, n⟩)
      (by cases e <;> first | rfl | cases hf)]
    exact ih (twoLevel_inside hi h1) (fun e he => hr e (List.mem_cons_of_mem _ he))
  | cons ha _ ih =>
    rw [List.append_assoc] at h1
    obtain ⟨h2, h3⟩ := xmlRun_nodeElt (env := env) (sty := sty) (emit := emit) (base := base) (rest := rest) (g := g) hc ha h1
      (fun e he => hr e (List.mem_append_left _ he))
    rw [List.append_assoc, h2, ih h3 (fun e he => hr e (List.mem_append_right _ he)), List.foldl_append]

theorem xmlRun_fills {st : XmlState} {a evs : List XmlIn} (h : a.all isFill = true) :
    xmlRun env sty gen emit [] st (a ++ evs) = xmlRun env sty gen emit [] st evs := by
  induction a with
  | nil => rfl
  | cons e a ih =>
    simp only [List.all_cons, Bool.and_eq_true] at h
    rw [List.cons_append, xmlRun_ok (stack' := []) (st' := st) (by cases e <;> first | rfl | cases h.1)]
    exact ih h.2

/-- A document of two levels is read as what it says. -/
theorem readXml_levels {n : Nat} {evs : List XmlIn} {T : List Stmt} (h : RdfXml gen n evs T)
    (h2 : twoLevel 0 evs = true) (hr : ∀ e ∈ evs, ReadIn env e) :
    readXml env sty gen n emit evs = .ok (T.foldl Graph.insert Graph.default) := by
  obtain ⟨pre, post, as, body, n', rfl, hpre, hpost, has, hl⟩ := h
  rw [List.append_assoc] at h2
  have h3 := twoLevel_fills hpre h2
  simp only [List.cons_append, twoLevel, Bool.and_eq_true] at h3
  have hrd := hr (.start (rdfX (str! "RDF")) as) (by simp)
  obtain ⟨b, hb⟩ := xmlAttributes_property has hrd (c := ⟨none, none⟩) rfl
  unfold readXml
  rw [List.append_assoc, xmlRun_fills hpre, List.cons_append,
    xmlRun_ok (stack' := [.subject b]) (st' := ⟨Graph.default, n⟩) (by
      simp only [xmlStep, hb, Res.bind]
      rw [if_pos rdf_eq]),
    xmlRun_nodeList (enter_noLang rfl h3.1) hl h3.2 (fun e he => hr e (by simp [he])),
    xmlRun_ok (by rfl)]
  have := xmlRun_fills (env := env) (sty := sty) (gen := gen) (emit := emit)
    (st := ⟨T.foldl Graph.insert Graph.default, n'⟩) (evs := []) hpost
  rw [List.append_nil] at this
  rw [this]
  rfl

/-! ### Where the reader is inside a document of two levels -/

/-- The calls that have not returned inside `k` open elements. -/
def Shape : Nat → List XmlFrame → Prop
  | 0, st => st = []
  | 1, st => ∃ b, st = [.subject b]
  | 2, st => ∃ b s b', st = [.predicate b s false, .subject b']
  | 3, st => ∃ b s x a c h b₁ s₁ b', st = [.object b s x a c false h, .predicate b₁ s₁ false, .subject b']
  | _, _ => False

/-- The answer is not a graph. -/
def NotRead : Run Graph → Prop := fun r => ∀ g, r ≠ .ok g

theorem xmlRun_notOk {stack : List XmlFrame} {st : XmlState} {ev : XmlIn} {evs : List XmlIn}
    (h : ∀ p, xmlStep env sty gen emit stack st ev ≠ .ok p) :
    NotRead (xmlRun env sty gen emit stack st (ev :: evs)) := by
  intro g
  cases e : xmlStep env sty gen emit stack st ev with
  | ok p => exact absurd e (h p)
  | err => cases stack <;> simp [xmlRun, e]
  | panic => cases stack <;> simp [xmlRun, e]

theorem xmlAttributesFrom_plain {as : List XAttr} {r r' : XmlAttributes} (hx : as.all isXmlAttr = true)
    (h : xmlAttributesFrom env r as = .ok r') : r'.resource = r.resource ∧ r'.parseType = r.parseType := by
  induction as generalizing r with
  | nil => cases h; exact ⟨rfl, rfl⟩
  | cons a as ih =>
    rw [List.all_cons, Bool.and_eq_true] at hx
    unfold xmlAttributesFrom at h
    obtain ⟨q, hq, h⟩ := Res.bind_ok h
    obtain ⟨h1, h2⟩ := ih hx.2 h
    have : q.resource = r.resource ∧ q.parseType = r.parseType := by
      unfold xmlAttribute at hq
      rw [if_pos (isXmlAttr_iff.1 hx.1)] at hq
      split at hq
      · obtain ⟨_, _, hq⟩ := Res.bind_ok hq
        cases hq; exact ⟨rfl, rfl⟩
      · split at hq
        · obtain ⟨_, _, hq⟩ := Res.bind_ok hq
          cases hq; exact ⟨rfl, rfl⟩
        · cases hq; exact ⟨rfl, rfl⟩
    exact ⟨h1.trans this.1, h2.trans this.2⟩

/-- The start of a property element without attributes of RDF. -/
theorem xmlStep_property {as : List XAttr} (hx : as.all isXmlAttr = true) {b : Option Iri} {s : Subject} {rest : List XmlFrame}
    {st : XmlState} {x : XName} {p : List XmlFrame × XmlState}
    (h : xmlStep env sty gen emit (.predicate b s false :: rest) st (.start x as) = .ok p) :
    ∃ a, p = (.object b s x a [] false false :: .predicate b s false :: rest, st) := by
  simp only [xmlStep, xmlPropertyElement] at h
  rw [if_neg (by decide)] at h
  obtain ⟨q, hq, h⟩ := Res.bind_ok h
  obtain ⟨r, hr, hq⟩ := Res.bind_ok hq
  obtain ⟨h1, h2⟩ := xmlAttributesFrom_plain hx hr
  rw [h1, h2] at hq
  cases hq
  cases h
  exact ⟨_, rfl⟩

theorem xmlRun_shape {k : Nat} {pre : List XmlIn} (h : twoLevel k pre = true) {stack : List XmlFrame}
    (hs : Shape k stack) {st : XmlState} :
    (∀ evs, NotRead (xmlRun env sty gen emit stack st (pre ++ evs))) ∨
    ∃ stack' st', Shape (levelAfter k pre) stack' ∧
      ∀ evs, xmlRun env sty gen emit stack st (pre ++ evs) = xmlRun env sty gen emit stack' st' evs := by
  induction pre generalizing k stack st with
  | nil => exact .inr ⟨stack, st, hs, fun _ => rfl⟩
  | cons e pre ih =>
    cases he : xmlStep env sty gen emit stack st e with
    | err => exact .inl fun evs => xmlRun_notOk (by rw [he]; intro p hp; cases hp)
    | panic => exact .inl fun evs => xmlRun_notOk (by rw [he]; intro p hp; cases hp)
    | ok p =>
      obtain ⟨stack₁, st₁⟩ := p
      have next : ∀ j, levelAfter k (e :: pre) = levelAfter j pre → twoLevel j pre = true → Shape j stack₁ →
          (∀ evs, NotRead (xmlRun env sty gen emit stack st (e :: pre ++ evs))) ∨
          ∃ stack' st', Shape (levelAfter k (e :: pre)) stack' ∧
            ∀ evs, xmlRun env sty gen emit stack st (e :: pre ++ evs) = xmlRun env sty gen emit stack' st' evs := by
        intro j hj h2 h3
        rw [hj]
        simp only [List.cons_append, xmlRun_ok he]
        exact ih h2 h3
      rcases k with _ | _ | _ | _ | k
      · cases hs
        cases e with
        | start x as =>
          simp only [twoLevel, Bool.and_eq_true] at h
          refine next 1 rfl h.2 ?_
          simp only [xmlStep] at he
          obtain ⟨a, _, he⟩ := Res.bind_ok he
          split at he
          · cases he; exact ⟨_, rfl⟩
          · cases he
        | stop => cases he; exact next 0 rfl (by simpa [twoLevel] using h) rfl
        | bad => cases he
        | chars => cases he; exact next 0 rfl (by simpa [twoLevel] using h) rfl
        | cdata => cases he; exact next 0 rfl (by simpa [twoLevel] using h) rfl
        | space => cases he; exact next 0 rfl (by simpa [twoLevel] using h) rfl
        | other => cases he; exact next 0 rfl (by simpa [twoLevel] using h) rfl
      · obtain ⟨b, rfl⟩ := hs
        cases e with
        | start x as =>
          simp only [twoLevel, Bool.and_eq_true] at h
          refine next 2 rfl h.2 ?_
          simp only [xmlStep] at he
          obtain ⟨a, ha, he⟩ := Res.bind_ok he
          cases he
          unfold xmlNodeElement at ha
          obtain ⟨_, _, ha⟩ := Res.bind_ok ha
          obtain ⟨_, _, ha⟩ := Res.bind_ok ha
          obtain ⟨_, _, ha⟩ := Res.bind_ok ha
          obtain ⟨_, _, ha⟩ := Res.bind_ok ha
          cases ha
          exact ⟨_, _, _, rfl⟩
        | stop => cases he; exact next 0 rfl (by simpa [twoLevel] using h) rfl
        | bad => cases he
        | chars => cases he; exact next 1 rfl (by simpa [twoLevel] using h) ⟨_, rfl⟩
        | cdata => cases he; exact next 1 rfl (by simpa [twoLevel] using h) ⟨_, rfl⟩
        | space => cases he; exact next 1 rfl (by simpa [twoLevel] using h) ⟨_, rfl⟩
        | other => cases he; exact next 1 rfl (by simpa [twoLevel] using h) ⟨_, rfl⟩
      · obtain ⟨b, s, b', rfl⟩ := hs
        cases e with
        | start x as =>
          simp only [twoLevel, Bool.and_eq_true] at h
          refine next 3 rfl h.2 ?_
          obtain ⟨a, ha⟩ := xmlStep_property h.1 he
          cases ha
          exact ⟨_, _, _, _, _, _, _, _, _, rfl⟩
        | stop => cases he; exact next 1 rfl (by simpa [twoLevel] using h) ⟨_, rfl⟩
        | bad => cases he
        | chars => cases he; exact next 2 rfl (by simpa [twoLevel] using h) ⟨_, _, _, rfl⟩
        | cdata => cases he; exact next 2 rfl (by simpa [twoLevel] using h) ⟨_, _, _, rfl⟩
        | space => cases he; exact next 2 rfl (by simpa [twoLevel] using h) ⟨_, _, _, rfl⟩
        | other => cases he; exact next 2 rfl (by simpa [twoLevel] using h) ⟨_, _, _, rfl⟩
      · obtain ⟨b, s, x, a, c, h', b₁, s₁, b', rfl⟩ := hs
        cases e with
        | start x as => simp [twoLevel] at h
        | stop =>
          refine next 2 rfl (by simpa [twoLevel] using h) ?_
          simp only [xmlStep] at he
          obtain ⟨_, _, he⟩ := Res.bind_ok he
          cases he
          exact ⟨_, _, _, rfl⟩
        | bad => cases he
        | chars =>
          simp [xmlStep] at he
          exact next 3 rfl (by simpa [twoLevel] using h) (he.1 ▸ ⟨_, _, _, _, _, _, _, _, _, rfl⟩)
        | cdata =>
          simp [xmlStep] at he
          exact next 3 rfl (by simpa [twoLevel] using h) (he.1 ▸ ⟨_, _, _, _, _, _, _, _, _, rfl⟩)
        | space =>
          cases he
          exact next 3 rfl (by simp [twoLevel] at h; exact h.2) ⟨_, _, _, _, _, _, _, _, _, rfl⟩
        | other => cases he; exact next 3 rfl (by simpa [twoLevel] using h) ⟨_, _, _, _, _, _, _, _, _, rfl⟩
      · exact hs.elim

/-- Inside an empty property element no element is accepted. -/
theorem xmlRun_noChild {b : Option Iri} {s : Subject} {rest : List XmlFrame} {st : XmlState} {f : List XmlIn}
    (hf : f.all isInside = true) {y : XName} {bs : List XAttr} {evs : List XmlIn} :
    NotRead (xmlRun env sty gen emit (.predicate b s true :: rest) st (f ++ .start y bs :: evs)) := by
  induction f with
  | nil => exact xmlRun_notOk fun p hp => by simp [xmlStep] at hp
  | cons e f ih =>
    simp only [List.all_cons, Bool.and_eq_true] at hf
    rw [List.cons_append]
    cases e with
    | start => cases hf.1
    | stop => cases hf.1
    | bad => exact xmlRun_notOk fun p hp => by cases hp
    | chars => rw [xmlRun_ok (by rfl)]; exact ih hf.2
    | cdata => rw [xmlRun_ok (by rfl)]; exact ih hf.2
    | space => rw [xmlRun_ok (by rfl)]; exact ih hf.2
    | other => rw [xmlRun_ok (by rfl)]; exact ih hf.2

/-- After text in a property element no element is accepted. -/
theorem xmlRun_afterText {b : Option Iri} {s : Subject} {x : XName} {a : XmlAttributes} {c : Str} {rest : List XmlFrame}
    {st : XmlState} {f : List XmlIn} (hf : f.all isInside = true) {y : XName} {bs : List XAttr} {evs : List XmlIn} :
    NotRead (xmlRun env sty gen emit (.object b s x a c false true :: rest) st (f ++ .start y bs :: evs)) := by
  induction f generalizing c with
  | nil => exact xmlRun_notOk fun p hp => by simp [xmlStep] at hp
  | cons e f ih =>
    simp only [List.all_cons, Bool.and_eq_true] at hf
    rw [List.cons_append]
    cases e with
    | start => cases hf.1
    | stop => cases hf.1
    | bad => exact xmlRun_notOk fun p hp => by cases hp
    | chars => rw [xmlRun_ok (by rfl)]; exact ih hf.2
    | cdata => rw [xmlRun_ok (by rfl)]; exact ih hf.2
    | space => rw [xmlRun_ok (by rfl)]; exact ih hf.2
    | other => rw [xmlRun_ok (by rfl)]; exact ih hf.2

theorem xmlRun_text_then {b : Option Iri} {s : Subject} {x : XName} {a : XmlAttributes} {c : Str} {h : Bool}
    {rest : List XmlFrame} {st : XmlState} {f f' : List XmlIn} (hf : f.all isInside = true) (hf' : f'.all isInside = true)
    {t : Str} {y : XName} {bs : List XAttr} {evs : List XmlIn} :
    NotRead (xmlRun env sty gen emit (.object b s x a c false h :: rest) st
      (f ++ .chars t :: (f' ++ .start y bs :: evs))) := by
  induction f generalizing c h with
  | nil => rw [List.nil_append, xmlRun_ok (by rfl)]; exact xmlRun_afterText hf'
  | cons e f ih =>
    simp only [List.all_cons, Bool.and_eq_true] at hf
    rw [List.cons_append]
    cases e with
    | start => cases hf.1
    | stop => cases hf.1
    | bad => exact xmlRun_notOk fun p hp => by cases hp
    | chars => rw [xmlRun_ok (by rfl)]; exact ih hf.2
    | cdata => rw [xmlRun_ok (by rfl)]; exact ih hf.2
    | space => rw [xmlRun_ok (by rfl)]; exact ih hf.2
    | other => rw [xmlRun_ok (by rfl)]; exact ih hf.2

/-- An attribute `rdf:resource` is found. -/
theorem xmlAttributesFrom_resource {as : List XAttr} {r r' : XmlAttributes}
    (h : xmlAttributesFrom env r as = .ok r')
    (hr : r.resource.isSome = true ∨ (attr (rdfX (str! "resource")) as).isSome = true) : r'.resource.isSome = true := by
  induction as generalizing r with
  | nil =>
    cases h
    rcases hr with h | h
    · exact h
    · cases h
  | cons a as ih =>
    unfold xmlAttributesFrom at h
    obtain ⟨q, hq, h⟩ := Res.bind_ok h
    refine ih h ?_
    by_cases ha : a.name = rdfX (str! "resource")
    · left
      have : a = ⟨rdfX (str! "resource"), a.value⟩ := by cases a; simp_all
      rw [this, xmlAttribute_rdf, if_neg (by decide), if_neg (by decide), if_neg (by decide), if_pos rfl] at hq
      obtain ⟨_, _, hq⟩ := Res.bind_ok hq
      cases hq
      rfl
    · rcases hr with hr | hr
      · left
        have : q.resource = r.resource ∨ q.resource.isSome = true := by
          unfold xmlAttribute at hq
          repeat' split at hq
          all_goals first
            | (obtain ⟨_, _, hq⟩ := Res.bind_ok hq; cases hq; first | exact .inl rfl | exact .inr rfl)
            | (cases hq; exact .inl rfl)
            | cases hq
        rcases this with h | h
        · rw [h]; exact hr
        · exact h
      · right
        unfold attr at hr ⊢
        rw [List.find?_cons_of_neg (by simpa using ha)] at hr
        exact hr

end

end Rdftk
