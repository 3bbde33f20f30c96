import Verif.Lemmas.XmlRead

/-! Reading flat documents in which objects may be IRIs. -/

namespace Rdftk
open Spec

/-- An object that the reader takes in some form. -/
def ReadTerm (env : ReadEnv) (o : Object) : Prop := ReadObject env o ∨ ∃ i, o = .res i ∧ IriRead env i

/-- Not an IRI. -/
def notRes : Object → Bool
  | .res _ => false
  | _ => true

theorem ReadTerm.object {env : ReadEnv} {o : Object} (h : ReadTerm env o) (hn : notRes o = true) : ReadObject env o := by
  rcases h with h | ⟨i, rfl, -⟩
  · exact h
  · cases hn

variable {env : ReadEnv} {sty : IriStyle} {gen : Nat → Str} {emit : Emit}

/-- What is left by a property element that is read as a node element. -/
def astray (x : XName) (b : Str) (p : Iri) : List Stmt :=
  if x = ⟨some rdfTable.ns, str! "Description"⟩ then [] else [.mk (.blank b) rdfType (.res p)]

theorem xmlRun_stray {base : Option Iri} {x y : XName} {as : List XAttr} {rest : List XmlFrame} {st : XmlState} {t : Str}
    {evs : List XmlIn} {p : Iri} (hx : NameRead env x p) {a : XmlAttributes} (ha : xmlAttributes env as = .ok a) (hi : a.inner = [])
    {b : Str} {c : Nat} (hs : xmlSubjectNode env sty gen base st.count a.subject = .ok (.blank b, c)) :
    xmlRun env sty gen emit (.subject base :: rest) st (.start x as :: (textIn t ++ .stop y :: evs)) =
      xmlRun env sty gen emit (.subject base :: rest) ⟨(astray x b p).foldl Graph.insert st.graph, c⟩ evs := by
  have h1 : xmlStep env sty gen emit (.subject base :: rest) st (.start x as) =
      .ok (.predicate (xmlBase a base) (.blank b) false :: .subject base :: rest, ⟨(astray x b p).foldl Graph.insert st.graph, c⟩) := by
    unfold astray
    simp only [xmlStep, xmlNodeElement, ha, Res.bind, hs]
    by_cases e : x = ⟨some rdfTable.ns, str! "Description"⟩
    · simp [e, Res.bind, hi, xmlPropertyAttributes]
    · simp [e, Res.bind, hi, xmlPropertyAttributes, nameToIri_read hx, XmlState.insert]
  rw [xmlRun_ok h1]
  unfold textIn
  split
  · rw [List.nil_append, xmlRun_ok (by rfl)]
  · split
    · rw [List.singleton_append, xmlRun_ok (by rfl), xmlRun_ok (by rfl)]
    · rw [List.singleton_append, xmlRun_ok (by rfl), xmlRun_ok (by rfl)]

/-- A property element met where a node element is expected. -/
theorem xmlRun_strayProp {base : Option Iri} {x : XName} {rest : List XmlFrame} {st : XmlState} {evs : List XmlIn} {p : Iri}
    (hx : NameRead env x p) {o : Object} (ho : ReadTerm env o) :
    xmlRun env sty gen emit (.subject base :: rest) st (propIn x o ++ evs) = .err ∨
    ∃ b c, st.count ≤ c ∧ ((∃ j, st.count ≤ j ∧ b = gen j) ∨ o = .blank b) ∧
      xmlRun env sty gen emit (.subject base :: rest) st (propIn x o ++ evs) =
        xmlRun env sty gen emit (.subject base :: rest) ⟨(astray x b p).foldl Graph.insert st.graph, c⟩ evs := by
  rcases ho with ho | ⟨i, rfl, hi⟩
  · cases o with
    | lit l =>
      refine .inr ⟨gen st.count, st.count + 1, Nat.le_succ _, .inl ⟨_, Nat.le_refl _, rfl⟩, ?_⟩
      simp only [propIn, propHead, List.cons_append, List.append_assoc, List.nil_append]
      exact xmlRun_stray hx (xmlAttributes_lit ho) rfl rfl
    | blank b =>
      simp only [propIn, propHead, List.cons_append, List.nil_append]
      by_cases hb : blankValid env.blankOk b = true
      · refine .inr ⟨b, st.count, Nat.le_refl _, .inr rfl, ?_⟩
        exact xmlRun_stray (t := []) hx (xmlAttributes_nodeId env b) rfl (by
          simp [noAttributes, xmlSubjectNode, blankParse, hb, Res.ofOption, Res.bind])
      · refine .inl (xmlRun_err ?_)
        simp [xmlStep, xmlNodeElement, xmlAttributes_nodeId, Res.bind, noAttributes, xmlSubjectNode, blankParse, hb, Res.ofOption]
    | res _ => exact ho.elim
    | coll _ => exact ho.elim
    | stmt _ => exact ho.elim
  · refine .inr ⟨gen st.count, st.count + 1, Nat.le_succ _, .inl ⟨_, Nat.le_refl _, rfl⟩, ?_⟩
    simp only [propIn, propHead, List.cons_append, List.nil_append]
    exact xmlRun_stray (t := []) hx (xmlAttributes_resource hi) rfl rfl

/-- Statements that come of property elements read as node elements. -/
def Stray (gen : Nat → Str) (n : Nat) (rs : List (XName × Object)) (t : Stmt) : Prop :=
  ∃ b i, t = .mk (.blank b) rdfType (.res i) ∧ ((∃ j, n ≤ j ∧ b = gen j) ∨ ∃ q ∈ rs, q.2 = .blank b)

theorem xmlRun_strayProps {base : Option Iri} {rest : List XmlFrame} {iri : XName → Iri} {rs : List (XName × Object)}
    (h : ∀ q ∈ rs, NameRead env q.1 (iri q.1) ∧ ReadTerm env q.2) {st : XmlState} {evs : List XmlIn} :
    (rs ≠ [] ∧ xmlRun env sty gen emit (.subject base :: rest) st (rs.flatMap (fun q => propIn q.1 q.2) ++ evs) = .err) ∨
    ∃ L c, (∀ t ∈ L, Stray gen st.count rs t) ∧ (rs = [] → L = []) ∧
      xmlRun env sty gen emit (.subject base :: rest) st (rs.flatMap (fun q => propIn q.1 q.2) ++ evs) =
        xmlRun env sty gen emit (.subject base :: rest) ⟨L.foldl Graph.insert st.graph, c⟩ evs := by
  induction rs generalizing st with
  | nil => exact .inr ⟨[], st.count, by simp, fun _ => rfl, rfl⟩
  | cons q rs ih =>
    obtain ⟨h1, h2⟩ := h q (List.mem_cons_self ..)
    rw [List.flatMap_cons, List.append_assoc]
    rcases xmlRun_strayProp (sty := sty) (gen := gen) (emit := emit) (base := base) (rest := rest) (st := st)
      (evs := rs.flatMap (fun q => propIn q.1 q.2) ++ evs) h1 h2 with e | ⟨b, c, hc, hb, e⟩
    · exact .inl ⟨List.cons_ne_nil _ _, e⟩
    · rw [e]
      rcases ih (fun q hq => h q (List.mem_cons_of_mem _ hq)) (st := ⟨(astray q.1 b (iri q.1)).foldl Graph.insert st.graph, c⟩) with
        ⟨-, e'⟩ | ⟨L, k, hL, -, e'⟩
      · exact .inl ⟨List.cons_ne_nil _ _, e'⟩
      · refine .inr ⟨astray q.1 b (iri q.1) ++ L, k, fun t ht => ?_, (fun h => by cases h), by rw [e', List.foldl_append]⟩
        rcases List.mem_append.1 ht with ht | ht
        · unfold astray at ht
          split at ht
          · cases ht
          · rw [List.mem_singleton.1 ht]
            exact ⟨b, _, rfl, hb.elim .inl fun h => .inr ⟨q, List.mem_cons_self, h⟩⟩
        · obtain ⟨b', i, e1, e2⟩ := hL t ht
          refine ⟨b', i, e1, e2.elim (fun ⟨j, hj, e⟩ => .inl ⟨j, Nat.le_trans hc hj, e⟩) fun ⟨q', hq, e⟩ => .inr ⟨q', List.mem_cons_of_mem _ hq, e⟩⟩

/-- A document with an IRI as an object, up to the first: what is read. -/
theorem readXml_first {n : Nat} {iri : XName → Iri} {ds : List (Subject × List (XName × Object))} {s : Subject}
    {qs rs : List (XName × Object)} {x : XName} {i : Iri} {more : List (Subject × List (XName × Object))}
    (h : ∀ d ∈ ds, ReadSubject env d.1 ∧ ∀ q ∈ d.2, NameRead env q.1 (iri q.1) ∧ ReadObject env q.2)
    (hs : ReadSubject env s) (hq : ∀ q ∈ qs, NameRead env q.1 (iri q.1) ∧ ReadObject env q.2)
    (hx : NameRead env x (iri x)) (hi : IriRead env i) (hr : ∀ q ∈ rs, NameRead env q.1 (iri q.1) ∧ ReadTerm env q.2)
    (hm : ∀ d ∈ more, ReadSubject env d.1) :
    ((rs ≠ [] ∨ more ≠ []) ∧ readXml env sty gen n emit (flatIn (ds ++ (s, qs ++ (x, .res i) :: rs) :: more)) = .err) ∨
    more = [] ∧ ∃ L k, (∀ t ∈ L, Stray gen n rs t) ∧ (rs = [] → L = []) ∧ readXml env sty gen n emit (flatIn (ds ++ (s, qs ++ (x, .res i) :: rs) :: more)) = .ok k ∧
      k = (rereadDescs env.pr iri ds ++ rereadProps env.pr iri s qs ++ Stmt.mk s (iri x) (.res i) :: L).foldl Graph.insert Graph.default := by
  unfold readXml
  have h1 : xmlStep env sty gen emit [] ⟨Graph.default, n⟩ (.start (rdfX (str! "RDF")) []) =
      .ok ([.subject none], ⟨Graph.default, n⟩) := by
    simp only [xmlStep, xmlAttributes_nil, Res.bind, noAttributes]
    rw [if_pos rdf_eq]
  have h2 : ∀ base s rest st, xmlStep env sty gen emit (.predicate base s false :: rest) st
      (.start x [⟨rdfX (str! "resource"), i.text⟩]) =
      .ok (.predicate base s true :: rest, st.insert s (iri x) (.res i)) := fun base s rest st => by
    simp only [xmlStep, xmlPropertyElement, xmlAttributes_resource hi, Res.bind, noAttributes, nameToIri_read hx]
    rfl
  have e : flatIn (ds ++ (s, qs ++ (x, .res i) :: rs) :: more) =
      .other :: .start (rdfX (str! "RDF")) [] :: (ds.flatMap descIn ++
        (.start (rdfX (str! "Description")) (nodeAttr s) :: (qs.flatMap (fun q => propIn q.1 q.2) ++
          (.start x [⟨rdfX (str! "resource"), i.text⟩] :: .stop x :: (rs.flatMap (fun q => propIn q.1 q.2) ++
            (.stop (rdfX (str! "Description")) :: (more.flatMap descIn ++ [.stop (rdfX (str! "RDF"))]))))))) := by
    simp [flatIn, descIn, propIn, propHead, List.append_assoc]
  rw [e, xmlRun_ok (by rfl), xmlRun_ok h1, xmlRun_descs h, xmlRun_ok (xmlStep_node hs), xmlRun_props hq, xmlRun_ok (h2 ..),
    xmlRun_ok (by rfl)]
  rcases xmlRun_strayProps (sty := sty) (gen := gen) (emit := emit) (base := none) (rest := []) (iri := iri) hr
    (st := (XmlState.mk ((rereadProps env.pr iri s qs).foldl Graph.insert ((rereadDescs env.pr iri ds).foldl Graph.insert Graph.default)) n).insert s (iri x) (.res i))
    (evs := .stop (rdfX (str! "Description")) :: (more.flatMap descIn ++ [.stop (rdfX (str! "RDF"))])) with ⟨hn, e'⟩ | ⟨L, c, hL, h0, e'⟩
  · exact .inl ⟨.inl hn, e'⟩
  · rw [show xmlRun env sty gen emit _ _ _ = _ from e', xmlRun_ok (by rfl)]
    cases more with
    | nil =>
      refine .inr ⟨rfl, L, _, hL, h0, ?_, rfl⟩
      simp only [List.flatMap_nil, List.nil_append]
      rw [xmlRun_ok (by rfl)]
      simp [xmlRun, XmlState.insert, List.foldl_append]
    | cons d more =>
      refine .inl ⟨.inr (List.cons_ne_nil _ _), ?_⟩
      have ht := hm d List.mem_cons_self
      have ha : ∃ a, xmlAttributes env (nodeAttr d.1) = .ok a := by
        cases hd : d.1 with
        | res j => rw [hd] at ht; exact ⟨_, xmlAttributes_about ht⟩
        | blank b => exact ⟨_, xmlAttributes_nodeId env b⟩
        | stmt _ => rw [hd] at ht; exact ht.elim
      obtain ⟨a, ha⟩ := ha
      simp only [List.flatMap_cons, descIn, List.cons_append]
      apply xmlRun_err
      simp only [xmlStep, ha, Res.bind]
      rw [if_neg]
      rw [rdfTable_ns]
      decide +kernel

end Rdftk
