import Verif.Spec.Xml
import Verif.Lemmas.NTWrite

/-!
Lemmas on the RDF/XML writer.
-/

namespace Rdftk
open Spec

/-! ### `split_uri` -/

theorem ascii_utf8Size {c : Char} (h : c.toNat < 0x80) : c.utf8Size = 1 := by
  have h' : c.val.toNat < 128 := h
  have : c.val ≤ 0x7f := by
    rw [UInt32.le_iff_toNat_le]
    have : (0x7f : UInt32).toNat = 127 := rfl
    omega
  simp [Char.utf8Size, this]

theorem byteLen_ascii {s : Str} (h : ∀ c ∈ s, c.toNat < 0x80) : byteLen s = s.length := by
  induction s with
  | nil => rfl
  | cons c s ih =>
    have := ih fun d hd => h d (List.mem_cons_of_mem _ hd)
    simp only [byteLen, List.map_cons, List.sum_cons, List.length_cons] at this ⊢
    rw [this, ascii_utf8Size (h c (List.mem_cons_self ..))]
    omega

theorem splitBytes_ascii (a b : Str) (h : ∀ c ∈ a, c.toNat < 0x80) :
    splitBytes a.length (a ++ b) = .ok (a, b) := by
  induction a with
  | nil => cases b <;> rfl
  | cons c a ih =>
    have h1 := ascii_utf8Size (h c (List.mem_cons_self ..))
    simp only [List.length_cons, List.cons_append, splitBytes, h1]
    rw [if_pos (by omega), show a.length + 1 - 1 = a.length by omega,
      ih fun d hd => h d (List.mem_cons_of_mem _ hd)]

theorem findIdx?_reverse_sep (f : Char → Bool) (a b : Str) (c : Char) (hc : f c = true)
    (hb : ∀ d ∈ b, f d = false) : (a ++ c :: b).reverse.findIdx? f = some b.length := by
  rw [List.findIdx?_eq_some_iff_getElem]
  simp only [List.reverse_append, List.reverse_cons, List.append_assoc, List.singleton_append,
    List.length_append, List.length_reverse, List.length_cons]
  refine ⟨by omega, ?_, ?_⟩
  · rw [List.getElem_append_right (by simp)]
    simpa using hc
  · intro j hj
    rw [List.getElem_append_left (by simpa using hj)]
    have := hb (b.reverse[j]'(by simpa using hj)) (List.mem_reverse.1 (List.getElem_mem _))
    simpa using this

theorem sepBool {c : Char} : ((c == '#' || c == '/') = true) ↔ isSep c := by simp [isSep]

/-- A displayed ASCII IRI is split after its last separator. -/
theorem splitUri_ascii {sty : IriStyle} {i : Iri} {a b : Str} {c : Char}
    (h : i.fmt sty = a ++ c :: b) (ha : ∀ d ∈ i.fmt sty, d.toNat < 0x80) (hc : isSep c)
    (hb : ∀ d ∈ b, ¬isSep d) : splitUri sty i = .ok (a ++ [c], b) := by
  have hf := findIdx?_reverse_sep (fun c => c == '#' || c == '/') a b c (sepBool.2 hc)
    (fun d hd => by simpa using mt sepBool.1 (hb d hd))
  have hl := byteLen_ascii ha
  unfold splitUri
  rw [h] at hl ha ⊢
  rw [hf]
  dsimp only
  rw [hl, if_neg (by simp; omega)]
  have := splitBytes_ascii (a ++ [c]) b (fun d hd => ha d (by
    simp only [List.mem_append, List.mem_cons, List.not_mem_nil, or_false] at hd ⊢
    rcases hd with hd | hd <;> simp [hd]))
  simp only [List.length_append, List.length_cons, List.length_nil, List.append_assoc,
    List.singleton_append] at this ⊢
  rw [show a.length + (b.length + 1) - b.length = a.length + (0 + 1) by omega]
  exact this

theorem splitUri_none {sty : IriStyle} {i : Iri} (h : ∀ c ∈ i.fmt sty, ¬isSep c) :
    splitUri sty i = .panic := by
  have : (i.fmt sty).reverse.findIdx? (fun c => c == '#' || c == '/') = none := by
    rw [List.findIdx?_eq_none_iff]
    intro c hc
    simpa using mt sepBool.1 (h c (List.mem_reverse.1 hc))
  simp [splitUri, this]

/-- A text with a separator has a last one. -/
theorem exists_last_sep {s : Str} (h : ∃ c ∈ s, isSep c) :
    ∃ a c b, s = a ++ c :: b ∧ isSep c ∧ ∀ d ∈ b, ¬isSep d := by
  induction s with
  | nil => obtain ⟨c, hc, _⟩ := h; simp at hc
  | cons x s ih =>
    by_cases hs : ∃ c ∈ s, isSep c
    · obtain ⟨a, c, b, e, h1, h2⟩ := ih hs
      exact ⟨x :: a, c, b, by rw [e]; rfl, h1, h2⟩
    · obtain ⟨c, hc, hsep⟩ := h
      have hx : isSep x := by
        rcases List.mem_cons.1 hc with rfl | hc
        · exact hsep
        · exact absurd ⟨c, hc, hsep⟩ hs
      exact ⟨[], x, s, rfl, hx, fun d hd hd' => hs ⟨d, hd, hd'⟩⟩

theorem splitBytes_append {k : Nat} {s a b : Str} (h : splitBytes k s = .ok (a, b)) : a ++ b = s := by
  induction s generalizing k a with
  | nil =>
    cases k with
    | zero => simp [splitBytes] at h; simp [h]
    | succ k => simp [splitBytes] at h
  | cons c s ih =>
    cases k with
    | zero => simp [splitBytes] at h; obtain ⟨rfl, rfl⟩ := h; rfl
    | succ k =>
      simp only [splitBytes] at h
      split at h
      · split at h
        · rename_i a' b' e
          simp only [Outcome.ok.injEq, Prod.mk.injEq] at h
          obtain ⟨rfl, rfl⟩ := h
          simp [ih e]
        · cases h
      · cases h

theorem splitUri_append {sty : IriStyle} {i : Iri} {a b : Str} (h : splitUri sty i = .ok (a, b)) :
    a ++ b = i.fmt sty := by
  unfold splitUri at h
  split at h
  · cases h
  · split at h
    · cases h
    · exact splitBytes_append h

theorem splitAt_split {p : Iri} {ns name : Str} (h : SplitAt p ns name)
    (ha : ∀ c ∈ p.text, c.toNat < 0x80) : splitUri .bare p = .ok (ns, name) := by
  obtain ⟨e, ⟨a, c, rfl, hc⟩, hn⟩ := h
  exact splitUri_ascii (sty := .bare) (by simp [Iri.fmt, ← e]) (by simpa [Iri.fmt] using ha) hc hn

/-! ### Names -/

theorem inCodeRanges_iff {rs : List (Nat × Nat)} {c : Char} :
    inCodeRanges rs c = true ↔ ∃ r ∈ rs, r.1 ≤ c.toNat ∧ c.toNat ≤ r.2 := by
  simp [inCodeRanges, List.any_eq_true, Bool.and_eq_true]

theorem ncStart_char {c : Char} (h : isNcStart c = true) : isNcChar c = true := by simp [isNcChar, h]

theorem ncName_char {s : Str} (h : isNcName s = true) : ∀ c ∈ s, isNcChar c = true := by
  cases s with
  | nil => intro c hc; simp at hc
  | cons d s =>
    simp only [isNcName, Bool.and_eq_true, List.all_eq_true] at h
    intro c hc
    rcases List.mem_cons.1 hc with rfl | hc
    · exact ncStart_char h.1
    · exact h.2 c hc

theorem ncChar_plain {c : Char} (h : isNcChar c = true) : xmlPlain c = true := by
  simp only [isNcChar, isNcStart, xmlPlain, Bool.or_eq_true, inCodeRanges_iff, List.mem_cons,
    List.not_mem_nil, or_false] at h ⊢
  have key : (0x20 ≤ c.toNat ∧ c.toNat ≤ 0x7E) ∨ (0xA0 ≤ c.toNat ∧ c.toNat ≤ 0x2027) ∨
      (0x2029 ≤ c.toNat ∧ c.toNat ≤ 0xD7FF) ∨ (0xE000 ≤ c.toNat ∧ c.toNat ≤ 0xFFFD) ∨
      (0x10000 ≤ c.toNat ∧ c.toNat ≤ 0x10FFFF) := by
    rcases h with ⟨r, hr, h⟩ | ⟨r, hr, h⟩
    · rcases hr with rfl | rfl | rfl | rfl | rfl | rfl | rfl | rfl | rfl | rfl | rfl | rfl | rfl |
        rfl | rfl <;> simp only at h <;> omega
    · rcases hr with rfl | rfl | rfl | rfl | rfl <;> simp only at h <;> omega
  rcases key with k | k | k | k | k
  · exact ⟨(0x20, 0x7E), by simp, k⟩
  · exact ⟨(0xA0, 0x2027), by simp, k⟩
  · exact ⟨(0x2029, 0xD7FF), by simp, k⟩
  · exact ⟨(0xE000, 0xFFFD), by simp, k⟩
  · exact ⟨(0x10000, 0x10FFFF), by simp, k⟩

theorem ncName_plain {s : Str} (h : isNcName s = true) : s.all xmlPlain = true := by
  rw [List.all_eq_true]
  exact fun c hc => ncChar_plain (ncName_char h c hc)

theorem ncChar_ne {c d : Char} (h : isNcChar c = true) (hd : isNcChar d = false) : c ≠ d := by
  rintro rfl
  rw [h] at hd
  cases hd

theorem span_no_colon {s : Str} (h : ':' ∉ s) : (s.takeWhile (· != ':'), s.dropWhile (· != ':')) = (s, []) := by
  have h1 : ∀ c ∈ s, (c != ':') = true := fun c hc => by
    simp only [bne_iff_ne, ne_eq]; rintro rfl; exact h hc
  have h2 := List.takeWhile_append_of_pos (l₂ := []) h1
  have h3 := List.dropWhile_append_of_pos (l₂ := []) h1
  simp only [List.append_nil, List.takeWhile_nil, List.dropWhile_nil] at h2 h3
  rw [h2, h3]

theorem span_colon {p s : Str} (h : ':' ∉ p) : 
    ((p ++ ':' :: s).takeWhile (· != ':'), (p ++ ':' :: s).dropWhile (· != ':')) = (p, ':' :: s) := by
  have h1 : ∀ c ∈ p, (c != ':') = true := fun c hc => by
    simp only [bne_iff_ne, ne_eq]; rintro rfl; exact h hc
  rw [List.takeWhile_append_of_pos h1, List.dropWhile_append_of_pos h1]
  simp

theorem ncName_no_colon {s : Str} (h : isNcName s = true) : ':' ∉ s := fun hc =>
  ncChar_ne (ncName_char h _ hc) (by decide +kernel : isNcChar ':' = false) rfl

theorem qname_local {s : Str} (h : isNcName s = true) : qname s = some ([], s) := by
  unfold qname
  rw [span_no_colon (ncName_no_colon h)]
  simp [h]

theorem qname_prefixed {p s : Str} (hp : isNcName p = true) (h : isNcName s = true) :
    qname (p ++ ':' :: s) = some (p, s) := by
  unfold qname
  rw [span_colon (ncName_no_colon hp)]
  simp [hp, h]

/-! ### Content -/

/-- The written parts are found as the events, whatever follows. -/
def Delivers (stack : List Open) (es : List XmlOut) (ins : List XmlIn) : Prop :=
  ∀ rest, contentIn stack (es ++ rest) = (contentIn stack rest).map (ins ++ ·)

theorem Delivers.nil (stack : List Open) : Delivers stack [] [] := fun rest => by
  cases h : contentIn stack rest <;> simp [h]

theorem Delivers.append {stack : List Open} {a b : List XmlOut} {i j : List XmlIn}
    (ha : Delivers stack a i) (hb : Delivers stack b j) : Delivers stack (a ++ b) (i ++ j) := fun rest => by
  rw [List.append_assoc, ha, hb, Option.map_map]
  congr 1
  funext x
  simp

theorem Delivers.element {stack : List Open} {n : Str} {ns as : List (Str × Str)} {name : XName}
    {attrs : List XAttr} {body : List XmlOut} {ins : List XmlIn}
    (h1 : elementName (ns ++ scopeOf stack) n = some name)
    (h2 : attributesIn (ns ++ scopeOf stack) as = some attrs)
    (h3 : ns.all declOk = true) (h4 : (attrs.map (·.name)).Nodup)
    (h5 : Delivers ((n, name, ns ++ scopeOf stack) :: stack) body ins) :
    Delivers stack (.start n ns as :: body ++ [.stop n]) (.start name attrs :: ins ++ [.stop name]) := by
  intro rest
  have e : XmlOut.start n ns as :: body ++ [.stop n] ++ rest =
      .start n ns as :: (body ++ .stop n :: rest) := by simp
  rw [e]
  simp only [contentIn, h1, h2, h3, h4, decide_true, Bool.and_true, if_true]
  rw [h5, contentIn]
  simp only [if_true, Option.map_map]
  congr 1
  funext x
  simp

theorem Delivers.chars {e : Open} {stack : List Open} {s : Str} (h : s.all xmlPlain = true) :
    Delivers (e :: stack) [.chars s] (textIn s) := fun rest => by
  simp [contentIn, h]

theorem deliver_of {es : List XmlOut} {ins : List XmlIn} {enc : Str} (h : Delivers [] es ins) :
    deliver (.document enc :: es) = some (.other :: ins) := by
  have := h []
  rw [List.append_nil] at this
  simp [deliver, this, contentIn]

/-! ### The writer's names -/

/-- The namespaces in scope where property elements are written. -/
def rootScope : Scope := [(str! "rdf", rdfNs)]

theorem rdfTable_ns : rdfTable.ns = rdfNs := by decide +kernel

theorem rdfTable_pfx : rdfTable.pfx = str! "rdf" := by decide +kernel

theorem rdfName_eq (s : Str) : rdfName s = str! "rdf" ++ ':' :: s := by
  rw [rdfName, rdfTable_pfx]

theorem xmlMappings_bare : xmlMappings .bare =
    [(str! "http://purl.org/dc/elements/1.1/", str! "dc"), (str! "http://xmlns.com/foaf/0.1/", str! "foaf"),
      (str! "http://www.w3.org/2003/01/geo/wgs84_pos#", str! "geo"),
      (str! "http://www.w3.org/2002/07/owl#", str! "owl"), (rdfNs, str! "rdf"),
      (str! "http://www.w3.org/2000/01/rdf-schema#", str! "rdfs"),
      (str! "http://www.w3.org/2001/XMLSchema#", str! "xsd")] := by decide +kernel

theorem mappings_ok : ∀ e ∈ xmlMappings .bare, isNcName e.2 = true ∧ declOk (e.2, e.1) = true ∧
    e.1 ∈ knownNamespaces ∧ (e.2 = str! "rdf" → e.1 = rdfNs) := by
  rw [xmlMappings_bare]
  decide +kernel

theorem xmlPrefix_mem {sty : IriStyle} {ns p : Str} (h : xmlPrefix sty ns = some p) :
    (ns, p) ∈ xmlMappings sty := by
  unfold xmlPrefix at h
  rw [Option.map_eq_some_iff] at h
  obtain ⟨e, he, rfl⟩ := h
  have := List.mem_of_find?_eq_some he
  have h2 := List.find?_some he
  simp only [beq_iff_eq] at h2
  rw [← h2]
  exact this

theorem known_prefix {ns : Str} (h : ns ∈ knownNamespaces) : (xmlPrefix .bare ns).isSome = true := by
  have : ∀ ns ∈ knownNamespaces, (xmlPrefix .bare ns).isSome = true := by
    unfold xmlPrefix
    rw [xmlMappings_bare]
    decide +kernel
  exact this ns h

theorem find_cons_self (p ns : Str) (sc : Scope) : Scope.find ((p, ns) :: sc) p = some ns := by
  simp [Scope.find]

/-- The name of the first element of a predicate. -/
theorem xmlElement_name {ns name : Str} (sc : Scope) (h : isNcName name = true) (hns : ns ≠ [])
    (hp : ns.all xmlPlain = true) :
    elementName ((xmlElement .bare ns name).2 ++ sc) (xmlElement .bare ns name).1 = some ⟨some ns, name⟩ ∧
    (xmlElement .bare ns name).2.all declOk = true := by
  unfold xmlElement
  split
  · rename_i p hpx
    obtain ⟨h1, h2, _, _⟩ := mappings_ok _ (xmlPrefix_mem hpx)
    refine ⟨?_, by simp [h2]⟩
    simp only [elementName, qname_prefixed h1 h, List.cons_append, List.nil_append, find_cons_self]
  · refine ⟨?_, ?_⟩
    · simp only [elementName, qname_local h, List.cons_append, List.nil_append, find_cons_self]
    · cases ns with
      | nil => exact absurd rfl hns
      | cons c ns =>
        simp only [List.all_cons, List.all_nil, Bool.and_true, declOk, List.isEmpty_nil, Bool.true_or,
          List.isEmpty_cons, Bool.not_false, Bool.true_and, Bool.and_eq_true] at hp ⊢
        exact ⟨by decide, hp⟩

/-- The prefix of RDF is in scope inside the element. -/
theorem xmlElement_rdf {ns name : Str} {sc : Scope} (h : sc.find (str! "rdf") = some rdfNs) :
    Scope.find ((xmlElement .bare ns name).2 ++ sc) (str! "rdf") = some rdfNs := by
  unfold xmlElement
  split
  · rename_i p hpx
    obtain ⟨_, _, _, h4⟩ := mappings_ok _ (xmlPrefix_mem hpx)
    by_cases hp : p = str! "rdf"
    · rw [hp]
      simp only [List.cons_append, List.nil_append, find_cons_self]
      exact congrArg some (h4 hp)
    · simp only [List.cons_append, List.nil_append, Scope.find, List.find?_cons]
      have : (p == str! "rdf") = false := by simpa using hp
      rw [this]
      exact h
  · simp only [List.cons_append, List.nil_append, Scope.find, List.find?_cons]
    have : (([] : Str) == str! "rdf") = false := by decide
    rw [this]
    exact h

theorem attributeName_rdf {sc : Scope} (h : sc.find (str! "rdf") = some rdfNs) {s : Str}
    (hs : isNcName s = true) : attributeName sc (rdfName s) = some (rdfX s) := by
  rw [rdfName_eq]
  unfold attributeName
  rw [qname_prefixed (by decide +kernel) hs]
  simp only [h]
  rw [if_neg (by decide), if_neg (by decide)]
  rfl

theorem attributeName_lang (sc : Scope) : attributeName sc (str! "xml:lang") = some (xmlX (str! "lang")) := by
  have : qname (str! "xml:lang") = some (str! "xml", str! "lang") := by decide +kernel
  simp only [attributeName, this]
  rw [if_neg (by decide), if_pos trivial]
  rfl

/-! ### Property elements -/

/-- An object that RDF/XML can say. -/
def XmlObject : Object → Prop
  | .res i => XmlIri i
  | .blank b => isNcName b = true
  | .lit l => XmlLiteralOk l
  | .coll _ => False
  | .stmt _ => False

theorem attributesIn_litAttrs {sc : Scope} (h : sc.find (str! "rdf") = some rdfNs) {l : Literal}
    (hl : XmlLiteralOk l) :
    attributesIn sc
      ((if (l.language.getD []).isEmpty then [] else [(str! "xml:lang", l.language.getD [])]) ++
          match l.dataType with
          | some t => [(rdfName (str! "datatype"), t.asIri.fmt .bare)]
          | none => []) = some (litAttrs l) := by
  obtain ⟨_, _, h3, h4⟩ := hl
  have hd : attributeName sc (rdfName (str! "datatype")) = some (rdfX (str! "datatype")) :=
    attributeName_rdf h (by decide +kernel)
  unfold litAttrs
  cases e : l.language with
  | none =>
    cases e' : l.dataType with
    | none => rfl
    | some t => simp [attributesIn, hd, (h3 t e').1, Iri.fmt]
  | some g =>
    obtain ⟨hg, hg'⟩ := h4 g e
    have hg'' : g.isEmpty = false := by simpa using hg
    cases e' : l.dataType with
    | none => simp [attributesIn, hg, attributeName_lang sc, hg']
    | some t => simp [attributesIn, hd, (h3 t e').1, Iri.fmt, hg, attributeName_lang sc, hg']

theorem litAttrs_nodup (l : Literal) : ((litAttrs l).map (·.name)).Nodup := by
  unfold litAttrs
  have : xmlX (str! "lang") ≠ rdfX (str! "datatype") := by decide +kernel
  split <;> split <;> simp [this]

/-- One property element is found as it was meant. -/
theorem xmlProperty_delivers {stack : List Open} {nested : Subject → Run (List XmlOut)} {ns name n' : Str}
    {d : List (Str × Str)} {o : Object} {es : List XmlOut}
    (h1 : elementName (d ++ scopeOf stack) n' = some ⟨some ns, name⟩)
    (h2 : d.all declOk = true) (h3 : Scope.find (d ++ scopeOf stack) (str! "rdf") = some rdfNs)
    (ho : XmlObject o) (he : xmlProperty .bare true nested n' d o = .ok es) :
    Delivers stack (es ++ [.stop n']) (propIn ⟨some ns, name⟩ o) := by
  cases o with
  | res i =>
    simp only [xmlProperty, Run.ok.injEq] at he
    subst he
    have ha : attributeName (d ++ scopeOf stack) (rdfName (str! "resource")) = some (rdfX (str! "resource")) :=
      attributeName_rdf h3 (by decide +kernel)
    refine Delivers.element h1 ?_ h2 ?_ (Delivers.nil _)
    · simp only [attributesIn, ha, Iri.fmt, ho.1, if_true]
    · simp
  | blank b =>
    simp only [xmlProperty, if_true, Run.ok.injEq] at he
    subst he
    have ha : attributeName (d ++ scopeOf stack) (rdfName (str! "nodeID")) = some (rdfX (str! "nodeID")) :=
      attributeName_rdf h3 (by decide +kernel)
    refine Delivers.element h1 ?_ h2 ?_ (Delivers.nil _)
    · simp only [attributesIn, ha, ncName_plain ho, if_true]
    · simp
  | lit l =>
    simp only [xmlProperty, Run.ok.injEq] at he
    subst he
    exact Delivers.element h1 (attributesIn_litAttrs h3 ho) h2 (litAttrs_nodup l)
      (Delivers.chars ho.1)
  | coll c => exact ho.elim
  | stmt t => exact ho.elim

theorem xmlObjects_delivers {stack : List Open} {nested : Subject → Run (List XmlOut)} {ns name : Str}
    (hr : (scopeOf stack).find (str! "rdf") = some rdfNs) (hn : isNcName name = true) (hns : ns ≠ [])
    (hp : ns.all xmlPlain = true) {os : List Object} {es : List XmlOut}
    (hk : xmlPrefix .bare ns = none ∨ os.length ≤ 1) (ho : ∀ o ∈ os, XmlObject o)
    (he : xmlObjects .bare true nested ns name os = .ok es) :
    Delivers stack es (os.flatMap (propIn ⟨some ns, name⟩)) := by
  induction os generalizing es with
  | nil =>
    simp only [xmlObjects, Run.ok.injEq] at he
    subst he
    exact Delivers.nil _
  | cons o os ih =>
    simp only [xmlObjects] at he
    obtain ⟨h1, h2⟩ := xmlElement_name (scopeOf stack) hn hns hp
    have h3 := xmlElement_rdf (ns := ns) (name := name) hr
    generalize hx : xmlProperty .bare true nested (xmlElement .bare ns name).1
      (xmlElement .bare ns name).2 o = r at he
    cases r with
    | ok e1 =>
      simp only [Run.bind] at he
      generalize hy : xmlObjects .bare true nested ns (xmlElement .bare ns name).1 os = r2 at he
      cases r2 with
      | ok e2 =>
        simp only [Run.ok.injEq] at he
        subst he
        have hd := xmlProperty_delivers h1 h2 h3 (ho o (List.mem_cons_self ..)) hx
        have e : e1 ++ XmlOut.stop (xmlElement .bare ns name).1 :: e2 =
            (e1 ++ [XmlOut.stop (xmlElement .bare ns name).1]) ++ e2 := by simp
        rw [e, List.flatMap_cons]
        refine hd.append ?_
        rcases hk with hk | hk
        · have e3 : (xmlElement .bare ns name).1 = name := by simp [xmlElement, hk]
          rw [e3] at hy
          exact ih (.inl hk) (fun o h => ho o (List.mem_cons_of_mem _ h)) hy
        · have : os = [] := by
            cases os with
            | nil => rfl
            | cons _ _ => simp at hk
          subst this
          simp only [xmlObjects, Run.ok.injEq] at hy
          subst hy
          exact Delivers.nil _
      | err => cases he
      | panic => cases he
      | deep => cases he
    | err => cases he
    | panic => cases he
    | deep => cases he

/-- The name of a property. -/
def propName (p : Iri) : XName :=
  match splitUri .bare p with
  | .ok (ns, name) => ⟨some ns, name⟩
  | .panic => ⟨none, []⟩

/-- A property, and the names it is written with. -/
theorem xmlProperty_names {p : Iri} (h : XmlProperty p) : ∃ ns name, SplitAt p ns name ∧
    splitUri .bare p = .ok (ns, name) ∧ isNcName name = true ∧ ns ≠ [] ∧ ns.all xmlPlain = true ∧
    propName p = ⟨some ns, name⟩ ∧ propertyIri ⟨some ns, name⟩ = some p := by
  obtain ⟨h1, ns, name, h2, h3, h4⟩ := h
  have hs := splitAt_split h2 fun c hc => by have := h1 c hc; omega
  obtain ⟨e, ⟨a, c, rfl, _⟩, _⟩ := h2
  refine ⟨a ++ [c], name, ⟨e, ⟨a, c, rfl, by assumption⟩, by assumption⟩, hs, h3, by simp, ?_, ?_, h4⟩
  · rw [List.all_eq_true]
    intro d hd
    obtain ⟨h5, h6⟩ := h1 d (by rw [← e]; exact List.mem_append_left _ hd)
    simp only [xmlPlain, inCodeRanges_iff]
    exact ⟨(0x20, 0x7E), by simp, h5, by simp only; omega⟩
  · simp [propName, hs]

/-- The events of the properties of a subject. -/
def predsIn (o : Orders) (g : Graph) (s : Subject) (ps : List Iri) : List XmlIn :=
  ps.flatMap fun p => (o.obj s p (g.objectsFor s p)).flatMap (propIn (propName p))

/-- A graph that RDF/XML can say, in which each property of a namespace with a prefix has one
value. -/
structure XmlGraph (o : Orders) (g : Graph) : Prop where
  stmts : ∀ st ∈ g.stmts, XmlStmt st
  single : ∀ s p, Known p → (o.obj s p (g.objectsFor s p)).length ≤ 1

theorem xmlObject_of {st : Stmt} (h : XmlStmt st) : XmlObject st.object := by
  obtain ⟨_, _, h⟩ := h
  cases e : st.object <;> rw [e] at h <;> exact h

theorem xml_objectsFor {g : Graph} {s : Subject} {p : Iri} {x : Object} :
    x ∈ g.objectsFor s p ↔ Stmt.mk s p x ∈ g.stmts := (C29_projections g).2.2.2.2.2.2.2.2.2.2.2.2.1 s p x

theorem xml_predicatesFor {g : Graph} {s : Subject} {p : Iri} :
    p ∈ g.predicatesFor s ↔ ∃ x, Stmt.mk s p x ∈ g.stmts := (C29_projections g).2.2.2.2.2.2.2.2.2.2.1 s p

theorem xml_subjects {g : Graph} {s : Subject} :
    s ∈ g.subjects ↔ ∃ st ∈ g.stmts, st.subject = s := (C29_projections g).1 s

theorem xmlPredicates_delivers {stack : List Open} {nested : Subject → Run (List XmlOut)} {o : Orders}
    (hf : o.Fair) {g : Graph} (hg : XmlGraph o g)
    (hr : (scopeOf stack).find (str! "rdf") = some rdfNs) {s : Subject} {ps : List Iri}
    (hps : ∀ p ∈ ps, p ∈ g.predicatesFor s) {es : List XmlOut}
    (he : xmlPredicates .bare true o g nested s ps = .ok es) :
    Delivers stack es (predsIn o g s ps) := by
  induction ps generalizing es with
  | nil =>
    simp only [xmlPredicates, Run.ok.injEq] at he
    subst he
    exact Delivers.nil _
  | cons p ps ih =>
    obtain ⟨x, hx⟩ := xml_predicatesFor.1 (hps p (List.mem_cons_self ..))
    obtain ⟨ns, name, h0, h1, h2, h3, h4, h5, h6⟩ := xmlProperty_names (hg.stmts _ hx).2.1
    simp only [xmlPredicates, Stmt.predicate] at he h1
    rw [h1] at he
    dsimp only at he
    generalize hy : xmlObjects .bare true nested ns name (o.obj s p (g.objectsFor s p)) = r at he
    cases r with
    | ok e1 =>
      simp only [Run.bind] at he
      generalize hz : xmlPredicates .bare true o g nested s ps = r2 at he
      cases r2 with
      | ok e2 =>
        simp only [Run.ok.injEq] at he
        subst he
        unfold predsIn
        rw [List.flatMap_cons]
        refine Delivers.append ?_ (ih (fun p h => hps p (List.mem_cons_of_mem _ h)) hz)
        have h5' : propName p = ⟨some ns, name⟩ := h5
        rw [h5']
        refine xmlObjects_delivers hr h2 h3 h4 ?_ ?_ hy
        · cases hm : xmlPrefix .bare ns with
          | none => exact .inl rfl
          | some q => exact .inr (hg.single s p ⟨ns, name, h0, (mappings_ok _ (xmlPrefix_mem hm)).2.2.1⟩)
        · intro y hy
          have := xml_objectsFor.1 ((hf.2.2 s p _).mem_iff.1 hy)
          exact xmlObject_of (hg.stmts _ this)
      | err => cases he
      | panic => cases he
      | deep => cases he
    | err => cases he
    | panic => cases he
    | deep => cases he

/-- The events of a node element. -/
def nodeIn (o : Orders) (g : Graph) (s : Subject) : List XmlIn :=
  .start (rdfX (str! "Description")) (nodeAttr s) :: predsIn o g s (o.pred s (g.predicatesFor s)) ++
    [.stop (rdfX (str! "Description"))]

theorem Run.ok_of_bind {α β : Type _} {x : Run α} {f : α → Run β} {b : β} (h : x.bind f = .ok b) :
    ∃ a, x = .ok a ∧ f a = .ok b := by
  cases x with
  | ok a => exact ⟨a, rfl, h⟩
  | err => cases h
  | panic => cases h
  | deep => cases h

theorem elementName_rdf {sc : Scope} (h : sc.find (str! "rdf") = some rdfNs) {s : Str}
    (hs : isNcName s = true) : elementName sc (rdfName s) = some (rdfX s) := by
  rw [rdfName_eq]
  unfold elementName
  rw [qname_prefixed (by decide +kernel) hs]
  simp only [h]
  rfl

theorem xmlSubject_delivers {stack : List Open} {o : Orders} (hf : o.Fair) {g : Graph} (hg : XmlGraph o g)
    (hr : (scopeOf stack).find (str! "rdf") = some rdfNs) {d : Nat} {s : Subject} (hs : s ∈ g.subjects)
    {es : List XmlOut} (he : xmlSubject .bare true o g d s = .ok es) :
    Delivers stack es (nodeIn o g s) := by
  cases d with
  | zero => cases he
  | succ d =>
    obtain ⟨h, h1, he⟩ := Run.ok_of_bind he
    obtain ⟨b, h2, he⟩ := Run.ok_of_bind he
    simp only [Run.ok.injEq] at he
    subst he
    obtain ⟨st, hst, rfl⟩ := xml_subjects.1 hs
    have hsub := (hg.stmts st hst).1
    have body := fun stack hr => xmlPredicates_delivers (stack := stack) hf hg hr
      (fun p hp => ((hf.2.1 st.subject _).mem_iff).1 hp) h2
    cases e : st.subject with
    | res i =>
      rw [e] at h1 hsub body
      simp only [xmlHead, Run.ok.injEq] at h1
      subst h1
      refine Delivers.element (ns := []) (elementName_rdf hr (by decide +kernel)) ?_ rfl ?_ (body _ hr)
      · have : attributeName ([] ++ scopeOf stack) (rdfName (str! "about")) = some (rdfX (str! "about")) :=
          attributeName_rdf hr (by decide +kernel)
        simp only [attributesIn, this, hsub.1, if_true]
        rfl
      · simp [nodeAttr]
    | blank b =>
      rw [e] at h1 hsub body
      simp only [xmlHead, Run.ok.injEq, if_true] at h1
      subst h1
      refine Delivers.element (ns := []) (elementName_rdf hr (by decide +kernel)) ?_ rfl ?_ (body _ hr)
      · have : attributeName ([] ++ scopeOf stack) (rdfName (str! "nodeID")) = some (rdfX (str! "nodeID")) :=
          attributeName_rdf hr (by decide +kernel)
        simp only [attributesIn, this, ncName_plain hsub, if_true]
        rfl
      · simp [nodeAttr]
    | stmt t =>
      rw [e] at hsub
      exact hsub.elim

theorem xmlSubjects_delivers {stack : List Open} {o : Orders} (hf : o.Fair) {g : Graph} (hg : XmlGraph o g)
    (hr : (scopeOf stack).find (str! "rdf") = some rdfNs) {d : Nat} {ss : List Subject}
    (hs : ∀ s ∈ ss, s ∈ g.subjects) {es : List XmlOut}
    (he : xmlSubjects (xmlSubject .bare true o g d) ss = .ok es) :
    Delivers stack es (ss.flatMap (nodeIn o g)) := by
  induction ss generalizing es with
  | nil =>
    simp only [xmlSubjects, Run.ok.injEq] at he
    subst he
    exact Delivers.nil _
  | cons s ss ih =>
    obtain ⟨a, h1, he⟩ := Run.ok_of_bind he
    obtain ⟨b, h2, he⟩ := Run.ok_of_bind he
    simp only [Run.ok.injEq] at he
    subst he
    rw [List.flatMap_cons]
    exact (xmlSubject_delivers hf hg hr (hs s (List.mem_cons_self ..)) h1).append
      (ih (fun s h => hs s (List.mem_cons_of_mem _ h)) h2)

/-- The events of the document. -/
def graphIn (o : Orders) (g : Graph) : List XmlIn :=
  .other :: .start (rdfX (str! "RDF")) [] :: (o.subj g.subjects).flatMap (nodeIn o g) ++
    [.stop (rdfX (str! "RDF"))]

theorem writeXml_delivers {gen : Nat → Str} {n : Nat} {enc : Str} {o : Orders} (hf : o.Fair) {d : Nat}
    {g : Graph} (hg : XmlGraph o (g.simplify gen n).1) {es : List XmlOut}
    (he : writeXml gen n .bare true enc o d g = .ok es) :
    deliver es = some (graphIn o (g.simplify gen n).1) := by
  obtain ⟨b, h1, he⟩ := Run.ok_of_bind he
  simp only [Run.ok.injEq] at he
  subst he
  have e : ∀ l : List Subject, l.filter (fun s => true || s.isResource) = l := fun l => by simp
  rw [e] at h1
  refine deliver_of (ins := .start (rdfX (str! "RDF")) [] :: (o.subj _).flatMap (nodeIn o _) ++
    [.stop (rdfX (str! "RDF"))]) ?_
  rw [rdfTable_ns, rdfTable_pfx]
  have hr : Scope.find [(str! "rdf", rdfNs)] (str! "rdf") = some rdfNs := find_cons_self ..
  refine Delivers.element (elementName_rdf hr (by decide +kernel)) rfl (by decide +kernel) (by simp) ?_
  exact xmlSubjects_delivers hf hg (by exact hr) (fun s hs => (hf.1 _).mem_iff.1 hs) h1

/-! ### What the document says -/

theorem xml_iriValue {b : Option Str} {s : Str} (h : hasScheme s = true) : iriValue b s = some s := by
  simp [iriValue, h]

theorem textsOf_textIn (s : Str) : textsOf (textIn s) = some s := by
  unfold textIn
  split
  · rename_i h
    rw [List.isEmpty_iff.1 h]
    rfl
  · split <;> simp [textsOf, textOf]

theorem attr_nil (n : XName) : attr n [] = none := rfl

theorem enter_nil (c : XmlScope) : c.enter [] = c := by
  simp [XmlScope.enter, attr]

theorem rdfX_ne {a b : Str} (h : a ≠ b) : (rdfX a == rdfX b) = false := by
  simp [rdfX, h]

theorem propElt_propIn {gen : Nat → Str} {n : Nat} {c : XmlScope} (hc : c.lang = none) {s : Subject}
    {x : XName} {p : Iri} {o : Object} (hx : propertyIri x = some p) (ho : XmlObject o) :
    PropElt gen c s n (propIn x o) n [.mk s p o] := by
  cases o with
  | res i =>
    refine PropElt.resource hx (v := i.text) (ps := []) (by simp [attr]) (xml_iriValue ho.2) ?_ .nil
    simp
  | blank b =>
    refine PropElt.nodeId hx (ps := []) (by simp [attr]) ho ?_ .nil
    simp
  | lit l =>
    obtain ⟨_, h2, h3, h4⟩ := ho
    have hd : (isXmlAttr ⟨rdfX (str! "datatype"), []⟩) = false := by decide +kernel
    have hl : (isXmlAttr ⟨xmlX (str! "lang"), []⟩) = true := by decide +kernel
    have ne : (xmlX (str! "lang") == rdfX (str! "datatype")) = false := by decide +kernel
    have ne2 : (rdfX (str! "datatype") == xmlX (str! "base")) = false := by decide +kernel
    have ne3 : (rdfX (str! "datatype") == xmlX (str! "lang")) = false := by decide +kernel
    have ne4 : (xmlX (str! "lang") == xmlX (str! "base")) = false := by decide +kernel
    refine PropElt.literal (body := textIn l.lexicalForm) hx
      (type := l.dataType.map fun t => t.asIri.text) ?_ (textsOf_textIn _) ?_ ?_ ⟨rfl, ?_, ?_⟩
    · unfold litAttrs
      cases e : l.dataType <;> cases e' : l.language with
      | none => simp
      | some g => simp [(h4 g e').1, isXmlAttr, xmlX]
    · unfold litAttrs
      cases e : l.dataType with
      | none => cases e' : l.language with
        | none => simp [attr]
        | some g => simp [(h4 g e').1, attr, List.find?, ne]
      | some t =>
        have := h3 t e
        cases e' : l.language with
        | none => simp [attr, xml_iriValue this.2]
        | some g => simp [(h4 g e').1, attr, List.find?, ne, xml_iriValue this.2]
    · unfold litAttrs
      cases e : l.dataType with
      | none => cases e' : l.language with
        | none => simp [attr]
        | some g => simp [(h4 g e').1, attr, List.find?, ne]
      | some t => simp
    · cases l.dataType <;> rfl
    · unfold litAttrs
      cases e : l.dataType with
      | none =>
        cases e' : l.language with
        | none => simp [XmlScope.enter, attr, hc]
        | some g =>
          have := (h4 g e').1
          cases g with
          | nil => exact absurd rfl this
          | cons a g => simp [XmlScope.enter, attr, List.find?]
      | some t =>
        cases e' : l.language with
        | none => simp
        | some g =>
          rcases h2 with h2 | h2
          · rw [h2] at e; cases e
          · rw [h2] at e'; cases e'
  | coll _ => exact ho.elim
  | stmt _ => exact ho.elim

theorem propList_objs {gen : Nat → Str} {n k : Nat} {c : XmlScope} (hc : c.lang = none) {s : Subject}
    {x : XName} {p : Iri} {os : List Object} (hx : propertyIri x = some p) (ho : ∀ o ∈ os, XmlObject o)
    {b : List XmlIn} {U : List Stmt} (hb : PropList gen c s n b k U) :
    PropList gen c s n (os.flatMap (propIn x) ++ b) k (os.map (Stmt.mk s p) ++ U) := by
  induction os with
  | nil => exact hb
  | cons o os ih =>
    rw [List.flatMap_cons, List.append_assoc]
    exact .cons (T := [.mk s p o]) (propElt_propIn hc hx (ho o (List.mem_cons_self ..)))
      (ih fun o h => ho o (List.mem_cons_of_mem _ h))

theorem propList_preds {gen : Nat → Str} {n : Nat} {c : XmlScope} (hc : c.lang = none) {o : Orders}
    (hf : o.Fair) {g : Graph} (hg : ∀ st ∈ g.stmts, XmlStmt st) {s : Subject} {ps : List Iri}
    (hps : ∀ p ∈ ps, p ∈ g.predicatesFor s) :
    PropList gen c s n (predsIn o g s ps) n
      (ps.flatMap fun p => (o.obj s p (g.objectsFor s p)).map fun x => Stmt.mk s p x) := by
  induction ps with
  | nil => exact .nil
  | cons p ps ih =>
    unfold predsIn
    rw [List.flatMap_cons, List.flatMap_cons]
    obtain ⟨x, hx⟩ := xml_predicatesFor.1 (hps p (List.mem_cons_self ..))
    obtain ⟨ns, name, _, _, _, _, _, h5, h6⟩ := xmlProperty_names (hg _ hx).2.1
    refine propList_objs hc ?_ ?_ (ih fun p h => hps p (List.mem_cons_of_mem _ h))
    · have h5' : propName p = ⟨some ns, name⟩ := h5
      rw [h5']
      exact h6
    · intro y hy
      have := xml_objectsFor.1 ((hf.2.2 s p _).mem_iff.1 hy)
      exact xmlObject_of (hg _ this)

theorem nodeElt_nodeIn {gen : Nat → Str} {n : Nat} {o : Orders} (hf : o.Fair) {g : Graph}
    (hg : ∀ st ∈ g.stmts, XmlStmt st) {s : Subject} (hs : s ∈ g.subjects) :
    NodeElt gen ⟨none, none⟩ n (nodeIn o g s) s n
      ((o.pred s (g.predicatesFor s)).flatMap fun p =>
        (o.obj s p (g.objectsFor s p)).map fun x => Stmt.mk s p x) := by
  obtain ⟨st, hst, rfl⟩ := xml_subjects.1 hs
  have hsub := (hg st hst).1
  have hname : (nameIri (rdfX (str! "Description"))).isSome = true := by decide +kernel
  have body := fun c hc => propList_preds (gen := gen) (n := n) (c := c) hc hf hg (s := st.subject)
      (fun p hp => ((hf.2.1 st.subject _).mem_iff).1 hp)
  have ht : ∀ s, typeStmts (rdfX (str! "Description")) s = [] := fun s => by simp [typeStmts]
  cases e : st.subject with
  | res i =>
    rw [e] at hsub body
    have := NodeElt.mk (c := ⟨none, none⟩) (as := nodeAttr (.res i)) (ps := []) (ts := []) hname
      (n' := n) (s := .res i) (n := n) (gen := gen) ?_ .nil (body _ ?_)
    · rw [ht, List.nil_append, List.nil_append] at this
      exact this
    · have h : [] = (nodeAttr (.res i)).filter fun a => !isXmlAttr a && a.name != rdfX (str! "about") := by
        simp [nodeAttr]
      rw [h]
      exact SubjectOf.about (v := i.text) (i := i.text) (by simp [attr, nodeAttr]) (xml_iriValue hsub.2)
    · have : (rdfX (str! "about") == xmlX (str! "lang")) = false := by decide +kernel
      simp [XmlScope.enter, attr, nodeAttr, List.find?, this]
  | blank b =>
    rw [e] at hsub body
    have := NodeElt.mk (c := ⟨none, none⟩) (as := nodeAttr (.blank b)) (ps := []) (ts := []) hname
      (n' := n) (s := .blank b) (n := n) (gen := gen) ?_ .nil (body _ ?_)
    · rw [ht, List.nil_append, List.nil_append] at this
      exact this
    · have h : [] = (nodeAttr (.blank b)).filter fun a => !isXmlAttr a && a.name != rdfX (str! "nodeID") := by
        simp [nodeAttr]
      rw [h]
      exact SubjectOf.nodeId (by simp [attr, nodeAttr]) hsub
    · have : (rdfX (str! "nodeID") == xmlX (str! "lang")) = false := by decide +kernel
      simp [XmlScope.enter, attr, nodeAttr, List.find?, this]
  | stmt t =>
    rw [e] at hsub
    exact hsub.elim

theorem rdfXml_graphIn {gen : Nat → Str} {n : Nat} {o : Orders} (hf : o.Fair) {g : Graph}
    (hg : ∀ st ∈ g.stmts, XmlStmt st) : RdfXml gen n (graphIn o g) (g.visit o) := by
  refine ⟨[.other], [], [], (o.subj g.subjects).flatMap (nodeIn o g), n, by simp [graphIn], rfl, rfl, rfl, ?_⟩
  rw [enter_nil]
  unfold Graph.visit
  have : ∀ ss : List Subject, (∀ s ∈ ss, s ∈ g.subjects) → NodeList gen ⟨none, none⟩ n
      (ss.flatMap (nodeIn o g)) n (ss.flatMap fun s => (o.pred s (g.predicatesFor s)).flatMap fun p =>
        (o.obj s p (g.objectsFor s p)).map fun x => Stmt.mk s p x) := by
    intro ss
    induction ss with
    | nil => exact fun _ => .nil
    | cons s ss ih =>
      intro h
      rw [List.flatMap_cons, List.flatMap_cons]
      exact .cons (nodeElt_nodeIn hf hg (h s (List.mem_cons_self ..)))
        (ih fun s hs => h s (List.mem_cons_of_mem _ hs))
  exact this _ fun s hs => (hf.1 _).mem_iff.1 hs

end Rdftk
