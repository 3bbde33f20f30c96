import Verif.Lemmas.Xml

/-!
Lemmas on what the RDF/XML writer writes in either style.
-/

namespace Rdftk
open Spec

/-! ### Names that are not names -/

theorem qname_gt (m : Str) : qname (m ++ ['>']) = none := by
  have gt : isNcChar '>' = false := by decide +kernel
  have e : (m ++ ['>']).takeWhile (· != ':') ++ (m ++ ['>']).dropWhile (· != ':') = m ++ ['>'] :=
    List.takeWhile_append_dropWhile
  unfold qname
  generalize (m ++ ['>']).takeWhile (· != ':') = a at e ⊢
  generalize (m ++ ['>']).dropWhile (· != ':') = b at e ⊢
  cases b with
  | nil =>
    simp only
    split
    · rename_i h
      have := ncName_char h '>' (by rw [List.append_nil] at e; rw [e]; simp)
      rw [gt] at this
      cases this
    · rfl
  | cons x b =>
    simp only [Bool.and_eq_true]
    split
    · rename_i h
      have hb : '>' ∈ b := by
        rcases List.eq_nil_or_concat b with rfl | ⟨b, y, rfl⟩
        · simp [isNcName] at h
        · rw [List.concat_eq_append] at e ⊢
          have e2 : (a ++ x :: b) ++ [y] = m ++ ['>'] := by simpa using e
          have := (List.append_inj' e2 rfl).2
          simp only [List.cons.injEq, and_true] at this
          simp [this]
      have := ncName_char h.2 '>' hb
      rw [gt] at this
      cases this
    · rfl

theorem contentIn_bad {es : List XmlOut} {n : Str} {ns as : List (Str × Str)}
    (h : XmlOut.start n ns as ∈ es) (hn : qname n = none) (stack : List Open) : contentIn stack es = none := by
  induction es generalizing stack with
  | nil => simp at h
  | cons e es ih =>
    rcases List.mem_cons.1 h with rfl | h
    · cases stack <;> simp [contentIn, elementName, hn]
    · have ih := ih h
      cases e with
      | document d => cases stack <;> rfl
      | start m d a =>
        cases stack <;> simp only [contentIn] <;> split <;> try rfl
        all_goals
          split
          · rw [ih]; rfl
          · rfl
      | chars s =>
        cases stack with
        | nil => rfl
        | cons e st => simp only [contentIn]; rw [ih]; simp
      | stop m =>
        cases stack with
        | nil => rfl
        | cons e st => simp only [contentIn]; rw [ih]; simp

theorem byteLen_append (a b : Str) : byteLen (a ++ b) = byteLen a + byteLen b := by simp [byteLen]

theorem splitBytes_len {k : Nat} {s a b : Str} (h : splitBytes k s = .ok (a, b)) : byteLen a = k := by
  induction s generalizing k a with
  | nil =>
    cases k with
    | zero => simp [splitBytes] at h; rw [h.1]; rfl
    | succ k => simp [splitBytes] at h
  | cons c s ih =>
    cases k with
    | zero => simp [splitBytes] at h; rw [h.1]; rfl
    | succ k =>
      simp only [splitBytes] at h
      split at h
      · split at h
        · rename_i hk a' b' e
          simp only [Outcome.ok.injEq, Prod.mk.injEq] at h
          obtain ⟨rfl, rfl⟩ := h
          have := ih e
          simp only [byteLen, List.map_cons, List.sum_cons] at this ⊢
          omega
        · cases h
      · cases h

/-- In brackets the local name ends with one. -/
theorem splitUri_bracketed {i : Iri} {ns name : Str} (h : splitUri .bracketed i = .ok (ns, name)) :
    ∃ m, name = m ++ ['>'] := by
  have e := splitUri_append h
  unfold splitUri at h
  split at h
  · cases h
  · rename_i idx hidx
    split at h
    · cases h
    · have hl := splitBytes_len h
      have hi : idx ≠ 0 := by
        rintro rfl
        rw [List.findIdx?_eq_some_iff_getElem] at hidx
        obtain ⟨h1, h2, _⟩ := hidx
        simp [Iri.fmt] at h2
      have hb : byteLen (i.fmt .bracketed) = byteLen ns + byteLen name := by rw [← e, byteLen_append]
      have hpos : 0 < byteLen (i.fmt .bracketed) := by
        simp only [Iri.fmt, byteLen, List.cons_append, List.map_cons, List.sum_cons]
        have : 0 < ('<').utf8Size := Char.utf8Size_pos _
        omega
      rcases List.eq_nil_or_concat name with rfl | ⟨m, y, rfl⟩
      · have : byteLen ([] : Str) = 0 := rfl
        omega
      · rw [List.concat_eq_append] at e ⊢
        have e2 : (ns ++ m) ++ [y] = ('<' :: i.text) ++ ['>'] := by simpa [Iri.fmt] using e
        have := (List.append_inj' e2 rfl).2
        simp only [List.cons.injEq, and_true] at this
        exact ⟨m, by rw [this]⟩

theorem xmlElement_gt {sty : IriStyle} {ns name : Str} (h : ∃ m, name = m ++ ['>']) :
    ∃ m, (xmlElement sty ns name).1 = m ++ ['>'] := by
  obtain ⟨m, rfl⟩ := h
  unfold xmlElement
  split
  · rename_i p _
    exact ⟨p ++ ':' :: m, by simp⟩
  · exact ⟨m, rfl⟩

theorem xmlProperty_start {sty : IriStyle} {flat : Bool} {nested : Subject → Run (List XmlOut)} {n : Str}
    {d : List (Str × Str)} {o : Object} {es : List XmlOut} (h : xmlProperty sty flat nested n d o = .ok es) :
    ∃ as, XmlOut.start n d as ∈ es := by
  cases o with
  | res i => cases h; exact ⟨_, List.mem_cons_self ..⟩
  | blank b =>
    simp only [xmlProperty] at h
    split at h
    · cases h; exact ⟨_, List.mem_cons_self ..⟩
    · obtain ⟨_, _, h⟩ := Run.ok_of_bind h
      cases h; exact ⟨_, List.mem_cons_self ..⟩
  | lit l => cases h; exact ⟨_, List.mem_cons_self ..⟩
  | coll _ => cases h
  | stmt _ => cases h

theorem xmlObjects_gt {sty : IriStyle} {flat : Bool} {nested : Subject → Run (List XmlOut)} {ns name : Str}
    {os : List Object} {es : List XmlOut} (hn : ∃ m, name = m ++ ['>']) (ho : os ≠ [])
    (h : xmlObjects sty flat nested ns name os = .ok es) : ∃ m d as, XmlOut.start (m ++ ['>']) d as ∈ es := by
  cases os with
  | nil => exact absurd rfl ho
  | cons o os =>
    obtain ⟨a, h1, h⟩ := Run.ok_of_bind h
    obtain ⟨b, h2, h⟩ := Run.ok_of_bind h
    cases h
    obtain ⟨m, hm⟩ := xmlElement_gt (sty := sty) (ns := ns) hn
    obtain ⟨as, has⟩ := xmlProperty_start h1
    rw [hm] at has
    exact ⟨m, _, as, List.mem_append_left _ has⟩

theorem xmlObjects_twice {flat : Bool} {nested : Subject → Run (List XmlOut)} {ns name : Str}
    {os : List Object} {es : List XmlOut} (hk : ns ∈ knownNamespaces) (ho : 2 ≤ os.length)
    (h : xmlObjects .bare flat nested ns name os = .ok es) :
    ∃ n d as, XmlOut.start n d as ∈ es ∧ qname n = none := by
  match os, ho with
  | x :: y :: os, _ =>
    obtain ⟨a, h1, h⟩ := Run.ok_of_bind h
    obtain ⟨b, h2, h⟩ := Run.ok_of_bind h
    obtain ⟨c, h3, h2⟩ := Run.ok_of_bind h2
    obtain ⟨e, h4, h2⟩ := Run.ok_of_bind h2
    cases h
    cases h2
    obtain ⟨as, has⟩ := xmlProperty_start h3
    obtain ⟨p, hp⟩ := Option.isSome_iff_exists.1 (known_prefix hk)
    have hn : ∀ n, (xmlElement .bare ns n).1 = p ++ ':' :: n := fun n => by simp [xmlElement, hp]
    refine ⟨_, _, as, List.mem_append_right _ (List.mem_cons_of_mem _ (List.mem_append_left _ has)), ?_⟩
    have hc := ncName_no_colon (mappings_ok _ (xmlPrefix_mem hp)).1
    rw [hn, hn]
    have hbad : isNcName (p ++ ':' :: name) = false := by
      cases e : isNcName (p ++ ':' :: name) with
      | false => rfl
      | true => exact absurd (by simp) (ncName_no_colon e)
    simp [qname, span_colon hc, hbad]

theorem xmlPredicates_bad {sty : IriStyle} {flat : Bool} {o : Orders} {g : Graph}
    {nested : Subject → Run (List XmlOut)} {s : Subject} {ps : List Iri} {es : List XmlOut} {p : Iri}
    (hp : p ∈ ps)
    (hbad : ∀ nested ns name es, splitUri sty p = .ok (ns, name) →
      xmlObjects sty flat nested ns name (o.obj s p (g.objectsFor s p)) = .ok es →
      ∃ n d as, XmlOut.start n d as ∈ es ∧ qname n = none)
    (h : xmlPredicates sty flat o g nested s ps = .ok es) :
    ∃ n d as, XmlOut.start n d as ∈ es ∧ qname n = none := by
  induction ps generalizing es with
  | nil => simp at hp
  | cons q ps ih =>
    simp only [xmlPredicates] at h
    split at h
    · cases h
    · rename_i ns name hs
      obtain ⟨a, h1, h⟩ := Run.ok_of_bind h
      obtain ⟨b, h2, h⟩ := Run.ok_of_bind h
      cases h
      rcases List.mem_cons.1 hp with rfl | hp
      · obtain ⟨m, d, as, hm, hq⟩ := hbad _ _ _ _ hs h1
        exact ⟨m, d, as, List.mem_append_left _ hm, hq⟩
      · obtain ⟨m, d, as, hm, hq⟩ := ih hp h2
        exact ⟨m, d, as, List.mem_append_right _ hm, hq⟩

theorem xmlSubjects_mem {f : Subject → Run (List XmlOut)} {ss : List Subject} {s : Subject} (hs : s ∈ ss)
    {es : List XmlOut} (h : xmlSubjects f ss = .ok es) : ∃ a, f s = .ok a ∧ ∀ e ∈ a, e ∈ es := by
  induction ss generalizing es with
  | nil => simp at hs
  | cons t ss ih =>
    obtain ⟨a, h1, h⟩ := Run.ok_of_bind h
    obtain ⟨b, h2, h⟩ := Run.ok_of_bind h
    cases h
    rcases List.mem_cons.1 hs with rfl | hs
    · exact ⟨a, h1, fun e he => List.mem_append_left _ he⟩
    · obtain ⟨c, h3, h4⟩ := ih hs h2
      exact ⟨c, h3, fun e he => List.mem_append_right _ (h4 e he)⟩

theorem writeXml_bad {gen : Nat → Str} {n : Nat} {sty : IriStyle} {flat : Bool} {enc : Str} {o : Orders}
    (hf : o.Fair) {d : Nat} {g : Graph} {es : List XmlOut} {st : Stmt}
    (hst : st ∈ (g.simplify gen n).1.stmts) (hres : (flat || st.subject.isResource) = true)
    (hbad : ∀ nested ns name es, splitUri sty st.predicate = .ok (ns, name) →
      xmlObjects sty flat nested ns name
        (o.obj st.subject st.predicate ((g.simplify gen n).1.objectsFor st.subject st.predicate)) = .ok es →
      ∃ n d as, XmlOut.start n d as ∈ es ∧ qname n = none)
    (h : writeXml gen n sty flat enc o d g = .ok es) : deliver es = none := by
  obtain ⟨b, h1, h⟩ := Run.ok_of_bind h
  simp only [Run.ok.injEq] at h
  subst h
  have hs : st.subject ∈ (o.subj (g.simplify gen n).1.subjects).filter fun s => flat || s.isResource := by
    rw [List.mem_filter]
    exact ⟨(hf.1 _).mem_iff.2 (xml_subjects.2 ⟨st, hst, rfl⟩), hres⟩
  obtain ⟨a, ha, hsub⟩ := xmlSubjects_mem hs h1
  cases d with
  | zero => cases ha
  | succ d =>
    obtain ⟨c, _, ha⟩ := Run.ok_of_bind ha
    obtain ⟨e, he, ha⟩ := Run.ok_of_bind ha
    simp only [Run.ok.injEq] at ha
    subst ha
    have hst' : Stmt.mk st.subject st.predicate st.object ∈ (g.simplify gen n).1.stmts := by
      cases st; exact hst
    obtain ⟨m, dd, as, hm, hq⟩ := xmlPredicates_bad (p := st.predicate)
      ((hf.2.1 _ _).mem_iff.2 (xml_predicatesFor.2 ⟨st.object, hst'⟩)) hbad he
    have hin : XmlOut.start m dd as ∈ b := hsub _ (by simp [hm])
    simp only [deliver, List.cons_append]
    rw [contentIn_bad (n := m) (ns := dd) (as := as) (by simp [hin]) hq]
    rfl

/-- In brackets no property is given a name that XML has. -/
theorem writeXml_bracketed {gen : Nat → Str} {n : Nat} {flat : Bool} {enc : Str} {o : Orders} (hf : o.Fair)
    {d : Nat} {g : Graph} {es : List XmlOut} {st : Stmt} (hst : st ∈ (g.simplify gen n).1.stmts)
    (hres : (flat || st.subject.isResource) = true)
    (h : writeXml gen n .bracketed flat enc o d g = .ok es) : deliver es = none := by
  refine writeXml_bad hf hst hres (fun nested ns name es hs he => ?_) h
  have hst' : Stmt.mk st.subject st.predicate st.object ∈ (g.simplify gen n).1.stmts := by
    cases st; exact hst
  obtain ⟨m, d, as, hm⟩ := xmlObjects_gt (splitUri_bracketed hs) (fun hnil => by
    have := (hf.2.2 st.subject st.predicate _).mem_iff.2 (xml_objectsFor.2 hst')
    rw [hnil] at this
    simp at this) he
  exact ⟨_, d, as, hm, qname_gt m⟩

/-! ### Balance -/

/-- The parts close what they open. -/
def Bal (es : List XmlOut) : Prop := ∀ stack rest, balanced stack (es ++ rest) = balanced stack rest

theorem Bal.nil : Bal [] := fun _ _ => rfl

theorem Bal.append {a b : List XmlOut} (ha : Bal a) (hb : Bal b) : Bal (a ++ b) := fun st rest => by
  rw [List.append_assoc, ha, hb]

theorem Bal.element {n : Str} {ns as : List (Str × Str)} {body : List XmlOut} (hb : Bal body) :
    Bal (.start n ns as :: body ++ [.stop n]) := fun st rest => by
  simp only [List.cons_append, List.append_assoc, balanced, List.nil_append]
  rw [hb]
  simp [balanced]

theorem Bal.chars (s : Str) : Bal [.chars s] := fun st rest => by cases st <;> rfl

theorem xmlProperty_bal {sty : IriStyle} {flat : Bool} {nested : Subject → Run (List XmlOut)} {n : Str}
    {d : List (Str × Str)} {o : Object} {es : List XmlOut} (hn : ∀ s es, nested s = .ok es → Bal es)
    (h : xmlProperty sty flat nested n d o = .ok es) : Bal (es ++ [.stop n]) := by
  cases o with
  | res i => cases h; exact Bal.element Bal.nil
  | blank b =>
    simp only [xmlProperty] at h
    split at h
    · cases h; exact Bal.element Bal.nil
    · obtain ⟨e, he, h⟩ := Run.ok_of_bind h
      cases h; exact Bal.element (hn _ _ he)
  | lit l => cases h; exact Bal.element (Bal.chars _)
  | coll _ => cases h
  | stmt _ => cases h

theorem xmlObjects_bal {sty : IriStyle} {flat : Bool} {nested : Subject → Run (List XmlOut)} {ns name : Str}
    {os : List Object} {es : List XmlOut} (hn : ∀ s es, nested s = .ok es → Bal es)
    (h : xmlObjects sty flat nested ns name os = .ok es) : Bal es := by
  induction os generalizing es name with
  | nil => cases h; exact Bal.nil
  | cons o os ih =>
    obtain ⟨a, h1, h⟩ := Run.ok_of_bind h
    obtain ⟨b, h2, h⟩ := Run.ok_of_bind h
    cases h
    have := (xmlProperty_bal hn h1).append (ih h2)
    simpa using this

theorem xmlPredicates_bal {sty : IriStyle} {flat : Bool} {o : Orders} {g : Graph}
    {nested : Subject → Run (List XmlOut)} {s : Subject} {ps : List Iri} {es : List XmlOut}
    (hn : ∀ s es, nested s = .ok es → Bal es)
    (h : xmlPredicates sty flat o g nested s ps = .ok es) : Bal es := by
  induction ps generalizing es with
  | nil => cases h; exact Bal.nil
  | cons p ps ih =>
    simp only [xmlPredicates] at h
    split at h
    · cases h
    · obtain ⟨a, h1, h⟩ := Run.ok_of_bind h
      obtain ⟨b, h2, h⟩ := Run.ok_of_bind h
      cases h
      exact (xmlObjects_bal hn h1).append (ih h2)

theorem xmlSubject_bal {sty : IriStyle} {flat : Bool} {o : Orders} {g : Graph} {d : Nat} :
    ∀ s es, xmlSubject sty flat o g d s = .ok es → Bal es := by
  induction d with
  | zero => intro s es h; cases h
  | succ d ih =>
    intro s es h
    obtain ⟨a, h1, h⟩ := Run.ok_of_bind h
    obtain ⟨b, h2, h⟩ := Run.ok_of_bind h
    cases h
    have hb := xmlPredicates_bal ih h2
    cases s with
    | res i => cases h1; exact Bal.element hb
    | blank c => cases h1; exact Bal.element hb
    | stmt t => cases h1

theorem writeXml_bal {gen : Nat → Str} {n : Nat} {sty : IriStyle} {flat : Bool} {enc : Str} {o : Orders}
    {d : Nat} {g : Graph} {es : List XmlOut} (h : writeXml gen n sty flat enc o d g = .ok es) :
    balanced [] es = true := by
  obtain ⟨b, h1, h⟩ := Run.ok_of_bind h
  cases h
  have : ∀ (ss : List Subject) (b : List XmlOut),
      xmlSubjects (xmlSubject sty flat o (g.simplify gen n).1 d) ss = .ok b → Bal b := by
    intro ss
    induction ss with
    | nil => intro b h; cases h; exact Bal.nil
    | cons s ss ih =>
      intro b h
      obtain ⟨x, h1, h⟩ := Run.ok_of_bind h
      obtain ⟨y, h2, h⟩ := Run.ok_of_bind h
      cases h
      exact (xmlSubject_bal s x h1).append (ih y h2)
  have hb := Bal.element (n := rdfName (str! "RDF")) (ns := [(rdfTable.pfx, rdfTable.ns)]) (as := []) (this _ b h1)
  have := hb [] []
  rw [List.append_nil] at this
  simp only [List.cons_append, balanced] at this ⊢
  exact this

/-! ### Splitting -/

theorem splitBytes_any (a b : Str) : splitBytes (byteLen a) (a ++ b) = .ok (a, b) := by
  induction a with
  | nil => cases b <;> rfl
  | cons c a ih =>
    have h : byteLen (c :: a) = c.utf8Size + byteLen a := by simp [byteLen]
    have hpos := Char.utf8Size_pos c
    obtain ⟨k, hk⟩ : ∃ k, byteLen (c :: a) = k + 1 := ⟨byteLen (c :: a) - 1, by omega⟩
    rw [hk, List.cons_append, splitBytes]
    rw [if_pos (by omega), show k + 1 - c.utf8Size = byteLen a by omega, ih]

theorem byteLen_ge (s : Str) : s.length ≤ byteLen s := by
  induction s with
  | nil => simp [byteLen]
  | cons c s ih =>
    have := Char.utf8Size_pos c
    simp only [byteLen, List.map_cons, List.sum_cons, List.length_cons] at ih ⊢
    omega

theorem byteLen_length_iff {s : Str} : byteLen s = s.length ↔ ∀ c ∈ s, c.toNat < 0x80 := by
  refine ⟨fun h => ?_, byteLen_ascii⟩
  induction s with
  | nil => simp
  | cons c s ih =>
    have hpos := Char.utf8Size_pos c
    have hs := byteLen_ge s
    have e : byteLen (c :: s) = c.utf8Size + byteLen s := by simp [byteLen]
    rw [e, List.length_cons] at h
    intro x hx
    rcases List.mem_cons.1 hx with rfl | hx
    · have h1 : x.utf8Size = 1 := by omega
      have := Char.utf8Size_eq_one_iff.1 h1
      have h2 : x.val.toNat ≤ 127 := UInt32.le_iff_toNat_le.1 this
      show x.val.toNat < 128
      omega
    · exact ih (by omega) x hx

/-- The split is right if and only if the local name is ASCII. -/
theorem splitUri_iff {i : Iri} {a b : Str} {c : Char} (h : i.text = a ++ c :: b) (hc : isSep c)
    (hb : ∀ d ∈ b, ¬isSep d) :
    splitUri .bare i = .ok (a ++ [c], b) ↔ ∀ d ∈ b, d.toNat < 0x80 := by
  have hi : (i.fmt .bare).reverse.findIdx? (fun c => c == '#' || c == '/') = some b.length := by
    show i.text.reverse.findIdx? _ = _
    rw [h]
    exact findIdx?_reverse_sep _ a b c (sepBool.2 hc) fun d hd => by
      cases e : (d == '#' || d == '/') with
      | false => rfl
      | true => exact absurd (sepBool.1 e) (hb d hd)
  have e : a ++ c :: b = (a ++ [c]) ++ b := by simp
  have hl : byteLen i.text = byteLen (a ++ [c]) + byteLen b := by rw [h, e, byteLen_append]
  have hpos : 0 < byteLen (a ++ [c]) := by
    have := byteLen_ge (a ++ [c])
    simp at this
    omega
  have hbl := byteLen_ge b
  unfold splitUri
  rw [hi]
  dsimp only
  rw [show i.fmt .bare = i.text from rfl, if_neg (by omega)]
  constructor
  · intro hs
    have := splitBytes_len hs
    exact byteLen_length_iff.1 (by omega)
  · intro hs
    rw [show byteLen i.text - b.length = byteLen (a ++ [c]) by rw [byteLen_ascii hs] at hl; omega, h, e]
    exact splitBytes_any _ _

/-! ### Panics -/

theorem splitUri_ok {sty : IriStyle} {p : Iri} (ha : ∀ c ∈ p.text, c.toNat < 0x80)
    (hs : ∃ c ∈ p.text, isSep c) : ∃ ns name, splitUri sty p = .ok (ns, name) := by
  have ha' : ∀ c ∈ p.fmt sty, c.toNat < 0x80 := by
    cases sty with
    | bare => exact ha
    | bracketed =>
      intro c hc
      simp only [Iri.fmt, List.mem_cons, List.mem_append, List.not_mem_nil, or_false] at hc
      rcases hc with (rfl | hc) | rfl
      · decide
      · exact ha c hc
      · decide
  have hs' : ∃ c ∈ p.fmt sty, isSep c := by
    obtain ⟨c, hc, h⟩ := hs
    cases sty with
    | bare => exact ⟨c, hc, h⟩
    | bracketed => exact ⟨c, by simp [Iri.fmt, hc], h⟩
  obtain ⟨a, c, b, e, h1, h2⟩ := exists_last_sep hs'
  exact ⟨_, _, splitUri_ascii e ha' h1 h2⟩

theorem Run.bind_calm {α β : Type _} {x : Run α} {f : α → Run β} (hx : x ≠ .panic)
    (hf : ∀ a, x = .ok a → f a ≠ .panic) : x.bind f ≠ .panic := by
  cases x with
  | ok a => exact hf a rfl
  | err => simp [Run.bind]
  | panic => exact absurd rfl hx
  | deep => simp [Run.bind]

theorem xmlObjects_calm {sty : IriStyle} {flat : Bool} {nested : Subject → Run (List XmlOut)}
    (hn : ∀ s, nested s ≠ .panic) {ns name : Str} {os : List Object} :
    xmlObjects sty flat nested ns name os ≠ .panic := by
  induction os generalizing name with
  | nil => simp [xmlObjects]
  | cons o os ih =>
    refine Run.bind_calm ?_ fun a _ => Run.bind_calm ih fun b _ => by simp
    cases o with
    | blank b =>
      simp only [xmlProperty]
      split
      · simp
      · exact Run.bind_calm (hn _) fun _ _ => by simp
    | _ => simp [xmlProperty]

theorem xmlPredicates_calm {sty : IriStyle} {flat : Bool} {o : Orders} {g : Graph}
    {nested : Subject → Run (List XmlOut)} (hn : ∀ s, nested s ≠ .panic) {s : Subject} {ps : List Iri}
    (hp : ∀ p ∈ ps, (∀ c ∈ p.text, c.toNat < 0x80) ∧ ∃ c ∈ p.text, isSep c) :
    xmlPredicates sty flat o g nested s ps ≠ .panic := by
  induction ps with
  | nil => simp [xmlPredicates]
  | cons p ps ih =>
    obtain ⟨h1, h2⟩ := hp p (List.mem_cons_self ..)
    obtain ⟨ns, name, e⟩ := splitUri_ok (sty := sty) h1 h2
    simp only [xmlPredicates, e]
    exact Run.bind_calm (xmlObjects_calm hn) fun _ _ =>
      Run.bind_calm (ih fun p h => hp p (List.mem_cons_of_mem _ h)) fun _ _ => by simp

theorem xmlSubject_calm {sty : IriStyle} {flat : Bool} {o : Orders} (hf : o.Fair) {g : Graph}
    (hp : ∀ st ∈ g.stmts, (∀ c ∈ st.predicate.text, c.toNat < 0x80) ∧ ∃ c ∈ st.predicate.text, isSep c)
    (d : Nat) (s : Subject) : xmlSubject sty flat o g d s ≠ .panic := by
  induction d generalizing s with
  | zero => simp [xmlSubject]
  | succ d ih =>
    refine Run.bind_calm ?_ fun _ _ => Run.bind_calm (xmlPredicates_calm ih ?_) fun _ _ => by simp
    · cases s <;> simp [xmlHead]
    · intro p h
      obtain ⟨x, hx⟩ := xml_predicatesFor.1 ((hf.2.1 _ _).mem_iff.1 h)
      exact hp _ hx

theorem writeXml_calm {gen : Nat → Str} {n : Nat} {sty : IriStyle} {flat : Bool} {enc : Str} {o : Orders}
    (hf : o.Fair) {d : Nat} {g : Graph}
    (hp : ∀ st ∈ (g.simplify gen n).1.stmts,
      (∀ c ∈ st.predicate.text, c.toNat < 0x80) ∧ ∃ c ∈ st.predicate.text, isSep c) :
    writeXml gen n sty flat enc o d g ≠ .panic := by
  refine Run.bind_calm ?_ fun _ _ => by simp
  generalize (o.subj (g.simplify gen n).1.subjects).filter _ = ss
  induction ss with
  | nil => simp [xmlSubjects]
  | cons s ss ih => exact Run.bind_calm (xmlSubject_calm hf hp d s) fun _ _ => Run.bind_calm ih fun _ _ => by simp

/-- A predicate without a separator panics. -/
theorem writeXml_panics {gen : Nat → Str} {n : Nat} {sty : IriStyle} {enc : Str} {o : Orders}
    (hf : o.Fair) {d : Nat} {g : Graph} {st : Stmt} (hst : st ∈ (g.simplify gen n).1.stmts)
    (hs : ∀ c ∈ st.predicate.text, ¬isSep c) (es : List XmlOut) :
    writeXml gen n sty true enc o d g ≠ .ok es := by
  intro h
  obtain ⟨b, h1, h⟩ := Run.ok_of_bind h
  have hm : st.subject ∈ (o.subj (g.simplify gen n).1.subjects).filter fun s => true || s.isResource := by
    rw [List.mem_filter]
    exact ⟨(hf.1 _).mem_iff.2 (xml_subjects.2 ⟨st, hst, rfl⟩), rfl⟩
  obtain ⟨a, ha, _⟩ := xmlSubjects_mem hm h1
  cases d with
  | zero => cases ha
  | succ d =>
    obtain ⟨c, _, ha⟩ := Run.ok_of_bind ha
    obtain ⟨e, he, ha⟩ := Run.ok_of_bind ha
    have hst' : Stmt.mk st.subject st.predicate st.object ∈ (g.simplify gen n).1.stmts := by
      cases st; exact hst
    have hp := (hf.2.1 st.subject _).mem_iff.2 (xml_predicatesFor.2 ⟨st.object, hst'⟩)
    have hn : splitUri sty st.predicate = .panic := by
      refine splitUri_none ?_
      cases sty with
      | bare => exact hs
      | bracketed =>
        intro c hc
        simp only [Iri.fmt, List.mem_cons, List.mem_append, List.not_mem_nil, or_false] at hc
        rcases hc with (rfl | hc) | rfl
        · simp [isSep]
        · exact hs c hc
        · simp [isSep]
    have : ∀ (ps : List Iri) (e : List XmlOut), st.predicate ∈ ps →
        xmlPredicates sty true o (g.simplify gen n).1
          (xmlSubject sty true o (g.simplify gen n).1 d) st.subject ps ≠ .ok e := by
      intro ps
      induction ps with
      | nil => intro e h; simp at h
      | cons p ps ih =>
        intro e h he
        simp only [xmlPredicates] at he
        rcases List.mem_cons.1 h with rfl | h
        · rw [hn] at he; cases he
        · split at he
          · cases he
          · obtain ⟨_, _, he⟩ := Run.ok_of_bind he
            obtain ⟨y, hy, he⟩ := Run.ok_of_bind he
            exact ih y h hy
    exact this _ _ hp he

/-! ### Success -/

theorem writeXml_ok {gen : Nat → Str} {n : Nat} {enc : Str} {o : Orders} (hf : o.Fair) {d : Nat} {g : Graph}
    (hg : ∀ st ∈ (g.simplify gen n).1.stmts, XmlStmt st) :
    ∃ es, writeXml gen n .bare true enc o (d + 1) g = .ok es := by
  generalize hg' : (g.simplify gen n).1 = g' at hg
  have hobj : ∀ (nested : Subject → Run (List XmlOut)) (ns name : Str) (os : List Object),
      (∀ x ∈ os, XmlObject x) → ∃ es, xmlObjects .bare true nested ns name os = .ok es := by
    intro nested ns name os
    induction os generalizing name with
    | nil => exact fun _ => ⟨_, rfl⟩
    | cons x os ih =>
      intro h
      have hx := h x (List.mem_cons_self ..)
      obtain ⟨b, hb⟩ := ih (xmlElement .bare ns name).1 fun x hm => h x (List.mem_cons_of_mem _ hm)
      have : ∃ a, xmlProperty .bare true nested (xmlElement .bare ns name).1 (xmlElement .bare ns name).2 x = .ok a := by
        cases x with
        | coll _ => exact hx.elim
        | stmt _ => exact hx.elim
        | _ => exact ⟨_, rfl⟩
      obtain ⟨a, ha⟩ := this
      exact ⟨_, by simp only [xmlObjects, ha, hb, Run.bind]; rfl⟩
  have hpred : ∀ (nested : Subject → Run (List XmlOut)) (s : Subject) (ps : List Iri),
      (∀ p ∈ ps, p ∈ g'.predicatesFor s) → ∃ es, xmlPredicates .bare true o g' nested s ps = .ok es := by
    intro nested s ps
    induction ps with
    | nil => exact fun _ => ⟨_, rfl⟩
    | cons p ps ih =>
      intro h
      obtain ⟨x, hx⟩ := xml_predicatesFor.1 (h p (List.mem_cons_self ..))
      obtain ⟨ns, name, _, h1, _⟩ := xmlProperty_names (hg _ hx).2.1
      simp only [Stmt.predicate] at h1
      obtain ⟨b, hb⟩ := ih fun p hm => h p (List.mem_cons_of_mem _ hm)
      obtain ⟨a, ha⟩ := hobj nested ns name (o.obj s p (g'.objectsFor s p)) fun y hy =>
        xmlObject_of (hg _ (xml_objectsFor.1 ((hf.2.2 s p _).mem_iff.1 hy)))
      exact ⟨_, by simp only [xmlPredicates, h1, ha, hb, Run.bind]; rfl⟩
  have hsub : ∀ s, s ∈ g'.subjects → ∃ es, xmlSubject .bare true o g' (d + 1) s = .ok es := by
    intro s hs
    obtain ⟨st, hst, rfl⟩ := xml_subjects.1 hs
    obtain ⟨b, hb⟩ := hpred (xmlSubject .bare true o g' d) st.subject _ fun p hp => (hf.2.1 _ _).mem_iff.1 hp
    have hsb := (hg st hst).1
    have : ∃ a, xmlHead true st.subject = .ok a := by
      cases e : st.subject with
      | stmt _ => rw [e] at hsb; exact hsb.elim
      | _ => exact ⟨_, rfl⟩
    obtain ⟨a, ha⟩ := this
    exact ⟨_, by simp only [xmlSubject, ha, Run.bind]; rw [hb]⟩
  have hsubs : ∀ ss : List Subject, (∀ s ∈ ss, s ∈ g'.subjects) →
      ∃ es, xmlSubjects (xmlSubject .bare true o g' (d + 1)) ss = .ok es := by
    intro ss
    induction ss with
    | nil => exact fun _ => ⟨_, rfl⟩
    | cons s ss ih =>
      intro h
      obtain ⟨a, ha⟩ := hsub s (h s (List.mem_cons_self ..))
      obtain ⟨b, hb⟩ := ih fun s hm => h s (List.mem_cons_of_mem _ hm)
      exact ⟨_, by simp only [xmlSubjects, ha, hb, Run.bind]; rfl⟩
  obtain ⟨b, hb⟩ := hsubs ((o.subj g'.subjects).filter fun s => true || s.isResource) fun s hs =>
    (hf.1 _).mem_iff.1 (List.mem_filter.1 hs).1
  exact ⟨_, by simp only [writeXml, hg', hb, Run.bind]; rfl⟩

/-! ### Without blank nodes -/

theorem xmlSubjects_congr {f h : Subject → Run (List XmlOut)} {ss : List Subject}
    (e : ∀ s ∈ ss, f s = h s) : xmlSubjects f ss = xmlSubjects h ss := by
  induction ss with
  | nil => rfl
  | cons s ss ih =>
    simp only [xmlSubjects]
    rw [e s (List.mem_cons_self ..), ih fun s hs => e s (List.mem_cons_of_mem _ hs)]

/-- Where there are no blank nodes the two styles write the same. -/
theorem writeXml_styles {gen : Nat → Str} {n : Nat} {sty : IriStyle} {enc : Str} {o : Orders} (hf : o.Fair)
    {d : Nat} {g : Graph} (hb : ∀ st ∈ (g.simplify gen n).1.stmts, st.subject.isResource = true ∧
      ∀ b, st.object ≠ .blank b) :
    writeXml gen n sty false enc o d g = writeXml gen n sty true enc o d g := by
  have hobj : ∀ (f h : Subject → Run (List XmlOut)) (ns name : Str) (os : List Object),
      (∀ x ∈ os, ∀ b, x ≠ .blank b) → xmlObjects sty false f ns name os = xmlObjects sty true h ns name os := by
    intro f h ns name os
    induction os generalizing name with
    | nil => exact fun _ => rfl
    | cons x os ih =>
      intro hx
      simp only [xmlObjects]
      rw [ih _ fun x hm => hx x (List.mem_cons_of_mem _ hm)]
      congr 1
      cases x with
      | blank b => exact absurd rfl (hx _ (List.mem_cons_self ..) b)
      | _ => rfl
  unfold writeXml
  generalize (g.simplify gen n).1 = g' at hb ⊢
  simp only
  have hpred : ∀ (f h : Subject → Run (List XmlOut)) (s : Subject) (ps : List Iri),
      xmlPredicates sty false o g' f s ps = xmlPredicates sty true o g' h s ps := by
    intro f h s ps
    induction ps with
    | nil => rfl
    | cons p ps ih =>
      simp only [xmlPredicates]
      rw [ih]
      split
      · rfl
      · rw [hobj f h _ _ _ fun x hx =>
          (hb _ (xml_objectsFor.1 ((hf.2.2 s p _).mem_iff.1 hx))).2]
  have hfil : ∀ b, (o.subj g'.subjects).filter (fun s => b || s.isResource) = o.subj g'.subjects := by
    intro b
    rw [List.filter_eq_self]
    intro s hs
    obtain ⟨st, hst, rfl⟩ := xml_subjects.1 ((hf.1 _).mem_iff.1 hs)
    simp [(hb st hst).1]
  rw [hfil, hfil]
  rw [xmlSubjects_congr (h := xmlSubject sty true o g' d)]
  intro s hs
  obtain ⟨st, hst, rfl⟩ := xml_subjects.1 ((hf.1 _).mem_iff.1 hs)
  cases d with
  | zero => rfl
  | succ d =>
    simp only [xmlSubject]
    rw [hpred]
    have := (hb st hst).1
    cases e : st.subject with
    | res i => rfl
    | blank b => rw [e] at this; cases this
    | stmt t => rw [e] at this; cases this

end Rdftk
