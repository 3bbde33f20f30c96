import Verif.Props.PName
import Verif.Props.Iri
import Verif.Props.NTriples
import Verif.Props.DataTypeText
import Verif.Props.Xml
import Verif.Props.Json

/-! Exact conditions for C03, C07, C41, C44, C52, C66, C74, C75 and C96. -/

namespace Rdftk
open Spec

/-! ### C03 -/

theorem strip_dots : ∀ s : Str, ∃ p k, s = p ++ List.replicate k '.' ∧ endsWith p '.' = false := by
  intro s
  generalize hn : s.length = n
  induction n generalizing s with
  | zero => exact ⟨[], 0, by simpa using hn, rfl⟩
  | succ n ih =>
    cases he : endsWith s '.' with
    | false => exact ⟨s, 0, by simp, he⟩
    | true =>
      obtain ⟨t, rfl⟩ := endsWith_iff.1 he
      obtain ⟨p, k, e, hp⟩ := ih t (by simpa using hn)
      exact ⟨p, k + 1, by rw [e, List.replicate_succ', List.append_assoc], hp⟩

/-- C03 for namespaces, exactly: dots may stand before the colon, after a prefix of the production. -/
theorem C03_namespace_iff (s : Str) :
    (∃ n, Namespace.parse s = .ok n) ↔
      s = [':'] ∨ ∃ p k, PN_PREFIX p ∧ s = p ++ List.replicate k '.' ++ [':'] := by
  constructor
  · rintro ⟨n, h⟩
    obtain ⟨_, rfl | ⟨c, cs, rfl, hb, hr⟩⟩ := Namespace.parse_ok_iff.1 h
    · exact .inl rfl
    · right
      obtain ⟨p, k, e, hp⟩ := strip_dots (c :: cs)
      refine ⟨p, k, ?_, by rw [← e]⟩
      unfold PN_PREFIX
      rw [dotted_iff _ base_dot]
      cases p with
      | nil =>
        exfalso
        cases k with
        | zero => cases e
        | succ k =>
          simp only [List.nil_append, List.replicate_succ, List.cons.injEq] at e
          exact base_dot (e.1 ▸ (isPnCharsBase_iff c).1 hb)
      | cons d p =>
        simp only [List.cons_append, List.cons.injEq] at e
        obtain ⟨rfl, rfl⟩ := e
        exact ⟨⟨c, p, rfl, (isPnCharsBase_iff c).1 hb, fun x hx => (isRest_iff x).1 (hr x (by simp [hx]))⟩, hp⟩
  · rintro (rfl | ⟨p, k, hp, rfl⟩)
    · exact ⟨_, rfl⟩
    · unfold PN_PREFIX at hp
      rw [dotted_iff _ base_dot] at hp
      obtain ⟨⟨c, cs, rfl, hc, hr⟩, _⟩ := hp
      refine ⟨_, Namespace.parse_ok_iff.2 ⟨rfl, .inr ⟨c, cs ++ List.replicate k '.', by simp, (isPnCharsBase_iff c).2 hc, ?_⟩⟩⟩
      intro x hx
      rcases List.mem_append.1 hx with hx | hx
      · exact (isRest_iff x).2 (hr x hx)
      · rw [List.eq_of_mem_replicate hx]; decide

/-! ### C07 -/

theorem last_unique {a b a' b' : Str} (h : a ++ '/' :: b = a' ++ '/' :: b') (hb : '/' ∉ b) (hb' : '/' ∉ b') : b = b' := by
  induction a generalizing a' with
  | nil =>
    cases a' with
    | nil => simpa using h
    | cons c a' =>
      simp only [List.nil_append, List.cons_append, List.cons.injEq] at h
      exact absurd (by rw [h.2]; simp) hb
  | cons c a ih =>
    cases a' with
    | nil =>
      simp only [List.nil_append, List.cons_append, List.cons.injEq] at h
      exact absurd (by rw [← h.2]; simp) hb'
    | cons d a' => exact ih (List.cons.inj h).2

/-- C07, third part, exactly: when an IRI, like a namespace or not, does not split.  Without a text after `#`, the path
has to be empty, to end in `/`, to be followed by a query, or to end in a segment that is no name; so `http://h/a#`
splits, and looks like a namespace. -/
theorem C07_no_split_iff (i : Iri) :
    i.split = .ok none ↔
      (∃ f, f ≠ [] ∧ i.fragment = some f ∧ ¬PN_LOCAL_PLAIN f) ∨
      ((i.fragment = none ∨ i.fragment = some []) ∧ (i.path = [] ∨ (∃ p, i.path = p ++ ['/']) ∨ i.query ≠ none ∨
        (∃ p, i.path = '/' :: p) ∧ ∃ a b, i.path = a ++ '/' :: b ∧ '/' ∉ b ∧ ¬PN_LOCAL_PLAIN b)) := by
  have nm : ∀ s : Str, ¬PN_LOCAL_PLAIN s ↔ ∃ e, Name.parse s = .error e := by
    intro s
    rw [← C03_name]
    cases Name.parse s <;> simp
  simp only [nm]
  have path : (i.fragment = none ∨ i.fragment = some []) → (i.split = .ok none ↔
      (i.path = [] ∨ (∃ p, i.path = p ++ ['/']) ∨ i.query ≠ none ∨
        (∃ p, i.path = '/' :: p) ∧ ∃ a b, i.path = a ++ '/' :: b ∧ '/' ∉ b ∧ ∃ e, Name.parse b = .error e)) := by
    intro hf
    have e : i.split = if !i.path.isEmpty && !endsWith i.path '/' && i.query.isNone then
      match pathSegments i.path with
      | none => .panic
      | some segs =>
        match segs.getLast? with
        | none => .panic
        | some last =>
          match Name.parse last with
          | .ok name =>
            .ok (some (i.withNewPath (i.path.take (i.path.length - name.text.length)), name))
          | .error _ => .ok none
      else .ok none := by
      unfold Iri.split
      rcases hf with h | h <;> simp only [h] <;> rfl
    rw [e, ← endsWith_iff]
    by_cases h1 : i.path = []
    · simp [h1]
    by_cases h2 : endsWith i.path '/' = true
    · simp [h2]
    by_cases h3 : i.query = none
    · rw [if_pos (by simp [h1, h2, h3])]
      simp only [h1, h2, h3, false_or, ne_eq, not_true_eq_false, Bool.false_eq_true]
      generalize i.path = q at h1 h2
      cases q with
      | nil => exact absurd rfl h1
      | cons c q =>
        by_cases hc : c = '/'
        · subst hc
          obtain ⟨w, hw, hn, hd⟩ := splitOnChar_last '/' q
          obtain ⟨d, hd⟩ : ∃ d, '/' :: q = d ++ '/' :: w := by
            rcases hd with rfl | ⟨d, rfl⟩
            · exact ⟨[], rfl⟩
            · exact ⟨'/' :: d, rfl⟩
          have : ∀ name : Name, True := fun _ => trivial
          simp only [pathSegments, hw]
          cases hp : Name.parse w with
          | ok x =>
            simp only [Outcome.ok.injEq, reduceCtorEq, false_iff]
            rintro ⟨_, a, b, e, hb, er, he⟩
            rw [last_unique (e.symm.trans hd) hb hn, hp] at he
            cases he
          | error er => exact ⟨fun _ => ⟨⟨q, rfl⟩, d, w, hd, hn, er, hp⟩, fun _ => rfl⟩
        · have : pathSegments (c :: q) = none := by
            unfold pathSegments
            split
            · rename_i h; simp only [List.cons.injEq] at h; exact absurd h.1 hc
            · rfl
          rw [this]
          simp [hc]
    · simp [h3]
  by_cases hf : i.fragment = none ∨ i.fragment = some []
  · rw [path hf]
    constructor
    · intro h; exact .inr ⟨hf, h⟩
    · rintro (⟨f, h1, h2, _⟩ | ⟨_, h⟩)
      · rcases hf with h | h <;> rw [h] at h2
        · cases h2
        · simp only [Option.some.injEq] at h2; exact absurd h2.symm h1
      · exact h
  · cases hg : i.fragment with
    | none => exact absurd (.inl hg) hf
    | some f =>
      cases f with
      | nil => exact absurd (.inr hg) hf
      | cons c cs =>
        unfold Iri.split
        rw [hg]
        cases hp : Name.parse (c :: cs) <;> simp [hp]

example : Iri.split ⟨str! "http://h/a#"⟩ ≠ .ok none ∧ Iri.looksLikeNamespace ⟨str! "http://h/a#"⟩ = true := by decide +kernel

/-! ### C44 -/

/-- C44, exactly: a decoded text is parsed as it is if and only if it is not in angle brackets. -/
theorem C44_iff (s t : Str) (h : DecodesIri s t) :
    (∀ env : ReadEnv, evalIri env s = Res.ofOption (env.url t)) ↔ ∀ u, t ≠ '<' :: (u ++ ['>']) := by
  refine ⟨fun h1 u e => ?_, fun hb env => C44_read_partial env s t h hb⟩
  have := h1 { easyEnv with url := fun s => if s = t then none else some ⟨s⟩ }
  subst e
  have hc : (startsWith ('<' :: (u ++ ['>'])) '<' && endsWith ('<' :: (u ++ ['>'])) '>') = true := by
    rw [Bool.and_eq_true, endsWith_iff]
    exact ⟨rfl, '<' :: u, rfl⟩
  simp only [evalIri, (unescape_iff s _).2 h, Iri.fromStr, hc, if_true] at this
  rw [if_neg (fun e => by have := congrArg List.length e; simp at this; omega)] at this
  cases this

/-! ### C96 -/

/-- C96, exactly: nothing else prints like a data type if and only if it is named by an IRI that is no prefixed name of
a built-in type. -/
theorem C96_iff (t : DataType) :
    (∀ u : DataType, t.display = u.display → t = u) ↔
      ∃ i, t = .other i ∧ ∀ b : DataType, (∀ j, b ≠ .other j) → b.display ≠ i.text := by
  constructor
  · intro h
    have := h (.other ⟨t.display⟩) rfl
    refine ⟨_, this, fun b hb e => ?_⟩
    exact hb _ ((h b e.symm).symm.trans this)
  · rintro ⟨i, rfl, h⟩ u e
    by_cases hu : ∃ j, u = .other j
    · obtain ⟨j, rfl⟩ := hu
      cases i; cases j; cases e; rfl
    · exact absurd e.symm (h u fun j hj => hu ⟨j, hj⟩)

/-! ### C66 -/

theorem rdfJson_congr {k k' : Subject → Str} {p p' i i' : Iri → Str} {b b' : Str → Str} {l : List Stmt} {v : Json}
    (hk : ∀ x ∈ l, k x.subject = k' x.subject) (hp : ∀ x ∈ l, p x.predicate = p' x.predicate)
    (hn : ∀ x ∈ l, nodeValue i b x.object = nodeValue i' b' x.object) (h : RdfJson k p i b l v) : RdfJson k' p' i' b' l v := by
  obtain ⟨m, rfl, h1, h2⟩ := h
  refine ⟨m, rfl, fun x hx => ?_, fun e he => ?_⟩
  · obtain ⟨ps, os, o, a, b, c, d⟩ := h1 x hx
    exact ⟨ps, os, o, hk x hx ▸ a, hp x hx ▸ b, hn x hx ▸ c, d⟩
  · obtain ⟨ps, a, h⟩ := h2 e he
    refine ⟨ps, a, fun f hf => ?_⟩
    obtain ⟨os, b, h⟩ := h f hf
    refine ⟨os, b, fun o ho => ?_⟩
    obtain ⟨x, hx, c, d, e⟩ := h o ho
    exact ⟨x, hx, hk x hx ▸ c, hp x hx ▸ d, hn x hx ▸ e⟩

/-- Two forms of one document say of each statement that there is one with the other names. -/
theorem rdfJson_other {k k' : Subject → Str} {p p' i i' : Iri → Str} {b b' : Str → Str} {l : List Stmt} {v : Json}
    (h : RdfJson k p i b l v) (h' : RdfJson k' p' i' b' l v) :
    ∀ x ∈ l, ∃ y ∈ l, k' y.subject = k x.subject ∧ p' y.predicate = p x.predicate ∧
      nodeValue i' b' y.object = nodeValue i b x.object := by
  intro x hx
  obtain ⟨m, rfl, h1, -⟩ := h
  obtain ⟨m', e, -, h2⟩ := h'
  cases e
  obtain ⟨ps, os, o, a, b, c, d⟩ := h1 x hx
  obtain ⟨ps', e, h⟩ := h2 _ a
  cases e
  obtain ⟨os', e, h⟩ := h _ b
  cases e
  obtain ⟨y, hy, c', d', e⟩ := h _ d
  exact ⟨y, hy, c', d', by rw [e, c]⟩

/-- What grows at each step is not in a list. -/
theorem no_growth {α : Type} (l : List α) (P : α → Prop) (f : α → Nat) (h : ∀ x ∈ l, P x → ∃ y ∈ l, P y ∧ f x < f y) :
    ∀ x ∈ l, ¬P x := by
  have key : ∀ n, ∀ x ∈ l, P x → n ≤ (l.map f).sum + 1 → ∃ y ∈ l, P y ∧ n ≤ f y := by
    intro n
    induction n with
    | zero => intro x hx hp _; exact ⟨x, hx, hp, Nat.zero_le _⟩
    | succ n ih =>
      intro x hx hp hn
      obtain ⟨y, hy, hpy, hle⟩ := ih x hx hp (by omega)
      obtain ⟨z, hz, hpz, hlt⟩ := h y hy hpy
      exact ⟨z, hz, hpz, by omega⟩
  intro x hx hp
  obtain ⟨y, hy, _, hle⟩ := key _ x hx hp (Nat.le_refl _)
  have : f y ≤ (l.map f).sum := by
    clear hle key h hx
    induction l with
    | nil => cases hy
    | cons a l ih =>
      rcases List.mem_cons.1 hy with rfl | hy
      · simp
      · have := ih hy
        simp only [List.map_cons, List.sum_cons]
        omega
  omega

/-- C66, exactly, with bare IRIs: the document has the form of the note if and only if no subject is an IRI and no
object a blank node.  The scheme of an IRI begins with a letter. -/
theorem C66_iff (gen : Nat → Str) (n : Nat) (o : Orders) (ho : o.Fair) (pretty : Bool) (g : Graph) (t : Str)
    (hw : writeJson gen n o .bare pretty g = some t)
    (hi : ∀ st ∈ (g.simplify gen n).1.stmts, ∀ i, st.subject = .res i → i.text.head? ≠ some '<' ∧ i.text.head? ≠ some '_') :
    (∃ v, jParse t = some v ∧ RdfJson subjectName Iri.text Iri.text ('_' :: ':' :: ·) (g.simplify gen n).1.stmts v) ↔
      ∀ st ∈ (g.simplify gen n).1.stmts, (∀ i, st.subject ≠ .res i) ∧ ∀ b, st.object ≠ .blank b := by
  obtain ⟨v, hv, hr⟩ := C66_form_partial gen n o ho .bare pretty g t hw
  have hns := simplify_no_nested gen n g
  constructor
  · rintro ⟨w, hw, h⟩
    rw [hv] at hw
    cases hw
    have key := rdfJson_other h hr
    have nosub : ∀ st ∈ (g.simplify gen n).1.stmts, ∀ i, st.subject ≠ .res i := by
      intro st hst i e
      obtain ⟨y, hy, h1, _⟩ := key st hst
      have h2 := hi st hst i e
      rw [e] at h1
      have h1 : Subject.display .bare y.subject = i.text := h1
      rw [← h1] at h2
      cases hs : y.subject with
      | blank b => rw [hs] at h2; exact h2.2 rfl
      | res j => rw [hs] at h2; exact h2.1 rfl
      | stmt s => rw [hs] at h2; exact h2.1 rfl
    intro st hst
    refine ⟨nosub st hst, ?_⟩
    have := no_growth (g.simplify gen n).1.stmts (fun st => ∃ b, st.object = .blank b)
      (fun st => match st.object with | .blank b => b.length | _ => 0) (by
        rintro x hx ⟨b, e⟩
        obtain ⟨y, hy, _, _, h3⟩ := key x hx
        rw [e] at h3
        refine ⟨y, hy, ?_⟩
        cases hob : y.object with
        | blank c =>
          rw [hob] at h3
          simp only [nodeValue, id, Option.some.injEq, Json.obj.injEq, List.cons.injEq, Prod.mk.injEq, Json.str.injEq, true_and, and_true] at h3
          refine ⟨⟨c, rfl⟩, ?_⟩
          rw [e, h3]
          simp
          omega
        | res j => rw [hob] at h3; simp [nodeValue] at h3
        | lit l => rw [hob] at h3; obtain ⟨a, t, g⟩ := l; cases t <;> cases g <;> simp [nodeValue, literalMembers] at h3
        | coll _ => rw [hob] at h3; simp [nodeValue] at h3
        | stmt _ => rw [hob] at h3; simp [nodeValue] at h3)
    exact fun b e => this st hst ⟨b, e⟩
  · intro h
    refine ⟨v, hv, rdfJson_congr (fun x hx => ?_) (fun _ _ => rfl) (fun x hx => ?_) hr⟩
    · cases hs : x.subject with
      | blank b => rfl
      | res i => exact absurd hs ((h x hx).1 i)
      | stmt s =>
        have := hns x hx
        rw [hs] at this
        cases this
    · cases hob : x.object with
      | blank b => exact absurd hob ((h x hx).2 b)
      | _ => rfl

/-- C66 with IRIs in brackets: only the empty document has the form of the note. -/
theorem C66_bracketed_iff (gen : Nat → Str) (n : Nat) (o : Orders) (ho : o.Fair) (pretty : Bool) (g : Graph) (t : Str)
    (hw : writeJson gen n o .bracketed pretty g = some t) :
    (∃ v, jParse t = some v ∧ RdfJson subjectName Iri.text Iri.text ('_' :: ':' :: ·) (g.simplify gen n).1.stmts v) ↔
      (g.simplify gen n).1.stmts = [] := by
  obtain ⟨v, hv, hr⟩ := C66_form_partial gen n o ho .bracketed pretty g t hw
  constructor
  · rintro ⟨w, hw, h⟩
    rw [hv] at hw
    cases hw
    have := no_growth (g.simplify gen n).1.stmts (fun _ => True) (fun st => st.predicate.text.length) (by
      intro x hx _
      obtain ⟨y, hy, _, h2, _⟩ := rdfJson_other hr h x hx
      refine ⟨y, hy, trivial, ?_⟩
      rw [h2]
      simp only [Iri.fmt, List.length_append, List.length_cons]
      omega)
    cases hl : (g.simplify gen n).1.stmts with
    | nil => rfl
    | cons a l => rw [hl] at this; exact absurd trivial (this a (.head _))
  · intro h
    exact ⟨v, hv, rdfJson_congr (by rw [h]; simp) (by rw [h]; simp) (by rw [h]; simp) hr⟩

/-! ### C52, C74, C75 -/

/-- C52, exactly, with bare IRIs: the elements for the objects of a property are named by it if and only if the
namespace has no known prefix or there is one object at most. -/
theorem C52_iff (nested : Subject → Run (List XmlOut)) (p : Iri) (ns name : Str)
    (os : List Object) (es : List XmlOut) (hp : XmlProperty p) (hs : splitUri .bare p = .ok (ns, name))
    (he : xmlObjects .bare true nested ns name os = .ok es) :
    (∀ sc n d as, XmlOut.start n d as ∈ es → NamedBy sc n d p) ↔ ns ∉ knownNamespaces ∨ os.length ≤ 1 := by
  constructor
  · intro h
    apply Classical.byContradiction
    intro hn
    obtain ⟨h1, h2⟩ := not_or.1 hn
    obtain ⟨n, d, as, h3, h4⟩ := C52_fails_twice true nested p ns name os es (Classical.not_not.1 h1) (by omega) he
    exact h4 [] (h [] n d as h3)
  · intro h sc
    exact C52_partial nested sc p ns name os es hp hs h he

/-- No property of a known namespace has two values at a subject. -/
def KnownOnce (l : List Stmt) : Prop :=
  ∀ s p x y, Known p → Stmt.mk s p x ∈ l → Stmt.mk s p y ∈ l → x = y

theorem xmlGraph_iff {o : Orders} (hf : o.Fair) {g : Graph} (h : ∀ st ∈ g.stmts, XmlStmt st) :
    XmlGraph o g ↔ KnownOnce g.stmts := by
  constructor
  · intro hg s p x y hk hx hy
    have h0 := hg.single s p hk
    have h1 := (hf.2.2 s p _).mem_iff.2 (xml_objectsFor.2 hx)
    have h2 := (hf.2.2 s p _).mem_iff.2 (xml_objectsFor.2 hy)
    generalize o.obj s p _ = os at h0 h1 h2
    match os, h0 with
    | [], _ => simp at h1
    | [z], _ => simp at h1 h2; exact h1.trans h2.symm
  · intro hk
    refine ⟨h, fun s p hp => ?_⟩
    rw [(hf.2.2 s p _).length_eq]
    have hnd : (g.objectsFor s p).Nodup := setOf_nodup _
    have hall : ∀ x ∈ g.objectsFor s p, ∀ y ∈ g.objectsFor s p, x = y := fun x hx y hy =>
      hk s p x y hp (xml_objectsFor.1 hx) (xml_objectsFor.1 hy)
    generalize g.objectsFor s p = os at hnd hall
    match os with
    | [] => simp
    | [z] => simp
    | a :: b :: l =>
      have := hall a (.head _) b (.tail _ (.head _))
      subst this
      simp at hnd

/-- C74, exactly, for flat documents with bare IRIs: what is written is well formed if and only if no property of a known
namespace has two values. -/
theorem C74_iff (gen : Nat → Str) (n : Nat) (enc : Str) (o : Orders) (hf : o.Fair) (d : Nat) (g : Graph)
    (hx : ∀ st ∈ (g.simplify gen n).1.stmts, XmlStmt st) (es : List XmlOut)
    (h : writeXml gen n .bare true enc o d g = .ok es) :
    (deliver es).isSome = true ↔ KnownOnce (g.simplify gen n).1.stmts := by
  constructor
  · intro hd s p x y hk h1 h2
    apply Classical.byContradiction
    intro hne
    rw [C74_fails_twice gen n true enc o hf d g es s p x y hne h1 h2 (.inl rfl)
      (fun c hc => by have := (hx _ h1).2.1.1 c hc; omega) hk h] at hd
    cases hd
  · intro hk
    exact C74_partial gen n enc o hf d g ((xmlGraph_iff hf hx).2 hk) es h

/-- C75, exactly, with bare IRIs: a flat document says the statements of the graph if and only if no property of a known
namespace has two values. -/
theorem C75_iff (gen : Nat → Str) (n : Nat) (enc : Str) (o : Orders) (hf : o.Fair) (d : Nat) (g : Graph)
    (hx : ∀ st ∈ (g.simplify gen n).1.stmts, XmlStmt st) (es : List XmlOut)
    (h : writeXml gen n .bare true enc o d g = .ok es) :
    (∃ ins T, deliver es = some ins ∧ (∀ gen' n', RdfXml gen' n' ins T) ∧
      ∀ st, st ∈ T ↔ st ∈ (g.simplify gen n).1.stmts) ↔ KnownOnce (g.simplify gen n).1.stmts := by
  rw [← C74_iff gen n enc o hf d g hx es h]
  constructor
  · rintro ⟨ins, T, h, _⟩; rw [h]; rfl
  · intro hd
    have hg := (xmlGraph_iff hf hx).2 ((C74_iff gen n enc o hf d g hx es h).1 hd)
    exact ⟨_, _, writeXml_delivers hf hg h, fun gen' n' => rdfXml_graphIn hf hg.stmts, visit_mem hf _⟩

/-! ### C41 -/

/-- Statements that are all read again, each from one of them, have literals that reading does not change. -/
theorem reread_closed {pr : Char → Bool} {L : List Stmt} (h : ∀ st ∈ L, ∃ x ∈ L, rereadStmt pr x = st) :
    ∀ s p l, Stmt.mk s p (.lit l) ∈ L → reread pr l = l := by
  have pre : ∀ s p l, Stmt.mk s p (.lit l) ∈ L → ∃ y, Stmt.mk s p (.lit y) ∈ L ∧ reread pr y = l := by
    intro s p l hm
    obtain ⟨⟨s', p', o'⟩, hx, e⟩ := h _ hm
    injection e with ea eb ec
    subst ea eb
    cases o' with
    | lit y => injection ec with ec; exact ⟨y, hx, ec⟩
    | _ => cases ec
  have canon : ∀ s p l, Stmt.mk s p (.lit l) ∈ L →
      (∀ t, l.dataType = some t → ∃ i, t = .other i) ∧ (l.dataType = none ∨ l.language = none) := by
    intro s p l hm
    obtain ⟨y, -, rfl⟩ := pre s p l hm
    unfold reread
    split <;> simp
  suffices ∀ k s p l, l.lexicalForm.length < k → Stmt.mk s p (.lit l) ∈ L → reread pr l = l from
    fun s p l hm => this _ s p l (Nat.lt_succ_self _) hm
  intro k
  induction k with
  | zero => intro s p l hl; omega
  | succ k ih =>
    intro s p l hl hm
    obtain ⟨y, hy, rfl⟩ := pre s p l hm
    have fixed : reread pr y = y := by
      rcases escape_grows pr y.lexicalForm with e | e
      · exact (reread_id _ _).2 ⟨e, canon s p y hy⟩
      · refine ih s p y ?_ hy
        rw [reread_lexical] at hl
        omega
    rw [fixed, fixed]

/-- C41, exactly, with bare IRIs: a data set comes back, but for its empty graphs, if and only if its default graph is
empty and reading changes no literal. -/
theorem C41_iff (env : ReadEnv) (gen : Nat → Str) (n : Nat) (o : Graph → Orders)
    (ho : ∀ g, (o g).Fair) (d : DataSet) (hd : d.ok) (hg : DataSetGood env d) :
    (∃ d', readNq env (writeNq gen n o .bare d) = .ok d' ∧ ∀ k st, st ∈ d'.content k ↔ st ∈ d.content k) ↔
    d.content none = [] ∧ ∀ k s p l, Stmt.mk s p (.lit l) ∈ d.content k →
      escapeString env.pr l.lexicalForm = l.lexicalForm ∧
      (∀ t, l.dataType = some t → ∃ i, t = .other i) ∧ (l.dataType = none ∨ l.language = none) := by
  constructor
  · rintro ⟨d', e, h⟩
    have hdef : d.content none = [] := Classical.byContradiction fun hn => by
      rw [C41_fails_default env gen n o ho d hd hg hn] at e
      cases e
    refine ⟨hdef, fun k s p l hm => ?_⟩
    obtain ⟨d1, e1, -, h1, -⟩ := C41_reads_partial env gen n o ho d hd hg hdef
    rw [e1] at e
    cases e
    rw [← reread_id]
    exact reread_closed (fun st hst => (h1 k st).1 ((h k st).2 hst)) s p l hm
  · rintro ⟨hdef, hl⟩
    obtain ⟨d', h1, _, h2, _⟩ := C41_roundtrip_partial env gen n o ho d hd hg hdef hl
    exact ⟨d', h1, h2⟩

end Rdftk
