import Verif.Lemmas.Grammar

/-! Properties C01-C04: prefixed names. -/

namespace Rdftk

/-! ### C01 -/

/-- C01, text to value to text: what is accepted prints as it was. -/
theorem C01_print_parse (s : Str) (l : LocalName) (h : LocalName.parse s = .ok l) :
    l.display = s := by
  obtain ⟨a, b, rfl, h1, h2⟩ := LocalName.parse_ok_iff.1 h
  simp [LocalName.display, Namespace.display, Name.display, Namespace.parse_text h1,
    Name.parse_text h2]

/-- C01, value to text to value: for any namespace and name their own parsers
produce, the printed prefixed name parses to the pair. -/
theorem C01_parse_print (s t : Str) (n : Namespace) (x : Name)
    (hn : Namespace.parse s = .ok n) (hx : Name.parse t = .ok x) :
    LocalName.parse (n.qualify x).display = .ok ⟨n, x⟩ := by
  rw [LocalName.parse_ok_iff]
  refine ⟨s, t, ?_, hn, hx⟩
  simp [LocalName.display, Namespace.display, Name.display, Namespace.qualify,
    Namespace.parse_text hn, Name.parse_text hx]

/-- C01 for the parts. -/
theorem C01_parts (s : Str) :
    (∀ n, Namespace.parse s = .ok n → n.display = s ∧ Namespace.parse n.display = .ok n) ∧
    (∀ x, Name.parse s = .ok x → x.display = s ∧ Name.parse x.display = .ok x) := by
  constructor
  · intro n h; have := Namespace.parse_text h
    simp only [Namespace.display, this, h, and_self]
  · intro x h; have := Name.parse_text h
    simp only [Name.display, this, h, and_self]

/-- C01 for prefixed names (`PrefixedName`, a namespace or a local name): the two
kinds of text never overlap. -/
theorem C01_disjoint (s : Str) (n : Namespace) (l : LocalName)
    (hn : Namespace.parse s = .ok n) : LocalName.parse s ≠ .ok l := by
  intro h
  obtain ⟨a, b, rfl, h1, h2⟩ := LocalName.parse_ok_iff.1 h
  obtain ⟨p, hp, hp2⟩ := Namespace.parse_colon hn
  obtain ⟨q, rfl, hq⟩ := Namespace.parse_colon h1
  have hb := Name.parse_no_colon h2
  have hbne : b ≠ [] := by rintro rfl; simp [Name.parse] at h2
  have e : (q ++ [':'] ++ b).getLast? = some ':' := by rw [hp]; simp
  have : b.getLast? = some ':' := by
    rw [List.getLast?_append, List.getLast?_eq_some_getLast hbne] at e
    rw [List.getLast?_eq_some_getLast hbne]; simpa using e
  exact hb (List.mem_of_getLast? this)

example : LocalName.parse (str! "rdf:type") = .ok ⟨⟨str! "rdf:"⟩, ⟨str! "type"⟩⟩ := by decide
example : LocalName.parse (str! "é.x:ß1.b") = .ok ⟨⟨str! "é.x:"⟩, ⟨str! "ß1.b"⟩⟩ := by decide
example : Namespace.parse (str! "rdf:") = .ok ⟨str! "rdf:"⟩ := by decide

/-! ### C02 -/

/-- C02: accepted exactly when it is a valid namespace followed by a valid name. -/
theorem C02_accepts_iff (s : Str) :
    (∃ l, LocalName.parse s = .ok l) ↔
      ∃ a b, s = a ++ b ∧ (∃ n, Namespace.parse a = .ok n) ∧ (∃ x, Name.parse b = .ok x) := by
  constructor
  · rintro ⟨l, h⟩
    obtain ⟨a, b, e, h1, h2⟩ := LocalName.parse_ok_iff.1 h
    exact ⟨a, b, e, ⟨_, h1⟩, ⟨_, h2⟩⟩
  · rintro ⟨a, b, e, ⟨n, h1⟩, ⟨x, h2⟩⟩
    exact ⟨⟨n, x⟩, LocalName.parse_ok_iff.2 ⟨a, b, e, h1, h2⟩⟩

/-- C02: there is only one way to read a text as namespace and name, and the
namespace ends at the first `':'`. -/
theorem C02_unique (a b a' b' : Str) (n n' : Namespace) (x x' : Name)
    (e : a ++ b = a' ++ b') (h1 : Namespace.parse a = .ok n) (h2 : Name.parse b = .ok x)
    (h1' : Namespace.parse a' = .ok n') (h2' : Name.parse b' = .ok x') :
    a = a' ∧ b = b' ∧ n = n' ∧ x = x' ∧ ∃ p, a = p ++ [':'] ∧ ':' ∉ p := by
  obtain ⟨p, rfl, hp⟩ := Namespace.parse_colon h1
  obtain ⟨p', rfl, hp'⟩ := Namespace.parse_colon h1'
  have e1 := splitFirst_append (b := b) hp
  have e2 := splitFirst_append (b := b') hp'
  simp at e
  rw [e, e2] at e1
  simp at e1
  obtain ⟨rfl, rfl⟩ := e1
  rw [h1] at h1'; rw [h2] at h2'
  cases h1'; cases h2'
  exact ⟨rfl, rfl, rfl, rfl, p', rfl, hp⟩

/-- C02: the documented errors. -/
theorem C02_errors (s : Str) :
    (LocalName.parse s = .error .emptyString → s = [] ∨ s.getLast? = some ':') ∧
    (LocalName.parse [] = .error .emptyString) ∧
    (s ≠ [] → ':' ∉ s → LocalName.parse s = .error (.missingSeparator s)) := by
  refine ⟨?_, rfl, ?_⟩
  · intro h
    unfold LocalName.parse at h
    split at h
    · left; simp_all
    · rcases hs : splitFirst ':' s with ⟨a, _ | b⟩
      · rw [hs] at h; simp at h
      · rw [hs] at h
        simp only at h
        obtain ⟨rfl, ha⟩ := splitFirst_some.1 hs
        right
        cases h1 : Namespace.parse (a ++ [':']) with
        | error er =>
          simp [h1, bind, Except.bind] at h
          subst h
          unfold Namespace.parse at h1
          simp at h1
          split at h1
          · cases h1
          · have : stripSuffix (a ++ [':']) ':' = some a := stripSuffix_eq_some.2 rfl
            rw [this] at h1
            simp at h1
            split at h1
            · cases h1
            · split at h1
              · cases h1
              · split at h1 <;> cases h1
        | ok n =>
          cases b with
          | nil => simp
          | cons c cs =>
            simp [h1, bind, Except.bind] at h
            cases h2 : Name.parse (c :: cs) with
            | ok x => simp [h2] at h
            | error er =>
              simp [h2] at h
              subst h
              simp only [Name.parse] at h2
              split at h2
              · cases h2
              · split at h2 <;> cases h2
  · intro hne hm
    unfold LocalName.parse
    have : List.isEmpty s = false := by simpa using hne
    rw [splitFirst_not_mem hm]
    simp [this]

example : LocalName.parse (str! "type") = .error (.missingSeparator (str! "type")) := by decide
example : LocalName.parse (str! "a:b:c") = .error (.invalidCharacter (str! "b:c")) := by decide

/-! ### C03 -/

/-- C03 for names: accepted exactly when in the W3C production. -/
theorem C03_name (s : Str) : (∃ x, Name.parse s = .ok x) ↔ Spec.PN_LOCAL_PLAIN s := by
  unfold Spec.PN_LOCAL_PLAIN
  rw [dotted_iff]
  · simp only [← isFirst_iff, ← isRest_iff]
    constructor
    · rintro ⟨x, h⟩
      obtain ⟨_, h1, h2⟩ := Name.parse_ok_iff.1 h
      exact ⟨h2, h1⟩
    · rintro ⟨h2, h1⟩
      exact ⟨⟨s⟩, Name.parse_ok_iff.2 ⟨rfl, h1, h2⟩⟩
  · rw [← isFirst_iff]; decide

/-- C03 for namespaces, the full statement. -/
def C03_namespace_statement : Prop :=
  ∀ s : Str, (∃ n, Namespace.parse s = .ok n) ↔ Spec.PNAME_NS s

/-- C03 for namespaces, what holds: every string of the production is accepted,
and every accepted string is in the production unless its prefix ends in `'.'`.
Missing: the code also accepts prefixes that end in `'.'`. -/
theorem C03_namespace_partial (s : Str) :
    (Spec.PNAME_NS s → ∃ n, Namespace.parse s = .ok n) ∧
    ((∃ n, Namespace.parse s = .ok n) → Spec.PNAME_NS s ∨ ∃ p, s = p ++ ['.', ':']) := by
  constructor
  · rintro (rfl | ⟨p, hp, rfl⟩)
    · exact ⟨_, rfl⟩
    · unfold Spec.PN_PREFIX at hp
      rw [dotted_iff _ base_dot] at hp
      obtain ⟨⟨c, cs, rfl, hc, hr⟩, _⟩ := hp
      exact ⟨_, Namespace.parse_ok_iff.2 ⟨rfl, .inr ⟨c, cs, rfl, (isPnCharsBase_iff c).2 hc,
        fun x hx => (isRest_iff x).2 (hr x hx)⟩⟩⟩
  · rintro ⟨n, h⟩
    obtain ⟨_, rfl | ⟨c, cs, rfl, hb, hr⟩⟩ := Namespace.parse_ok_iff.1 h
    · exact .inl (.inl rfl)
    · cases he : endsWith (c :: cs) '.' with
      | true =>
        obtain ⟨t, ht⟩ := endsWith_iff.1 he
        right; exact ⟨t, by rw [ht]; simp⟩
      | false =>
        left; right
        refine ⟨c :: cs, ?_, rfl⟩
        unfold Spec.PN_PREFIX
        rw [dotted_iff _ base_dot]
        exact ⟨⟨c, cs, rfl, (isPnCharsBase_iff c).1 hb, fun x hx => (isRest_iff x).1 (hr x hx)⟩, he⟩

/-- C03 for namespaces fails: `"a.:"` is accepted but not a `PNAME_NS`. -/
theorem C03_namespace_fails : ¬ C03_namespace_statement := by
  intro h
  have h1 := (h (str! "a.:")).1 ⟨⟨str! "a.:"⟩, by decide⟩
  rcases h1 with h1 | ⟨p, hp, e⟩
  · cases h1
  · have e' : p = ['a', '.'] := by
      have : (p ++ [':']).dropLast = ['a', '.'] := by rw [← e]; rfl
      simpa using this
    subst e'
    unfold Spec.PN_PREFIX at hp
    rw [dotted_iff _ base_dot] at hp
    exact absurd hp.2 (by decide)

example : Spec.PNAME_NS (str! "a.b:") :=
  ((C03_namespace_partial (str! "a.b:")).2 ⟨⟨str! "a.b:"⟩, by decide⟩).resolve_right (by
    rintro ⟨p, hp⟩
    have := congrArg (fun l => (List.dropLast l).getLast?) hp
    simp at this)

/-! ### C04 -/

/-- C04: a prefix may be given with or without the colon. -/
theorem C04_colon_optional (s : Str) (h : ∀ t, s ≠ t ++ [':']) :
    Namespace.newNamed s = Namespace.newNamed (s ++ [':']) ∧
    Namespace.newUnchecked s = Namespace.newUnchecked (s ++ [':']) := by
  have e1 : endsWith s ':' = false := by
    cases he : endsWith s ':' with
    | false => rfl
    | true => obtain ⟨t, ht⟩ := endsWith_iff.1 he; exact absurd ht (h t)
  have e2 : endsWith (s ++ [':']) ':' = true := endsWith_iff.2 ⟨s, rfl⟩
  simp [Namespace.newNamed, Namespace.newUnchecked, withColon, e1, e2]

/-- C04: the bare name of a namespace built from a bare prefix is the prefix
(none for the empty prefix); asking for it does not panic. -/
theorem C04_name_string (s : Str) (n : Namespace) (hs : ':' ∉ s)
    (h : Namespace.newNamed s = .ok n) :
    n.nameString = some (if s = [] then none else some s) := by
  have e1 : endsWith s ':' = false := by
    cases he : endsWith s ':' with
    | false => rfl
    | true => obtain ⟨t, rfl⟩ := endsWith_iff.1 he; simp at hs
  simp only [Namespace.newNamed, withColon, e1] at h
  have ht := Namespace.parse_text h
  have : stripSuffix n.text ':' = some s := stripSuffix_eq_some.2 (by simpa using ht)
  unfold Namespace.nameString
  rw [this]
  cases s <;> simp

/-- C04: no namespace that can be built panics when asked for its bare name. -/
theorem C04_name_string_total (s : Str) :
    (∀ n, Namespace.parse s = .ok n → n.nameString ≠ none) ∧
    (Namespace.newUnchecked s).nameString ≠ none ∧ Namespace.newDefault.nameString ≠ none := by
  have key : ∀ n : Namespace, (∃ p, n.text = p ++ [':']) → n.nameString ≠ none := by
    rintro n ⟨p, hp⟩
    have : stripSuffix n.text ':' = some p := stripSuffix_eq_some.2 hp
    unfold Namespace.nameString
    rw [this]
    cases p <;> simp
  refine ⟨?_, ?_, by decide⟩
  · intro n h
    apply key
    obtain ⟨p, hp, _⟩ := Namespace.parse_colon h
    exact ⟨p, by rw [Namespace.parse_text h, hp]⟩
  · apply key
    simp only [Namespace.newUnchecked, withColon]
    split
    · rename_i h; exact endsWith_iff.1 h
    · exact ⟨s, rfl⟩

/-- C04: default exactly for the empty prefix. -/
theorem C04_is_default (s : Str) (n : Namespace) (hs : ':' ∉ s)
    (h : Namespace.newNamed s = .ok n) :
    (n.isDefault = true ↔ s = []) ∧ (n.isDefault = true ↔ n = Namespace.newDefault) := by
  have e1 : endsWith s ':' = false := by
    cases he : endsWith s ':' with
    | false => rfl
    | true => obtain ⟨t, rfl⟩ := endsWith_iff.1 he; simp at hs
  simp only [Namespace.newNamed, withColon, e1] at h
  have ht := Namespace.parse_text h
  simp at ht
  constructor
  · simp [Namespace.isDefault, ht]
  · cases n; simp [Namespace.isDefault, Namespace.newDefault]

/-- C04: qualifying a name prints prefix, colon, name; as CURIE in brackets. -/
theorem C04_qualify (s : Str) (n : Namespace) (x : Name) (hs : ':' ∉ s)
    (h : Namespace.newNamed s = .ok n) :
    (n.qualify x).display = s ++ ':' :: x.display ∧
    (n.qualify x).asCurie = '[' :: s ++ ':' :: x.display ++ [']'] := by
  have e1 : endsWith s ':' = false := by
    cases he : endsWith s ':' with
    | false => rfl
    | true => obtain ⟨t, rfl⟩ := endsWith_iff.1 he; simp at hs
  simp only [Namespace.newNamed, withColon, e1] at h
  have ht := Namespace.parse_text h
  simp [LocalName.display, LocalName.asCurie, Namespace.qualify, Namespace.display, ht] at *

example : Namespace.newNamed (str! "rdf") = .ok ⟨str! "rdf:"⟩ ∧ ':' ∉ str! "rdf" := by decide

end Rdftk
