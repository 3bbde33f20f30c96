import Verif.Props.PrefixMap
import Verif.Props.PName
import Verif.Lemmas.Cmp

/-! Property C152: printed prefix maps and references. -/

namespace Rdftk

/-- The prefixes and IRIs have no space in them. -/
def PrefixMap.Spaceless (m : PrefixMap) : Prop := ∀ e ∈ m.entries, ' ' ∉ e.1.text ∧ ' ' ∉ e.2.text

/-- C152: a prefix that was read has no space and no line break in it. -/
theorem C152_prefix (s : Str) (n : Namespace) (h : Namespace.parse s = .ok n) : ' ' ∉ n.text ∧ '\n' ∉ n.text := by
  obtain ⟨rfl, rfl | ⟨c, cs, rfl, hc, hr⟩⟩ := Namespace.parse_ok_iff.1 h
  · decide
  · have key : ∀ x, isPnCharsBase x = false → isPnPrefixLocalRest x = false → x ≠ ':' → x ∉ c :: cs ++ [':'] := by
      intro x h1 h2 h3 hm
      simp only [List.cons_append, List.mem_cons, List.mem_append, List.not_mem_nil, or_false] at hm
      rcases hm with rfl | hm | hm
      · rw [h1] at hc; cases hc
      · rw [hr _ hm] at h2; cases h2
      · exact h3 hm
    exact ⟨key _ (by decide) (by decide) (by decide), key _ (by decide) (by decide) (by decide)⟩

theorem cut_at {a b r r' : Str} {c : Char} (ha : c ∉ a) (hb : c ∉ b) (h : a ++ c :: r = b ++ c :: r') : a = b ∧ r = r' := by
  have e1 := splitFirst_append (b := r) ha
  have e2 := splitFirst_append (b := r') hb
  rw [h, e2] at e1
  simp only [Prod.mk.injEq, Option.some.injEq] at e1
  exact ⟨e1.1.symm, e1.2.symm⟩

theorem lines_inj {l l' : List (Namespace × Iri)} (h : ∀ e ∈ l, ' ' ∉ e.1.text ∧ ' ' ∉ e.2.text)
    (h' : ∀ e ∈ l', ' ' ∉ e.1.text ∧ ' ' ∉ e.2.text)
    (e : l.flatMap mappingLine ++ str! ")\n" = l'.flatMap mappingLine ++ str! ")\n") : l = l' := by
  induction l generalizing l' with
  | nil =>
    cases l' with
    | nil => rfl
    | cons x l' => simp [mappingLine] at e
  | cons x l ih =>
    cases l' with
    | nil => simp [mappingLine] at e
    | cons y l' =>
      obtain ⟨⟨p⟩, ⟨i⟩⟩ := x
      obtain ⟨⟨q⟩, ⟨j⟩⟩ := y
      have hx := h _ List.mem_cons_self
      have hy := h' _ List.mem_cons_self
      simp only [List.flatMap_cons, mappingLine, Namespace.display, Iri.display, List.append_assoc, List.cons_append, List.nil_append,
        List.cons.injEq, true_and, Bool.false_eq_true, if_false] at e hx hy
      obtain ⟨e1, e⟩ := cut_at hx.1 hy.1 e
      simp only [List.cons.injEq, true_and] at e
      have e' : (i ++ ['>']) ++ ' ' :: (',' :: '\n' :: (List.flatMap mappingLine l ++ str! ")\n")) =
          (j ++ ['>']) ++ ' ' :: (',' :: '\n' :: (List.flatMap mappingLine l' ++ str! ")\n")) := by simpa using e
      obtain ⟨e2, e⟩ := cut_at (by simp [hx.2]) (by simp [hy.2]) e'
      simp only [List.cons.injEq, true_and] at e
      rw [ih (fun e he => h e (List.mem_cons_of_mem _ he)) (fun e he => h' e (List.mem_cons_of_mem _ he)) e, e1,
        List.append_cancel_right e2]

theorem sorted_ext {l l' : List (Namespace × Iri)} (h : l.Pairwise fun a b => cmpStr a.1.text b.1.text = .lt)
    (h' : l'.Pairwise fun a b => cmpStr a.1.text b.1.text = .lt) (hm : ∀ e, e ∈ l ↔ e ∈ l') : l = l' := by
  induction l generalizing l' with
  | nil =>
    cases l' with
    | nil => rfl
    | cons y l' => exact absurd ((hm y).2 List.mem_cons_self) (by simp)
  | cons x l ih =>
    cases l' with
    | nil => exact absurd ((hm x).1 List.mem_cons_self) (by simp)
    | cons y l' =>
      rw [List.pairwise_cons] at h h'
      have lt_irrefl : ∀ {a b : Namespace × Iri}, cmpStr a.1.text b.1.text = .lt → cmpStr b.1.text a.1.text = .lt → False := by
        intro a b h1 h2
        have := cmpStr_order.trans _ _ _ h1 h2
        rw [cmpStr_order.refl] at this
        cases this
      have hxy : x = y := by
        rcases List.mem_cons.1 ((hm x).1 List.mem_cons_self) with e | hx
        · exact e
        · rcases List.mem_cons.1 ((hm y).2 List.mem_cons_self) with e | hy
          · exact e.symm
          · exact (lt_irrefl (h.1 _ hy) (h'.1 _ hx)).elim
      subst hxy
      congr 1
      refine ih h.2 h'.2 fun e => ⟨fun he => ?_, fun he => ?_⟩
      · rcases List.mem_cons.1 ((hm e).1 (List.mem_cons_of_mem _ he)) with rfl | h3
        · exact (lt_irrefl (h.1 _ he) (h.1 _ he)).elim
        · exact h3
      · rcases List.mem_cons.1 ((hm e).2 (List.mem_cons_of_mem _ he)) with rfl | h3
        · exact (lt_irrefl (h'.1 _ he) (h'.1 _ he)).elim
        · exact h3

/-- C152: two prefix maps print the same exactly when every prefix has the same IRI in both, however they were made. -/
theorem C152_map_iff (m m' : PrefixMap) (h : Reachable m) (h' : Reachable m') (hs : m.Spaceless) (hs' : m'.Spaceless) :
    m.display = m'.display ↔ ∀ p, m.getNamespace p = m'.getNamespace p := by
  constructor
  · intro e p
    simp only [PrefixMap.display, List.append_assoc, List.append_cancel_left_eq] at e
    have := lines_inj hs hs' e
    simp only [PrefixMap.getNamespace, this]
  · intro e
    obtain ⟨-, -, -, -, s, hm⟩ := C10_one_to_one m h
    obtain ⟨-, -, -, -, s', hm'⟩ := C10_one_to_one m' h'
    have : m.entries = m'.entries := by
      refine sorted_ext (by simpa [PrefixMap.prefixes, List.pairwise_map] using s)
        (by simpa [PrefixMap.prefixes, List.pairwise_map] using s') fun x => ?_
      have h1 := hm x.1 x.2
      have h2 := hm' x.1 x.2
      rw [e x.1, ← h2] at h1
      exact h1
    simp only [PrefixMap.display, this]

/-- C152: the text has one line for each mapping, in the order of the prefixes, and two more. -/
theorem C152_lines (m : PrefixMap) (hs : ∀ e ∈ m.entries, '\n' ∉ e.1.text ∧ '\n' ∉ e.2.text) :
    m.display.count '\n' = m.len + 2 := by
  have : ∀ l : List (Namespace × Iri), (∀ e ∈ l, '\n' ∉ e.1.text ∧ '\n' ∉ e.2.text) → (l.flatMap mappingLine).count '\n' = l.length := by
    intro l
    induction l with
    | nil => intro _; rfl
    | cons x l ih =>
      intro h
      have hx := h x List.mem_cons_self
      rw [List.flatMap_cons, List.count_append, ih fun e he => h e (List.mem_cons_of_mem _ he)]
      simp [mappingLine, Namespace.display, Iri.display, List.count_cons, List.count_eq_zero.2 hx.1, List.count_eq_zero.2 hx.2]
      omega
  simp only [PrefixMap.display, List.count_append, this _ hs, PrefixMap.len]
  simp [List.count_cons]
  omega

/-- A reference whose name can be read. -/
def IriRef.Valid : IriRef → Prop
  | .iri _ => True
  | .prefixed l => ∃ s, LocalName.parse s = .ok l

theorem local_head (l : LocalName) (s : Str) (h : LocalName.parse s = .ok l) : ∀ r, l.display ≠ '<' :: r := by
  obtain ⟨a, b, rfl, h1, h2⟩ := LocalName.parse_ok_iff.1 h
  intro r e
  have h3 := Namespace.parse_ok_iff.1 h1
  rw [LocalName.display, Namespace.display, h3.1] at e
  rcases h3.2 with rfl | ⟨c, cs, rfl, hc, hr⟩
  · cases e
  · simp only [List.cons_append, List.cons.injEq] at e
    rw [e.1] at hc
    revert hc; decide

/-- C152: two references print the same exactly when they are the same. -/
theorem C152_ref_iff (r r' : IriRef) (h : r.Valid) (h' : r'.Valid) : r.display false = r'.display false ↔ r = r' := by
  refine ⟨fun e => ?_, fun e => by rw [e]⟩
  cases r with
  | iri i =>
    cases r' with
    | iri j => cases i; cases j; simp [IriRef.display, Iri.display] at e; rw [e]
    | prefixed l =>
      obtain ⟨s, hs⟩ := h'
      exact absurd e.symm (local_head l s hs _)
  | prefixed l =>
    obtain ⟨s, hs⟩ := h
    cases r' with
    | iri j => exact absurd e (local_head l s hs _)
    | prefixed k =>
      obtain ⟨t, ht⟩ := h'
      have e1 := C01_print_parse s l hs
      have e2 := C01_print_parse t k ht
      simp only [IriRef.display] at e
      rw [← e1, e, e2, ht] at hs
      cases hs
      rfl

/-- C152: in the alternate form exactly an IRI and the name with its text are confused. -/
theorem C152_ref_alternate (r r' : IriRef) (h : r.Valid) (h' : r'.Valid) :
    r.display true = r'.display true ↔ r = r' ∨ ∃ i l, i.text = l.display ∧ ((r = .iri i ∧ r' = .prefixed l) ∨ (r = .prefixed l ∧ r' = .iri i)) := by
  cases r with
  | iri i =>
    cases r' with
    | iri j => cases i; cases j; simp [IriRef.display, Iri.display]
    | prefixed l => simp [IriRef.display, Iri.display]
  | prefixed l =>
    cases r' with
    | iri j =>
      simp only [IriRef.display, Iri.display, reduceCtorEq, false_and, false_or, if_true, IriRef.prefixed.injEq, IriRef.iri.injEq]
      constructor
      · intro e; exact ⟨j, l, e.symm, rfl, rfl⟩
      · rintro ⟨i, k, e, rfl, rfl⟩; exact e.symm
    | prefixed k =>
      have := C152_ref_iff (.prefixed l) (.prefixed k) h h'
      simpa [IriRef.display] using this

/-- `ex:a`, an IRI and a name. -/
example : (IriRef.iri ⟨str! "ex:a"⟩).display true = (IriRef.prefixed ⟨⟨str! "ex:"⟩, ⟨str! "a"⟩⟩).display true := rfl

example : (PrefixMap.empty.insert ⟨str! "ex:"⟩ ⟨str! "http://h/"⟩).display = str! "Prefixes(\n    ex:  <http://h/> ,\n)\n" := rfl

/-- The map of a new graph. -/
example : ∃ m, PrefixMap.default = some m ∧ Reachable m ∧ m.Spaceless := by
  have h : PrefixMap.default.isSome = true := by decide +kernel
  obtain ⟨m, hm⟩ := Option.isSome_iff_exists.1 h
  refine ⟨m, hm, .default hm, ?_⟩
  have : (PrefixMap.default.map fun m => m.entries.all fun e => !e.1.text.contains ' ' && !e.2.text.contains ' ') = some true := by
    decide +kernel
  rw [hm] at this
  intro e he
  have := List.all_eq_true.1 (Option.some.inj this) e he
  simpa using this

end Rdftk
