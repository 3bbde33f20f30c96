import Verif.Props.Turtle

/-! Property C46: exactly which IRIs are printed as what stands for them, without a base. -/

namespace Rdftk
open Spec

theorem split_name_parse {i ns : Iri} {n : Name} (h : i.split = .ok (some (ns, n))) : Name.parse n.text = .ok n := by
  have self : ∀ {s : Str} {m : Name}, Name.parse s = .ok m → Name.parse m.text = .ok m := by
    intro s m hm
    obtain ⟨rfl, _⟩ := Name.parse_ok_iff.1 hm
    exact hm
  unfold Iri.split at h
  split at h
  · split at h
    · rename_i hp
      simp only [Outcome.ok.injEq, Option.some.injEq, Prod.mk.injEq] at h
      exact h.2 ▸ self hp
    · cases h
  · split at h
    · split at h
      · cases h
      · split at h
        · cases h
        · split at h
          · rename_i hp
            simp only [Outcome.ok.injEq, Option.some.injEq, Prod.mk.injEq] at h
            exact h.2 ▸ self hp
          · cases h
    · cases h

theorem colon_split {a b c d : Str} (ha : ':' ∉ a) (hc : ':' ∉ c) (h : a ++ ':' :: b = c ++ ':' :: d) :
    a = c ∧ b = d := by
  have h1 := splitFirst_append (b := b) ha
  rw [h, splitFirst_append hc] at h1
  simp only [Prod.mk.injEq, Option.some.injEq] at h1
  exact ⟨h1.1.symm, h1.2.symm⟩

/-- C46, exactly, without base and with prefixes that are accepted: what is printed for an IRI stands for it, unless a
prefix is used although the IRI has an empty fragment or the prefix ends with a dot. -/
theorem C46_absolute_iff (env : TurtleEnv) (i : Iri) (s : Str) (hs : env.sty = .bare)
    (hc : env.opts.convert = []) (hrel : turtleRelative env i.text = none)
    (hm : Reachable env.graph.mappings)
    (hp : ∀ e ∈ env.graph.mappings.mappings, Namespace.parse e.1.text = .ok e.1)
    (hw : i.wf = true) (hsch : hasScheme i.text = true)
    (hch : ∀ c ∈ i.text, iriChar c = true) (hurl : env.url i.text = some i)
    (h : compressIri env i = .ok s) :
    StandsFor env.opts.idBase env.graph.mappings s i ↔
      ∀ q, env.graph.mappings.compress i = .ok (some q) →
        i.fragment ≠ some [] ∧ ∃ p, isPrefix p = true ∧ q.namespace.text = p ++ [':'] := by
  have hstart : (startsWith i.text '<' && endsWith i.text '>') = false := by
    rw [Bool.eq_false_iff]
    intro he
    simp only [Bool.and_eq_true] at he
    obtain ⟨t, ht⟩ := startsWith_iff.1 he.1
    have := hch '<' (by rw [ht]; simp)
    rw [not_iriChar_bracket] at this; cases this
  have hfrom : Iri.fromStr env.url i.text = some i := by
    unfold Iri.fromStr
    rw [hstart]
    simpa using hurl
  unfold compressIri at h
  rw [hs] at h
  simp only [Iri.fmt, hrel, hc, convertAll, hfrom] at h
  split at h
  · cases h
  · rename_i hq
    simp only [Run.ok.injEq] at h
    refine ⟨fun _ q e => (by rw [hq] at e; cases e), fun _ => .inl ⟨i.text, h.symm, hch, iriValue_scheme hsch⟩⟩
  · rename_i q hq
    simp only [Run.ok.injEq] at h
    have hq' := hq
    unfold PrefixMap.compress at hq
    split at hq
    · cases hq
    · cases hq
    · rename_i ns n hsp
      split at hq
      · cases hq
      · rename_i p hpp
        simp only [Outcome.ok.injEq, Option.some.injEq] at hq
        have hmem := mem_mappings hm hpp
        have hpn := hp _ hmem
        have hn := split_name_parse hsp
        have disp : s = p.text ++ n.text := by rw [← h, ← hq]; rfl
        -- the prefix is a text without colon and the colon
        obtain ⟨a, ha, hac, hal⟩ : ∃ a, p.text = a ++ [':'] ∧ ':' ∉ a ∧ a.head? ≠ some '<' := by
          obtain ⟨-, e | ⟨c, cs, e, h1, h2⟩⟩ := Namespace.parse_ok_iff.1 hpn
          · exact ⟨[], e, by simp, by simp⟩
          · refine ⟨c :: cs, e, ?_, ?_⟩
            · intro hx
              rcases List.mem_cons.1 hx with rfl | hx
              · exact absurd h1 (by decide)
              · exact absurd (h2 _ hx) (by decide)
            · simp only [List.head?_cons, ne_eq, Option.some.injEq]
              rintro rfl
              exact absurd h1 (by decide)
        have hse : s = a ++ ':' :: n.text := by rw [disp, ha]; simp
        constructor
        · rintro hst q' hq2
          rw [hq', Outcome.ok.injEq, Option.some.injEq] at hq2
          subst hq2
          rcases hst with ⟨r, e, -, -⟩ | ⟨p', l, ns', e, h1, h2, h3, h4⟩
          · exfalso
            rw [hse] at e
            cases a with
            | nil => simp at e
            | cons c a => simp only [List.cons_append, List.cons.injEq] at e; exact hal (by rw [e.1]; rfl)
          · rw [hse] at e
            obtain ⟨rfl, rfl⟩ := colon_split hac (isPrefix_chars h1).2.1 e
            refine ⟨?_, a, h1, by rw [← hq]; exact ha⟩
            intro hf
            have hi : i.text = i.pre ++ i.path ++ withSep '?' i.query ++ withSep '#' i.fragment :=
              (congrArg Iri.text i.compose).symm
            obtain ⟨-, -, c, cs, hcs, k1, k2⟩ := Name.parse_ok_iff.1 hn
            have ne : n.text ≠ [] := by rw [hcs]; simp
            have last : n.text.getLast ne = '#' := by
              have := congrArg List.getLast? h4
              rw [List.getLast?_append_of_ne_nil _ ne, List.getLast?_eq_some_getLast ne, hi, hf] at this
              simpa [withSep] using this
            have hmem' : '#' ∈ n.text := last ▸ List.getLast_mem ne
            rw [hcs] at hmem'
            rcases List.mem_cons.1 hmem' with rfl | hx
            · exact absurd k1 (by decide)
            · exact absurd (k2 _ hx) (by decide)
        · intro hall
          obtain ⟨hf, p', h1, h2⟩ := hall q hq'
          obtain ⟨ht, -⟩ := split_text hw hf hsp
          have hp' : p.text = p' ++ [':'] := by rw [← h2, ← hq]
          refine .inr ⟨p', n.text, ns, by rw [disp, hp']; simp, h1, isLocal_of_parse hn, ?_, ht⟩
          have : p = ⟨p' ++ [':']⟩ := by cases p; simp_all
          rw [← this]; exact hmem

/-- C46 fails also for a prefix that ends with a dot: it is accepted, but it is none of the grammar. -/
theorem C46_fails_dot : ¬ C46_statement .bare := by
  intro h
  have := h (easyTurtle .bare flatOptions (Graph.default.withMappings
      (PrefixMap.empty.insert ⟨str! "p.:"⟩ ⟨str! "http://h/#"⟩)))
    ⟨str! "http://h/#a"⟩ (str! "p.:a") rfl rfl rfl (.step .empty (.insert _ _)) (by decide +kernel)
    (by decide +kernel) (by decide +kernel)
  rcases this with ⟨r, e, -, h1⟩ | ⟨p, l, ns, e, h1, -, hm, ht⟩
  · simp at e
  · have e' : (str! "p.") ++ ':' :: (str! "a") = p ++ ':' :: l := e
    obtain ⟨rfl, -⟩ := colon_split (by decide) (isPrefix_chars h1).2.1 e'
    exact absurd h1 (by decide +kernel)

end Rdftk
