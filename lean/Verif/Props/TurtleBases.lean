import Verif.Props.TurtleIri
import Verif.Spec.TurtleBases

/-! Other bases in the Turtle writer: C154. -/

namespace Rdftk
open Spec

theorem convertFirst_iff (cs : List (Iri × Iri)) (s u : Str) : Rebased cs s u ↔ convertFirst .bare cs s = u := by
  induction cs with
  | nil =>
    constructor
    · intro h; cases h; rfl
    · intro h; cases h; exact .none
  | cons c r ih =>
    obtain ⟨a, b⟩ := c
    simp only [convertFirst, Iri.fmt]
    cases e : stripPrefix a.text s with
    | some t =>
      rw [stripPrefix_eq_some] at e
      subst e
      constructor
      · intro h
        generalize hs : a.text ++ t = s at h
        cases h with
        | here => rw [List.append_cancel_left hs]
        | later h1 => exact absurd ⟨t, hs⟩ h1
      · rintro rfl
        exact .here
    | none =>
      have hn : ¬ a.text <+: s := by
        rintro ⟨t, rfl⟩
        rw [stripPrefix_eq_some.2 rfl] at e
        cases e
      constructor
      · intro h
        cases h with
        | here => exact absurd ⟨_, rfl⟩ hn
        | later _ h => exact ih.1 h
      · exact fun h => .later hn (ih.2 h)

/-- C154: the bases written for prefixes are those asked for: each is under the first base that applies. -/
theorem C154_prefix (o : TurtleOptions) (e : Namespace × Iri) (u : Str) (h : Rebased o.convert e.2.text u) :
    writePrefix .bare o e = (if sparqlStyle o then str! "PREFIX " else str! "@prefix ") ++ e.1.text ++ str! " <" ++ u ++
      (if sparqlStyle o then str! ">\n" else str! "> .\n") := by
  have := (convertFirst_iff _ _ _).1 h
  simp only [writePrefix, Iri.fmt, this]
  split <;> simp

/-- C154, the full statement: an IRI is written as what stands for it under the other base, in the document with the
prefixes as they are written. -/
def C154_statement : Prop :=
  ∀ (env : TurtleEnv) (i : Iri) (u s : Str), env.sty = .bare → env.opts.idBase = none → Reachable env.graph.mappings →
    (∀ e ∈ env.graph.mappings.mappings, isPrefix e.1.text.dropLast = true ∧ e.1.text = e.1.text.dropLast ++ [':']) →
    Rebased env.opts.convert i.text u → Iri.wf ⟨u⟩ = true → hasScheme u = true → (∀ c ∈ u, iriChar c = true) →
    (Iri.fragment ⟨u⟩) ≠ some [] → (∀ t, env.url t = some ⟨t⟩) → compressIri env i = .ok s →
    StandsForRebased env.opts.convert env.opts.idBase env.graph.mappings s u

/-- C154, exactly, for one pair of bases: what is written for an IRI stands for it under the other base, unless it is
written with a prefix whose own IRI is moved to the other base too, or with one that is no prefix, or for an empty fragment. -/
theorem C154_iff (env : TurtleEnv) (i a b : Iri) (u s : Str) (hs : env.sty = .bare) (hc : env.opts.convert = [(a, b)])
    (hrel : turtleRelative env i.text = none) (hm : Reachable env.graph.mappings)
    (hp : ∀ e ∈ env.graph.mappings.mappings, Namespace.parse e.1.text = .ok e.1)
    (hu : Rebased [(a, b)] i.text u) (hw : Iri.wf ⟨u⟩ = true) (hsch : hasScheme u = true)
    (hch : ∀ c ∈ u, iriChar c = true) (hurl : env.url u = some ⟨u⟩) (h : compressIri env i = .ok s) :
    StandsForRebased [(a, b)] env.opts.idBase env.graph.mappings s u ↔
      ∀ q, env.graph.mappings.compress ⟨u⟩ = .ok (some q) →
        (Iri.fragment ⟨u⟩) ≠ some [] ∧ (∃ p, isPrefix p = true ∧ q.namespace.text = p ++ [':']) ∧
        ∀ ns, (q.namespace, ns) ∈ env.graph.mappings.mappings → a.text <+: ns.text → a = b := by
  have hstart : (startsWith u '<' && endsWith u '>') = false := by
    rw [Bool.eq_false_iff]
    intro he
    simp only [Bool.and_eq_true] at he
    obtain ⟨t, ht⟩ := startsWith_iff.1 he.1
    have := hch '<' (by rw [ht]; simp)
    rw [not_iriChar_bracket] at this; cases this
  have hfrom : Iri.fromStr env.url u = some ⟨u⟩ := by
    unfold Iri.fromStr
    rw [hstart]
    simpa using hurl
  have hu' : convertAll .bare [(a, b)] i.text = u := by
    have := (convertFirst_iff _ _ _).1 hu
    simp only [convertFirst, convertAll, Iri.fmt] at this ⊢
    rw [← this]
  -- the same without other bases
  have h0 : compressIri { env with opts := { env.opts with convert := [], idBase := none } } ⟨u⟩ = .ok s := by
    rw [← h]
    unfold compressIri
    rw [hs]
    simp only [Iri.fmt, hrel, hc, hu', hfrom]
    simp only [turtleRelative, convertAll, hfrom]
  have huniq : ∀ p i j, (p, i) ∈ env.graph.mappings.mappings → (p, j) ∈ env.graph.mappings.mappings → i = j := by
    intro p i j hi hj
    have := (C10_one_to_one _ hm).2.2.2.2.2
    rw [this] at hi hj
    rw [hi] at hj
    exact Option.some.inj hj
  have moved : ∀ {x v : Str}, Rebased [(a, b)] x v → (v = x ↔ (a.text <+: x → a = b)) := by
    intro x v hv
    cases hv with
    | here =>
      rename_i t
      constructor
      · intro e _
        have := List.append_cancel_right e
        cases a; cases b; simp_all
      · intro e
        rw [e ⟨t, rfl⟩]
    | later h1 h2 =>
      cases h2
      simp [h1]
  have hcomp := h0
  unfold compressIri at hcomp
  simp only [hs, Iri.fmt, turtleRelative, convertAll, hfrom] at hcomp
  cases hq : env.graph.mappings.compress ⟨u⟩ with
  | panic => rw [hq] at hcomp; cases hcomp
  | ok w =>
    rw [hq] at hcomp
    cases w with
    | none =>
      simp only [Run.ok.injEq] at hcomp
      exact ⟨fun _ q e => (by cases e), fun _ => .inl ⟨u, hcomp.symm, hch, iriValue_scheme hsch⟩⟩
    | some q =>
      simp only [Run.ok.injEq] at hcomp
      have hq' := hq
      unfold PrefixMap.compress at hq
      split at hq
      · cases hq
      · cases hq
      · rename_i ns n hsp
        split at hq
        · cases hq
        · rename_i p hpp
          simp only [Outcome.ok.injEq, Option.some.injEq] at hq
          have hmem := mem_mappings hm hpp
          have hpn := hp _ hmem
          have hn := split_name_parse hsp
          have disp : s = p.text ++ n.text := by rw [← hcomp, ← hq]; rfl
          obtain ⟨k, hk, hkc, hkl⟩ : ∃ k, p.text = k ++ [':'] ∧ ':' ∉ k ∧ k.head? ≠ some '<' := by
            obtain ⟨-, e | ⟨c, cs, e, h1, h2⟩⟩ := Namespace.parse_ok_iff.1 hpn
            · exact ⟨[], e, by simp, by simp⟩
            · refine ⟨c :: cs, e, ?_, ?_⟩
              · intro hx
                rcases List.mem_cons.1 hx with rfl | hx
                · exact absurd h1 (by decide)
                · exact absurd (h2 _ hx) (by decide)
              · simp only [List.head?_cons, ne_eq, Option.some.injEq]
                rintro rfl
                exact absurd h1 (by decide)
          have hse : s = k ++ ':' :: n.text := by rw [disp, hk]; simp
          have hpk : p = ⟨k ++ [':']⟩ := by cases p; simp_all
          have hqp : q.namespace = p := by rw [← hq]
          have hv := (convertFirst_iff [(a, b)] ns.text _).2 rfl
          constructor
          · rintro hst q' hq2
            rw [Outcome.ok.injEq, Option.some.injEq] at hq2
            subst hq2
            rcases hst with ⟨r, e, -, -⟩ | ⟨p', l, ns', v, e, h1, h2, h3, h4, h5⟩
            · exfalso
              rw [hse] at e
              cases k with
              | nil => simp at e
              | cons c k => simp only [List.cons_append, List.cons.injEq] at e; exact hkl (by rw [e.1]; rfl)
            · rw [hse] at e
              obtain ⟨rfl, rfl⟩ := colon_split hkc (isPrefix_chars h1).2.1 e
              have hns : ns' = ns := huniq _ _ _ h3 (by rw [← hpk]; exact hmem)
              subst hns
              have hf : (Iri.fragment ⟨u⟩) ≠ some [] := by
                intro hf
                have hi : u = (Iri.pre ⟨u⟩) ++ (Iri.path ⟨u⟩) ++ withSep '?' (Iri.query ⟨u⟩) ++ withSep '#' (Iri.fragment ⟨u⟩) :=
                  (congrArg Iri.text (Iri.compose ⟨u⟩)).symm
                obtain ⟨-, -, c, cs, hcs, k1, k2⟩ := Name.parse_ok_iff.1 hn
                have ne : n.text ≠ [] := by rw [hcs]; simp
                have last : n.text.getLast ne = '#' := by
                  have := congrArg List.getLast? h5
                  rw [List.getLast?_append_of_ne_nil _ ne, List.getLast?_eq_some_getLast ne, hi, hf] at this
                  simpa [withSep] using this
                have hmem' : '#' ∈ n.text := last ▸ List.getLast_mem ne
                rw [hcs] at hmem'
                rcases List.mem_cons.1 hmem' with rfl | hx
                · exact absurd k1 (by decide)
                · exact absurd (k2 _ hx) (by decide)
              refine ⟨hf, ⟨k, h1, by rw [hqp]; exact hk⟩, fun ns2 h6 => ?_⟩
              rw [hqp, hpk] at h6
              cases huniq _ _ _ h6 h3
              refine (moved h4).1 ?_
              have := (split_text hw hf hsp).1
              rw [← h5] at this
              exact (List.append_cancel_right this).symm
          · intro hall
            obtain ⟨hf, ⟨p', h1, h2⟩, h3⟩ := hall q rfl
            rw [hqp, hk] at h2
            cases List.append_cancel_right h2
            refine .inr ⟨k, n.text, ns, _, hse, h1, isLocal_of_parse hn, by rw [← hpk]; exact hmem, hv, ?_⟩
            rw [(moved hv).2 (h3 ns (by rw [hqp]; exact hmem))]
            exact (split_text hw hf hsp).1

/-- One prefix and pairs of bases. -/
def basesEnv (cs : List (Iri × Iri)) : TurtleEnv :=
  easyTurtle .bare { flatOptions with convert := cs } (Graph.default.withMappings
    (PrefixMap.empty.insert ⟨str! "p:"⟩ ⟨str! "http://a/b/"⟩))

theorem basesEnv_reachable (cs : List (Iri × Iri)) : Reachable (basesEnv cs).graph.mappings := .step .empty (.insert _ _)

theorem basesEnv_mappings (cs : List (Iri × Iri)) :
    (basesEnv cs).graph.mappings.mappings = [(⟨str! "p:"⟩, ⟨str! "http://a/b/"⟩)] := by rfl

/-- C154 fails: the IRI is moved under the base of a prefix, and the prefix is moved once more. -/
theorem C154_fails : ¬ C154_statement := by
  intro h
  have hr : Rebased [(⟨str! "http://a/"⟩, ⟨str! "http://a/b/"⟩)] (str! "http://a/x") (str! "http://a/b/x") :=
    (convertFirst_iff _ _ _).2 (by decide +kernel)
  have hs : compressIri (basesEnv [(⟨str! "http://a/"⟩, ⟨str! "http://a/b/"⟩)]) ⟨str! "http://a/x"⟩ = .ok (str! "p:x") := by
    decide +kernel
  have := h (basesEnv [(⟨str! "http://a/"⟩, ⟨str! "http://a/b/"⟩)]) ⟨str! "http://a/x"⟩ (str! "http://a/b/x") _ rfl rfl
    (basesEnv_reachable _) (by rw [basesEnv_mappings]; decide +kernel) hr (by decide +kernel) (by decide +kernel)
    (by decide +kernel) (by decide +kernel) (fun _ => rfl) hs
  have := (C154_iff _ ⟨str! "http://a/x"⟩ _ _ _ _ rfl rfl rfl (basesEnv_reachable _) (by rw [basesEnv_mappings]; decide +kernel) hr
    (by decide +kernel) (by decide +kernel) (by decide +kernel) rfl hs).1 this ⟨⟨str! "p:"⟩, ⟨str! "x"⟩⟩ (by decide +kernel)
  exact absurd (this.2.2 ⟨str! "http://a/b/"⟩ (by rw [basesEnv_mappings]; decide +kernel) (by decide +kernel)) (by decide +kernel)

/-- C154 fails also without prefixes in use: pairs are applied one after the other to IRIs, but one only to prefixes. -/
theorem C154_fails_chain : ¬ C154_statement := by
  intro h
  have hr : Rebased [(⟨str! "http://c/"⟩, ⟨str! "http://d/"⟩), (⟨str! "http://d/"⟩, ⟨str! "http://e/"⟩)] (str! "http://c/x")
      (str! "http://d/x") := (convertFirst_iff _ _ _).2 (by decide +kernel)
  have := h (basesEnv [(⟨str! "http://c/"⟩, ⟨str! "http://d/"⟩), (⟨str! "http://d/"⟩, ⟨str! "http://e/"⟩)]) ⟨str! "http://c/x"⟩
    (str! "http://d/x") (str! "<http://e/x>") rfl rfl
    (basesEnv_reachable _) (by rw [basesEnv_mappings]; decide +kernel) hr (by decide +kernel) (by decide +kernel)
    (by decide +kernel) (by decide +kernel) (fun _ => rfl) (by decide +kernel)
  rcases this with ⟨r, e, -, hv⟩ | ⟨p, l, ns, v, e, h1, -⟩
  · have e' : '<' :: (str! "http://e/x") ++ ['>'] = '<' :: r ++ ['>'] := e
    simp only [List.cons_append, List.cons.injEq, true_and] at e'
    have e' := List.append_cancel_right (as := str! "http://e/x") (bs := ['>']) (cs := r) e'
    rw [← e'] at hv
    exact absurd hv (by decide +kernel)
  · have e' : (str! "<http") ++ ':' :: (str! "//e/x>") = p ++ ':' :: l := e
    obtain ⟨rfl, -⟩ := colon_split (by decide) (isPrefix_chars h1).2.1 e'
    exact absurd h1 (by decide +kernel)

/-- C154, what holds: without a prefix for it, the IRI under the other base is written in full. -/
theorem C154_partial (env : TurtleEnv) (i a b : Iri) (u s : Str) (hs : env.sty = .bare) (hc : env.opts.convert = [(a, b)])
    (hrel : turtleRelative env i.text = none) (hm : Reachable env.graph.mappings)
    (hp : ∀ e ∈ env.graph.mappings.mappings, Namespace.parse e.1.text = .ok e.1)
    (hu : Rebased [(a, b)] i.text u) (hw : Iri.wf ⟨u⟩ = true) (hsch : hasScheme u = true)
    (hch : ∀ c ∈ u, iriChar c = true) (hurl : env.url u = some ⟨u⟩) (h : compressIri env i = .ok s)
    (hn : env.graph.mappings.compress ⟨u⟩ = .ok none) :
    StandsForRebased [(a, b)] env.opts.idBase env.graph.mappings s u :=
  (C154_iff env i a b u s hs hc hrel hm hp hu hw hsch hch hurl h).2 fun q hq => by rw [hn] at hq; cases hq

/-! An IRI under another base, with a prefix that stays. -/

example : compressIri (basesEnv [(⟨str! "http://c/"⟩, ⟨str! "http://a/b/"⟩)]) ⟨str! "http://c/x"⟩ = .ok (str! "p:x") := by
  decide +kernel

example : writePrefixes .bare (basesEnv [(⟨str! "http://c/"⟩, ⟨str! "http://a/b/"⟩)]).opts
    (basesEnv [(⟨str! "http://c/"⟩, ⟨str! "http://a/b/"⟩)]).graph.mappings = str! "@prefix p: <http://a/b/> .\n\n" := by decide +kernel

end Rdftk
