import Verif.Model.SparqlQuery
import Verif.Props.Sparql
import Verif.Spec.SparqlQuery

namespace Rdftk

open Sparql

/-! ### What parsers use up -/

/-- What is used up has no character of a kind. -/
def Avoids {α : Type} (bad : Char → Prop) (p : P α) : Prop :=
  ∀ s a r u, p s = .ok a r u → ∃ t, s = t ++ r ∧ ∀ c ∈ t, ¬bad c

theorem avoids_satisfy {bad : Char → Prop} {f : Char → Bool} (h : ∀ c, f c = true → ¬bad c) : Avoids bad (satisfy f) := by
  intro s a r u e
  cases s with
  | nil => cases e
  | cons c s =>
    rw [satisfy_cons] at e
    split at e
    · rename_i hc
      cases e
      exact ⟨[_], rfl, by simpa using h _ hc⟩
    · cases e

theorem avoids_map {α β : Type} {bad : Char → Prop} {p : P α} {f : α → β} (h : Avoids bad p) : Avoids bad (mapP f p) := by
  intro s a r u e
  unfold mapP at e
  cases hp : p s with
  | ok a' r' u' => rw [hp] at e; cases e; exact h s _ _ _ hp
  | fail u' => rw [hp] at e; cases e
  | panic => rw [hp] at e; cases e

theorem avoids_andThen {α β : Type} {bad : Char → Prop} {p : P α} {q : α → P β} (h : Avoids bad p) (hq : ∀ a, Avoids bad (q a)) :
    Avoids bad (andThen p q) := by
  intro s a r u e
  unfold andThen at e
  cases hp : p s with
  | ok a' r' u' =>
    rw [hp] at e
    simp only at e
    cases hq' : q a' r' with
    | ok b r'' u'' =>
      rw [hq'] at e
      cases e
      obtain ⟨t, rfl, ht⟩ := h s _ _ _ hp
      obtain ⟨t', rfl, ht'⟩ := hq a' _ _ _ _ hq'
      exact ⟨t ++ t', by simp, fun c hc => (List.mem_append.1 hc).elim (ht c) (ht' c)⟩
    | fail u' => rw [hq'] at e; cases e
    | panic => rw [hq'] at e; cases e
  | fail u' => rw [hp] at e; cases e
  | panic => rw [hp] at e; cases e

theorem avoids_skip {α β : Type} {bad : Char → Prop} {p : P α} {q : P β} (h : Avoids bad p) (hq : Avoids bad q) :
    Avoids bad (skip p q) := avoids_andThen h fun _ => avoids_map hq

theorem avoids_both {α β : Type} {bad : Char → Prop} {p : P α} {q : P β} (h : Avoids bad p) (hq : Avoids bad q) :
    Avoids bad (both p q) := avoids_andThen h fun _ => avoids_map hq

theorem avoids_orElse {α : Type} {bad : Char → Prop} {p q : P α} (h : Avoids bad p) (hq : Avoids bad q) :
    Avoids bad (orElse p q) := by
  intro s a r u e
  unfold orElse at e
  cases hp : p s with
  | ok a' r' u' => rw [hp] at e; cases e; exact h s _ _ _ hp
  | fail u' =>
    rw [hp] at e
    cases u' with
    | true => cases e
    | false => exact hq s a r u e
  | panic => rw [hp] at e; cases e

theorem avoids_optional {α : Type} {bad : Char → Prop} {p : P α} (h : Avoids bad p) : Avoids bad (optionalP p) := by
  intro s a r u e
  unfold optionalP at e
  cases hp : p s with
  | ok a' r' u' => rw [hp] at e; cases e; exact h s _ _ _ hp
  | fail u' =>
    rw [hp] at e
    cases u' with
    | true => cases e
    | false => cases e; exact ⟨[], rfl, by simp⟩
  | panic => rw [hp] at e; cases e

theorem avoids_attempt {α : Type} {bad : Char → Prop} {p : P α} (h : Avoids bad p) : Avoids bad (attempt p) := by
  intro s a r u e
  unfold attempt at e
  cases hp : p s with
  | ok a' r' u' => rw [hp] at e; cases e; exact h s _ _ _ hp
  | fail u' => rw [hp] at e; cases e
  | panic => rw [hp] at e; cases e

theorem avoids_notFollowedBy {α : Type} {bad : Char → Prop} {p : P α} : Avoids bad (notFollowedBy p) := by
  intro s a r u e
  unfold notFollowedBy at e
  cases hp : p s with
  | ok a' r' u' => rw [hp] at e; cases e
  | fail u' => rw [hp] at e; cases e; exact ⟨[], rfl, by simp⟩
  | panic => rw [hp] at e; cases e

theorem avoids_lookAhead {α : Type} {bad : Char → Prop} {p : P α} : Avoids bad (lookAhead p) := by
  intro s a r u e
  unfold lookAhead at e
  cases hp : p s with
  | ok a' r' u' => rw [hp] at e; cases e; exact ⟨[], rfl, by simp⟩
  | fail u' => rw [hp] at e; cases e
  | panic => rw [hp] at e; cases e

theorem avoids_manyUpTo {α : Type} {bad : Char → Prop} {p : P α} (h : Avoids bad p) : ∀ n, Avoids bad (manyUpTo p n) := by
  intro n
  induction n with
  | zero => intro s a r u e; cases e; exact ⟨[], rfl, by simp⟩
  | succ n ih =>
    intro s a r u e
    unfold manyUpTo at e
    cases hp : p s with
    | ok a' r' u' =>
      rw [hp] at e
      simp only at e
      cases hq' : manyUpTo p n r' with
      | ok b r'' u'' =>
        rw [hq'] at e
        cases e
        obtain ⟨t, rfl, ht⟩ := h s _ _ _ hp
        obtain ⟨t', rfl, ht'⟩ := ih _ _ _ _ hq'
        exact ⟨t ++ t', by simp, fun c hc => (List.mem_append.1 hc).elim (ht c) (ht' c)⟩
      | fail u' => rw [hq'] at e; cases e
      | panic => rw [hq'] at e; cases e
    | fail u' =>
      rw [hp] at e
      cases u' with
      | true => cases e
      | false => cases e; exact ⟨[], rfl, by simp⟩
    | panic => rw [hp] at e; cases e

theorem avoids_many {α : Type} {bad : Char → Prop} {p : P α} (h : Avoids bad p) : Avoids bad (many p) :=
  fun s => avoids_manyUpTo h _ s

theorem avoids_many1 {α : Type} {bad : Char → Prop} {p : P α} (h : Avoids bad p) : Avoids bad (many1 p) :=
  avoids_andThen h fun _ => avoids_map (avoids_many h)

theorem avoids_stringCmp {bad : Char → Prop} {eq : Char → Char → Bool} (k : Str) (h : ∀ c ∈ k, ∀ d, eq c d = true → ¬bad d) :
    Avoids bad (stringCmp eq k) := by
  induction k with
  | nil => intro s a r u e; cases e; exact ⟨[], rfl, by simp⟩
  | cons c k ih =>
    intro s a r u e
    cases s with
    | nil => cases e
    | cons d s =>
      simp only [stringCmp, satisfy_cons] at e
      by_cases hc : eq c d = true
      · rw [if_pos hc] at e
        simp only at e
        cases hk : stringCmp eq k s with
        | ok b r' u' =>
          rw [hk] at e
          cases e
          obtain ⟨t, rfl, ht⟩ := ih (fun x hx => h x (by simp [hx])) s _ _ _ hk
          exact ⟨d :: t, rfl, by
            intro x hx
            rcases List.mem_cons.1 hx with rfl | hx
            · exact h c (by simp) _ hc
            · exact ht x hx⟩
        | fail u' => rw [hk] at e; cases e
        | panic => rw [hk] at e; cases e
      · rw [if_neg hc] at e; cases e

/-- A brace. -/
def Brace (c : Char) : Prop := c = '{' ∨ c = '}'

theorem brace_lower (c : Char) (h : Brace c) : asciiLower c = c := by
  rcases h with rfl | rfl <;> rfl

theorem avoids_keyword (alnum : Char → Bool) (k : Str) (h : ∀ c ∈ k, asciiLower c ≠ '{' ∧ asciiLower c ≠ '}') : Avoids Brace (keyword alnum k) := by
  refine avoids_attempt (avoids_skip (avoids_stringCmp k ?_) avoids_notFollowedBy)
  intro c hc d hd hb
  have h1 := h c hc
  simp only [eqIgnoreCase, beq_iff_eq] at hd
  rw [brace_lower d hb] at hd
  rcases hb with rfl | rfl
  · exact h1.1 hd
  · exact h1.2 hd

theorem avoids_char {c : Char} (h : ¬Brace c) : Avoids Brace (char c) :=
  avoids_satisfy fun d hd => by
    rw [beq_iff_eq] at hd
    rw [hd]
    exact h

theorem not_brace {f : Char → Bool} (h1 : f '{' = false) (h2 : f '}' = false) : ∀ c, f c = true → ¬Brace c := by
  rintro c hc (rfl | rfl)
  · rw [h1] at hc; cases hc
  · rw [h2] at hc; cases hc

theorem avoids_spaces : Avoids Brace spaces := avoids_map (avoids_many (avoids_satisfy (not_brace (by decide) (by decide))))

theorem avoids_iriRef : Avoids Brace iriRef :=
  avoids_andThen (avoids_char (by simp [Brace])) fun _ =>
    avoids_andThen (avoids_many (avoids_satisfy (not_brace (by decide) (by decide)))) fun _ =>
      avoids_map (avoids_skip (avoids_char (by simp [Brace])) avoids_spaces)

theorem avoids_prefixedNameNamespace : Avoids Brace prefixedNameNamespace :=
  avoids_andThen (avoids_optional (avoids_andThen (avoids_satisfy (not_brace (by decide) (by decide))) fun _ =>
    avoids_map (avoids_optional (avoids_many (avoids_orElse (avoids_satisfy (not_brace (by decide) (by decide)))
      (avoids_char (by simp [Brace]))))))) fun _ => avoids_map (avoids_skip (avoids_char (by simp [Brace])) avoids_spaces)

theorem avoids_prologue (alnum : Char → Bool) : Avoids Brace (prologue alnum) :=
  avoids_map (avoids_many (avoids_orElse
    (avoids_map (avoids_andThen (avoids_skip (avoids_keyword _ _ (by decide)) (avoids_many1 (avoids_satisfy (not_brace (by decide) (by decide)))))
      fun _ => avoids_skip avoids_iriRef avoids_spaces))
    (avoids_map (avoids_andThen (avoids_skip (avoids_keyword _ _ (by decide)) avoids_spaces) fun _ =>
      avoids_andThen avoids_prefixedNameNamespace fun _ => avoids_map (avoids_skip avoids_iriRef avoids_spaces)))))

theorem avoids_nothing : Avoids Brace nothing := by
  intro s a r u e
  cases e
  exact ⟨[], rfl, by simp⟩

theorem avoids_never : Avoids Brace never := by
  intro s a r u e
  cases e

theorem avoids_variable : Avoids Brace variable' :=
  avoids_andThen (avoids_optional (avoids_satisfy (not_brace (by decide) (by decide)))) fun _ =>
    avoids_andThen (avoids_satisfy (not_brace (by decide) (by decide))) fun _ =>
      avoids_map (avoids_many (avoids_satisfy (not_brace (by decide) (by decide))))

theorem avoids_selectClause (alnum : Char → Bool) : Avoids Brace (selectClause alnum) :=
  avoids_both (avoids_skip (avoids_keyword _ _ (by decide)) avoids_spaces) <|
  avoids_both (avoids_skip (avoids_optional (avoids_orElse (avoids_keyword _ _ (by decide)) (avoids_keyword _ _ (by decide)))) avoids_spaces) <|
  avoids_orElse (avoids_map (avoids_many1 (avoids_orElse (avoids_map avoids_variable)
    (avoids_both (avoids_char (by simp [Brace])) (avoids_both avoids_nothing (avoids_char (by simp [Brace]))))))) (avoids_map (avoids_char (by simp [Brace])))

theorem avoids_datasetClause (alnum : Char → Bool) : Avoids Brace (datasetClause alnum) :=
  avoids_both (avoids_skip (avoids_keyword _ _ (by decide)) avoids_spaces) <|
  avoids_both (avoids_skip (avoids_optional (avoids_keyword _ _ (by decide))) avoids_spaces) <| avoids_skip avoids_iriRef avoids_spaces

theorem avoids_whereClause (alnum : Char → Bool) : Avoids Brace (whereClause alnum) :=
  avoids_both (avoids_optional (avoids_skip (avoids_keyword _ _ (by decide)) avoids_spaces)) (avoids_skip avoids_nothing avoids_spaces)

theorem avoids_modifier (alnum : Char → Bool) (integer : P Unit) (hi : Avoids Brace integer) : Avoids Brace (solutionModifier alnum integer) :=
  avoids_both (avoids_optional (avoids_both (avoids_keyword _ _ (by decide)) (avoids_keyword _ _ (by decide)))) <|
  avoids_both (avoids_optional (avoids_keyword _ _ (by decide))) <|
  avoids_both (avoids_optional (avoids_both (avoids_skip (avoids_keyword _ _ (by decide)) avoids_spaces)
    (avoids_skip (avoids_keyword _ _ (by decide)) avoids_spaces))) <|
  avoids_optional (avoids_orElse (avoids_both (avoids_skip (avoids_keyword _ _ (by decide)) avoids_spaces) hi)
    (avoids_both (avoids_skip (avoids_keyword _ _ (by decide)) avoids_spaces) hi))

theorem avoids_values (alnum : Char → Bool) : Avoids Brace (valuesClause alnum) :=
  avoids_skip (avoids_keyword _ _ (by decide)) avoids_spaces

theorem avoids_query (alnum : Char → Bool) (integer : P Unit) (hi : Avoids Brace integer) : Avoids Brace (query alnum integer) :=
  avoids_both (avoids_prologue alnum) <|
  avoids_both (avoids_orElse (avoids_both avoids_lookAhead
    (avoids_both (avoids_selectClause alnum) <| avoids_both (avoids_many (avoids_datasetClause alnum)) <|
      avoids_both (avoids_whereClause alnum) (avoids_modifier alnum integer hi)))
    (avoids_both avoids_lookAhead avoids_never)) (avoids_values alnum)

/-! ### C145 -/

/-- C145: small queries of the grammar are used up. -/
def C145_statement : Prop :=
  ∀ alnum, AlnumOk alnum → ∀ integer, Avoids Brace integer → ∀ s, Spec.SmallSelect s → query alnum integer s = .ok () [] true

/-- C145: no text with a brace is used up, so none with a group of patterns, which all queries but descriptions have. -/
theorem C145_never (alnum : Char → Bool) (integer : P Unit) (hi : Avoids Brace integer) (s : Str) (hs : ∃ c ∈ s, Brace c) (u : Bool) :
    query alnum integer s ≠ .ok () [] u := by
  intro h
  obtain ⟨t, e, ht⟩ := avoids_query alnum integer hi s _ _ _ h
  obtain ⟨c, hc, hb⟩ := hs
  rw [List.append_nil] at e
  exact ht c (e ▸ hc) hb

theorem smallSelect_brace {s : Str} (h : Spec.SmallSelect s) : ∃ c ∈ s, Brace c := by
  cases h with
  | all => exact ⟨'{', by simp, .inl rfl⟩
  | vars => exact ⟨'{', by simp, .inl rfl⟩

/-- C145 fails for each of them. -/
theorem C145_fails_all (alnum : Char → Bool) (integer : P Unit) (hi : Avoids Brace integer) (s : Str) (hs : Spec.SmallSelect s) :
    query alnum integer s ≠ .ok () [] true := C145_never alnum integer hi s (smallSelect_brace hs) true

/-- C145 fails. -/
theorem C145_fails : ¬C145_statement := fun h => by
  have hs : Spec.SmallSelect (str! "SELECT*WHERE{}") :=
    .all (k := str! "SELECT") (g := []) (g1 := []) (w := str! "WHERE") (g2 := []) (g3 := []) (g4 := []) (keyword_self _) (by simp [Spec.AllWs])
      (by simp [Spec.AllWs]) (keyword_self _) (by simp [Spec.AllWs]) (by simp [Spec.AllWs]) (by simp [Spec.AllWs])
  exact C145_fails_all asciiAlnum never avoids_never _ hs (h asciiAlnum asciiAlnum_ok never avoids_never _ hs)

theorem match_upper (k K : Str) (e : k = K.map fun c => Char.ofNat (c.toNat + 32)) (hk : ∀ c ∈ K, 0x41 ≤ c.toNat ∧ c.toNat ≤ 0x5A) (t : Str) :
    Match eqIgnoreCase k t ↔ Spec.Keyword K t := by
  rw [e]
  exact match_iff _ t hk

/-- A parser uses up the beginning of a text. -/
def Prefixed {α : Type} (p : P α) : Prop := ∀ s a r u, p s = .ok a r u → ∃ t, s = t ++ r

theorem prefixed_of {α : Type} {p : P α} (h : Avoids Brace p) : Prefixed p := fun s a r u e => by
  obtain ⟨t, e', -⟩ := h s a r u e
  exact ⟨t, e'⟩

/-- C145, what is used up instead: texts that end with a word that is not in the grammar, written as one. -/
theorem C145_values (alnum : Char → Bool) (integer : P Unit) (hi : Avoids Brace integer) (s r : Str) (u : Bool)
    (h : query alnum integer s = .ok () r u) :
    ∃ a k w, s = a ++ k ++ w ++ r ∧ Spec.Keyword (str! "OFFSETVALUES") k ∧ ∀ c ∈ w, isWhitespace c = true := by
  have inv : ∀ {α β : Type} (p : P α) (q : P β) (s r : Str) (u : Bool), both p q s = .ok () r u →
      ∃ a r' u' b u'', p s = .ok a r' u' ∧ q r' = .ok b r u'' := by
    intro α β p q s r u e
    unfold both andThen mapP at e
    cases hp : p s with
    | ok a r' u' =>
      rw [hp] at e
      simp only at e
      cases hq : q r' with
      | ok b r'' u'' => rw [hq] at e; cases e; exact ⟨a, r', u', b, u'', rfl, hq⟩
      | fail u' => rw [hq] at e; cases e
      | panic => rw [hq] at e; cases e
    | fail u' => rw [hp] at e; cases e
    | panic => rw [hp] at e; cases e
  obtain ⟨_, r1, _, _, _, h1, h2⟩ := inv _ _ _ _ _ h
  obtain ⟨_, r2, _, _, _, h3, h4⟩ := inv _ _ _ _ _ h2
  obtain ⟨t1, rfl⟩ := prefixed_of (avoids_prologue alnum) _ _ _ _ h1
  have hb := avoids_orElse (avoids_both (avoids_lookAhead (p := keyword alnum (str! "select")))
    (avoids_both (avoids_selectClause alnum) <| avoids_both (avoids_many (avoids_datasetClause alnum)) <|
      avoids_both (avoids_whereClause alnum) (avoids_modifier alnum integer hi)))
    (avoids_both (avoids_lookAhead (p := keyword alnum (str! "construct"))) avoids_never)
  obtain ⟨t2, e2⟩ := prefixed_of hb _ _ _ _ h3
  unfold valuesClause skip andThen mapP at h4
  cases hk : keyword alnum (str! "offsetvalues") r2 with
  | ok a r3 u3 =>
    rw [hk] at h4
    simp only [spaces_eq] at h4
    obtain ⟨⟨k, rfl, hm⟩, -, -⟩ := (keyword_iff _ _ _ _ _).1 hk
    simp only [PRes.ok.injEq] at h4
    refine ⟨t1 ++ t2, k, r3.takeWhile isWhitespace, ?_, (match_upper _ _ (by decide) (by decide) k).1 hm, takeWhile_all _ _⟩
    rw [e2, ← h4.2.1]
    simp [List.takeWhile_append_dropWhile]
  | fail u' => rw [hk] at h4; cases h4
  | panic => rw [hk] at h4; cases h4

/-- C145, what is used up: `SELECT`, perhaps `DISTINCT` or `REDUCED`, and `*`. -/
theorem C145_star (alnum : Char → Bool) (ha : AlnumOk alnum) (hstar : alnum '*' = false) (k g d g2 r : Str) (hk : Spec.Keyword (str! "SELECT") k)
    (hg : Spec.AllWs g) (hg2 : Spec.AllWs g2)
    (hd : d = [] ∧ g2 = [] ∨ g ≠ [] ∧ (Spec.Keyword (str! "DISTINCT") d ∨ Spec.Keyword (str! "REDUCED") d)) :
    selectClause alnum (k ++ (g ++ (d ++ (g2 ++ '*' :: r)))) = .ok () r true := by
  have star : Spec.NotNext (fun c => alnum c = true) ('*' :: r) := notNext_cons (by simp [hstar])
  have starw : Spec.NotNext (fun c => isWhitespace c = true) ('*' :: r) := notNext_cons (by decide)
  have last : orElse (mapP (fun _ => ()) (many1 (orElse (mapP (fun _ => ()) variable') (both (char '(') (both expressionAsVar (char ')'))))))
      (mapP (fun _ => ()) (char '*')) ('*' :: r) = .ok () r true := by rfl
  rcases hd with ⟨rfl, rfl⟩ | ⟨hg0, hd⟩
  · have h1 := keyword_ok alnum (str! "select") k (g ++ '*' :: r) ((match_upper _ _ (by decide) (by decide) k).2 hk) (notNext_ws alnum ha g _ hg fun _ => star)
    have h2 : spaces (g ++ '*' :: r) = _ := spaces_append g _ (ws_all hg) starw
    have h3 : ∀ w : Str, w ≠ [] → (∀ t, ¬Match eqIgnoreCase w ('*' :: t)) → keyword alnum w ('*' :: r) = .fail false := fun w h0 hw =>
      keyword_fail _ _ _ fun r' u' h => by
        obtain ⟨⟨t, e, hm⟩, -, -⟩ := (keyword_iff _ _ _ _ _).1 h
        cases t with
        | nil => cases w with
          | nil => exact h0 rfl
          | cons a w => cases hm
        | cons c t => rw [← (List.cons.inj e).1] at hm; exact hw _ hm
    have hno : ∀ (a : Char) (w t : Str), eqIgnoreCase a '*' = false → ¬Match eqIgnoreCase (a :: w) ('*' :: t) := fun a w t h hm => by
      have := hm.1
      rw [h] at this
      cases this
    have h4 := h3 (str! "distinct") (by decide) fun t => hno _ _ _ (by decide)
    have h5 := h3 (str! "reduced") (by decide) fun t => hno _ _ _ (by decide)
    have h6 : spaces ('*' :: r) = _ := spaces_append [] _ (by simp) starw
    simp only [List.nil_append] at *
    simp only [selectClause, both, andThen, skip, mapP, h1, h2, optionalP, orElse, h4, h5, h6] at last ⊢
    rw [last]
    simp
  · have hdw : Spec.NotNext (fun c => isWhitespace c = true) (d ++ (g2 ++ '*' :: r)) := by
      rcases hd with hd | hd <;>
      · cases d with
        | nil => cases hd
        | cons c d => exact notNext_cons (alpha_not_ws _ (keyword_head hd (by simp [Spec.AsciiLetter, Spec.InRanges])))
    have h1 := keyword_ok alnum (str! "select") k (g ++ (d ++ (g2 ++ '*' :: r))) ((match_upper _ _ (by decide) (by decide) k).2 hk)
      (notNext_ws alnum ha g _ hg fun h => absurd h hg0)
    have h2 : spaces (g ++ (d ++ (g2 ++ '*' :: r))) = _ := spaces_append g _ (ws_all hg) hdw
    have h3 : orElse (keyword alnum (str! "distinct")) (keyword alnum (str! "reduced")) (d ++ (g2 ++ '*' :: r)) = .ok () (g2 ++ '*' :: r) true := by
      have hn := notNext_ws alnum ha g2 _ hg2 fun _ => star
      rcases hd with hd | hd
      · have := keyword_ok alnum (str! "distinct") d _ ((match_upper _ _ (by decide) (by decide) d).2 hd) hn
        simp [orElse, this]
      · have h := keyword_ok alnum (str! "reduced") d _ ((match_upper _ _ (by decide) (by decide) d).2 hd) hn
        have : keyword alnum (str! "distinct") (d ++ (g2 ++ '*' :: r)) = .fail false := keyword_fail _ _ _ fun r' u' h' => by
          obtain ⟨⟨t, e, hm⟩, -, -⟩ := (keyword_iff _ _ _ _ _).1 h'
          have hr := (match_upper (str! "reduced") _ (by decide) (by decide) d).2 hd
          cases d with
          | nil => cases hd
          | cons c d =>
            cases t with
            | nil => cases hm
            | cons c' t =>
              have hc := (List.cons.inj e).1
              subst hc
              have h1 := hm.1
              have h2 := hr.1
              simp only [eqIgnoreCase, beq_iff_eq] at h1 h2
              rw [← h1] at h2
              exact absurd h2 (by decide)
        simp [orElse, this, h]
    have h4 : spaces (g2 ++ '*' :: r) = _ := spaces_append g2 _ (ws_all hg2) starw
    simp only [selectClause, both, andThen, skip, mapP, h1, h2, optionalP, h3, h4] at last ⊢
    rw [last]
    simp

/-- C145, what is used up: a data set, with or without `NAMED`. -/
theorem C145_dataset (alnum : Char → Bool) (ha : AlnumOk alnum) (k g d g2 i g3 r : Str) (hk : Spec.Keyword (str! "FROM") k)
    (hg : Spec.AllWs g) (hg2 : Spec.AllWs g2) (hg3 : Spec.AllWs g3) (hi : ∀ c ∈ i, Spec.IriRefChar c)
    (hr : Spec.NotNext (fun c => isWhitespace c = true) r)
    (hd : d = [] ∧ g2 = [] ∨ g ≠ [] ∧ Spec.Keyword (str! "NAMED") d) :
    datasetClause alnum (k ++ (g ++ (d ++ (g2 ++ ('<' :: i ++ '>' :: g3 ++ r))))) = .ok () r true := by
  have lt : Spec.NotNext (fun c => alnum c = true) ('<' :: i ++ '>' :: g3 ++ r) := notNext_cons fun h => (ha _ h).2.2.1 rfl
  have ltw : Spec.NotNext (fun c => isWhitespace c = true) ('<' :: i ++ '>' :: g3 ++ r) := notNext_cons (by decide)
  have last := iriRef_spaces i g3 r hi hg3 hr
  generalize ht : '<' :: i ++ '>' :: g3 ++ r = t at *
  rcases hd with ⟨rfl, rfl⟩ | ⟨hg0, hd⟩
  · have h1 := keyword_ok alnum (str! "from") k (g ++ t) ((match_upper _ _ (by decide) (by decide) k).2 hk) (notNext_ws alnum ha g _ hg fun _ => lt)
    have h2 : spaces (g ++ t) = _ := spaces_append g _ (ws_all hg) ltw
    have h4 : keyword alnum (str! "named") t = .fail false := keyword_fail _ _ _ fun r' u' h => by
      obtain ⟨⟨x, e, hm⟩, -, -⟩ := (keyword_iff _ _ _ _ _).1 h
      cases x with
      | nil => cases hm
      | cons c x =>
        rw [← ht] at e
        have := hm.1
        rw [← (List.cons.inj e).1] at this
        exact absurd this (by decide)
    have h6 : spaces t = _ := spaces_append [] _ (by simp) ltw
    simp only [List.nil_append] at *
    simp only [datasetClause, both, andThen, skip, mapP, h1, h2, optionalP, h4, h6] at last ⊢
    rw [last]
    simp
  · have hdw : Spec.NotNext (fun c => isWhitespace c = true) (d ++ (g2 ++ t)) := by
      cases d with
      | nil => cases hd
      | cons c d => exact notNext_cons (alpha_not_ws _ (keyword_head hd (by simp [Spec.AsciiLetter, Spec.InRanges])))
    have h1 := keyword_ok alnum (str! "from") k (g ++ (d ++ (g2 ++ t))) ((match_upper _ _ (by decide) (by decide) k).2 hk)
      (notNext_ws alnum ha g _ hg fun h => absurd h hg0)
    have h2 : spaces (g ++ (d ++ (g2 ++ t))) = _ := spaces_append g _ (ws_all hg) hdw
    have h3 := keyword_ok alnum (str! "named") d _ ((match_upper _ _ (by decide) (by decide) d).2 hd) (notNext_ws alnum ha g2 _ hg2 fun _ => lt)
    have h4 : spaces (g2 ++ t) = _ := spaces_append g2 _ (ws_all hg2) ltw
    simp only [datasetClause, both, andThen, skip, mapP, h1, h2, optionalP, h3, h4] at last ⊢
    rw [last]
    simp

/-- Two variables are not used up either, even with that word. -/
theorem C145_fails_two : query asciiAlnum never (str! "select ?x ?y offsetvalues") = .fail true ∧
    query asciiAlnum never (str! "select ?x offsetvalues") = .ok () [] true := by decide +kernel

/-- C145: all that a `HAVING` clause can be is the word alone. -/
theorem C145_having (alnum : Char → Bool) (s r : Str) (u : Bool) : havingClause alnum s = .ok () r u ↔
    (∃ k, s = k ++ r ∧ Spec.Keyword (str! "HAVING") k) ∧ Spec.NotNext (fun c => alnum c = true) r ∧ u = true := by
  rw [havingClause, keyword_iff]
  simp only [match_upper (str! "having") (str! "HAVING") (by decide) (by decide)]
  simp

/-- C145: the expressions and the patterns are not looked at. -/
theorem C145_nothing (s : Str) : expressionAsVar s = .ok () s false ∧ groupGraphPattern s = .ok () s false := ⟨rfl, rfl⟩

/-! ### C146 -/

/-- C146: small updates of the grammar are used up. -/
def C146_statement : Prop := ∀ alnum, AlnumOk alnum → ∀ s, Spec.SmallUpdate s → ∃ u, update alnum s = .ok () [] u

/-- C146, what is used up instead: the prologue and nothing more. -/
theorem C146_prologue (alnum : Char → Bool) (s : Str) : update alnum s = prologue alnum s := by
  unfold update updateUpTo both andThen
  cases h : prologue alnum s with
  | ok a r u => simp [mapP, optionalP, both, update1, never, andThen]
  | fail u => rfl
  | panic => rfl

/-- C146 fails: for each text that begins with another letter than a declaration. -/
theorem C146_fails : ¬C146_statement := fun h => by
  obtain ⟨u, h⟩ := h asciiAlnum asciiAlnum_ok (str! "DROP ALL") ⟨str! "DROP", [' '], str! "ALL", rfl, .inr (keyword_self _), by simp,
    by simp [Spec.AllWs, Spec.SparqlWs], .inr (.inr (keyword_self _))⟩
  rw [C146_prologue] at h
  exact absurd h (by cases u <;> decide +kernel)

/-- C146, references to graphs, exactly which are used up: those of the grammar with an IRI in brackets. -/
theorem C146_graph_iff (alnum : Char → Bool) (ha : AlnumOk alnum) (hs : ∀ c, alnum c = true → ¬isWhitespace c = true) (s r : Str)
    (u : Bool) :
    graphRef alnum s = .ok () r u ↔ u = true ∧ Spec.NotNext (fun c => isWhitespace c = true) r ∧ ∃ t, s = t ++ r ∧ Spec.GraphRefIri t := by
  have hlt : ∀ t, Spec.NotNext (fun c => isWhitespace c = true) ('<' :: t) := fun t => notNext_cons (by decide)
  constructor
  · intro h
    unfold graphRef both andThen skip andThen mapP at h
    cases hk : keyword alnum (str! "graph") s with
    | ok a r1 u1 =>
      rw [hk] at h
      simp only [spaces_eq] at h
      obtain ⟨⟨k, rfl, hm⟩, -, hu1⟩ := (keyword_iff _ _ _ _ _).1 hk
      cases hi : iriRef (r1.dropWhile isWhitespace) with
      | ok i r2 u2 =>
        rw [hi] at h
        simp only [PRes.ok.injEq] at h
        obtain ⟨rfl, hc, hr, w, hw, e⟩ := (C122_iff _ _ _ _).1 hi
        obtain ⟨-, rfl, hu⟩ := h
        refine ⟨by rw [← hu]; simp, hr, k ++ r1.takeWhile isWhitespace ++ '<' :: i ++ '>' :: w, ?_, k, _, i, w, rfl,
          (match_upper _ _ (by decide) (by decide) k).1 hm, fun c hc => (C122_space c).1 (takeWhile_all _ _ c hc), hc,
          fun c hc => (C122_space c).1 (hw c hc)⟩
        have := List.takeWhile_append_dropWhile (p := isWhitespace) (l := r1)
        rw [e] at this
        exact (congrArg (k ++ ·) this.symm).trans (by simp)
      | fail u' => rw [hi] at h; cases h
      | panic => rw [hi] at h; cases h
    | fail u' => rw [hk] at h; cases h
    | panic => rw [hk] at h; cases h
  · rintro ⟨rfl, hr, t, rfl, k, g, i, w, rfl, hk, hg, hi, hw⟩
    have e : k ++ g ++ '<' :: i ++ '>' :: w ++ r = k ++ (g ++ ('<' :: i ++ '>' :: w ++ r)) := by simp
    have hnext : Spec.NotNext (fun c => alnum c = true) (g ++ ('<' :: i ++ '>' :: w ++ r)) := by
      cases g with
      | nil => exact notNext_cons fun h => (ha _ h).2.2.1 rfl
      | cons c g => exact notNext_cons fun h => hs _ h ((C122_space c).2 (hg c (by simp)))
    have h1 := keyword_ok alnum (str! "graph") k _ ((match_upper _ _ (by decide) (by decide) k).2 hk) hnext
    have h2 : spaces (g ++ ('<' :: i ++ '>' :: w ++ r)) = _ := spaces_append g _ (fun c hc => (C122_space c).2 (hg c hc)) (hlt _)
    have h3 := (C122_iff _ i r true).2 ⟨rfl, hi, hr, w, fun c hc => (C122_space c).2 (hw c hc), rfl⟩
    rw [e]
    simp only [graphRef, both, andThen, skip, mapP, h1, h2, h3]
    simp

/-- C146: a prefixed name, which the grammar has, is none. -/
theorem C146_fails_prefixed : graphRefAll asciiAlnum (str! "GRAPH ex:g") = .fail true := by decide +kernel

/-- C146: the words for more than one graph, exactly where they stand. -/
theorem C146_words_iff (alnum : Char → Bool) (s r : Str) (u : Bool) (hg : ∀ k r', s = k ++ r' → ¬Spec.Keyword (str! "GRAPH") k) :
    graphRefAll alnum s = .ok () r u ↔ u = true ∧ Spec.NotNext (fun c => alnum c = true) r ∧ ∃ k, s = k ++ r ∧
      (Spec.Keyword (str! "DEFAULT") k ∨ Spec.Keyword (str! "NAMED") k ∨ Spec.Keyword (str! "ALL") k) := by
  have h0 : graphRef alnum s = .fail false := by
    have : keyword alnum (str! "graph") s = .fail false := keyword_fail _ _ _ fun r' u' h => by
      obtain ⟨⟨k, rfl, hm⟩, -, -⟩ := (keyword_iff _ _ _ _ _).1 h
      exact hg k r' rfl ((match_upper _ _ (by decide) (by decide) k).1 hm)
    simp [graphRef, both, andThen, skip, this]
  have key : ∀ k K : Str, k = K.map (fun c => Char.ofNat (c.toNat + 32)) → (∀ c ∈ K, 0x41 ≤ c.toNat ∧ c.toNat ≤ 0x5A) → k ≠ [] → ∀ r u,
      keyword alnum k s = .ok () r u ↔ u = true ∧ Spec.NotNext (fun c => alnum c = true) r ∧ ∃ t, s = t ++ r ∧ Spec.Keyword K t := by
    intro k K e hK hk r u
    rw [keyword_iff]
    cases k with
    | nil => exact absurd rfl hk
    | cons c k =>
      constructor
      · rintro ⟨⟨t, h1, h2⟩, h3, h4⟩
        exact ⟨by simpa using h4, h3, t, h1, (match_upper _ _ e hK t).1 h2⟩
      · rintro ⟨h1, h2, t, h3, h4⟩
        exact ⟨⟨t, h3, (match_upper _ _ e hK t).2 h4⟩, h2, by simpa using h1⟩
  have hd := key (str! "default") (str! "DEFAULT") (by decide) (by decide) (by decide)
  have hn := key (str! "named") (str! "NAMED") (by decide) (by decide) (by decide)
  have hl := key (str! "all") (str! "ALL") (by decide) (by decide) (by decide)
  have cases3 : ∀ (k : Str), (∃ r u, keyword alnum k s = .ok () r u) ∨ keyword alnum k s = .fail false := by
    intro k
    by_cases h : ∃ r u, keyword alnum k s = .ok () r u
    · exact .inl h
    · exact .inr (keyword_fail _ _ _ fun r u e => h ⟨r, u, e⟩)
  have first : ∀ {k t x : Str} {a b : Char} {K L : Str}, Spec.Keyword (a :: K) k → Spec.Keyword (b :: L) t → k ++ x = s → ∀ y, t ++ y = s →
      (∀ c : Char, (c = a ∨ (Spec.AsciiLetter a ∧ Spec.AsciiLetter c ∧ (c.toNat = a.toNat + 32 ∨ a.toNat = c.toNat + 32))) →
        (c = b ∨ (Spec.AsciiLetter b ∧ Spec.AsciiLetter c ∧ (c.toNat = b.toNat + 32 ∨ b.toNat = c.toNat + 32))) → False) → False := by
    intro k t x a b K L h1 h2 e1 y e2 hc
    cases k with
    | nil => exact h1
    | cons c k =>
      cases t with
      | nil => exact h2
      | cons d t =>
        have : c = d := by rw [← e2] at e1; exact (List.cons.inj e1).1
        subst this
        exact hc c h1.1 h2.1
  have near : ∀ {a c : Char}, (c = a ∨ (Spec.AsciiLetter a ∧ Spec.AsciiLetter c ∧ (c.toNat = a.toNat + 32 ∨ a.toNat = c.toNat + 32))) →
      c.toNat = a.toNat ∨ c.toNat = a.toNat + 32 ∨ a.toNat = c.toNat + 32 := by
    rintro a c (rfl | ⟨-, -, h⟩)
    · exact .inl rfl
    · exact .inr h
  unfold graphRefAll orElse
  rw [h0]
  simp only
  rcases cases3 (str! "default") with ⟨r1, u1, e1⟩ | e1
  · rw [e1]
    simp only [PRes.ok.injEq, true_and]
    obtain ⟨rfl, h2, t, h3, h4⟩ := (hd _ _).1 e1
    constructor
    · rintro ⟨rfl, rfl⟩
      exact ⟨rfl, h2, t, h3, .inl h4⟩
    · rintro ⟨rfl, h5, k, h6, h7 | h7 | h7⟩
      · have := (hd r true).2 ⟨rfl, h5, k, h6, h7⟩
        rw [e1] at this
        simpa using this
      · exact (first h4 h7 h3.symm _ h6.symm (by
          intro c h h'
          have h := near h
          have h' := near h'
          rw [show 'D'.toNat = 68 from rfl] at h
          simp only [show 'N'.toNat = 78 from rfl, show 'A'.toNat = 65 from rfl] at h'
          omega)).elim
      · exact (first h4 h7 h3.symm _ h6.symm (by
          intro c h h'
          have h := near h
          have h' := near h'
          rw [show 'D'.toNat = 68 from rfl] at h
          simp only [show 'N'.toNat = 78 from rfl, show 'A'.toNat = 65 from rfl] at h'
          omega)).elim
  · rw [e1]
    simp only
    have nd : ∀ t r, s = t ++ r → Spec.NotNext (fun c => alnum c = true) r → ¬Spec.Keyword (str! "DEFAULT") t := by
      intro t r h1 h2 h3
      have := (hd r true).2 ⟨rfl, h2, t, h1, h3⟩
      rw [e1] at this
      cases this
    rcases cases3 (str! "named") with ⟨r1, u1, e2⟩ | e2
    · rw [e2]
      simp only [PRes.ok.injEq, true_and]
      obtain ⟨rfl, h2, t, h3, h4⟩ := (hn _ _).1 e2
      constructor
      · rintro ⟨rfl, rfl⟩
        exact ⟨rfl, h2, t, h3, .inr (.inl h4)⟩
      · rintro ⟨rfl, h5, k, h6, h7 | h7 | h7⟩
        · exact absurd h7 (nd k r h6 h5)
        · have := (hn r true).2 ⟨rfl, h5, k, h6, h7⟩
          rw [e2] at this
          simpa using this
        · exact (first h4 h7 h3.symm _ h6.symm (by
            intro c h h'
            have h := near h
            have h' := near h'
            rw [show 'N'.toNat = 78 from rfl] at h
            rw [show 'A'.toNat = 65 from rfl] at h'
            omega)).elim
    · rw [e2]
      simp only
      rw [hl]
      constructor
      · rintro ⟨h1, h2, t, h3, h4⟩
        exact ⟨h1, h2, t, h3, .inr (.inr h4)⟩
      · rintro ⟨h1, h2, t, h3, h4 | h4 | h4⟩
        · exact absurd h4 (nd t r h3 h2)
        · have := (hn r true).2 ⟨rfl, h2, t, h3, h4⟩
          rw [e2] at this
          cases this
        · exact ⟨h1, h2, t, h3, h4⟩

end Rdftk
