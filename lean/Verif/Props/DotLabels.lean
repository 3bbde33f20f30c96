import Verif.Props.Dot

/-! The labels of drawings: what is read from a drawing can stand in quotes. -/

namespace Rdftk
open Spec

/-! ### What is read is safe -/

/-- Words are words, and texts in quotes are without bare quotes. -/
def TokSafe : DotTok → Prop
  | .quoted v => dotSafe v
  | .word v => ∀ c ∈ v, isDotWord c = true
  | _ => True

/-- The same of what the tokenizer has read so far. -/
def StateSafe : DotState → Prop
  | .quoted p a => ∀ r, noBareQuote false (a ++ r) = noBareQuote p r
  | .word v => ∀ c ∈ v, isDotWord c = true
  | _ => True

theorem dotStart_safe {c : Char} {st : DotState} {ts : List DotTok} (h : dotStart c = some (st, ts)) :
    StateSafe st ∧ ∀ t ∈ ts, TokSafe t := by
  unfold dotStart at h
  repeat' split at h
  all_goals
    simp only [Option.some.injEq, Prod.mk.injEq, reduceCtorEq] at h
  all_goals
    obtain ⟨rfl, rfl⟩ := h
    simp_all [StateSafe, TokSafe]

theorem dotStep_safe {st st' : DotState} {c : Char} {ts : List DotTok} (hs : StateSafe st)
    (h : dotStep st c = some (st', ts)) : StateSafe st' ∧ ∀ t ∈ ts, TokSafe t := by
  cases st with
  | idle => exact dotStart_safe h
  | dash =>
    simp only [dotStep] at h
    split at h
    · cases h; simp [StateSafe, TokSafe]
    · cases h
  | word v =>
    simp only [dotStep] at h
    split at h
    · cases h
      simp only [StateSafe, List.mem_append, List.mem_singleton] at hs ⊢
      grind
    · cases e : dotStart c with
      | none => rw [e] at h; cases h
      | some r =>
        rw [e] at h
        cases h
        obtain ⟨h1, h2⟩ := dotStart_safe e
        refine ⟨h1, fun t ht => ?_⟩
        rcases List.mem_cons.1 ht with rfl | ht
        · exact hs
        · exact h2 t ht
  | quoted p a =>
    cases p with
    | true =>
      simp only [dotStep, Option.some.injEq, Prod.mk.injEq] at h
      obtain ⟨rfl, rfl⟩ := h
      refine ⟨fun r => ?_, by simp⟩
      rw [List.append_assoc, hs]
      rfl
    | false =>
      simp only [dotStep] at h
      split at h
      · cases h
        refine ⟨trivial, fun t ht => ?_⟩
        rw [List.mem_singleton.1 ht]
        have := hs []
        rw [List.append_nil] at this
        exact this
      · rename_i hq
        cases h
        refine ⟨fun r => ?_, by simp⟩
        rw [List.append_assoc, hs]
        simp [noBareQuote, hq]

theorem dotTokens_safe {st : DotState} {s : Str} {ts : List DotTok} (hs : StateSafe st)
    (h : dotTokens st s = some ts) : ∀ t ∈ ts, TokSafe t := by
  induction s generalizing st ts with
  | nil =>
    cases st <;> simp only [dotTokens, Option.some.injEq, reduceCtorEq] at h
    · subst h; simp
    · subst h; intro t ht; rw [List.mem_singleton.1 ht]; exact hs
  | cons c s ih =>
    have h : (match dotStep st c with
        | none => none
        | some (st', ts) => (dotTokens st' s).map (ts ++ ·)) = some ts := by
      cases st <;> exact h
    cases e : dotStep st c with
    | none => rw [e] at h; cases h
    | some r =>
      obtain ⟨st', us⟩ := r
      rw [e] at h
      obtain ⟨h1, h2⟩ := dotStep_safe hs e
      cases e2 : dotTokens st' s with
      | none => simp [e2] at h
      | some vs =>
        simp only [e2, Option.map_some, Option.some.injEq] at h
        subst h
        intro t ht
        rcases List.mem_append.1 ht with ht | ht
        · exact h2 t ht
        · exact ih h1 e2 t ht

theorem dotStatements_mem {ts : List DotTok} : ∀ s ∈ (dotStatements ts).1, ∀ t ∈ s, t ∈ ts := by
  induction ts with
  | nil => simp [dotStatements]
  | cons t ts ih =>
    simp only [dotStatements]
    split
    · intro s hs u hu
      rcases List.mem_cons.1 hs with rfl | hs
      · cases hu
      · exact List.mem_cons_of_mem _ (ih s hs u hu)
    · split
      · simp
      · rename_i s ss e
        rw [e] at ih
        intro x hx u hu
        rcases List.mem_cons.1 hx with rfl | hx
        · rcases List.mem_cons.1 hu with rfl | hu
          · exact List.mem_cons_self
          · exact List.mem_cons_of_mem _ (ih s List.mem_cons_self u hu)
        · exact List.mem_cons_of_mem _ (ih x (List.mem_cons_of_mem _ hx) u hu)

theorem words_safe {v : Str} (h : ∀ c ∈ v, isDotWord c = true) : dotSafe v := by
  apply quoteFree.safe
  intro c hc
  have := h c hc
  constructor <;> rintro rfl <;> exact absurd this (by decide)

theorem dotAttrs_safe {ts : List DotTok} {as : List (Str × Str)} (hs : ∀ t ∈ ts, TokSafe t) (h : dotAttrs ts = some as) :
    ∀ x ∈ as, dotSafe x.2 := by
  fun_induction dotAttrs ts generalizing as with
  | case1 k v r ih =>
    cases e : dotAttrs r with
    | none => rw [e] at h; cases h
    | some bs =>
      rw [e] at h
      cases h
      intro x hx
      rcases List.mem_cons.1 hx with rfl | hx
      · exact hs (.quoted v) (by simp)
      · exact ih (fun t ht => hs t (by simp [ht])) e x hx
  | case2 k v r ih =>
    cases e : dotAttrs r with
    | none => rw [e] at h; cases h
    | some bs =>
      rw [e] at h
      cases h
      intro x hx
      rcases List.mem_cons.1 hx with rfl | hx
      · exact words_safe (hs (.word v) (by simp))
      · exact ih (fun t ht => hs t (by simp [ht])) e x hx
  | case3 k v =>
    cases h
    intro x hx
    rw [List.mem_singleton.1 hx]
    exact hs (.quoted v) (by simp)
  | case4 k v =>
    cases h
    intro x hx
    rw [List.mem_singleton.1 hx]
    exact words_safe (hs (.word v) (by simp))
  | case5 => cases h

/-- The attributes of an item. -/
def itemAttrs : DotItem → List (Str × Str)
  | .edge _ _ as => as
  | .node _ as => as

theorem dotItem_safe {ts : List DotTok} {it : DotItem} (hs : ∀ t ∈ ts, TokSafe t) (h : dotItem ts = some it) :
    ∀ x ∈ itemAttrs it, dotSafe x.2 := by
  unfold dotItem at h
  split at h
  · rename_i r
    cases e : dotAttrs r with
    | none => rw [e] at h; cases h
    | some as => rw [e] at h; cases h; exact dotAttrs_safe (fun t ht => hs t (by simp [ht])) e
  · rename_i r
    cases e : dotAttrs r with
    | none => rw [e] at h; cases h
    | some as => rw [e] at h; cases h; exact dotAttrs_safe (fun t ht => hs t (by simp [ht])) e
  · cases h

/-- Every value of an attribute that is read could stand in quotes. -/
theorem readDot_safe {s : Str} {items : List DotItem} (h : readDot s = some items) :
    ∀ it ∈ items, ∀ x ∈ itemAttrs it, dotSafe x.2 := by
  unfold readDot at h
  split at h
  · cases h
  · rename_i ts hts
    have hs := dotTokens_safe (st := .idle) trivial hts
    split at h
    · rename_i hd ss hst
      split at h
      · have hm : ∀ x ∈ ss, ∀ t ∈ x, TokSafe t := by
          intro x hx t ht
          refine hs t (dotStatements_mem x ?_ t ht)
          rw [hst]
          exact List.mem_cons_of_mem _ hx
        clear hst
        induction ss generalizing items with
        | nil => cases h; simp
        | cons x ss ih =>
          simp only [dotItems] at h
          cases e : dotItem x with
          | none => rw [e] at h; cases h
          | some i =>
            cases e2 : dotItems ss with
            | none => rw [e, e2] at h; cases h
            | some is =>
              rw [e, e2] at h
              cases h
              intro it hit
              rcases List.mem_cons.1 hit with rfl | hit
              · exact dotItem_safe (hm x List.mem_cons_self) e
              · exact ih e2 (fun y hy => hm y (List.mem_cons_of_mem _ hy)) it hit
      · cases h
    · cases h

/-- The labels of a drawing. -/
def LabelsSafe (sty : IriStyle) (g : Graph) : Prop :=
  (∀ st ∈ g.stmts, dotSafe (edgeLabel sty g.mappings st.predicate)) ∧ NodeLabelsSafe sty (nodesOf g.stmts)

/-- What draws a graph has all its labels. -/
theorem draws_safe {sty : IriStyle} {opts : DotOptions} {g : Graph} {text : Str} {items : List DotItem}
    (h : readDot text = some items) (hd : Draws sty opts g items) : LabelsSafe sty g := by
  have safe := readDot_safe h
  obtain ⟨id, -, nodes, drawn, hp, hf, rfl⟩ := hd
  refine ⟨fun st hst => ?_, fun o ho => ?_⟩
  · exact safe (edgeItem sty opts g.mappings id st) (List.mem_append_left _ (List.mem_map_of_mem hst)) (_, _)
      (List.mem_singleton.2 rfl)
  · have hm := hp.symm.subset ho
    have : ∃ it ∈ drawn, draws sty opts id o it := by
      clear safe h hp
      induction hf with
      | nil => cases hm
      | cons hx _ ih =>
        rcases List.mem_cons.1 hm with rfl | hm
        · exact ⟨_, List.mem_cons_self, hx⟩
        · obtain ⟨it, a, b⟩ := ih hm
          exact ⟨it, List.mem_cons_of_mem _ a, b⟩
    obtain ⟨it, hit, attrs, rfl, ha⟩ := this
    have hs := safe _ (List.mem_append_right _ hit)
    constructor
    · rintro i rfl
      rw [ha _ rfl] at hs
      exact hs (str! "URL", _) List.mem_cons_self
    · rintro l rfl
      rw [ha _ rfl] at hs
      exact hs (str! "label", _) List.mem_cons_self

theorem Spec.GraphSafe.labels {g : Graph} (h : GraphSafe g) (sty : IriStyle) : LabelsSafe sty g :=
  ⟨fun st hst => edgeLabel_safe (h.1 st hst) h.2.2.2,
    fun _ ho => ⟨fun i e => quoteFree.safe (quoteFree.fmt (h.2.1 i (e ▸ ho)) sty), fun l e => h.2.2.1 l (e ▸ ho)⟩⟩

end Rdftk
