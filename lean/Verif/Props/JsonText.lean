import Verif.Lemmas.JsonAccept
import Verif.Model.Json

/-! JSON texts: C82. -/

namespace Rdftk
open Spec

/-- C82: the reader of JSON takes the texts of RFC 8259 with at most 127 arrays and objects inside
each other, for the value they have, and no other text. -/
theorem C82_accepts (s : Str) (v : Json) : jParse s = some v ↔ JsonText 127 s v := jParse_iff s v

/-- What is found under a name in an object is the value that was given last with that name. -/
theorem C82_members (l m : List (Str × Json)) (h : MapOf l m) (k : Str) : mapGet k m = lastOf k l := by
  have hn : (m.map (·.1)).Nodup := sorted_nodup h.1
  have key : ∀ v, mapGet k m = some v ↔ (k, v) ∈ m := by
    intro v
    unfold mapGet
    clear h
    induction m with
    | nil => simp
    | cons e m ih =>
      rw [List.map_cons, List.nodup_cons] at hn
      by_cases he : e.1 = k
      · subst he
        have : (e.1, v) ∉ m := fun hm => hn.1 (List.mem_map.2 ⟨_, hm, rfl⟩)
        simp only [List.find?_cons, beq_self_eq_true, Option.map_some, Option.some.injEq, List.mem_cons, this, or_false]
        exact ⟨fun h => by rw [← h], fun h => by rw [← h]⟩
      · rw [List.find?_cons_of_neg (by simpa using he), ih hn.2, List.mem_cons]
        exact ⟨.inr, fun h => h.resolve_left fun h => he (by rw [← h])⟩
  apply Option.ext
  intro v
  rw [key, h.2]

/-- C82: what is not such a text is reported. -/
theorem C82_rejects (env : ReadEnv) (s : Str) (h : ∀ v, ¬ JsonText 127 s v) : readJson env s = .err := by
  unfold readJson
  cases e : jParse s with
  | none => rfl
  | some v => exact absurd ((C82_accepts s v).1 e) (h v)

/-- C82: a text has one value. -/
theorem C82_one (s : Str) (v w : Json) (h : JsonText 127 s v) (h' : JsonText 127 s w) : v = w := by
  rw [← C82_accepts] at h h'
  rw [h] at h'
  exact Option.some.inj h'

/-- C82: white space around a text makes no difference. -/
theorem C82_blank (a b s : Str) (ha : JsonBlank a) (hb : JsonBlank b) (v : Json) (h : jParse s = some v) :
    jParse (a ++ (s ++ b)) = some v := by
  rw [C82_accepts] at h ⊢
  obtain ⟨a', t, b', rfl, h1, h2, h3⟩ := h
  refine ⟨a ++ a', t, b' ++ b, by simp, ?_, h2, ?_⟩
  · exact fun c hc => (List.mem_append.1 hc).elim (ha c) (h1 c)
  · exact fun c hc => (List.mem_append.1 hc).elim (h3 c) (hb c)

/-- Brackets. -/
def brackets (n : Nat) : Str := List.replicate n '[' ++ List.replicate n ']'

/-- Lists inside each other, one less than brackets. -/
def nest : Nat → Json
  | 0 => .arr []
  | n + 1 => .arr [nest n]

theorem brackets_nest (n d : Nat) (h : n < d) : JsonVal d (brackets (n + 1)) (nest n) := by
  induction n generalizing d with
  | zero =>
    obtain ⟨d, rfl⟩ : ∃ e, d = e + 1 := ⟨d - 1, by omega⟩
    exact .emptyArr (w := []) (by intro c hc; cases hc)
  | succ n ih =>
    obtain ⟨d, rfl⟩ : ∃ e, d = e + 1 := ⟨d - 1, by omega⟩
    have h1 : JsonElems d (brackets (n + 1)) [nest n] := by
      have := JsonElems.one (a := []) (b := []) (fun c hc => by cases hc) (ih d (by omega)) (fun c hc => by cases hc)
      simpa using this
    have e : brackets (n + 1 + 1) = '[' :: (brackets (n + 1) ++ [']']) := by
      unfold brackets
      rw [List.replicate_succ, List.replicate_succ' (a := ']')]
      simp
    rw [e]
    exact .arr h1

theorem nest_depth {d n : Nat} {s : Str} (h : JsonVal d s (nest n)) : n < d := by
  induction n generalizing d s with
  | zero => cases h <;> omega
  | succ n ih =>
    cases h with
    | arr h =>
      cases h with
      | one _ h _ => have := ih h; omega
      | more _ _ _ h => cases h

/-- C82: lists inside each other are read up to 127 and refused beyond. -/
theorem C82_depth (n : Nat) : (∃ v, jParse (brackets (n + 1)) = some v) ↔ n + 1 ≤ 127 := by
  constructor
  · rintro ⟨v, hv⟩
    by_contra hn
    rw [C82_accepts] at hv
    obtain ⟨a, t, b, e, ha, ht, hb⟩ := hv
    have ea : a = [] := by
      cases a with
      | nil => rfl
      | cons c a =>
        have hc : c = '[' := by
          have := congrArg List.head? e
          simpa [brackets, List.replicate_succ] using this.symm
        have := ha c List.mem_cons_self
        rw [hc] at this
        exact absurd this (by decide)
    have eb : b = [] := by
      rcases List.eq_nil_or_concat b with rfl | ⟨b', c, rfl⟩
      · rfl
      · have hc : c = ']' := by
          have := congrArg List.getLast? e
          rw [List.concat_eq_append] at this
          simp only [brackets, ← List.append_assoc, List.getLast?_append, List.replicate_succ'] at this
          simpa using this.symm
        have := hb c (by simp)
        rw [hc] at this
        exact absurd this (by decide)
    subst ea eb
    rw [List.nil_append, List.append_nil] at e
    subst e
    have h0 := brackets_nest n (n + 1) (by omega)
    have h1 := jValue_complete h0 [] (by intro c hc; cases hc)
    have h2 := jValue_complete ht [] (by intro c hc; cases hc)
    have : v = nest n := by
      have mono : ∀ d t v, JsonVal d t v → ∀ e, d ≤ e → JsonVal e t v := val_mono
      have h3 := jValue_complete (mono _ _ _ ht (n + 1) (by omega)) [] (by intro c hc; cases hc)
      rw [h1] at h3
      cases h3; rfl
    subst this
    have := nest_depth ht
    omega
  · intro h
    have hb : JsonBlank [] := fun c hc => by cases hc
    exact ⟨nest n, (C82_accepts _ _).2 ⟨[], _, [], by simp, hb, brackets_nest n 127 (by omega), hb⟩⟩

/-- There are texts with a repeated name, a pair of surrogates, a fraction. -/
example : (match jParse (str! " {\"a\": [1, -0.5e+3], \"b\":\"\\u0041\\ud83d\\ude00\\/\", \"a\": true} ") with
    | some (.obj [(a, .bool true), (b, .str t)]) => decide (a = ['a'] ∧ b = ['b'] ∧
        t = ['A', Char.ofNat 0x1F600, '/'])
    | _ => false) = true := by decide +kernel
/-- There are texts that are refused. -/
example : ∀ s ∈ [str! "[01]", str! "[1,]", str! "\"\t\"", str! "\"\\ud83d\"", str! "1 2", str! "nul", []],
    (jParse s).isNone = true := by decide +kernel

end Rdftk
