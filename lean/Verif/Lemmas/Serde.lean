import Verif.Model.Serde
import Verif.Lemmas.JsonAccept
import Verif.Lemmas.PrefixMap

/-! Helper lemmas about texts of JSON values whose members are not sorted. -/

namespace Rdftk
open Spec

mutual
/-- The value that the text of a value stands for: its members sorted. -/
def Json.norm : Json → Json
  | .null => .null
  | .bool b => .bool b
  | .num t => .num t
  | .str s => .str s
  | .arr l => .arr (Json.normAll l)
  | .obj m => .obj (mapAll [] (Json.normMembers m))
/-- All elements. -/
def Json.normAll : List Json → List Json
  | [] => []
  | v :: l => v.norm :: Json.normAll l
/-- All members. -/
def Json.normMembers : List (Str × Json) → List (Str × Json)
  | [] => []
  | (k, v) :: m => (k, v.norm) :: Json.normMembers m
end

mutual
/-- No numbers, and at most so many arrays and objects inside each other. -/
def Json.Loose : Nat → Json → Prop
  | _, .null => True
  | _, .bool _ => True
  | _, .num _ => False
  | _, .str _ => True
  | 0, .arr _ => False
  | d + 1, .arr l => Json.LooseAll d l
  | 0, .obj _ => False
  | d + 1, .obj m => Json.LooseMembers d m
/-- All elements. -/
def Json.LooseAll : Nat → List Json → Prop
  | _, [] => True
  | d, v :: l => Json.Loose d v ∧ Json.LooseAll d l
/-- All members. -/
def Json.LooseMembers : Nat → List (Str × Json) → Prop
  | _, [] => True
  | d, (_, v) :: m => Json.Loose d v ∧ Json.LooseMembers d m
end

theorem blank_break (p : Bool) (n : Nat) : JsonBlank (jBreak p n) := blank_ws.2 (jBreak_ws p n)

theorem blank_nil : JsonBlank [] := blank_ws.2 rfl

theorem chars_text (s : Str) : JsonChars (s.flatMap jEscapeChar) s := by
  obtain ⟨a, t, e, ha, h⟩ := jString_sound (jString_text s [])
  obtain rfl := List.length_eq_zero_iff.1 ha
  rw [(List.append_inj_left' e rfl : s.flatMap jEscapeChar = t)]
  exact h

mutual
theorem text_val (p : Bool) (n d : Nat) (v : Json) (h : v.Loose d) : JsonVal d (v.text p n) v.norm := by
  match v, d, h with
  | .null, _, _ => exact .null
  | .bool true, _, _ => exact .yes
  | .bool false, _, _ => exact .no
  | .str s, _, _ => simpa [Json.text, Json.norm, jQuote] using JsonVal.str (chars_text s)
  | .arr [], d + 1, _ => exact .emptyArr (w := []) blank_nil
  | .arr (v :: l), d + 1, h =>
    have := elems_val p (n + 1) d (jBreak p n) (blank_break p n) v l h.1 h.2
    simpa [Json.text, Json.norm, Json.normAll, List.append_assoc] using JsonVal.arr this
  | .obj [], d + 1, _ => exact .emptyObj (w := []) blank_nil
  | .obj ((k, v) :: m), d + 1, h =>
    have := members_val p (n + 1) d (jBreak p n) (blank_break p n) k v m h.1 h.2
    simpa [Json.text, Json.norm, Json.normMembers, List.append_assoc, jQuote] using
      JsonVal.obj this (mapOf_mapAll _)

theorem elems_val (p : Bool) (n d : Nat) (e : Str) (he : JsonBlank e) (v : Json) (l : List Json)
    (h : v.Loose d) (hl : Json.LooseAll d l) :
    JsonElems d (jBreak p n ++ (v.text p n ++ (Json.elemsText p n l ++ e))) (v.norm :: Json.normAll l) := by
  match l, hl with
  | [], _ =>
    simpa [Json.elemsText, Json.normAll] using JsonElems.one (blank_break p n) (text_val p n d v h) he
  | w :: l, hl =>
    have := elems_val p n d e he w l hl.1 hl.2
    simpa [Json.elemsText, Json.normAll, List.append_assoc] using
      JsonElems.more (blank_break p n) (text_val p n d v h) blank_nil this

theorem members_val (p : Bool) (n d : Nat) (e : Str) (he : JsonBlank e) (k : Str) (v : Json)
    (m : List (Str × Json)) (h : v.Loose d) (hm : Json.LooseMembers d m) :
    JsonMembers d (jBreak p n ++ (jQuote k ++ (jColon p ++ (v.text p n ++ (Json.membersText p n m ++ e)))))
      ((k, v.norm) :: Json.normMembers m) := by
  have hc : ∃ c, jColon p = ':' :: c ∧ JsonBlank c := by
    cases p
    · exact ⟨[], rfl, blank_nil⟩
    · exact ⟨[' '], rfl, blank_ws.2 rfl⟩
  obtain ⟨c, ec, bc⟩ := hc
  match m, hm with
  | [], _ =>
    simpa [Json.membersText, Json.normMembers, ec, jQuote] using
      JsonMembers.one (blank_break p n) (chars_text k) blank_nil bc (text_val p n d v h) he
  | (k', w) :: m, hm =>
    have := members_val p n d e he k' w m hm.1 hm.2
    simpa [Json.membersText, Json.normMembers, ec, jQuote, List.append_assoc] using
      JsonMembers.more (blank_break p n) (chars_text k) blank_nil bc (text_val p n d v h) blank_nil this
end

/-- The text of a value is read as the value with its members sorted. -/
theorem parse_text (p : Bool) (v : Json) (h : v.Loose 127) : jParse (v.text p 0) = some v.norm :=
  (jParse_iff _ _).2 ⟨[], _, [], by simp, blank_nil, text_val p 0 127 v h, blank_nil⟩

theorem mapAll_inOrder (a l : List (Str × Json)) (h : SortedKeys (a ++ l)) : mapAll a l = a ++ l := by
  induction l generalizing a with
  | nil => simp [mapAll]
  | cons e l ih =>
    obtain ⟨k, v⟩ := e
    have hp : mapPut k v a = a ++ [(k, v)] := mapPut_last fun b hb => by
      have := (List.pairwise_append.1 h).2.2 b hb (k, v) (by simp)
      exact this
    have : mapAll a ((k, v) :: l) = mapAll (a ++ [(k, v)]) l := by simp only [mapAll, List.foldl_cons, hp]
    rw [this, ih _ (by simpa [SortedKeys] using h)]
    simp

theorem insertSorted_last {p : Namespace} {i : Iri} {l : List (Namespace × Iri)}
    (h : ∀ e ∈ l, cmpStr e.1.text p.text = .lt) : PrefixMap.insertSorted p i l = l ++ [(p, i)] := by
  induction l with
  | nil => rfl
  | cons e l ih =>
    have he : cmpStr p.text e.1.text = .gt := cmpStr_gt.2 (h e (by simp))
    simp only [PrefixMap.insertSorted, he, ih fun e he => h e (by simp [he]), List.cons_append]

theorem insertMembers_sorted (url : Str → Option Iri) (a l : List (Namespace × Iri))
    (h : PrefixMap.Inv ⟨a ++ l⟩) (hu : ∀ e ∈ l, url e.2.text = some e.2) :
    insertMembers url ⟨a⟩ (l.map fun e => (e.1.text, e.2.toJson)) = some ⟨a ++ l⟩ := by
  induction l generalizing a with
  | nil => simp [insertMembers]
  | cons e l ih =>
    obtain ⟨p, i⟩ := e
    have h' := (List.pairwise_append.1 h).2.2
    have hi : PrefixMap.insert ⟨a⟩ p i = ⟨a ++ [(p, i)]⟩ := by
      have hf : (a.filter fun e => !(e.1 == p) && !(e.2 == i)) = a := by
        rw [List.filter_eq_self]
        intro b hb
        have := h' b hb (p, i) (by simp)
        have hne : b.1 ≠ p := fun e => by
          rw [e] at this; rw [cmpStr_order.refl] at this; cases this.1
        simp [hne, this.2]
      simp only [PrefixMap.insert, hf]
      rw [insertSorted_last fun b hb => (h' b hb (p, i) (by simp)).1]
    have hu' := hu (p, i) (by simp)
    simp only [List.map_cons, insertMembers, Iri.toJson, Iri.ofJson, hu', Option.bind_some]
    have : (⟨p.text⟩ : Namespace) = p := rfl
    rw [this, hi]
    have := ih (a ++ [(p, i)]) (by simpa using h) fun e he => hu e (by simp [he])
    simpa [Iri.toJson] using this

end Rdftk
