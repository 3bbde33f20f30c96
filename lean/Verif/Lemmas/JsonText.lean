import Verif.Model.JsonText
import Verif.Lemmas.Cmp
import Verif.Lemmas.NTriples

/-! Helper lemmas about JSON texts. -/

namespace Rdftk

/-! ### Maps -/

/-- Keys in strictly ascending order, as in a `BTreeMap`. -/
def SortedKeys {α : Type _} (m : List (Str × α)) : Prop :=
  m.Pairwise fun a b => cmpStr a.1 b.1 = .lt

theorem cmpStr_gt {a b : Str} : cmpStr a b = .gt ↔ cmpStr b a = .lt := by
  rw [cmpStr_order.swap b a]
  cases cmpStr b a <;> simp [Ordering.swap]

theorem cmpStr_eq {a b : Str} : cmpStr a b = .eq ↔ a = b := cmpStr_order.eq_iff a b

theorem mem_mapPut {α : Type _} {k : Str} {v : α} {m : List (Str × α)} {e : Str × α} :
    e ∈ mapPut k v m → e = (k, v) ∨ e ∈ m := by
  induction m with
  | nil => simp [mapPut]
  | cons x m ih =>
    unfold mapPut
    split <;> simp only [List.mem_cons]
    · exact id
    · rintro (h | h)
      · exact .inl h
      · exact .inr (.inr h)
    · rintro (h | h)
      · exact .inr (.inl h)
      · rcases ih h with h | h
        · exact .inl h
        · exact .inr (.inr h)

theorem sorted_mapPut {α : Type _} {k : Str} {v : α} {m : List (Str × α)} (h : SortedKeys m) :
    SortedKeys (mapPut k v m) := by
  induction m with
  | nil => simp [mapPut, SortedKeys]
  | cons x m ih =>
    unfold SortedKeys at h ih
    rw [List.pairwise_cons] at h
    unfold mapPut
    split <;> rename_i hc <;> unfold SortedKeys <;> rw [List.pairwise_cons]
    · refine ⟨?_, List.pairwise_cons.2 h⟩
      intro e he
      rcases List.mem_cons.1 he with rfl | he
      · exact hc
      · exact cmpStr_order.trans _ _ _ hc (h.1 e he)
    · refine ⟨?_, h.2⟩
      rw [cmpStr_eq] at hc
      rw [hc]; exact h.1
    · refine ⟨?_, ih h.2⟩
      intro e he
      rcases mem_mapPut he with rfl | he
      · exact cmpStr_gt.1 hc
      · exact h.1 e he

theorem mapPut_last {α : Type _} {k : Str} {v : α} {m : List (Str × α)}
    (h : ∀ e ∈ m, cmpStr e.1 k = .lt) : mapPut k v m = m ++ [(k, v)] := by
  induction m with
  | nil => rfl
  | cons x m ih =>
    have h1 : cmpStr k x.1 = .gt := cmpStr_gt.2 (h x List.mem_cons_self)
    simp only [mapPut, h1, List.cons_append]
    rw [ih fun e he => h e (List.mem_cons_of_mem _ he)]

/-! ### Strings -/

theorem jString_skip (a : Str) (s : Str) : jString a.length (a ++ s) = jString 0 s := by
  induction a with
  | nil => rfl
  | cons c a ih => simpa [jString] using ih

theorem jString_escape {a s : Str} {d : Char} (h : jEscape (a ++ s) = some (d, a.length)) :
    jString 0 ('\\' :: (a ++ s)) = (jString 0 s).map fun x => (d :: x.1, x.2) := by
  rw [← jString_skip a s]
  generalize a ++ s = t at h ⊢
  simp [jString, h]

theorem jEscape_low (n : Nat) (h : n < 32) (s : Str) :
    jEscape ('u' :: '0' :: '0' :: Nat.digitChar (n / 16) :: Nat.digitChar (n % 16) :: s) =
      some (Char.ofNat n, 5) := by
  have : jHex4 ('0' :: '0' :: Nat.digitChar (n / 16) :: Nat.digitChar (n % 16) :: s) = some n := by
    revert h n
    intro n h
    simp only [jHex4]
    revert n
    decide
  simp only [jEscape, jUnicode, this]
  rw [if_neg (by omega), if_neg (by omega)]
  rfl

theorem jString_char (c : Char) (s : Str) :
    jString 0 (jEscapeChar c ++ s) = (jString 0 s).map fun x => (c :: x.1, x.2) := by
  unfold jEscapeChar
  have hc : ∀ n, c.toNat = n → c = Char.ofNat n := fun n h => by rw [← h, Char.ofNat_toNat]
  split
  · subst c; exact jString_escape (a := ['"']) rfl
  split
  · subst c; exact jString_escape (a := ['\\']) rfl
  split
  · rename_i h; rw [hc _ h]; exact jString_escape (a := ['b']) rfl
  split
  · rename_i h; rw [hc _ h]; exact jString_escape (a := ['f']) rfl
  split
  · subst c; exact jString_escape (a := ['n']) rfl
  split
  · subst c; exact jString_escape (a := ['r']) rfl
  split
  · subst c; exact jString_escape (a := ['t']) rfl
  split
  · rename_i h
    refine jString_escape (a := ['u', '0', '0', _, _]) ?_
    have := jEscape_low c.toNat h s
    rw [Char.ofNat_toNat] at this
    exact this
  · rename_i h1 h2 _ _ _ _ _ h3
    simp [jString, h1, h2, h3]

theorem jString_text (s r : Str) : jString 0 (s.flatMap jEscapeChar ++ '"' :: r) = some (s, r) := by
  induction s with
  | nil => simp [jString]
  | cons c s ih =>
    rw [List.flatMap_cons, List.append_assoc, jString_char, ih]
    rfl

/-! ### Values -/

theorem jSkip_ws {w s : Str} (h : w.all jWs = true) : jSkip (w ++ s) = jSkip s := by
  induction w with
  | nil => rfl
  | cons c w ih =>
    rw [List.all_cons, Bool.and_eq_true] at h
    unfold jSkip at ih ⊢
    rw [List.cons_append, List.dropWhile_cons_of_pos (by simpa using h.1)]
    exact ih h.2

theorem jBreak_ws (pretty : Bool) (n : Nat) : (jBreak pretty n).all jWs = true := by
  unfold jBreak
  split
  · rw [List.all_cons, Bool.and_eq_true]
    refine ⟨rfl, List.all_eq_true.2 fun c hc => ?_⟩
    rw [List.eq_of_mem_replicate hc]; rfl
  · rfl

theorem jSkip_break (pretty : Bool) (n : Nat) (s : Str) : jSkip (jBreak pretty n ++ s) = jSkip s :=
  jSkip_ws (jBreak_ws pretty n)

theorem jSkip_skip (s : Str) : jSkip (jSkip s) = jSkip s := by
  induction s with
  | nil => rfl
  | cons c s ih =>
    unfold jSkip at ih ⊢
    by_cases h : jWs c = true
    · rw [List.dropWhile_cons_of_pos h]; exact ih
    · rw [List.dropWhile_cons_of_neg h, List.dropWhile_cons_of_neg h]

theorem jSkip_solid {c : Char} {s : Str} (h : jWs c = false) : jSkip (c :: s) = c :: s := by
  unfold jSkip
  rw [List.dropWhile_cons_of_neg (by simp [h])]

theorem jValue_skip (d : Nat) (s : Str) : jValue d (jSkip s) = jValue d s := by
  cases d <;> simp only [jValue, jSkip_skip]

theorem jValue_break (d : Nat) (pretty : Bool) (n : Nat) (s : Str) :
    jValue d (jBreak pretty n ++ s) = jValue d s := by
  rw [← jValue_skip, jSkip_break, jValue_skip]

mutual
/-- A value that can be written and read: no numbers, sorted maps, at most `d` levels of arrays
and objects. -/
def Json.Fits : Nat → Json → Prop
  | _, .null => True
  | _, .bool _ => True
  | _, .num _ => False
  | _, .str _ => True
  | 0, .arr _ => False
  | d + 1, .arr l => Json.FitsAll d l
  | 0, .obj _ => False
  | d + 1, .obj m => SortedKeys m ∧ Json.FitsMembers d m
/-- All elements fit. -/
def Json.FitsAll : Nat → List Json → Prop
  | _, [] => True
  | d, v :: l => Json.Fits d v ∧ Json.FitsAll d l
/-- All values of members fit. -/
def Json.FitsMembers : Nat → List (Str × Json) → Prop
  | _, [] => True
  | d, (_, v) :: m => Json.Fits d v ∧ Json.FitsMembers d m
end

theorem fitsAll_iff {d : Nat} {l : List Json} : Json.FitsAll d l ↔ ∀ v ∈ l, v.Fits d := by
  induction l with
  | nil => simp [Json.FitsAll]
  | cons v l ih => simp [Json.FitsAll, ih]

theorem fitsMembers_iff {d : Nat} {m : List (Str × Json)} :
    Json.FitsMembers d m ↔ ∀ e ∈ m, e.2.Fits d := by
  induction m with
  | nil => simp [Json.FitsMembers]
  | cons e m ih => obtain ⟨k, v⟩ := e; simp [Json.FitsMembers, ih]

/-- The text of a value starts with a character that is no white space and closes nothing. -/
theorem text_head (pretty : Bool) (n d : Nat) {v : Json} (h : v.Fits d) (r : Str) :
    ∃ c t, v.text pretty n ++ r = c :: t ∧ jWs c = false ∧ c ≠ ']' ∧ c ≠ '}' := by
  cases v with
  | null => exact ⟨'n', _, rfl, by decide⟩
  | bool b => cases b <;> exact ⟨_, _, rfl, by decide⟩
  | num t => cases d <;> exact h.elim
  | str s => exact ⟨'"', _, rfl, by decide⟩
  | arr l => cases l <;> exact ⟨'[', _, by simp only [Json.text, List.cons_append]; rfl, by decide⟩
  | obj m =>
    rcases m with _ | ⟨⟨k, v⟩, m⟩ <;>
      exact ⟨'{', _, by simp only [Json.text, List.cons_append]; rfl, by decide⟩

theorem jQuote_append (k r : Str) : jQuote k ++ r = '"' :: (k.flatMap jEscapeChar ++ '"' :: r) := by
  simp [jQuote]

theorem jColon_append (pretty : Bool) (r : Str) :
    ∃ w, jColon pretty ++ r = ':' :: (w ++ r) ∧ w.all jWs = true := by
  cases pretty
  · exact ⟨[], rfl, rfl⟩
  · exact ⟨[' '], rfl, rfl⟩

theorem jValue_ws (d : Nat) {w s : Str} (h : w.all jWs = true) : jValue d (w ++ s) = jValue d s := by
  rw [← jValue_skip, jSkip_ws h, jValue_skip]

theorem jValue_arr {d : Nat} {r : Str} {c : Char} {t : Str} (e : jSkip r = c :: t) (h : c ≠ ']') :
    jValue (d + 1) ('[' :: r) =
      (jElems (jValue d) (c :: t).length (c :: t)).map fun x => (.arr x.1, x.2) := by
  simp only [jValue]
  rw [jSkip_solid (by decide)]
  simp only [e]
  split
  · rename_i e2; injection e2 with e2; exact absurd e2 h
  · rfl

theorem jValue_obj {d : Nat} {r : Str} {c : Char} {t : Str} (e : jSkip r = c :: t) (h : c ≠ '}') :
    jValue (d + 1) ('{' :: r) =
      (jMembers (jValue d) (c :: t).length [] (c :: t)).map fun x => (.obj x.1, x.2) := by
  simp only [jValue]
  rw [jSkip_solid (by decide)]
  simp only [e]
  split
  · rename_i e2; injection e2 with e2; exact absurd e2 h
  · rfl

theorem elemsText_length (pretty : Bool) (n : Nat) (l : List Json) :
    l.length ≤ (Json.elemsText pretty n l).length := by
  induction l with
  | nil => exact Nat.zero_le _
  | cons v l ih => simp only [Json.elemsText, List.length_cons, List.length_append]; omega

theorem membersText_length (pretty : Bool) (n : Nat) (m : List (Str × Json)) :
    m.length ≤ (Json.membersText pretty n m).length := by
  induction m with
  | nil => exact Nat.zero_le _
  | cons e m ih =>
    obtain ⟨k, v⟩ := e
    simp only [Json.membersText, List.length_cons, List.length_append]; omega

mutual
theorem jValue_text (pretty : Bool) (n d : Nat) (v : Json) (h : v.Fits d) (rest : Str) :
    jValue d (v.text pretty n ++ rest) = some (v, rest) := by
  match v with
  | .null => cases d <;> rfl
  | .bool b => cases b <;> cases d <;> rfl
  | .num t => cases d <;> exact h.elim
  | .str s =>
    have : jScalar ('"' :: (s.flatMap jEscapeChar ++ '"' :: rest)) = some (.str s, rest) := by
      simp [jScalar, jString_text]
    cases d <;>
    · simp only [Json.text, jQuote_append, jValue]
      rw [jSkip_solid (by decide)]
      exact this
  | .arr l =>
    match d, l with
    | 0, _ => exact h.elim
    | d + 1, [] => rfl
    | d + 1, v :: l =>
      have hv : v.Fits d := h.1
      have e0 : Json.text pretty n (.arr (v :: l)) ++ rest =
          '[' :: (jBreak pretty (n + 1) ++ (v.text pretty (n + 1) ++
            (Json.elemsText pretty (n + 1) l ++ (jBreak pretty n ++ ']' :: rest)))) := by
        simp [Json.text]
      obtain ⟨c, t, e, h1, h2, -⟩ := text_head pretty (n + 1) d hv
        (Json.elemsText pretty (n + 1) l ++ (jBreak pretty n ++ ']' :: rest))
      have hl : l.length < (c :: t).length := by
        have := elemsText_length pretty (n + 1) l
        rw [← e]; simp only [List.length_append, List.length_cons]; omega
      rw [e0, jValue_arr (by rw [jSkip_break, e, jSkip_solid h1]) h2]
      rw [← e] at hl ⊢
      rw [← List.nil_append (v.text pretty (n + 1) ++ _)] at hl ⊢
      rw [jElems_text pretty (n + 1) d l h.2 v
        (fun r => jValue_text pretty (n + 1) d v hv r) (jBreak pretty n) (jBreak_ws _ _) [] rfl rest _ hl]
      rfl
  | .obj m =>
    match d, m with
    | 0, _ => exact h.elim
    | d + 1, [] => rfl
    | d + 1, (k, v) :: m =>
      have hv : v.Fits d := h.2.1
      have e0 : Json.text pretty n (.obj ((k, v) :: m)) ++ rest =
          '{' :: (jBreak pretty (n + 1) ++ (jQuote k ++ (jColon pretty ++ (v.text pretty (n + 1) ++
            (Json.membersText pretty (n + 1) m ++ (jBreak pretty n ++ '}' :: rest)))))) := by
        simp [Json.text]
      have hl : m.length < (jQuote k ++ (jColon pretty ++ (v.text pretty (n + 1) ++
            (Json.membersText pretty (n + 1) m ++ (jBreak pretty n ++ '}' :: rest))))).length := by
        have := membersText_length pretty (n + 1) m
        simp only [List.length_append, List.length_cons]; omega
      rw [e0, jValue_obj (c := '"') (t := k.flatMap jEscapeChar ++ '"' :: (jColon pretty ++ (v.text pretty (n + 1) ++
            (Json.membersText pretty (n + 1) m ++ (jBreak pretty n ++ '}' :: rest)))))
          (by rw [jSkip_break, jQuote_append, jSkip_solid (by decide)]) (by decide)]
      rw [← jQuote_append]
      rw [← List.nil_append (jQuote k ++ _)] at hl ⊢
      rw [jMembers_text pretty (n + 1) d m h.2.2 k v
        (fun r => jValue_text pretty (n + 1) d v hv r) [] (by simpa using h.1) (jBreak pretty n)
        (jBreak_ws _ _) [] rfl rest _ hl]
      rfl
theorem jElems_text (pretty : Bool) (n d : Nat) (l : List Json) (h : Json.FitsAll d l) (v : Json)
    (hv : ∀ r, jValue d (v.text pretty n ++ r) = some (v, r)) (w : Str) (hw : w.all jWs = true)
    (w' : Str) (hw' : w'.all jWs = true) (rest : Str) (fuel : Nat) (hf : l.length < fuel) :
    jElems (jValue d) fuel (w' ++ (v.text pretty n ++ (Json.elemsText pretty n l ++
      (w ++ ']' :: rest)))) = some (v :: l, rest) := by
  match fuel, l with
  | 0, _ => omega
  | f + 1, [] =>
    simp only [jElems, jValue_ws d hw', hv, Json.elemsText, List.nil_append]
    rw [jSkip_ws hw, jSkip_solid (by decide)]
    rfl
  | f + 1, x :: l =>
    simp only [jElems, jValue_ws d hw', hv, Json.elemsText, List.cons_append]
    rw [jSkip_solid (by decide)]
    have hx := fun r => jValue_text pretty n d x h.1 r
    have := jElems_text pretty n d l h.2 x hx w hw (jBreak pretty n) (jBreak_ws _ _) rest f
      (by simpa using hf)
    simp only [List.append_assoc]
    rw [this]
    rfl
theorem jMembers_text (pretty : Bool) (n d : Nat) (m : List (Str × Json)) (h : Json.FitsMembers d m)
    (k : Str) (v : Json) (hv : ∀ r, jValue d (v.text pretty n ++ r) = some (v, r))
    (acc : List (Str × Json)) (hs : SortedKeys (acc ++ (k, v) :: m)) (w : Str) (hw : w.all jWs = true)
    (w' : Str) (hw' : w'.all jWs = true) (rest : Str) (fuel : Nat) (hf : m.length < fuel) :
    jMembers (jValue d) fuel acc (w' ++ (jQuote k ++ (jColon pretty ++ (v.text pretty n ++
      (Json.membersText pretty n m ++ (w ++ '}' :: rest)))))) = some (acc ++ (k, v) :: m, rest) := by
  obtain ⟨u, eu, hu⟩ := jColon_append pretty (v.text pretty n ++
      (Json.membersText pretty n m ++ (w ++ '}' :: rest)))
  have hput : mapPut k v acc = acc ++ [(k, v)] := by
    refine mapPut_last fun e he => ?_
    exact (List.pairwise_append.1 hs).2.2 e he (k, v) List.mem_cons_self
  match fuel, m with
  | 0, _ => omega
  | f + 1, [] =>
    simp only [jMembers]
    rw [jSkip_ws hw', jQuote_append, jSkip_solid (by decide)]
    simp only [jString_text]
    rw [eu, jSkip_solid (by decide)]
    simp only [jValue_ws d hu, hv, Json.membersText, List.nil_append]
    rw [jSkip_ws hw, jSkip_solid (by decide), hput]
    rfl
  | f + 1, (k', v') :: m =>
    have hx := fun r => jValue_text pretty n d v' h.1 r
    have := jMembers_text pretty n d m h.2 k' v' hx (acc ++ [(k, v)]) (by simpa using hs) w hw
      (jBreak pretty n) (jBreak_ws _ _) rest f (by simpa using hf)
    simp only [jMembers]
    rw [jSkip_ws hw', jQuote_append, jSkip_solid (by decide)]
    simp only [jString_text]
    rw [eu, jSkip_solid (by decide)]
    simp only [jValue_ws d hu, hv, Json.membersText, List.cons_append]
    rw [jSkip_solid (by decide)]
    simp only [hput, List.append_assoc] at this ⊢
    rw [this]
    simp
end

end Rdftk
