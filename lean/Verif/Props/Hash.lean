import Verif.Model.Hash
import Verif.Spec.Hash

/-! What is written to a hasher: C179. -/

namespace Rdftk

open Spec

/-- C179: a word is written as eight bytes, the lowest first: they give the word back. -/
theorem C179_word (n : Nat) (h : n < 2 ^ 64) : (hashWord n).length = 8 ∧ littleEndian (hashWord n) = n := by
  refine ⟨rfl, ?_⟩
  have top : n / 72057594037927936 % 256 = n / 72057594037927936 := Nat.mod_eq_of_lt (by omega)
  simp only [littleEndian, hashWord, top, Nat.mul_zero, Nat.add_zero]
  rw [show n / 72057594037927936 = n / 281474976710656 / 256 by rw [Nat.div_div_eq_div_mul], Nat.mod_add_div,
    show n / 281474976710656 = n / 1099511627776 / 256 by rw [Nat.div_div_eq_div_mul], Nat.mod_add_div,
    show n / 1099511627776 = n / 4294967296 / 256 by rw [Nat.div_div_eq_div_mul], Nat.mod_add_div,
    show n / 4294967296 = n / 16777216 / 256 by rw [Nat.div_div_eq_div_mul], Nat.mod_add_div,
    show n / 16777216 = n / 65536 / 256 by rw [Nat.div_div_eq_div_mul], Nat.mod_add_div,
    show n / 65536 = n / 256 / 256 by rw [Nat.div_div_eq_div_mul], Nat.mod_add_div, Nat.mod_add_div]

theorem hashWord_inj {m n : Nat} {x y : List Nat} (hm : m < 2 ^ 64) (hn : n < 2 ^ 64) (h : hashWord m ++ x = hashWord n ++ y) : m = n ∧ x = y := by
  obtain ⟨e, rfl⟩ := List.append_inj h ((C179_word m hm).1.trans (C179_word n hn).1.symm)
  exact ⟨by rw [← (C179_word m hm).2, e, (C179_word n hn).2], rfl⟩

theorem utf8Bytes_inj {m n : Nat} {x y : List Nat} (hm : m < 0x110000) (hn : n < 0x110000) (h : utf8Bytes m ++ x = utf8Bytes n ++ y) :
    m = n ∧ x = y := by
  unfold utf8Bytes at h
  split at h <;> split at h <;> (try split at h) <;> (try split at h) <;> (try split at h) <;> (try split at h) <;>
    simp only [List.cons_append, List.nil_append, List.cons.injEq] at h <;> first | omega | exact ⟨by omega, by simp_all⟩

theorem utf8Bytes_head {n : Nat} {x y : List Nat} (hn : n < 0x110000) : utf8Bytes n ++ x ≠ 0xFF :: y := by
  intro h
  unfold utf8Bytes at h
  split at h <;> (try split at h) <;> (try split at h) <;> simp only [List.cons_append, List.nil_append, List.cons.injEq] at h <;> omega

theorem char_lt (c : Char) : c.toNat < 0x110000 := by
  have := c.valid
  simp only [UInt32.isValidChar, Nat.isValidChar] at this
  have e : c.toNat = c.val.toNat := rfl
  omega

theorem hashStr_inj {s t : Str} {x y : List Nat} (h : hashStr s ++ x = hashStr t ++ y) : s = t ∧ x = y := by
  induction s generalizing t with
  | nil =>
    cases t with
    | nil => simpa [hashStr] using h
    | cons d t =>
      simp only [hashStr, List.flatMap_nil, List.nil_append, List.flatMap_cons, List.append_assoc, List.cons_append] at h
      exact absurd h.symm (utf8Bytes_head (char_lt d))
  | cons c s ih =>
    cases t with
    | nil =>
      simp only [hashStr, List.flatMap_nil, List.nil_append, List.flatMap_cons, List.append_assoc, List.cons_append] at h
      exact absurd h (utf8Bytes_head (char_lt c))
    | cons d t =>
      simp only [hashStr, List.flatMap_cons, List.append_assoc] at h
      obtain ⟨e, h⟩ := utf8Bytes_inj (char_lt c) (char_lt d) h
      have e' : c = d := by
        have := congrArg Char.ofNat e
        simpa [Char.ofNat_toNat] using this
      obtain ⟨rfl, rfl⟩ := ih (t := t) (by simpa [hashStr] using h)
      exact ⟨by rw [e'], rfl⟩

theorem hashOption_inj {α : Type} {f : α → List Nat} (hf : ∀ a b x y, f a ++ x = f b ++ y → a = b ∧ x = y) {a b : Option α} {x y : List Nat}
    (h : hashOption f a ++ x = hashOption f b ++ y) : a = b ∧ x = y := by
  cases a <;> cases b <;> simp only [hashOption, List.append_assoc] at h
  · exact ⟨rfl, (hashWord_inj (by omega) (by omega) h).2⟩
  · exact absurd (hashWord_inj (by omega) (by omega) h).1 (by omega)
  · exact absurd (hashWord_inj (by omega) (by omega) h).1 (by omega)
  · obtain ⟨rfl, rfl⟩ := hf _ _ _ _ (hashWord_inj (by omega) (by omega) h).2
    exact ⟨rfl, rfl⟩

theorem dataType_hash (d : DataType) : (∃ i, d = .other i ∧ d.hash = hashWord 24 ++ i.hash) ∨ (d.discriminant < 24 ∧ d.hash = hashWord d.discriminant) := by
  cases d
  case other i => exact .inl ⟨i, rfl, rfl⟩
  all_goals exact .inr ⟨by decide, rfl⟩

theorem discriminant_inj {a b : DataType} (ha : a.discriminant < 24) (h : a.discriminant = b.discriminant) : a = b := by
  cases a
  case other => simp [DataType.discriminant] at ha
  all_goals cases b <;> first | rfl | (simp [DataType.discriminant] at h)

theorem dataType_inj (a b : DataType) (x y : List Nat) (h : a.hash ++ x = b.hash ++ y) : a = b ∧ x = y := by
  rcases dataType_hash a with ⟨i, rfl, ea⟩ | ⟨la, ea⟩ <;> rcases dataType_hash b with ⟨j, rfl, eb⟩ | ⟨lb, eb⟩ <;> rw [ea, eb] at h
  · simp only [List.append_assoc] at h
    obtain ⟨e, rfl⟩ := hashStr_inj (hashWord_inj (by omega) (by omega) h).2
    cases i; cases j
    exact ⟨by simp_all, rfl⟩
  · simp only [List.append_assoc] at h
    exact absurd (hashWord_inj (by omega) (by omega) h).1 (by omega)
  · simp only [List.append_assoc] at h
    exact absurd (hashWord_inj (by omega) (by omega) h).1 (by omega)
  · obtain ⟨e, rfl⟩ := hashWord_inj (by omega) (by omega) h
    exact ⟨discriminant_inj la e, rfl⟩

theorem iri_hash_inj {i j : Iri} {x y : List Nat} (h : i.hash ++ x = j.hash ++ y) : i = j ∧ x = y := by
  obtain ⟨e, rfl⟩ := hashStr_inj h
  cases i; cases j
  exact ⟨by simp_all, rfl⟩

/-- C179: what a literal writes says all of it, and where it ends: different literals write different bytes, and none writes the beginning
of what another one does. -/
theorem C179_literal (a b : Literal) (x y : List Nat) : a.hash ++ x = b.hash ++ y ↔ a = b ∧ x = y := by
  refine ⟨fun h => ?_, fun ⟨h, h'⟩ => by rw [h, h']⟩
  simp only [Literal.hash, List.append_assoc] at h
  obtain ⟨h1, h⟩ := hashStr_inj h
  obtain ⟨h2, h⟩ := hashOption_inj dataType_inj h
  obtain ⟨h3, h4⟩ := hashOption_inj (fun _ _ _ _ => hashStr_inj) h
  cases a; cases b
  simp only at h1 h2 h3
  exact ⟨by rw [h1, h2, h3], h4⟩

mutual
theorem subject_hash_inj : ∀ (a b : Subject) (x y : List Nat), SmallSubject a → SmallSubject b → a.hash ++ x = b.hash ++ y → a = b ∧ x = y
  | .blank a, b, x, y, _, _, h => by
    cases b <;> simp only [Subject.hash, List.append_assoc] at h <;> obtain ⟨e, h⟩ := hashWord_inj (by omega) (by omega) h
    · obtain ⟨rfl, rfl⟩ := hashStr_inj h; exact ⟨rfl, rfl⟩
    all_goals omega
  | .res i, b, x, y, _, _, h => by
    cases b <;> simp only [Subject.hash, List.append_assoc] at h <;> obtain ⟨e, h⟩ := hashWord_inj (by omega) (by omega) h
    · omega
    · obtain ⟨rfl, rfl⟩ := iri_hash_inj h; exact ⟨rfl, rfl⟩
    · omega
  | .stmt t, b, x, y, ha, hb, h => by
    cases b <;> simp only [Subject.hash, List.append_assoc] at h <;> obtain ⟨e, h⟩ := hashWord_inj (by omega) (by omega) h
    · omega
    · omega
    · obtain ⟨rfl, rfl⟩ := stmt_hash_inj t _ x y (by simpa [SmallSubject] using ha) (by simpa [SmallSubject] using hb) h; exact ⟨rfl, rfl⟩
theorem stmt_hash_inj : ∀ (a b : Stmt) (x y : List Nat), SmallStmt a → SmallStmt b → a.hash ++ x = b.hash ++ y → a = b ∧ x = y
  | .mk s p o, .mk s' p' o', x, y, ha, hb, h => by
    simp only [SmallStmt] at ha hb
    simp only [Stmt.hash, List.append_assoc] at h
    obtain ⟨rfl, h2⟩ := subject_hash_inj s s' _ _ ha.1 hb.1 h
    obtain ⟨rfl, h3⟩ := iri_hash_inj h2
    obtain ⟨rfl, rfl⟩ := object_hash_inj o o' _ _ ha.2 hb.2 h3
    exact ⟨rfl, rfl⟩
theorem object_hash_inj : ∀ (a b : Object) (x y : List Nat), SmallObject a → SmallObject b → a.hash ++ x = b.hash ++ y → a = b ∧ x = y
  | .blank a, b, x, y, _, _, h => by
    cases b <;> simp only [Object.hash, List.append_assoc] at h <;> obtain ⟨e, h⟩ := hashWord_inj (by omega) (by omega) h <;> try omega
    obtain ⟨rfl, rfl⟩ := hashStr_inj h; exact ⟨rfl, rfl⟩
  | .res i, b, x, y, _, _, h => by
    cases b <;> simp only [Object.hash, List.append_assoc] at h <;> obtain ⟨e, h⟩ := hashWord_inj (by omega) (by omega) h <;> try omega
    obtain ⟨rfl, rfl⟩ := iri_hash_inj h; exact ⟨rfl, rfl⟩
  | .lit l, b, x, y, _, _, h => by
    cases b <;> simp only [Object.hash, List.append_assoc] at h <;> obtain ⟨e, h⟩ := hashWord_inj (by omega) (by omega) h <;> try omega
    obtain ⟨rfl, rfl⟩ := (C179_literal _ _ _ _).1 h; exact ⟨rfl, rfl⟩
  | .coll c, b, x, y, ha, hb, h => by
    cases b <;> simp only [Object.hash, List.append_assoc] at h <;> obtain ⟨e, h⟩ := hashWord_inj (by omega) (by omega) h <;> try omega
    simp only [SmallObject] at ha hb
    obtain ⟨e, h⟩ := hashWord_inj ha.1 hb.1 h
    obtain ⟨rfl, rfl⟩ := all_hash_inj c _ x y e ha.2 hb.2 h; exact ⟨rfl, rfl⟩
  | .stmt t, b, x, y, ha, hb, h => by
    cases b <;> simp only [Object.hash, List.append_assoc] at h <;> obtain ⟨e, h⟩ := hashWord_inj (by omega) (by omega) h <;> try omega
    obtain ⟨rfl, rfl⟩ := stmt_hash_inj t _ x y (by simpa [SmallObject] using ha) (by simpa [SmallObject] using hb) h; exact ⟨rfl, rfl⟩
theorem all_hash_inj : ∀ (c d : List Object) (x y : List Nat), c.length = d.length → SmallAll c → SmallAll d →
    Object.hashAll c ++ x = Object.hashAll d ++ y → c = d ∧ x = y
  | [], [], x, y, _, _, _, h => by simpa [Object.hashAll] using h
  | [], _ :: _, _, _, e, _, _, _ => by simp at e
  | _ :: _, [], _, _, e, _, _, _ => by simp at e
  | o :: c, p :: d, x, y, e, hc, hd, h => by
    simp only [SmallAll] at hc hd
    simp only [Object.hashAll, List.append_assoc] at h
    obtain ⟨rfl, h2⟩ := object_hash_inj o p _ _ hc.1 hd.1 h
    obtain ⟨rfl, rfl⟩ := all_hash_inj c d x y (by simpa using e) hc.2 hd.2 h2
    exact ⟨rfl, rfl⟩
end

/-- C179: the same for statements, of any depth. -/
theorem C179_triple (a b : Stmt) (ha : SmallStmt a) (hb : SmallStmt b) (x y : List Nat) : a.hash ++ x = b.hash ++ y ↔ a = b ∧ x = y :=
  ⟨stmt_hash_inj a b x y ha hb, fun ⟨h, h'⟩ => by rw [h, h']⟩

/-- C179: the same for subjects. -/
theorem C179_subject (a b : Subject) (ha : SmallSubject a) (hb : SmallSubject b) (x y : List Nat) :
    a.hash ++ x = b.hash ++ y ↔ a = b ∧ x = y := ⟨subject_hash_inj a b x y ha hb, fun ⟨h, h'⟩ => by rw [h, h']⟩

/-- C179: the same for objects. -/
theorem C179_object (a b : Object) (ha : SmallObject a) (hb : SmallObject b) (x y : List Nat) :
    a.hash ++ x = b.hash ++ y ↔ a = b ∧ x = y := ⟨object_hash_inj a b x y ha hb, fun ⟨h, h'⟩ => by rw [h, h']⟩

/-- C179: the same for the names of graphs, which are the keys of a data set: also that there is no name. -/
theorem C179_key (a b : Option GraphName) (x y : List Nat) : hashOption GraphName.hash a ++ x = hashOption GraphName.hash b ++ y ↔ a = b ∧ x = y := by
  refine ⟨hashOption_inj fun a b x y h => ?_, fun ⟨h, h'⟩ => by rw [h, h']⟩
  cases a <;> cases b <;> simp only [GraphName.hash, List.append_assoc] at h <;> obtain ⟨e, h⟩ := hashWord_inj (by omega) (by omega) h <;> try omega
  · obtain ⟨rfl, rfl⟩ := hashStr_inj h; exact ⟨rfl, rfl⟩
  · obtain ⟨rfl, rfl⟩ := iri_hash_inj h; exact ⟨rfl, rfl⟩

/-- C179: only bytes are written. -/
theorem C179_bytes (l : Literal) : ∀ b ∈ l.hash, b < 256 := by
  have hw (n : Nat) : ∀ b ∈ hashWord n, b < 256 := by
    intro b hb
    simp only [hashWord, List.mem_cons, List.not_mem_nil, or_false] at hb
    omega
  have hu (c : Char) : ∀ b ∈ utf8Bytes c.toNat, b < 256 := by
    intro b hb
    have := char_lt c
    unfold utf8Bytes at hb
    split at hb
    · simp at hb; omega
    · split at hb
      · simp at hb; omega
      · split at hb <;> simp at hb <;> omega
  have hs (s : Str) : ∀ b ∈ hashStr s, b < 256 := by
    intro b hb
    simp only [hashStr, List.mem_append, List.mem_flatMap, List.mem_singleton] at hb
    rcases hb with ⟨c, -, hc⟩ | rfl
    · exact hu c b hc
    · omega
  have hd (d : DataType) : ∀ b ∈ d.hash, b < 256 := by
    intro b hb
    rcases dataType_hash d with ⟨i, -, e⟩ | ⟨-, e⟩ <;> rw [e] at hb
    · rcases List.mem_append.1 hb with h | h
      · exact hw _ b h
      · exact hs _ b h
    · exact hw _ b hb
  have ho {α : Type} (f : α → List Nat) (hf : ∀ a, ∀ b ∈ f a, b < 256) (o : Option α) : ∀ b ∈ hashOption f o, b < 256 := by
    intro b hb
    cases o with
    | none => exact hw _ b hb
    | some a =>
      rcases List.mem_append.1 hb with h | h
      · exact hw _ b h
      · exact hf _ b h
  intro b hb
  simp only [Literal.hash, List.mem_append] at hb
  rcases hb with (h | h) | h
  · exact hs _ b h
  · exact ho _ hd _ b h
  · exact ho _ hs _ b h

example : (Literal.mk (str! "a") none none).hash = [97, 255, 0, 0, 0, 0, 0, 0, 0, 0, 0, 0, 0, 0, 0, 0, 0, 0] := by decide
example : SmallObject (.coll [.coll [], .blank (str! "b")]) := by simp [SmallObject, SmallAll]

end Rdftk
