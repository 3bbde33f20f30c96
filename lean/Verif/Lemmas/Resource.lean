import Verif.Spec.Resource
import Verif.Lemmas.Expand

/-! Facts about the statements of resources. -/

namespace Rdftk
open Spec

mutual
theorem Resource.flatten_count (gen : Nat → Str) (n : Nat) (r : Resource) :
    (r.flatten gen n).2 = n + containers r := by
  match r with
  | .mk s ps => exact flattenPreds_count gen s n ps
theorem flattenPreds_count (gen : Nat → Str) (s : Subject) (n : Nat) (ps : List PredObjs) :
    (flattenPreds gen s n ps).2 = n + containersPs ps := by
  match ps with
  | [] => rfl
  | po :: rest =>
    simp only [flattenPreds, containersPs]
    rw [flattenPreds_count gen s _ rest, PredObjs.flatten_count gen s n po]; omega
theorem PredObjs.flatten_count (gen : Nat → Str) (s : Subject) (n : Nat) (po : PredObjs) :
    (po.flatten gen s n).2 = n + containersP po := by
  match po with
  | .mk p os => exact flattenObjs_count gen s p n os
theorem flattenObjs_count (gen : Nat → Str) (s : Subject) (p : Iri) (n : Nat) (os : List RObj) :
    (flattenObjs gen s p n os).2 = n + containersOs os := by
  match os with
  | [] => rfl
  | o :: rest =>
    simp only [flattenObjs, containersOs]
    rw [flattenObjs_count gen s p _ rest, RObj.flatten_count gen s p n o]; omega
theorem RObj.flatten_count (gen : Nat → Str) (s : Subject) (p : Iri) (n : Nat) (o : RObj) :
    (o.flatten gen s p n).2 = n + containersO o := by
  match o with
  | .res r => exact Resource.flatten_count gen n r
  | .lit _ => rfl
  | .ress k rs =>
    simp only [RObj.flatten, containersO]
    rw [flattenMembers_count gen (gen n) 0 (n + 1) rs]; omega
  | .lits _ _ => rfl
theorem flattenMembers_count (gen : Nat → Str) (b : Str) (idx n : Nat) (rs : List Resource) :
    (flattenMembers gen b idx n rs).2 = n + containersRs rs := by
  match rs with
  | [] => rfl
  | r :: rs =>
    simp only [flattenMembers, containersRs]
    rw [flattenMembers_count gen b (idx + 1) _ rs, Resource.flatten_count gen n r]; omega
end

theorem literalMembers_length (b : Str) (idx : Nat) (ls : List Literal) :
    (literalMembers b idx ls).length = ls.length := by
  induction ls generalizing idx with
  | nil => rfl
  | cons l ls ih => simp [literalMembers, ih]

mutual
theorem Resource.flatten_length (gen : Nat → Str) (n : Nat) (r : Resource) :
    (r.flatten gen n).1.length = weight r := by
  match r with
  | .mk s ps => exact flattenPreds_length gen s n ps
theorem flattenPreds_length (gen : Nat → Str) (s : Subject) (n : Nat) (ps : List PredObjs) :
    (flattenPreds gen s n ps).1.length = weightPs ps := by
  match ps with
  | [] => rfl
  | po :: rest =>
    simp only [flattenPreds, weightPs, List.length_append]
    rw [flattenPreds_length gen s _ rest, PredObjs.flatten_length gen s n po]
theorem PredObjs.flatten_length (gen : Nat → Str) (s : Subject) (n : Nat) (po : PredObjs) :
    (po.flatten gen s n).1.length = weightP po := by
  match po with
  | .mk p os => exact flattenObjs_length gen s p n os
theorem flattenObjs_length (gen : Nat → Str) (s : Subject) (p : Iri) (n : Nat) (os : List RObj) :
    (flattenObjs gen s p n os).1.length = weightOs os := by
  match os with
  | [] => rfl
  | o :: rest =>
    simp only [flattenObjs, weightOs, List.length_append]
    rw [flattenObjs_length gen s p _ rest, RObj.flatten_length gen s p n o]
theorem RObj.flatten_length (gen : Nat → Str) (s : Subject) (p : Iri) (n : Nat) (o : RObj) :
    (o.flatten gen s p n).1.length = weightO o := by
  match o with
  | .res r =>
    simp only [RObj.flatten, weightO, List.length_append, List.length_singleton]
    rw [Resource.flatten_length gen n r]
  | .lit _ => rfl
  | .ress k rs =>
    simp only [RObj.flatten, weightO, List.length_cons]
    rw [flattenMembers_length gen (gen n) 0 (n + 1) rs]
  | .lits _ ls => simp [RObj.flatten, weightO, literalMembers_length]
theorem flattenMembers_length (gen : Nat → Str) (b : Str) (idx n : Nat) (rs : List Resource) :
    (flattenMembers gen b idx n rs).1.length = weightRs rs := by
  match rs with
  | [] => rfl
  | r :: rs =>
    simp only [flattenMembers, weightRs, List.length_append, List.length_cons]
    rw [flattenMembers_length gen b (idx + 1) _ rs, Resource.flatten_length gen n r]; omega
end

/-- The subject of a statement is a resource within `R` or a node with a number in a range. -/
def SubjectIn (gen : Nat → Str) (R : Resource → Prop) (lo hi : Nat) (x : Stmt) : Prop :=
  (∃ r, R r ∧ x.subject = r.subject) ∨ ∃ j, lo ≤ j ∧ j < hi ∧ x.subject = .blank (gen j)

theorem SubjectIn.mono {gen : Nat → Str} {R R' : Resource → Prop} {lo hi lo' hi' : Nat}
    {x : Stmt} (h : SubjectIn gen R lo hi x) (hR : ∀ r, R r → R' r) (h1 : lo' ≤ lo)
    (h2 : hi ≤ hi') : SubjectIn gen R' lo' hi' x := by
  rcases h with ⟨r, a, b⟩ | ⟨j, a, b, c⟩
  · exact .inl ⟨r, hR r a, b⟩
  · exact .inr ⟨j, by omega, by omega, c⟩

/-- Resources within one of those of a value. -/
def WithinO (o : RObj) (r : Resource) : Prop := ∃ r' ∈ inside o, Within r' r

theorem literalMembers_subject (b : Str) (idx : Nat) (ls : List Literal) (x : Stmt)
    (h : x ∈ literalMembers b idx ls) : x.subject = .blank b := by
  induction ls generalizing idx with
  | nil => simp [literalMembers] at h
  | cons l ls ih =>
    rcases List.mem_cons.1 h with rfl | h
    · rfl
    · exact ih _ h

mutual
theorem Resource.flatten_subject (gen : Nat → Str) (n : Nat) (r : Resource) :
    ∀ x ∈ (r.flatten gen n).1, SubjectIn gen (Within r) n (n + containers r) x := by
  match r with
  | .mk s ps =>
    intro x hx
    refine (flattenPreds_subject gen s n ps x hx).mono ?_ (Nat.le_refl _) (Nat.le_refl _)
    rintro r (rfl | ⟨e, he, o, ho, r', hr', hw⟩)
    · exact .self _
    · exact .step e.name o (List.mem_flatMap.2 ⟨e, he, List.mem_map.2 ⟨o, ho, rfl⟩⟩) hr' hw
theorem flattenPreds_subject (gen : Nat → Str) (s : Subject) (n : Nat) (ps : List PredObjs) :
    ∀ x ∈ (flattenPreds gen s n ps).1, SubjectIn gen
      (fun r => r = .mk s ps ∨ ∃ e ∈ ps, ∃ o ∈ e.objects, WithinO o r)
      n (n + containersPs ps) x := by
  match ps with
  | [] => simp [flattenPreds]
  | po :: rest =>
    intro x hx
    simp only [flattenPreds, List.mem_append] at hx
    rw [PredObjs.flatten_count] at hx
    have key : ∀ (R : Resource → Prop) (x : Stmt) (lo hi : Nat), SubjectIn gen
        (fun r => r.subject = s ∨ R r) lo hi x → SubjectIn gen
        (fun r => r = .mk s (po :: rest) ∨ R r) lo hi x := by
      rintro R x lo hi (⟨r, rfl | h, b⟩ | h)
      · exact .inl ⟨_, .inl rfl, b⟩
      · exact .inl ⟨r, .inr h, b⟩
      · exact .inr h
    apply key
    rcases hx with hx | hx
    · refine (PredObjs.flatten_subject gen s n po x hx).mono ?_ (Nat.le_refl _)
        (by simp only [containersPs]; omega)
      rintro r (h | ⟨o, h1, h2⟩)
      · exact .inl h
      · exact .inr ⟨po, by simp, o, h1, h2⟩
    · refine (flattenPreds_subject gen s _ rest x hx).mono ?_ (by omega)
        (by simp only [containersPs]; omega)
      rintro r (rfl | ⟨e, h1, h2⟩)
      · exact .inl rfl
      · exact .inr ⟨e, by simp [h1], h2⟩
theorem PredObjs.flatten_subject (gen : Nat → Str) (s : Subject) (n : Nat) (po : PredObjs) :
    ∀ x ∈ (po.flatten gen s n).1, SubjectIn gen
      (fun r => r.subject = s ∨ ∃ o ∈ po.objects, WithinO o r) n (n + containersP po) x := by
  match po with
  | .mk p os => exact flattenObjs_subject gen s p n os
theorem flattenObjs_subject (gen : Nat → Str) (s : Subject) (p : Iri) (n : Nat)
    (os : List RObj) :
    ∀ x ∈ (flattenObjs gen s p n os).1, SubjectIn gen
      (fun r => r.subject = s ∨ ∃ o ∈ os, WithinO o r) n (n + containersOs os) x := by
  match os with
  | [] => simp [flattenObjs]
  | o :: rest =>
    intro x hx
    simp only [flattenObjs, List.mem_append] at hx
    rw [RObj.flatten_count] at hx
    rcases hx with hx | hx
    · refine (RObj.flatten_subject gen s p n o x hx).mono ?_ (Nat.le_refl _)
        (by simp only [containersOs]; omega)
      rintro r (h | h)
      · exact .inl h
      · exact .inr ⟨o, by simp, h⟩
    · refine (flattenObjs_subject gen s p _ rest x hx).mono ?_ (by omega)
        (by simp only [containersOs]; omega)
      rintro r (h | ⟨o, h1, h2⟩)
      · exact .inl h
      · exact .inr ⟨o, by simp [h1], h2⟩
theorem RObj.flatten_subject (gen : Nat → Str) (s : Subject) (p : Iri) (n : Nat) (o : RObj) :
    ∀ x ∈ (o.flatten gen s p n).1, SubjectIn gen
      (fun r => r.subject = s ∨ WithinO o r) n (n + containersO o) x := by
  intro x hx
  match o with
  | .res r =>
    simp only [RObj.flatten, List.mem_append, List.mem_singleton] at hx
    rcases hx with hx | rfl
    · refine (Resource.flatten_subject gen n r x hx).mono ?_ (Nat.le_refl _) (Nat.le_refl _)
      intro r' h
      exact .inr ⟨r, by simp [inside], h⟩
    · exact .inl ⟨.mk s [], .inl rfl, rfl⟩
  | .lit l =>
    simp only [RObj.flatten, List.mem_singleton] at hx
    subst hx
    exact .inl ⟨.mk s [], .inl rfl, rfl⟩
  | .ress k rs =>
    simp only [RObj.flatten, List.mem_cons] at hx
    rcases hx with rfl | rfl | hx
    · exact .inl ⟨.mk s [], .inl rfl, rfl⟩
    · exact .inr ⟨n, Nat.le_refl _, by simp only [containersO]; omega, rfl⟩
    · rcases flattenMembers_subject gen (gen n) 0 (n + 1) rs x hx with h | h
      · exact .inr ⟨n, Nat.le_refl _, by simp only [containersO]; omega, h⟩
      · refine h.mono ?_ (by omega) (by simp only [containersO]; omega)
        rintro r ⟨r', h1, h2⟩
        exact .inr ⟨r', h1, h2⟩
  | .lits k ls =>
    simp only [RObj.flatten, List.mem_cons] at hx
    rcases hx with rfl | rfl | hx
    · exact .inl ⟨.mk s [], .inl rfl, rfl⟩
    · exact .inr ⟨n, Nat.le_refl _, by simp only [containersO]; omega, rfl⟩
    · exact .inr ⟨n, Nat.le_refl _, by simp only [containersO]; omega,
        literalMembers_subject _ _ _ _ hx⟩
theorem flattenMembers_subject (gen : Nat → Str) (b : Str) (idx n : Nat) (rs : List Resource) :
    ∀ x ∈ (flattenMembers gen b idx n rs).1, x.subject = .blank b ∨ SubjectIn gen
      (fun r => ∃ r' ∈ rs, Within r' r) n (n + containersRs rs) x := by
  match rs with
  | [] => simp [flattenMembers]
  | r :: rs =>
    intro x hx
    simp only [flattenMembers, List.mem_append, List.mem_cons] at hx
    rw [Resource.flatten_count] at hx
    rcases hx with hx | rfl | hx
    · right
      refine (Resource.flatten_subject gen n r x hx).mono ?_ (Nat.le_refl _)
        (by simp only [containersRs]; omega)
      intro r' h
      exact ⟨r, by simp, h⟩
    · exact .inl rfl
    · rcases flattenMembers_subject gen b (idx + 1) _ rs x hx with h | h
      · exact .inl h
      · right
        refine h.mono ?_ (by omega) (by simp only [containersRs]; omega)
        rintro r' ⟨r'', h1, h2⟩
        exact ⟨r'', by simp [h1], h2⟩
end

/-! ### Parts -/

/-- `sub`, made with the nodes `m … m'-1`, is a part of `out`, made with `n … n'-1`, and the rest
of `out` is not about the nodes of `sub`. -/
def PartOf (gen : Nat → Str) (m m' : Nat) (sub : List Stmt) (n n' : Nat) (out : List Stmt) :
    Prop :=
  n ≤ m ∧ m' ≤ n' ∧ ∃ A B, out = A ++ sub ++ B ∧
    ∀ x ∈ A ++ B, ∀ k, m ≤ k → k < m' → x.subject ≠ .blank (gen k)

theorem PartOf.refl (gen : Nat → Str) (n n' : Nat) (l : List Stmt) : PartOf gen n n' l n n' l :=
  ⟨Nat.le_refl _, Nat.le_refl _, [], [], by simp, by simp⟩

theorem PartOf.trans {gen : Nat → Str} {a a' b b' c c' : Nat} {x y z : List Stmt}
    (h1 : PartOf gen a a' x b b' y) (h2 : PartOf gen b b' y c c' z) : PartOf gen a a' x c c' z := by
  obtain ⟨p1, p2, A, B, rfl, p3⟩ := h1
  obtain ⟨q1, q2, C, D, rfl, q3⟩ := h2
  refine ⟨by omega, by omega, C ++ A, B ++ D, by simp, ?_⟩
  intro t ht k hk1 hk2
  simp only [List.append_assoc, List.mem_append] at ht p3 q3
  rcases ht with h | h | h | h
  · exact q3 t (.inl h) k (by omega) (by omega)
  · exact p3 t (.inl h) k hk1 hk2
  · exact p3 t (.inr h) k hk1 hk2
  · exact q3 t (.inr h) k (by omega) (by omega)

theorem PartOf.mem {gen : Nat → Str} {a a' b b' : Nat} {x y : List Stmt}
    (h : PartOf gen a a' x b b' y) {t : Stmt} (ht : t ∈ x) : t ∈ y := by
  obtain ⟨_, _, A, B, rfl, _⟩ := h
  simp [ht]

theorem PartOf.values {gen : Nat → Str} {a a' b b' : Nat} {x y : List Stmt}
    (h : PartOf gen a a' x b b' y) {k : Nat} (h1 : a ≤ k) (h2 : k < a') (q : Iri) :
    valuesOf y (gen k) q = valuesOf x (gen k) q := by
  obtain ⟨_, _, A, B, rfl, h3⟩ := h
  rw [valuesOf_append, valuesOf_append, valuesOf_nil_of (l := A) q (fun t ht => h3 t (by simp [ht]) k h1 h2),
    valuesOf_nil_of (l := B) q (fun t ht => h3 t (by simp [ht]) k h1 h2)]
  simp

theorem SubjectIn.ne {gen : Nat → Str} (hg : ∀ i j, gen i = gen j → i = j)
    {R : Resource → Prop} {lo hi : Nat} {x : Stmt} (h : SubjectIn gen R lo hi x)
    (hR : ∀ r, R r → ∀ j, r.subject ≠ .blank (gen j)) {k : Nat} (hk : k < lo ∨ hi ≤ k) :
    x.subject ≠ .blank (gen k) := by
  intro e
  rcases h with ⟨r, a, b⟩ | ⟨j, a, b, c⟩
  · exact hR r a k (b ▸ e)
  · rw [c] at e
    have := hg _ _ (Subject.blank.inj e); omega

/-- A value of a list of values is a part. -/
theorem flattenObjs_part (gen : Nat → Str) (hg : ∀ i j, gen i = gen j → i = j) (s : Subject)
    (p : Iri) (n : Nat) (os : List RObj) (o : RObj) (ho : o ∈ os)
    (hs : ∀ j, s ≠ .blank (gen j))
    (hw : ∀ o' ∈ os, ∀ r, WithinO o' r → ∀ j, r.subject ≠ .blank (gen j)) :
    ∃ m, PartOf gen m (m + containersO o) (o.flatten gen s p m).1 n (n + containersOs os)
      (flattenObjs gen s p n os).1 := by
  induction os generalizing n with
  | nil => simp at ho
  | cons o' os ih =>
    have hR : ∀ r, (r.subject = s ∨ WithinO o' r) → ∀ j, r.subject ≠ .blank (gen j) := by
      rintro r (rfl | h)
      · exact hs
      · exact hw o' (by simp) r h
    rcases List.mem_cons.1 ho with rfl | ho
    · refine ⟨n, Nat.le_refl _, by simp only [containersOs]; omega, [],
        (flattenObjs gen s p (n + containersO o) os).1, ?_, ?_⟩
      · simp only [flattenObjs, RObj.flatten_count, List.nil_append]
      · intro x hx k h1 h2
        rw [List.nil_append] at hx
        refine (flattenObjs_subject gen s p _ os x hx).ne hg ?_ (by omega)
        rintro r (rfl | ⟨o2, h1, h2⟩)
        · exact hs
        · exact hw o2 (by simp [h1]) r h2
    · obtain ⟨m, hm⟩ := ih (n + containersO o') ho (fun o2 h => hw o2 (by simp [h]))
      refine ⟨m, hm.trans ⟨by omega, by simp only [containersOs]; omega,
        (o'.flatten gen s p n).1, [], ?_, ?_⟩⟩
      · simp only [flattenObjs, RObj.flatten_count, List.append_nil]
      · intro x hx k h1 h2
        rw [List.append_nil] at hx
        exact (RObj.flatten_subject gen s p n o' x hx).ne hg hR (by omega)

/-- An entry of a list of entries is a part. -/
theorem flattenPreds_part (gen : Nat → Str) (hg : ∀ i j, gen i = gen j → i = j) (s : Subject)
    (n : Nat) (ps : List PredObjs) (e : PredObjs) (he : e ∈ ps)
    (hs : ∀ j, s ≠ .blank (gen j))
    (hw : ∀ e' ∈ ps, ∀ o' ∈ e'.objects, ∀ r, WithinO o' r → ∀ j, r.subject ≠ .blank (gen j)) :
    ∃ m, PartOf gen m (m + containersP e) (e.flatten gen s m).1 n (n + containersPs ps)
      (flattenPreds gen s n ps).1 := by
  induction ps generalizing n with
  | nil => simp at he
  | cons e' ps ih =>
    rcases List.mem_cons.1 he with rfl | he
    · refine ⟨n, Nat.le_refl _, by simp only [containersPs]; omega, [],
        (flattenPreds gen s (n + containersP e) ps).1, ?_, ?_⟩
      · simp only [flattenPreds, PredObjs.flatten_count, List.nil_append]
      · intro x hx k h1 h2
        rw [List.nil_append] at hx
        refine (flattenPreds_subject gen s _ ps x hx).ne hg ?_ (by omega)
        rintro r (rfl | ⟨e2, h1, o2, h2, h3⟩)
        · exact hs
        · exact hw e2 (by simp [h1]) o2 h2 r h3
    · obtain ⟨m, hm⟩ := ih (n + containersP e') he (fun o2 h => hw o2 (by simp [h]))
      refine ⟨m, hm.trans ⟨by omega, by simp only [containersPs]; omega,
        (e'.flatten gen s n).1, [], ?_, ?_⟩⟩
      · simp only [flattenPreds, PredObjs.flatten_count, List.append_nil]
      · intro x hx k h1 h2
        rw [List.append_nil] at hx
        refine (PredObjs.flatten_subject gen s n e' x hx).ne hg ?_ (by omega)
        rintro r (rfl | ⟨o2, h2, h3⟩)
        · exact hs
        · exact hw e' (by simp) o2 h2 r h3

/-- No subject in the resource is one of the new nodes. -/
def Fresh (gen : Nat → Str) (r : Resource) : Prop :=
  ∀ r', Within r r' → ∀ j, r'.subject ≠ .blank (gen j)

theorem Fresh.within {gen : Nat → Str} {r r' : Resource} {p : Iri} {o : RObj}
    (h : Fresh gen r) (ho : (p, o) ∈ added r) (hi : r' ∈ inside o) : Fresh gen r' :=
  fun r'' hw => h r'' (.step p o ho hi hw)

/-- What is made for a value is a part of what is made for the resource. -/
theorem flatten_part (gen : Nat → Str) (hg : ∀ i j, gen i = gen j → i = j) (n : Nat)
    (r : Resource) (hf : Fresh gen r) (p : Iri) (o : RObj) (ho : (p, o) ∈ added r) :
    ∃ m, PartOf gen m (m + containersO o) (o.flatten gen r.subject p m).1 n (n + containers r)
      (r.flatten gen n).1 := by
  cases r with
  | mk s ps =>
    have ho' := ho
    simp only [added, Resource.preds, List.mem_flatMap, List.mem_map, Prod.mk.injEq] at ho
    obtain ⟨e, he, o1, ho1, rfl, rfl⟩ := ho
    have hs : ∀ j, s ≠ .blank (gen j) := fun j => hf (.mk s ps) (.self _) j
    have hw : ∀ e' ∈ ps, ∀ o' ∈ e'.objects, ∀ r, WithinO o' r →
        ∀ j, r.subject ≠ .blank (gen j) := by
      intro e' he' o' ho' r ⟨r1, h1, h2⟩
      exact hf r (.step e'.name o' (List.mem_flatMap.2 ⟨e', he', List.mem_map.2 ⟨o', ho', rfl⟩⟩)
        h1 h2)
    obtain ⟨m1, h1⟩ := flattenPreds_part gen hg s n ps e he hs hw
    cases e with
    | mk q os =>
      obtain ⟨m2, h2⟩ := flattenObjs_part gen hg s q m1 os o1 ho1 hs (hw _ he)
      exact ⟨m2, h2.trans h1⟩

/-- What is made for a member is a part of what is made for the container. -/
theorem flattenMembers_part (gen : Nat → Str) (hg : ∀ i j, gen i = gen j → i = j) (b : Str)
    (idx n : Nat) (rs : List Resource) (r : Resource) (hr : r ∈ rs)
    (hb : ∀ k, n ≤ k → gen k ≠ b) (hf : ∀ r ∈ rs, Fresh gen r) :
    ∃ m, PartOf gen m (m + containers r) (r.flatten gen m).1 n (n + containersRs rs)
      (flattenMembers gen b idx n rs).1 := by
  induction rs generalizing n idx with
  | nil => simp at hr
  | cons r' rs ih =>
    rcases List.mem_cons.1 hr with rfl | hr
    · refine ⟨n, Nat.le_refl _, by simp only [containersRs]; omega, [], _, by
        simp only [flattenMembers, List.nil_append]; rfl, ?_⟩
      intro x hx k h1 h2
      rw [List.nil_append] at hx
      rcases List.mem_cons.1 hx with rfl | hx
      · intro e
        exact hb k h1 (Subject.blank.inj e).symm
      · rw [Resource.flatten_count] at hx
        rcases flattenMembers_subject gen b _ _ rs x hx with h | h
        · rw [h]; intro e
          exact hb k h1 (Subject.blank.inj e).symm
        · refine h.ne hg ?_ (by omega)
          rintro r2 ⟨r3, h3, h4⟩
          exact hf r3 (by simp [h3]) r2 h4
    · obtain ⟨m, hm⟩ := ih (idx + 1) (n + containers r') hr (fun k hk => hb k (by omega))
        (fun r2 h => hf r2 (by simp [h]))
      refine ⟨m, hm.trans ⟨by omega, by simp only [containersRs]; omega,
        (r'.flatten gen n).1 ++ [.mk (.blank b) (rdfMember idx) r'.subject.toObject], [], ?_, ?_⟩⟩
      · simp only [flattenMembers, Resource.flatten_count]; simp
      · intro x hx k h1 h2
        simp only [List.append_nil, List.mem_append, List.mem_singleton] at hx
        rcases hx with hx | rfl
        · exact (Resource.flatten_subject gen n r' x hx).ne hg (hf r' (by simp)) (by omega)
        · intro e
          exact hb k (by omega) (Subject.blank.inj e).symm

/-- What is made for a resource directly inside a value. -/
theorem flatten_inside (gen : Nat → Str) (hg : ∀ i j, gen i = gen j → i = j) (s : Subject)
    (p : Iri) (n : Nat) (o : RObj) (r : Resource) (hr : r ∈ inside o)
    (hs : ∀ j, s ≠ .blank (gen j)) (hf : ∀ r ∈ inside o, Fresh gen r) :
    ∃ m, PartOf gen m (m + containers r) (r.flatten gen m).1 n (n + containersO o)
      (o.flatten gen s p n).1 := by
  match o with
  | .res r' =>
    simp only [inside, List.mem_singleton] at hr
    subst hr
    refine ⟨n, Nat.le_refl _, Nat.le_refl _, [], [.mk s p s.toObject], rfl, ?_⟩
    intro x hx k _ _
    simp only [List.nil_append, List.mem_singleton] at hx
    subst hx
    exact hs k
  | .ress k rs =>
    obtain ⟨m, hm⟩ := flattenMembers_part gen hg (gen n) 0 (n + 1) rs r hr
      (fun k hk e => by have := hg _ _ e; omega) hf
    refine ⟨m, hm.trans ⟨by omega, by simp only [containersO]; omega,
      [.mk s p (.blank (gen n)), .mk (.blank (gen n)) rdfType (.res k.iri)], [], ?_, ?_⟩⟩
    · simp [RObj.flatten]
    · intro x hx j h1 h2
      simp only [List.append_nil, List.mem_cons, List.not_mem_nil, or_false] at hx
      rcases hx with rfl | rfl
      · exact hs j
      · intro e
        have := hg _ _ (Subject.blank.inj e); omega
  | .lit _ => simp [inside] at hr
  | .lits _ _ => simp [inside] at hr

/-- What is made for a resource at any depth. -/
theorem flatten_within (gen : Nat → Str) (hg : ∀ i j, gen i = gen j → i = j) (n : Nat)
    (r r' : Resource) (hw : Within r r') (hf : Fresh gen r) :
    ∃ m, PartOf gen m (m + containers r') (r'.flatten gen m).1 n (n + containers r)
      (r.flatten gen n).1 := by
  induction hw generalizing n with
  | self r => exact ⟨n, PartOf.refl _ _ _ _⟩
  | @step r r1 r2 p o ho hi hw ih =>
    obtain ⟨m1, h1⟩ := flatten_part gen hg n r hf p o ho
    obtain ⟨m2, h2⟩ := flatten_inside gen hg r.subject p m1 o r1 hi (fun j => hf r (.self _) j)
      (fun r3 h3 => hf.within ho h3)
    obtain ⟨m3, h3⟩ := ih m2 (hf.within ho hi)
    exact ⟨m3, h3.trans (h2.trans h1)⟩

/-! ### Members -/

theorem rdfMember_inj {a b : Nat} (h : rdfMember a = rdfMember b) : a = b := by
  simp only [rdfMember, Iri.mk.injEq, List.append_cancel_left_eq, List.cons.injEq, true_and] at h
  exact toDigits_inj h

theorem rdfType_ne_member (i : Nat) : rdfType ≠ rdfMember i := by
  intro h
  have h : rdfTable.ns ++ str! "type" = rdfTable.ns ++ '_' :: Nat.toDigits 10 i :=
    congrArg Iri.text h
  rw [List.append_cancel_left_eq] at h
  simp at h

theorem literalMembers_values (b : Str) (idx i : Nat) (ls : List Literal) :
    valuesOf (literalMembers b idx ls) b (rdfMember (idx + i)) = (ls[i]?.map Object.lit).toList := by
  induction ls generalizing idx i with
  | nil => simp [literalMembers, valuesOf]
  | cons l ls ih =>
    have e : literalMembers b idx (l :: ls) =
        [.mk (.blank b) (rdfMember idx) (.lit l)] ++ literalMembers b (idx + 1) ls := rfl
    rw [e, valuesOf_append, valuesOf_single]
    cases i with
    | zero =>
      have : valuesOf (literalMembers b (idx + 1) ls) b (rdfMember (idx + 0)) = [] := by
        clear ih e
        have : ∀ k, idx < k → valuesOf (literalMembers b k ls) b (rdfMember idx) = [] := by
          induction ls with
          | nil => intros; rfl
          | cons l ls ih =>
            intro k hk
            have e : literalMembers b k (l :: ls) =
              [.mk (.blank b) (rdfMember k) (.lit l)] ++ literalMembers b (k + 1) ls := rfl
            have ne : rdfMember k ≠ rdfMember idx := fun h => by
              have := rdfMember_inj h; omega
            rw [e, valuesOf_append, valuesOf_single, ih (k + 1) (by omega)]
            simp [ne]
        exact this (idx + 1) (by omega)
      rw [this]; simp
    | succ i =>
      have ne : rdfMember idx ≠ rdfMember (idx + (i + 1)) := fun h => by
        have := rdfMember_inj h; omega
      have := ih (idx + 1) i
      rw [show idx + 1 + i = idx + (i + 1) by omega] at this
      rw [this]
      simp [ne]

theorem flattenMembers_values (gen : Nat → Str) (hg : ∀ i j, gen i = gen j → i = j) (k idx i n : Nat)
    (hk : k < n) (rs : List Resource) (hf : ∀ r ∈ rs, Fresh gen r) :
    valuesOf (flattenMembers gen (gen k) idx n rs).1 (gen k) (rdfMember (idx + i)) =
      (rs[i]?.map fun r => r.subject.toObject).toList := by
  have hz : ∀ (r : Resource) (n : Nat) (q : Iri), k < n → Fresh gen r →
      valuesOf (r.flatten gen n).1 (gen k) q = [] := by
    intro r n q h1 h2
    apply valuesOf_nil_of
    intro x hx
    exact (Resource.flatten_subject gen n r x hx).ne hg h2 (by omega)
  have he : ∀ idx n r rs, (flattenMembers gen (gen k) idx n (r :: rs)).1 = (r.flatten gen n).1 ++
      ([.mk (.blank (gen k)) (rdfMember idx) r.subject.toObject] ++
        (flattenMembers gen (gen k) (idx + 1) (n + containers r) rs).1) := by
    intro idx n r rs
    simp [flattenMembers, Resource.flatten_count]
  induction rs generalizing n idx i with
  | nil => simp [flattenMembers, valuesOf]
  | cons r rs ih =>
    rw [he, valuesOf_append, valuesOf_append, valuesOf_single, hz r n _ hk (hf r (by simp))]
    cases i with
    | zero =>
      have : ∀ (rs : List Resource) (j n : Nat), k < n → idx < j → (∀ r ∈ rs, Fresh gen r) →
          valuesOf (flattenMembers gen (gen k) j n rs).1 (gen k) (rdfMember idx) = [] := by
        intro rs
        induction rs with
        | nil => intros; rfl
        | cons r rs ih =>
          intro j n h1 h2 h3
          have ne : rdfMember j ≠ rdfMember idx := fun h => by
            have := rdfMember_inj h; omega
          rw [he, valuesOf_append, valuesOf_append, valuesOf_single, hz r n _ h1 (h3 r (by simp)),
            ih (j + 1) _ (by omega) (by omega) (fun r h => h3 r (by simp [h]))]
          simp [ne]
      rw [Nat.add_zero, this rs _ _ (by omega) (by omega) (fun r h => hf r (by simp [h]))]
      simp
    | succ i =>
      have ne : rdfMember idx ≠ rdfMember (idx + (i + 1)) := fun h => by
        have := rdfMember_inj h; omega
      have := ih (idx + 1) i (n + containers r) (by omega) (fun r h => hf r (by simp [h]))
      rw [show idx + 1 + i = idx + (i + 1) by omega] at this
      rw [this]
      simp [ne]

/-! ### Building -/

theorem added_insert (p : Iri) (o : RObj) (r : Resource) :
    (added (r.insert p o)).Perm (added r ++ [(p, o)]) := by
  cases r with
  | mk s ps =>
    simp only [added, Resource.insert, Resource.preds]
    induction ps with
    | nil => simp [insertPred, PredObjs.objects, PredObjs.name]
    | cons e ps ih =>
      cases e with
      | mk q os =>
        simp only [insertPred]
        by_cases h : q = p
        · subst h
          simp only [if_true, List.flatMap_cons, PredObjs.objects, PredObjs.name, List.map_append,
            List.map_cons, List.map_nil, List.append_assoc]
          exact List.Perm.append_left _ List.perm_append_comm
        · simp only [h, if_false, List.flatMap_cons, List.append_assoc]
          exact List.Perm.append_left _ ih

end Rdftk
