import Verif.Spec.Builder
import Verif.Props.Resource

/-! Properties of the calls of the resource builder. -/

namespace Rdftk
open Spec

theorem valuesAt_insertPred (p q : Iri) (o : RObj) (ps : List PredObjs) (h : (ps.map PredObjs.name).Nodup) :
    ((insertPred q o ps).filter fun e => e.name = p).flatMap PredObjs.objects =
      (ps.filter fun e => e.name = p).flatMap PredObjs.objects ++ if q = p then [o] else [] := by
  induction ps with
  | nil => by_cases e : q = p <;> simp [insertPred, PredObjs.name, PredObjs.objects, e]
  | cons x ps ih =>
    cases x with
    | mk n os =>
      simp only [List.map_cons, List.nodup_cons, PredObjs.name] at h
      by_cases e : n = q
      · subst e
        have hn : ps.filter (fun e => decide (e.name = n)) = [] := by
          rw [List.filter_eq_nil_iff]
          intro x hx he
          exact h.1 (List.mem_map.2 ⟨x, hx, of_decide_eq_true he⟩)
        by_cases e' : n = p
        · subst e'
          have hi : insertPred n o (.mk n os :: ps) = .mk n (os ++ [o]) :: ps := by simp [insertPred]
          have h1 : (PredObjs.mk n (os ++ [o])).name = n := rfl
          have h2 : (PredObjs.mk n os).name = n := rfl
          have h3 : (PredObjs.mk n (os ++ [o])).objects = os ++ [o] := rfl
          have h4 : (PredObjs.mk n os).objects = os := rfl
          rw [hi, List.filter_cons, List.filter_cons, h1, h2, hn]
          simp [h3, h4]
        · have hi : insertPred n o (.mk n os :: ps) = .mk n (os ++ [o]) :: ps := by simp [insertPred]
          have h1 : (PredObjs.mk n (os ++ [o])).name = n := rfl
          have h2 : (PredObjs.mk n os).name = n := rfl
          rw [hi, List.filter_cons, List.filter_cons, h1, h2]
          simp [e']
      · have ih := ih h.2
        have hi : insertPred q o (.mk n os :: ps) = .mk n os :: insertPred q o ps := by simp [insertPred, e]
        have hn : (PredObjs.mk n os).name = n := rfl
        rw [hi, List.filter_cons, List.filter_cons, hn]
        by_cases e' : n = p
        · simp only [e', decide_true, if_true, List.flatMap_cons]
          rw [ih, List.append_assoc]
        · simp only [e', decide_false, Bool.false_eq_true, if_false]
          exact ih

/-- Distinct predicates of the entries. -/
def Resource.Ok (r : Resource) : Prop := (r.preds.map PredObjs.name).Nodup

theorem valuesAt_insert (p q : Iri) (o : RObj) (r : Resource) (h : r.Ok) :
    valuesAt p (r.insert q o) = valuesAt p r ++ if q = p then [o] else [] := by
  cases r with
  | mk s ps => exact valuesAt_insertPred p q o ps h

theorem foldl_insert (p q : Iri) (os : List RObj) (r : Resource) (h : r.Ok) :
    (os.foldl (fun r o => r.insert q o) r).Ok ∧
    (os.foldl (fun r o => r.insert q o) r).subject = r.subject ∧
    valuesAt p (os.foldl (fun r o => r.insert q o) r) = valuesAt p r ++ if q = p then os else [] := by
  induction os generalizing r with
  | nil => simp [h]
  | cons o os ih =>
    obtain ⟨a, b, c⟩ := ih (r.insert q o) (C36_entries q o r h)
    refine ⟨a, b.trans (C36_insert q o r).2, ?_⟩
    rw [List.foldl_cons, c, valuesAt_insert p q o r h]
    by_cases e : q = p <;> simp [e]

/-- Each call adds the values it names, one by one. -/
theorem call_run (pr : Char → Bool) (tag : Str → Option Str) (r : Resource) (c : Call) :
    c.run pr tag r = match callSays pr tag c with
      | none => .panic
      | some (p, os) => .ok (os.foldl (fun r o => r.insert p o) r) := by
  cases c <;> try rfl
  rename_i p s lang
  simp only [Call.run, Resource.literalLanguageStrStr, callSays]
  cases tag lang <;> rfl

/-! ### C97 -/

/-- C97: after any calls, the values of each predicate are those before and then those that the calls name,
in the order of the calls; the subject stays. -/
theorem C97_values (pr : Char → Bool) (tag : Str → Option Str) (cs : List Call) (r r' : Resource) (h : r.Ok)
    (e : runCalls pr tag r cs = .ok r') :
    r'.Ok ∧ r'.subject = r.subject ∧ ∀ p, valuesAt p r' = valuesAt p r ++ cs.flatMap (callSaysOf pr tag p) := by
  induction cs generalizing r with
  | nil => cases e; simp [h]
  | cons c cs ih =>
    simp only [runCalls, call_run] at e
    cases hs : callSays pr tag c with
    | none => rw [hs] at e; cases e
    | some x =>
      obtain ⟨q, os⟩ := x
      rw [hs] at e
      simp only at e
      obtain ⟨h1, h2, h3⟩ := ih _ (foldl_insert q q os r h).1 e
      refine ⟨h1, h2.trans (foldl_insert q q os r h).2.1, fun p => ?_⟩
      rw [h3 p, (foldl_insert p q os r h).2.2]
      simp [callSaysOf, hs]

/-- C97: for a new resource there is nothing else. -/
theorem C97_new (pr : Char → Bool) (tag : Str → Option Str) (cs : List Call) (s : Subject) (r : Resource)
    (e : runCalls pr tag (.new s) cs = .ok r) :
    r.subject = s ∧ ∀ p, valuesAt p r = cs.flatMap (callSaysOf pr tag p) := by
  obtain ⟨_, h, h'⟩ := C97_values pr tag cs (.new s) r List.nodup_nil e
  exact ⟨h, fun p => by rw [h' p]; rfl⟩

/-- C97: a resource that was begun without a name has the label that was generated for its subject, and is no named one. -/
theorem C97_anonymous (b : Str) : (Resource.anonymous b).subject = .blank b ∧ (Resource.anonymous b).isResource = false ∧
    ∀ p, valuesAt p (Resource.anonymous b) = [] := ⟨rfl, rfl, fun _ => rfl⟩


/-- C97: the calls panic exactly if one of them has an impossible language tag. -/
theorem C97_panic (pr : Char → Bool) (tag : Str → Option Str) (cs : List Call) (r : Resource) :
    runCalls pr tag r cs = .panic ↔ ∃ p s lang, .literalLanguageStrStr p s lang ∈ cs ∧ tag lang = none := by
  induction cs generalizing r with
  | nil => simp [runCalls]
  | cons c cs ih =>
    simp only [runCalls, call_run]
    cases hs : callSays pr tag c with
    | none =>
      simp only [true_iff]
      cases c <;> simp only [callSays, reduceCtorEq] at hs
      rename_i p s lang
      exact ⟨p, s, lang, by simp, by simpa using hs⟩
    | some x =>
      simp only [ih, List.mem_cons]
      constructor
      · rintro ⟨p, s, l, hm, hn⟩; exact ⟨p, s, l, .inr hm, hn⟩
      · rintro ⟨p, s, l, rfl | hm, hn⟩
        · simp [callSays, hn] at hs
        · exact ⟨p, s, l, hm, hn⟩

/-- C97: the order of calls with different predicates does not matter to the values. -/
theorem C97_order (pr : Char → Bool) (tag : Str → Option Str) (cs ds : List Call) (s : Subject) (r r' : Resource)
    (e : runCalls pr tag (.new s) cs = .ok r) (e' : runCalls pr tag (.new s) ds = .ok r')
    (h : ∀ p, cs.flatMap (callSaysOf pr tag p) = ds.flatMap (callSaysOf pr tag p)) :
    ∀ p, valuesAt p r = valuesAt p r' := fun p => by
  rw [(C97_new pr tag cs s r e).2, (C97_new pr tag ds s r' e').2, h]

theorem pcall_run (po : PredObjs) (c : PCall) (pr : Char → Bool) (tag : Str → Option Str) :
    ∃ o, callSays pr tag (direct po.name c) = some (po.name, [o]) ∧ c.run po = .mk po.name (po.objects ++ [o]) := by
  cases po with
  | mk p os => cases c <;> exact ⟨_, rfl, rfl⟩

/-- C97: a predicate that is built first and then added gives the same resource as the calls made directly. -/
theorem C97_predicate (pr : Char → Bool) (tag : Str → Option Str) (p : Iri) (cs : List PCall) (r : Resource) :
    (Call.predicate (cs.foldl PCall.run (.new p))).run pr tag r = runCalls pr tag r (cs.map (direct p)) := by
  have key : ∀ (cs : List PCall) (os : List RObj) (r : Resource),
      Outcome.ok ((cs.foldl PCall.run (.mk p os)).objects.foldl
        (fun r o => r.insert (cs.foldl PCall.run (.mk p os)).name o) r) =
      runCalls pr tag (os.foldl (fun r o => r.insert p o) r) (cs.map (direct p)) := by
    intro cs
    induction cs with
    | nil => intro os r; rfl
    | cons c cs ih =>
      intro os r
      obtain ⟨o, h1, h2⟩ := pcall_run (.mk p os) c pr tag
      rw [List.foldl_cons, h2]
      have := ih (os ++ [o]) r
      simp only [PredObjs.name, PredObjs.objects] at h1 this ⊢
      rw [this, List.map_cons, runCalls, call_run, h1]
      simp
  exact key cs [] r

/-- Two names in two languages and a type. -/
example : runCalls (fun _ => true) some (.individual ⟨str! "http://h/a"⟩)
    [.literalLanguageStrStr ⟨str! "http://h/n"⟩ (str! "x") (str! "en"), .instanceOf ⟨str! "http://h/T"⟩,
      .literalStr ⟨str! "http://h/n"⟩ (str! "y")] =
    .ok (.mk (.res ⟨str! "http://h/a"⟩) [.mk ⟨str! "http://h/n"⟩ [.lit ⟨str! "x", none, some (str! "en")⟩,
      .lit ⟨str! "y", none, none⟩], .mk rdfType [.res (.mk (.res ⟨str! "http://h/T"⟩) [])]]) := by
  rfl

end Rdftk
