import Verif.Lemmas.TurtleOrder
import Verif.Lemmas.TurtleEnd
import Verif.Spec.TurtleLayout

/-! How the Turtle writer lays out its text. -/

namespace Rdftk
open Spec

theorem padded_filled (v : Str) (m : Nat) : padded v m = filled v m := by
  cases m <;> simp [padded, filled, padRight]

theorem padding_spaces {m : Nat} (h : 0 < m) : padding m = List.replicate m ' ' := by
  obtain ⟨k, rfl⟩ : ∃ k, m = k + 1 := ⟨m - 1, by omega⟩
  simp [padding, padRight, List.replicate_succ]

theorem newLine_text {f : TurtleFlags} (hf : f.sorted = false) (d : Nat) : newLine f d = .ok (onNewLine d, d) := by
  simp [newLine, hf, onNewLine]

section
variable {env : TurtleEnv} {wo : Nat → TurtleFlags → Object → Step} {R : Nat → Object → Str → Prop}

/-- What is written for an object, in any state but that of sorting. -/
def Lays (R : Nat → Object → Str → Prop) (w : Nat) (wo : Nat → TurtleFlags → Object → Step) : Prop :=
  ∀ f d o t e, f.sorted = false → w ≤ d → wo w f o d = .ok (t, e) → e = d ∧ R d o t

theorem writeObjects_lays {w m d : Nat} {f : TurtleFlags} (hf : f.sorted = false) (hwo : Lays R w wo) {os : List Object}
    (hn : os ≠ []) (hnd : os.Nodup) (hw : 0 < w) (hd : w ≤ d) {t : Str} {e : Nat} (h : writeObjects wo w m f os d = .ok (t, e)) :
    ∃ text, (∀ o ∈ os, R d o (text o)) ∧
      t = objectsText w d m text os ++ (if f.lastSubject then (if d = w then str! " .\n" else []) else str! " ;") := by
  induction os generalizing t with
  | nil => exact absurd rfl hn
  | cons o os ih =>
    obtain ⟨t1, d1, t2, h1, h2, rfl⟩ := Step.andThen_ok.1 h
    obtain ⟨t3, d3, t4, h3, h4, rfl⟩ := Step.andThen_ok.1 h1
    obtain ⟨rfl, hR⟩ := hwo { f with nextBlank := firstIsBlank os, lastPredicate := os.isEmpty } _ _ _ _ hf hd h3
    cases os with
    | nil =>
      refine ⟨fun _ => t3, fun x hx => by rw [List.mem_singleton.1 hx]; exact hR, ?_⟩
      obtain ⟨rfl, -⟩ := nop_eq h2
      simp only [List.isEmpty_nil, if_true] at h4
      simp only [objectsText, List.append_nil]
      congr 1
      by_cases hs : f.lastSubject
      · simp only [hs, if_true] at h4 ⊢
        obtain ⟨_, d5, _, h5, h6, rfl⟩ := Step.andThen_ok.1 h4
        obtain ⟨rfl, -, rfl⟩ := outdent_eq h5
        by_cases h0 : d3 = w
        · rw [if_pos (by omega)] at h6
          rw [if_pos h0]
          obtain ⟨_, d7, _, h7, h8, rfl⟩ := Step.andThen_ok.1 h6
          simp only [Step.text, Run.ok.injEq, Prod.mk.injEq] at h7
          obtain ⟨rfl, rfl⟩ := h7
          rw [newLine_text (by exact hf)] at h8
          simp only [Run.ok.injEq, Prod.mk.injEq] at h8
          rw [← h8.1]
          have : d3 - w = 0 := by omega
          simp [onNewLine, this]
        · rw [if_neg (by omega)] at h6
          rw [if_neg h0]
          obtain ⟨rfl, -⟩ := nop_eq h6
          rfl
      · simp only [hs, if_false, Bool.false_eq_true] at h4 ⊢
        obtain ⟨_, d5, _, h5, h6, rfl⟩ := Step.andThen_ok.1 h4
        obtain ⟨rfl, rfl⟩ := nop_eq h5
        rw [if_neg (by omega)] at h6
        simp only [Step.text, Run.ok.injEq, Prod.mk.injEq] at h6
        rw [← h6.1]
        rfl
    | cons o' r =>
      simp only [List.isEmpty_cons, if_false, Bool.false_eq_true] at h4
      have hsep : t4 = ',' :: (if o'.isBlank then [] else onNewLine (d3 + w) ++ List.replicate m ' ') ∧ d1 = d3 := by
        obtain ⟨_, d5, _, h5, h6, rfl⟩ := Step.andThen_ok.1 h4
        simp only [Step.text, Run.ok.injEq, Prod.mk.injEq] at h5
        obtain ⟨rfl, rfl⟩ := h5
        by_cases hb : o'.isBlank
        · simp only [firstIsBlank, hb, if_true] at h6
          obtain ⟨rfl, rfl⟩ := nop_eq h6
          simp [hb]
        · simp only [firstIsBlank, hb, if_false, Bool.false_eq_true] at h6
          obtain ⟨_, d7, _, h7, h8, rfl⟩ := Step.andThen_ok.1 h6
          obtain ⟨rfl, -, rfl⟩ := outdent_eq h8
          obtain ⟨_, d9, _, h9, h10, rfl⟩ := Step.andThen_ok.1 h7
          obtain ⟨_, d11, _, h11, h12, rfl⟩ := Step.andThen_ok.1 h9
          simp only [Step.indent, Run.ok.injEq, Prod.mk.injEq] at h11
          obtain ⟨rfl, rfl⟩ := h11
          rw [newLine_text (by exact hf)] at h12
          simp only [Run.ok.injEq, Prod.mk.injEq] at h12
          obtain ⟨rfl, rfl⟩ := h12
          by_cases hm : 0 < m
          · simp only [hm, if_true, Step.text, Run.ok.injEq, Prod.mk.injEq] at h10
            obtain ⟨rfl, rfl⟩ := h10
            simp [hb, padding_spaces hm]
          · simp only [hm, if_false] at h10
            obtain ⟨rfl, rfl⟩ := nop_eq h10
            have : m = 0 := by omega
            simp [hb, this]
      obtain ⟨rfl, rfl⟩ := hsep
      rw [List.nodup_cons] at hnd
      obtain ⟨text, ht, rfl⟩ := ih (by simp) hnd.2 h2
      have hcongr : ∀ (l : List Object), o ∉ l → objectsText w d1 m (fun x => if x = o then t3 else text x) l = objectsText w d1 m text l := by
        intro l
        induction l with
        | nil => intro _; rfl
        | cons a l ih =>
          intro hl
          have ha : a ≠ o := fun h => hl (by simp [h])
          have ih := ih (fun h => hl (by simp [h]))
          cases l with
          | nil => simp [objectsText, ha]
          | cons b l => simp only [objectsText, ha, if_false, ih]
      refine ⟨fun x => if x = o then t3 else text x, fun x hx => ?_, ?_⟩
      · by_cases hxo : x = o
        · subst hxo; simpa using hR
        · simp only [hxo, if_false]
          exact ht x (by simpa [hxo] using hx)
      · have := hcongr _ hnd.1
        simp only [objectsText, this, if_true]
        simp [List.append_assoc]

theorem writeVerb_laid {p : Iri} {m d : Nat} {f : TurtleFlags} (hf : f.sorted = false) {t : Str} {e : Nat}
    (h : writeVerb env (groupOf p) p m f d = .ok (t, e)) : e = d ∧ VerbLaid env d m p t := by
  refine ⟨writeVerb_keeps h, ?_⟩
  unfold writeVerb at h
  dsimp only at h
  have hv : ∀ v, (if env.opts.typeA then Run.ok (str! "a") else compressIri env rdfType) = .ok v →
      (if env.opts.typeA then v = ['a'] else compressIri env rdfType = .ok v) := by
    intro v h
    split at h
    · rename_i ha; rw [if_pos ha]; exact (Run.ok.inj h).symm
    · rename_i ha; rw [if_neg ha]; exact h
  split at h
  · rename_i hg
    split at h
    · rename_i hl
      obtain ⟨s, h1, h2⟩ := Run.bind_ok.1 h
      obtain ⟨v, h3, h4⟩ := Run.bind_ok.1 h1
      simp only [Run.ok.injEq, Prod.mk.injEq] at h2 h4
      rw [← h2.1, ← h4]
      exact .onLine v hg (hv v h3) hl
    · rename_i hl
      obtain ⟨t1, d1, t2, h1, h2, rfl⟩ := Step.andThen_ok.1 h
      rw [newLine_text hf] at h1
      simp only [Run.ok.injEq, Prod.mk.injEq] at h1
      obtain ⟨rfl, rfl⟩ := h1
      obtain ⟨s, h1, h2⟩ := Run.bind_ok.1 h2
      obtain ⟨v, h3, h4⟩ := Run.bind_ok.1 h1
      simp only [Run.ok.injEq, Prod.mk.injEq] at h2 h4
      rw [← h2.1, ← h4, padded_filled]
      exact .type v hg (hv v h3) (by simpa using hl)
  · rename_i hg
    obtain ⟨t1, d1, t2, h1, h2, rfl⟩ := Step.andThen_ok.1 h
    rw [newLine_text hf] at h1
    simp only [Run.ok.injEq, Prod.mk.injEq] at h1
    obtain ⟨rfl, rfl⟩ := h1
    obtain ⟨s, h1, h2⟩ := Run.bind_ok.1 h2
    obtain ⟨v, h3, h4⟩ := Run.bind_ok.1 h1
    simp only [Run.ok.injEq, Prod.mk.injEq] at h2 h4
    rw [← h2.1, ← h4, padded_filled]
    exact .other v hg h3

theorem predicatesText_congr {inner : Bool} {verb objects verb' objects' : Iri → Str} {ps : List Iri}
    (h : ∀ p ∈ ps, verb p = verb' p ∧ objects p = objects' p) :
    predicatesText inner verb objects ps = predicatesText inner verb' objects' ps := by
  induction ps with
  | nil => rfl
  | cons p ps ih =>
    have hp := h p (by simp)
    have ih := ih fun q hq => h q (by simp [hq])
    cases ps with
    | nil => simp [predicatesText, hp.1, hp.2]
    | cons q ps => simp only [predicatesText, hp.1, hp.2, ih]

/-- What the loop over the predicates of a subject writes. -/
theorem writePredicateLoop_lays {w m d : Nat} {s : Subject} {f : TurtleFlags} (hf : f.sorted = false) (hwo : Lays R w wo)
    (hk : Keeps wo) (hw : 0 < w) (hd : w ≤ d) {total count : Nat} {ps : List Iri} (hfair : env.orders.Fair)
    (ho : ∀ p ∈ ps, ∃ o, Stmt.mk s p o ∈ env.graph.stmts) (hn : ps ≠ []) (hnd : ps.Nodup) (hc : count + ps.length = total)
    {t : Str} {e : Nat} (h : writePredicateLoop env wo w s m total f count (ps.map fun p => (groupOf p, p)) d = .ok (t, e)) :
    ∃ (os : Iri → List Object) (text : Iri → Object → Str) (verb : Iri → Str),
      (∀ p ∈ ps, (∀ o, o ∈ os p ↔ Stmt.mk s p o ∈ env.graph.stmts) ∧ (os p).Nodup) ∧ (∀ p ∈ ps, VerbLaid env d m p (verb p)) ∧
      (∀ p ∈ ps, ∀ o ∈ os p, R d o (text p o)) ∧
      t = predicatesText (decide (d ≠ w)) verb (fun p => objectsText w d m (text p) (os p)) ps := by
  induction ps generalizing count t with
  | nil => exact absurd rfl hn
  | cons p ps ih =>
    obtain ⟨t1, d1, t2, h1, h2, rfl⟩ := Step.andThen_ok.1 h
    obtain ⟨t3, d3, t4, h3, h4, rfl⟩ := Step.andThen_ok.1 h1
    obtain ⟨rfl, hv⟩ := writeVerb_laid (by exact hf) h3
    obtain ⟨os, hos, h5⟩ := Run.bind_ok.1 h4
    have hperm := (sortedObjects_perm hos).trans (hfair.2.2 s p _)
    have hmem : ∀ o, o ∈ os ↔ Stmt.mk s p o ∈ env.graph.stmts := fun o => hperm.mem_iff.trans mem_objectsFor
    have hne : os ≠ [] := by
      obtain ⟨o, hm⟩ := ho p (by simp)
      exact List.ne_nil_of_mem ((hmem o).2 hm)
    have hos' : os.Nodup := hperm.nodup_iff.2 (setOf_nodup _)
    obtain ⟨text, hR, rfl⟩ := writeObjects_lays (f := { f with lastSubject := count + 1 == total }) hf hwo hne hos' hw hd h5
    cases ps with
    | nil =>
      have hlast : (count + 1 == total) = true := by simp at hc; simp [hc]
      obtain ⟨rfl, -⟩ := nop_eq h2
      refine ⟨fun _ => os, fun _ => text, fun _ => t3, fun q hq => ⟨?_, hos'⟩, fun q hq => ?_, fun q hq => hR, ?_⟩
      · rw [List.mem_singleton.1 hq]; exact hmem
      · rw [List.mem_singleton.1 hq]; exact hv
      · simp only [hlast, if_true, predicatesText, List.append_nil]
        by_cases h0 : d3 = w <;> simp [h0]
    | cons q ps =>
      have hlast : (count + 1 == total) = false := by simp at hc ⊢; omega
      have hd1 : d1 = d3 := by
        have := writeObjects_keeps hk hne h5
        simpa [hlast] using this
      subst hd1
      rw [List.nodup_cons] at hnd
      obtain ⟨os', text', verb', g1, g2, g3, rfl⟩ := ih (count := count + 1) (fun p hp => ho p (by simp [List.mem_cons.1 hp])) (by simp) hnd.2
        (by simp at hc ⊢; omega) h2
      have hne' : ∀ x ∈ q :: ps, x ≠ p := fun x hx h => hnd.1 (h ▸ hx)
      refine ⟨fun x => if x = p then os else os' x, fun x => if x = p then text else text' x, fun x => if x = p then t3 else verb' x,
        fun x hx => ?_, fun x hx => ?_, fun x hx o hxo => ?_, ?_⟩
      · by_cases hxp : x = p
        · subst hxp; simp only [if_true]; exact ⟨hmem, hos'⟩
        · simp only [hxp, if_false]; exact g1 x (by simpa [hxp] using hx)
      · by_cases hxp : x = p
        · subst hxp; simpa using hv
        · simp only [hxp, if_false]; exact g2 x (by simpa [hxp] using hx)
      · by_cases hxp : x = p
        · subst hxp
          simp only [if_true] at hxo ⊢
          exact hR o hxo
        · simp only [hxp, if_false] at hxo ⊢
          exact g3 x (by simpa [hxp] using hx) o hxo
      · have := predicatesText_congr (inner := decide (d1 ≠ w)) (verb := fun x => if x = p then t3 else verb' x) (verb' := verb')
          (objects := fun x => objectsText w d1 m (if x = p then text else text' x) (if x = p then os else os' x))
          (objects' := fun x => objectsText w d1 m (text' x) (os' x)) (ps := q :: ps)
          fun x hx => by simp [hne' x hx]
        simp only [predicatesText, if_true, this, hlast, if_false, Bool.false_eq_true]
        simp [List.append_assoc]

theorem byteMax_ge (l : List Str) (a : Nat) : a ≤ l.foldl (fun a b => max a (byteLen b)) a := by
  induction l generalizing a with
  | nil => exact Nat.le_refl a
  | cons b l ih => exact Nat.le_trans (Nat.le_max_left _ _) (ih _)

theorem byteMax_mem (l : List Str) (a : Nat) : ∀ b ∈ l, byteLen b ≤ l.foldl (fun a b => max a (byteLen b)) a := by
  induction l generalizing a with
  | nil => simp
  | cons b l ih =>
    intro c hc
    rcases List.mem_cons.1 hc with rfl | hc
    · exact Nat.le_trans (Nat.le_max_right _ _) (byteMax_ge l _)
    · exact ih _ c hc

theorem byteMax_eq (l : List Str) (a : Nat) :
    l.foldl (fun a b => max a (byteLen b)) a = a ∨ ∃ b ∈ l, l.foldl (fun a b => max a (byteLen b)) a = byteLen b := by
  induction l generalizing a with
  | nil => exact .inl rfl
  | cons b l ih =>
    rcases ih (max a (byteLen b)) with h | ⟨c, hc, h⟩
    · simp only [List.foldl_cons, h]
      rcases Nat.le_total a (byteLen b) with hab | hab
      · exact .inr ⟨b, by simp, by omega⟩
      · exact .inl (by omega)
    · exact .inr ⟨c, by simp [hc], h⟩

theorem forall₂_mem_right {α β : Type _} {f : α → Run β} {l : List α} {l' : List β} (h : List.Forall₂ (fun a b => f a = .ok b) l l') :
    (∀ a ∈ l, ∃ b ∈ l', f a = .ok b) ∧ ∀ b ∈ l', ∃ a ∈ l, f a = .ok b := by
  induction h with
  | nil => simp
  | @cons a b l l' h _ ih =>
    refine ⟨fun x hx => ?_, fun x hx => ?_⟩
    · rcases List.mem_cons.1 hx with rfl | hx
      · exact ⟨b, by simp, h⟩
      · obtain ⟨y, hy, e⟩ := ih.1 x hx
        exact ⟨y, by simp [hy], e⟩
    · rcases List.mem_cons.1 hx with rfl | hx
      · exact ⟨a, by simp, h⟩
      · obtain ⟨y, hy, e⟩ := ih.2 x hx
        exact ⟨y, by simp [hy], e⟩

/-- The column of the objects. -/
theorem column_of (hfair : env.orders.Fair) {s : Subject} {m : Nat} (hs : env.graph.containsSubject s)
    (h : (if env.opts.padding then Run.ok 0 else
      (maxLenPredicates env (env.orders.pred s (env.graph.predicatesFor s))).bind fun n => .ok (1 + n)) = .ok m) : Column env s m := by
  unfold Column
  split at h
  · rename_i hp
    rw [if_pos hp]
    exact (Run.ok.inj h).symm
  · rename_i hp
    rw [if_neg hp]
    obtain ⟨n, h1, h2⟩ := Run.bind_ok.1 h
    obtain ⟨l, h3, h4⟩ := Run.bind_ok.1 h1
    simp only [Run.ok.injEq] at h2 h4
    subst h2 h4
    obtain ⟨k1, k2⟩ := forall₂_mem_right (Run.mapAll_ok.1 h3)
    have hmem : ∀ p, p ∈ env.orders.pred s (env.graph.predicatesFor s) ↔ ∃ o, Stmt.mk s p o ∈ env.graph.stmts := fun p =>
      ((hfair.2.1 s _).mem_iff).trans mem_predicatesFor
    constructor
    · intro p o hm
      obtain ⟨v, hv, e⟩ := k1 p ((hmem p).2 ⟨o, hm⟩)
      have := byteMax_mem l 0 v hv
      exact ⟨v, e, by omega⟩
    · obtain ⟨p0, o0, hm0⟩ := containsSubject_iff.1 hs
      obtain ⟨v0, hv0, e0⟩ := k1 p0 ((hmem p0).2 ⟨o0, hm0⟩)
      rcases byteMax_eq l 0 with h | ⟨v, hv, h⟩
      · have := byteMax_mem l 0 v0 hv0
        exact ⟨p0, o0, v0, hm0, e0, by omega⟩
      · obtain ⟨p, hp', e⟩ := k2 v hv
        obtain ⟨o, hm⟩ := (hmem p).1 hp'
        exact ⟨p, o, v, hm, e, by omega⟩

theorem writePredicates_lays {w d : Nat} {s : Subject} {f : TurtleFlags} (hf : f.sorted = false) (hwo : Lays R w wo) (hk : Keeps wo)
    (hfair : env.orders.Fair) (hw : 0 < w) (hd : w ≤ d) (hs : env.graph.containsSubject s) {t : Str} {e : Nat}
    (h : writePredicates env wo w f s d = .ok (t, e)) :
    ∃ (m : Nat) (ps : List Iri) (os : Iri → List Object) (text : Iri → Object → Str) (verb : Iri → Str),
      Arranged env s ps os ∧ Column env s m ∧ (∀ p ∈ ps, VerbLaid env d m p (verb p)) ∧ (∀ p ∈ ps, ∀ o ∈ os p, R d o (text p o)) ∧
      t = predicatesText (decide (d ≠ w)) verb (fun p => objectsText w d m (text p) (os p)) ps := by
  obtain ⟨m, hm, h1⟩ := Run.bind_ok.1 h
  obtain ⟨l, hl, h2⟩ := Run.bind_ok.1 h1
  have hperm := predicateSequence_perm hl
  have hl' : l = (l.map (·.2)).map fun p => (groupOf p, p) := by
    have : ∀ x ∈ l, (groupOf x.2, x.2) = x := fun x hx => by
      obtain ⟨p, -, rfl⟩ := List.mem_map.1 (hperm.mem_iff.1 hx)
      rfl
    rw [List.map_map]
    exact (List.map_id'' (l := l) (f := id) (fun _ => rfl)).symm.trans (List.map_congr_left fun x hx => (this x hx).symm)
  have hps : (l.map (·.2)).Perm (env.graph.predicatesFor s) := by
    refine (hperm.map (·.2)).trans ?_
    rw [List.map_map]
    refine List.Perm.trans ?_ (hfair.2.1 s _)
    exact .of_eq (List.map_id'' (fun _ => rfl) _)
  have hmem : ∀ p, p ∈ l.map (·.2) ↔ ∃ o, Stmt.mk s p o ∈ env.graph.stmts := fun p => hps.mem_iff.trans mem_predicatesFor
  have hnd : (l.map (·.2)).Nodup := hps.nodup_iff.2 (setOf_nodup _)
  have hne : l.map (·.2) ≠ [] := by
    obtain ⟨p, o, hm⟩ := containsSubject_iff.1 hs
    exact List.ne_nil_of_mem ((hmem p).2 ⟨o, hm⟩)
  rw [hl'] at h2
  have hlen : 0 + (l.map (·.2)).length = (env.orders.pred s (env.graph.predicatesFor s)).length := by
    rw [Nat.zero_add, hps.length_eq, (hfair.2.1 s _).length_eq]
  obtain ⟨os, text, verb, g1, g2, g3, g4⟩ := writePredicateLoop_lays hf hwo hk hw hd hfair (fun p hp => (hmem p).1 hp) hne hnd hlen h2
  exact ⟨m, _, os, text, verb, ⟨hmem, hnd, g1⟩, column_of hfair hs hm, g2, g3, g4⟩

theorem writeMembers_lays {w d : Nat} {f : TurtleFlags} (hf : f.sorted = false) (hwo : Lays R w wo) (hd : w ≤ d) {c : List Object}
    {t : Str} {e : Nat} (h : writeMembers wo w f c d = .ok (t, e)) :
    (∀ o ∈ c, R d o (match wo w f o d with | .ok x => x.1 | _ => [])) ∧
      t = membersText (fun o => match wo w f o d with | .ok x => x.1 | _ => []) c := by
  induction c generalizing t with
  | nil => exact ⟨by simp, (nop_eq h).1⟩
  | cons o c ih =>
    obtain ⟨t1, d1, t2, h1, h2, rfl⟩ := Step.andThen_ok.1 h
    obtain ⟨t3, d3, t4, h3, h4, rfl⟩ := Step.andThen_ok.1 h1
    obtain ⟨rfl, hR⟩ := hwo _ _ _ _ _ hf hd h3
    simp only [Step.text, Run.ok.injEq, Prod.mk.injEq] at h4
    obtain ⟨rfl, rfl⟩ := h4
    obtain ⟨g1, rfl⟩ := ih h2
    refine ⟨fun x hx => ?_, ?_⟩
    · rcases List.mem_cons.1 hx with rfl | hx
      · simpa only [h3] using hR
      · exact g1 x hx
    · cases c with
      | nil => simp [membersText, h3]
      | cons a c => simp [membersText, h3]

end

theorem writeObject_lays {env : TurtleEnv} (hfair : env.orders.Fair) (hw : 0 < env.opts.width) (n : Nat) :
    Lays (Laid env) env.opts.width (writeObject env n) := by
  induction n with
  | zero => intro f d o t e _ _ h; simp [writeObject] at h
  | succ n ih =>
    intro f d o t e hf hd h
    refine ⟨writeObject_keeps hfair (n + 1) _ _ _ _ _ _ h, ?_⟩
    cases o with
    | res i =>
      exact .res d i t (run_eq h).1
    | lit l =>
      exact .lit d l t (run_eq h).1
    | stmt s => simp [writeObject, writeObjectStep] at h
    | blank b =>
      simp only [writeObject, writeObjectStep] at h
      by_cases hn : env.opts.nest
      · simp only [hn, if_true] at h
        by_cases hs : env.graph.containsSubject (.blank b)
        · simp only [hs, if_true] at h
          obtain ⟨t1, d1, t2, h1, h2, rfl⟩ := Step.andThen_ok.1 h
          obtain ⟨t3, d3, t4, h3, h4, rfl⟩ := Step.andThen_ok.1 h1
          obtain ⟨t5, d5, t6, h5, h6, rfl⟩ := Step.andThen_ok.1 h3
          obtain ⟨t7, d7, t8, h7, h8, rfl⟩ := Step.andThen_ok.1 h5
          simp only [Step.indent, Step.text, Run.ok.injEq, Prod.mk.injEq] at h7 h8 h2
          obtain ⟨rfl, rfl⟩ := h7
          obtain ⟨rfl, rfl⟩ := h8
          obtain ⟨rfl, rfl⟩ := h2
          have hk := writePredicates_keeps (writeObject_keeps hfair n) hfair hs h6
          have : d3 = d := by omega
          subst this
          rw [newLine_text hf] at h4
          simp only [Run.ok.injEq, Prod.mk.injEq] at h4
          obtain ⟨rfl, rfl⟩ := h4
          obtain ⟨m, ps, os, text, verb, g1, g2, g3, g4, rfl⟩ := writePredicates_lays hf ih (writeObject_keeps hfair n) hfair hw
            (by omega) hs h6
          have hin : decide (d3 + env.opts.width ≠ env.opts.width) = true := by simp; omega
          have := Laid.nested d3 m b ps os text verb hn (containsSubject_iff.1 hs) g1 g2 g3 g4
          rw [hin]
          simpa [List.append_assoc] using this
        · simp only [hs, if_false, Bool.false_eq_true] at h
          simp only [Step.text, Run.ok.injEq, Prod.mk.injEq] at h
          rw [← h.1]
          exact .alone d b hn fun p o hm => hs (containsSubject_iff.2 ⟨p, o, hm⟩)
      · simp only [hn, if_false, Bool.false_eq_true] at h
        simp only [Step.text, Run.ok.injEq, Prod.mk.injEq] at h
        rw [← h.1]
        exact .label d b (by simpa using hn)
    | coll c =>
      simp only [writeObject, writeObjectStep, writeCollection] at h
      cases c with
      | nil =>
        simp only [List.isEmpty_nil, if_true, Step.text, Run.ok.injEq, Prod.mk.injEq] at h
        rw [← h.1]
        exact .none d
      | cons o c =>
        simp only [List.isEmpty_cons, if_false, Bool.false_eq_true] at h
        obtain ⟨t1, d1, t2, h1, h2, rfl⟩ := Step.andThen_ok.1 h
        obtain ⟨t3, d3, t4, h3, h4, rfl⟩ := Step.andThen_ok.1 h1
        obtain ⟨t5, d5, t6, h5, h6, rfl⟩ := Step.andThen_ok.1 h3
        obtain ⟨t7, d7, t8, h7, h8, rfl⟩ := Step.andThen_ok.1 h5
        obtain ⟨t9, d9, t10, h9, h10, rfl⟩ := Step.andThen_ok.1 h7
        obtain ⟨t11, d11, t12, h11, h12, rfl⟩ := Step.andThen_ok.1 h9
        obtain ⟨t13, d13, t14, h13, h14, rfl⟩ := Step.andThen_ok.1 h11
        simp only [Step.indent, Step.text, Run.ok.injEq, Prod.mk.injEq] at h13 h14 h4
        obtain ⟨rfl, rfl⟩ := h13
        obtain ⟨rfl, rfl⟩ := h14
        obtain ⟨rfl, rfl⟩ := h4
        rw [newLine_text hf] at h12
        simp only [Run.ok.injEq, Prod.mk.injEq] at h12
        obtain ⟨rfl, rfl⟩ := h12
        obtain rfl := writeMembers_keeps (writeObject_keeps hfair n) h10
        obtain ⟨g1, rfl⟩ := writeMembers_lays hf ih (by omega) h10
        have := Laid.coll d (o :: c) _ (by simp) g1
        rw [newLine_text hf] at h6
        simp only [Run.ok.injEq, Prod.mk.injEq] at h6
        obtain ⟨rfl, rfl⟩ := h6
        by_cases ho : env.opts.outdentColl
        · simp only [ho, if_true] at h8 h2 this
          obtain ⟨rfl, -, rfl⟩ := outdent_eq h8
          obtain ⟨rfl, -⟩ := nop_eq h2
          simpa [List.append_assoc] using this
        · simp only [ho, if_false, Bool.false_eq_true] at h8 h2 this
          obtain ⟨rfl, rfl⟩ := nop_eq h8
          obtain ⟨rfl, -, -⟩ := outdent_eq h2
          simpa [List.append_assoc] using this

theorem writeBlock_lays {env : TurtleEnv} (hfair : env.orders.Fair) (hw : 0 < env.opts.width) {n : Nat} {s : Subject}
    (hs : env.graph.containsSubject s) {t : Str} {e : Nat} (h : writeBlock env n env.opts.width s 0 = .ok (t, e)) :
    e = 0 ∧ BlockLaid env s t := by
  obtain ⟨t1, d1, t2, h1, h2, rfl⟩ := Step.andThen_ok.1 h
  obtain ⟨t3, d3, t4, h3, h4, rfl⟩ := Step.andThen_ok.1 h1
  obtain ⟨t5, d5, t6, h5, h6, rfl⟩ := Step.andThen_ok.1 h3
  simp only [Step.indent, Step.text, Run.ok.injEq, Prod.mk.injEq] at h6 h2
  obtain ⟨rfl, rfl⟩ := h6
  obtain ⟨rfl, rfl⟩ := h2
  have hsub : d5 = 0 ∧ SubjectLaid env s t5 := by
    cases s with
    | res i =>
      obtain ⟨g, rfl⟩ := run_eq h5
      exact ⟨rfl, .res i _ g⟩
    | blank b =>
      simp [TurtleFlags.none] at h5
      obtain ⟨rfl, rfl⟩ := h5
      exact ⟨rfl, .blank b⟩
    | stmt x => simp at h5
  obtain ⟨rfl, hsub⟩ := hsub
  have hk := writePredicates_keeps (writeObject_keeps hfair n) hfair hs h4
  obtain ⟨m, ps, os, text, verb, g1, g2, g3, g4, rfl⟩ := writePredicates_lays (f := .none) rfl (writeObject_lays hfair hw n)
    (writeObject_keeps hfair n) hfair hw (by omega) hs h4
  refine ⟨by omega, ?_⟩
  rw [Nat.zero_add] at *
  have := BlockLaid.mk m t5 ps os text verb hsub g1 g2 g3 g4
  simpa [List.append_assoc] using this

theorem writeNodes_lays {env : TurtleEnv} (hfair : env.orders.Fair) (hw : 0 < env.opts.width) {n : Nat} {ss : List Subject}
    (hs : ∀ s ∈ ss, env.graph.containsSubject s) {t : Str} {e : Nat} (h : writeNodes env n env.opts.width ss 0 = .ok (t, e)) :
    e = 0 ∧ ∃ bs, List.Forall₂ (BlockLaid env) ss bs ∧ t = bs.flatten := by
  induction ss generalizing t with
  | nil =>
    obtain ⟨rfl, rfl⟩ := nop_eq h
    exact ⟨rfl, [], .nil, rfl⟩
  | cons s ss ih =>
    obtain ⟨t1, d1, t2, h1, h2, rfl⟩ := Step.andThen_ok.1 h
    obtain ⟨rfl, g⟩ := writeBlock_lays hfair hw (hs s (by simp)) h1
    obtain ⟨rfl, bs, hb, rfl⟩ := ih (fun x hx => hs x (by simp [hx])) h2
    exact ⟨rfl, t1 :: bs, .cons g hb, rfl⟩

theorem writeBlanks_lays {env : TurtleEnv} (hfair : env.orders.Fair) (hw : 0 < env.opts.width) {n : Nat} {ss : List Subject}
    (hs : ∀ s ∈ ss, env.graph.containsSubject s) {t : Str} {d e : Nat} (h : writeBlanks env n env.opts.width ss d = .ok (t, e)) :
    ∃ bs, List.Forall₂ (BlockLaid env) ss bs ∧ t = bs.flatten := by
  induction ss generalizing t d with
  | nil =>
    obtain ⟨rfl, rfl⟩ := nop_eq h
    exact ⟨[], .nil, rfl⟩
  | cons s ss ih =>
    obtain ⟨t1, d1, t2, h1, h2, rfl⟩ := Step.andThen_ok.1 h
    obtain ⟨t3, d3, t4, h3, h4, rfl⟩ := Step.andThen_ok.1 h1
    simp only [Step.reset, Run.ok.injEq, Prod.mk.injEq] at h3
    obtain ⟨rfl, rfl⟩ := h3
    obtain ⟨rfl, g⟩ := writeBlock_lays hfair hw (hs s (by simp)) h4
    obtain ⟨bs, hb, rfl⟩ := ih (fun x hx => hs x (by simp [hx])) h2
    exact ⟨t4 :: bs, .cons g hb, rfl⟩

/-! ### No indentation -/

theorem outdent_pos {w d : Nat} {t : Str} {e : Nat} (h : Step.outdent w d = .ok (t, e)) : 0 < d := by
  unfold Step.outdent at h
  split at h
  · cases h
  · omega

theorem writeObjects_pos {wo : Nat → TurtleFlags → Object → Step} (hk : Keeps wo) {w m d : Nat} {f : TurtleFlags} (hl : f.lastSubject = true)
    {os : List Object} (hn : os ≠ []) {t : Str} {e : Nat} (h : writeObjects wo w m f os d = .ok (t, e)) : 0 < d := by
  induction os generalizing d t with
  | nil => exact absurd rfl hn
  | cons o os ih =>
    obtain ⟨_, d₁, _, h1, h2, -⟩ := Step.andThen_ok.1 h
    have h3 := writeObjectAnd_keeps hk h1
    cases os with
    | nil =>
      obtain ⟨_, d₂, _, h4, h5, -⟩ := Step.andThen_ok.1 h1
      obtain rfl := hk _ _ _ _ _ _ h4
      simp only [List.isEmpty_nil, hl, if_true] at h5
      obtain ⟨_, _, _, h6, -, -⟩ := Step.andThen_ok.1 h5
      exact outdent_pos h6
    | cons x os =>
      simp only [List.isEmpty_cons, Bool.false_and, if_false, Bool.false_eq_true] at h3
      subst h3
      exact ih (by simp) h2

theorem writePredicateLoop_pos {env : TurtleEnv} {wo : Nat → TurtleFlags → Object → Step} (hk : Keeps wo)
    {w m d : Nat} {s : Subject} {f : TurtleFlags} {total count : Nat} {l : List (PredGroup × Iri)}
    (ho : ∀ e ∈ l, env.orders.obj s e.2 (env.graph.objectsFor s e.2) ≠ [])
    (hn : l ≠ []) (hc : count + l.length = total) {t : Str} {e : Nat}
    (h : writePredicateLoop env wo w s m total f count l d = .ok (t, e)) : 0 < d := by
  induction l generalizing count d t with
  | nil => exact absurd rfl hn
  | cons a l ih =>
    obtain ⟨g, p⟩ := a
    obtain ⟨_, d₁, _, h1, h2, -⟩ := Step.andThen_ok.1 h
    obtain ⟨_, d₂, _, h3, h4, -⟩ := Step.andThen_ok.1 h1
    obtain rfl := writeVerb_keeps h3
    obtain ⟨os, hos, h5⟩ := Run.bind_ok.1 h4
    have hperm := sortedObjects_perm hos
    have hne : os ≠ [] := fun e => ho (g, p) (by simp) (by rw [e] at hperm; exact hperm.nil_eq.symm)
    cases l with
    | nil =>
      have : (count + 1 == total) = true := by simp at hc; simp [hc]
      exact writeObjects_pos (f := { f with lastSubject := count + 1 == total }) hk this hne h5
    | cons b l =>
      have hlast : (count + 1 == total) = false := by simp at hc ⊢; omega
      have h6 := writeObjects_keeps hk hne h5
      simp only [hlast, if_false, Bool.false_eq_true] at h6
      subst h6
      exact ih (fun e he => ho e (by simp [List.mem_cons.1 he])) (by simp) (by simp at hc ⊢; omega) h2

theorem writePredicates_pos {env : TurtleEnv} {wo : Nat → TurtleFlags → Object → Step} (hk : Keeps wo)
    (hfair : env.orders.Fair) {w d : Nat} {s : Subject} {f : TurtleFlags}
    (hs : env.graph.containsSubject s) {t : Str} {e : Nat}
    (h : writePredicates env wo w f s d = .ok (t, e)) : 0 < d := by
  obtain ⟨m, -, h1⟩ := Run.bind_ok.1 h
  obtain ⟨l, hl, h2⟩ := Run.bind_ok.1 h1
  have hperm := predicateSequence_perm hl
  have hlen : l.length = (env.orders.pred s (env.graph.predicatesFor s)).length := by
    simpa using hperm.length_eq
  refine writePredicateLoop_pos hk (fun e he => ?_) ?_ (by omega) h2
  · obtain ⟨p, hp', rfl⟩ := List.mem_map.1 (hperm.mem_iff.1 he)
    obtain ⟨o, ho⟩ := mem_predicatesFor.1 ((hfair.2.1 s _).mem_iff.1 hp')
    exact List.ne_nil_of_mem ((hfair.2.2 s p _).mem_iff.2 (mem_objectsFor.2 ho))
  · intro e
    rw [e] at hlen
    obtain ⟨p, o, ho⟩ := containsSubject_iff.1 hs
    have hm : p ∈ env.orders.pred s (env.graph.predicatesFor s) :=
      (hfair.2.1 s _).mem_iff.2 (mem_predicatesFor.2 ⟨o, ho⟩)
    have := List.length_pos_of_mem hm
    simp at hlen; omega

/-- Without indentation nothing is written. -/
theorem writeBlock_pos {env : TurtleEnv} (hfair : env.orders.Fair) {n w : Nat} {s : Subject}
    (hs : env.graph.containsSubject s) {t : Str} {e : Nat} (h : writeBlock env n w s 0 = .ok (t, e)) : 0 < w := by
  obtain ⟨_, d1, _, h1, -, -⟩ := Step.andThen_ok.1 h
  obtain ⟨_, d3, _, h3, h4, -⟩ := Step.andThen_ok.1 h1
  obtain ⟨_, d5, _, h5, h6, -⟩ := Step.andThen_ok.1 h3
  have h6 := (indent_eq h6).2
  have hd : d5 = 0 := by
    cases s with
    | res i => exact (run_eq h5).2
    | blank b =>
      simp [TurtleFlags.none] at h5
      exact h5.2.symm
    | stmt x => simp at h5
  have := writePredicates_pos (writeObject_keeps hfair n) hfair hs h4
  omega

end Rdftk
