import Verif.Lemmas.XmlSize
import Verif.Props.TurtleSize

/-! C174: how much RDF/XML is written, and more on C81.  `rdftk_io/src/xml/writer.rs` 276-309 writes a blank node anew, with all that is
said about it, each time it is an object in the nested style. -/

namespace Rdftk
open Spec

/-- C81, exactly, for the nested style: with enough depth a graph is written if and only if, after expansion, the walks from resources
through blank nodes do not get longer and longer, and on them every predicate can be split and no collection or statement is left. -/
theorem C81_nested_iff (gen : Nat → Str) (n : Nat) (sty : IriStyle) (enc : Str) (o : Orders) (hf : o.Fair) (g : Graph) :
    (∃ d es, writeXml gen n sty false enc o d g = .ok es) ↔
      ∃ N, ∀ w, StmtWalk (g.simplify gen n).1 w → (∀ t ∈ w.head?, t.subject.isResource = true) →
        w.length ≤ N ∧ ∀ t ∈ w, splitUri sty t.predicate ≠ .panic ∧ simpleObject t.object = true := by
  have hm : ∀ s, s ∈ (o.subj (g.simplify gen n).1.subjects).filter (fun s => false || s.isResource) ↔
      (∃ st ∈ (g.simplify gen n).1.stmts, st.subject = s) ∧ s.isResource = true := fun s => by
    rw [List.mem_filter, (hf.1 _).mem_iff, xml_subjects]
    simp
  have hw : ∀ d, (∃ es, writeXml gen n sty false enc o d g = .ok es) ↔
      ∀ s, (∃ st ∈ (g.simplify gen n).1.stmts, st.subject = s) ∧ s.isResource = true →
        ∃ es, xmlSubject sty false o (g.simplify gen n).1 d s = .ok es := fun d => by
    have h1 := (@xmlSubjects_all (xmlSubject sty false o (g.simplify gen n).1 d)
      ((o.subj (g.simplify gen n).1.subjects).filter fun s => false || s.isResource)).1
    simp only [hm] at h1
    simp only [writeXml, Run.bind_ok_iff]
    rw [← h1]
    constructor
    · rintro ⟨a, ha, _⟩; exact ⟨a, ha⟩
    · rintro ⟨a, ha⟩; exact ⟨a, ha, _, rfl⟩
  have first : ∀ {w}, StmtWalk (g.simplify gen n).1 w → ∃ t c, w = t :: c ∧ t ∈ (g.simplify gen n).1.stmts := fun {w} h => by
    cases w with
    | nil => exact h.elim
    | cons t c => exact ⟨t, c, rfl, h.1⟩
  constructor
  · rintro ⟨d, he⟩
    have he := (hw d).1 he
    refine ⟨d, fun w h1 h2 => ?_⟩
    obtain ⟨t, c, rfl, ht⟩ := first h1
    obtain ⟨es, hes⟩ := he t.subject ⟨⟨t, ht, rfl⟩, h2 t (by simp)⟩
    cases d with
    | zero => simp [xmlSubject] at hes
    | succ d => exact (walks_written hf hes h1 (by simp)).2
  · rintro ⟨N, h⟩
    refine ⟨N + 1, (hw _).2 fun s hs => ?_⟩
    refine walks_write hf ?_ fun w h1 h2 => h w h1 fun t ht => by rw [h2 t ht]; exact hs.2
    cases s <;> simp [Subject.isResource, simpleSubject] at hs ⊢

/-- C174, in the nested style: there are the walks from resources through blank nodes, and the events are two for each resource and two
to four for each walk. -/
theorem C174_nested (gen : Nat → Str) (n : Nat) (sty : IriStyle) (enc : Str) (o : Orders) (hf : o.Fair) (d : Nat) (g : Graph)
    (es : List XmlOut) (h : writeXml gen n sty false enc o d g = .ok es) :
    ∃ (ss : List Subject) (ws : List (List Stmt)), ss.Nodup ∧ ws.Nodup ∧
      (∀ s, s ∈ ss ↔ s.isResource = true ∧ ∃ t ∈ (g.simplify gen n).1.stmts, t.subject = s) ∧
      (∀ w, w ∈ ws ↔ StmtWalk (g.simplify gen n).1 w ∧ ∀ t ∈ w.head?, t.subject.isResource = true) ∧
      3 + 2 * ss.length + 2 * ws.length ≤ es.length ∧ es.length ≤ 3 + 2 * ss.length + 4 * ws.length := by
  obtain ⟨e1, h1, h⟩ := Run.bind_ok.1 h
  simp only [Run.ok.injEq] at h
  subst h
  generalize (g.simplify gen n).1 = g' at *
  generalize hss : (o.subj g'.subjects).filter (fun s => false || s.isResource) = ss at h1
  have hm : ∀ s, s ∈ ss ↔ s.isResource = true ∧ ∃ t ∈ g'.stmts, t.subject = s := fun s => by
    rw [← hss, List.mem_filter, (hf.1 _).mem_iff, xml_subjects]
    simp [and_comm]
  have hn : ss.Nodup := by
    rw [← hss]
    exact (((hf.1 _).nodup_iff).2 (setOf_nodup _)).filter _
  have hdeep : ∀ s ∈ ss, ∃ es, xmlSubject sty false o g' d s = .ok es := xmlSubjects_all.1.1 ⟨_, h1⟩
  have hmem : ∀ s, ∀ w ∈ walksOf g' (d - 1) s, StmtWalk g' w ∧ ∀ t ∈ w.head?, t.subject = s := by
    intro s w hw
    obtain ⟨t, ht, hw⟩ := List.mem_flatMap.1 hw
    obtain ⟨c, hc, rfl⟩ := List.mem_map.1 hw
    obtain ⟨k1, rfl⟩ := mem_stmtsAbout.1 ht
    exact ⟨walksAfter_walk k1 hc, by simp⟩
  refine ⟨ss, ss.flatMap (walksOf g' (d - 1)), hn, ?_, hm, fun w => ?_, ?_⟩
  · rw [List.nodup_flatMap]
    refine ⟨fun s _ => ?_, hn.imp fun {a b} hab w h1 h2 => hab ?_⟩
    · rw [walksOf, List.nodup_flatMap]
      refine ⟨fun t _ => (walksAfter_nodup _ _ t.object).map fun a b h => (List.cons.inj h).2,
        (stmtsAbout_nodup _ _).imp fun {a b} hab c h1 h2 => hab ?_⟩
      obtain ⟨c₁, -, rfl⟩ := List.mem_map.1 h1
      obtain ⟨c₂, -, e⟩ := List.mem_map.1 h2
      exact (List.cons.inj e).1.symm
    · have k1 := hmem _ _ h1
      have k2 := hmem _ _ h2
      cases w with
      | nil => exact k1.1.elim
      | cons t c => rw [← k1.2 t (by simp), ← k2.2 t (by simp)]
  · rw [List.mem_flatMap]
    constructor
    · rintro ⟨s, hs, hw⟩
      have := hmem s w hw
      exact ⟨this.1, fun t ht => by rw [this.2 t ht]; exact ((hm s).1 hs).1⟩
    · rintro ⟨hw, hh⟩
      cases w with
      | nil => exact hw.elim
      | cons t c =>
        have hs : t.subject ∈ ss := (hm _).2 ⟨hh t (by simp), t, hw.1, rfl⟩
        obtain ⟨es, hes⟩ := hdeep _ hs
        refine ⟨t.subject, hs, ?_⟩
        cases d with
        | zero => simp [xmlSubject] at hes
        | succ d => exact (walks_written hf hes hw (by simp)).1
  · have k := xmlSubjects_size (lo := fun s => 2 + 2 * (walksOf g' (d - 1) s).length) (hi := fun s => 2 + 4 * (walksOf g' (d - 1) s).length)
      (fun s es hs => by
        cases d with
        | zero => simp [xmlSubject] at hs
        | succ d => exact xmlSubject_nested_size hf hs) h1
    have key : ∀ (c : Nat) (l : List Subject), (l.map fun s => 2 + c * (walksOf g' (d - 1) s).length).sum =
        2 * l.length + c * (l.flatMap (walksOf g' (d - 1))).length := by
      intro c l
      induction l with
      | nil => simp
      | cons a l ih =>
        simp only [List.map_cons, List.sum_cons, ih, List.length_cons, List.flatMap_cons, List.length_append, Nat.mul_add]
        omega
    rw [key, key] at k
    simp only [List.length_append, List.length_cons, List.length_nil]
    omega

/-- C174, in the flat style: two events for each subject, and two or three for each statement. -/
theorem C174_flat (gen : Nat → Str) (n : Nat) (sty : IriStyle) (enc : Str) (o : Orders) (hf : o.Fair) (d : Nat) (g : Graph)
    (es : List XmlOut) (h : writeXml gen n sty true enc o d g = .ok es) :
    3 + 2 * (g.simplify gen n).1.subjects.length + 2 * (setOf (g.simplify gen n).1.stmts).length ≤ es.length ∧
    es.length ≤ 3 + 2 * (g.simplify gen n).1.subjects.length + 3 * (setOf (g.simplify gen n).1.stmts).length := by
  obtain ⟨e1, h1, h⟩ := Run.bind_ok.1 h
  simp only [Run.ok.injEq] at h
  subst h
  generalize (g.simplify gen n).1 = g' at *
  simp only [Bool.true_or, List.filter_true] at h1
  have k := xmlSubjects_size (lo := fun s => 2 + 2 * (stmtsAbout g' s).length) (hi := fun s => 2 + 3 * (stmtsAbout g' s).length)
    (fun s es hs => by
      cases d with
      | zero => simp [xmlSubject] at hs
      | succ d => exact xmlSubject_flat_size hf hs) h1
  rw [((hf.1 _).map _).sum_eq, ((hf.1 _).map _).sum_eq] at k
  have key : ∀ (c : Nat) (l : List Subject), (l.map fun s => 2 + c * (stmtsAbout g' s).length).sum =
      2 * l.length + c * (l.flatMap (stmtsAbout g')).length := by
    intro c l
    induction l with
    | nil => simp
    | cons a l ih =>
      simp only [List.map_cons, List.sum_cons, ih, List.length_cons, List.flatMap_cons, List.length_append, Nat.mul_add]
      omega
  have hp : (g'.subjects.flatMap (stmtsAbout g')).Perm (setOf g'.stmts) := by
    refine (List.perm_ext_iff_of_nodup ?_ (setOf_nodup _)).2 fun t => ?_
    · rw [List.nodup_flatMap]
      refine ⟨fun s _ => stmtsAbout_nodup _ _, (setOf_nodup _).imp fun {a b} hab t h1 h2 => hab ?_⟩
      rw [← (mem_stmtsAbout.1 h1).2, ← (mem_stmtsAbout.1 h2).2]
    · rw [List.mem_flatMap, mem_setOf]
      constructor
      · rintro ⟨s, -, ht⟩; exact (mem_stmtsAbout.1 ht).1
      · intro ht; exact ⟨t.subject, xml_subjects.2 ⟨t, ht, rfl⟩, mem_stmtsAbout.2 ⟨ht, rfl⟩⟩
  rw [key, key, hp.length_eq] at k
  simp only [List.length_append, List.length_cons, List.length_nil]
  omega

/-- C174, the full statement: the number of events is bounded by a polynomial of the number of statements. -/
def C174_statement (sty : IriStyle) : Prop :=
  ∃ a k : Nat, ∀ (gen : Nat → Str) (n : Nat) (flat : Bool) (enc : Str) (o : Orders) (d : Nat) (g : Graph) (es : List XmlOut), o.Fair →
    writeXml gen n sty flat enc o d g = .ok es → es.length ≤ a * ((g.simplify gen n).1.stmts.length + 1) ^ k

/-- C174, what holds: in the flat style, and if no blank node is both subject and object, at most six events for each statement. -/
theorem C174_partial (gen : Nat → Str) (n : Nat) (sty : IriStyle) (flat : Bool) (enc : Str) (o : Orders) (hf : o.Fair) (d : Nat) (g : Graph)
    (es : List XmlOut) (hb : flat = true ∨ ∀ t ∈ (g.simplify gen n).1.stmts, ∀ u ∈ (g.simplify gen n).1.stmts, ∀ b,
      t.object = .blank b → u.subject ≠ .blank b)
    (h : writeXml gen n sty flat enc o d g = .ok es) : es.length ≤ 3 + 6 * (g.simplify gen n).1.stmts.length := by
  cases flat with
  | true =>
    obtain ⟨-, k⟩ := C174_flat gen n sty enc o hf d g es h
    have h1 : (g.simplify gen n).1.subjects.length ≤ (g.simplify gen n).1.stmts.length := by
      have := (List.subperm_of_subset (setOf_nodup ((g.simplify gen n).1.stmts.map Stmt.subject)) (fun x hx => mem_setOf.1 hx)).length_le
      rwa [List.length_map] at this
    have h2 := (List.subperm_of_subset (setOf_nodup (g.simplify gen n).1.stmts) (fun x hx => mem_setOf.1 hx)).length_le
    omega
  | false =>
    obtain hb := hb.resolve_left (by simp)
    obtain ⟨ss, ws, hs1, hw1, hs2, hw2, -, k⟩ := C174_nested gen n sty enc o hf d g es h
    generalize hl : (g.simplify gen n).1.stmts = l at hb hs2 ⊢
    have h1 : ss.length ≤ l.length := by
      have := (List.subperm_of_subset hs1 (l₂ := l.map Stmt.subject) fun s hs => by
        obtain ⟨-, t, ht, rfl⟩ := (hs2 s).1 hs
        exact List.mem_map_of_mem ht).length_le
      rwa [List.length_map] at this
    have h2 : ws.length ≤ l.length := by
      have := (List.subperm_of_subset hw1 (l₂ := l.map fun t => [t]) fun w hw => by
        obtain ⟨hw, -⟩ := (hw2 w).1 hw
        cases w with
        | nil => exact hw.elim
        | cons t c =>
          obtain ⟨ht, rfl | ⟨⟨b, hb', hh⟩, hc⟩⟩ := hw
          all_goals rw [hl] at ht
          · exact List.mem_map.2 ⟨t, ht, rfl⟩
          · cases c with
            | nil => exact hc.elim
            | cons u c => exact absurd (hh u (by simp)) (hb t ht u (by rw [← hl]; exact hc.1) b hb')).length_le
      rwa [List.length_map] at this
    omega

/-- Statements about each of `n` blank nodes, two with the next one for value. -/
def twoWayStmts : Nat → List Stmt
  | 0 => []
  | n + 1 => nextStmt (str! "http://a/p") n :: nextStmt (str! "http://a/q") n :: twoWayStmts n

/-- A resource whose value is the first of them. -/
def rootStmt : Stmt := .mk (.res ⟨str! "http://a/s"⟩) ⟨str! "http://a/p"⟩ (.blank (manyB 0))

theorem mem_twoWayStmts {n : Nat} {x : Stmt} :
    x ∈ twoWayStmts n ↔ ∃ i < n, x = nextStmt (str! "http://a/p") i ∨ x = nextStmt (str! "http://a/q") i := by
  induction n with
  | zero => simp [twoWayStmts]
  | succ n ih =>
    rw [twoWayStmts, List.mem_cons, List.mem_cons, ih]
    constructor
    · rintro (rfl | rfl | ⟨i, hi, h⟩)
      · exact ⟨n, by omega, .inl rfl⟩
      · exact ⟨n, by omega, .inr rfl⟩
      · exact ⟨i, by omega, h⟩
    · rintro ⟨i, hi, h⟩
      by_cases e : i = n
      · subst e
        rcases h with rfl | rfl <;> simp
      · exact .inr (.inr ⟨i, by omega, h⟩)

theorem length_twoWayStmts (n : Nat) : (twoWayStmts n).length = 2 * n := by
  induction n with
  | zero => rfl
  | succ n ih => simp only [twoWayStmts, List.length_cons, ih]; omega

theorem twoWay_walk {g : Graph} {n : Nat} (hg : g.stmts = rootStmt :: twoWayStmts n) {w : List Stmt} (hw : StmtWalk g w) {i : Nat}
    (hi : ∀ t ∈ w.head?, t.subject = .blank (manyB i)) : i + w.length ≤ n := by
  induction w generalizing i with
  | nil => exact hw.elim
  | cons t c ih =>
    obtain ⟨ht, hc⟩ := hw
    have hs := hi t (by simp)
    rw [hg, List.mem_cons] at ht
    obtain ⟨j, hj, ho, hs'⟩ : ∃ j < n, t.object = .blank (manyB (j + 1)) ∧ t.subject = .blank (manyB j) := by
      rcases ht with rfl | ht
      · cases hs
      · obtain ⟨j, hj, rfl | rfl⟩ := mem_twoWayStmts.1 ht <;> exact ⟨j, hj, rfl, rfl⟩
    rw [hs'] at hs
    simp only [Subject.blank.injEq] at hs
    obtain rfl := manyB_inj hs
    rcases hc with rfl | ⟨⟨b, hb, hh⟩, hc⟩
    · simp; omega
    · rw [ho] at hb
      cases hb
      have := ih hc hh
      simp only [List.length_cons]
      omega

theorem StmtChain.walk {g : Graph} {c : List Stmt} (h : StmtChain g c) (hne : c ≠ []) : StmtWalk g c := by
  induction c with
  | nil => exact (hne rfl).elim
  | cons t c ih =>
    obtain ⟨h1, h2, h3⟩ := h
    refine ⟨h1, ?_⟩
    by_cases e : c = []
    · exact .inl e
    · exact .inr ⟨h2, ih h3 e⟩

/-- C174, how much it is: from `2 n + 1` statements more than `2 ^ n` events are written in the nested style. -/
theorem C174_doubles (gen : Nat → Str) (m : Nat) (sty : IriStyle) (enc : Str) (o : Orders) (hf : o.Fair) (n : Nat) :
    ∃ g : Graph, g.stmts.length = 2 * n + 1 ∧ (g.simplify gen m).1.stmts = g.stmts ∧
      ∃ d es, writeXml gen m sty false enc o d g = .ok es ∧ 2 ^ n ≤ es.length := by
  have hstm : (graphOf (rootStmt :: twoWayStmts n)).stmts = rootStmt :: twoWayStmts n := rfl
  have hsim := (C34_unchanged gen m (graphOf (rootStmt :: twoWayStmts n)) fun t ht => by
    rw [hstm, List.mem_cons] at ht
    rcases ht with rfl | ht
    · rfl
    · obtain ⟨j, hj, rfl | rfl⟩ := mem_twoWayStmts.1 ht <;> rfl).1
  have hg' := hsim.trans hstm
  refine ⟨_, by rw [hstm, List.length_cons, length_twoWayStmts], hsim, ?_⟩
  have hgood : ∀ t ∈ ((graphOf (rootStmt :: twoWayStmts n)).simplify gen m).1.stmts,
      splitUri sty t.predicate ≠ .panic ∧ simpleObject t.object = true := by
    intro t ht
    have hp : splitUri sty ⟨str! "http://a/p"⟩ ≠ .panic := by cases sty <;> decide +kernel
    have hq : splitUri sty ⟨str! "http://a/q"⟩ ≠ .panic := by cases sty <;> decide +kernel
    rw [hg', List.mem_cons] at ht
    rcases ht with rfl | ht
    · exact ⟨hp, rfl⟩
    · obtain ⟨j, hj, rfl | rfl⟩ := mem_twoWayStmts.1 ht
      · exact ⟨hp, rfl⟩
      · exact ⟨hq, rfl⟩
  have hin : ∀ w, StmtWalk ((graphOf (rootStmt :: twoWayStmts n)).simplify gen m).1 w →
      ∀ t ∈ w, t ∈ ((graphOf (rootStmt :: twoWayStmts n)).simplify gen m).1.stmts := by
    intro w
    induction w with
    | nil => simp
    | cons t c ih =>
      rintro ⟨h1, h2⟩
      refine List.forall_mem_cons.2 ⟨h1, ?_⟩
      rcases h2 with rfl | h2
      · simp
      · exact ih h2.2
  have hlen : ∀ w, StmtWalk ((graphOf (rootStmt :: twoWayStmts n)).simplify gen m).1 w →
      (∀ t ∈ w.head?, t.subject.isResource = true) → w.length ≤ n + 1 := by
    intro w hw hh
    cases w with
    | nil => exact hw.elim
    | cons t c =>
      obtain ⟨ht, rfl | ⟨⟨b, hb, hh'⟩, hc⟩⟩ := hw
      · simp
      · rw [hg', List.mem_cons] at ht
        rcases ht with rfl | ht
        · cases hb
          have := twoWay_walk hg' hc hh'
          simp only [List.length_cons]
          omega
        · have := hh t (by simp)
          obtain ⟨j, hj, rfl | rfl⟩ := mem_twoWayStmts.1 ht <;> cases this
  obtain ⟨d, es, hes⟩ := (C81_nested_iff gen m sty enc o hf _).2
    ⟨n + 1, fun w hw hh => ⟨hlen w hw hh, fun t ht => hgood t (hin w hw t ht)⟩⟩
  refine ⟨d, es, hes, ?_⟩
  obtain ⟨ss, ws, -, -, -, h4, h5, -⟩ := C174_nested gen m sty enc o hf d _ es hes
  have hch : ∀ c ∈ ways 0 n, rootStmt :: c ∈ ws := by
    intro c hc
    obtain ⟨k1, k2, k3⟩ := ways_chain (g := ((graphOf (rootStmt :: twoWayStmts n)).simplify gen m).1) (n := n) (fun i hi => by
      rw [hg']
      exact ⟨List.mem_cons_of_mem _ (mem_twoWayStmts.2 ⟨i, hi, .inl rfl⟩), List.mem_cons_of_mem _ (mem_twoWayStmts.2 ⟨i, hi, .inr rfl⟩)⟩)
      (i := 0) (j := n) (by omega) c hc
    refine (h4 _).2 ⟨?_, by simp [rootStmt, Stmt.subject, Subject.isResource]⟩
    exact StmtChain.walk (c := rootStmt :: c) ⟨by rw [hg']; exact List.mem_cons_self .., ⟨_, rfl, k3⟩, k2⟩ (by simp)
  have := (List.subperm_of_subset ((ways_nodup 0 n).map (f := fun c => rootStmt :: c) fun a b h => (List.cons.inj h).2) (l₂ := ws) fun w hw => by
    obtain ⟨c, hc, rfl⟩ := List.mem_map.1 hw
    exact hch c hc).length_le
  rw [List.length_map, ways_length] at this
  omega

/-- C174 fails in either style of IRIs. -/
theorem C174_fails (sty : IriStyle) : ¬ C174_statement sty := by
  rintro ⟨a, k, h⟩
  obtain ⟨n, hn, hlt⟩ := pow_wins a k
  obtain ⟨g, h1, h2, d, es, h3, h4⟩ := C174_doubles blankGen 0 sty [] sameOrder sameOrder_fair n
  have := h _ _ _ _ _ _ _ _ sameOrder_fair h3
  rw [h2, h1] at this
  have hle : 2 * n + 1 + 1 ≤ 50 * (n * (n + 1)) + 1 := by
    have : n ≤ n * (n + 1) := Nat.le_mul_of_pos_right _ (by omega)
    omega
  have := Nat.mul_le_mul_left a (Nat.pow_le_pow_left hle k)
  omega

end Rdftk
