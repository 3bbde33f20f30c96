import Verif.Props.Xml

/-! Documents in which blank nodes are nested: the statements they say. -/

namespace Rdftk

open Spec

/-! ### Statements about nodes without labels -/

/-- The labels of new nodes, and the ones they stand for. -/
def Named (gen : Nat → Str) (σ : Str → Str) (n : Nat) (τ : List Str) : Prop :=
  ∀ i b, τ[i]? = some b → σ (gen (n + i)) = b

theorem Named.left {gen : Nat → Str} {σ : Str → Str} {n : Nat} {τ υ : List Str} (h : Named gen σ n (τ ++ υ)) :
    Named gen σ n τ := fun i b hb => h i b (by rw [List.getElem?_append_left (List.getElem?_eq_some_iff.1 hb).1]; exact hb)

theorem Named.right {gen : Nat → Str} {σ : Str → Str} {n : Nat} {τ υ : List Str} (h : Named gen σ n (τ ++ υ)) :
    Named gen σ (n + τ.length) υ := fun i b hb => by
  rw [Nat.add_assoc]
  exact h _ b (by rw [List.getElem?_append_right (by omega)]; simpa using hb)

theorem Named.head {gen : Nat → Str} {σ : Str → Str} {n : Nat} {b : Str} {τ : List Str}
    (h : Named gen σ n (b :: τ)) : σ (gen n) = b := h 0 b rfl

theorem Named.tail {gen : Nat → Str} {σ : Str → Str} {n : Nat} {b : Str} {τ : List Str}
    (h : Named gen σ n (b :: τ)) : Named gen σ (n + 1) τ := fun i c hc => by
  rw [Nat.add_assoc, Nat.add_comm 1]
  exact h (i + 1) c (by simpa using hc)

/-- What is said of a node, with the labels of the graph. -/
def about (σ : Str → Str) (T : List Stmt) (x : Subject) : List (Iri × Object) :=
  (T.filter fun t => t.subject == x).map fun t => (t.predicate, relabelObject σ t.object)

theorem about_append (σ : Str → Str) (T U : List Stmt) (x : Subject) : about σ (T ++ U) x = about σ T x ++ about σ U x := by
  simp [about]

/-- The statements of a part of a document in which the new nodes `n`, …, `m - 1` are described, each in full, and of
other nodes the pairs `ps`. -/
structure Told (gen : Nat → Str) (L : List Stmt) (n m : Nat) (τ : List Str) (ps : Subject → List (Iri × Object))
    (T : List Stmt) : Prop where
  len : m = n + τ.length
  object : ∀ t ∈ T, ∀ c, t.object = .blank c → ∃ k, n ≤ k ∧ k < m ∧ c = gen k
  parent : ∀ k, n ≤ k → k < m → ∃ t ∈ T, t.object = .blank (gen k) ∧ ∀ j, n ≤ j → t.subject = .blank (gen j) → j < k
  once : ∀ t ∈ T, ∀ t' ∈ T, ∀ k, t.object = .blank (gen k) → t'.object = .blank (gen k) → t = t'
  other : ∀ σ, Named gen σ n τ → ∀ x, (∀ k, n ≤ k → k < m → x ≠ .blank (gen k)) → about σ T x = ps x
  new : ∀ σ, Named gen σ n τ → ∀ k, n ≤ k → k < m → (about σ T (.blank (gen k))).Nodup ∧
    ∀ p o, (p, o) ∈ about σ T (.blank (gen k)) ↔ Stmt.mk (.blank (σ (gen k))) p o ∈ L

/-- Pairs about one node. -/
def only (x : Subject) (l : List (Iri × Object)) (y : Subject) : List (Iri × Object) := if y = x then l else []

theorem told_nil {gen : Nat → Str} {L : List Stmt} {n : Nat} : Told gen L n n [] (fun _ => []) [] where
  len := rfl
  object := by simp
  parent := fun k h1 h2 => by omega
  once := by simp
  other := fun _ _ _ _ => rfl
  new := fun _ _ k h1 h2 => by omega

theorem Told.congr {gen : Nat → Str} {L : List Stmt} {n m : Nat} {τ : List Str} {ps qs : Subject → List (Iri × Object)}
    {T : List Stmt} (h : Told gen L n m τ ps T) (e : ∀ x, ps x = qs x) : Told gen L n m τ qs T := by
  rw [← funext e]; exact h

theorem Told.append {gen : Nat → Str} (hg : ∀ i j, gen i = gen j → i = j) {L : List Stmt} {n m k : Nat} {τ υ : List Str}
    {ps qs : Subject → List (Iri × Object)} {T U : List Stmt} (h : Told gen L n m τ ps T) (h' : Told gen L m k υ qs U)
    (hp : ∀ j, n ≤ j → ps (.blank (gen j)) = []) (hq : ∀ j, n ≤ j → qs (.blank (gen j)) = []) :
    Told gen L n k (τ ++ υ) (fun x => ps x ++ qs x) (T ++ U) := by
  have h1 := h.len
  have h2 := h'.len
  subst h1
  constructor
  · rw [h2]; simp; omega
  · intro t ht c hc
    rcases List.mem_append.1 ht with ht | ht
    · obtain ⟨j, a, b, e⟩ := h.object t ht c hc
      exact ⟨j, a, by omega, e⟩
    · obtain ⟨j, a, b, e⟩ := h'.object t ht c hc
      exact ⟨j, by omega, b, e⟩
  · intro j hj hj'
    by_cases hc : j < n + τ.length
    · obtain ⟨t, ht, ho, hs⟩ := h.parent j hj hc
      exact ⟨t, List.mem_append_left _ ht, ho, hs⟩
    · obtain ⟨t, ht, ho, hs⟩ := h'.parent j (by omega) hj'
      refine ⟨t, List.mem_append_right _ ht, ho, fun i hi e => ?_⟩
      by_cases hi' : n + τ.length ≤ i
      · exact hs i hi' e
      · omega
  · intro t ht t' ht' j e e'
    rcases List.mem_append.1 ht with ht | ht <;> rcases List.mem_append.1 ht' with ht' | ht'
    · exact h.once t ht t' ht' j e e'
    · obtain ⟨a, a1, a2, a3⟩ := h.object t ht _ e
      obtain ⟨b, b1, b2, b3⟩ := h'.object t' ht' _ e'
      have := hg _ _ (a3.symm.trans b3)
      omega
    · obtain ⟨a, a1, a2, a3⟩ := h'.object t ht _ e
      obtain ⟨b, b1, b2, b3⟩ := h.object t' ht' _ e'
      have := hg _ _ (a3.symm.trans b3)
      omega
    · exact h'.once t ht t' ht' j e e'
  · intro σ hσ x hx
    rw [about_append, h.other σ hσ.left x fun j a b => hx j a (by omega),
      h'.other σ hσ.right x fun j a b => hx j (by omega) b]
  · intro σ hσ j hj hj'
    by_cases hc : j < n + τ.length
    · have e : about σ U (.blank (gen j)) = [] := by
        rw [h'.other σ hσ.right, hq j hj]
        intro i a b e
        simp only [Subject.blank.injEq] at e
        have := hg _ _ e
        omega
      rw [about_append, e, List.append_nil]
      exact h.new σ hσ.left j hj hc
    · have e : about σ T (.blank (gen j)) = [] := by
        rw [h.other σ hσ.left, hp j hj]
        intro i a b e
        simp only [Subject.blank.injEq] at e
        have := hg _ _ e
        omega
      rw [about_append, e, List.nil_append]
      exact h'.new σ hσ.right j (by omega) hj'

theorem told_leaf {gen : Nat → Str} {L : List Stmt} {n : Nat} {x : Subject} {p : Iri} {o : Object}
    (ho : ∀ b, o ≠ .blank b) : Told gen L n n [] (only x [(p, o)]) [.mk x p o] where
  len := rfl
  object := by
    intro t ht c hc
    rw [List.mem_singleton.1 ht] at hc
    exact absurd hc (ho c)
  parent := fun k h1 h2 => by omega
  once := by
    intro t ht t' ht' k _ _
    rw [List.mem_singleton.1 ht, List.mem_singleton.1 ht']
  other := by
    intro σ _ y _
    have : relabelObject σ o = o := by
      cases o with
      | blank b => exact absurd rfl (ho b)
      | _ => rfl
    unfold about only
    by_cases h : y = x
    · subst h; simp [Stmt.subject, Stmt.predicate, Stmt.object, this]
    · have : (x == y) = false := by simpa using fun e : x = y => h e.symm
      simp [Stmt.subject, h, this]
  new := fun _ _ k h1 h2 => by omega

theorem told_node {gen : Nat → Str} (hg : ∀ i j, gen i = gen j → i = j) {L : List Stmt} {n m : Nat} {τ : List Str}
    {x : Subject} {p : Iri} {b : Str} {l : List (Iri × Object)} {T : List Stmt}
    (h : Told gen L (n + 1) m τ (only (.blank (gen n)) l) T) (hl : l.Nodup)
    (hL : ∀ p o, (p, o) ∈ l ↔ Stmt.mk (.blank b) p o ∈ L) (hx : ∀ j, n ≤ j → x ≠ .blank (gen j)) :
    Told gen L n m (b :: τ) (only x [(p, .blank b)]) (.mk x p (.blank (gen n)) :: T) := by
  have hlen := h.len
  have hcons : ∀ σ y, about σ (.mk x p (.blank (gen n)) :: T) y =
      (if y = x then [(p, Object.blank (σ (gen n)))] else []) ++ about σ T y := by
    intro σ y
    by_cases e : y = x
    · subst e; simp [about, Stmt.subject, Stmt.predicate, Stmt.object, relabelObject]
    · have : (x == y) = false := by simpa using fun e' : x = y => e e'.symm
      simp [about, Stmt.subject, e, this]
  constructor
  · rw [hlen]; simp; omega
  · intro t ht c hc
    rcases List.mem_cons.1 ht with rfl | ht
    · simp only [Stmt.object, Object.blank.injEq] at hc
      exact ⟨n, by omega, by omega, hc.symm⟩
    · obtain ⟨j, a, b, e⟩ := h.object t ht c hc
      exact ⟨j, by omega, b, e⟩
  · intro j hj hj'
    by_cases e : j = n
    · subst e
      exact ⟨_, List.mem_cons_self .., rfl, fun i hi e => absurd e (hx i hi)⟩
    · obtain ⟨t, ht, ho, hs⟩ := h.parent j (by omega) hj'
      refine ⟨t, List.mem_cons_of_mem _ ht, ho, fun i hi e' => ?_⟩
      by_cases hi' : i = n
      · omega
      · exact hs i (by omega) e'
  · intro t ht t' ht' j e e'
    have key : ∀ t ∈ T, t.object = .blank (gen j) → j ≠ n := fun t ht e => by
      obtain ⟨a, a1, a2, a3⟩ := h.object t ht _ e
      have := hg _ _ a3
      omega
    rcases List.mem_cons.1 ht with rfl | ht <;> rcases List.mem_cons.1 ht' with rfl | ht'
    · rfl
    · simp only [Stmt.object, Object.blank.injEq] at e
      exact absurd (hg _ _ e).symm (key t' ht' e')
    · simp only [Stmt.object, Object.blank.injEq] at e'
      exact absurd (hg _ _ e').symm (key t ht e)
    · exact h.once t ht t' ht' j e e'
  · intro σ hσ y hy
    have hb := hσ.head
    rw [hcons, h.other σ hσ.tail y fun k a b => hy k (by omega) b]
    have : y ≠ .blank (gen n) := hy n (by omega) (by omega)
    simp only [only, this, if_false, List.append_nil, hb]
  · intro σ hσ j hj hj'
    have hb := hσ.head
    rw [hcons, if_neg (fun e => hx j hj e.symm), List.nil_append]
    by_cases e : j = n
    · subst e
      rw [h.other σ hσ.tail _ fun k a b e => by
        simp only [Subject.blank.injEq] at e
        have := hg _ _ e
        omega]
      simp only [only, if_true]
      rw [hb]
      exact ⟨hl, hL⟩
    · exact h.new σ hσ.tail j (by omega) hj'

theorem only_append (x : Subject) (a b : List (Iri × Object)) (y : Subject) :
    only x a y ++ only x b y = only x (a ++ b) y := by
  unfold only; split <;> rfl

theorem only_new {gen : Nat → Str} {n : Nat} {x : Subject} (hx : ∀ j, n ≤ j → x ≠ .blank (gen j))
    (l : List (Iri × Object)) (j : Nat) (hj : n ≤ j) : only x l (.blank (gen j)) = [] :=
  if_neg fun e => hx j hj e.symm

/-! ### What is written and what it says -/

/-- RDF has its prefix inside the open elements. -/
def RdfInScope (stack : List Open) : Prop := (scopeOf stack).find (str! "rdf") = some rdfNs

/-- The node of a node element, nested or not. -/
def nodeFor (gen : Nat → Str) (n : Nat) : Subject → Subject
  | .blank _ => .blank (gen n)
  | s => s

/-- The first new node inside a node element. -/
def nextNode (n : Nat) : Subject → Nat
  | .blank _ => n + 1
  | _ => n

/-- The pairs of a subject in the order they are visited. -/
def pairsOf (o : Orders) (g : Graph) (s : Subject) (ps : List Iri) : List (Iri × Object) :=
  ps.flatMap fun p => (o.obj s p (g.objectsFor s p)).map fun x => (p, x)

/-- All pairs of a subject. -/
def allPairs (o : Orders) (g : Graph) (s : Subject) : List (Iri × Object) := pairsOf o g s (o.pred s (g.predicatesFor s))

theorem mem_allPairs {o : Orders} (hf : o.Fair) {g : Graph} {s : Subject} {p : Iri} {x : Object} :
    (p, x) ∈ allPairs o g s ↔ Stmt.mk s p x ∈ g.stmts := by
  unfold allPairs pairsOf
  simp only [List.mem_flatMap, List.mem_map, Prod.mk.injEq]
  constructor
  · rintro ⟨q, -, y, hy, rfl, rfl⟩
    exact xml_objectsFor.1 ((hf.2.2 s _ _).mem_iff.1 hy)
  · intro h
    exact ⟨p, (hf.2.1 s _).mem_iff.2 (xml_predicatesFor.2 ⟨x, h⟩), x, (hf.2.2 s p _).mem_iff.2 (xml_objectsFor.2 h), rfl, rfl⟩

theorem nodup_allPairs {o : Orders} (hf : o.Fair) {g : Graph} {s : Subject} : (allPairs o g s).Nodup := by
  have hp := C29_projections g
  unfold allPairs pairsOf List.Nodup
  rw [List.pairwise_flatMap]
  constructor
  · intro p _
    rw [List.pairwise_map]
    refine ((hf.2.2 s p _).nodup_iff.2 (setOf_nodup _)).imp ?_
    intro a b hab e
    simp only [Prod.mk.injEq, true_and] at e
    exact hab e
  · refine ((hf.2.1 s _).nodup_iff.2 (setOf_nodup _)).imp ?_
    intro a b hab x hx y hy e
    obtain ⟨_, _, rfl⟩ := List.mem_map.1 hx
    obtain ⟨_, _, rfl⟩ := List.mem_map.1 hy
    simp only [Prod.mk.injEq] at e
    exact hab e.1

/-- A node element is found as events that say what is known of the node. -/
def NodeSaid (o : Orders) (g : Graph) (s : Subject) (es : List XmlOut) : Prop :=
  ∃ ins, (∀ stack, RdfInScope stack → Delivers stack es ins) ∧
    ∀ gen : Nat → Str, (∀ i j, gen i = gen j → i = j) → ∀ n, ∃ m τ T,
      NodeElt gen ⟨none, none⟩ n ins (nodeFor gen n s) m T ∧
      Told gen g.stmts (nextNode n s) m τ (only (nodeFor gen n s) (allPairs o g s)) T

/-- Property elements are found as events that say some pairs. -/
def PropsSaid (g : Graph) (l : List (Iri × Object)) (es : List XmlOut) : Prop :=
  ∃ ins, (∀ stack, RdfInScope stack → Delivers stack es ins) ∧
    ∀ gen : Nat → Str, (∀ i j, gen i = gen j → i = j) → ∀ n x, (∀ j, n ≤ j → x ≠ .blank (gen j)) → ∃ m τ T,
      (∀ b k U, PropList gen ⟨none, none⟩ x m b k U → PropList gen ⟨none, none⟩ x n (ins ++ b) k (T ++ U)) ∧
      Told gen g.stmts n m τ (only x l) T


theorem propsSaid_nil (g : Graph) : PropsSaid g [] [] :=
  ⟨[], fun stack _ => Delivers.nil stack, fun _ _ n x _ => ⟨n, [], [], fun _ _ _ h => h,
    told_nil.congr fun y => by unfold only; split <;> rfl⟩⟩

theorem PropsSaid.append {g : Graph} {l l' : List (Iri × Object)} {es es' : List XmlOut} (h : PropsSaid g l es)
    (h' : PropsSaid g l' es') : PropsSaid g (l ++ l') (es ++ es') := by
  obtain ⟨i, h1, h2⟩ := h
  obtain ⟨j, h1', h2'⟩ := h'
  refine ⟨i ++ j, fun stack hs => (h1 stack hs).append (h1' stack hs), fun gen hg n x hx => ?_⟩
  obtain ⟨m, τ, T, a, b⟩ := h2 gen hg n x hx
  have hle : n ≤ m := by rw [b.len]; omega
  obtain ⟨k, υ, U, a', b'⟩ := h2' gen hg m x fun j hj => hx j (by omega)
  refine ⟨k, τ ++ υ, T ++ U, fun e f V hV => ?_,
    (b.append hg b' (only_new hx _) (only_new hx _)).congr (only_append x l l')⟩
  rw [List.append_assoc, List.append_assoc]
  exact a _ _ _ (a' _ _ _ hV)

/-- One property element. -/
theorem xmlProperty_said {nested : Subject → Run (List XmlOut)} {o : Orders} (hf : o.Fair) {g : Graph} {ns name n' : Str}
    {d : List (Str × Str)} {x : Object} {p : Iri} {es : List XmlOut}
    (hN : ∀ b es, nested (.blank b) = .ok es → NodeSaid o g (.blank b) es)
    (h1 : ∀ sc, elementName (d ++ sc) n' = some ⟨some ns, name⟩) (h2 : d.all declOk = true)
    (h3 : ∀ sc : Scope, sc.find (str! "rdf") = some rdfNs → Scope.find (d ++ sc) (str! "rdf") = some rdfNs)
    (hp : propertyIri ⟨some ns, name⟩ = some p) (hx : XmlObject x)
    (he : xmlProperty .bare false nested n' d x = .ok es) :
    PropsSaid g [(p, x)] (es ++ [.stop n']) := by
  have plain : (∀ b, x ≠ .blank b) → PropsSaid g [(p, x)] (es ++ [.stop n']) := by
    intro hb
    have he' : xmlProperty .bare true nested n' d x = .ok es := by
      cases x with
      | blank b => exact absurd rfl (hb b)
      | _ => exact he
    refine ⟨propIn ⟨some ns, name⟩ x, fun stack hs => xmlProperty_delivers (h1 _) h2 (h3 _ hs) hx he',
      fun gen hg n y hy => ⟨n, [], [.mk y p x], fun b k U hU => ?_, told_leaf hb⟩⟩
    exact .cons (propElt_propIn rfl hp hx) hU
  cases x with
  | blank b =>
    simp only [xmlProperty, Bool.false_eq_true, if_false] at he
    obtain ⟨e, he1, he⟩ := Run.ok_of_bind he
    simp only [Run.ok.injEq] at he
    subst he
    obtain ⟨i, d1, d2⟩ := hN b e he1
    refine ⟨.start ⟨some ns, name⟩ [] :: i ++ [.stop ⟨some ns, name⟩], fun stack hs => ?_, fun gen hg n y hy => ?_⟩
    · exact Delivers.element (h1 _) rfl h2 (by simp) (d1 _ (h3 _ hs))
    · obtain ⟨m, τ, T, a1, a2⟩ := d2 gen hg n
      refine ⟨m, b :: τ, _, fun e k U hU => ?_, told_node hg a2 (nodup_allPairs hf) (fun q z => mem_allPairs hf) hy⟩
      have := PropElt.node (gen := gen) (c := ⟨none, none⟩) (s := y) (n := n) (as := []) (a := []) (b := [])
        (o := .blank (gen n)) hp rfl rfl rfl (by rw [enter_nil]; exact a1)
      simp only [List.append_nil, List.nil_append] at this
      exact .cons (by simpa [nodeOf] using this) hU
  | _ => exact plain (by intro b e; cases e)

theorem xmlObjects_said {nested : Subject → Run (List XmlOut)} {o : Orders} (hf : o.Fair) {g : Graph} {ns name : Str}
    {p : Iri} (hN : ∀ b es, nested (.blank b) = .ok es → NodeSaid o g (.blank b) es)
    (hn : isNcName name = true) (hns : ns ≠ []) (hp : ns.all xmlPlain = true)
    (hpi : propertyIri ⟨some ns, name⟩ = some p) {os : List Object} {es : List XmlOut}
    (hk : xmlPrefix .bare ns = none ∨ os.length ≤ 1) (ho : ∀ o ∈ os, XmlObject o)
    (he : xmlObjects .bare false nested ns name os = .ok es) : PropsSaid g (os.map fun x => (p, x)) es := by
  induction os generalizing es with
  | nil =>
    simp only [xmlObjects, Run.ok.injEq] at he
    subst he
    exact propsSaid_nil g
  | cons x os ih =>
    obtain ⟨e1, hx, he⟩ := Run.ok_of_bind he
    obtain ⟨e2, hy, he⟩ := Run.ok_of_bind he
    simp only [Run.ok.injEq] at he
    subst he
    have hd := xmlProperty_said hf hN (fun sc => (xmlElement_name sc hn hns hp).1) (xmlElement_name [] hn hns hp).2
      (fun sc h => xmlElement_rdf h) hpi (ho x (List.mem_cons_self ..)) hx
    have e : e1 ++ XmlOut.stop (xmlElement .bare ns name).1 :: e2 =
        (e1 ++ [XmlOut.stop (xmlElement .bare ns name).1]) ++ e2 := by simp
    rw [e, List.map_cons]
    refine PropsSaid.append (l := [(p, x)]) hd ?_
    rcases hk with hk | hk
    · have e3 : (xmlElement .bare ns name).1 = name := by simp [xmlElement, hk]
      rw [e3] at hy
      exact ih (.inl hk) (fun o h => ho o (List.mem_cons_of_mem _ h)) hy
    · have : os = [] := by
        cases os with
        | nil => rfl
        | cons _ _ => simp at hk
      subst this
      simp only [xmlObjects, Run.ok.injEq] at hy
      subst hy
      exact propsSaid_nil g

theorem xmlPredicates_said {nested : Subject → Run (List XmlOut)} {o : Orders}
    (hf : o.Fair) {g : Graph} (hg : XmlGraph o g)
    (hN : ∀ b es, nested (.blank b) = .ok es → NodeSaid o g (.blank b) es) {s : Subject} {ps : List Iri}
    (hps : ∀ p ∈ ps, p ∈ g.predicatesFor s) {es : List XmlOut}
    (he : xmlPredicates .bare false o g nested s ps = .ok es) : PropsSaid g (pairsOf o g s ps) es := by
  induction ps generalizing es with
  | nil =>
    simp only [xmlPredicates, Run.ok.injEq] at he
    subst he
    exact propsSaid_nil g
  | cons p ps ih =>
    obtain ⟨x, hx⟩ := xml_predicatesFor.1 (hps p (List.mem_cons_self ..))
    obtain ⟨ns, name, h0, h1, h2, h3, h4, h5, h6⟩ := xmlProperty_names (hg.stmts _ hx).2.1
    simp only [xmlPredicates, Stmt.predicate] at he h1
    rw [h1] at he
    dsimp only at he
    obtain ⟨e1, hy, he⟩ := Run.ok_of_bind he
    obtain ⟨e2, hz, he⟩ := Run.ok_of_bind he
    simp only [Run.ok.injEq] at he
    subst he
    unfold pairsOf
    rw [List.flatMap_cons]
    refine PropsSaid.append ?_ (ih (fun p h => hps p (List.mem_cons_of_mem _ h)) hz)
    refine xmlObjects_said hf hN h2 h3 h4 h6 ?_ ?_ hy
    · cases hm : xmlPrefix .bare ns with
      | none => exact .inl rfl
      | some q => exact .inr (hg.single s p ⟨ns, name, h0, (mappings_ok _ (xmlPrefix_mem hm)).2.2.1⟩)
    · intro y hy
      have := xml_objectsFor.1 ((hf.2.2 s p _).mem_iff.1 hy)
      exact xmlObject_of (hg.stmts _ this)

/-- A node element for an IRI or for a nested blank node. -/
theorem xmlSubject_said {o : Orders} (hf : o.Fair) {g : Graph} (hg : XmlGraph o g) {d : Nat} {s : Subject}
    (hs : ∀ i, s = .res i → XmlIri i) {es : List XmlOut} (he : xmlSubject .bare false o g d s = .ok es) :
    NodeSaid o g s es := by
  induction d generalizing s es with
  | zero => cases he
  | succ d ih =>
    obtain ⟨h, h1, he⟩ := Run.ok_of_bind he
    obtain ⟨b, h2, he⟩ := Run.ok_of_bind he
    simp only [Run.ok.injEq] at he
    subst he
    obtain ⟨i, d1, d2⟩ := xmlPredicates_said hf hg (fun b es h => ih (by intro i e; cases e) h)
      (fun p hp => ((hf.2.1 s _).mem_iff).1 hp) h2
    have hname : (nameIri (rdfX (str! "Description"))).isSome = true := by decide +kernel
    have ht : ∀ s, typeStmts (rdfX (str! "Description")) s = [] := fun s => by simp [typeStmts]
    cases s with
    | res j =>
      have hj := hs j rfl
      simp only [xmlHead, Run.ok.injEq] at h1
      subst h1
      refine ⟨.start (rdfX (str! "Description")) [⟨rdfX (str! "about"), j.text⟩] :: i ++ [.stop (rdfX (str! "Description"))],
        fun stack hr => ?_, fun gen hgen n => ?_⟩
      · refine Delivers.element (ns := []) (elementName_rdf hr (by decide +kernel)) ?_ rfl ?_ (d1 _ hr)
        · have : attributeName ([] ++ scopeOf stack) (rdfName (str! "about")) = some (rdfX (str! "about")) :=
            attributeName_rdf hr (by decide +kernel)
          simp only [attributesIn, this, hj.1, if_true]
        · simp
      · obtain ⟨m, τ, T, a1, a2⟩ := d2 gen hgen n (.res j) (by intro _ _ e; cases e)
        refine ⟨m, τ, T, ?_, a2⟩
        have hent : XmlScope.enter ⟨none, none⟩ [⟨rdfX (str! "about"), j.text⟩] = ⟨none, none⟩ := by
          have e1 : (rdfX (str! "about") == xmlX (str! "lang")) = false := by decide +kernel
          have e2 : (rdfX (str! "about") == xmlX (str! "base")) = false := by decide +kernel
          simp [XmlScope.enter, attr, List.find?, e1, e2]
        have := NodeElt.mk (gen := gen) (c := ⟨none, none⟩) (n := n) (as := [⟨rdfX (str! "about"), j.text⟩]) (ps := [])
          (ts := []) hname (n' := n) (s := .res j) ?_ .nil
          (by rw [hent]; have := a1 [] m [] .nil; simpa using this)
        · rw [ht, List.nil_append, List.nil_append] at this
          exact this
        · have h : [] = [(⟨rdfX (str! "about"), j.text⟩ : XAttr)].filter fun a => !isXmlAttr a && a.name != rdfX (str! "about") := by
            simp
          rw [h]
          exact SubjectOf.about (v := j.text) (i := j.text) (by simp [attr]) (xml_iriValue hj.2)
    | blank c =>
      simp only [xmlHead, Bool.false_eq_true, if_false, Run.ok.injEq] at h1
      subst h1
      refine ⟨.start (rdfX (str! "Description")) [] :: i ++ [.stop (rdfX (str! "Description"))],
        fun stack hr => ?_, fun gen hgen n => ?_⟩
      · exact Delivers.element (ns := []) (elementName_rdf hr (by decide +kernel)) rfl rfl (by simp) (d1 _ hr)
      · obtain ⟨m, τ, T, a1, a2⟩ := d2 gen hgen (n + 1) (.blank (gen n)) (by
          intro j hj e
          simp only [Subject.blank.injEq] at e
          have := hgen _ _ e
          omega)
        refine ⟨m, τ, T, ?_, a2⟩
        have := NodeElt.mk (gen := gen) (c := ⟨none, none⟩) (n := n) (as := []) (ps := [])
          (ts := []) hname (n' := n + 1) (s := .blank (gen n)) .none .nil
          (by rw [enter_nil]; have := a1 [] m [] .nil; simpa using this)
        rw [ht, List.nil_append, List.nil_append] at this
        exact this
    | stmt t => cases h1

/-! ### The document -/

/-- The pairs of some subjects. -/
def rootPairs (o : Orders) (g : Graph) (ss : List Subject) (x : Subject) : List (Iri × Object) :=
  if x ∈ ss then allPairs o g x else []

theorem xmlSubjects_said {o : Orders} (hf : o.Fair) {g : Graph} (hg : XmlGraph o g) {d : Nat} {ss : List Subject}
    (hs : ∀ s ∈ ss, ∃ i, s = .res i ∧ XmlIri i) (hn : ss.Nodup) {es : List XmlOut}
    (he : xmlSubjects (xmlSubject .bare false o g d) ss = .ok es) :
    ∃ ins, (∀ stack, RdfInScope stack → Delivers stack es ins) ∧
      ∀ gen : Nat → Str, (∀ i j, gen i = gen j → i = j) → ∀ n, ∃ m τ T,
        NodeList gen ⟨none, none⟩ n ins m T ∧ Told gen g.stmts n m τ (rootPairs o g ss) T := by
  induction ss generalizing es with
  | nil =>
    simp only [xmlSubjects, Run.ok.injEq] at he
    subst he
    exact ⟨[], fun stack _ => Delivers.nil stack, fun gen _ n => ⟨n, [], [], .nil, told_nil.congr fun x => by
      simp [rootPairs]⟩⟩
  | cons s ss ih =>
    obtain ⟨a, h1, he⟩ := Run.ok_of_bind he
    obtain ⟨b, h2, he⟩ := Run.ok_of_bind he
    simp only [Run.ok.injEq] at he
    subst he
    obtain ⟨n1, n2⟩ := List.nodup_cons.1 hn
    obtain ⟨i, rfl, hi⟩ := hs s (List.mem_cons_self ..)
    obtain ⟨ins, d1, d2⟩ := xmlSubject_said hf hg (by intro j e; cases e; exact hi) h1
    obtain ⟨ins', d1', d2'⟩ := ih (fun s h => hs s (List.mem_cons_of_mem _ h)) n2 h2
    refine ⟨ins ++ ins', fun stack hr => (d1 stack hr).append (d1' stack hr), fun gen hgen n => ?_⟩
    obtain ⟨m, τ, T, a1, a2⟩ := d2 gen hgen n
    obtain ⟨k, υ, U, b1, b2⟩ := d2' gen hgen m
    refine ⟨k, τ ++ υ, T ++ U, .cons a1 b1, (a2.append hgen b2 ?_ ?_).congr ?_⟩
    · intro j _; exact if_neg (by intro e; cases e)
    · intro j _
      refine if_neg fun h => ?_
      obtain ⟨i, e, -⟩ := hs _ (List.mem_cons_of_mem _ h)
      cases e
    · intro x
      simp only [only, nodeFor, rootPairs, List.mem_cons]
      by_cases e : x = .res i
      · subst e; simp [n1]
      · simp [e]

theorem writeXml_said {gen : Nat → Str} {n : Nat} {enc : Str} {o : Orders} (hf : o.Fair) {d : Nat}
    {g : Graph} (hg : XmlGraph o (g.simplify gen n).1) {es : List XmlOut}
    (he : writeXml gen n .bare false enc o d g = .ok es) :
    ∃ ins, deliver es = some ins ∧
      ∀ gen' : Nat → Str, (∀ i j, gen' i = gen' j → i = j) → ∀ k, ∃ m τ T, RdfXml gen' k ins T ∧
        Told gen' (g.simplify gen n).1.stmts k m τ
          (fun x => if x.isResource = true then allPairs o (g.simplify gen n).1 x else []) T := by
  obtain ⟨b, h1, he⟩ := Run.ok_of_bind he
  simp only [Run.ok.injEq] at he
  subst he
  obtain ⟨ins, d1, d2⟩ := xmlSubjects_said hf hg (by
    intro s hs
    obtain ⟨hs1, hs2⟩ := List.mem_filter.1 hs
    obtain ⟨st, hst, rfl⟩ := xml_subjects.1 ((hf.1 _).mem_iff.1 hs1)
    have := (hg.stmts st hst).1
    cases e : st.subject with
    | res i => rw [e] at this; exact ⟨i, rfl, this⟩
    | _ => rw [e] at hs2; cases hs2) (((hf.1 _).nodup_iff.2 (setOf_nodup _)).filter _) h1
  refine ⟨.other :: .start (rdfX (str! "RDF")) [] :: ins ++ [.stop (rdfX (str! "RDF"))], ?_, fun gen' hgen k => ?_⟩
  · refine deliver_of (ins := .start (rdfX (str! "RDF")) [] :: ins ++ [.stop (rdfX (str! "RDF"))]) ?_
    rw [rdfTable_ns, rdfTable_pfx]
    have hr : Scope.find [(str! "rdf", rdfNs)] (str! "rdf") = some rdfNs := find_cons_self ..
    exact Delivers.element (elementName_rdf hr (by decide +kernel)) rfl (by decide +kernel) (by simp) (d1 _ hr)
  · obtain ⟨m, τ, T, a1, a2⟩ := d2 gen' hgen k
    refine ⟨m, τ, T, ⟨[.other], [], [], ins, m, by simp, rfl, rfl, rfl, by rw [enter_nil]; exact a1⟩, a2.congr fun x => ?_⟩
    unfold rootPairs
    by_cases hx : x.isResource = true
    · rw [if_pos hx]
      split
      · rfl
      · rename_i h
        symm
        rw [List.eq_nil_iff_forall_not_mem]
        rintro ⟨p, y⟩ hp
        refine h (List.mem_filter.2 ⟨(hf.1 _).mem_iff.2 (xml_subjects.2 ⟨_, (mem_allPairs hf).1 hp, rfl⟩), by simp [hx]⟩)
    · rw [if_neg hx, if_neg]
      intro h
      have := (List.mem_filter.1 h).2
      simp [hx] at this

/-! ### From the new labels to those of the graph and back -/

theorem named_exists {gen : Nat → Str} (hg : ∀ i j, gen i = gen j → i = j) (n : Nat) (τ : List Str) :
    ∃ σ, Named gen σ n τ := by
  classical
  refine ⟨fun c => if h : ∃ i, c = gen (n + i) then (τ[Classical.choose h]?).getD [] else [], fun i b hb => ?_⟩
  have h : ∃ j, gen (n + i) = gen (n + j) := ⟨i, rfl⟩
  have e := hg _ _ (Classical.choose_spec h)
  have e' : Classical.choose h = i := by omega
  simp only [dif_pos h, e', hb, Option.getD_some]

/-- A node that statements about IRIs lead to. -/
inductive Reached (L : List Stmt) : Subject → Prop
  | iri (i : Iri) : Reached L (.res i)
  | step {s : Subject} {p : Iri} {b : Str} : Reached L s → Stmt.mk s p (.blank b) ∈ L → Reached L (.blank b)

/-- A statement with other labels. -/
def relabelStmt (f : Str → Str) (t : Stmt) : Stmt := .mk (relabelSubject f t.subject) t.predicate (relabelObject f t.object)

theorem mem_about {σ : Str → Str} {T : List Stmt} {x : Subject} {p : Iri} {o : Object} :
    (p, o) ∈ about σ T x ↔ ∃ y, Stmt.mk x p y ∈ T ∧ relabelObject σ y = o := by
  simp only [about, List.mem_map, List.mem_filter, beq_iff_eq, Prod.mk.injEq]
  constructor
  · rintro ⟨⟨s, q, y⟩, ⟨h, rfl⟩, rfl, rfl⟩; exact ⟨y, h, rfl⟩
  · rintro ⟨y, h, rfl⟩; exact ⟨_, ⟨h, rfl⟩, rfl, rfl⟩

theorem relabelObject_blank {σ : Str → Str} {y : Object} {b : Str} (h : relabelObject σ y = .blank b) :
    ∃ c, y = .blank c ∧ σ c = b := by
  cases y with
  | blank c => simp only [relabelObject, Object.blank.injEq] at h; exact ⟨c, rfl, h⟩
  | _ => cases h

/-- What is told of all IRIs and of what they lead to. -/
structure ToldAll (gen : Nat → Str) (σ : Str → Str) (L : List Stmt) (n m : Nat) (T : List Stmt) : Prop where
  object : ∀ t ∈ T, ∀ c, t.object = .blank c → ∃ k, n ≤ k ∧ k < m ∧ c = gen k
  parent : ∀ k, n ≤ k → k < m → ∃ t ∈ T, t.object = .blank (gen k) ∧ ∀ j, n ≤ j → t.subject = .blank (gen j) → j < k
  once : ∀ t ∈ T, ∀ t' ∈ T, ∀ k, t.object = .blank (gen k) → t'.object = .blank (gen k) → t = t'
  subject : ∀ t ∈ T, (∃ i, t.subject = .res i) ∨ ∃ k, n ≤ k ∧ k < m ∧ t.subject = .blank (gen k)
  inj : ∀ x p y y', Stmt.mk x p y ∈ T → Stmt.mk x p y' ∈ T → relabelObject σ y = relabelObject σ y' → y = y'
  tells : ∀ x, ((∃ i, x = .res i) ∨ ∃ k, n ≤ k ∧ k < m ∧ x = .blank (gen k)) → ∀ p o,
    (∃ y, Stmt.mk x p y ∈ T ∧ relabelObject σ y = o) ↔ Stmt.mk (relabelSubject σ x) p o ∈ L

theorem nodup_filter_inj {α β : Type _} {l : List α} {f : α → β} {q : α → Bool} (h : ((l.filter q).map f).Nodup) {a b : α}
    (ha : a ∈ l) (hb : b ∈ l) (qa : q a = true) (qb : q b = true) (e : f a = f b) : a = b := by
  have ha' := List.mem_filter.2 ⟨ha, qa⟩
  have hb' := List.mem_filter.2 ⟨hb, qb⟩
  generalize l.filter q = k at h ha' hb'
  induction k with
  | nil => simp at ha'
  | cons x k ih =>
    rw [List.map_cons, List.nodup_cons] at h
    obtain ⟨h1, h2⟩ := h
    rcases List.mem_cons.1 ha' with rfl | ha2 <;> rcases List.mem_cons.1 hb' with rfl | hb2
    · rfl
    · exact absurd (List.mem_map.2 ⟨b, hb2, e.symm⟩) h1
    · exact absurd (List.mem_map.2 ⟨a, ha2, e⟩) h1
    · exact ih h2 ha2 hb2

theorem Told.whole {gen : Nat → Str} {g : Graph} {o : Orders} (hf : o.Fair) {n m : Nat} {τ : List Str} {T : List Stmt}
    (h : Told gen g.stmts n m τ (fun x => if x.isResource = true then allPairs o g x else []) T) {σ : Str → Str}
    (hσ : Named gen σ n τ) : ToldAll gen σ g.stmts n m T := by
  have sub : ∀ t ∈ T, (∃ i, t.subject = .res i) ∨ ∃ k, n ≤ k ∧ k < m ∧ t.subject = .blank (gen k) := by
    intro t ht
    by_cases hk : ∃ k, n ≤ k ∧ k < m ∧ t.subject = .blank (gen k)
    · exact .inr hk
    · left
      have := h.other σ hσ t.subject fun k a b e => hk ⟨k, a, b, e⟩
      obtain ⟨s, p, y⟩ := t
      have hm : (p, relabelObject σ y) ∈ about σ T s := mem_about.2 ⟨y, ht, rfl⟩
      simp only [Stmt.subject] at this
      rw [this] at hm
      cases s with
      | res i => exact ⟨i, rfl⟩
      | _ => simp [Subject.isResource] at hm
  have key : ∀ x, ((∃ i, x = .res i) ∨ ∃ k, n ≤ k ∧ k < m ∧ x = .blank (gen k)) → (about σ T x).Nodup ∧
      ∀ p o, (p, o) ∈ about σ T x ↔ Stmt.mk (relabelSubject σ x) p o ∈ g.stmts := by
    rintro x (⟨i, rfl⟩ | ⟨k, h1, h2, rfl⟩)
    · rw [h.other σ hσ _ fun k _ _ e => by cases e]
      exact ⟨nodup_allPairs hf, fun p o => mem_allPairs hf⟩
    · exact h.new σ hσ k h1 h2
  refine ⟨h.object, h.parent, h.once, sub, ?_, fun x hx p o => ?_⟩
  · intro x p y y' h1 h2 e
    have := nodup_filter_inj (key x (sub _ h1)).1 h1 h2 (by simp [Stmt.subject]) (by simp [Stmt.subject])
      (by simp [Stmt.predicate, Stmt.object, e])
    injection this
  · rw [← mem_about]
    exact (key x hx).2 p o

section
variable {gen : Nat → Str} {σ : Str → Str} {L : List Stmt} {n m : Nat} {T : List Stmt}

theorem ToldAll.new_reached (h : ToldAll gen σ L n m T) (k : Nat) (h1 : n ≤ k) (h2 : k < m) : Reached T (.blank (gen k)) := by
  induction k using Nat.strongRecOn with
  | _ k ih =>
    obtain ⟨⟨s, p, y⟩, ht, ho, hs⟩ := h.parent k h1 h2
    simp only [Stmt.object, Stmt.subject] at ho hs
    subst ho
    refine .step ?_ ht
    rcases h.subject _ ht with ⟨i, e⟩ | ⟨j, a, b, e⟩
    · simp only [Stmt.subject] at e; subst e; exact .iri i
    · simp only [Stmt.subject] at e; subst e; exact ih j (hs j a rfl) a b

theorem ToldAll.all_reached (h : ToldAll gen σ L n m T) : ∀ t ∈ T, Reached T t.subject := by
  intro t ht
  rcases h.subject t ht with ⟨i, e⟩ | ⟨k, a, b, e⟩
  · rw [e]; exact .iri i
  · rw [e]; exact h.new_reached k a b

theorem ToldAll.label (h : ToldAll gen σ L n m T) {x : Subject} (hx : Reached T x) :
    (∃ i, x = .res i) ∨ ∃ k, n ≤ k ∧ k < m ∧ x = .blank (gen k) := by
  cases hx with
  | iri i => exact .inl ⟨i, rfl⟩
  | step h1 h2 =>
    obtain ⟨k, a, b, e⟩ := h.object _ h2 _ rfl
    exact .inr ⟨k, a, b, by rw [e]⟩

theorem ToldAll.sound (h : ToldAll gen σ L n m T) {t : Stmt} (ht : t ∈ T) : relabelStmt σ t ∈ L := by
  obtain ⟨s, p, y⟩ := t
  exact (h.tells s (h.subject _ ht) p _).1 ⟨y, ht, rfl⟩

theorem ToldAll.image_reached (h : ToldAll gen σ L n m T) {x : Subject} (hx : Reached T x) : Reached L (relabelSubject σ x) := by
  induction hx with
  | iri i => exact .iri i
  | step h1 h2 ih => exact .step ih (h.sound h2)

theorem ToldAll.preimage (h : ToldAll gen σ L n m T) {s : Subject} (hs : Reached L s) :
    ∃ x, Reached T x ∧ relabelSubject σ x = s := by
  induction hs with
  | iri i => exact ⟨.res i, .iri i, rfl⟩
  | step h1 h2 ih =>
    obtain ⟨x, hx, rfl⟩ := ih
    obtain ⟨y, hy, e⟩ := (h.tells x (h.label hx) _ _).2 h2
    obtain ⟨c, rfl, hc⟩ := relabelObject_blank e
    exact ⟨.blank c, .step hx hy, by rw [relabelSubject, hc]⟩

/-- The statements told are those that IRIs lead to. -/
theorem ToldAll.exact (h : ToldAll gen σ L n m T) (y : Stmt) :
    (∃ x ∈ T, relabelStmt σ x = y) ↔ y ∈ L ∧ Reached L y.subject := by
  constructor
  · rintro ⟨x, hx, rfl⟩
    exact ⟨h.sound hx, h.image_reached (h.all_reached x hx)⟩
  · rintro ⟨hy, hr⟩
    obtain ⟨x, hx, e⟩ := h.preimage hr
    obtain ⟨s, p, o⟩ := y
    simp only [Stmt.subject] at e
    subst e
    obtain ⟨z, hz, e⟩ := (h.tells x (h.label hx) p o).2 hy
    exact ⟨_, hz, by simp [relabelStmt, Stmt.subject, Stmt.predicate, Stmt.object, e]⟩

/-- A blank node is the object of at most one statement. -/
def OneParent (L : List Stmt) : Prop :=
  ∀ t ∈ L, ∀ t' ∈ L, ∀ b, t.object = .blank b → t'.object = .blank b → t = t'

theorem ToldAll.oneParent (h : ToldAll gen σ L n m T) : OneParent T := by
  intro t ht t' ht' b e e'
  obtain ⟨k, -, -, rfl⟩ := h.object t ht b e
  exact h.once t ht t' ht' k e e'

/-- When no node has two parents, no two of the new labels stand for one node. -/
theorem ToldAll.injective (h : ToldAll gen σ L n m T) (hL : OneParent L) {x y : Subject} (hx : Reached T x) (hy : Reached T y)
    (e : relabelSubject σ x = relabelSubject σ y) : x = y := by
  induction hx generalizing y with
  | iri i =>
    rcases h.label hy with ⟨j, rfl⟩ | ⟨k, -, -, rfl⟩
    · exact e
    · cases e
  | @step s p b h1 h2 ih =>
    cases hy with
    | iri j => cases e
    | @step s' p' b' h1' h2' =>
      have := hL _ (h.sound h2) _ (h.sound h2') (σ b) rfl (by
        simp only [relabelSubject, Subject.blank.injEq] at e
        simp [relabelStmt, Stmt.object, relabelObject, e])
      simp only [relabelStmt, Stmt.mk.injEq, Stmt.subject, Stmt.predicate, Stmt.object] at this
      obtain ⟨e1, rfl, e3⟩ := this
      obtain rfl := ih h1' e1
      have := h.inj _ _ _ _ h2 h2' e3
      simp only [Object.blank.injEq] at this
      rw [this]

end

end Rdftk
