import Verif.Props.DotLabels

/-! Property C50: exactly which graphs are drawn right. -/

namespace Rdftk

open Spec

/-- What the map of a writer holds: every entry is that of a node of `L` that gets a place, under its display, with
an identifier that may stand in quotes, and no display has two entries. -/
def MapOf (sty : IriStyle) (L : List Object) (m : DotNodes) : Prop :=
  (m.map (·.1)).Nodup ∧
  ∀ e ∈ m, dotSafe e.2.id ∧ ∃ o ∈ L, Drawable o ∧ e.1 = o.display sty false ∧ e.2 = dotEntry sty e.2.id o

theorem MapOf.mono {sty : IriStyle} {L L' : List Object} {m : DotNodes} (h : MapOf sty L m) (hs : ∀ o ∈ L, o ∈ L') :
    MapOf sty L' m :=
  ⟨h.1, fun e he => ⟨(h.2 e he).1, let ⟨o, a, b⟩ := (h.2 e he).2; ⟨o, hs o a, b⟩⟩⟩

theorem dotGet_none {m : DotNodes} {k : Str} (h : dotGet m k = none) : k ∉ m.map (·.1) := by
  intro hm
  obtain ⟨e, he, rfl⟩ := List.mem_map.1 hm
  unfold dotGet at h
  rw [Option.map_eq_none_iff, List.find?_eq_none] at h
  exact h e he (by simp)

theorem dotGet_some {m : DotNodes} {k : Str} {n : DotNode} (h : dotGet m k = some n) : (k, n) ∈ m := by
  unfold dotGet at h
  rw [Option.map_eq_some_iff] at h
  obtain ⟨e, he, rfl⟩ := h
  have h1 := List.find?_some he
  have h2 := List.mem_of_find?_eq_some he
  simp only [beq_iff_eq] at h1
  subst h1
  exact h2

theorem MapOf.objectId {sty : IriStyle} {L : List Object} {m : DotNodes} (h : MapOf sty L m) (o : Object) :
    dotSafe (dotObjectId sty m o).1 ∧ MapOf sty (o :: L) (dotObjectId sty m o).2 := by
  have h' : MapOf sty (o :: L) m := h.mono fun a ha => List.mem_cons_of_mem _ ha
  unfold dotObjectId
  cases hg : dotGet m (o.display sty false) with
  | some n => exact ⟨(h.2 _ (dotGet_some hg)).1, h'⟩
  | none =>
    refine ⟨digits_safe _, ?_⟩
    have add : Drawable o → MapOf sty (o :: L) (m ++ [(o.display sty false, dotEntry sty (dotNextId m) o)]) := by
      intro hd
      refine ⟨?_, ?_⟩
      · rw [List.map_append, List.nodup_append]
        refine ⟨h.1, by simp, ?_⟩
        intro a ha b hb e
        simp only [List.map_cons, List.map_nil, List.mem_singleton] at hb
        subst hb
        exact dotGet_none hg (e ▸ ha)
      · intro e he
        rcases List.mem_append.1 he with he | he
        · exact h'.2 e he
        · rw [List.mem_singleton] at he
          subst he
          refine ⟨by rw [dotEntry_id]; exact digits_safe _, o, by simp, hd, rfl, ?_⟩
          simp only [dotEntry_id]
    cases o with
    | blank b => exact add trivial
    | res i => exact add trivial
    | lit l => exact add trivial
    | coll c => exact h'
    | stmt s => exact h'

theorem MapOf.edges {sty : IriStyle} {opts : DotOptions} {pm : PrefixMap} {sts : List Stmt} {L : List Object}
    {m m' : DotNodes} {text : Str} (h : MapOf sty L m) (hpred : ∀ st ∈ sts, dotSafe (edgeLabel sty pm st.predicate))
    (hr : dotEdges sty opts pm m sts = .ok (text, m')) :
    MapOf sty (L ++ endsOf sts) m' ∧ ∃ es : List DotArrow, es.length = sts.length ∧
      (∀ e ∈ es, dotSafe e.tail ∧ dotSafe e.head ∧ dotSafe e.label) ∧
      text = es.flatMap fun e => dotEdge opts e.tail e.head e.label := by
  induction sts generalizing L m m' text with
  | nil =>
    simp only [dotEdges, Outcome.ok.injEq, Prod.mk.injEq] at hr
    obtain ⟨rfl, rfl⟩ := hr
    exact ⟨h.mono fun o ho => List.mem_append_left _ ho, [], rfl, by simp, rfl⟩
  | cons st sts ih =>
    simp only [dotEdges, dotSubjectId_eq] at hr
    obtain ⟨s1, m1⟩ := h.objectId st.subject.toObject
    obtain ⟨s2, m2⟩ := m1.objectId st.object
    cases hl : dotEdgeLabel sty pm st.predicate with
    | panic => rw [hl] at hr; cases hr
    | ok label =>
      rw [hl] at hr
      dsimp only at hr
      cases hq : dotEdges sty opts pm (dotObjectId sty (dotObjectId sty m st.subject.toObject).2 st.object).2 sts with
      | panic => rw [hq] at hr; cases hr
      | ok r =>
        obtain ⟨t', m3⟩ := r
        rw [hq] at hr
        simp only [Outcome.ok.injEq, Prod.mk.injEq] at hr
        obtain ⟨rfl, rfl⟩ := hr
        obtain ⟨i1, es, i2, i3, rfl⟩ := ih m2 (fun t ht => hpred t (List.mem_cons_of_mem _ ht)) hq
        refine ⟨i1.mono ?_, ⟨_, _, label⟩ :: es, by simp [i2], ?_, rfl⟩
        · intro o ho
          simp only [endsOf, List.mem_append, List.mem_cons, List.flatMap_cons] at ho ⊢
          grind
        · intro e he
          rcases List.mem_cons.1 he with rfl | he
          · refine ⟨s1, s2, ?_⟩
            rw [dotEdgeLabel_eq hl]
            exact hpred st (by simp)
          · exact i3 e he

/-- The number of items that are read from a drawing. -/
theorem writeDot_count {sty : IriStyle} {opts : DotOptions} {ord : DotNodes → DotNodes} {g : Graph} {text : Str}
    {m' : DotNodes} (ho : OptionsSafe opts) (hg : LabelsSafe sty g) (hord : ∀ m, (ord m).Perm m)
    (h : writeDot sty ord opts [] g = .ok (text, m')) :
    MapOf sty (nodesOf g.stmts) m' ∧ ∃ items, readDot text = some items ∧ items.length = g.stmts.length + m'.length := by
  unfold writeDot at h
  cases hr : dotEdges sty opts g.mappings [] g.stmts with
  | panic => rw [hr] at h; cases h
  | ok r =>
    obtain ⟨edges, m2⟩ := r
    rw [hr] at h
    simp only [Outcome.ok.injEq, Prod.mk.injEq] at h
    obtain ⟨rfl, rfl⟩ := h
    have m0 : MapOf sty [] [] := ⟨List.nodup_nil, by simp⟩
    obtain ⟨hm, es, e1, e2, rfl⟩ := m0.edges hg.1 hr
    have hm' : MapOf sty (nodesOf g.stmts) m2 := hm.mono fun o ho => by
      rw [List.nil_append] at ho
      exact mem_setExtend.2 (.inr ho)
    have rd := readDot_lines ho (es := es) (ns := (ord m2).map (·.2)) e2 (by
      intro n hn
      obtain ⟨e, he, rfl⟩ := List.mem_map.1 hn
      obtain ⟨a, o, b, c, d, f⟩ := hm'.2 e ((hord m2).subset he)
      refine ⟨a, ?_⟩
      rw [f]
      intro hb
      cases o with
      | blank b => exact absurd rfl hb
      | res i => exact (hg.2 _ b).1 i rfl
      | lit l => exact (hg.2 _ b).2 l rfl
      | coll c => exact absurd rfl hb
      | stmt s => exact absurd rfl hb)
    rw [List.flatMap_map] at rd
    exact ⟨hm', _, rd, by simp [e1, (hord m2).length_eq]⟩

/-- Elements found in a list by a function that gives as many values as the list has elements. -/
theorem count_all {α β : Type _} {f : α → β} {P : α → Prop} {N : List α} {K : List β} (hK : K.Nodup)
    (hs : ∀ k ∈ K, ∃ a ∈ N, P a ∧ k = f a) (hl : K.length = N.length) :
    (∀ a ∈ N, P a) ∧ (N.Nodup → ∀ a ∈ N, ∀ b ∈ N, f a = f b → a = b) := by
  classical
  have h1 : K ⊆ (N.filter fun a => decide (P a)).map f := by
    intro k hk
    obtain ⟨a, ha, hp, rfl⟩ := hs k hk
    exact List.mem_map.2 ⟨a, List.mem_filter.2 ⟨ha, by simpa using hp⟩, rfl⟩
  have h2 := (hK.subperm h1)
  have h3 := h2.length_le
  rw [List.length_map] at h3
  have h4 : (N.filter fun a => decide (P a)).length ≤ N.length := List.length_filter_le ..
  have h5 : N.filter (fun a => decide (P a)) = N :=
    List.filter_sublist.eq_of_length (by omega)
  refine ⟨?_, ?_⟩
  · intro a ha
    rw [← h5] at ha
    simpa using (List.mem_filter.1 ha).2
  · intro hN a ha b hb e
    rw [h5] at h2
    have h6 : K.Perm (N.map f) := h2.perm_of_length_le (by rw [List.length_map, hl]; exact Nat.le_refl _)
    have h7 : (N.map f).Nodup := h6.nodup_iff.1 hK
    exact List.inj_on_of_nodup_map h7 ha hb e

/-- A drawing with the right number of nodes: every node has a place and no two are displayed alike. -/
theorem draws_only {sty : IriStyle} {opts : DotOptions} {ord : DotNodes → DotNodes} {g : Graph} {text : Str}
    {m' : DotNodes} (ho : OptionsSafe opts) (hg : LabelsSafe sty g) (hord : ∀ m, (ord m).Perm m)
    (h : writeDot sty ord opts [] g = .ok (text, m')) {items : List DotItem} (hr : readDot text = some items)
    (hd : Draws sty opts g items) :
    (∀ o ∈ nodesOf g.stmts, Drawable o) ∧ KeysDiffer sty (nodesOf g.stmts) := by
  obtain ⟨hm, items', h1, h2⟩ := writeDot_count ho hg hord h
  cases hr.symm.trans h1
  obtain ⟨id, _, nodes, drawn, p, f, rfl⟩ := hd
  have hl : (m'.map (·.1)).length = (nodesOf g.stmts).length := by
    rw [List.length_map, ← p.length_eq, f.length_eq]
    simp only [List.length_append, List.length_map] at h2
    omega
  obtain ⟨a, b⟩ := count_all (f := fun o : Object => o.display sty false) (P := Drawable) hm.1 (by
    intro k hk
    obtain ⟨e, he, rfl⟩ := List.mem_map.1 hk
    obtain ⟨_, o, x, y, z, _⟩ := hm.2 e he
    exact ⟨o, x, y, z⟩) hl
  exact ⟨a, b (setExtend_nodup List.nodup_nil)⟩

theorem digits_digit {n : Nat} {c : Char} (h : c ∈ Nat.toDigits 10 n) : c.isDigit = true :=
  Nat.isDigit_of_mem_toDigits (by decide) (by decide) h

/-- The prefix of a right drawing that has an edge. -/
theorem draws_prefix {sty : IriStyle} {opts : DotOptions} {ord : DotNodes → DotNodes} {g : Graph} {text : Str}
    {m' : DotNodes} (ho : OptionsSafe opts) (hg : LabelsSafe sty g) (hord : ∀ m, (ord m).Perm m)
    (h : writeDot sty ord opts [] g = .ok (text, m')) {items : List DotItem} (hr : readDot text = some items)
    (hd : Draws sty opts g items) (hs : g.stmts ≠ []) : opts.nodePrefix = str! "node_" := by
  obtain ⟨d1, d2⟩ := draws_only ho hg hord h hr hd
  obtain ⟨_, nodes, drawn, p, f, e⟩ := writeDot_labels (L := []) ho hord List.nodup_nil hg.1 hg.2 d1 d2 h
  rw [setOf_endsOf] at p f e
  obtain ⟨id, inj, nodes', drawn', p', f', rfl⟩ := hd
  rw [hr, Option.some.injEq] at e
  obtain ⟨e1, e2⟩ := List.append_inj e (by simp)
  generalize hN : nodesOf g.stmts = N at *
  -- the identifiers of subjects, of objects and of all nodes
  have both : ∀ st ∈ g.stmts, id st.subject.toObject = dotIdIn N st.subject.toObject ∧
      opts.nodePrefix ++ id st.object = str! "node_" ++ dotIdIn N st.object := by
    intro st hst
    have := List.map_inj_left.1 e1 st hst
    simp only [edgeItem, DotItem.edge.injEq, List.append_cancel_left_eq] at this
    exact ⟨this.1, this.2.1⟩
  have known : ∀ o ∈ N, ∃ o' ∈ N, id o = dotIdIn N o' := by
    intro o ho
    obtain ⟨it, hit, as, ha, _⟩ : ∃ it ∈ drawn', draws sty opts id o it := by
      obtain ⟨k, hk, hk'⟩ := List.getElem_of_mem (p'.symm.subset ho)
      have hk2 : k < drawn'.length := f'.length_eq ▸ hk
      have hx : draws sty opts id nodes'[k] drawn'[k] := f'.get hk hk2
      exact ⟨drawn'[k], List.getElem_mem _, hk' ▸ hx⟩
    rw [e2] at hit
    obtain ⟨k, hk, hk'⟩ := List.getElem_of_mem hit
    have hk2 : k < nodes.length := f.length_eq ▸ hk
    obtain ⟨bs, hb, _⟩ : draws sty opts (dotIdIn N) nodes[k] drawn[k] := f.get hk2 hk
    rw [hk', ha, DotItem.node.injEq, List.append_cancel_left_eq] at hb
    exact ⟨nodes[k], p.subset (List.getElem_mem _), hb.1⟩
  have ends : ∀ o ∈ N, (∃ st ∈ g.stmts, st.subject.toObject = o) ∨ ∃ st ∈ g.stmts, st.object = o := by
    intro o ho
    rw [← hN] at ho
    rcases mem_setExtend.1 ho with x | x
    · cases x
    · obtain ⟨st, hst, hx⟩ := List.mem_flatMap.1 x
      rcases List.mem_cons.1 hx with rfl | hx
      · exact .inl ⟨st, hst, rfl⟩
      · rw [List.mem_singleton] at hx
        exact .inr ⟨st, hst, hx.symm⟩
  have mem : ∀ st ∈ g.stmts, st.object ∈ N := by
    intro st hst
    rw [← hN]
    exact mem_setExtend.2 (.inr (List.mem_flatMap.2 ⟨st, hst, by simp⟩))
  -- a longer prefix would make the identifiers shorter and shorter
  have descend : ∀ d : Str, d ≠ [] → opts.nodePrefix = str! "node_" ++ d → ∀ (n : Nat), ∀ st ∈ g.stmts,
      (dotIdIn N st.object).length = n → False := by
    intro d hd hp n
    induction n using Nat.strongRecOn with
    | ind n ih =>
      intro st hst hn
      have b := (both st hst).2
      rw [hp, List.append_assoc, List.append_cancel_left_eq] at b
      obtain ⟨o', ho', k⟩ := known _ (mem st hst)
      rw [k] at b
      have lt : (dotIdIn N o').length < n := by
        rw [← hn, ← b, List.length_append]
        have := List.length_pos_iff.2 hd
        omega
      rcases ends o' ho' with ⟨st', hst', rfl⟩ | ⟨st', hst', rfl⟩
      · have := inj _ ho' _ (mem st hst) ((both st' hst').1.trans k.symm)
        rw [this] at lt
        omega
      · exact ih _ lt st' hst' rfl
  obtain ⟨st, hst⟩ := List.exists_mem_of_ne_nil _ hs
  have b := (both st hst).2
  obtain ⟨o', ho', k⟩ := known _ (mem st hst)
  rcases List.append_eq_append_iff.1 b with ⟨d, x, y⟩ | ⟨d, x, y⟩
  · cases hd : d.isEmpty with
    | true =>
      rw [List.isEmpty_iff] at hd
      rw [hd, List.append_nil] at x
      exact x.symm
    | false =>
      have ne : d ≠ [] := by rintro rfl; cases hd
      have last : d.getLast ne = '_' := by
        have := congrArg List.getLast? x
        rw [List.getLast?_append_of_ne_nil _ ne, List.getLast?_eq_some_getLast ne] at this
        exact (Option.some.inj this).symm
      have : '_' ∈ id st.object := by
        rw [y]
        exact List.mem_append_left _ (last ▸ List.getLast_mem ne)
      rw [k] at this
      exact absurd (digits_digit this) (by decide)
  · cases hd : d.isEmpty with
    | true =>
      rw [List.isEmpty_iff] at hd
      rw [hd, List.append_nil] at x
      exact x
    | false =>
      have ne : d ≠ [] := by rintro rfl; cases hd
      exact (descend d ne x _ st hst rfl).elim

/-- C50, exactly and for every graph: the drawing of a new writer is right if and only if every node is a blank node,
a resource or a literal, no two nodes are displayed alike, the prefix is the usual one or nothing is to be drawn, and
every label can stand in quotes. -/
theorem C50_all_iff (sty : IriStyle) (opts : DotOptions) (ord : DotNodes → DotNodes) (g : Graph) (text : Str)
    (m' : DotNodes) (ho : OptionsSafe opts) (hord : ∀ m, (ord m).Perm m)
    (h : writeDot sty ord opts [] g = .ok (text, m')) :
    (∃ items, readDot text = some items ∧ Draws sty opts g items) ↔
      (∀ o ∈ nodesOf g.stmts, Drawable o) ∧ KeysDiffer sty (nodesOf g.stmts) ∧
      (g.stmts = [] ∨ opts.nodePrefix = str! "node_") ∧ LabelsSafe sty g := by
  constructor
  · rintro ⟨items, hr, hd⟩
    have hg := draws_safe hr hd
    obtain ⟨a, b⟩ := draws_only ho hg hord h hr hd
    refine ⟨a, b, ?_, hg⟩
    by_cases hs : g.stmts = []
    · exact .inl hs
    · exact .inr (draws_prefix ho hg hord h hr hd hs)
  · rintro ⟨a, b, hs, hg⟩
    obtain ⟨_, nodes, drawn, p, f, e⟩ := writeDot_labels (L := []) ho hord List.nodup_nil hg.1 hg.2 a b h
    refine ⟨_, e, dotIdIn (nodesOf g.stmts), fun x hx y _ hxy => dotIdIn_inj hx hxy, nodes, drawn, p, f, ?_⟩
    rcases hs with hs | hp
    · rw [hs]; rfl
    · congr 1
      apply List.map_congr_left
      intro st _
      simp only [edgeItem, hp]
      rfl

/-- C50, exactly: for a graph whose IRIs and prefixes have no quotes and backslashes the drawing of a new writer is
right if and only if every node is a blank node, a resource or a literal, no two nodes are displayed alike, and the
prefix is the usual one or nothing is to be drawn. -/
theorem C50_iff (sty : IriStyle) (opts : DotOptions) (ord : DotNodes → DotNodes) (g : Graph) (text : Str)
    (m' : DotNodes) (ho : OptionsSafe opts) (hg : GraphSafe g) (hord : ∀ m, (ord m).Perm m)
    (h : writeDot sty ord opts [] g = .ok (text, m')) :
    (∃ items, readDot text = some items ∧ Draws sty opts g items) ↔
      (∀ o ∈ nodesOf g.stmts, Drawable o) ∧ KeysDiffer sty (nodesOf g.stmts) ∧
      (g.stmts = [] ∨ opts.nodePrefix = str! "node_") := by
  rw [C50_all_iff sty opts ord g text m' ho hord h]
  exact ⟨fun x => ⟨x.1, x.2.1, x.2.2.1⟩, fun x => ⟨x.1, x.2.1, x.2.2, hg.labels sty⟩⟩

/-- C50, collections and statements: no graph that has one of them as a node is drawn right. -/
theorem C50_fails_each (sty : IriStyle) (opts : DotOptions) (ord : DotNodes → DotNodes) (g : Graph) (text : Str)
    (m' : DotNodes) (ho : OptionsSafe opts) (hg : GraphSafe g) (hord : ∀ m, (ord m).Perm m)
    (h : writeDot sty ord opts [] g = .ok (text, m')) (st : Stmt) (hst : st ∈ g.stmts)
    (hc : st.object.isCollection = true ∨ st.isNested = true) :
    ¬ ∃ items, readDot text = some items ∧ Draws sty opts g items := by
  rw [C50_iff sty opts ord g text m' ho hg hord h]
  rintro ⟨a, _⟩
  have h1 := a st.subject.toObject (mem_setExtend.2 (.inr (List.mem_flatMap.2 ⟨st, hst, by simp⟩)))
  have h2 := a st.object (mem_setExtend.2 (.inr (List.mem_flatMap.2 ⟨st, hst, by simp⟩)))
  obtain ⟨s, p, o⟩ := st
  cases s <;> cases o <;>
    simp_all [Stmt.isNested, Stmt.subject, Stmt.object, Subject.toObject, Drawable, Object.isCollection,
      Object.isStatement, Subject.isStatement]

end Rdftk
