import Verif.Props.DotJson

/-! What a diagram says about the graph it was drawn from (C209). -/

namespace Rdftk
open Spec

/-- Nodes that a diagram does not tell apart: blank nodes, the same resource, literals with the same text. -/
def DrawnAlike : Object → Object → Prop
  | .blank _, .blank _ => True
  | .res i, .res j => i = j
  | .lit l, .lit k => l.lexicalForm = k.lexicalForm
  | _, _ => False

/-- Two graphs are the same but for the names of blank nodes, the types and languages of literals, and predicates
with the same label: `f` takes the nodes of the first to those of the second. -/
def SameDrawing (sty : IriStyle) (g g' : Graph) : Prop :=
  ∃ f : Object → Object,
    (∀ a ∈ nodesOf g.stmts, ∀ b ∈ nodesOf g.stmts, f a = f b → a = b) ∧
    (∀ o ∈ nodesOf g.stmts, f o ∈ nodesOf g'.stmts ∧ DrawnAlike o (f o)) ∧
    (∀ o' ∈ nodesOf g'.stmts, ∃ o ∈ nodesOf g.stmts, f o = o') ∧
    List.Forall₂ (fun st st' : Stmt => st'.subject.toObject = f st.subject.toObject ∧ st'.object = f st.object ∧
      edgeLabel sty g.mappings st.predicate = edgeLabel sty g'.mappings st'.predicate) g.stmts g'.stmts

/-- Whether an item is an edge. -/
def isEdge : DotItem → Bool
  | .edge _ _ _ => true
  | .node _ _ => false

theorem forall₂_find {α β : Type _} {R : α → β → Prop} {l : List α} {m : List β} (h : List.Forall₂ R l m) :
    (∀ a ∈ l, ∃ b ∈ m, R a b) ∧ ∀ b ∈ m, ∃ a ∈ l, R a b := by
  induction h with
  | nil => simp
  | cons hx _ ih =>
    refine ⟨fun a ha => ?_, fun b hb => ?_⟩
    · rcases List.mem_cons.1 ha with rfl | ha
      · exact ⟨_, List.mem_cons_self, hx⟩
      · obtain ⟨b, h1, h2⟩ := ih.1 a ha
        exact ⟨b, List.mem_cons_of_mem _ h1, h2⟩
    · rcases List.mem_cons.1 hb with rfl | hb
      · exact ⟨_, List.mem_cons_self, hx⟩
      · obtain ⟨a, h1, h2⟩ := ih.2 b hb
        exact ⟨a, List.mem_cons_of_mem _ h1, h2⟩

/-- The edges and the nodes of a drawing. -/
theorem draws_split {sty : IriStyle} {opts : DotOptions} {id : Object → Str} {pm : PrefixMap} {sts : List Stmt}
    {nodes : List Object} {drawn items : List DotItem} (f : List.Forall₂ (draws sty opts id) nodes drawn)
    (e : items = sts.map (edgeItem sty opts pm id) ++ drawn) :
    items.filter isEdge = sts.map (edgeItem sty opts pm id) ∧ items.filter (fun i => !isEdge i) = drawn := by
  have h1 : ∀ it ∈ sts.map (edgeItem sty opts pm id), isEdge it = true := by
    intro it hit
    obtain ⟨st, -, rfl⟩ := List.mem_map.1 hit
    rfl
  have h2 : ∀ it ∈ drawn, isEdge it = false := by
    intro it hit
    obtain ⟨o, -, as, rfl, -⟩ := (forall₂_find f).2 it hit
    rfl
  subst e
  rw [List.filter_append, List.filter_append, List.filter_eq_self.2 h1,
    List.filter_eq_nil_iff.2 (fun it hit => by simp [h2 it hit]), List.filter_eq_nil_iff.2 (fun it hit => by simp [h1 it hit]),
    List.filter_eq_self.2 (fun it hit => by simp [h2 it hit])]
  simp

/-- Nodes drawn alike are alike. -/
theorem drawnAlike_of_attrs {sty : IriStyle} {id id' : Object → Str} {o o' : Object} (ho : Drawable o) (ho' : Drawable o')
    {it : DotItem} (h : draws sty DotOptions.default id o it) (h' : draws sty DotOptions.default id' o' it) :
    id o = id' o' ∧ DrawnAlike o o' := by
  obtain ⟨as, rfl, ha⟩ := h
  obtain ⟨as', e, ha'⟩ := h'
  simp only [DotItem.node.injEq, List.append_cancel_left_eq] at e
  obtain ⟨e1, rfl⟩ := e
  refine ⟨e1, ?_⟩
  cases o with
  | coll c => cases ho
  | stmt c => cases ho
  | blank b =>
    cases o' with
    | coll c => cases ho'
    | stmt c => cases ho'
    | blank b' => trivial
    | res j => have := (ha _ rfl).symm.trans (ha' _ rfl); simp at this
    | lit l => have := (ha _ rfl).symm.trans (ha' _ rfl); simp [DotOptions.default] at this
  | res i =>
    cases o' with
    | coll c => cases ho'
    | stmt c => cases ho'
    | blank b' => have := (ha _ rfl).symm.trans (ha' _ rfl); simp at this
    | res j =>
      have := (ha _ rfl).symm.trans (ha' _ rfl)
      rw [List.cons.injEq, Prod.mk.injEq] at this
      exact fmt_inj this.1.2
    | lit l => have := (ha _ rfl).symm.trans (ha' _ rfl); simp at this
  | lit l =>
    cases o' with
    | coll c => cases ho'
    | stmt c => cases ho'
    | blank b' => have := (ha _ rfl).symm.trans (ha' _ rfl); simp [DotOptions.default] at this
    | res j => have := (ha _ rfl).symm.trans (ha' _ rfl); simp at this
    | lit k =>
      have := (ha _ rfl).symm.trans (ha' _ rfl)
      rw [List.cons.injEq, Prod.mk.injEq] at this
      exact this.1.2

/-- C209: two graphs that the same items draw are the same but for names of blank nodes, types and languages. -/
theorem C209_items (sty : IriStyle) (g g' : Graph) (items : List DotItem) (hd : ∀ o ∈ nodesOf g.stmts, Drawable o)
    (hd' : ∀ o ∈ nodesOf g'.stmts, Drawable o) (h : Draws sty DotOptions.default g items)
    (h' : Draws sty DotOptions.default g' items) : SameDrawing sty g g' := by
  classical
  obtain ⟨id, inj, nodes, drawn, p, f, e⟩ := h
  obtain ⟨id', inj', nodes', drawn', p', f', e'⟩ := h'
  obtain ⟨s1, s2⟩ := draws_split f e
  obtain ⟨s1', s2'⟩ := draws_split f' e'
  have edges := s1.symm.trans s1'
  have same : drawn = drawn' := s2.symm.trans s2'
  subst same
  have find : ∀ o ∈ nodesOf g.stmts, ∃ o' ∈ nodesOf g'.stmts, id o = id' o' ∧ DrawnAlike o o' := by
    intro o ho
    obtain ⟨it, hit, hx⟩ := (forall₂_find f).1 o (p.symm.subset ho)
    obtain ⟨o', ho', hx'⟩ := (forall₂_find f').2 it hit
    exact ⟨o', p'.subset ho', drawnAlike_of_attrs (hd o ho) (hd' o' (p'.subset ho')) hx hx'⟩
  have back : ∀ o' ∈ nodesOf g'.stmts, ∃ o ∈ nodesOf g.stmts, id o = id' o' := by
    intro o' ho'
    obtain ⟨it, hit, hx'⟩ := (forall₂_find f').1 o' (p'.symm.subset ho')
    obtain ⟨o, ho, hx⟩ := (forall₂_find f).2 it hit
    exact ⟨o, p.subset ho, (drawnAlike_of_attrs (hd o (p.subset ho)) (hd' o' ho') hx hx').1⟩
  let F : Object → Object := fun o => if h : ∃ o' ∈ nodesOf g'.stmts, id o = id' o' ∧ DrawnAlike o o' then h.choose else o
  have hF : ∀ o ∈ nodesOf g.stmts, F o ∈ nodesOf g'.stmts ∧ id o = id' (F o) ∧ DrawnAlike o (F o) := by
    intro o ho
    have hx := find o ho
    have : F o = hx.choose := dif_pos hx
    rw [this]
    exact hx.choose_spec
  have uniq : ∀ o ∈ nodesOf g.stmts, ∀ o' ∈ nodesOf g'.stmts, id o = id' o' → F o = o' := by
    intro o ho o' ho' e
    obtain ⟨a, b, -⟩ := hF o ho
    exact inj' _ a _ ho' (b.symm.trans e)
  refine ⟨F, fun a ha b hb e => ?_, fun o ho => ⟨(hF o ho).1, (hF o ho).2.2⟩, fun o' ho' => ?_, ?_⟩
  · refine inj a ha b hb ?_
    rw [(hF a ha).2.1, (hF b hb).2.1, e]
  · obtain ⟨o, ho, e⟩ := back o' ho'
    exact ⟨o, ho, uniq o ho o' ho' e⟩
  · have mem : ∀ {sts : List Stmt} {st : Stmt}, st ∈ sts → st.subject.toObject ∈ nodesOf sts ∧ st.object ∈ nodesOf sts := by
      intro sts st hst
      simp only [nodesOf, mem_setOf, List.mem_flatMap]
      exact ⟨⟨st, hst, by simp⟩, ⟨st, hst, by simp⟩⟩
    have key : ∀ (l l' : List Stmt), (∀ x ∈ l, x ∈ g.stmts) → (∀ x ∈ l', x ∈ g'.stmts) →
        l.map (edgeItem sty DotOptions.default g.mappings id) = l'.map (edgeItem sty DotOptions.default g'.mappings id') →
        List.Forall₂ (fun st st' : Stmt => st'.subject.toObject = F st.subject.toObject ∧ st'.object = F st.object ∧
          edgeLabel sty g.mappings st.predicate = edgeLabel sty g'.mappings st'.predicate) l l' := by
      intro l
      induction l with
      | nil =>
        intro l' _ _ h
        cases l' with
        | nil => exact .nil
        | cons x l' => cases h
      | cons x l ih =>
        intro l' hl hl' h
        cases l' with
        | nil => cases h
        | cons y l' =>
          simp only [List.map_cons, List.cons.injEq, edgeItem, DotItem.edge.injEq, List.append_cancel_left_eq,
            Prod.mk.injEq, true_and, and_true] at h
          obtain ⟨⟨h1, h2, h3⟩, h4⟩ := h
          obtain ⟨a, b⟩ := mem (hl x List.mem_cons_self)
          obtain ⟨a', b'⟩ := mem (hl' y List.mem_cons_self)
          exact .cons ⟨(uniq _ a _ a' h1).symm, (uniq _ b _ b' h2).symm, h3⟩
            (ih l' (fun z hz => hl z (List.mem_cons_of_mem _ hz)) (fun z hz => hl' z (List.mem_cons_of_mem _ hz)) h4)
    exact key _ _ (fun _ h => h) (fun _ h => h) edges

/-- Nodes that are alike have the same attributes. -/
theorem DrawnAlike.attrs {sty : IriStyle} {id id' : Object → Str} {o o' : Object} (h : DrawnAlike o o') (e : id' o' = id o) :
    nodeAttrs sty DotOptions.default id' o' = nodeAttrs sty DotOptions.default id o := by
  cases o <;> cases o' <;> simp only [DrawnAlike] at h <;> simp [nodeAttrs, DotOptions.default, h]

/-- What draws a graph draws every graph that differs only in what is not drawn. -/
theorem SameDrawing.draws {sty : IriStyle} {g g' : Graph} {items : List DotItem} (h : SameDrawing sty g g')
    (hd : Draws sty DotOptions.default g items) : Draws sty DotOptions.default g' items := by
  classical
  obtain ⟨f, h1, h2, h3, h4⟩ := h
  obtain ⟨id, inj, nodes, drawn, p, fa, e⟩ := hd
  let back : Object → Object := fun o' => if h : ∃ o ∈ nodesOf g.stmts, f o = o' then h.choose else o'
  have hb : ∀ o ∈ nodesOf g.stmts, back (f o) = o := by
    intro o ho
    have hx : ∃ x ∈ nodesOf g.stmts, f x = f o := ⟨o, ho, rfl⟩
    have : back (f o) = hx.choose := dif_pos hx
    rw [this]
    exact h1 _ hx.choose_spec.1 _ ho hx.choose_spec.2
  have hi : ∀ o ∈ nodesOf g.stmts, id (back (f o)) = id o := fun o ho => by rw [hb o ho]
  refine ⟨fun o' => id (back o'), ?_, nodes.map f, drawn, ?_, ?_, ?_⟩
  · intro a ha b hb' e
    obtain ⟨x, hx, rfl⟩ := h3 a ha
    obtain ⟨y, hy, rfl⟩ := h3 b hb'
    simp only [hi x hx, hi y hy] at e
    rw [inj x hx y hy e]
  · refine (p.map f).trans ?_
    refine (List.perm_ext_iff_of_nodup ?_ (setOf_nodup _)).2 fun o' => ?_
    · exact List.Nodup.map_on (fun a ha b hb e => h1 a ha b hb e) (setOf_nodup _)
    · rw [List.mem_map]
      exact ⟨fun ⟨o, ho, e⟩ => e ▸ (h2 o ho).1, fun ho => h3 o' ho⟩
  · have key : ∀ {l : List Object} {d : List DotItem}, List.Forall₂ (Spec.draws sty DotOptions.default id) l d →
        (∀ o ∈ l, o ∈ nodesOf g.stmts) →
        List.Forall₂ (Spec.draws sty DotOptions.default fun o' => id (back o')) (l.map f) d := by
      intro l d hl
      induction hl with
      | nil => exact fun _ => .nil
      | cons hx _ ih =>
        intro hm
        refine .cons ?_ (ih fun o ho => hm o (List.mem_cons_of_mem _ ho))
        have ho := hm _ List.mem_cons_self
        obtain ⟨as, rfl, ha⟩ := hx
        refine ⟨as, by simp only [hi _ ho], fun as' e => ha as' ?_⟩
        rw [← (h2 _ ho).2.attrs (sty := sty) (id' := fun o' => id (back o')) (hi _ ho)]
        exact e
    exact key fa fun o ho => p.subset ho
  · rw [e]
    congr 1
    have key : ∀ {l l' : List Stmt}, List.Forall₂ (fun st st' : Stmt => st'.subject.toObject = f st.subject.toObject ∧
        st'.object = f st.object ∧ edgeLabel sty g.mappings st.predicate = edgeLabel sty g'.mappings st'.predicate) l l' →
        (∀ st ∈ l, st ∈ g.stmts) →
        l.map (edgeItem sty DotOptions.default g.mappings id) =
          l'.map (edgeItem sty DotOptions.default g'.mappings fun o' => id (back o')) := by
      intro l l' hl
      induction hl with
      | nil => exact fun _ => rfl
      | @cons x y _ _ hx _ ih =>
        intro hm
        have hs := hm x List.mem_cons_self
        have m1 : x.subject.toObject ∈ nodesOf g.stmts := by
          simp only [nodesOf, mem_setOf, List.mem_flatMap]; exact ⟨x, hs, by simp⟩
        have m2 : x.object ∈ nodesOf g.stmts := by
          simp only [nodesOf, mem_setOf, List.mem_flatMap]; exact ⟨x, hs, by simp⟩
        rw [List.map_cons, List.map_cons, ih fun o ho => hm o (List.mem_cons_of_mem _ ho)]
        simp only [edgeItem, hx.1, hx.2.1, hx.2.2, hi _ m1, hi _ m2]
    exact key h4 fun _ h => h

/-- C209, exactly: what draws one graph draws another if and only if they differ only in what is not drawn. -/
theorem C209_iff (sty : IriStyle) (g g' : Graph) (items : List DotItem) (hd : ∀ o ∈ nodesOf g.stmts, Drawable o)
    (hd' : ∀ o ∈ nodesOf g'.stmts, Drawable o) (h : Draws sty DotOptions.default g items) :
    Draws sty DotOptions.default g' items ↔ SameDrawing sty g g' :=
  ⟨C209_items sty g g' items hd hd' h, fun x => x.draws h⟩
/-! ### Labels of edges -/

/-- The four namespaces of a new graph. -/
theorem default_prefix {n : Iri} {p : Namespace} (h : Graph.default.mappings.getPrefix n = some p) :
    (p, n) ∈ Graph.default.mappings.entries := by
  unfold PrefixMap.getPrefix at h
  rw [Option.map_eq_some_iff] at h
  obtain ⟨e, he, rfl⟩ := h
  have h1 := List.mem_of_find?_eq_some he
  have h2 := List.find?_some he
  rw [beq_iff_eq] at h2
  subst h2
  exact h1

theorem default_ends : ∀ e ∈ Graph.default.mappings.entries, endsWith e.2.text '/' = false ∧
    ∃ b, e.2.text = b ++ ['#'] ∧ endsWith b '/' = false := by
  intro e he
  have : e.2.text = e.2.text.dropLast ++ ['#'] ∧ endsWith e.2.text '/' = false ∧ endsWith e.2.text.dropLast '/' = false := by
    revert e
    decide +kernel
  exact ⟨this.2.1, _, this.1, this.2.2⟩

/-- A predicate with a short name in a new graph is the namespace followed by the name. -/
theorem compress_default {p : Iri} {l : LocalName} (h : Graph.default.mappings.compress p = .ok (some l)) :
    ∃ n, (l.namespace, n) ∈ Graph.default.mappings.entries ∧ p.text = n.text ++ l.name.text ∧
      Name.parse l.name.text = .ok l.name := by
  unfold PrefixMap.compress at h
  split at h
  · cases h
  · cases h
  · rename_i ns name hs
    split at h
    · cases h
    · rename_i q hq
      cases h
      have hm := default_prefix hq
      refine ⟨ns, hm, ?_⟩
      by_cases hf : p.fragment = none ∨ p.fragment = some []
      · obtain ⟨d, h1, h2, h3, rfl, h5, h6⟩ := split_path_branch hf hs
        exfalso
        obtain ⟨d, rfl⟩ := endsWith_iff.1 h2
        obtain ⟨a, b, c, d'⟩ := default_ends _ hm
        have hp : ∀ esc : Char → Bool, esc '/' = false → pctEncode esc (d ++ ['/']) = pctEncode esc d ++ ['/'] := by
          intro esc he
          rw [pctEncode_append, pctEncode_id (s := ['/']) (by simpa using he)]
        have ht : ∃ x, (p.withNewPath (d ++ ['/'])).text = x ++ ['/'] ++ withSep '#' p.fragment := by
          unfold Iri.withNewPath
          rw [h5]
          split
          · rw [hp _ (by decide)]; exact ⟨p.pre ++ pctEncode isCtlOrNonAscii d, by simp [withSep]⟩
          · rw [hp _ (by decide)]; exact ⟨p.pre ++ pctEncode isPathEscaped d, by simp [withSep]⟩
        obtain ⟨x, hx⟩ := ht
        rcases hf with hf | hf
        · rw [hx, hf] at a
          simp only [withSep, List.append_nil] at a
          rw [endsWith_iff.2 ⟨x, rfl⟩] at a
          cases a
        · rw [hx, hf] at c
          simp only [withSep] at c
          have := List.append_inj_left' c rfl
          rw [← this, endsWith_iff.2 ⟨x, rfl⟩] at d'
          cases d'
      · cases e : p.fragment with
        | none => exact absurd (.inl e) hf
        | some r =>
          cases r with
          | nil => exact absurd (.inr e) hf
          | cons c cs =>
            obtain ⟨rfl, h2, h3⟩ := split_fragment_branch e hs
            refine ⟨?_, h3⟩
            have := splitFirst_text '#' p.text
            change p.noFragment ++ withSep '#' p.fragment = p.text at this
            rw [← this, e, h2]
            simp [Iri.withEmptyFragment, Iri.withNewFragment, pctEncode, withSep]

/-- The four prefixes end at their only colon, and the namespaces differ. -/
theorem default_prefixes : ∀ e ∈ Graph.default.mappings.entries, ∃ a, e.1.text = a ++ [':'] ∧ ':' ∉ a ∧ '#' ∉ a ∧ '?' ∉ a ∧
    '<' ∉ e.1.text ∧ a ≠ [] := by
  intro e he
  have : e.1.text = e.1.text.dropLast ++ [':'] ∧ ':' ∉ e.1.text.dropLast ∧ '#' ∉ e.1.text.dropLast ∧
      '?' ∉ e.1.text.dropLast ∧ '<' ∉ e.1.text ∧ e.1.text.dropLast ≠ [] := by
    revert e
    decide +kernel
  exact ⟨_, this⟩

theorem default_keys : ∀ e ∈ Graph.default.mappings.entries, ∀ e' ∈ Graph.default.mappings.entries, e.1 = e'.1 → e = e' := by
  decide +kernel

/-- A text that looks like a short name cannot be split. -/
theorem split_short {i : Iri} {a n : Str} {x : Name} (h : i.text = a ++ ':' :: n) (h1 : ':' ∉ a) (h2 : '#' ∉ a) (h3 : '?' ∉ a)
    (hx : Name.parse n = .ok x) : i.split = .panic := by
  have hn : ∀ c ∈ n, isPnPrefixLocalRest c = true := by
    have := Name.parse_text hx
    rw [← this]
    exact Name.all_rest hx
  have no : ∀ c, isPnPrefixLocalRest c = false → c ∉ n := fun c hc hm => by rw [hn c hm] at hc; cases hc
  obtain ⟨s1, s2, s3, -⟩ := not_rest_special
  have hne : n ≠ [] := by rintro rfl; cases hx
  have f1 : '#' ∉ i.text := by rw [h]; simp [h2, no _ s2]
  have f2 : '?' ∉ i.text := by rw [h]; simp [h3, no _ s3]
  have e1 : splitFirst '#' i.text = (i.text, none) := splitFirst_not_mem f1
  have e2 : splitFirst '?' i.text = (i.text, none) := splitFirst_not_mem f2
  have e3 : i.noFragment = i.text := by simp [Iri.noFragment, e1]
  have e4 : i.fragment = none := by simp [Iri.fragment, e1]
  have e5 : i.query = none := by simp [Iri.query, e3, e2]
  have e6 : i.hier = i.text := by simp [Iri.hier, e3, e2]
  have e7 : i.path = n := by
    unfold Iri.path
    rw [e6, h]
    unfold splitHier
    rw [splitFirst_append h1]
    have : stripPrefix ['/', '/'] n = none := by
      cases hd : stripPrefix ['/', '/'] n with
      | none => rfl
      | some t =>
        rw [stripPrefix_eq_some] at hd
        exact absurd (by rw [hd]; simp) (no _ s1)
    simp only [this]
  unfold Iri.split
  rw [e4, e7, e5]
  have e8 : endsWith n '/' = false := by
    cases hd : endsWith n '/' with
    | false => rfl
    | true =>
      obtain ⟨t, ht⟩ := endsWith_iff.1 hd
      exact absurd (by rw [ht]; simp) (no _ s1)
  have e9 : pathSegments n = none := by
    unfold pathSegments
    split
    · exact absurd (by simp) (no _ s1)
    · rfl
  cases n with
  | nil => exact absurd rfl hne
  | cons c cs => simp [e8, e9]

/-- Predicates that can be drawn and have the same label are the same. -/
theorem edgeLabel_inj {sty : IriStyle} {p q : Iri} (hp : p.split ≠ .panic) (hq : q.split ≠ .panic)
    (h : edgeLabel sty Graph.default.mappings p = edgeLabel sty Graph.default.mappings q) : p = q := by
  have mixed : ∀ {p q : Iri} {l : LocalName}, q.split ≠ .panic → Graph.default.mappings.compress p = .ok (some l) →
      l.display ≠ q.fmt sty := by
    intro p q l hq hl e
    obtain ⟨n, h1, h2, h3⟩ := compress_default hl
    obtain ⟨a, b1, b2, b3, b4, b5, b6⟩ := default_prefixes _ h1
    simp only at b1 b5
    cases sty with
    | bare =>
      refine hq (split_short (a := a) (n := l.name.text) ?_ b2 b3 b4 h3)
      have : q.text = l.display := by rw [e]; rfl
      rw [this]
      simp [LocalName.display, Namespace.display, Name.display, b1]
    | bracketed =>
      cases a with
      | nil => exact b6 rfl
      | cons c a =>
        have : l.display = c :: (a ++ [':'] ++ l.name.text) := by
          simp [LocalName.display, Namespace.display, Name.display, b1]
        rw [this] at e
        simp only [Iri.fmt] at e
        have : c = '<' := by
          simpa using congrArg List.head? e
        rw [b1, this] at b5
        simp at b5
  have none_of : ∀ {p : Iri}, p.split ≠ .panic → Graph.default.mappings.compress p = .ok none ∨
      ∃ l, Graph.default.mappings.compress p = .ok (some l) := by
    intro p hp
    cases e : Graph.default.mappings.compress p with
    | panic =>
      unfold PrefixMap.compress at e
      split at e
      · exact absurd (by assumption) hp
      · cases e
      · split at e <;> cases e
    | ok r => cases r with
      | none => exact .inl rfl
      | some l => exact .inr ⟨l, rfl⟩
  unfold edgeLabel at h
  rcases none_of hp with e | ⟨l, e⟩ <;> rcases none_of hq with e' | ⟨l', e'⟩ <;> rw [e, e'] at h <;> simp only at h
  · exact fmt_inj h
  · exact absurd h.symm (mixed hp e')
  · exact absurd h (mixed hq e)
  · obtain ⟨n, h1, h2, h3⟩ := compress_default e
    obtain ⟨n', h1', h2', h3'⟩ := compress_default e'
    obtain ⟨a, b1, b2, -⟩ := default_prefixes _ h1
    obtain ⟨a', b1', b2', -⟩ := default_prefixes _ h1'
    simp only at b1 b1'
    have : a ++ ':' :: l.name.text = a' ++ ':' :: l'.name.text := by
      simpa [LocalName.display, Namespace.display, Name.display, b1, b1'] using h
    have s1 := splitFirst_append b2 (b := l.name.text)
    rw [this, splitFirst_append b2'] at s1
    simp only [Prod.mk.injEq, Option.some.injEq] at s1
    obtain ⟨rfl, s2⟩ := s1
    have k : l.namespace = l'.namespace := by
      cases hk : l.namespace; cases hk' : l'.namespace
      rw [hk] at b1; rw [hk'] at b1'
      simp only at b1 b1'
      rw [b1, b1']
    have := default_keys _ h1 _ h1' k
    simp only [Prod.mk.injEq] at this
    cases p; cases q
    simp only at h2 h2'
    rw [h2, h2', this.2, s2]
/-! ### C209 -/

/-- The graphs are the same but for the names of blank nodes and the types and languages of literals. -/
def SameButTypes (g g' : Graph) : Prop :=
  ∃ f : Object → Object,
    (∀ a ∈ nodesOf g.stmts, ∀ b ∈ nodesOf g.stmts, f a = f b → a = b) ∧
    (∀ o ∈ nodesOf g.stmts, f o ∈ nodesOf g'.stmts ∧ DrawnAlike o (f o)) ∧
    (∀ o' ∈ nodesOf g'.stmts, ∃ o ∈ nodesOf g.stmts, f o = o') ∧
    List.Forall₂ (fun st st' : Stmt => st'.subject.toObject = f st.subject.toObject ∧ st'.object = f st.object ∧
      st'.predicate = st.predicate) g.stmts g'.stmts

/-- Graphs with the mappings of a new graph and predicates that can be drawn. -/
theorem SameDrawing.exact {sty : IriStyle} {g g' : Graph} (h : SameDrawing sty g g')
    (hm : g.mappings = Graph.default.mappings) (hm' : g'.mappings = Graph.default.mappings)
    (hp : ∀ st ∈ g.stmts, st.predicate.split ≠ .panic) (hp' : ∀ st ∈ g'.stmts, st.predicate.split ≠ .panic) :
    SameButTypes g g' := by
  obtain ⟨f, h1, h2, h3, h4⟩ := h
  rw [hm, hm'] at h4
  refine ⟨f, h1, h2, h3, ?_⟩
  generalize g.stmts = l at *
  generalize g'.stmts = l' at *
  clear h1 h2 h3
  induction h4 with
  | nil => exact .nil
  | cons h _ ih =>
    exact .cons ⟨h.1, h.2.1, (edgeLabel_inj (hp _ List.mem_cons_self) (hp' _ List.mem_cons_self) h.2.2).symm⟩
      (ih (fun z hz => hp z (List.mem_cons_of_mem _ hz)) fun z hz => hp' z (List.mem_cons_of_mem _ hz))

/-- What is drawn has only predicates that can be split. -/
theorem drawn_splits {e : CliEnv} {s out : Str} {src : Representation} {g : Graph}
    (h : cliMain e s (.draw src) = .success out) (hr : cliRead e s src = .ok g) :
    ∀ st ∈ g.stmts, st.predicate.split ≠ .panic := by
  intro st hst hp
  have : writeDot e.sty e.nodeOrder DotOptions.default [] g = .panic := (C73_panics_partial _ _ _ _ _).2 ⟨st, hst, hp⟩
  simp only [cliMain, hr] at h
  split at h
  · cases h
  · simp [Run.bind, Run.exit, this] at h

/-- The graphs are the same but for the names of blank nodes. -/
def SameButBlanks (g g' : Graph) : Prop :=
  ∃ f : Object → Object,
    (∀ a ∈ nodesOf g.stmts, ∀ b ∈ nodesOf g.stmts, f a = f b → a = b) ∧
    (∀ o ∈ nodesOf g.stmts, (∃ b c, o = .blank b ∧ f o = .blank c) ∨ f o = o) ∧
    List.Forall₂ (fun st st' : Stmt => st'.subject.toObject = f st.subject.toObject ∧ st'.object = f st.object ∧
      st'.predicate = st.predicate) g.stmts g'.stmts

/-- C209, the full statement: two N-Triples documents with the same diagram are read as the same graph, but for the names
of blank nodes. -/
def C209_statement (sty : IriStyle) : Prop :=
  ∀ (e : CliEnv) (s s' out : Str) (g g' : Graph), e.sty = sty → (∀ m, (e.nodeOrder m).Perm m) → StrictEnv e.read →
    cliMain e s (.draw .nTriples) = .success out → cliMain e s' (.draw .nTriples) = .success out →
    readNt e.read s = .ok g → readNt e.read s' = .ok g' → SameButBlanks g g'

theorem SameButTypes.drawing {g g' : Graph} (h : SameButTypes g g') (sty : IriStyle) (hm : g.mappings = g'.mappings) :
    SameDrawing sty g g' := by
  obtain ⟨f, h1, h2, h3, h4⟩ := h
  exact ⟨f, h1, h2, h3, h4.imp fun _ _ x => ⟨x.1, x.2.1, by rw [hm, x.2.2]⟩⟩

/-- C209, exactly: the diagram of a document is one of another document that can be drawn if and only if they are the same
but for the names of blank nodes and the types and languages of literals. -/
theorem C209_documents (e : CliEnv) (s s' out out' : Str) (g g' : Graph) (hord : ∀ m, (e.nodeOrder m).Perm m)
    (he : StrictEnv e.read) (h : cliMain e s (.draw .nTriples) = .success out)
    (h' : cliMain e s' (.draw .nTriples) = .success out') (hr : readNt e.read s = .ok g)
    (hr' : readNt e.read s' = .ok g') :
    (∃ items, readDot out = some items ∧ Draws e.sty DotOptions.default g' items) ↔ SameButTypes g g' := by
  have nodes : ∀ {t : Str} {k : Graph}, readNt e.read t = .ok k → ∀ o ∈ nodesOf k.stmts, Drawable o := by
    intro t k hk o ho
    unfold readNt at hk
    split at hk
    · cases hk
    · exact (read_nodes (evalTriples_read (Q := fun _ => True) (fun _ _ _ => trivial) (by intro st hst; cases hst) hk).1 ho).1
  obtain ⟨k, items, e1, e2, e3⟩ := C207_strict e s out hord he h
  cases e1.symm.trans hr
  have c : cliRead e s .nTriples = .ok g := by simp only [cliRead, hr, Res.toRun]
  have c' : cliRead e s' .nTriples = .ok g' := by simp only [cliRead, hr', Res.toRun]
  have m := (C87_fresh _ _ _ _ c).2
  have m' := (C87_fresh _ _ _ _ c').2
  constructor
  · rintro ⟨items', e2', e3'⟩
    cases e2.symm.trans e2'
    exact (C209_items e.sty g g' items (nodes hr) (nodes hr') e3 e3').exact m m' (drawn_splits h c) (drawn_splits h' c')
  · exact fun x => ⟨items, e2, (x.drawing e.sty (m.trans m'.symm)).draws e3⟩

/-- C209, what holds: they are the same but for the names of blank nodes and the types and languages of literals. -/
theorem C209_partial (e : CliEnv) (s s' out : Str) (g g' : Graph) (hord : ∀ m, (e.nodeOrder m).Perm m)
    (he : StrictEnv e.read) (h : cliMain e s (.draw .nTriples) = .success out)
    (h' : cliMain e s' (.draw .nTriples) = .success out) (hr : readNt e.read s = .ok g)
    (hr' : readNt e.read s' = .ok g') : SameButTypes g g' := by
  obtain ⟨k', items, e1, e2, e3⟩ := C207_strict e s' out hord he h'
  cases e1.symm.trans hr'
  exact (C209_documents e s s' out out g g' hord he h h' hr hr').1 ⟨items, e2, e3⟩

/-- C209, plain texts: they are the same but for the names of blank nodes when no literal has a type or a language. -/
theorem C209_plain (e : CliEnv) (s s' out : Str) (g g' : Graph) (hord : ∀ m, (e.nodeOrder m).Perm m)
    (he : StrictEnv e.read) (h : cliMain e s (.draw .nTriples) = .success out)
    (h' : cliMain e s' (.draw .nTriples) = .success out) (hr : readNt e.read s = .ok g)
    (hr' : readNt e.read s' = .ok g')
    (hl : ∀ k ∈ [g, g'], ∀ l, Object.lit l ∈ nodesOf k.stmts → l.dataType = none ∧ l.language = none) :
    SameButBlanks g g' := by
  obtain ⟨f, h1, h2, -, h4⟩ := C209_partial e s s' out g g' hord he h h' hr hr'
  refine ⟨f, h1, fun o ho => ?_, h4⟩
  obtain ⟨a, b⟩ := h2 o ho
  cases o with
  | coll c => cases b
  | stmt c => cases b
  | blank c =>
    cases e : f (.blank c) with
    | blank d => exact .inl ⟨c, d, rfl, rfl⟩
    | _ => rw [e] at b; cases b
  | res i =>
    cases e : f (.res i) with
    | res j => rw [e] at b; cases b; exact .inr rfl
    | _ => rw [e] at b; cases b
  | lit l =>
    cases e : f (.lit l) with
    | lit k =>
      rw [e] at a b
      have x := hl g (by simp) l ho
      have y := hl g' (by simp) k a
      obtain ⟨l1, l2, l3⟩ := l
      obtain ⟨k1, k2, k3⟩ := k
      simp only [DrawnAlike] at b
      simp only at x y
      right
      rw [b, x.1, x.2, y.1, y.2]
    | _ => rw [e] at b; cases b

/-- C209, any source: two documents, of whatever formats, whose diagrams are right and the same. -/
theorem C209_sources (e : CliEnv) (s s' out : Str) (src src' : Representation) (g g' : Graph)
    (hord : ∀ m, (e.nodeOrder m).Perm m) (h : cliMain e s (.draw src) = .success out)
    (h' : cliMain e s' (.draw src') = .success out) (hr : cliRead e s src = .ok g) (hr' : cliRead e s' src' = .ok g')
    (hd : ∃ items, readDot out = some items ∧ Draws e.sty DotOptions.default g items)
    (hd' : ∃ items, readDot out = some items ∧ Draws e.sty DotOptions.default g' items) : SameButTypes g g' := by
  obtain ⟨k, e1, e2⟩ := C50_command_iff e s out src hord h
  obtain ⟨k', e1', e2'⟩ := C50_command_iff e s' out src' hord h'
  cases e1.symm.trans hr
  cases e1'.symm.trans hr'
  have n := (e2.1 hd).1
  have n' := (e2'.1 hd').1
  obtain ⟨items, i1, i2⟩ := hd
  obtain ⟨items', i1', i2'⟩ := hd'
  cases i1.symm.trans i1'
  exact (C209_items e.sty g g' items n n' i2 i2').exact (C87_fresh _ _ _ _ hr).2 (C87_fresh _ _ _ _ hr').2
    (drawn_splits h hr) (drawn_splits h' hr')

/-- A text without a language. -/
def plainDoc : Str := str! "<http://a/s> <http://a/p> \"x\" .\n"

/-- The same text in English. -/
def englishDoc : Str := str! "<http://a/s> <http://a/p> \"x\"@en .\n"

/-- C209 fails: the diagram does not say that a text is in English. -/
theorem C209_fails (sty : IriStyle) : ¬ C209_statement sty := by
  intro h
  have key : ∃ out g g', cliMain (webCli sty) plainDoc (.draw .nTriples) = .success out ∧
      cliMain (webCli sty) englishDoc (.draw .nTriples) = .success out ∧ readNt webEnv plainDoc = .ok g ∧
      readNt webEnv englishDoc = .ok g' ∧
      g.stmts = [.mk (.res ⟨str! "http://a/s"⟩) ⟨str! "http://a/p"⟩ (.lit ⟨str! "x", none, none⟩)] ∧
      g'.stmts = [.mk (.res ⟨str! "http://a/s"⟩) ⟨str! "http://a/p"⟩ (.lit ⟨str! "x", none, some (str! "en")⟩)] := by
    cases sty <;> exact ⟨_, _, _, rfl, rfl, rfl, rfl, rfl, rfl⟩
  obtain ⟨out, g, g', h1, h2, h3, h4, h5, h6⟩ := key
  obtain ⟨f, -, hf, hs⟩ := h (webCli sty) plainDoc englishDoc out g g' rfl (fun m => .refl _) webEnv_strict h1 h2 h3 h4
  rw [h5, h6] at hs
  obtain ⟨⟨-, ho, -⟩, -⟩ := List.forall₂_cons.1 hs
  have hm : Object.lit ⟨str! "x", none, none⟩ ∈ nodesOf g.stmts := by
    simp [nodesOf, mem_setOf, h5, Stmt.object]
  simp only [Stmt.object] at ho
  rcases hf _ hm with ⟨b, c, e, -⟩ | e
  · cases e
  · rw [e] at ho
    cases ho

/-! Two documents with the same diagram. -/

example (sty : IriStyle) : ∃ out, cliMain (webCli sty) plainDoc (.draw .nTriples) = .success out ∧
    cliMain (webCli sty) englishDoc (.draw .nTriples) = .success out := by
  cases sty <;> exact ⟨_, rfl, rfl⟩

end Rdftk
