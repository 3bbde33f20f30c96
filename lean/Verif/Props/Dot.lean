import Mathlib.Data.List.Perm.Subperm
import Verif.Lemmas.DotIds
import Verif.Lemmas.IriEdit
import Verif.Lemmas.Json
import Verif.Props.Literal

/-! Properties C50, C72 and C73: the drawings of the Graphviz writer. -/

namespace Rdftk

open Spec

/-! ### Text that may stand in quotes -/

theorem quoteFree.safe {s : Str} (h : quoteFree s) : dotSafe s := by
  have := noBareQuote_append h []
  rw [List.append_nil] at this
  rw [dotSafe, this]
  rfl

theorem quoteFree.append {a b : Str} (ha : quoteFree a) (hb : quoteFree b) : quoteFree (a ++ b) := by
  intro c hc
  rcases List.mem_append.1 hc with h | h
  · exact ha c h
  · exact hb c h

theorem quoteFree.fmt {i : Iri} (h : quoteFree i.text) (sty : IriStyle) : quoteFree (i.fmt sty) := by
  cases sty with
  | bare => exact h
  | bracketed =>
    intro c hc
    simp only [Iri.fmt, List.cons_append, List.mem_cons, List.mem_append, List.not_mem_nil,
      or_false] at hc
    rcases hc with rfl | hc | rfl
    · decide
    · exact h c hc
    · decide

theorem digits_safe (n : Nat) : dotSafe (Nat.toDigits 10 n) := by
  apply quoteFree.safe
  intro c hc
  have := Nat.isDigit_of_mem_toDigits (by decide) (by decide) hc
  constructor <;> (rintro rfl; revert this; decide)

/-- The name part of a split IRI is made of its characters. -/
theorem split_name_chars {i ns : Iri} {n : Name} (h : i.split = .ok (some (ns, n))) {c : Char}
    (hc : c ∈ n.text) : c ∈ i.text := by
  have hi : i.text = i.pre ++ i.path ++ withSep '?' i.query ++ withSep '#' i.fragment :=
    (congrArg Iri.text i.compose).symm
  rw [hi]
  have path : (i.fragment = none ∨ i.fragment = some []) → c ∈ i.path := by
    intro hf
    obtain ⟨d, e, _, _, _, _, _⟩ := split_path_branch hf h
    rw [e]
    simp [hc]
  cases hf : i.fragment with
  | none => simp [path (.inl hf)]
  | some f =>
    cases f with
    | nil => simp [path (.inr hf)]
    | cons x xs =>
      obtain ⟨_, ht, _⟩ := split_fragment_branch hf h
      rw [ht] at hc
      simp only [List.mem_append, withSep, List.mem_cons]
      exact .inr (.inr (List.mem_cons.1 hc))

theorem edgeLabel_safe {sty : IriStyle} {pm : PrefixMap} {p : Iri} (hp : quoteFree p.text)
    (hm : ∀ e ∈ pm.entries, quoteFree e.1.text) : dotSafe (edgeLabel sty pm p) := by
  unfold edgeLabel
  split
  · rename_i q hq
    unfold PrefixMap.compress at hq
    split at hq
    · cases hq
    · cases hq
    · rename_i ns name hs
      cases hg : pm.getPrefix ns with
      | none => rw [hg] at hq; cases hq
      | some x =>
        rw [hg] at hq
        simp only [Outcome.ok.injEq, Option.some.injEq] at hq
        subst hq
        apply quoteFree.safe
        refine quoteFree.append (a := x.text) (b := name.text) ?_ fun c hc => hp c (split_name_chars hs hc)
        unfold PrefixMap.getPrefix at hg
        cases hf : pm.entries.find? (fun e => e.2 == ns) with
        | none => rw [hf] at hg; cases hg
        | some e =>
          rw [hf] at hg
          cases hg
          exact hm e (List.mem_of_find?_eq_some hf)
  · exact quoteFree.safe (quoteFree.fmt hp sty)

/-! ### The drawing of a run -/

theorem perm_map_exists {α β : Type _} {f : α → β} {l : List β} {N : List α} (h : l.Perm (N.map f)) :
    ∃ N' : List α, N'.Perm N ∧ l = N'.map f := by
  generalize e : N.map f = m at h
  induction h generalizing N with
  | nil => exact ⟨N, .refl _, e.symm⟩
  | cons x _ ih =>
    cases N with
    | nil => cases e
    | cons a N =>
      simp only [List.map_cons, List.cons.injEq] at e
      obtain ⟨N', h1, h2⟩ := ih e.2
      exact ⟨a :: N', h1.cons a, by simp [e.1, h2]⟩
  | swap x y l =>
    cases N with
    | nil => cases e
    | cons a N =>
      cases N with
      | nil => simp at e
      | cons b N =>
        simp only [List.map_cons, List.cons.injEq] at e
        exact ⟨b :: a :: N, .swap _ _ _, by simp [e]⟩
  | trans _ _ ih1 ih2 =>
    obtain ⟨N', h1, h2⟩ := ih2 e
    obtain ⟨N'', h3, h4⟩ := ih1 h2.symm
    exact ⟨N'', h3.trans h1, h4⟩

theorem entriesFrom_map {sty : IriStyle} {L : List Object} (n : Nat) (h : L.Nodup) :
    entriesFrom sty n L = L.map fun o =>
      (o.display sty false, dotEntry sty (Nat.toDigits 10 (n + L.idxOf o + 1)) o) := by
  induction L generalizing n with
  | nil => rfl
  | cons a L ih =>
    obtain ⟨h1, h2⟩ := List.nodup_cons.1 h
    rw [entriesFrom, ih _ h2]
    simp only [List.map_cons, List.idxOf_cons_self, Nat.add_zero]
    congr 1
    apply List.map_congr_left
    intro o ho
    have : a ≠ o := by rintro rfl; exact h1 ho
    rw [List.idxOf_cons_ne _ this]
    congr 3
    omega

/-- The texts of nodes that go into a drawing. -/
def NodesSafe (L : List Object) : Prop :=
  ∀ o ∈ L, (∀ i, o = .res i → quoteFree i.text) ∧ (∀ l, o = .lit l → dotSafe l.lexicalForm)

/-- The labels of nodes can stand in quotes. -/
def NodeLabelsSafe (sty : IriStyle) (L : List Object) : Prop :=
  ∀ o ∈ L, (∀ i, o = .res i → dotSafe (i.fmt sty)) ∧ (∀ l, o = .lit l → dotSafe l.lexicalForm)

/-- What is read from a run of a writer that already has the nodes `L`, with any prefix: the objects of edges
have the usual one. -/
theorem writeDot_labels {sty : IriStyle} {opts : DotOptions} {ord : DotNodes → DotNodes} {g : Graph}
    {L : List Object} {text : Str} {m' : DotNodes} (ho : OptionsSafe opts)
    (hord : ∀ m, (ord m).Perm m) (hL : L.Nodup)
    (hpred : ∀ st ∈ g.stmts, dotSafe (edgeLabel sty g.mappings st.predicate))
    (hsafe : NodeLabelsSafe sty (setExtend L (endsOf g.stmts)))
    (hdraw : ∀ o ∈ setExtend L (endsOf g.stmts), Drawable o)
    (hk : KeysDiffer sty (setExtend L (endsOf g.stmts)))
    (h : writeDot sty ord opts (entriesFrom sty 0 L) g = .ok (text, m')) :
    m' = entriesFrom sty 0 (setExtend L (endsOf g.stmts)) ∧
    ∃ nodes drawn, nodes.Perm (setExtend L (endsOf g.stmts)) ∧
      List.Forall₂ (draws sty opts (dotIdIn (setExtend L (endsOf g.stmts)))) nodes drawn ∧
      readDot text = some (g.stmts.map (fun st =>
        DotItem.edge (opts.nodePrefix ++ dotIdIn (setExtend L (endsOf g.stmts)) st.subject.toObject)
          (str! "node_" ++ dotIdIn (setExtend L (endsOf g.stmts)) st.object)
          [(str! "label", edgeLabel sty g.mappings st.predicate)]) ++ drawn) := by
  unfold writeDot at h
  cases hr : dotEdges sty opts g.mappings (entriesFrom sty 0 L) g.stmts with
  | panic => rw [hr] at h; cases h
  | ok r =>
    obtain ⟨edges, m2⟩ := r
    rw [hr] at h
    simp only [Outcome.ok.injEq, Prod.mk.injEq] at h
    obtain ⟨rfl, rfl⟩ := h
    have hk' : KeysDiffer sty (L ++ endsOf g.stmts) := by
      intro a ha b hb
      exact hk a (mem_setExtend.2 (List.mem_append.1 ha)) b (mem_setExtend.2 (List.mem_append.1 hb))
    obtain ⟨e1, e2⟩ := dotEdges_eq (fun o ho => hdraw o (mem_setExtend.2 (.inr ho))) hk' hr
    generalize hN : setExtend L (endsOf g.stmts) = N at *
    have hNd : N.Nodup := hN ▸ setExtend_nodup hL
    refine ⟨e1, ?_⟩
    have e3 := e2 N (List.prefix_refl _)
    have pm : (ord m2).Perm (N.map fun o =>
        (o.display sty false, dotEntry sty (Nat.toDigits 10 (0 + N.idxOf o + 1)) o)) := by
      rw [← entriesFrom_map 0 hNd, ← e1]
      exact hord m2
    obtain ⟨nodes, p1, p2⟩ := perm_map_exists pm
    refine ⟨nodes, nodes.map fun o => .node (opts.nodePrefix ++ dotIdIn N o)
      (dotNodeAttrs opts (dotEntry sty (dotIdIn N o) o)), p1, ?_, ?_⟩
    · rw [List.forall₂_map_right_iff, List.forall₂_same]
      intro o hm
      refine ⟨_, rfl, ?_⟩
      have := hdraw o (p1.subset hm)
      cases o <;> simp_all [Drawable, nodeAttrs, dotEntry, dotNodeAttrs]
    · have e4 : (ord m2).flatMap (fun e => dotNodeLine opts e.2) =
          (nodes.map fun o => dotEntry sty (dotIdIn N o) o).flatMap (dotNodeLine opts) := by
        rw [p2, List.flatMap_map, List.flatMap_map]
        simp [dotIdIn]
      have e5 : edges = (g.stmts.map fun st => DotArrow.mk (dotIdIn N st.subject.toObject)
          (dotIdIn N st.object) (edgeLabel sty g.mappings st.predicate)).flatMap
          (fun e => dotEdge opts e.tail e.head e.label) := by
        rw [e3, List.flatMap_map]
      rw [e4, e5, readDot_lines ho]
      · rw [List.map_map, List.map_map]
        congr 2
        apply List.map_congr_left
        intro o _
        simp [dotEntry_id]
      · intro e he
        obtain ⟨st, hst, rfl⟩ := List.mem_map.1 he
        exact ⟨digits_safe _, digits_safe _, hpred st hst⟩
      · intro n hn
        obtain ⟨o, hm, rfl⟩ := List.mem_map.1 hn
        refine ⟨by rw [dotEntry_id]; exact digits_safe _, ?_⟩
        intro hb
        have hs := hsafe o (p1.subset hm)
        cases o with
        | blank b => exact absurd rfl hb
        | res i => exact hs.1 i rfl
        | lit l => exact hs.2 l rfl
        | coll c => exact absurd rfl hb
        | stmt s => exact absurd rfl hb

/-- The same when no IRI and no prefix has a quote or a backslash. -/
theorem writeDot_items {sty : IriStyle} {opts : DotOptions} {ord : DotNodes → DotNodes} {g : Graph}
    {L : List Object} {text : Str} {m' : DotNodes} (ho : OptionsSafe opts)
    (hord : ∀ m, (ord m).Perm m) (hL : L.Nodup)
    (hpred : ∀ st ∈ g.stmts, quoteFree st.predicate.text)
    (hmap : ∀ e ∈ g.mappings.entries, quoteFree e.1.text)
    (hsafe : NodesSafe (setExtend L (endsOf g.stmts)))
    (hdraw : ∀ o ∈ setExtend L (endsOf g.stmts), Drawable o)
    (hk : KeysDiffer sty (setExtend L (endsOf g.stmts)))
    (h : writeDot sty ord opts (entriesFrom sty 0 L) g = .ok (text, m')) :
    m' = entriesFrom sty 0 (setExtend L (endsOf g.stmts)) ∧
    ∃ nodes drawn, nodes.Perm (setExtend L (endsOf g.stmts)) ∧
      List.Forall₂ (draws sty opts (dotIdIn (setExtend L (endsOf g.stmts)))) nodes drawn ∧
      readDot text = some (g.stmts.map (fun st =>
        DotItem.edge (opts.nodePrefix ++ dotIdIn (setExtend L (endsOf g.stmts)) st.subject.toObject)
          (str! "node_" ++ dotIdIn (setExtend L (endsOf g.stmts)) st.object)
          [(str! "label", edgeLabel sty g.mappings st.predicate)]) ++ drawn) := by
  exact writeDot_labels ho hord hL (fun st hst => edgeLabel_safe (hpred st hst) hmap)
    (fun o hm => ⟨fun i e => quoteFree.safe (quoteFree.fmt ((hsafe o hm).1 i e) sty), (hsafe o hm).2⟩) hdraw hk h

/-- A run of a writer that already has the nodes `L`. -/
theorem writeDot_reads {sty : IriStyle} {opts : DotOptions} {ord : DotNodes → DotNodes} {g : Graph}
    {L : List Object} {text : Str} {m' : DotNodes} (ho : OptionsSafe opts)
    (hp : opts.nodePrefix = str! "node_") (hord : ∀ m, (ord m).Perm m) (hL : L.Nodup)
    (hpred : ∀ st ∈ g.stmts, quoteFree st.predicate.text)
    (hmap : ∀ e ∈ g.mappings.entries, quoteFree e.1.text)
    (hsafe : NodesSafe (setExtend L (endsOf g.stmts)))
    (hdraw : ∀ o ∈ setExtend L (endsOf g.stmts), Drawable o)
    (hk : KeysDiffer sty (setExtend L (endsOf g.stmts)))
    (h : writeDot sty ord opts (entriesFrom sty 0 L) g = .ok (text, m')) :
    m' = entriesFrom sty 0 (setExtend L (endsOf g.stmts)) ∧
    ∃ nodes drawn, nodes.Perm (setExtend L (endsOf g.stmts)) ∧
      List.Forall₂ (draws sty opts (dotIdIn (setExtend L (endsOf g.stmts)))) nodes drawn ∧
      readDot text = some (g.stmts.map
        (edgeItem sty opts g.mappings (dotIdIn (setExtend L (endsOf g.stmts)))) ++ drawn) := by
  obtain ⟨h1, nodes, drawn, h2, h3, h4⟩ := writeDot_items ho hord hL hpred hmap hsafe hdraw hk h
  refine ⟨h1, nodes, drawn, h2, h3, ?_⟩
  rw [h4]
  congr 2
  apply List.map_congr_left
  intro st _
  simp [edgeItem, hp]

/-! ### C50 -/

/-- C50, the full statement: what a new writer writes is a drawing of the graph: the identifiers
of different nodes differ, there is an edge for each statement between the identifiers of its
subject and its object, and one item for each node. -/
def C50_statement (sty : IriStyle) : Prop :=
  ∀ (opts : DotOptions) (ord : DotNodes → DotNodes) (g : Graph) (text : Str) (m' : DotNodes),
    OptionsSafe opts → GraphSafe g → (∀ m, (ord m).Perm m) →
    writeDot sty ord opts [] g = .ok (text, m') →
    ∃ items, readDot text = some items ∧ Draws sty opts g items

/-- C50, what holds: the drawing is right with the usual prefix, for graphs without collections
and nested statements in which no two nodes are displayed alike. -/
theorem C50_drawing_partial (sty : IriStyle) (opts : DotOptions) (ord : DotNodes → DotNodes) (g : Graph)
    (text : Str) (m' : DotNodes) (ho : OptionsSafe opts) (hg : GraphSafe g) (hord : ∀ m, (ord m).Perm m)
    (hp : opts.nodePrefix = str! "node_") (hd : ∀ o ∈ nodesOf g.stmts, Drawable o)
    (hk : KeysDiffer sty (nodesOf g.stmts))
    (h : writeDot sty ord opts [] g = .ok (text, m')) :
    ∃ items, readDot text = some items ∧ Draws sty opts g items := by
  obtain ⟨_, nodes, drawn, h1, h2, h3⟩ := writeDot_reads (L := []) ho hp hord List.nodup_nil hg.1 hg.2.2.2
    (fun o hm => ⟨fun i e => hg.2.1 i (e ▸ hm), fun l e => hg.2.2.1 l (e ▸ hm)⟩) hd hk h
  exact ⟨_, h3, _, fun a ha b _ e => dotIdIn_inj ha e, nodes, drawn, h1, h2, rfl⟩

/-- A literal displayed in quotes, with its data type in the form that reading its IRI gives. -/
def Quoted (l : Literal) : Prop :=
  l.dataType ≠ some .iri ∧ (l.dataType.map DataType.isBare).getD false = false ∧
  noBareQuote false l.lexicalForm = true ∧ (l.dataType = none ∨ l.language = none) ∧
  ∀ t, l.dataType = some t → DataType.fromIri t.asIri = t

theorem Quoted.display {l : Literal} (h : Quoted l) (sty : IriStyle) :
    l.display sty false = l.display sty true ∧ ∃ r, l.display sty true = '"' :: r := by
  unfold Literal.display
  simp [h.1, h.2.1]

/-- C50: no two nodes are displayed alike when the literals are displayed in quotes. -/
theorem C50_keys_differ (sty : IriStyle) (L : List Object) (hd : ∀ o ∈ L, Drawable o)
    (hq : ∀ l, Object.lit l ∈ L → Quoted l) : KeysDiffer sty L := by
  intro a ha b hb h
  have da := hd a ha
  have db := hd b hb
  cases a with
  | coll c => cases da
  | stmt c => cases da
  | blank x =>
    cases b with
    | coll c => cases db
    | stmt c => cases db
    | blank y => simpa [Object.display] using h
    | res j => simp [Object.display] at h
    | lit l =>
      obtain ⟨e, r, hr⟩ := (hq l hb).display sty
      rw [Object.display, Object.display, e, hr] at h
      simp at h
  | res i =>
    cases b with
    | coll c => cases db
    | stmt c => cases db
    | blank y => simp [Object.display] at h
    | res j =>
      simp only [Object.display, List.cons_append, List.cons.injEq, true_and,
        List.append_cancel_right_eq] at h
      rw [fmt_inj h]
    | lit l =>
      obtain ⟨e, r, hr⟩ := (hq l hb).display sty
      rw [Object.display, Object.display, e, hr] at h
      simp at h
  | lit l =>
    obtain ⟨e, r, hr⟩ := (hq l ha).display sty
    cases b with
    | coll c => cases db
    | stmt c => cases db
    | blank y =>
      rw [Object.display, Object.display, e, hr] at h
      simp at h
    | res j =>
      rw [Object.display, Object.display, e, hr] at h
      simp at h
    | lit l' =>
      obtain ⟨e', _, _⟩ := (hq l' hb).display sty
      rw [Object.display, Object.display, e, e'] at h
      have ha := hq l ha
      have hb := hq l' hb
      obtain ⟨x, y, z⟩ := C23_injective sty l l' ha.2.2.1 hb.2.2.1 ha.2.2.2.1 hb.2.2.2.1 h
      have t : l.dataType = l'.dataType := by
        cases h1 : l.dataType with
        | none => cases h2 : l'.dataType with
          | none => rfl
          | some v => rw [h1, h2] at y; cases y
        | some u => cases h2 : l'.dataType with
          | none => rw [h1, h2] at y; cases y
          | some v =>
            rw [h1, h2] at y
            simp only [Option.map_some, Option.some.injEq] at y
            rw [← ha.2.2.2.2 u h1, ← hb.2.2.2.2 v h2, y]
      cases l; cases l'
      simp_all

/-- The drawing of two statements whose objects get the same identifier is not right. -/
theorem not_draws_of_same {sty : IriStyle} {opts : DotOptions} {g : Graph} {s t : Stmt} {a h : Str}
    {as : List (Str × Str)} {items : List DotItem} (hs : g.stmts = [s, t]) (hne : s.object ≠ t.object)
    (hi : items.take 2 = [.edge a h as, .edge a h as]) : ¬ Draws sty opts g items := by
  rintro ⟨id, inj, nodes, drawn, _, _, e⟩
  rw [e, hs] at hi
  simp only [List.map_cons, List.map_nil, List.cons_append, List.nil_append, List.take_succ_cons,
    List.take_zero, List.cons.injEq, edgeItem, DotItem.edge.injEq, and_true] at hi
  have : id s.object = id t.object := List.append_cancel_left (hi.1.2.1.trans hi.2.2.1.symm)
  refine hne (inj _ ?_ _ ?_ this) <;> simp [nodesOf, mem_setOf, hs]

/-- A check of the texts of a statement. -/
def stmtSafe (st : Stmt) : Bool :=
  let free := fun s : Str => s.all fun c => c != '"' && c != '\\'
  let node := fun o : Object => match o with
    | .res i => free i.text
    | .lit l => noBareQuote false l.lexicalForm
    | _ => true
  free st.predicate.text && node st.subject.toObject && node st.object

/-- A graph of statements, without prefixes. -/
def graphOf (sts : List Stmt) : Graph := (Graph.fromIter sts).withMappings PrefixMap.empty

theorem graphOf_safe {sts : List Stmt} (h : sts.all stmtSafe = true) : GraphSafe (graphOf sts) := by
  have e : (graphOf sts).stmts = sts := rfl
  have free : ∀ s : Str, (s.all fun c => c != '"' && c != '\\') = true → quoteFree s := by
    intro s hs c hc
    have := List.all_eq_true.1 hs c hc
    simpa using this
  rw [List.all_eq_true] at h
  refine ⟨?_, ?_, ?_, by intro e he; cases he⟩
  · intro st hst
    have := h st hst
    simp only [stmtSafe, Bool.and_eq_true] at this
    exact free _ this.1.1
  · intro i hi
    rw [e, nodesOf, mem_setOf, List.mem_flatMap] at hi
    obtain ⟨st, hst, hi⟩ := hi
    have := h st hst
    simp only [stmtSafe, Bool.and_eq_true] at this
    simp only [List.mem_cons, List.not_mem_nil, or_false] at hi
    rcases hi with hi | hi
    · exact free _ (by have := this.1.2; rw [← hi] at this; exact this)
    · exact free _ (by have := this.2; rw [← hi] at this; exact this)
  · intro l hi
    rw [e, nodesOf, mem_setOf, List.mem_flatMap] at hi
    obtain ⟨st, hst, hi⟩ := hi
    have := h st hst
    simp only [stmtSafe, Bool.and_eq_true] at this
    simp only [List.mem_cons, List.not_mem_nil, or_false] at hi
    rcases hi with hi | hi
    · have := this.1.2; rw [← hi] at this; exact this
    · have := this.2; rw [← hi] at this; exact this

theorem default_safe : OptionsSafe DotOptions.default :=
  ⟨by decide, by decide, by decide, by decide, by decide, by decide, by decide⟩

/-- The first items of the drawing of a graph by a new writer. -/
def firstItems (sty : IriStyle) (opts : DotOptions) (g : Graph) (n : Nat) : Option (List DotItem) :=
  match writeDot sty id opts [] g with
  | .ok r => (readDot r.1).map (·.take n)
  | .panic => none

theorem C50_statement.first {sty : IriStyle} (h : C50_statement sty) {opts : DotOptions} {g : Graph} {n : Nat}
    {x : List DotItem} (ho : OptionsSafe opts) (hg : GraphSafe g) (hx : firstItems sty opts g n = some x) :
    ∃ items, items.take n = x ∧ Draws sty opts g items := by
  unfold firstItems at hx
  cases hw : writeDot sty id opts [] g with
  | panic => rw [hw] at hx; cases hx
  | ok r =>
    obtain ⟨text, m'⟩ := r
    rw [hw] at hx
    obtain ⟨items, h1, h2⟩ := h opts id g text m' ho hg (fun m => .refl _) hw
    simp only [h1, Option.map_some, Option.some.injEq] at hx
    exact ⟨items, hx, h2⟩

/-- C50 fails: with another prefix edges still end at identifiers that begin with `node_`. -/
theorem C50_fails_prefix (sty : IriStyle) : ¬ C50_statement sty := by
  intro h
  have key : firstItems sty { DotOptions.default with nodePrefix := str! "x" }
      (graphOf [.mk (.blank (str! "a")) ⟨str! "http://a/p"⟩ (.blank (str! "b"))]) 1 =
      some [.edge (str! "x1") (str! "node_2") [(str! "label", (Iri.mk (str! "http://a/p")).fmt sty)]] := by
    cases sty <;> decide +kernel
  obtain ⟨items, h1, id, _, nodes, drawn, _, _, e⟩ := h.first
    ⟨by decide, by decide, by decide, by decide, by decide, by decide, by decide⟩
    (graphOf_safe (by decide)) key
  rw [e] at h1
  have hs : (graphOf [.mk (.blank (str! "a")) ⟨str! "http://a/p"⟩ (.blank (str! "b"))]).stmts =
    [.mk (.blank (str! "a")) ⟨str! "http://a/p"⟩ (.blank (str! "b"))] := rfl
  rw [hs] at h1
  simp only [List.map_cons, List.cons_append, List.take_succ_cons, List.cons.injEq, edgeItem,
    DotItem.edge.injEq] at h1
  have := h1.1.2.1
  simp at this

/-- C50 fails with the usual options: a collection and the node met after it get the same
identifier. -/
theorem C50_fails_collection (sty : IriStyle) : ¬ C50_statement sty := by
  intro h
  have key : firstItems sty DotOptions.default
      (graphOf [.mk (.blank (str! "a")) ⟨str! "http://a/p"⟩ (.coll []),
        .mk (.blank (str! "a")) ⟨str! "http://a/p"⟩ (.blank (str! "b"))]) 2 =
      some [.edge (str! "node_1") (str! "node_2") [(str! "label", (Iri.mk (str! "http://a/p")).fmt sty)],
        .edge (str! "node_1") (str! "node_2") [(str! "label", (Iri.mk (str! "http://a/p")).fmt sty)]] := by
    cases sty <;> decide +kernel
  obtain ⟨items, h1, h2⟩ := h.first default_safe (graphOf_safe (by decide)) key
  exact not_draws_of_same rfl (by simp [Stmt.object]) h1 h2

/-- C50 fails with the usual options: the number 1 of type `int` and that of type `long` share
a node. -/
theorem C50_fails_numbers (sty : IriStyle) : ¬ C50_statement sty := by
  intro h
  have key : firstItems sty DotOptions.default
      (graphOf [.mk (.blank (str! "a")) ⟨str! "http://a/p"⟩ (.lit ⟨str! "1", some .int, none⟩),
        .mk (.blank (str! "a")) ⟨str! "http://a/p"⟩ (.lit ⟨str! "1", some .long, none⟩)]) 2 =
      some [.edge (str! "node_1") (str! "node_2") [(str! "label", (Iri.mk (str! "http://a/p")).fmt sty)],
        .edge (str! "node_1") (str! "node_2") [(str! "label", (Iri.mk (str! "http://a/p")).fmt sty)]] := by
    cases sty <;> decide +kernel
  obtain ⟨items, h1, h2⟩ := h.first default_safe (graphOf_safe (by decide)) key
  exact not_draws_of_same rfl (by simp [Stmt.object]) h1 h2

/-- C50 fails with the usual options: a resource and the `anyURI` literal that holds its text
share a node. -/
theorem C50_fails_uri (sty : IriStyle) : ¬ C50_statement sty := by
  intro h
  have key : firstItems sty DotOptions.default
      (graphOf [.mk (.blank (str! "a")) ⟨str! "http://a/p"⟩ (.res ⟨str! "http://a/x"⟩),
        .mk (.blank (str! "a")) ⟨str! "http://a/p"⟩
          (.lit ⟨(Iri.mk (str! "http://a/x")).fmt sty, some .iri, none⟩)]) 2 =
      some [.edge (str! "node_1") (str! "node_2") [(str! "label", (Iri.mk (str! "http://a/p")).fmt sty)],
        .edge (str! "node_1") (str! "node_2") [(str! "label", (Iri.mk (str! "http://a/p")).fmt sty)]] := by
    cases sty <;> decide +kernel
  obtain ⟨items, h1, h2⟩ := h.first default_safe (graphOf_safe (by cases sty <;> decide)) key
  exact not_draws_of_same rfl (by simp [Stmt.object]) h1 h2

/-- Non-vacuity: a small graph meets the hypotheses of `C50_drawing_partial` and is drawn. -/
example : firstItems .bracketed DotOptions.default
    (graphOf [.mk (.res ⟨str! "http://a/s"⟩) ⟨str! "http://a/p"⟩ (.lit ⟨str! "v", none, none⟩)]) 5 =
    some [.edge (str! "node_1") (str! "node_2") [(str! "label", str! "<http://a/p>")],
      .node (str! "node_1") [(str! "URL", str! "<http://a/s>"), (str! "label", str! "<http://a/s>"),
        (str! "shape", str! "ellipse"), (str! "color", str! "blue")],
      .node (str! "node_2") [(str! "label", str! "v"), (str! "shape", str! "record"),
        (str! "color", str! "black")]] := by decide +kernel

/-! ### C72 -/

/-- C72, the full statement: a writer that has drawn a graph draws the next one as a new
writer would, up to the choice of identifiers. -/
def C72_statement (sty : IriStyle) : Prop :=
  ∀ (opts : DotOptions) (ord : DotNodes → DotNodes) (g g' : Graph) (text text' : Str) (m m' : DotNodes),
    OptionsSafe opts → GraphSafe g → GraphSafe g' → (∀ m, (ord m).Perm m) →
    opts.nodePrefix = str! "node_" →
    (∀ o ∈ nodesOf (g.stmts ++ g'.stmts), Drawable o) → KeysDiffer sty (nodesOf (g.stmts ++ g'.stmts)) →
    writeDot sty ord opts [] g = .ok (text, m) → writeDot sty ord opts m g' = .ok (text', m') →
    ∃ items, readDot text' = some items ∧ Draws sty opts g' items

theorem endsOf_append (a b : List Stmt) : endsOf (a ++ b) = endsOf a ++ endsOf b := by
  simp [endsOf]

theorem setExtend_append {α : Type _} [DecidableEq α] (l a b : List α) :
    setExtend l (a ++ b) = setExtend (setExtend l a) b := by
  simp [setExtend]

/-- C72, what holds: the second drawing has the edges of the second graph, and the nodes of
both. -/
theorem C72_both_partial (sty : IriStyle) (opts : DotOptions) (ord : DotNodes → DotNodes) (g g' : Graph)
    (text text' : Str) (m m' : DotNodes) (ho : OptionsSafe opts) (hg : GraphSafe g) (hg' : GraphSafe g')
    (hord : ∀ m, (ord m).Perm m) (hp : opts.nodePrefix = str! "node_")
    (hd : ∀ o ∈ nodesOf (g.stmts ++ g'.stmts), Drawable o)
    (hk : KeysDiffer sty (nodesOf (g.stmts ++ g'.stmts)))
    (h : writeDot sty ord opts [] g = .ok (text, m)) (h' : writeDot sty ord opts m g' = .ok (text', m')) :
    ∃ id : Object → Str,
      (∀ a ∈ nodesOf (g.stmts ++ g'.stmts), ∀ b ∈ nodesOf (g.stmts ++ g'.stmts), id a = id b → a = b) ∧
      ∃ nodes drawn, nodes.Perm (nodesOf (g.stmts ++ g'.stmts)) ∧
        List.Forall₂ (draws sty opts id) nodes drawn ∧
        readDot text' = some (g'.stmts.map (edgeItem sty opts g'.mappings id) ++ drawn) := by
  have e : nodesOf (g.stmts ++ g'.stmts) = setExtend (nodesOf g.stmts) (endsOf g'.stmts) := by
    rw [← setOf_endsOf, endsOf_append, setExtend_append, setOf_endsOf]
  have sub : ∀ o ∈ nodesOf g.stmts, o ∈ nodesOf (g.stmts ++ g'.stmts) := by
    intro o hm
    rw [e]
    exact mem_setExtend.2 (.inl hm)
  obtain ⟨e1, _⟩ := writeDot_reads (L := []) ho hp hord List.nodup_nil hg.1 hg.2.2.2
    (fun o hm => ⟨fun i e => hg.2.1 i (e ▸ hm), fun l e => hg.2.2.1 l (e ▸ hm)⟩)
    (fun o hm => hd o (sub o hm)) (fun a ha b hb => hk a (sub a ha) b (sub b hb)) h
  rw [setOf_endsOf] at e1
  rw [e1] at h'
  rw [e] at hd hk
  obtain ⟨_, nodes, drawn, h1, h2, h3⟩ := writeDot_reads (L := nodesOf g.stmts) ho hp hord (setOf_nodup _)
    hg'.1 hg'.2.2.2 (by
      intro o hm
      rcases mem_setExtend.1 hm with hm | hm
      · exact ⟨fun i e => hg.2.1 i (e ▸ hm), fun l e => hg.2.2.1 l (e ▸ hm)⟩
      · have hm : o ∈ nodesOf g'.stmts := mem_setOf.2 hm
        exact ⟨fun i e => hg'.2.1 i (e ▸ hm), fun l e => hg'.2.2.1 l (e ▸ hm)⟩) hd hk h'
  rw [e]
  exact ⟨_, fun a ha b _ x => dotIdIn_inj ha x, nodes, drawn, h1, h2, h3⟩

/-- C72, exactly: the second drawing is that of the second graph if and only if each node of the first is a node of the
second. -/
theorem C72_iff (sty : IriStyle) (opts : DotOptions) (ord : DotNodes → DotNodes) (g g' : Graph)
    (text text' : Str) (m m' : DotNodes) (ho : OptionsSafe opts) (hg : GraphSafe g) (hg' : GraphSafe g')
    (hord : ∀ m, (ord m).Perm m) (hp : opts.nodePrefix = str! "node_")
    (hd : ∀ o ∈ nodesOf (g.stmts ++ g'.stmts), Drawable o)
    (hk : KeysDiffer sty (nodesOf (g.stmts ++ g'.stmts)))
    (h : writeDot sty ord opts [] g = .ok (text, m)) (h' : writeDot sty ord opts m g' = .ok (text', m')) :
    (∃ items, readDot text' = some items ∧ Draws sty opts g' items) ↔ ∀ o ∈ nodesOf g.stmts, o ∈ nodesOf g'.stmts := by
  obtain ⟨id, hid, nodes, drawn, h1, h2, h3⟩ := C72_both_partial sty opts ord g g' text text' m m' ho hg hg' hord hp hd hk h h'
  have e : nodesOf (g.stmts ++ g'.stmts) = setExtend (nodesOf g.stmts) (endsOf g'.stmts) := by
    rw [← setOf_endsOf, endsOf_append, setExtend_append, setOf_endsOf]
  have hmem : ∀ o, o ∈ nodesOf (g.stmts ++ g'.stmts) ↔ o ∈ nodesOf g.stmts ∨ o ∈ nodesOf g'.stmts := by
    intro o
    rw [e, mem_setExtend, show nodesOf g'.stmts = setOf (endsOf g'.stmts) from (setOf_endsOf _).symm, mem_setOf]
  have hnd : ∀ sts, (nodesOf sts).Nodup := fun sts => setOf_nodup _
  constructor
  · rintro ⟨items, h4, id', hid', nodes', drawn', h5, h6, h7⟩ o ho
    have hl : (nodesOf (g.stmts ++ g'.stmts)).length = (nodesOf g'.stmts).length := by
      rw [h3, Option.some.injEq] at h4
      have := congrArg List.length (h4.trans h7)
      simp only [List.length_append, List.length_map] at this
      have a := h2.length_eq
      have b := h6.length_eq
      have c := h1.length_eq
      have d := h5.length_eq
      omega
    have hsub : (nodesOf g'.stmts).Subperm (nodesOf (g.stmts ++ g'.stmts)) :=
      (hnd _).subperm fun a ha => (hmem a).2 (.inr ha)
    exact (hsub.perm_of_length_le (by omega)).mem_iff.2 ((hmem o).2 (.inl ho))
  · intro hsub
    have hperm : (nodesOf (g.stmts ++ g'.stmts)).Perm (nodesOf g'.stmts) := by
      rw [List.perm_ext_iff_of_nodup (hnd _) (hnd _)]
      intro o
      rw [hmem]
      exact ⟨fun h => h.elim (hsub o) fun h => h, .inr⟩
    refine ⟨_, h3, id, ?_, nodes, drawn, h1.trans hperm, h2, rfl⟩
    exact fun a ha b hb => hid a (hperm.mem_iff.2 ha) b (hperm.mem_iff.2 hb)

/-- C72 fails: the nodes of the first graph are drawn again with the second, here an empty one. -/
theorem C72_fails (sty : IriStyle) : ¬ C72_statement sty := by
  intro h
  have k1 : ∃ text m, writeDot sty id DotOptions.default []
      (graphOf [.mk (.blank (str! "a")) ⟨str! "http://a/p"⟩ (.blank (str! "b"))]) = .ok (text, m) ∧
      ∃ text' m', writeDot sty id DotOptions.default m (graphOf []) = .ok (text', m') ∧
        readDot text' ≠ some [] := by
    cases sty
    · refine ⟨_, _, rfl, _, _, rfl, ?_⟩
      decide +kernel
    · refine ⟨_, _, rfl, _, _, rfl, ?_⟩
      decide +kernel
  obtain ⟨text, m, h1, text', m', h2, h3⟩ := k1
  have no : nodesOf ((graphOf [.mk (.blank (str! "a")) ⟨str! "http://a/p"⟩ (.blank (str! "b"))]).stmts ++
      (graphOf []).stmts) = [.blank (str! "a"), .blank (str! "b")] := by decide +kernel
  obtain ⟨items, h4, id, _, nodes, drawn, p, f, e⟩ := h DotOptions.default id _ _ text text' m m' default_safe
    (graphOf_safe (by decide)) (graphOf_safe (by decide)) (fun m => .refl _) rfl
    (by
      rw [no]
      intro o ho
      simp only [List.mem_cons, List.not_mem_nil, or_false] at ho
      rcases ho with rfl | rfl <;> trivial)
    (by
      refine C50_keys_differ _ _ ?_ ?_ <;> rw [no]
      · intro o ho
        simp only [List.mem_cons, List.not_mem_nil, or_false] at ho
        rcases ho with rfl | rfl <;> trivial
      · intro l hl
        simp at hl)
    h1 h2
  have : nodesOf (graphOf []).stmts = [] := rfl
  rw [this] at p
  have := p.eq_nil
  subst this
  cases f
  apply h3
  rw [h4, e]
  rfl

/-! ### C73 -/

/-- C73, the full statement: drawing a graph does not panic. -/
def C73_statement (sty : IriStyle) : Prop :=
  ∀ (opts : DotOptions) (ord : DotNodes → DotNodes) (m : DotNodes) (g : Graph),
    writeDot sty ord opts m g ≠ .panic

theorem dotEdges_panic {sty : IriStyle} {opts : DotOptions} {pm : PrefixMap} {m : DotNodes} {sts : List Stmt} :
    dotEdges sty opts pm m sts = .panic ↔ ∃ st ∈ sts, st.predicate.split = .panic := by
  have lab : ∀ p : Iri, dotEdgeLabel sty pm p = .panic ↔ p.split = .panic := by
    intro p
    unfold dotEdgeLabel PrefixMap.compress
    cases hs : p.split with
    | panic => simp
    | ok r =>
      cases r with
      | none => simp
      | some x =>
        obtain ⟨ns, n⟩ := x
        cases hg : pm.getPrefix ns <;> simp [hg]
  induction sts generalizing m with
  | nil => simp [dotEdges]
  | cons st sts ih =>
    simp only [dotEdges, List.mem_cons, exists_eq_or_imp, ← lab st.predicate]
    cases hl : dotEdgeLabel sty pm st.predicate with
    | panic => simp
    | ok l =>
      have := @ih (dotObjectId sty (dotSubjectId sty m st.subject).2 st.object).2
      cases hr : dotEdges sty opts pm (dotObjectId sty (dotSubjectId sty m st.subject).2 st.object).2 sts with
      | panic => simp [← this, hr]
      | ok r => simp [← this, hr]

/-- C73, what holds: drawing panics exactly if some predicate cannot be split. -/
theorem C73_panics_partial (sty : IriStyle) (opts : DotOptions) (ord : DotNodes → DotNodes) (m : DotNodes)
    (g : Graph) :
    writeDot sty ord opts m g = .panic ↔ ∃ st ∈ g.stmts, st.predicate.split = .panic := by
  rw [← dotEdges_panic (sty := sty) (opts := opts) (pm := g.mappings) (m := m)]
  unfold writeDot
  cases dotEdges sty opts g.mappings m g.stmts <;> simp

/-- C73 fails for the predicate `urn:x`. -/
theorem C73_fails (sty : IriStyle) : ¬ C73_statement sty := by
  intro h
  refine h DotOptions.default id [] (graphOf [.mk (.blank (str! "a")) ⟨str! "urn:x"⟩ (.blank (str! "b"))])
    ((C73_panics_partial _ _ _ _ _).2 ⟨_, List.mem_singleton.2 rfl, by decide⟩)

end Rdftk
