import Verif.Model.Node
import Verif.Model.PrefixMap
import Verif.Lemmas.Node

/-!
Model of `rdftk_core/src/model/graph.rs`, without `skolemize` and `simplify` (see
`Model/Expand.lean`), and of `model/data_set.rs`.

A `HashSet` is a list without repetition; the list is in the order in which the set would be
visited.  Rust does not say what that order is, and it may change with any operation: the
operation `rehash` of `GraphOp` stands for such a change.
-/

namespace Rdftk

/-- `HashSet::insert`. -/
def setInsert {α : Type _} [DecidableEq α] (l : List α) (a : α) : List α :=
  if a ∈ l then l else l ++ [a]

/-- `HashSet::extend`. -/
def setExtend {α : Type _} [DecidableEq α] (l : List α) (as : List α) : List α :=
  as.foldl setInsert l

/-- `HashSet::from_iter`. -/
def setOf {α : Type _} [DecidableEq α] (as : List α) : List α := setExtend [] as

/-- `graph.rs` 37-41, `GraphName`. -/
inductive GraphName where
  | bnode (b : Str)
  | iri (i : Iri)
deriving DecidableEq, Repr

/-- `graph.rs` 77-88, `Display for GraphName`. -/
def GraphName.display (sty : IriStyle) : GraphName → Str
  | .bnode b => str! "_:" ++ b
  | .iri i => '<' :: i.fmt sty ++ str! ">"

/-- `graph.rs` 126-134, `From<SubjectNode>`; a statement is `unreachable!()`. -/
def GraphName.ofSubject : Subject → Outcome GraphName
  | .blank b => .ok (.bnode b)
  | .res i => .ok (.iri i)
  | .stmt _ => .panic

/-- `graph.rs` 61-65, `Statements`. -/
inductive Statements where
  | unique (l : List Stmt)
  | nonUnique (l : List Stmt)

namespace Statements

/-- `graph.rs` 757-762, `iter`. -/
def iter : Statements → List Stmt
  | .unique l => l
  | .nonUnique l => l

/-- `graph.rs` 702-707, `len`. -/
def len : Statements → Nat
  | .unique l => l.length
  | .nonUnique l => l.length

/-- `graph.rs` 709-714, `is_empty`. -/
def isEmpty : Statements → Bool
  | .unique l => l.isEmpty
  | .nonUnique l => l.isEmpty

/-- `graph.rs` 716-724, `insert`. -/
def insert : Statements → Stmt → Statements
  | .unique l, s => .unique (setInsert l s)
  | .nonUnique l, s => .nonUnique (l ++ [s])

/-- `graph.rs` 726-734, `extend`. -/
def extend : Statements → List Stmt → Statements
  | .unique l, ss => .unique (setExtend l ss)
  | .nonUnique l, ss => .nonUnique (l ++ ss)

/-- `graph.rs` 736-744, `remove`. -/
def remove : Statements → Stmt → Statements
  | .unique l, s => .unique (l.erase s)
  | .nonUnique l, s => .nonUnique (l.filter fun e => decide (e ≠ s))

/-- `graph.rs` 746-751, `clear`. -/
def clear : Statements → Statements
  | .unique _ => .unique []
  | .nonUnique _ => .nonUnique []

/-- `graph.rs` 753-755, `is_unique`. -/
def isUnique : Statements → Bool
  | .unique _ => true
  | .nonUnique _ => false

/-- `graph.rs` 765-770, `into_unique`. -/
def intoUnique : Statements → Statements
  | .unique l => .unique l
  | .nonUnique l => .unique (setOf l)

/-- `graph.rs` 773-778, `into_non_unique`. -/
def intoNonUnique : Statements → Statements
  | .nonUnique l => .nonUnique l
  | .unique l => .nonUnique l

end Statements

/-- `graph.rs` 50-55, `Graph`. -/
structure Graph where
  name : Option GraphName
  statements : Statements
  mappings : PrefixMap

/-- `IriPrefixMap::default()`, the mappings of a new graph. -/
def defaultMappings : PrefixMap := PrefixMap.default.getD .empty

/-- `model/features.rs`, `FEATURE_GRAPH_DUPLICATES`. -/
def featureDuplicates : Iri := ⟨str! "http://rust-rdftk.dev/feature/graph/duplicates"⟩
/-- `model/features.rs`, `FEATURE_RDF_STAR`. -/
def featureRdfStar : Iri := ⟨str! "http://rust-rdftk.dev/feature/graph/rdf_star"⟩

namespace Graph

/-- `graph.rs` 50 and 695-699, `Default`. -/
def default : Graph := ⟨none, .nonUnique [], defaultMappings⟩

/-- `graph.rs` 219-226, `from_iter`; also `From<Statement>` and `From<Vec<Statement>>`. -/
def fromIter (ss : List Stmt) : Graph := { Graph.default with statements := .nonUnique ss }

/-- `graph.rs` 233-241, `named`. -/
def named (n : GraphName) : Graph := { Graph.default with name := some n }

/-- `graph.rs` 243-248, `unique`. -/
def uniq : Graph := { Graph.default with statements := .unique [] }

/-- `graph.rs` 250-258, `unique_named`. -/
def uniqNamed (n : GraphName) : Graph := { uniq with name := some n }

/-- `graph.rs` 260-263, `with_mappings`, and 487-489, `set_prefix_mappings`. -/
def withMappings (g : Graph) (m : PrefixMap) : Graph := { g with mappings := m }

/-- `graph.rs` 265-273, `with_statements`. -/
def withStatements (g : Graph) (ss : List Stmt) : Graph :=
  { g with statements := match g.statements with
    | .unique _ => .unique (setOf ss)
    | .nonUnique _ => .nonUnique ss }

/-- `graph.rs` 200-205, `supports_feature`. -/
def supportsFeature (g : Graph) (f : Iri) : Bool :=
  (f == featureDuplicates && g.statements.isUnique) || f == featureRdfStar

/-- `graph.rs` 282-284. -/
def isEmpty (g : Graph) : Bool := g.statements.isEmpty
/-- `graph.rs` 289-291. -/
def len (g : Graph) : Nat := g.statements.len
/-- `graph.rs` 300-302. -/
def isNamed (g : Graph) : Bool := g.name.isSome
/-- `graph.rs` 314-316. -/
def setName (g : Graph) (n : GraphName) : Graph := { g with name := some n }
/-- `graph.rs` 321-323. -/
def unsetName (g : Graph) : Graph := { g with name := none }

/-- `graph.rs` 391-393, `statements()`. -/
def stmts (g : Graph) : List Stmt := g.statements.iter

/-- `graph.rs` 332-334. -/
def containsSubject (g : Graph) (s : Subject) : Bool := g.stmts.any fun st => st.subject == s

/-- One optional component of a pattern, `graph.rs` 377-379: `x.is_some() && y == x.unwrap()`. -/
def agrees {α : Type _} [DecidableEq α] (x : Option α) (y : α) : Bool :=
  match x with
  | some v => y == v
  | none => false

/-- `graph.rs` 368-382, `matches`. -/
def «matches» (g : Graph) (s : Option Subject) (p : Option Iri) (o : Option Object) : List Stmt :=
  setOf (g.stmts.filter fun st =>
    agrees s st.subject && agrees p st.predicate && agrees o st.object)

/-- `graph.rs` 339-347, `contains`. -/
def contains (g : Graph) (st : Stmt) : Bool :=
  !(g.matches (some st.subject) (some st.predicate) (some st.object)).isEmpty

/-- `graph.rs` 353-362, `contains_all`. -/
def containsAll (g : Graph) (s : Subject) (p : Iri) (o : Object) : Bool :=
  !(g.matches (some s) (some p) (some o)).isEmpty

/-- `graph.rs` 399-401. -/
def subjects (g : Graph) : List Subject := setOf (g.stmts.map Stmt.subject)
/-- `graph.rs` 406-411. -/
def nodeSubjects (g : Graph) : List Subject := setOf (g.subjects.filter fun s => !s.isBlank)
/-- `graph.rs` 416-421. -/
def blankSubjects (g : Graph) : List Subject := setOf (g.subjects.filter fun s => s.isBlank)
/-- `graph.rs` 427-429. -/
def predicates (g : Graph) : List Iri := setOf (g.stmts.map Stmt.predicate)
/-- `graph.rs` 435-446. -/
def predicatesFor (g : Graph) (s : Subject) : List Iri :=
  setOf (g.stmts.filterMap fun st => if st.subject = s then some st.predicate else none)
/-- `graph.rs` 452-454. -/
def objects (g : Graph) : List Object := setOf (g.stmts.map Stmt.object)
/-- `graph.rs` 460-471. -/
def objectsFor (g : Graph) (s : Subject) (p : Iri) : List Object :=
  setOf (g.stmts.filterMap fun st =>
    if st.subject = s ∧ st.predicate = p then some st.object else none)

/-- `graph.rs` 498-500. -/
def insert (g : Graph) (s : Stmt) : Graph := { g with statements := g.statements.insert s }
/-- `graph.rs` 502-507. -/
def extend (g : Graph) (ss : List Stmt) : Graph := { g with statements := g.statements.extend ss }
/-- `graph.rs` 513-515. -/
def merge (g : Graph) (h : Graph) : Graph := h.stmts.foldl insert g

/-- `graph.rs` 530-537, one step of the fold of `dedup`. -/
def dedupStep (kd : List Stmt × List Stmt) (st : Stmt) : List Stmt × List Stmt :=
  if st ∈ kd.1 then (kd.1, kd.2 ++ [st]) else (setInsert kd.1 st, kd.2)

/-- `graph.rs` 524-542, `dedup`: the new graph and the statements removed.  `ord` is the order
in which the set of kept statements is visited when it is turned into a vector. -/
def dedup (ord : List Stmt → List Stmt) (g : Graph) : Graph × List Stmt :=
  if g.statements.isUnique then (g, [])
  else
    let kd := g.stmts.foldl dedupStep ([], [])
    ({ g with statements := .nonUnique (ord kd.1) }, kd.2)

/-- `graph.rs` 548-550. -/
def remove (g : Graph) (s : Stmt) : Graph := { g with statements := g.statements.remove s }

/-- `graph.rs` 558-565, one step of the fold of `remove_all_for`. -/
def removeStep (s : Subject) (kd : List Stmt × List Stmt) (st : Stmt) : List Stmt × List Stmt :=
  if st.subject = s then (kd.1 ++ [st], kd.2) else (kd.1, kd.2 ++ [st])

/-- `graph.rs` 555-574, `remove_all_for`: the new graph and the statements returned. -/
def removeAllFor (g : Graph) (s : Subject) : Graph × List Stmt :=
  let kd := g.stmts.foldl (removeStep s) ([], [])
  ({ g with statements :=
      if g.statements.isUnique then .unique (setOf kd.1) else .nonUnique kd.1 }, kd.2)

/-- `graph.rs` 579-581. -/
def clear (g : Graph) : Graph := { g with statements := g.statements.clear }

end Graph

/-! ### Data sets, `rdftk_core/src/model/data_set.rs` -/

/-- `data_set.rs` 57-60; the `HashMap` is a list of pairs in the order of a visit. -/
structure DataSet where
  graphs : List (Option GraphName × Graph)

namespace DataSet

/-- `data_set.rs` 57, `Default`. -/
def empty : DataSet := ⟨[]⟩

/-- `HashMap::insert`: a present key keeps its place, its value is replaced. -/
def mapInsert (k : Option GraphName) (g : Graph) :
    List (Option GraphName × Graph) → List (Option GraphName × Graph)
  | [] => [(k, g)]
  | e :: es => if e.1 = k then (k, g) :: es else e :: mapInsert k g es

/-- `data_set.rs` 177-180, `insert`. -/
def insert (d : DataSet) (g : Graph) : DataSet := ⟨mapInsert g.name g d.graphs⟩

/-- `data_set.rs` 185-187, `extend`. -/
def extend (d : DataSet) (gs : List Graph) : DataSet := gs.foldl insert d

/-- `data_set.rs` 84-92, `from_iter`; also `From<Graph>` and `From<Vec<Graph>>`. -/
def fromIter (gs : List Graph) : DataSet :=
  ⟨gs.foldl (fun m g => mapInsert g.name g m) []⟩

/-- `data_set.rs` 193-195, `remove`. -/
def remove (d : DataSet) (k : Option GraphName) : DataSet :=
  ⟨d.graphs.filter fun e => decide (e.1 ≠ k)⟩

/-- `data_set.rs` 200-202, `clear`. -/
def clear (_ : DataSet) : DataSet := ⟨[]⟩

/-- `data_set.rs` 141-143, `graph`. -/
def graph (d : DataSet) (k : Option GraphName) : Option Graph :=
  (d.graphs.find? fun e => e.1 == k).map (·.2)

/-- `data_set.rs` 145-147, `graph_mut` followed by an assignment through the reference. -/
def graphMut (d : DataSet) (k : Option GraphName) (f : Graph → Graph) : DataSet :=
  ⟨d.graphs.map fun e => if e.1 = k then (e.1, f e.2) else e⟩

/-- `data_set.rs` 119-121, `contains_graph`. -/
def containsGraph (d : DataSet) (k : Option GraphName) : Bool := d.graphs.any fun e => e.1 == k
/-- `data_set.rs` 126-128. -/
def hasDefaultGraph (d : DataSet) : Bool := d.containsGraph none
/-- `data_set.rs` 133-135. -/
def hasGraphNamed (d : DataSet) (n : GraphName) : Bool := d.containsGraph (some n)
/-- `data_set.rs` 152-154. -/
def defaultGraph (d : DataSet) : Option Graph := d.graph none
/-- `data_set.rs` 159-161. -/
def graphNamed (d : DataSet) (n : GraphName) : Option Graph := d.graph (some n)
/-- `data_set.rs` 166-168. -/
def allGraphs (d : DataSet) : List Graph := d.graphs.map (·.2)
/-- `data_set.rs` 104-106. -/
def isEmpty (d : DataSet) : Bool := d.graphs.isEmpty
/-- `data_set.rs` 111-113. -/
def len (d : DataSet) : Nat := d.graphs.length

end DataSet

end Rdftk
