import Verif.Model.Graph

/-! Model of `rdftk_core/src/simple/indexed.rs`: graphs with an index for each of subject, predicate
and object.  The crate does not compile this file at present; it is modelled as written.

A `HashMap` is a list of pairs with distinct keys.  The order in which a set is visited when it is
turned into a vector is a parameter.  `remove` changes the vector inside the loop over it and leaves
the loop at once, which is modelled as erasing the first equal statement. -/

namespace Rdftk

/-- `indexed.rs` 33-35, the type of an index. -/
abbrev Index (κ : Type) := List (κ × List Stmt)

namespace Index

variable {κ : Type} [DecidableEq κ]

/-- `HashMap::get`. -/
def get (k : κ) : Index κ → Option (List Stmt)
  | [] => none
  | e :: m => if e.1 = k then some e.2 else get k m

/-- `indexed.rs` 223-232, 233-242 and 243-252: the statement is put at the end of the entry of its
key. -/
def push (k : κ) (st : Stmt) : Index κ → Index κ
  | [] => [(k, [st])]
  | e :: m => if e.1 = k then (e.1, e.2 ++ [st]) :: m else e :: push k st m

/-- `indexed.rs` 334-344, `remove_from_index`. -/
def removeFrom (k : κ) (st : Stmt) : Index κ → Index κ
  | [] => []
  | e :: m => if e.1 = k then (e.1, e.2.erase st) :: m else e :: removeFrom k st m

/-- `HashMap::keys`. -/
def keys (m : Index κ) : List κ := m.map (·.1)

/-- `HashMap::contains_key`. -/
def containsKey (k : κ) (m : Index κ) : Bool := (m.get k).isSome

/-- `indexed.rs` 143-166: the statements for a key that may be missing from the pattern. -/
def select (m : Index κ) : Option κ → List Stmt
  | none => []
  | some k => setOf ((m.get k).getD [])

end Index

/-- `indexed.rs` 28-36, `IndexedSimpleGraph`. -/
structure IndexedGraph where
  name : Option GraphName
  stmts : List Stmt
  mappings : PrefixMap
  sIndex : Index Subject
  pIndex : Index Iri
  oIndex : Index Object

namespace IndexedGraph

/-- `indexed.rs` 222-254, `insert`. -/
def insert (g : IndexedGraph) (st : Stmt) : IndexedGraph :=
  { g with
    sIndex := g.sIndex.push st.subject st
    pIndex := g.pIndex.push st.predicate st
    oIndex := g.oIndex.push st.object st
    stmts := g.stmts ++ [st] }

/-- `indexed.rs` 86-106, `create`. -/
def create (name : Option GraphName) (sts : List Stmt) (pm : Option PrefixMap) : IndexedGraph :=
  sts.foldl insert ⟨name, sts, pm.getD defaultMappings, [], [], []⟩

/-- `indexed.rs` 59-61, `graph`. -/
def new : IndexedGraph := create none [] none
/-- `indexed.rs` 63-65, `named_graph`. -/
def newNamed (n : Option GraphName) : IndexedGraph := create n [] none
/-- `indexed.rs` 67-73, `graph_from`. -/
def graphFrom (sts : List Stmt) (pm : Option PrefixMap) : IndexedGraph := create none sts pm
/-- `indexed.rs` 75-82, `named_graph_from`. -/
def namedGraphFrom (n : Option GraphName) (sts : List Stmt) (pm : Option PrefixMap) : IndexedGraph :=
  create n sts pm

/-- `indexed.rs` 125-127. -/
def isEmpty (g : IndexedGraph) : Bool := g.stmts.isEmpty
/-- `indexed.rs` 129-131. -/
def len (g : IndexedGraph) : Nat := g.stmts.length
/-- `indexed.rs` 133-135. -/
def containsSubject (g : IndexedGraph) (s : Subject) : Bool := g.sIndex.containsKey s

/-- `indexed.rs` 137-174, `matches`. -/
def «matches» (g : IndexedGraph) (s : Option Subject) (p : Option Iri) (o : Option Object) : List Stmt :=
  ((g.sIndex.select s).filter fun st => st ∈ g.pIndex.select p).filter fun st => st ∈ g.oIndex.select o

/-- `indexed.rs` 180-182. -/
def subjects (g : IndexedGraph) : List Subject := setOf g.sIndex.keys
/-- `indexed.rs` 184-186. -/
def predicates (g : IndexedGraph) : List Iri := setOf g.pIndex.keys
/-- `indexed.rs` 188-193. -/
def predicatesFor (g : IndexedGraph) (s : Subject) : List Iri :=
  setOf (((g.sIndex.get s).getD []).map Stmt.predicate)
/-- `indexed.rs` 195-197. -/
def objects (g : IndexedGraph) : List Object := setOf g.oIndex.keys
/-- `indexed.rs` 199-208. -/
def objectsFor (g : IndexedGraph) (s : Subject) (p : Iri) : List Object :=
  setOf ((g.matches (some s) (some p) none).map Stmt.object)

/-- `indexed.rs` 214-216. -/
def setMappings (g : IndexedGraph) (m : PrefixMap) : IndexedGraph := { g with mappings := m }

/-- `indexed.rs` 218-220, `statements_mut`, followed by an assignment to the statement at a place. -/
def setStatement (g : IndexedGraph) (i : Nat) (st : Stmt) : IndexedGraph := { g with stmts := g.stmts.set i st }

/-- `indexed.rs` 256-261, `merge`. -/
def merge (g h : IndexedGraph) : IndexedGraph := h.stmts.foldl insert g

/-- `indexed.rs` 328-332, `remove_indices_for`. -/
def removeIndicesFor (g : IndexedGraph) (st : Stmt) : IndexedGraph :=
  { g with
    sIndex := g.sIndex.removeFrom st.subject st
    pIndex := g.pIndex.removeFrom st.predicate st
    oIndex := g.oIndex.removeFrom st.object st }

/-- `indexed.rs` 263-283, `dedup`: the new graph and the statements removed.  `ord` is the order in
which the set of kept statements is visited. -/
def dedup (ord : List Stmt → List Stmt) (g : IndexedGraph) : IndexedGraph × List Stmt :=
  let kd := g.stmts.foldl
    (fun (kd : List Stmt × List Stmt) st =>
      if st ∈ kd.1 then (kd.1, kd.2 ++ [st]) else (setInsert kd.1 st, kd.2)) ([], [])
  (kd.2.foldl removeIndicesFor { g with stmts := ord kd.1 }, kd.2)

/-- `indexed.rs` 285-293, `remove`. -/
def remove (g : IndexedGraph) (st : Stmt) : IndexedGraph :=
  if st ∈ g.stmts then removeIndicesFor { g with stmts := g.stmts.erase st } st else g

/-- `indexed.rs` 295-305, `remove_all_for`: the new graph and the statements removed. -/
def removeAllFor (g : IndexedGraph) (s : Subject) : IndexedGraph × List Stmt :=
  match g.sIndex.get s with
  | some sts => (sts.foldl remove g, sts)
  | none => (g, [])

/-- `indexed.rs` 307-312, `clear`. -/
def clear (g : IndexedGraph) : IndexedGraph := { g with stmts := [], sIndex := [], pIndex := [], oIndex := [] }

/-- `indexed.rs` 318-320. -/
def setName (g : IndexedGraph) (n : GraphName) : IndexedGraph := { g with name := some n }
/-- `indexed.rs` 322-324. -/
def unsetName (g : IndexedGraph) : IndexedGraph := { g with name := none }

end IndexedGraph

end Rdftk
