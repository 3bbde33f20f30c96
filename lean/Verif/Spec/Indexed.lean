import Verif.Model.Indexed
import Verif.Lemmas.Graph

/-! What the indices of an indexed graph should hold. -/

namespace Rdftk

/-- The calls that change an indexed graph. -/
inductive IndexedOp where
  | insert (st : Stmt)
  | merge (h : IndexedGraph)
  | dedup (ord : VisitOrder)
  | remove (st : Stmt)
  | removeAllFor (s : Subject)
  | clear
  | setName (n : GraphName)
  | unsetName
  | setMappings (m : PrefixMap)

/-- The graph after a call. -/
def IndexedGraph.apply (g : IndexedGraph) : IndexedOp → IndexedGraph
  | .insert st => g.insert st
  | .merge h => g.merge h
  | .dedup ord => (g.dedup ord.run).1
  | .remove st => g.remove st
  | .removeAllFor s => (g.removeAllFor s).1
  | .clear => g.clear
  | .setName n => g.setName n
  | .unsetName => g.unsetName
  | .setMappings m => g.setMappings m

namespace Spec

/-- An index holds, for every key, the statements that have the key, as often as the graph. -/
def IndexOf {κ : Type} [DecidableEq κ] (key : Stmt → κ) (m : Index κ) (l : List Stmt) : Prop :=
  ∀ k, ((m.get k).getD []).Perm (l.filter fun st => key st = k)

/-- The three indices of a graph hold its statements. -/
def Indexed (g : IndexedGraph) : Prop :=
  IndexOf Stmt.subject g.sIndex g.stmts ∧ IndexOf Stmt.predicate g.pIndex g.stmts ∧
    IndexOf Stmt.object g.oIndex g.stmts

/-- The statements put into a graph since it was last cleared. -/
def seen : List IndexedOp → List Stmt → List Stmt
  | [], l => l
  | .insert st :: ops, l => seen ops (l ++ [st])
  | .merge h :: ops, l => seen ops (l ++ h.stmts)
  | .clear :: ops, _ => seen ops []
  | _ :: ops, l => seen ops l

end Spec

end Rdftk
