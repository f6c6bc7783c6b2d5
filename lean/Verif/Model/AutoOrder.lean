import Verif.Model.Graph
import Verif.Model.Promotes
import Mathlib.Data.List.Dedup
/-! # Automatic ordering of subsystems (`openmdao/util/graph.py`, `openmdao/core/group.py`) -/
namespace OpenMDAO

section
variable {α : Type} [DecidableEq α]

/-- `parent.subgraph(scc)`: the edges between nodes of `scc`. Serves `breakScc` (`openmdao/util/graph.py:71-121`). -/
def inducedEdges (edges : List (α × α)) (scc : List α) : List (α × α) :=
  edges.filter (fun e => e.1 ∈ scc ∧ e.2 ∈ scc)

/-- `sgraph.in_degree(node, weight='weight')`. Serves `pickStep` (`openmdao/util/graph.py:94-103`). -/
def inDegree (wt : α × α → Nat) (sub : List (α × α)) (n : α) : Nat := ((sub.filter (fun e => e.2 = n)).map wt).sum

/-- `sgraph.out_degree(node, weight='weight')`. Serves `pickStep` (`openmdao/util/graph.py:94-103`). -/
def outDegree (wt : α × α → Nat) (sub : List (α × α)) (n : α) : Nat := ((sub.filter (fun e => e.1 = n)).map wt).sum

/-- One round of the selection loop, openmdao/util/graph.py:94-103; the state is (max_node, max_score, in_smaller). -/
def pickStep (lt : α → α → Bool) (wt : α × α → Nat) (sub : List (α × α)) (st : Option (α × Nat × Bool)) (node : α) :
    Option (α × Nat × Bool) :=
  let din := inDegree wt sub node
  let dout := outDegree wt sub node
  let score := (din - dout) + (dout - din)
  match st with
  | none => some (node, score, decide (din ≤ dout))
  | some (m, ms, sm) =>
    if ms < score || (score == ms && lt node m) then some (node, score, decide (din ≤ dout)) else some (m, ms, sm)

/-- The node whose connections are broken, openmdao/util/graph.py:87-103. -/
def pickNode (lt : α → α → Bool) (wt : α × α → Nat) (sub : List (α × α)) (scc : List α) : Option (α × Nat × Bool) :=
  scc.foldl (pickStep lt wt sub) none

/-- The edges removed, openmdao/util/graph.py:105-114. -/
def brokenAt (sub : List (α × α)) (m : α) (inSmaller : Bool) : List (α × α) :=
  if inSmaller then sub.filter (fun e => e.2 = m) else sub.filter (fun e => e.1 = m)

/-- `break_strongly_connected`, openmdao/util/graph.py:71-121, on the pair (edges of `parent`, `broken_edges`). `sccs V E` is
`nx.strongly_connected_components` of the graph with nodes `V` and edges `E`. `fuel` bounds the depth of the recursion; the
number of nodes is always enough because every level drops one node. -/
def breakScc (lt : α → α → Bool) (wt : α × α → Nat) (sccs : List α → List (α × α) → List (List α)) :
    Nat → List (α × α) × List (α × α) → List α → List (α × α) × List (α × α)
  | 0, st, _ => st
  | n + 1, st, scc =>
    let sub := inducedEdges st.1 scc
    match pickNode lt wt sub scc with
    | none => st
    | some (m, _, inSmaller) =>
      let rem := brokenAt sub m inSmaller
      ((sccs scc (sub.filter (fun e => e ∉ rem))).filter (fun s => 1 < s.length)).foldl (breakScc lt wt sccs n)
        (st.1.filter (fun e => e ∉ rem), st.2 ++ rem)

/-- `Group._break_cycles`, openmdao/core/group.py:1193-1210: the remaining edges and the removed edges. -/
def breakCycles (lt : α → α → Bool) (wt : α × α → Nat) (sccs : List α → List (α × α) → List (List α))
    (nodes : List α) (edges : List (α × α)) : List (α × α) × List (α × α) :=
  ((sccs nodes edges).filter (fun s => 1 < s.length)).foldl (breakScc lt wt sccs nodes.length) (edges, [])

/-- Outcome of a loop with a bound on the number of steps. Serves `listAutoOrder` (`openmdao/core/group.py:1143-1158`). -/
inductive TopoOut (α : Type) where
  | done (seen order : List α)
  | cycle
  | outOfFuel

/-- The `while fringe` loop of `nx.topological_sort` (networkx 1.x, external; its algorithm is written out here): `fringe` is
the stack with its top first, `order` the list of explored nodes. Serves `listAutoOrder` (`openmdao/core/group.py:1143-1158`). -/
def topoLoop (edges : List (α × α)) : Nat → List α → List α → List α → TopoOut α
  | _, seen, order, [] => .done seen order
  | 0, _, _, _ :: _ => .outOfFuel
  | n + 1, seen, order, w :: fringe =>
    if w ∈ order then topoLoop edges n seen order fringe
    else
      let new := (gsucc edges w).filter (fun x => x ∉ order)
      if new.any (fun x => x ∈ w :: seen) then .cycle
      else if new.isEmpty then topoLoop edges n (w :: seen) (order ++ [w]) fringe
      else topoLoop edges n (w :: seen) order (new.reverse ++ w :: fringe)

/-- The outer loop over all nodes; `none` is `NetworkXUnfeasible`. Serves `listAutoOrder` (`openmdao/core/group.py:1143-1158`). -/
def topoAll (edges : List (α × α)) (fuel : Nat) : List α → List α → List α → Option (List α)
  | [], _, order => some order
  | v :: vs, seen, order =>
    match topoLoop edges fuel seen order [v] with
    | .done seen order => topoAll edges fuel vs seen order
    | .cycle => none
    | .outOfFuel => none

/-- `nx.topological_sort(graph)`. Serves `listAutoOrder` (`openmdao/core/group.py:1143-1158`). -/
def topologicalSort (nodes : List α) (edges : List (α × α)) : Option (List α) :=
  (topoAll edges (nodes.length + edges.length + 1) nodes [] []).map List.reverse

/-- An implementation of `nx.strongly_connected_components` (external): the classes of mutually reachable nodes. Serves `openmdao/util/graph.py:118-119`. -/
def sccList (nodes : List α) (edges : List (α × α)) : List (List α) :=
  (nodes.map (fun v => nodes.filter (fun w => (w = v ∨ w ∈ (dfsEdges edges v).map Prod.snd) ∧
    (v = w ∨ v ∈ (dfsEdges edges w).map Prod.snd)))).dedup

/-- `Group._get_sys_graph` and `collapse_nodes`, openmdao/core/group.py:1160-1191 and openmdao/util/graph.py:11-37: subsystems
below `path` are replaced by the direct children of the group they belong to, edges between different children are kept
once, with the weight of the last edge that was relabelled. Path names are lists of names. -/
def sysGraph (path : List α) (nodes : List (List α)) (edges : List ((List α × List α) × Nat)) :
    List (List α) × List ((List α × List α) × Nat) :=
  let below := fun n : List α => path <+: n ∧ path.length < n.length
  let ren := fun n : List α => n.take (path.length + 1)
  (((nodes.filter below).map ren).foldl (fun acc n => if n ∈ acc then acc else acc ++ [n]) [],
   (((edges.filter (fun e => below e.1.1 ∧ below e.1.2)).foldl
      (fun acc e => dictSet acc (ren e.1.1, ren e.1.2) e.2) []).filter (fun e => e.1.1 ≠ e.1.2)))

/-- `Group.list_auto_order`, openmdao/core/group.py:1143-1158: names of the children in order and the removed edges; `none` is
the exception of `topological_sort`. -/
def listAutoOrder (lt : List α → List α → Bool) (sccs : List (List α) → List (List α × List α) → List (List (List α)))
    (path : List α) (nodes : List (List α)) (edges : List ((List α × List α) × Nat)) :
    Option (List (List α) × List (List α × List α)) :=
  let g := sysGraph path nodes edges
  let b := breakCycles lt (fun e => (g.2.lookup e).getD 1) sccs g.1 (g.2.map Prod.fst)
  (topologicalSort g.1 b.1).map (fun order => (order.map (List.drop path.length), b.2))

end
end OpenMDAO
