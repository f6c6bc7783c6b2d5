import Verif.Model.Numpy
/-! # Directed graphs as used through networkx

`networkx.DiGraph` with ordered dictionaries (`OrderedDigraph`, openmdao/util/graph.py:5-8): nodes in insertion order, edges as
a list of (source, target) without repetition, in insertion order. networkx itself is external; its documented algorithm
for `dfs_edges` is written out below. -/
namespace OpenMDAO

/-- `G[n]`: the successors of `n` in insertion order. networkx, not code of /repo; serves `relevance.py:182,192` and `util/graph.py:71-121`. -/
def gsucc {α : Type} [DecidableEq α] (edges : List (α × α)) (n : α) : List α :=
  (edges.filter (fun e => e.1 = n)).map Prod.snd

/-- `G.pred[n]`. networkx, not code of /repo; serves `relevance.py:182,192` and `util/graph.py:71-121`. -/
def gpred {α : Type} [DecidableEq α] (edges : List (α × α)) (n : α) : List α :=
  (edges.filter (fun e => e.2 = n)).map Prod.fst

/-- The loop of `networkx.dfs_edges`: the stack of (parent, iterator over children) is kept flattened as the list of
pending edges. An edge is produced when its target was not visited before. `fuel` bounds the number of steps;
`dfsEdges` gives enough for every graph. networkx, not code of /repo; serves `relevance.py:182,192` and `util/graph.py:71-121`. -/
def dfsGo {α : Type} [DecidableEq α] (edges : List (α × α)) : Nat → List (α × α) → List α → List (α × α)
  | 0, _, _ => []
  | _ + 1, [], _ => []
  | n + 1, (s, t) :: rest, vis =>
    if t ∈ vis then dfsGo edges n rest vis
    else (s, t) :: dfsGo edges n ((gsucc edges t).map (t, ·) ++ rest) (t :: vis)

/-- `networkx.dfs_edges(G, source)`. networkx, not code of /repo; serves `relevance.py:182,192` and `util/graph.py:71-121`. -/
def dfsEdges {α : Type} [DecidableEq α] (edges : List (α × α)) (source : α) : List (α × α) :=
  dfsGo edges edges.length ((gsucc edges source).map (source, ·)) [source]

end OpenMDAO
