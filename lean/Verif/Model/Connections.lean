import Verif.Model.Graph
import Verif.Model.Promotes
import Mathlib.Data.List.Sort
/-! # Resolution of connections (`openmdao/core/problem.py`) -/
namespace OpenMDAO

/-- `src_indices` of a connection (`None` or an index array; negative indices are not modelled). Serves `composeIdx` (`openmdao/core/problem.py:237-240`). -/
abbrev SrcIdx := Option (List Nat)

/-- The dict of connections: absolute target name to list of (absolute source name, src_indices). Serves `addImplicit` (`openmdao/core/problem.py:2396-2427`). -/
abbrev ConnDict := List (String × List (String × SrcIdx))

/-- `Problem._add_implicit_connections`, openmdao/core/problem.py:2396-2427: parameters whose promoted name is that of an
unknown are connected to it; the other promoted names are returned. -/
def addImplicit (toAbsU : List (String × String)) (toAbsP : List (String × List String)) (conns : ConnDict) :
    ConnDict × List String :=
  toAbsP.foldl (fun (acc : ConnDict × List String) pp =>
    match toAbsU.lookup pp.1 with
    | some u => (pp.2.foldl (fun c p => dictAppend c p (u, none)) acc.1, acc.2)
    | none => (acc.1, acc.2 ++ [pp.1])) (conns, [])

/-- `input_graph`: nodes and edges in insertion order, every edge with its attribute `idxs`. Serves `graphConns` (`openmdao/core/problem.py:211-215`). -/
structure InGraph where
  nodes : List String := []
  edges : List ((String × String) × SrcIdx) := []

/-- `G.add_node`. Serves `graphProm` (`openmdao/core/problem.py:217-224`). -/
def InGraph.addNode (g : InGraph) (n : String) : InGraph := if n ∈ g.nodes then g else { g with nodes := g.nodes ++ [n] }

/-- `G.add_edge(s, t, idxs=idxs)` (the attribute of an existing edge is overwritten). Serves `graphConns` (`openmdao/core/problem.py:211-215`). -/
def InGraph.addEdge (g : InGraph) (s t : String) (idxs : SrcIdx) : InGraph :=
  let g := (g.addNode s).addNode t
  { g with edges := dictSet g.edges (s, t) idxs }

/-- The edges without attributes. Serves `walkSrc` (`openmdao/core/problem.py:228-247`). -/
def InGraph.arcs (g : InGraph) : List (String × String) := g.edges.map Prod.fst

/-- Explicit and implicit connections go into the graph, openmdao/core/problem.py:211-215. -/
def graphConns (conns : ConnDict) : InGraph :=
  conns.foldl (fun g c => c.2.foldl (fun g s => g.addEdge s.1 c.1 s.2) g) {}

/-- One promoted name, openmdao/core/problem.py:217-224. -/
def graphProm (noconns : List String) (g : InGraph) (pp : String × List String) : InGraph :=
  let g := pp.2.foldl InGraph.addNode g
  if pp.1 ∈ noconns then
    match pp.2 with
    | [] => g
    | start :: rest => rest.foldl (fun g p => g.addEdge start p none) g
  else g

/-- The whole input graph, openmdao/core/problem.py:203-224. -/
def inputGraph (conns : ConnDict) (noconns : List String) (toAbsP : List (String × List String)) : InGraph :=
  toAbsP.foldl (graphProm noconns) (graphConns conns)

/-- `newconns`: unknowns map to `None`, parameters to the list of sources found. Serves `appendConn` (`openmdao/core/problem.py:244-247`). -/
abbrev NewConns := List (String × Option (List (String × SrcIdx)))

/-- `tidxs` after openmdao/core/problem.py:237-240: `None` inherits, otherwise `np.array(sidxs)[tidxs]`. -/
def composeIdx (tidxs sidxs : SrcIdx) : Except PyErr SrcIdx :=
  match tidxs, sidxs with
  | none, s => .ok s
  | some t, none => .ok (some t)
  | some t, some s => (npGet s (.arr t)).map some

/-- openmdao/core/problem.py:244-247. -/
def appendConn (nc : NewConns) (t : String) (c : String × SrcIdx) : Except PyErr NewConns :=
  match nc.lookup t with
  | some (some l) => .ok (dictSet nc t (some (l ++ [c])))
  | some none => .error .AttributeError
  | none => .ok (dictSet nc t (some [c]))

/-- One edge of the walk from an unknown, openmdao/core/problem.py:233-247. -/
def walkStep (g : InGraph) (src : String) (st : List (String × SrcIdx) × NewConns) (e : String × String) :
    Except PyErr (List (String × SrcIdx) × NewConns) :=
  match g.edges.lookup e, st.1.lookup e.1 with
  | some tidxs, some sidxs =>
    match composeIdx tidxs sidxs with
    | .error err => .error err
    | .ok idxs =>
      match appendConn st.2 e.2 (src, idxs) with
      | .error err => .error err
      | .ok nc => .ok (dictSet st.1 e.2 idxs, nc)
  | _, _ => .error .KeyError

/-- The walk from one unknown, openmdao/core/problem.py:228-247. -/
def walkSrc (g : InGraph) (nc : NewConns) (src : String) : Except PyErr NewConns :=
  ((dfsEdges g.arcs src).foldlM (walkStep g src) ([(src, none)], dictSet nc src none)).map Prod.snd

/-- State of the second loop: `newconns`, `_dangling` (by promoted name), `_input_inputs`. Serves `dangNode` (`openmdao/core/problem.py:254-274`). -/
structure DangSt where
  nc : NewConns
  dangling : List (String × List String) := []
  inputInputs : List (String × List String) := []

/-- `src = newconns[t][0][0]`, openmdao/core/problem.py:262. -/
def firstSrc (nc : NewConns) (t : String) : Except PyErr String :=
  match nc.lookup t with
  | some (some (c :: _)) => .ok c.1
  | some (some []) => .error .IndexError
  | some none => .error .TypeError
  | none => .error .KeyError

/-- One node of the second loop, openmdao/core/problem.py:254-274. -/
def dangNode (g : InGraph) (toProm : String → String) (st : DangSt) (node : String) : Except PyErr DangSt :=
  if (st.nc.lookup node).isNone && (gpred g.arcs node).isEmpty then
    let ts := (dfsEdges g.arcs node).map Prod.snd
    let nosrc := node :: ts.takeWhile (fun t => (st.nc.lookup t).isNone)
    match ts.find? (fun t => (st.nc.lookup t).isSome) with
    | some t =>
      match firstSrc st.nc t with
      | .error e => .error e
      | .ok src => .ok { st with nc := nosrc.foldl (fun nc n => dictSet nc n (some [(src, none)])) st.nc }
    | none => .ok { st with dangling := nosrc.foldl (fun d n => dictSet d (toProm n) nosrc) st.dangling,
                            inputInputs := nosrc.foldl (fun d n => dictSet d n nosrc) st.inputInputs }
  else .ok st

/-- Result of `_setup_connections`: the connections, the targets for which a "connected to multiple unknowns" error was
added to `_setup_errors`, and the tables of unconnected parameters. Serves `setupConnections` (`openmdao/core/problem.py:180-288`). -/
structure ConnResult where
  connections : List (String × String × SrcIdx)
  errors : List String
  dangling : List (String × List String)
  inputInputs : List (String × List String)
  deriving DecidableEq

/-- The final loop, openmdao/core/problem.py:278-286: entry for one target. -/
def finalConn (e : String × Option (List (String × SrcIdx))) : Option (String × String × SrcIdx) :=
  match e.2 with
  | some (c :: _) => some (e.1, c)
  | _ => none

/-- Is an error reported for the entry, openmdao/core/problem.py:281-285. -/
def multiSrc (e : String × Option (List (String × SrcIdx))) : Bool :=
  match e.2 with
  | some l => decide (1 < l.length)
  | none => false

/-- `Problem._setup_connections`, openmdao/core/problem.py:180-288. `explicit` is the result of
`_get_explicit_connections`; `usrcs` is the python set of unknown sources in whatever order it is iterated; `toProm` is
`to_prom_name`. -/
def setupConnections (toAbsU : List (String × String)) (toAbsP : List (String × List String)) (explicit : ConnDict)
    (toProm : String → String) (usrcs : List String) : Except PyErr ConnResult := do
  let ci := addImplicit toAbsU toAbsP explicit
  let g := inputGraph ci.1 ci.2 toAbsP
  let nc ← usrcs.foldlM (walkSrc g) []
  let st ← g.nodes.foldlM (dangNode g toProm) { nc := nc }
  let items := st.nc.insertionSort (fun a b => a.1 ≤ b.1)
  return { connections := items.filterMap finalConn, errors := (items.filter multiSrc).map Prod.fst,
           dangling := st.dangling, inputInputs := st.inputInputs }

end OpenMDAO
