import Verif.Model.Paths
import Verif.Model.Promotes
import Mathlib.Data.List.Sort
import Mathlib.Data.List.Lex
import Mathlib.Algebra.Group.Defs
/-!
# Model of the instance based profiler, `openmdao/util/profile.py`

The decorator of the profiled functions (`:247-308`) and the processing of the recorded data (`:310-440`). A path of names is a list of names instead of a text with commas (names contain none), and records hold the path itself instead of its number in the `funcs_` file; the two files are not modelled otherwise. Times are elements of a commutative group.
-/
namespace OpenMDAO

section
variable {K : Type}

/-- A call of a profiled function while profiling is on: name, time spent in the decorator before the call (`ovr`), elapsed time, whether the call ends with an exception, and the profiled calls inside. Serves `runCall` (`:259-306`). -/
inductive PCall (K : Type)
  | mk (name : Str) (ovr t : K) (raises : Bool) (calls : List (PCall K))

/-- One record of the raw file. Serves `runCall` (`:259-306`). -/
structure PRec (K : Type) where
  path : List Str
  t : K
  ovr : K

mutual
/-- `wrapper` (`:259-306`) with the call stack and the records so far: an exception leaves the function before `stack.pop()`. -/
def runCall : PCall K → List Str × List (PRec K) → List Str × List (PRec K)
  | .mk name ovr t raises calls, st =>
    let st' := runCalls calls (st.1 ++ [name], st.2)
    if raises then st' else (st'.1.dropLast, st'.2 ++ [⟨st.1 ++ [name], t, ovr⟩])
/-- The calls inside, one after the other. Serves `runCall` (`:259-306`). -/
def runCalls : List (PCall K) → List Str × List (PRec K) → List Str × List (PRec K)
  | [], st => st
  | c :: cs, st => runCalls cs (runCall c st)
end

/-- Counts, times and overheads of a path. Serves `updateCounts` (`:310-323`). -/
structure PCount (K : Type) where
  count : Nat
  time : K
  ovr : K

/-- A raw file: the decoration of the names (the extension, if it is a number), the records and the total time. Serves `readProf` (`:345-371`). -/
structure PFile (K : Type) where
  dec : Option Str
  recs : List (PRec K)
  total : K

/-- A node of the tree; children are given by their paths. Serves `addNode` (`:390-411`). -/
structure PNode (K : Type) where
  name : Str
  children : List (List Str)
  time : K
  ovr : K
  count : Nat

/-- The names of a record (`:356-361`): with more than one file they are decorated. -/
def decorate (nfiles : Nat) (dec : Option Str) (path : List Str) : List Str :=
  match dec with
  | none => path
  | some d => if 1 < nfiles then path.map fun p => p ++ d else path

variable [AddCommGroup K]

/-- `_update_counts` (`:310-323`). -/
def updateCounts (d : List (List Str × PCount K)) (path : List Str) (t ovr : K) : List (List Str × PCount K) :=
  match d.lookup path with
  | none => dictSet d path ⟨1, t, ovr⟩
  | some c => dictSet d path ⟨c.count + 1, c.time + t, c.ovr + ovr⟩

/-- The records of all files (`:345-371`): `funcs` and `tops`. -/
def readProf (files : List (PFile K)) : List (List Str × PCount K) × List (List Str) :=
  files.foldl (fun st f => f.recs.foldl (fun st r =>
    let p := decorate files.length f.dec r.path
    (updateCounts st.1 p r.t r.ovr, if p.dropLast = [] then st.2 ++ [p] else st.2)) st) ([], [])

/-- `','.join(path)`. Serves `sortFuncs` (`:390`). -/
def joinComma (p : List Str) : Str := List.intercalate [','] p

/-- `sorted(iteritems(funcs))` (`:390`): by the text of the path. -/
def sortFuncs (funcs : List (List Str × PCount K)) : List (List Str × PCount K) :=
  funcs.insertionSort fun a b => joinComma a.1 ≤ joinComma b.1

/-- The root of the tree while it is built: children, time, overhead. Serves `addNode` (`:390-411`). -/
structure PRoot (K : Type) where
  children : List (List Str)
  time : K
  ovr : K

/-- One node (`:390-411`). -/
def addNode (tops : List (List Str)) (st : List (List Str × PNode K) × PRoot K) (e : List Str × PCount K) : Except PyErr (List (List Str × PNode K) × PRoot K) :=
  let tmp := dictSet st.1 e.1 ⟨(e.1.getLast?).getD [], [], e.2.time, e.2.ovr, e.2.count⟩
  if e.1 ∈ tops then .ok (tmp, ⟨st.2.children ++ [e.1], st.2.time + e.2.time, st.2.ovr + e.2.ovr⟩)
  else
    match tmp.lookup e.1.dropLast with
    | none => .error .KeyError
    | some n => .ok (dictSet tmp e.1.dropLast { n with children := n.children ++ [e.1] }, st.2)

/-- The children of a path. Serves `childOvr` (`:415-422`). -/
def kidsOf (tmp : List (List Str × PNode K)) (p : List Str) : List (List Str) :=
  match tmp.lookup p with
  | none => []
  | some n => n.children

/-- The overhead of a path. Serves `childOvr` (`:415-422`). -/
def ovrOf (tmp : List (List Str × PNode K)) (p : List Str) : K :=
  match tmp.lookup p with
  | none => 0
  | some n => n.ovr

/-- `total` in `remove_child_ovr` (`:415-422`): overheads of everything below a node. Every node is visited once and only its own time changes, so the subtraction is done by `fixTime`. The number of nodes is enough as fuel. -/
def childOvr (tmp : List (List Str × PNode K)) : Nat → List Str → K
  | 0, _ => 0
  | n + 1, p => ((kidsOf tmp p).map fun k => childOvr tmp n k + ovrOf tmp k).sum

/-- `node['time'] -= total` (`:421`). -/
def fixTime (tmp : List (List Str × PNode K)) (e : List Str × PNode K) : List Str × PNode K :=
  (e.1, { e.2 with time := e.2.time - childOvr tmp tmp.length e.1 })

/-- Totals of the names (`:427-433`). -/
def addTotal (d : List (Str × K × Nat)) (e : List Str × PNode K) : List (Str × K × Nat) :=
  let name := (e.1.getLast?).getD []
  match d.lookup name with
  | none => dictSet d name (e.2.time, e.2.count)
  | some v => dictSet d name (v.1 + e.2.time, v.2 + e.2.count)

/-- The result: time of the root, time under profile, the nodes, the totals of the names (which are also stored in the nodes, `:435-438`). -/
structure ProfOut (K : Type) where
  rootTime : K
  rootChildren : List (List Str)
  underProfile : K
  nodes : List (List Str × PNode K)
  totals : List (Str × K × Nat)

/-- `process_profile` (`:325-440`). -/
def processProfile (files : List (PFile K)) : Except PyErr (ProfOut K) :=
  let r := readProf files
  match (sortFuncs r.1).foldlM (addNode r.2) ([], ⟨[], 0, 0⟩) with
  | .error e => .error e
  | .ok (tmp, root) =>
    let nodes := tmp.map (fixTime tmp)
    .ok ⟨root.time - (root.children.map fun k => childOvr tmp tmp.length k + ovrOf tmp k).sum, root.children, (files.map PFile.total).sum, nodes, nodes.foldl addTotal []⟩

/-- `func.split('.')[-1]`. Serves `addGrand` (`:501-507`). -/
def afterDot (s : Str) : Str := (s.reverse.takeWhile fun c => c ≠ '.').reverse

/-- One line of the totals in the grand totals (`:501-507`). -/
def addGrand (d : List (Str × K × Nat)) (e : Str × K × Nat) : List (Str × K × Nat) :=
  match d.lookup (afterDot e.1) with
  | none => dictSet d (afterDot e.1) (0 + e.2.1, 0 + e.2.2)
  | some v => dictSet d (afterDot e.1) (v.1 + e.2.1, v.2 + e.2.2)

/-- The grand totals of `prof_totals` (`:494-507`); the order in which the totals are written does not matter for the sums. -/
def grandTotals (totals : List (Str × K × Nat)) : List (Str × K × Nat) := totals.foldl addGrand []

end
end OpenMDAO
