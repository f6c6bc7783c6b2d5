import Verif.Model.AutoOrder
import Verif.Model.Paths
/-!
# Model of the checks of solvers and execution order in `Problem.setup`

`Problem._check_solvers` (`openmdao/core/problem.py:687-795`) and the part of `Problem._check_graph` (`problem.py:901-952`) that finds subsystems that run in the wrong order.
Path names are lists of names; the text of messages is left out.
-/
namespace OpenMDAO

/-- The linear solver of a group: `LinearGaussSeidel`, `ScipyGMRES` or `PetscKSP` with their `maxiter`, or `DirectSolver`, which has no such option. Serves `LnKind.iterates` (`problem.py:705-711`). -/
inductive LnKind where
  | gs (maxiter : Nat)
  | krylov (maxiter : Nat)
  | direct
  deriving DecidableEq, Repr

/-- `has_iter_solver[...]` (`problem.py:705-711`). -/
def LnKind.iterates : LnKind → Bool
  | .gs n => decide (n > 1)
  | .krylov n => decide (n > 1)
  | .direct => true

/-- What the check looks at in a group: path name, name, solver, `deriv_options['type'] == 'cs'`, whether the nonlinear solver has a linear solver of its own, graph of the children, and the states in `_unknowns_dict` by path name. Serves `csErrs` (`problem.py:714-728`). -/
structure SGroup where
  path : List String
  name : String
  solver : LnKind
  cs : Bool
  nlDerivs : Bool
  nodes : List String
  edges : List (String × String)
  states : List (List String)

/-- An entry of `_setup_errors`. Serves `csErrs` (`problem.py:714-728`). -/
inductive SolverErr where
  | csSubgroup (name : String)
  | csDerivs (name : String)
  | cycles (path : List String) (strong : List (List String))
  | states (path : List String) (names : List (List String))
  deriving DecidableEq, Repr

/-- Local variables of the loop: `has_iter_solver`, `iterated_states`, `group_states` and the errors. Serves `addStates` (`problem.py:761-779`). -/
structure SolvSt where
  hasIter : List (List String × Bool)
  iterated : List (List String)
  grpStates : List (List String × List (List String))
  errs : List SolverErr

/-- `'.'.join(parts[:i])` for all `i`, where `''.split('.')` is `['']` (`problem.py:730-733`). -/
def ancestorPaths (path : List String) : List (List String) := if path = [] then [[]] else (List.range path.length).map fun i => path.take i

/-- The search for an iterating ancestor (`problem.py:731-737`). -/
def anyIter (hasIter : List (List String × Bool)) : List (List String) → Except PyErr Bool
  | [] => .ok false
  | p :: ps => match hasIter.lookup p with
    | none => .error .KeyError
    | some true => .ok true
    | some false => anyIter hasIter ps

/-- Errors for complex step (`problem.py:714-728`); `all` are the groups of the problem. -/
def csErrs (all : List SGroup) (g : SGroup) : List SolverErr :=
  if g.cs then (if g.name ≠ "" then [.csSubgroup g.name] else []) ++ (all.filter fun s => s.nlDerivs).map fun s => .csDerivs s.name
  else []

/-- Errors for cycles (`problem.py:744-759`); the sorting of names is left out. -/
def cycleErrs (sccs : List String → List (String × String) → List (List String)) (g : SGroup) : List SolverErr :=
  if g.solver = .gs 1 then
    let strong := (sccs g.nodes g.edges).filter fun s => decide (s.length > 1)
    if strong ≠ [] then [.cycles g.path strong] else []
  else []

/-- One state of a group without iteration (`problem.py:772-779`). `needs` is `_needs_iteration` (`problem.py:2704-2716`) of the component found by attribute access from the root, `none` if there is no such attribute. -/
def stateStep (needs : List String → Option Bool) (acc : List (List String)) (s : List String) : Except PyErr (List (List String)) :=
  if s ∈ acc then .ok acc
  else match needs s.dropLast with
    | none => .error .AttributeError
    | some true => .ok acc
    | some false => .ok (acc ++ [s])

/-- The states of a group that is not below an iterating one (`problem.py:761-779`). -/
def addStates (needs : List String → Option Bool) (st : SolvSt) (g : SGroup) : Except PyErr SolvSt :=
  if g.states = [] then .ok st
  else if g.solver.iterates then .ok { st with iterated := st.iterated ++ g.states, grpStates := st.grpStates ++ [(g.path, g.states)] }
  else match g.states.foldlM (stateStep needs) st.iterated with
    | .error e => .error e
    | .ok it => .ok { st with iterated := it, grpStates := st.grpStates ++ [(g.path, g.states)] }

/-- One group (`problem.py:703-779`). -/
def solverStep (sccs : List String → List (String × String) → List (List String)) (needs : List String → Option Bool) (all : List SGroup) (st : SolvSt) (g : SGroup) : Except PyErr SolvSt :=
  let st1 := { st with hasIter := dictSet st.hasIter g.path g.solver.iterates, errs := st.errs ++ csErrs all g }
  match anyIter st1.hasIter (ancestorPaths g.path) with
  | .error e => .error e
  | .ok true => .ok st1
  | .ok false => addStates needs { st1 with errs := st1.errs ++ cycleErrs sccs g } g

/-- Errors for states that nothing solves for (`problem.py:781-795`). -/
def stateErrs (st : SolvSt) : List SolverErr :=
  st.grpStates.flatMap fun e =>
    let un := e.2.filter fun s => decide (s ∉ st.iterated)
    if un ≠ [] then [.states e.1 un] else []

/-- `_check_solvers` (`problem.py:687-795`); groups in the order of `subgroups(recurse=True, include_self=True)`. -/
def checkSolvers (sccs : List String → List (String × String) → List (List String)) (needs : List String → Option Bool) (groups : List SGroup) : Except PyErr (List SolverErr) :=
  match groups.foldlM (solverStep sccs needs groups) ⟨[([], false)], [], [], []⟩ with
  | .error e => .error e
  | .ok st => .ok (st.errs ++ stateErrs st)

/-! ## Execution order -/

section
variable {α : Type} [DecidableEq α]

/-- `out_of_order.setdefault(v, set()).add(sub)` (`problem.py:935-936`). -/
def addOoo (d : List (α × List α)) (v sub : α) : List (α × List α) :=
  match d.lookup v with
  | none => dictSet d v [sub]
  | some l => if sub ∈ l then d else dictSet d v (l ++ [sub])

/-- The edges of a depth first search from one subsystem (`problem.py:933-936`). -/
def oooSub (edges : List (α × α)) (visited : List α) (sub : α) (d : List (α × List α)) : List (α × List α) :=
  (dfsEdges edges sub).foldl (fun d e => if e.2 ∈ visited then addOoo d e.2 sub else d) d

/-- The loop over the subsystems in execution order (`problem.py:929-936`). -/
def oooLoop (edges : List (α × α)) : List α → List α → List (α × List α) → List (α × List α)
  | _, [], d => d
  | visited, sub :: rest, d => oooLoop edges (sub :: visited) rest (oooSub edges (sub :: visited) sub d)

/-- `out_of_order` of one group (`problem.py:926-936`): `edges` is the graph of the children after `_break_cycles`. Names are relative to the group, so `nearest_child` is left out. -/
def outOfOrder (order : List α) (edges : List (α × α)) : List (α × List α) := oooLoop edges [] order []

/-- The two lists of `_check_graph` for one group (`problem.py:907-948`): cycles, and subsystems out of order. -/
def checkGraph (lt : α → α → Bool) (wt : α × α → Nat) (sccs : List α → List (α × α) → List (List α)) (nodes order : List α) (edges : List (α × α)) : List (List α) × List (α × List α) :=
  ((sccs nodes edges).filter fun s => decide (s.length > 1), outOfOrder order (breakCycles lt wt sccs nodes edges).1)

end

/-- Ordering of one group in `Problem.setup` (`problem.py:611-624`, on one process): `_order_set` is also set by the automatic order. The names in the order are single components of a path; the exception of `topological_sort` is written as RuntimeError. -/
def setupOrder {σ : Type} (lt : List String → List String → Bool) (sccs : List (List String) → List (List String × List String) → List (List (List String))) (path : List String) (nodes : List (List String))
    (edges : List ((List String × List String) × Nat)) (g : GroupOrder σ) : Except PyErr Unit × GroupOrder σ :=
  if g.orderSet then (.ok (), g)
  else match listAutoOrder lt sccs path nodes edges with
    | none => (.error .RuntimeError, g)
    | some (order, _) => setOrder g (order.filterMap List.head?)

end OpenMDAO
