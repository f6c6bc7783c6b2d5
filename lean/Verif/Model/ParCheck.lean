import Verif.Model.Mode
/-!
# Model of the check for parallel derivatives

The variables of interest in `Problem.setup` (`openmdao/core/problem.py:576-604`), `_check_for_parallel_derivs` (`problem.py:2251-2283`) and
`_get_voi_key` (`problem.py:1801-1812`) where `calc_gradient` seeds a group of variables (`problem.py:1656-1659`).
-/
namespace OpenMDAO

/-- A group: name, is its linear solver a `LinearGaussSeidel`, `ln_solver.options['mode']`, and the groups in it. Components are left out. Every
linear solver of OpenMDAO has the option `mode` (`ln_gauss_seidel.py:44`, `scipy_gmres.py:48`, `ln_direct.py:40`, `petsc_ksp.py:150`);
others are left out. Serves `PdTree.groups` (`group.py:241-249`). -/
inductive PdTree where
  | node (name : String) (lgs : Bool) (mode : DMode) (subs : List PdTree)

/-- `name` (`problem.py:2278`). -/
def PdTree.name : PdTree → String
  | .node n _ _ _ => n

/-- `isinstance(sub.ln_solver, LinearGaussSeidel)` (`problem.py:2275`). -/
def PdTree.lgs : PdTree → Bool
  | .node _ l _ _ => l

/-- `sub.ln_solver.options['mode']` (`problem.py:2272`). -/
def PdTree.mode : PdTree → DMode
  | .node _ _ m _ => m

mutual
/-- `subgroups(recurse=True)` (`group.py:229-249`). -/
def PdTree.groups : PdTree → List PdTree
  | .node _ _ _ subs => pdGroups subs

/-- The loop (`group.py:234-239`). -/
def pdGroups : List PdTree → List PdTree
  | [] => []
  | t :: ts => t :: t.groups ++ pdGroups ts
end

/-- A problem: the root, the option `single_voi_relevance_reduction` of its solver, promoted names of the unknowns, promoted names and sizes of all
variables, and the variables of interest in their groups. Serves `setupVois` (`problem.py:576-604`). -/
structure PdProb where
  root : PdTree
  reduction : Bool
  unknowns : List String
  vars : List (String × Nat)
  pois : List (List String)
  oois : List (List String)

/-- The loop over the groups of variables of interest (`problem.py:588-594`, `596-602`): is there a group with more than one. -/
def voiLoop (known : List String) : Bool → List (List String) → Except PyErr Bool
  | par, [] => .ok par
  | par, vs :: rest =>
    if vs.all (fun v => decide (v ∈ known)) then voiLoop known (if vs.length > 1 then true else par) rest else .error .NameError

/-- `_check_for_parallel_derivs` (`problem.py:2251-2283`): the mode, and the groups that are reported, with their mode. -/
def checkParDerivs (P : PdProb) (parU parP : Bool) : Except PyErr (DMode × List (String × DMode)) :=
  match chooseMode .auto P.root.mode P.pois P.oois P.vars with
  | .error e => .error e
  | .ok mode =>
    let par := if mode = .fwd then parP else parU
    .ok (mode, if P.root.lgs ∧ P.reduction ∧ par then
        (P.root.groups.filter fun g => g.lgs && !(decide (g.mode = mode) || decide (g.mode = .auto))).map fun g => (g.name, g.mode)
      else [])

/-- The part of `setup` (`problem.py:576-604`). -/
def setupVois (P : PdProb) : Except PyErr (DMode × List (String × DMode)) :=
  match voiLoop P.unknowns false P.pois with
  | .error e => .error e
  | .ok parP =>
    match voiLoop P.unknowns false P.oois with
    | .error e => .error e
    | .ok parU => checkParDerivs P parU parP

/-- `_get_voi_key` (`problem.py:1801-1812`): with a key the variables of a group are solved for together. -/
def pdVoiKey (P : PdProb) (voi : String) (grp : List String) : Option String :=
  if voi ∈ (P.pois ++ P.oois).flatten ∧ P.root.lgs then
    if grp.length > 1 ∨ P.reduction then some voi else none
  else none

/-- `root.dumat[vkey]` for each variable of a group in `calc_gradient` (`problem.py:1656-1659`): the keys. Vectors are made for the groups of the mode found by
`setup` (`group.py:485-494`, `relevance.py:45-54`); a key for which there is no vector is a `KeyError`. -/
def seedGroup (P : PdProb) (setupMode : DMode) (grp : List String) : Except PyErr (List (Option String)) :=
  grp.mapM fun voi =>
    match pdVoiKey P voi grp with
    | none => .ok none
    | some k => if k ∈ (if setupMode = .fwd then P.pois else P.oois).flatten then .ok (some k) else .error .KeyError

end OpenMDAO
