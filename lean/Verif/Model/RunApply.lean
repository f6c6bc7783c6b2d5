import Mathlib.Algebra.Group.Basic
import Mathlib.Data.List.Dedup
/-!
# Model of the evaluation of residuals over the tree of systems

`Group.children_solve_nonlinear` and `Group.apply_nonlinear` (`openmdao/core/group.py:741-820`), `Component._sys_solve_nonlinear` and `apply_nonlinear` (`component.py:535-611`), the mark `_run_apply` (`component.py:88,242`,
`group.py:89`, `problem.py:401-437,626-631`) and the solvers `RunOnce` (`run_once.py:26-54`), `NLGaussSeidel` (`nl_gauss_seidel.py:96-187`) and `Newton` (`newton.py:156-245`), as far as they run the model and evaluate
residuals.

Components are numbers. Each one has one unknown, of any commutative group `V` (a vector, in general), and one param for each of its sources. The values of params are copies that a group makes when it transfers data to one of its
subsystems. Numbers are exact. What a solver decides from norms and tolerances, and the step that it makes, are arbitrary functions. Not modelled: MPI, exceptions, scaling of unknowns and residuals, `src_indices`, units, pass by
object, the line search of Newton.
-/
namespace OpenMDAO

/-- A component: the components its params are connected to, and what it computes from its params. An implicit one has a way to solve for its state and its own `apply_nonlinear`. Serves `runApply` (`component.py:242`). -/
inductive RKind (V : Type) where
  | explicit (f : (Nat → V) → V)
  | implicit (solve : (Nat → V) → V → V) (resid : (Nat → V) → V → V)

/-- All components of a model. Serves `runApply` (`component.py:242`). -/
structure RModel (V : Type) where
  src : Nat → List Nat
  kind : Nat → RKind V

/-- Unknowns, residuals, and the params: `p i j` is the copy that component `i` has of the unknown of `j`; without a connection it is the initial value. Serves `transferTo` (`group.py:1607-1635`). -/
structure RState (V : Type) where
  u : Nat → V
  r : Nat → V
  p : Nat → Nat → V

/-- Nonlinear solver of a group. `more` stands for the tests of the norms (arguments: the state after the initial run, that before the last iteration, and the present one), `relax` for Aitken's relaxation (unknowns before the iteration and
after), `step` for the step of Newton's method. Serves `problemRunOnce` (`problem.py:1163-1175`). -/
inductive RSolver (V : Type) where
  | runOnce
  | nlgs (maxiter : Nat) (more : RState V → RState V → RState V → Bool) (relax : Option ((Nat → V) → (Nat → V) → Nat → V))
  | newton (maxiter : Nat) (more : RState V → RState V → RState V → Bool) (step : RState V → Nat → V) (solveSubsystems : Bool)

/-- The tree of systems. Serves `RTree.comps` (`group.py:205-231`). -/
inductive RTree (V : Type) where
  | comp (i : Nat)
  | group (sol : RSolver V) (cs : List (RTree V))

mutual
/-- The components of a tree in the order of `subsystems(recurse=True)` (`group.py:205-231`), which is the order of a single run. -/
def RTree.comps {V : Type} : RTree V → List Nat
  | .comp i => [i]
  | .group _ cs => compsL cs
/-- The same for a list of subsystems. Serves `RTree.comps` (`group.py:205-231`). -/
def compsL {V : Type} : List (RTree V) → List Nat
  | [] => []
  | t :: ts => t.comps ++ compsL ts
end

/-- Is the system a component (`isinstance(sub, Component)`)?. Serves `transferTo` (`group.py:1607-1635`). -/
def RTree.isComp {V : Type} : RTree V → Bool
  | .comp _ => true
  | .group _ _ => false

/-- `_run_apply` of a component: it has states (`component.py:242`), or a param whose source runs later (`problem.py:433-435,628-631`), in the order of components `order`. -/
def runApply {V : Type} (m : RModel V) (order : List Nat) (i : Nat) : Bool :=
  (match m.kind i with
   | .explicit _ => false
   | .implicit _ _ => true) || (m.src i).any fun j => decide (order.idxOf j > order.idxOf i)

/-- `_transfer_data(sub.name)` of a group with the components `G` (`group.py:1607-1635`): the params inside `sub` whose source is in the group get the value of the source. Connections inside `sub` are left to `sub`, if it is
a group. -/
def transferTo {V : Type} (m : RModel V) (G : List Nat) (sub : RTree V) (s : RState V) : RState V :=
  { s with p := fun i j => if i ∈ sub.comps ∧ j ∈ m.src i ∧ j ∈ G ∧ (sub.isComp = true ∨ j ∉ sub.comps) then s.u j else s.p i j }

/-- `_sys_solve_nonlinear` of a component (`component.py:591-611`). -/
def runComp {V : Type} (m : RModel V) (i : Nat) (s : RState V) : RState V :=
  { s with u := Function.update s.u i (match m.kind i with
    | .explicit f => f (s.p i)
    | .implicit g _ => g (s.p i) (s.u i)) }

/-- `_sys_apply_nonlinear` of a component (`component.py:535-589`). An explicit component keeps minus the old unknown in its residual, runs, adds the new unknown to the residual and takes the residual from the unknown. -/
def applyComp {V : Type} [AddCommGroup V] (m : RModel V) (i : Nat) (s : RState V) : RState V :=
  match m.kind i with
  | .explicit _ =>
    let s1 := runComp m i { s with r := Function.update s.r i (-s.u i) }
    let s2 := { s1 with r := Function.update s1.r i (s1.r i + s1.u i) }
    { s2 with u := Function.update s2.u i (s2.u i - s2.r i) }
  | .implicit _ R => { s with r := Function.update s.r i (R (s.p i) (s.u i)) }

/-- The unknowns of the group are overwritten. Serves `rNlgsLoop` (`nl_gauss_seidel.py:135-192`). -/
def setIn {V : Type} (G : List Nat) (v : Nat → V) (s : RState V) : RState V := { s with u := fun i => if i ∈ G then v i else s.u i }

/-- Loop of `NLGaussSeidel.solve` (`nl_gauss_seidel.py:135-192`) for at most `n` iterations. -/
def rNlgsLoop {V : Type} (G : List Nat) (sweep apply : RState V → RState V) (more : RState V → RState V → RState V → Bool) (relax : Option ((Nat → V) → (Nat → V) → Nat → V)) (base : RState V) :
    Nat → RState V → RState V → RState V
  | 0, _, s => s
  | n + 1, prev, s =>
    if more base prev s then
      let s1 := apply (sweep s)
      rNlgsLoop G sweep apply more relax base n s (match relax with
        | none => s1
        | some f => setIn G (f s.u s1.u) s1)
    else s

/-- Loop of `Newton.solve` (`newton.py:180-245`). -/
def rNewtonLoop {V : Type} (G : List Nat) (sweep apply : RState V → RState V) (more : RState V → RState V → RState V → Bool) (step : RState V → Nat → V) (sub : Bool) (base : RState V) :
    Nat → RState V → RState V → RState V
  | 0, _, s => s
  | n + 1, prev, s =>
    if more base prev s then
      let s1 := setIn G (step s) s
      rNewtonLoop G sweep apply more step sub base n s (apply (if sub then sweep s1 else s1))
    else s

/-- `solve` of a solver: `sweep` is `children_solve_nonlinear` and `apply` is `apply_nonlinear` of the group. Serves `solveTree` (`group.py:716-739`). -/
def runSolver {V : Type} (G : List Nat) (sweep apply : RState V → RState V) (sol : RSolver V) (s : RState V) : RState V :=
  match sol with
  | .runOnce => sweep s
  | .nlgs maxiter more relax =>
    if maxiter = 1 then sweep s
    else rNlgsLoop G sweep apply more relax (apply (sweep s)) (maxiter - 1) (apply (sweep s)) (apply (sweep s))
  | .newton maxiter more step sub => rNewtonLoop G sweep apply more step sub (apply (sweep s)) maxiter (apply (sweep s)) (apply (sweep s))

mutual
/-- `apply_nonlinear` of a system (`group.py:782-818`); `order` is the order of all components of the problem. -/
def applyTree {V : Type} [AddCommGroup V] (m : RModel V) (order : List Nat) : RTree V → RState V → RState V
  | .comp i, s => applyComp m i s
  | .group _ cs, s => applyList m order (compsL cs) cs s
/-- The loop over the subsystems (`group.py:804-818`). Groups have `_run_apply = True`. -/
def applyList {V : Type} [AddCommGroup V] (m : RModel V) (order : List Nat) (G : List Nat) : List (RTree V) → RState V → RState V
  | [], s => s
  | t :: ts, s => applyList m order G ts (if t.isComp && !(t.comps.any (runApply m order)) then s else applyTree m order t (transferTo m G t s))
end

mutual
/-- `solve_nonlinear` of a system (`group.py:716-739`, `component.py:591-611`). -/
def solveTree {V : Type} [AddCommGroup V] (m : RModel V) (order : List Nat) : RTree V → RState V → RState V
  | .comp i, s => runComp m i s
  | .group sol cs, s => runSolver (compsL cs) (fun s => sweepList m order (compsL cs) cs s) (fun s => applyList m order (compsL cs) cs s) sol s
/-- `children_solve_nonlinear` (`group.py:741-759`). -/
def sweepList {V : Type} [AddCommGroup V] (m : RModel V) (order : List Nat) (G : List Nat) : List (RTree V) → RState V → RState V
  | [], s => s
  | t :: ts, s => sweepList m order G ts (solveTree m order t (transferTo m G t s))
end

/-- `Problem.run_once` with the plain driver (`problem.py:1163-1175`): a run of the root and an evaluation of the residuals. -/
def problemRunOnce {V : Type} [AddCommGroup V] (m : RModel V) (sol : RSolver V) (cs : List (RTree V)) (s : RState V) : RState V :=
  applyTree m (compsL cs) (.group sol cs) (solveTree m (compsL cs) (.group sol cs) s)

end OpenMDAO
