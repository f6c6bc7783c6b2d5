import Verif.Model.Numpy
import Mathlib.Logic.Function.Basic
/-!
# Model of `print_all_convergence`

`Problem.print_all_convergence` (`openmdao/core/problem.py:2429-2459`) and the methods of the solvers (`solver_base.py:168-178`,
`scipy_gmres.py:81-93`, `petsc_ksp.py:220-232`, `newton.py:270-284`). The class `Newton` defines the method twice; the second definition
(`newton.py:270-284`) replaces the first one (`newton.py:101-115`).
-/
namespace OpenMDAO

/-- A solver object, with a number that names it: one without solvers of its own; a Krylov solver (`ScipyGMRES`, `PetscKSP`) with a preconditioner; a `Newton` with or
without a line search, without or with a linear solver of its own. A line search has no solvers of its own (`backtracking.py:12`). Serves
`PSolver.printAll` (`newton.py:96-99`, `scipy_gmres.py:68`). -/
inductive PSolver where
  | plain (id : Nat)
  | krylov (id : Nat) (pre : PSolver)
  | newton0 (id : Nat) (ls : Option Nat)
  | newton (id : Nat) (ls : Option Nat) (ln : PSolver)

/-- The object itself. Serves `PSolver.printAll` (`newton.py:284`). -/
def PSolver.id : PSolver → Nat
  | .plain i => i
  | .krylov i _ => i
  | .newton0 i _ => i
  | .newton i _ _ => i

/-- `options['iprint'] = level` of an object, if there is one. Serves `PSolver.printAll` (`newton.py:281-282`). -/
def setPrint (level : Int) (i : Option Nat) (st : Nat → Int) : Nat → Int :=
  match i with
  | none => st
  | some i => Function.update st i level

/-- `print_all_convergence` of a solver (`solver_base.py:178`, `scipy_gmres.py:91-93`, `petsc_ksp.py:230-232`, `newton.py:280-284`): the state has
`options['iprint']` of every object. -/
def PSolver.printAll (level : Int) : PSolver → (Nat → Int) → (Nat → Int)
  | .plain i, st => Function.update st i level
  | .krylov i p, st => p.printAll level (Function.update st i level)
  | .newton0 i ls, st => setPrint level ls (Function.update st i level)
  | .newton i ls ln, st => setPrint level (some ln.id) (setPrint level ls (Function.update st i level))

/-- A group with its linear and its nonlinear solver, and the groups in it. Serves `printGroups` (`problem.py:2450-2459`). -/
inductive PGroup where
  | node (ln nl : PSolver) (subs : List PGroup)

/-- `grp.pathname.count('.') >= depth` (`problem.py:2455`); `depth` is `none` for the default. -/
def tooDeep (depth : Option Nat) (dots : Nat) : Bool :=
  match depth with
  | none => false
  | some d => decide (d ≤ dots)

mutual
/-- One group and the groups in it (`problem.py:2452-2459`); `dots` is `grp.pathname.count('.')`. Names of systems
have no dots. -/
def printGroup (level : Int) (depth : Option Nat) (dots : Nat) : PGroup → (Nat → Int) → (Nat → Int)
  | .node ln nl subs, st =>
    printGroups level depth (dots + 1) subs (if tooDeep depth dots then st else nl.printAll level (ln.printAll level st))

/-- The loop (`problem.py:2452`). -/
def printGroups (level : Int) (depth : Option Nat) (dots : Nat) : List PGroup → (Nat → Int) → (Nat → Int)
  | [], st => st
  | g :: gs, st => printGroups level depth dots gs (printGroup level depth dots g st)
end

/-- `Problem.print_all_convergence` (`problem.py:2445-2459`). The value of `iprint` is checked at every assignment (`solver_base.py:80`); the first one is that of
the linear solver of the root. -/
def printAllConv (setup : Bool) (level : Int) (depth : Option Nat) (root : PGroup) (st : Nat → Int) : Except PyErr (Nat → Int) :=
  if setup = false then .error .RuntimeError
  else if level ∉ [-1, 0, 1, 2] then .error .ValueError
  else
    match root with
    | .node ln nl subs => .ok (printGroups level depth 0 subs (nl.printAll level (ln.printAll level st)))

end OpenMDAO
