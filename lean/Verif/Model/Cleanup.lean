import Mathlib.Logic.Function.Basic
/-!
# Model of `Problem.cleanup` (`openmdao/core/problem.py:682-685`) and `Problem._start_recorders` (`2240-2249`)

With `Driver.cleanup` (`openmdao/core/driver.py:182-184`), `Group.cleanup` (`openmdao/core/group.py:113-118`), `SubProblem.cleanup`
(`openmdao/components/subproblem.py:67-72`), `SolverBase.cleanup` (`openmdao/solvers/solver_base.py:96-98`) and `RecordingManager.close`
(`openmdao/recorders/recording_manager.py:120-123`). A recorder is a number; the state says which are closed. What closing does to a file is left out, and so are
exceptions. Components with a `cleanup` of their own, other than sub-problems, are left out too.
-/
namespace OpenMDAO

/-- A solver: its recorders, and the solvers in it, such as a line search, the linear solver of a Newton or a preconditioner
(`solver_base.py:83`, `newton.py:65-69`, `scipy_gmres.py:68`). -/
inductive RecSolver where
  | mk (recs : List Nat) (inner : List RecSolver)

/-- The recorders of the solver itself (`solver_base.py:83`). -/
def RecSolver.recs : RecSolver → List Nat
  | .mk r _ => r

/-- A system: a component, a group with its linear and nonlinear solver, or a sub-problem with the recorders of its driver and its root
(`group.py:113-118`, `subproblem.py:67-72`). -/
inductive CloseTree where
  | comp
  | group (ln nl : RecSolver) (subs : List CloseTree)
  | sub (driver : List Nat) (root : CloseTree)

/-- `RecordingManager.close` (`recording_manager.py:120-123`). -/
def closeRecs (recs : List Nat) (st : Nat → Bool) : Nat → Bool := recs.foldl (fun st r => Function.update st r true) st

/-- `cleanup` of a solver (`solver_base.py:96-98`). -/
def RecSolver.cleanup (s : RecSolver) (st : Nat → Bool) : Nat → Bool := closeRecs s.recs st

mutual
/-- `cleanup` of a system (`system.py:336-338`, `group.py:113-118`, `subproblem.py:67-72`). -/
def cleanupTree : CloseTree → (Nat → Bool) → Nat → Bool
  | .comp => fun st => st
  | .group ln nl subs => fun st => cleanupTrees subs (nl.cleanup (ln.cleanup st))
  | .sub driver root => fun st => cleanupTree root (closeRecs driver st)

/-- The subsystems of a group (`group.py:117-118`). -/
def cleanupTrees : List CloseTree → (Nat → Bool) → Nat → Bool
  | [] => fun st => st
  | t :: ts => fun st => cleanupTrees ts (cleanupTree t st)
end

/-- `Problem.cleanup`: the driver and then the root (`problem.py:682-685`). -/
def cleanupProb (driver : List Nat) (root : CloseTree) (st : Nat → Bool) : Nat → Bool := cleanupTree root (closeRecs driver st)

mutual
/-- The recorders of solvers that `_start_recorders` starts: `subgroups` does not enter sub-problems (`problem.py:2246-2249`, `group.py:241-249`). -/
def groupStarts : CloseTree → List Nat
  | .comp => []
  | .group ln nl subs => nl.recs ++ ln.recs ++ groupStartsAll subs
  | .sub _ _ => []

/-- The subsystems of a group (`group.py:234-239`). -/
def groupStartsAll : List CloseTree → List Nat
  | [] => []
  | t :: ts => groupStarts t ++ groupStartsAll ts
end

mutual
/-- The recorders started by the setup of sub-problems, each in `_setup_communicators` (`subproblem.py:130-152`): first those of sub-problems in them, then the
driver and then the groups (`problem.py:2240-2249`). -/
def subStarts : CloseTree → List Nat
  | .comp => []
  | .group _ _ subs => subStartsAll subs
  | .sub driver root => subStarts root ++ (driver ++ groupStarts root)

/-- The subsystems of a group, in order (`group.py:234-239`). -/
def subStartsAll : List CloseTree → List Nat
  | [] => []
  | t :: ts => subStarts t ++ subStartsAll ts
end

/-- The recorders that `Problem.setup` starts, in order (`problem.py:660`, `2240-2249`). Recording of metadata is left out. -/
def setupStarts (driver : List Nat) (root : CloseTree) : List Nat := subStarts root ++ (driver ++ groupStarts root)

end OpenMDAO
