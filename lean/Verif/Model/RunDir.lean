import Verif.Model.External
import Mathlib.Logic.Function.Basic
/-!
# Model of the directories in which systems run

`System._setup_dir` (`openmdao/core/system.py:471-486`), `DirContext` (`openmdao/util/file_util.py:189-203`), and the places where a run
enters the directory of a system. A directory given as a function is taken as its value. Paths are not normalized: a process that
changes to a path is in that path. `create_dirs` is left out: which paths exist is given. The code of a component does not change
the directory itself.
-/
namespace OpenMDAO

/-- A path. Serves `DirTree` (`system.py:127`). -/
abbrev PathStr := List Char

/-- A system: number, is it a component, `directory`, `_dircontext` (`none` is the `_DummyContext`), `_sysdata.absdir`, `_run_apply`, and
for a group how often its nonlinear solver runs the children, whether it evaluates residuals
after each time, whether it also linearizes the group (`Newton`), and the subsystems
(`system.py:107-130`). -/
inductive DirTree where
  | node (id : Nat) (comp : Bool) (dir : PathStr) (ctx : Option PathStr) (absdir : PathStr) (apply : Bool) (sweeps : Nat) (resid : Bool)
      (newton : Bool) (subs : List DirTree)

/-- The number of a system; it also names the object `_dircontext`. Serves `solveSubs` (`system.py:110`). -/
def DirTree.id : DirTree → Nat
  | .node i _ _ _ _ _ _ _ _ _ => i

/-- `_dircontext`. Serves `solveSubs` (`system.py:112`). -/
def DirTree.ctx : DirTree → Option PathStr
  | .node _ _ _ x _ _ _ _ _ _ => x

/-- `directory` (`system.py:127`). -/
def DirTree.dir : DirTree → PathStr
  | .node _ _ d _ _ _ _ _ _ _ => d

/-- `_run_apply` (`group.py:810`). -/
def DirTree.runs : DirTree → Bool
  | .node _ _ _ _ _ r _ _ _ _ => r

/-- The absolute directory (`system.py:474-482`). -/
def absOf (parent d : PathStr) : PathStr := if d = [] then parent else if d.head? = some '/' then d else osJoin parent d

mutual
/-- `_setup_communicators` of a group and `_setup_dir` (`group.py:393-399`, `system.py:460`, `471-482`): without a directory the
context stays what it is. -/
def setupDir (parent : PathStr) : DirTree → DirTree
  | .node i c d x _ r n e w subs =>
    .node i c d (if d = [] then x else some (absOf parent d)) (absOf parent d) r n e w (setupDirs (absOf parent d) subs)

/-- The subsystems of a group (`group.py:396-399`). -/
def setupDirs (parent : PathStr) : List DirTree → List DirTree
  | [] => []
  | t :: ts => setupDir parent t :: setupDirs parent ts
end

/-- Which method of a component is running. Serves `runDirComp` (`component.py:535-625`). -/
inductive DirCall where
  | solve
  | apply
  | linearize
  deriving DecidableEq

/-- The process: working directory, the attribute `start` of each context, what ran where, and whether an exception is on its way. Serves `withDir` (`file_util.py:189-203`). -/
structure DirSt where
  cwd : PathStr
  start : Nat → PathStr
  log : List (Nat × DirCall × PathStr)
  failed : Bool

/-- Which paths exist, and at which call a component raises an exception. Serves `withDir`, `runDirComp` (`file_util.py:200`,
`component.py:609`). -/
structure DirEnv where
  has : PathStr → Bool
  raises : Nat → Nat → Bool

/-- `with sub._dircontext: …` (`file_util.py:195-203`, `system.py:1566-1577`): the context object of system `i` keeps the directory to go back
to in its attribute `start`, and goes back also when there was an exception. -/
def withDir (E : DirEnv) (i : Nat) (ctx : Option PathStr) (body : DirSt → DirSt) (s : DirSt) : DirSt :=
  match ctx with
  | none => body s
  | some d =>
    let s1 := { s with start := Function.update s.start i s.cwd }
    if E.has d then
      let s2 := body { s1 with cwd := d }
      { s2 with cwd := s2.start i }
    else { s1 with failed := true }

/-- A method of a component runs (`component.py:535-625`). -/
def runDirComp (E : DirEnv) (call : DirCall) (i : Nat) (s : DirSt) : DirSt :=
  { s with log := s.log ++ [(i, call, s.cwd)], failed := E.raises i s.log.length }

/-- The next step, unless an exception is on its way. Serves `solveDirTree`, `applyDirTree` (`group.py:741-820`). -/
def andThen (f g : DirSt → DirSt) (s : DirSt) : DirSt := if (f s).failed then f s else g (f s)

/-- `n` times, unless an exception is on its way. Serves `solveDirTree` (`nl_gauss_seidel.py:115-160`). -/
def timesOk (f : DirSt → DirSt) : Nat → DirSt → DirSt
  | 0, s => s
  | n + 1, s => andThen f (timesOk f n) s

mutual
/-- `apply_nonlinear` of a component or a group (`component.py:535-591`, `group.py:782-818`): no directory is entered. -/
def applyDirTree (E : DirEnv) : DirTree → DirSt → DirSt
  | .node i c _ _ _ _ _ _ _ subs => fun s => if c then runDirComp E .apply i s else applySubs E subs s

/-- The loop over the subsystems (`group.py:804-818`): only subsystems whose residuals are of use. -/
def applySubs (E : DirEnv) : List DirTree → DirSt → DirSt
  | [] => fun s => s
  | t :: ts => fun s => andThen (fun s => if t.runs then applyDirTree E t s else s) (applySubs E ts) s
end

mutual
/-- `_sys_linearize` (`system.py:917-951`): the system enters its own directory. -/
def linDirTree (E : DirEnv) : DirTree → DirSt → DirSt
  | .node i c _ x _ _ _ _ _ subs => fun s => withDir E i x (fun s => if c then runDirComp E .linearize i s else linSubs E subs s) s

/-- `Group.linearize` (`group.py:835-836`). -/
def linSubs (E : DirEnv) : List DirTree → DirSt → DirSt
  | [] => fun s => s
  | t :: ts => fun s => andThen (linDirTree E t) (linSubs E ts) s
end

mutual
/-- `solve_nonlinear` of a component, or of a group whose solver runs the children a number of times, evaluates residuals or not,
and linearizes the group or not
(`component.py:593-612`, `run_once.py:20-50`, `nl_gauss_seidel.py:78-190`, `newton.py:154-222`; the linear solutions are left out). -/
def solveDirTree (E : DirEnv) : DirTree → DirSt → DirSt
  | .node i c d x a r n e w subs => fun s =>
    if c then runDirComp E .solve i s
    else timesOk (andThen (andThen (solveSubs E subs) (fun s => if e then applySubs E subs s else s))
      (fun s => if w then linDirTree E (.node i c d x a r n e w subs) s else s)) n s

/-- `children_solve_nonlinear` (`group.py:752-759`). -/
def solveSubs (E : DirEnv) : List DirTree → DirSt → DirSt
  | [] => fun s => s
  | t :: ts => fun s => andThen (withDir E t.id t.ctx (solveDirTree E t)) (solveSubs E ts) s
end

/-- `Problem.run_once` (`problem.py:1164-1175`, `driver.py:785-786`). -/
def runOnceDir (E : DirEnv) (root : DirTree) (s : DirSt) : DirSt :=
  andThen (withDir E root.id root.ctx (solveDirTree E root)) (withDir E root.id root.ctx (applyDirTree E root)) s

/-- `Problem.calc_gradient` up to the linearization (`problem.py:1297`, `1561`). -/
def calcGradDir (E : DirEnv) (root : DirTree) (s : DirSt) : DirSt := withDir E root.id root.ctx (linDirTree E root) s

end OpenMDAO
