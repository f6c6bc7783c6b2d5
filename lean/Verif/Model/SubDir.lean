import Verif.Model.RunDir
/-!
# Model of the directories of systems in sub-problems

`Problem._setup_communicators` (`openmdao/core/problem.py:2316-2343`), `SubProblem._setup_communicators`
(`openmdao/components/subproblem.py:130-165`) and `System._setup_dir` (`openmdao/core/system.py:471-482`). As in `Model/RunDir`, a directory given as a
function is taken as its value, paths are not normalized and `create_dirs` is left out. What happens at a setup besides is left out too.
-/
namespace OpenMDAO

/-- A system with its `directory` and its `_sysdata.absdir`: a component with its number, a group, or a sub-problem with the `_parent_dir` of its problem
and the root of that (`system.py:68`, `127`, `problem.py:142`). -/
inductive NestTree where
  | comp (id : Nat) (dir absdir : PathStr)
  | group (dir absdir : PathStr) (subs : List NestTree)
  | prob (dir absdir : PathStr) (parentDir : Option PathStr) (root : NestTree)

mutual
/-- `_setup_communicators` with the working directory `cwd` of the process (`group.py:393-399`, `system.py:471-482`). A sub-problem sets up its problem first,
with the `_parent_dir` that one has (`subproblem.py:152`, `problem.py:2340-2343`), and gives it the right one after that (`subproblem.py:156-159`). -/
def nestSetup (cwd parent : PathStr) : NestTree → NestTree
  | .comp i d _ => .comp i d (absOf parent d)
  | .group d _ subs => .group d (absOf parent d) (nestSetups cwd (absOf parent d) subs)
  | .prob d _ pd root => .prob d (absOf parent d) (some (absOf parent d)) (nestSetup cwd (pd.getD cwd) root)

/-- The subsystems of a group (`group.py:396-399`). -/
def nestSetups (cwd parent : PathStr) : List NestTree → List NestTree
  | [] => []
  | t :: ts => nestSetup cwd parent t :: nestSetups cwd parent ts
end

/-- `Problem.setup` of the top problem with its `_parent_dir` (`problem.py:2340-2343`). -/
def topSetup (p : Option PathStr × NestTree) (cwd : PathStr) : Option PathStr × NestTree :=
  (some (p.1.getD cwd), nestSetup cwd (p.1.getD cwd) p.2)

/-- `setup` called several times, each time with a working directory (`problem.py:2340-2343`). -/
def topSetups (p : Option PathStr × NestTree) (cwds : List PathStr) : Option PathStr × NestTree := cwds.foldl topSetup p

end OpenMDAO
