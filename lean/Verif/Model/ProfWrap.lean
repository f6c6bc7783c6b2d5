import Mathlib.Logic.Function.Basic
/-!
# Model of the methods that the profiler wraps (`openmdao/util/profile.py:49-75`, `168-180`)

Objects are numbers: two places in the model with the same number hold the same object. Which objects have a method, and are of a class listed for it, is given
(`applies`); the class test and `getattr` are not modelled further.
-/
namespace OpenMDAO

/-- A solver and its recording manager, with a flag if that one has recorders (`profile.py:70-75`). -/
structure ProfSolver where
  obj : Nat
  manager : Nat
  records : Bool

/-- A system: a component, or a group with its linear and nonlinear solver (`profile.py:67-75`). A sub-problem is a component. -/
inductive ProfTree where
  | comp (obj : Nat)
  | group (obj : Nat) (ln nl : ProfSolver) (subs : List ProfTree)

/-- The recording manager, if it has recorders (`profile.py:72-75`). -/
def ProfSolver.managers (s : ProfSolver) : List Nat := if s.records then [s.manager] else []

mutual
/-- A system and everything in it (`profile.py:67-75`): `subsystems` with `recurse` and `include_self` (`group.py:229-239`). -/
def objIterTree : ProfTree → List Nat
  | .comp o => [o]
  | .group o ln nl subs => [o, ln.obj, nl.obj] ++ (ln.managers ++ nl.managers) ++ objIterTrees subs

/-- The subsystems of a group (`group.py:234-239`). -/
def objIterTrees : List ProfTree → List Nat
  | [] => []
  | t :: ts => objIterTree t ++ objIterTrees ts
end

/-- `_obj_iter` for a problem: the problem, its driver with its recording manager, and the systems (`profile.py:49-75`). The driver is treated like a solver. -/
def objIter (problem : Nat) (driver : ProfSolver) (root : ProfTree) : List Nat :=
  [problem, driver.obj] ++ driver.managers ++ objIterTree root

/-- The loop over the methods for one object (`profile.py:175-180`): the state counts how many wrappers a method of an object has. -/
def wrapObj (applies : Nat → Nat → Bool) (methods : List Nat) (st : Nat → Nat → Nat) (o : Nat) : Nat → Nat → Nat :=
  methods.foldl (fun st m => if applies o m then fun o' m' => if o' = o ∧ m' = m then st o' m' + 1 else st o' m' else st) st

/-- `wrap_methods` (`profile.py:168-180`). -/
def wrapMethods (applies : Nat → Nat → Bool) (methods objs : List Nat) : Nat → Nat → Nat :=
  objs.foldl (wrapObj applies methods) fun _ _ => 0

end OpenMDAO
