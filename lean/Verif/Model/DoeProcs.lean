import Verif.Model.ArrayUtil
/-!
# Model of the division of processes among the groups of a parallel design study

`PredeterminedRunsDriver.get_req_procs` (`openmdao/drivers/predeterminedruns_driver.py:197-212`), the check of the number of processes in
`Problem._setup_communicators` (`openmdao/core/problem.py:2324-2338`) and the sizes in `PredeterminedRunsDriver._setup_communicators` (`:112-154`), under MPI.
`num_par_doe` is a natural number; negative numbers are left out. What the root needs is given.
-/
namespace OpenMDAO

/-- `get_req_procs` of the driver (`predeterminedruns_driver.py:205-212`): the needs of the root, times the number of groups. -/
def doeReq (n : Nat) (req : Nat × Option Nat) : Nat × Option Nat := (req.1 * n, req.2.map (· * n))

/-- The number of processes is more than the problem can use (`problem.py:2327`). -/
def tooManyProcs (most : Option Nat) (size : Nat) : Bool :=
  match most with
  | none => false
  | some m => decide (m < size)

/-- The sizes of the groups of processes (`predeterminedruns_driver.py:126-143`): with load balancing the first group is the master alone. -/
def doeSizes (n : Nat) (balance : Bool) (size : Nat) : Except PyErr (List Nat) :=
  if n ≤ 1 then .ok [size]
  else if balance then (evenlyDistribIdxs (n - 1) (size - 1)).map fun r => 1 :: r.1
  else (evenlyDistribIdxs n size).map Prod.fst

/-- The setup of the communicators of a problem with such a driver (`problem.py:2320-2343`): the check, then the sizes. -/
def doeSetup (n : Nat) (balance : Bool) (req : Nat × Option Nat) (size : Nat) : Except PyErr (List Nat) :=
  if tooManyProcs (doeReq n req).2 size then .error .RuntimeError
  else if size < (doeReq n req).1 then .error .RuntimeError
  else doeSizes n balance size

end OpenMDAO
