import Verif.Model.Gmres
/-!
# Model of `PetscKSP` (`openmdao/solvers/petsc_ksp.py:92-405`)

PETSc is outside the repository: `KSP.solve` is a parameter, a program that may ask for products with the operator (`mult`), for the preconditioner (`apply`), may call the monitor, in any order, and finally returns a vector and a convergence reason. The
vectors and the operator are those of `Verif.Model.Gmres`. `rel_inputs` is `None`, one process. Of the printing, the final message is modelled; the lines printed on every iteration are left out.
-/
namespace OpenMDAO

variable {ι π K V : Type} [Fintype ι] [Fintype π] [DecidableEq ι] [Field K]

/-- A run of `KSP.solve`: calls of `mult`, `apply`, of the monitor with the iteration counter and the residual norm, and the result: the solution and `getConvergedReason()` (positive: converged; negative: not). Serves `runKsp` (`petsc_ksp.py:318-351`). -/
inductive Ksp (W K : Type) where
  | done (x : W) (reason : Int)
  | matvec (v : W) (k : W → Ksp W K)
  | psolve (v : W) (k : W → Ksp W K)
  | monitor (counter : Nat) (norm : K) (k : Ksp W K)

/-- The fields of `Monitor` (`petsc_ksp.py:95-99`); one object per variable of interest, made in `setup` and kept from solve to solve. -/
structure KspMon (K : Type) where
  norm0 : K
  norm : K

/-- `Monitor.__init__` (`petsc_ksp.py:95-99`). -/
def KspMon.new : KspMon K := ⟨1, 1⟩

/-- `Monitor.__call__` (`petsc_ksp.py:101-106`): the norm is stored, the first one also as reference unless it is zero. The increment of `iter_count` (`petsc_ksp.py:108-109`) is in `runKsp`. -/
def KspMon.call [DecidableEq K] (counter : Nat) (norm : K) (m : KspMon K) : KspMon K :=
  { norm0 := if counter = 0 ∧ norm ≠ 0 then norm else m.norm0, norm := norm }

/-- What a solve changes: `self.iter_count`, the monitor and the vectors of the variable of interest. Serves `runKsp` (`petsc_ksp.py:318-351`). -/
structure KspState (ι π K : Type) where
  iters : Nat
  mon : KspMon K
  vec : GSState ι π K

/-- The run of `KSP.solve` with the callbacks of the solver: `mult` (`petsc_ksp.py:318-351`) is `multLin`; `apply` (`petsc_ksp.py:356-405`) is the identity without a preconditioner, otherwise `preconLin`; the monitor counts every call. -/
def runKsp [LinearOrder K] (G : LinGroup ι π K) (nrm : (ι → K) → K) (tiny : K) (fwd : Bool) (P : Option (LinSolver ι π K)) : Ksp (ι → K) K → KspState ι π K → Except PyErr ((ι → K) × Int) × KspState ι π K
  | .done x reason, s => (.ok (x, reason), s)
  | .matvec v k, s => runKsp G nrm tiny fwd P (k (multLin G fwd v s.vec).1) { s with vec := (multLin G fwd v s.vec).2 }
  | .psolve v k, s => match P with
    | none => runKsp G nrm tiny fwd P (k v) s
    | some P' => match preconLin nrm tiny fwd P' v s.vec with
      | (.error e, t) => (.error e, { s with vec := t })
      | (.ok w, t) => runKsp G nrm tiny fwd P (k w) { s with vec := t }
  | .monitor c r k, s => runKsp G nrm tiny fwd P k { s with iters := s.iters + 1, mon := s.mon.call c r }

/-- The final message of a solve (`petsc_ksp.py:295-305`): the number in it, whether it says FAILED, and whether it is printed. -/
structure KspMsg where
  iters : Nat
  failed : Bool
  printed : Bool
deriving DecidableEq

/-- The message from the counter (`petsc_ksp.py:295-305`): the convergence reason is not looked at. -/
def kspMsg (maxiter : Nat) (iprint : Int) (iters : Nat) : KspMsg :=
  let fail := decide (maxiter ≤ iters)
  { iters := iters, failed := fail, printed := decide (0 < iprint) || (fail && decide (-1 < iprint)) }

/-- The options of the solver that `solve` itself reads; `atol` and `rtol` go to PETSc. Serves `kspLoop` (`petsc_ksp.py:262-316`). -/
structure KspOpts where
  maxiter : Nat
  iprint : Int
  errOnMax : Bool

/-- The loop of `PetscKSP.solve` over the right-hand sides (`petsc_ksp.py:262-316`); `prog` is `KSP.solve` with the tolerances of the solver. The counter is reset for each right-hand side. -/
def kspLoop [LinearOrder K] [DecidableEq V] (G : LinGroup ι π K) (nrm : (ι → K) → K) (tiny : K) (fwd : Bool) (P : Option (LinSolver ι π K)) (prog : (ι → K) → Ksp (ι → K) K) (o : KspOpts) :
    List (V × (ι → K)) → (V → KspState ι π K) → Except PyErr (List (V × (ι → K) × KspMsg)) × (V → KspState ι π K)
  | [], st => (.ok [], st)
  | (voi, rhs) :: rest, st => match runKsp G nrm tiny fwd P (prog rhs) { st voi with iters := 0 } with
    | (.error e, t) => (.error e, Function.update st voi t)
    | (.ok (x, _), t) =>
      if (kspMsg o.maxiter o.iprint t.iters).failed = true ∧ o.errOnMax = true then (.error .AnalysisError, Function.update st voi t)
      else match kspLoop G nrm tiny fwd P prog o rest (Function.update st voi t) with
        | (.error e, st2) => (.error e, st2)
        | (.ok l, st2) => (.ok ((voi, x, kspMsg o.maxiter o.iprint t.iters) :: l), st2)

end OpenMDAO
