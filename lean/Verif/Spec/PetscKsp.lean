import Verif.Model.PetscKsp
import Verif.Spec.Gmres
/-! Vocabulary of the statement C162. -/
namespace OpenMDAO

variable {ι π K V : Type} [Fintype ι] [Fintype π] [DecidableEq ι] [Field K]

/-- The run of `KSP.solve` on a fixed operator `A` with a fixed preconditioner `M`: solution, reason, and the calls of the monitor in order. -/
def Ksp.run {W K : Type} (A : W → W) (M : W → Except PyErr W) : Ksp W K → Except PyErr (W × Int × List (Nat × K))
  | .done x reason => .ok (x, reason, [])
  | .matvec v k => (k (A v)).run A M
  | .psolve v k => match M v with
    | .error e => .error e
    | .ok w => (k w).run A M
  | .monitor c r k => match k.run A M with
    | .error e => .error e
    | .ok (x, reason, calls) => .ok (x, reason, (c, r) :: calls)

/-- What PETSc promises for every operator and preconditioner: the monitor is called once for the initial residual and once for each iteration, there are at most `maxit` iterations, a positive reason is given only with the residual below the absolute or the
relative tolerance, a reason is always given, and the reason `KSP_DIVERGED_ITS` (-3) only after `maxit` iterations. -/
structure KspContract [LinearOrder K] (nrm : (ι → K) → K) (atol rtol : K) (maxit : Nat) (prog : (ι → K) → Ksp (ι → K) K) : Prop where
  numbered : ∀ A M rhs x reason calls, (prog rhs).run A M = .ok (x, reason, calls) → ∃ its ≤ maxit, calls.map Prod.fst = List.range (its + 1)
  converged : ∀ A M rhs x reason calls, (prog rhs).run A M = .ok (x, reason, calls) → 0 < reason → nrm (fun i => rhs i - A x i) ≤ atol ∨ nrm (fun i => rhs i - A x i) ≤ rtol * nrm rhs
  given : ∀ A M rhs x reason calls, (prog rhs).run A M = .ok (x, reason, calls) → reason ≠ 0
  limit : ∀ A M rhs x reason calls, (prog rhs).run A M = .ok (x, reason, calls) → reason = -3 → calls.map Prod.fst = List.range (maxit + 1)

/-- One right-hand side passes: no exception, and with `err_on_maxiter` fewer monitor calls than `maxiter`. -/
def KspPasses (A : (ι → K) → ι → K) (M : (ι → K) → Except PyErr (ι → K)) (prog : (ι → K) → Ksp (ι → K) K) (maxiter : Nat) (errOnMax : Bool) (r : ι → K) : Prop :=
  ∃ x reason calls, (prog r).run A M = .ok (x, reason, calls) ∧ (errOnMax = true → calls.length < maxiter)

/-- One right-hand side makes the solve fail with `e`: the preconditioner raises, or `err_on_maxiter` is set and there are `maxiter` monitor calls. -/
def KspFails (A : (ι → K) → ι → K) (M : (ι → K) → Except PyErr (ι → K)) (prog : (ι → K) → Ksp (ι → K) K) (maxiter : Nat) (errOnMax : Bool) (r : ι → K) (e : PyErr) : Prop :=
  (prog r).run A M = .error e ∨ ∃ x reason calls, (prog r).run A M = .ok (x, reason, calls) ∧ errOnMax = true ∧ maxiter ≤ calls.length ∧ e = .AnalysisError

end OpenMDAO
