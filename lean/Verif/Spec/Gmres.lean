import Verif.Model.Gmres
import Verif.Spec.LinearGS
/-! Vocabulary of the statements C91 to C94. -/
namespace OpenMDAO

variable {ι π K V : Type} [Fintype ι] [Fintype π] [DecidableEq ι] [Field K]

/-- Product with the matrix of the group, or with its transpose. -/
def LinGroup.mul (G : LinGroup ι π K) (fwd : Bool) (x : ι → K) : ι → K :=
  if fwd then fun i => ∑ j : ι, G.A i j * x j else fun j => ∑ i : ι, G.A i j * x i

/-- The run of `gmres` on a fixed operator `A` with a fixed preconditioner `M`. -/
def Krylov.run {W : Type} (A : W → W) (M : W → Except PyErr W) : Krylov W → Except PyErr (W × Int)
  | .done x info => .ok (x, info)
  | .matvec v k => (k (A v)).run A M
  | .psolve v k => match M v with
    | .error e => .error e
    | .ok w => (k w).run A M

/-- The result of a linear solver is a function `f` of the right-hand side alone. -/
def LinSolver.Is (P : LinSolver ι π K) (f : (ι → K) → Except PyErr (ι → K)) : Prop := ∀ rhs s, (P rhs s).1 = f rhs

/-- The preconditioner as a function: a right-hand side below `tiny` gives zero. -/
def preconOf [LinearOrder K] (nrm : (ι → K) → K) (tiny : K) (f : (ι → K) → Except PyErr (ι → K)) (v : ι → K) : Except PyErr (ι → K) :=
  if nrm v < tiny then .ok fun _ => 0 else f v

/-- What `scipy.sparse.linalg.gmres` promises for every operator: `info = 0` only with the relative or the absolute residual below the tolerance. -/
def GmresContract [LinearOrder K] (nrm : (ι → K) → K) (tol : K) (prog : (ι → K) → Krylov (ι → K)) : Prop :=
  ∀ (A : (ι → K) → ι → K) (M : (ι → K) → Except PyErr (ι → K)) (rhs x : ι → K), (prog rhs).run A M = .ok (x, 0) →
    nrm (fun i => rhs i - A x i) ≤ tol * nrm rhs ∨ nrm (fun i => rhs i - A x i) ≤ tol

/-- The preconditioner of the solver is the function `M`. -/
def PreconIs [LinearOrder K] (nrm : (ι → K) → K) (tiny : K) (P : Option (LinSolver ι π K)) (M : (ι → K) → Except PyErr (ι → K)) : Prop :=
  match P with
  | none => M = .ok
  | some P' => ∃ f, P'.Is f ∧ M = preconOf nrm tiny f

/-- One right-hand side passes. -/
def Passes (A : (ι → K) → ι → K) (M : (ι → K) → Except PyErr (ι → K)) (prog : (ι → K) → Krylov (ι → K)) (errOnMax : Bool) (r : ι → K) : Prop :=
  ∃ x info, (prog r).run A M = .ok (x, info) ∧ 0 ≤ info ∧ (errOnMax = true → info = 0)

/-- One right-hand side makes the solve fail with `e`. -/
def FailsWith (A : (ι → K) → ι → K) (M : (ι → K) → Except PyErr (ι → K)) (prog : (ι → K) → Krylov (ι → K)) (errOnMax : Bool) (r : ι → K) (e : PyErr) : Prop :=
  (prog r).run A M = .error e ∨ ∃ x info, (prog r).run A M = .ok (x, info) ∧
    ((0 < info ∧ errOnMax = true ∧ e = .AnalysisError) ∨ (info < 0 ∧ e = .RuntimeError))

/-- The answers of `ScipyGMRES.solve` without the messages. -/
def gmresAnswers : Except PyErr (List (V × (ι → K) × Bool)) → Except PyErr (List (V × (ι → K)))
  | .error e => .error e
  | .ok l => .ok (l.map fun q => (q.1, q.2.1))

end OpenMDAO
