import Verif.Model.Numpy
import Mathlib.LinearAlgebra.Matrix.NonsingularInverse
/-!
# Model of the implicit linear system component (`openmdao/components/linear_system.py`)

Matrices and vectors are Mathlib's, indexed by `Fin n` (`n` is `self.size`). LU factorisation and back substitution are trusted
(scipy): the factorisation of a matrix is represented by the matrix itself, and `lu_solve(lup, rhs, trans)` by the
solution of the system with that matrix (`trans=0`) or its transpose (`trans=1`); a singular matrix, for which scipy
warns and divides by zero, is represented by no result.
-/
namespace OpenMDAO

variable {K : Type} [Field K] {n : Nat}

/-- The component: params `A`, `b`, state `x`, and `self.lup`. Serves `LinSys.resid` (`linear_system.py:68,73`). -/
structure LinSys (n : Nat) (K : Type) where
  A : Matrix (Fin n) (Fin n) K
  b : Fin n → K
  x : Fin n → K
  lup : Option (Matrix (Fin n) (Fin n) K)

/-- `linalg.lu_solve(lup, rhs, trans)` (trusted, see above). `none` is division by zero in scipy. Serves `LinSys.solveNonlinear` (`linear_system.py:59-68`). -/
noncomputable def luSolve (lup : Matrix (Fin n) (Fin n) K) (rhs : Fin n → K) (trans : Bool) : Option (Fin n → K) :=
  open Classical in
  if lup.det = 0 then none
  else some ((if trans then lup.transpose else lup)⁻¹.mulVec rhs)

/-- `A.dot(x) - b`, the residual (`linear_system.py:68,73`). -/
def LinSys.resid (s : LinSys n K) : Fin n → K := fun i => s.A.mulVec s.x i - s.b i

/-- `solve_nonlinear` (`linear_system.py:59-68`): factor, solve, residual. ZeroDivisionError stands for a singular matrix. -/
noncomputable def LinSys.solveNonlinear (s : LinSys n K) : Except PyErr (LinSys n K × (Fin n → K)) :=
  match luSolve s.A s.b false with
  | none => .error .ZeroDivisionError
  | some y =>
    let s1 : LinSys n K := { s with lup := some s.A, x := y }
    .ok (s1, s1.resid)

/-- The parts of the derivative vectors that exist (`'x' in dunknowns`, `'A' in dparams`, `'b' in dparams`). Serves `LinSys.applyFwd` (`linear_system.py:79-86`). -/
structure LinSysD (n : Nat) (K : Type) where
  dx : Option (Fin n → K)
  dA : Option (Matrix (Fin n) (Fin n) K)
  db : Option (Fin n → K)

/-- `apply_linear`, forward (`linear_system.py:79-86`): what is in `dresids['x']` afterwards. -/
def LinSys.applyFwd (s : LinSys n K) (d : LinSysD n K) (dr : Fin n → K) : Fin n → K :=
  let r1 := match d.dx with
    | some dx => fun i => dr i + s.A.mulVec dx i
    | none => dr
  let r2 := match d.dA with
    | some dA => fun i => r1 i + dA.mulVec s.x i
    | none => r1
  match d.db with
    | some db => fun i => r2 i - db i
    | none => r2

/-- `np.outer(u, v)`. Serves `LinSys.applyRev` (`linear_system.py:88-95`). -/
def npOuter (u v : Fin n → K) : Matrix (Fin n) (Fin n) K := fun i j => u i * v j

/-- `apply_linear`, reverse (`linear_system.py:88-95`): what is in `dunknowns`, `dparams` afterwards. -/
def LinSys.applyRev (s : LinSys n K) (d : LinSysD n K) (dr : Fin n → K) : LinSysD n K :=
  { dx := match d.dx with
      | some dx => some fun i => dx i + s.A.transpose.mulVec dr i
      | none => none
    dA := match d.dA with
      | some dA => some (dA + (npOuter s.x dr).transpose)
      | none => none
    db := match d.db with
      | some db => some fun i => db i - dr i
      | none => none }

/-- `solve_linear` for one variable of interest (`linear_system.py:97-117`): the right-hand side is `dr` and the solution goes to `du`
in forward mode (any mode that is not `'fwd'` is treated as reverse, where the roles are exchanged and `trans=1`).
With `self.lup` still None `lu_solve` fails to unpack it: TypeError. -/
noncomputable def LinSys.solveLinear (s : LinSys n K) (fwd : Bool) (rhs : Fin n → K) : Except PyErr (Fin n → K) :=
  match s.lup with
  | none => .error .TypeError
  | some L => match luSolve L rhs (!fwd) with
    | none => .error .ZeroDivisionError
    | some y => .ok y

end OpenMDAO
