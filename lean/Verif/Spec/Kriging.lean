import Verif.Model.Kriging
import Mathlib.LinearAlgebra.Matrix.NonsingularInverse
/-!
# Specification for C79 to C83
-/
namespace OpenMDAO

/-- What is assumed of `linalg.svd`: orthogonal factors, singular values that are not negative and do not increase, and their product is the matrix. -/
structure IsSvd {N : Nat} (R : Matrix (Fin (N + 1)) (Fin (N + 1)) ℝ) (s : Svd N) : Prop where
  left : s.U.transpose * s.U = 1
  right : s.Vh * s.Vh.transpose = 1
  nonneg : ∀ j, 0 ≤ s.S j
  sorted : Antitone s.S
  prod : R = s.U * Matrix.diagonal s.S * s.Vh

/-- The regularized solution of `R a = v`: the minimizer of `|R a - v|² + h² |a|²`, given by its normal equations. -/
def IsTikhonov {N : Nat} (R : Matrix (Fin (N + 1)) (Fin (N + 1)) ℝ) (h : ℝ) (v a : Fin (N + 1) → ℝ) : Prop :=
  R.transpose.mulVec (R.mulVec a) + h ^ 2 • a = R.transpose.mulVec v

end OpenMDAO
