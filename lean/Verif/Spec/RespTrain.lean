import Verif.Model.RespTrain
import Mathlib.Algebra.BigOperators.Group.Finset.Basic
import Mathlib.Algebra.Order.Ring.Defs
/-! Specification of least squares and of quadratic functions. -/
namespace OpenMDAO

/-- Sum of the squares of the residuals of the linear system `X b = y`. -/
def sqSum {K : Type} [CommRing K] (X : List (List K)) (y b : List K) : K := (List.zipWith (fun row v => (dot row b - v) ^ 2) X y).sum

/-- What `lstsq` promises for a matrix with `n` columns: a vector of the right length whose residuals are as small as those of any other one. -/
def IsLstsq {K : Type} [CommRing K] [LinearOrder K] (lstsq : Nat → List (List K) → List K → List K) : Prop :=
  ∀ (n : Nat) (X : List (List K)) (y : List K), (∀ row ∈ X, row.length = n) → X.length = y.length →
    (lstsq n X y).length = n ∧ ∀ b : List K, b.length = n → sqSum X y (lstsq n X y) ≤ sqSum X y b

/-- The quadratic function with constant `c`, linear coefficients `l` and any matrix `Q`. -/
def quadratic {K : Type} [CommRing K] (c : K) (l : Nat → K) (Q : Nat → Nat → K) (x : List K) : K :=
  c + ∑ i ∈ Finset.range x.length, l i * x.getD i 0 + ∑ i ∈ Finset.range x.length, ∑ j ∈ Finset.range x.length, Q i j * (x.getD i 0 * x.getD j 0)

end OpenMDAO
