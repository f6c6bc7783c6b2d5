import Verif.Model.CoKriging
/-!
# Specification for C132 to C137
-/
namespace OpenMDAO

/-- A lower triangular factor with positive diagonal. -/
structure IsChol {n : Nat} (R C : Matrix (Fin n) (Fin n) ℝ) : Prop where
  lower : ∀ i j, i < j → C i j = 0
  pos : ∀ i, 0 < C i i
  prod : C * C.transpose = R

/-- Symmetric and positive definite. -/
def SymPosDef {n : Nat} (R : Matrix (Fin n) (Fin n) ℝ) : Prop := R.transpose = R ∧ ∀ v : Fin n → ℝ, v ≠ 0 → 0 < v ⬝ᵥ R.mulVec v

/-- What is assumed of scipy: `cholesky` returns a factor of every positive definite matrix and nothing else, `qr` of a matrix with at least as many rows as columns returns orthonormal columns and an upper triangular factor. Of the optimizer nothing is
assumed. -/
structure CkLib.Exact (lib : CkLib) : Prop where
  chol : ∀ {n : Nat} (R C : Matrix (Fin n) (Fin n) ℝ), lib.chol R = some C → IsChol R C
  total : ∀ {n : Nat} (R : Matrix (Fin n) (Fin n) ℝ), SymPosDef R → lib.chol R ≠ none
  prod : ∀ {n m : Nat} (A : Matrix (Fin n) (Fin m) ℝ), m ≤ n → (lib.qr A).1 * (lib.qr A).2 = A
  orth : ∀ {n m : Nat} (A : Matrix (Fin n) (Fin m) ℝ), m ≤ n → (lib.qr A).1.transpose * (lib.qr A).1 = 1
  upper : ∀ {n m : Nat} (A : Matrix (Fin n) (Fin m) ℝ), m ≤ n → ∀ i j, j < i → (lib.qr A).2 i j = 0

/-- The samples of the level `hi` are the last samples of the level `lo` below it, as the documentation of `fit` asks for. -/
def CkNested {d : Nat} (hi lo : CkLevel d) : Prop := ∃ h : hi.n ≤ lo.n, ∀ k : Fin hi.n, lo.X ⟨lo.n - hi.n + k, by omega⟩ = hi.X k

/-- The parameters of the correlation are given for every level. -/
def CkTheta.Given : CkTheta → Prop
  | .all t => t.isSome
  | .levels l => ∀ t ∈ l, t.isSome

/-- The linear predictor with weights `w` on the samples `X` reproduces every function of the regression at the point `x`. -/
def Unbiased {d n : Nat} (regr : CkRegr d) (X : Fin n → Fin d → ℝ) (x : Fin d → ℝ) (w : Fin n → ℝ) : Prop := ∀ b, ∑ k, w k * regr.f (X k) b = regr.f x b

/-- Variance, in units of the variance of the process, of the error of the linear predictor with weights `w`: the samples have covariance `R`, their covariance with the value at the point is `r`, which has variance 1. -/
def errVar {n : Nat} (R : Matrix (Fin n) (Fin n) ℝ) (r w : Fin n → ℝ) : ℝ := w ⬝ᵥ R.mulVec w - 2 * (w ⬝ᵥ r) + 1

/-- The same data with the outputs of every level in other units. -/
def CkLevel.rescale {d : Nat} (a b : ℝ) (l : CkLevel d) : CkLevel d := ⟨l.n, l.X, fun k => a * l.y k + b⟩

/-- A combination of the functions of the regression at the samples; above the lowest level those of `rho_regr` multiply the values `low` of the level below. -/
def combination {d : Nat} (regr rho : CkRegr d) (l : CkLevel d) (low : Option (Fin l.n → ℝ)) (a : Fin rho.p → ℝ) (c : Fin regr.p → ℝ) (k : Fin l.n) : ℝ :=
  match low with
  | none => ∑ i, regr.f (l.X k) i * c i
  | some v => (∑ i, rho.f (l.X k) i * a i) * v k + ∑ i, regr.f (l.X k) i * c i

/-- What a level needs in order to be trained: two samples or more, no two of them equal, more samples than coefficients, coefficients that are determined by the values at the samples, and observed values that are not themselves such a combination. -/
structure LevelOk {d : Nat} (regr rho : CkRegr d) (l : CkLevel d) (low : Option (Fin l.n → ℝ)) : Prop where
  two : 2 ≤ l.n
  distinct : ∀ i j, i ≠ j → l.X i ≠ l.X j
  size : regr.p + (if low.isSome then rho.p else 0) < l.n
  determined : ∀ a c, (∀ k, combination regr rho l low a c k = 0) → (low.isSome → a = 0) ∧ c = 0
  notExact : ∀ a c, ∃ k, combination regr rho l low a c k ≠ l.y k

/-- The same for all levels, from the lowest; a level has at most as many samples as the one below (`prev`), whose last values are used. -/
def LevelsOk {d : Nat} (regr rho : CkRegr d) : Option (CkLevel d) → List (CkLevel d) → Prop
  | _, [] => True
  | none, l :: ls => LevelOk regr rho l none ∧ LevelsOk regr rho (some l) ls
  | some pl, l :: ls => (∃ h : l.n ≤ pl.n, LevelOk regr rho l (some fun k => pl.y ⟨pl.n - l.n + k, by omega⟩)) ∧ LevelsOk regr rho (some l) ls

/-- The parameters of the correlation are given for each of `n` levels, as positive numbers, one or one per input. -/
def CkTheta.Valid (d n : Nat) (th : CkTheta) : Prop := ∃ ts : List (List ℝ), th.expand n = .ok (ts.map some) ∧ ∀ t ∈ ts, (t.length = 1 ∨ t.length = d) ∧ ∀ v ∈ t, 0 < v

end OpenMDAO
