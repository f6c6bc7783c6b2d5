import Verif.Model.Numpy
import Mathlib.Data.Real.Basic
import Mathlib.Analysis.Real.Sqrt
import Mathlib.Analysis.SpecialFunctions.Log.Basic
import Mathlib.Algebra.BigOperators.Group.Finset.Basic
import Mathlib.Data.Fintype.BigOperators
import Mathlib.Data.Matrix.Mul
import Mathlib.Algebra.Order.Floor.Ring
import Mathlib.Algebra.Order.Archimedean.Real.Basic
/-!
# Model of the Kriging surrogate

`openmdao/surrogate_models/kriging.py` and the base class `surrogate_model.py`. Numbers are real numbers. Training data have `N + 1` points (`np.atleast_2d` makes at least one row), `d` inputs and `m` outputs. One point is
predicted at a time. The singular value decomposition of scipy is a function `svd` and the optimizer of the hyper-parameters a function `opt` of its callback; theorems that need more about `svd` say so.
-/
namespace OpenMDAO

/-- Training data. Serves `kTrain` (`kriging.py:51-112`). -/
structure KrigData (N d m : Nat) where
  x : Fin (N + 1) → Fin d → ℝ
  y : Fin (N + 1) → Fin m → ℝ

/-- What `linalg.svd` returns. Serves `kAlpha` (`kriging.py:147`). -/
structure Svd (N : Nat) where
  U : Matrix (Fin (N + 1)) (Fin (N + 1)) ℝ
  S : Fin (N + 1) → ℝ
  Vh : Matrix (Fin (N + 1)) (Fin (N + 1)) ℝ

/-- `np.mean(…, axis=0)`, one column (`kriging.py:76,78`). -/
noncomputable def kMean {N : Nat} (c : Fin (N + 1) → ℝ) : ℝ := (∑ i, c i) / ((N + 1 : Nat) : ℝ)

/-- `np.std(…, axis=0)`, one column (`kriging.py:77,79`). -/
noncomputable def kStd {N : Nat} (c : Fin (N + 1) → ℝ) : ℝ := Real.sqrt ((∑ i, (c i - kMean c) ^ 2) / ((N + 1 : Nat) : ℝ))

open Classical in
/-- `X_std[X_std == 0.] = 1.` (`kriging.py:81-82`). -/
noncomputable def kScale {N : Nat} (c : Fin (N + 1) → ℝ) : ℝ := if kStd c = 0 then 1 else kStd c

/-- The attributes of the surrogate that `train` sets before the optimization, and after it. Serves `kTrain` (`kriging.py:51-112`). -/
structure KrigState (N d m : Nat) where
  trained : Bool
  X : Fin (N + 1) → Fin d → ℝ
  Y : Fin (N + 1) → Fin m → ℝ
  Xmean : Fin d → ℝ
  Xstd : Fin d → ℝ
  Ymean : Fin m → ℝ
  Ystd : Fin m → ℝ
  thetas : Fin d → ℝ
  alpha : Fin (N + 1) → Fin m → ℝ
  U : Matrix (Fin (N + 1)) (Fin (N + 1)) ℝ
  Sinv : Fin (N + 1) → ℝ
  Vh : Matrix (Fin (N + 1)) (Fin (N + 1)) ℝ
  sigma2 : Fin m → ℝ

section
variable {N d m : Nat}

/-- `distances[i, k, j]` after the loop (`kriging.py:130-133`): the loop of `i` writes the row behind `i` and mirrors it into the column; the diagonal stays 0. -/
noncomputable def kDist (X : Fin (N + 1) → Fin d → ℝ) (i : Fin (N + 1)) (k : Fin d) (j : Fin (N + 1)) : ℝ :=
  if i < j then |X i k - X j k| else if j < i then |X j k - X i k| else 0

/-- The correlation matrix (`kriging.py:135-136`): `1 + nugget` on the diagonal. The nugget is one number or one per training point; both are a function of the point here. -/
noncomputable def kCorr (nugget : Fin (N + 1) → ℝ) (X : Fin (N + 1) → Fin d → ℝ) (thetas : Fin d → ℝ) : Matrix (Fin (N + 1)) (Fin (N + 1)) ℝ :=
  Matrix.of fun i j => if i = j then 1 + nugget i else Real.exp (-∑ k, thetas k * kDist X i k j ^ 2)

/-- `h = 1e-8 * S[0]` (`kriging.py:144`). -/
noncomputable def kReg (S : Fin (N + 1) → ℝ) : ℝ := 1e-8 * S 0

/-- `inv_factors = S / (S ** 2. + h ** 2.)` (`kriging.py:145`). -/
noncomputable def kInv (S : Fin (N + 1) → ℝ) (j : Fin (N + 1)) : ℝ := S j / (S j ^ 2 + kReg S ^ 2)

/-- `alpha = Vh.T.dot(np.einsum('j,kj,kl->jl', inv_factors, U, Y))` (`kriging.py:147`). -/
noncomputable def kAlpha (s : Svd N) (Y : Fin (N + 1) → Fin m → ℝ) (i : Fin (N + 1)) (l : Fin m) : ℝ :=
  ∑ j, s.Vh j i * ∑ k, kInv s.S j * s.U k j * Y k l

/-- `sigma2 = np.dot(Y.T, alpha).sum(axis=0) / self.n_samples` (`kriging.py:149`): the sum runs over the rows of the product of all outputs with all outputs. -/
noncomputable def kSigma2 (Y alpha : Fin (N + 1) → Fin m → ℝ) (l : Fin m) : ℝ := (∑ a, ∑ i, Y i a * alpha i l) / ((N + 1 : Nat) : ℝ)

open Classical in
/-- `np.log`; numbers that are not positive give infinity or nan in numpy, `none` here. Serves `kLike` (`kriging.py:148-150`). -/
noncomputable def npLog (x : ℝ) : Option ℝ := if 0 < x then some (Real.log x) else none

/-- Sum of logarithms, `none` if one of them is. Serves `kLike` (`kriging.py:148-150`). -/
noncomputable def npLogSum (l : List ℝ) : Option ℝ := (l.mapM npLog).map List.sum

/-- `reduced_likelihood` (`kriging.py:148-150`): `-(log(sum(sigma2)) + logdet / n)` where `logdet = -sum(log(inv_factors))`. -/
noncomputable def kLike (s : Svd N) (sigma2 : Fin m → ℝ) : Option ℝ :=
  (npLog (∑ l, sigma2 l)).bind fun a => (npLogSum (List.ofFn (kInv s.S))).map fun b => -(a + -b / ((N + 1 : Nat) : ℝ))

/-- `_calculate_reduced_likelihood_params` (`kriging.py:114-158`) as the callback of the optimizer: the negated likelihood at `exp(thetas)` (`kriging.py:92-95`). -/
noncomputable def kObjective (svd : Matrix (Fin (N + 1)) (Fin (N + 1)) ℝ → Svd N) (nugget : Fin (N + 1) → ℝ) (X : Fin (N + 1) → Fin d → ℝ) (Y : Fin (N + 1) → Fin m → ℝ) (t : Fin d → ℝ) : Option ℝ :=
  let s := svd (kCorr nugget X fun k => Real.exp (t k))
  (kLike s (kSigma2 Y (kAlpha s Y))).map fun v => -v

/-- `train` (`kriging.py:51-112`) and its base method (`surrogate_model.py:13-14`). The first component is the surrogate afterwards, also after an error: `trained` is set first, the normalized data before the optimization,
the rest after it. The bounds and the starting point of the optimization depend on the number of inputs only and are part of `opt`, which returns `none` where it does not succeed. The attributes after the error for a single point (`n_samples`, `n_dims`) are left out. -/
noncomputable def kTrain (svd : Matrix (Fin (N + 1)) (Fin (N + 1)) ℝ → Svd N) (opt : ((Fin d → ℝ) → Option ℝ) → Option (Fin d → ℝ)) (nugget : Fin (N + 1) → ℝ) (D : KrigData N d m) (st : KrigState N d m) :
    KrigState N d m × Except PyErr Unit :=
  if N + 1 ≤ 1 then ({ st with trained := true }, .error .ValueError)
  else
    let Xmean := fun k => kMean fun i => D.x i k
    let Xstd := fun k => kScale fun i => D.x i k
    let Ymean := fun l => kMean fun i => D.y i l
    let Ystd := fun l => kScale fun i => D.y i l
    let X := fun i k => (D.x i k - Xmean k) / Xstd k
    let Y := fun i l => (D.y i l - Ymean l) / Ystd l
    let st1 := { st with trained := true, X := X, Y := Y, Xmean := Xmean, Xstd := Xstd, Ymean := Ymean, Ystd := Ystd }
    match opt (kObjective svd nugget X Y) with
    | none => (st1, .error .ValueError)
    | some t =>
      let thetas := fun k => Real.exp (t k)
      let s := svd (kCorr nugget X thetas)
      let alpha := kAlpha s Y
      ({ st1 with thetas := thetas, alpha := alpha, U := s.U, Sinv := kInv s.S, Vh := s.Vh, sigma2 := fun l => kSigma2 Y alpha l * Ystd l ^ 2 }, .ok ())

namespace KrigState

/-- `x_n = (x - self.X_mean) / self.X_std` (`kriging.py:181,215`). -/
noncomputable def norm (K : KrigState N d m) (x : Fin d → ℝ) (k : Fin d) : ℝ := (x k - K.Xmean k) / K.Xstd k

/-- `r_i[:] = np.exp(-thetas.dot(np.square((x_i - X).T)))` (`kriging.py:183-185,217`). -/
noncomputable def r (K : KrigState N d m) (x : Fin d → ℝ) (i : Fin (N + 1)) : ℝ := Real.exp (-∑ k, K.thetas k * (K.norm x k - K.X i k) ^ 2)

/-- `r = np.zeros((n_eval, self.n_samples), dtype=x.dtype)` (`kriging.py:183`): the row is stored with the number type of the point, an integer point (`int`) cuts its entries to integers. -/
noncomputable def row (K : KrigState N d m) (int : Bool) (x : Fin d → ℝ) (i : Fin (N + 1)) : ℝ := if int then ((⌊K.r x i⌋ : ℤ) : ℝ) else K.r x i

/-- The mean that `predict` returns (`kriging.py:188-191`). -/
noncomputable def mean (K : KrigState N d m) (int : Bool) (x : Fin d → ℝ) (l : Fin m) : ℝ := K.Ymean l + K.Ystd l * ∑ i, K.row int x i * K.alpha i l

open Classical in
/-- The error that `predict` returns with `eval_rmse` (`kriging.py:193-198`), at one point. -/
noncomputable def rmse (K : KrigState N d m) (int : Bool) (x : Fin d → ℝ) (l : Fin m) : ℝ :=
  let mse := (1 - ∑ j, (∑ i, K.row int x i * K.Vh j i) * ∑ k, K.Sinv j * K.U k j * K.row int x k) * K.sigma2 l
  Real.sqrt (if mse < 0 then 0 else mse)

/-- `predict` (`kriging.py:160-200`) with `eval_rmse` and its base method (`surrogate_model.py:16-20`): an error where the surrogate was not trained; without `eval_rmse` the mean alone is returned. -/
noncomputable def predict (K : KrigState N d m) (int : Bool) (x : Fin d → ℝ) : Except PyErr ((Fin m → ℝ) × (Fin m → ℝ)) := if K.trained then .ok (K.mean int x, K.rmse int x) else .error .RuntimeError

/-- `linearize` (`kriging.py:202-224`). -/
noncomputable def linearize (K : KrigState N d m) (x : Fin d → ℝ) (l : Fin m) (k : Fin d) : ℝ :=
  K.Ystd l * (1 / K.Xstd k) * ∑ i, K.r x i * -2 * (K.thetas k * (K.norm x k - K.X i k)) * K.alpha i l

end KrigState
end
end OpenMDAO
