import Verif.Model.Kriging
import Mathlib.Analysis.SpecialFunctions.ExpDeriv
import Mathlib.Analysis.Calculus.FDeriv.Pi
import Mathlib.Analysis.Calculus.FDeriv.Mul
import Mathlib.Analysis.Calculus.FDeriv.Add
import Mathlib.Analysis.Calculus.FDeriv.Pow
import Mathlib.Tactic.Ring
import Mathlib.Tactic.FieldSimp
/-!
# C79: the Jacobian of the Kriging surrogate
-/
namespace OpenMDAO
set_option linter.unusedSectionVars false
variable {N d m : Nat}

theorem norm_hasFDerivAt (K : KrigState N d m) (x : Fin d → ℝ) (k : Fin d) :
    HasFDerivAt (fun z : Fin d → ℝ => K.norm z k) ((1 / K.Xstd k) • (ContinuousLinearMap.proj k : (Fin d → ℝ) →L[ℝ] ℝ)) x := by
  have h : HasFDerivAt (fun z : Fin d → ℝ => (1 / K.Xstd k) * (z k - K.Xmean k)) ((1 / K.Xstd k) • (ContinuousLinearMap.proj k : (Fin d → ℝ) →L[ℝ] ℝ)) x :=
    ((hasFDerivAt_apply (𝕜 := ℝ) k x).sub_const (K.Xmean k)).const_mul (1 / K.Xstd k)
  have e : (fun z : Fin d → ℝ => K.norm z k) = fun z : Fin d → ℝ => (1 / K.Xstd k) * (z k - K.Xmean k) := by
    funext z; rw [KrigState.norm]; ring
  rw [e]; exact h

theorem r_hasFDerivAt (K : KrigState N d m) (x : Fin d → ℝ) (i : Fin (N + 1)) :
    HasFDerivAt (fun z : Fin d → ℝ => K.r z i)
      (K.r x i • -∑ k, (K.thetas k * (2 * (K.norm x k - K.X i k) * (1 / K.Xstd k))) • (ContinuousLinearMap.proj k : (Fin d → ℝ) →L[ℝ] ℝ)) x := by
  unfold KrigState.r
  refine HasFDerivAt.exp ?_
  refine HasFDerivAt.fun_neg ?_
  refine HasFDerivAt.fun_sum fun k _ => ?_
  have := ((norm_hasFDerivAt K x k).sub_const (K.X i k)).pow 2
  have h2 := this.const_mul (K.thetas k)
  refine h2.congr_fderiv ?_
  ext v
  simp
  ring

/-- C79. After a training that succeeded, `predict` is total, and at every point the matrix that `linearize` returns is the (total) derivative of every output of `predict`: row `l` applied to a change `v` of the point is
the derivative of output `l` in the direction `v`. -/
theorem C79_jacobian (svd : Matrix (Fin (N + 1)) (Fin (N + 1)) ℝ → Svd N) (opt : ((Fin d → ℝ) → Option ℝ) → Option (Fin d → ℝ)) (nugget : Fin (N + 1) → ℝ) (D : KrigData N d m) (st K : KrigState N d m)
    (h : kTrain svd opt nugget D st = (K, .ok ())) :
    ∃ f : (Fin d → ℝ) → Fin m → ℝ, (∀ z, ∃ e, K.predict false z = .ok (f z, e)) ∧
      ∀ x l, ∃ J : (Fin d → ℝ) →L[ℝ] ℝ, HasFDerivAt (fun z => f z l) J x ∧ ∀ v, J v = ∑ k, K.linearize x l k * v k := by
  have ht : K.trained = true := by
    rw [kTrain] at h
    split at h
    · cases h
    · revert h; dsimp only
      split
      · intro h; cases h
      · intro h; rw [← (Prod.mk.inj h).1]
  refine ⟨K.mean false, fun z => ⟨K.rmse false z, by rw [KrigState.predict, if_pos ht]⟩, fun x l => ?_⟩
  have hs : HasFDerivAt (fun z : Fin d → ℝ => K.mean false z l)
      (K.Ystd l • ∑ i, K.alpha i l • (K.r x i • -∑ k, (K.thetas k * (2 * (K.norm x k - K.X i k) * (1 / K.Xstd k))) • (ContinuousLinearMap.proj k : (Fin d → ℝ) →L[ℝ] ℝ))) x := by
    unfold KrigState.mean
    refine HasFDerivAt.const_add _ (HasFDerivAt.const_mul ?_ _)
    refine HasFDerivAt.fun_sum fun i _ => ?_
    exact (r_hasFDerivAt K x i).mul_const (K.alpha i l)
  refine ⟨_, hs, fun v => ?_⟩
  simp only [smul_apply, sum_apply, neg_apply, ContinuousLinearMap.proj_apply, smul_eq_mul, KrigState.linearize, Finset.mul_sum, Finset.sum_mul, ← Finset.sum_neg_distrib]
  rw [Finset.sum_comm]
  refine Finset.sum_congr rfl fun k _ => Finset.sum_congr rfl fun i _ => ?_
  ring

end OpenMDAO
