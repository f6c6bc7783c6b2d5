import Verif.Spec.Kriging
import Mathlib.Analysis.SpecialFunctions.Log.Basic
import Mathlib.LinearAlgebra.Matrix.DotProduct
import Mathlib.Algebra.Order.BigOperators.Ring.Finset
import Mathlib.Tactic.Ring
import Mathlib.Tactic.FieldSimp
import Mathlib.Tactic.Linarith
import Mathlib.Tactic.Positivity
/-!
# Lemmas about the Kriging model
-/
namespace OpenMDAO
set_option linter.unusedSectionVars false
variable {N d m : Nat}
open Matrix

theorem kScale_pos (c : Fin (N + 1) → ℝ) : 0 < kScale c := by
  rw [kScale]; split
  · exact one_pos
  · exact lt_of_le_of_ne (Real.sqrt_nonneg _) (Ne.symm ‹_›)

/-- What a training that succeeded leaves behind. -/
theorem kTrain_ok {svd : Matrix (Fin (N + 1)) (Fin (N + 1)) ℝ → Svd N} {opt : ((Fin d → ℝ) → Option ℝ) → Option (Fin d → ℝ)} {nugget : Fin (N + 1) → ℝ} {D : KrigData N d m} {st K : KrigState N d m}
    (h : kTrain svd opt nugget D st = (K, .ok ())) :
    0 < N ∧ ∃ t, opt (kObjective svd nugget (fun i k => (D.x i k - kMean fun i => D.x i k) / kScale fun i => D.x i k) (fun i l => (D.y i l - kMean fun i => D.y i l) / kScale fun i => D.y i l)) = some t ∧
      K.trained = true ∧ K.X = (fun i k => (D.x i k - kMean fun i => D.x i k) / kScale fun i => D.x i k) ∧ K.Y = (fun i l => (D.y i l - kMean fun i => D.y i l) / kScale fun i => D.y i l) ∧
      (K.Xmean = fun k => kMean fun i => D.x i k) ∧ (K.Xstd = fun k => kScale fun i => D.x i k) ∧ (K.Ymean = fun l => kMean fun i => D.y i l) ∧ (K.Ystd = fun l => kScale fun i => D.y i l) ∧
      (K.thetas = fun k => Real.exp (t k)) ∧ K.alpha = kAlpha (svd (kCorr nugget K.X K.thetas)) K.Y ∧ K.U = (svd (kCorr nugget K.X K.thetas)).U ∧
      K.Sinv = kInv (svd (kCorr nugget K.X K.thetas)).S ∧ K.Vh = (svd (kCorr nugget K.X K.thetas)).Vh ∧ K.sigma2 = fun l => kSigma2 K.Y K.alpha l * K.Ystd l ^ 2 := by
  rw [kTrain] at h
  split at h
  · cases h
  · rename_i hn
    refine ⟨by omega, ?_⟩
    revert h; dsimp only
    split
    · intro h; cases h
    · rename_i t ht
      intro h
      refine ⟨t, ht, ?_⟩
      rw [← (Prod.mk.inj h).1]
      exact ⟨rfl, rfl, rfl, rfl, rfl, rfl, rfl, rfl, rfl, rfl, rfl, rfl, rfl⟩

theorem kAlpha_eq (s : Svd N) (Y : Fin (N + 1) → Fin m → ℝ) (l : Fin m) :
    (fun i => kAlpha s Y i l) = s.Vhᵀ.mulVec ((diagonal (kInv s.S)).mulVec (s.Uᵀ.mulVec fun i => Y i l)) := by
  funext i
  simp only [kAlpha, mulVec, dotProduct, diagonal_apply, transpose_apply, ite_mul, zero_mul, Finset.sum_ite_eq, Finset.mem_univ, if_true]
  refine Finset.sum_congr rfl fun j _ => ?_
  congr 1
  rw [Finset.mul_sum]
  refine Finset.sum_congr rfl fun k _ => ?_
  ring

section
variable {R : Matrix (Fin (N + 1)) (Fin (N + 1)) ℝ} {s : Svd N}

theorem IsSvd.left' (h : IsSvd R s) : s.U * s.Uᵀ = 1 := mul_eq_one_comm.mp h.left
theorem IsSvd.right' (h : IsSvd R s) : s.Vhᵀ * s.Vh = 1 := mul_eq_one_comm.mp h.right

theorem sq_mulVec (A : Matrix (Fin (N + 1)) (Fin (N + 1)) ℝ) (h : Aᵀ * A = 1) (v : Fin (N + 1) → ℝ) : A.mulVec v ⬝ᵥ A.mulVec v = v ⬝ᵥ v := by
  rw [dotProduct_mulVec, ← mulVec_transpose, mulVec_mulVec, h, one_mulVec]

theorem svd_apply (h : IsSvd R s) (w : Fin (N + 1) → ℝ) : R.mulVec (s.Vhᵀ.mulVec w) = s.U.mulVec ((diagonal s.S).mulVec w) := by
  conv_lhs => rw [h.prod]
  rw [mulVec_mulVec, Matrix.mul_assoc, h.right, Matrix.mul_one, ← mulVec_mulVec]

theorem svd_apply_t (h : IsSvd R s) (w : Fin (N + 1) → ℝ) : Rᵀ.mulVec (s.U.mulVec w) = s.Vhᵀ.mulVec ((diagonal s.S).mulVec w) := by
  conv_lhs => rw [h.prod]
  rw [transpose_mul, transpose_mul, diagonal_transpose, mulVec_mulVec, Matrix.mul_assoc, Matrix.mul_assoc, h.left, Matrix.mul_one, ← mulVec_mulVec]

/-- The factors of the pseudo-inverse solve the regularized equations, whenever the largest singular value is positive. -/
theorem tikhonov (h : IsSvd R s) (h0 : 0 < s.S 0) (v : Fin (N + 1) → ℝ) : IsTikhonov R (kReg s.S) v (s.Vhᵀ.mulVec ((diagonal (kInv s.S)).mulVec (s.Uᵀ.mulVec v))) := by
  have hr : 0 < kReg s.S := by rw [kReg]; positivity
  have hv : v = s.U.mulVec (s.Uᵀ.mulVec v) := by rw [mulVec_mulVec, h.left', one_mulVec]
  rw [IsTikhonov, svd_apply h, svd_apply_t h]
  conv_rhs => rw [hv, svd_apply_t h]
  rw [← mulVec_smul, ← mulVec_add]
  congr 1
  funext j
  simp only [Pi.add_apply, Pi.smul_apply, mulVec_diagonal, kInv, smul_eq_mul]
  have : s.S j ^ 2 + kReg s.S ^ 2 ≠ 0 := by positivity
  field_simp

theorem tikhonov_unique {h : ℝ} (hh : h ≠ 0) {v a b : Fin (N + 1) → ℝ} (ha : IsTikhonov R h v a) (hb : IsTikhonov R h v b) : a = b := by
  have e : Rᵀ.mulVec (R.mulVec (a - b)) + h ^ 2 • (a - b) = 0 := by
    have := ha.trans hb.symm
    rw [mulVec_sub, mulVec_sub, smul_sub]
    have h2 := sub_eq_zero.mpr this
    rw [← h2]; abel
  have q : R.mulVec (a - b) ⬝ᵥ R.mulVec (a - b) + h ^ 2 * ((a - b) ⬝ᵥ (a - b)) = 0 := by
    have := congrArg (fun w => (a - b) ⬝ᵥ w) e
    simp only [dotProduct_add, dotProduct_smul, dotProduct_zero, smul_eq_mul] at this
    rw [← this]
    congr 1
    rw [dotProduct_mulVec, ← mulVec_transpose, dotProduct_comm]
  have n1 : 0 ≤ R.mulVec (a - b) ⬝ᵥ R.mulVec (a - b) := Finset.sum_nonneg fun i _ => mul_self_nonneg _
  have n2 : 0 ≤ (a - b) ⬝ᵥ (a - b) := Finset.sum_nonneg fun i _ => mul_self_nonneg _
  have hp : 0 < h ^ 2 := by positivity
  have z : (a - b) ⬝ᵥ (a - b) = 0 := by nlinarith
  exact sub_eq_zero.mp (dotProduct_self_eq_zero.mp z)

end
end OpenMDAO
