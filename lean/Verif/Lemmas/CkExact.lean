import Verif.Lemmas.CoKriging
import Mathlib.Analysis.InnerProductSpace.GramSchmidtOrtho
import Mathlib.Analysis.Matrix.Order
/-!
# The library that C132 to C137 assume exists
-/
namespace OpenMDAO

open Matrix

noncomputable section

theorem sum_castLE {n m : Nat} (h : m ≤ n) (g : Fin n → ℝ) (hz : ∀ i : Fin n, m ≤ i.val → g i = 0) : ∑ i, g i = ∑ j : Fin m, g (Fin.castLE h j) := by
  obtain ⟨k, rfl⟩ := Nat.exists_eq_add_of_le h
  rw [Fin.sum_univ_add, Finset.sum_eq_zero (s := (Finset.univ : Finset (Fin k))) (fun i _ => hz _ (by simp)), add_zero]
  rfl

/-- Every matrix with at least as many rows as columns has an economic QR decomposition. -/
theorem exists_qr {n m : Nat} (A : Matrix (Fin n) (Fin m) ℝ) (h : m ≤ n) :
    ∃ QG : Matrix (Fin n) (Fin m) ℝ × Matrix (Fin m) (Fin m) ℝ, QG.1 * QG.2 = A ∧ QG.1.transpose * QG.1 = 1 ∧ ∀ i j, j < i → QG.2 i j = 0 := by
  let f : Fin n → EuclideanSpace ℝ (Fin n) := fun j => if hj : j.val < m then WithLp.toLp 2 (fun i => A i ⟨j, hj⟩) else 0
  have hd : Module.finrank ℝ (EuclideanSpace ℝ (Fin n)) = Fintype.card (Fin n) := by simp
  let B := InnerProductSpace.gramSchmidtOrthonormalBasis hd f
  have hf : ∀ j : Fin m, f (Fin.castLE h j) = WithLp.toLp 2 (fun i => A i j) := by
    intro j
    simp [f]
  have htri : ∀ (i : Fin n) (j : Fin m), j.val < i.val → inner ℝ (B i) (WithLp.toLp 2 (fun i => A i j)) = (0 : ℝ) := by
    intro i j hij
    rw [← hf j]
    exact InnerProductSpace.gramSchmidtOrthonormalBasis_inv_triangular hd f (by simpa [Fin.lt_def] using hij)
  refine ⟨(Matrix.of fun i j => (B (Fin.castLE h j)).ofLp i, Matrix.of fun i j => inner ℝ (B (Fin.castLE h i)) (WithLp.toLp 2 (fun k => A k j))), ?_, ?_, ?_⟩
  · ext i j
    have hs := congrArg (fun v : EuclideanSpace ℝ (Fin n) => v.ofLp i) (B.sum_repr' (WithLp.toLp 2 (fun k => A k j)))
    simp only [WithLp.ofLp_sum, Finset.sum_apply, PiLp.smul_apply, smul_eq_mul] at hs
    rw [Matrix.mul_apply, ← hs]
    simp only [Matrix.of_apply]
    rw [sum_castLE h _ (fun k hk => by rw [htri k j (lt_of_lt_of_le j.2 hk), zero_mul])]
    exact Finset.sum_congr rfl fun k _ => mul_comm _ _
  · ext i j
    have := B.orthonormal
    rw [orthonormal_iff_ite] at this
    have := this (Fin.castLE h j) (Fin.castLE h i)
    simp only [Matrix.mul_apply, Matrix.transpose_apply, Matrix.of_apply, Matrix.one_apply]
    rw [PiLp.inner_apply] at this
    refine Eq.trans ?_ (this.trans ?_)
    · rfl
    · simp only [Fin.castLE_inj, eq_comm]
  · intro i j hij
    exact htri _ _ (by simpa using hij)

theorem exists_root {n : Nat} (R : Matrix (Fin n) (Fin n) ℝ) (h : SymPosDef R) : ∃ B : Matrix (Fin n) (Fin n) ℝ, R = B.transpose * B := by
  have hp : R.PosSemidef := Matrix.PosSemidef.of_dotProduct_mulVec_nonneg (by rw [Matrix.IsHermitian, Matrix.conjTranspose_eq_transpose_of_trivial]; exact h.1) (by
    intro x
    rw [star_trivial]
    by_cases hx : x = 0
    · subst hx; simp
    · exact (h.2 x hx).le)
  open scoped MatrixOrder in
  obtain ⟨B, hB⟩ := CStarAlgebra.nonneg_iff_eq_star_mul_self.mp (Matrix.nonneg_iff_posSemidef.mpr hp)
  refine ⟨B, ?_⟩
  rw [hB, Matrix.star_eq_conjTranspose, Matrix.conjTranspose_eq_transpose_of_trivial]

/-- Every symmetric positive definite matrix has a Cholesky factor. -/
theorem exists_chol {n : Nat} (R : Matrix (Fin n) (Fin n) ℝ) (h : SymPosDef R) : ∃ C, IsChol R C := by
  obtain ⟨B, rfl⟩ := exists_root R h
  obtain ⟨⟨Q, G⟩, h1, h2, h3⟩ := exists_qr B le_rfl
  simp only at h1 h2 h3
  have hR : B.transpose * B = G.transpose * G := by
    rw [← h1, Matrix.transpose_mul, Matrix.mul_assoc, ← Matrix.mul_assoc Q.transpose, h2, Matrix.one_mul]
  have hG : ∀ i, G i i ≠ 0 := by
    intro i hi
    have hdet : G.det = 0 := by
      rw [Matrix.det_of_isUpperTriangular (fun i j hij => h3 i j hij)]
      exact Finset.prod_eq_zero (Finset.mem_univ i) hi
    obtain ⟨v, hv, hv0⟩ := Matrix.exists_mulVec_eq_zero_iff.mpr hdet
    have := h.2 v hv
    rw [hR, ← Matrix.mulVec_mulVec, hv0, Matrix.mulVec_zero, dotProduct_zero] at this
    exact lt_irrefl _ this
  refine ⟨Matrix.of fun i j => G j i * SignType.sign (G j j), ?_, ?_, ?_⟩
  · intro i j hij
    simp [h3 j i hij]
  · intro i
    simp only [Matrix.of_apply]
    rw [mul_comm, sign_mul_self]
    exact abs_pos.mpr (hG i)
  · rw [hR]
    ext i j
    simp only [Matrix.mul_apply, Matrix.transpose_apply, Matrix.of_apply]
    refine Finset.sum_congr rfl fun k _ => ?_
    rcases lt_or_gt_of_ne (hG k) with hk | hk
    · rw [sign_neg hk]; simp
    · rw [sign_pos hk]; simp

open Classical in
/-- A library whose decompositions are exact, with any optimizer. -/
def exactLib (opt : Nat → (List ℝ → Except CkErr CkVal) → List (List ℝ) × List ℝ) : CkLib where
  chol := fun R => if h : SymPosDef R then some (Classical.choose (exists_chol R h)) else none
  qr := fun {n m} A => if h : m ≤ n then Classical.choose (exists_qr A h) else (0, 0)
  opt := opt

theorem exactLib_exact (opt : Nat → (List ℝ → Except CkErr CkVal) → List (List ℝ) × List ℝ) : (exactLib opt).Exact where
  chol := by
    intro n R C h
    simp only [exactLib] at h
    split at h
    · rename_i hR
      cases h
      exact Classical.choose_spec (exists_chol R hR)
    · cases h
  total := by
    intro n R hR
    simp only [exactLib]
    rw [dif_pos hR]
    simp
  prod := by
    intro n m A h
    simp only [exactLib, dif_pos h]
    exact (Classical.choose_spec (exists_qr A h)).1
  orth := by
    intro n m A h
    simp only [exactLib, dif_pos h]
    exact (Classical.choose_spec (exists_qr A h)).2.1
  upper := by
    intro n m A h
    simp only [exactLib, dif_pos h]
    exact (Classical.choose_spec (exists_qr A h)).2.2

end
end OpenMDAO
