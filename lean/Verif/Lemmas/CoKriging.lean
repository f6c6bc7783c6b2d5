import Verif.Spec.CoKriging
import Mathlib.LinearAlgebra.Matrix.Block
import Mathlib.LinearAlgebra.Matrix.ToLinearEquiv
import Mathlib.Algebra.BigOperators.Fin
import Mathlib.Algebra.BigOperators.Field
import Mathlib.Algebra.BigOperators.Ring.Finset
import Mathlib.Algebra.Order.BigOperators.Ring.Finset
import Mathlib.Analysis.SpecialFunctions.Exponential
import Mathlib.Tactic.Linarith
import Mathlib.Tactic.Ring
import Mathlib.Tactic.FieldSimp
import Mathlib.Tactic.Positivity
/-!
# Lemmas on co-kriging: the factors, the kernel
-/
namespace OpenMDAO
set_option linter.unusedSectionVars false
open Matrix

section
variable {n m d : Nat}

theorem chol_det {R C : Matrix (Fin n) (Fin n) ℝ} (h : IsChol R C) : IsUnit C.det := by
  have e : C.det = ∏ i, C i i := Matrix.det_of_isLowerTriangular C (fun i j hij => h.lower i j hij)
  rw [e]
  exact (Finset.prod_pos fun i _ => h.pos i).ne'.isUnit

theorem tri_lower {A : Matrix (Fin n) (Fin n) ℝ} (h : ∀ i j, i < j → A i j = 0) : ckTri true A = A := by
  ext i j
  by_cases hj : j ≤ i
  · simp [ckTri, hj]
  · simp [ckTri, hj, h i j (lt_of_not_ge hj)]

theorem tri_upper {A : Matrix (Fin n) (Fin n) ℝ} (h : ∀ i j, j < i → A i j = 0) : ckTri false A = A := by
  ext i j
  by_cases hj : i ≤ j
  · simp [ckTri, hj]
  · simp [ckTri, hj, h i j (lt_of_not_ge hj)]

theorem solve_lower {A : Matrix (Fin n) (Fin n) ℝ} (h : ∀ i j, i < j → A i j = 0) {S : Matrix (Fin n) (Fin n) ℝ} (hs : ckSolve true A = .ok S) : S = A⁻¹ ∧ IsUnit A.det := by
  unfold ckSolve at hs
  split at hs
  · rename_i hd
    refine ⟨by rw [tri_lower h] at hs; cases hs; rfl, ?_⟩
    have e : A.det = ∏ i, A i i := Matrix.det_of_isLowerTriangular A (fun i j hij => h i j hij)
    rw [e]
    exact (Finset.prod_ne_zero_iff.mpr fun i _ => hd i).isUnit
  · cases hs

theorem solve_upper {A : Matrix (Fin n) (Fin n) ℝ} (h : ∀ i j, j < i → A i j = 0) {S : Matrix (Fin n) (Fin n) ℝ} (hs : ckSolve false A = .ok S) : S = A⁻¹ ∧ IsUnit A.det := by
  unfold ckSolve at hs
  split at hs
  · rename_i hd
    refine ⟨by rw [tri_upper h] at hs; cases hs; rfl, ?_⟩
    have e : A.det = ∏ i, A i i := Matrix.det_of_isUpperTriangular (fun i j hij => h i j hij)
    rw [e]
    exact (Finset.prod_ne_zero_iff.mpr fun i _ => hd i).isUnit
  · cases hs

theorem solve_chol {R C : Matrix (Fin n) (Fin n) ℝ} (h : IsChol R C) : ckSolve true C = .ok C⁻¹ := by
  unfold ckSolve
  rw [if_pos fun i => (h.pos i).ne', tri_lower h.lower]

theorem solve_cholT {R C : Matrix (Fin n) (Fin n) ℝ} (h : IsChol R C) : ckSolve false C.transpose = .ok C.transpose⁻¹ := by
  have hd : ∀ i, C.transpose i i ≠ 0 := fun i => (h.pos i).ne'
  unfold ckSolve
  rw [if_pos hd, tri_upper (A := C.transpose) fun i j hij => h.lower j i hij]

theorem chol_inv {R C : Matrix (Fin n) (Fin n) ℝ} (h : IsChol R C) : R⁻¹ = C⁻¹.transpose * C⁻¹ := by
  rw [← h.prod, Matrix.mul_inv_rev, Matrix.transpose_nonsing_inv]

theorem chol_unit {R C : Matrix (Fin n) (Fin n) ℝ} (h : IsChol R C) : IsUnit R.det := by
  rw [← h.prod, Matrix.det_mul, Matrix.det_transpose]
  exact (chol_det h).mul (chol_det h)

theorem dot_mul (S : Matrix (Fin n) (Fin m) ℝ) (a b : Fin m → ℝ) : S.mulVec a ⬝ᵥ S.mulVec b = a ⬝ᵥ (S.transpose * S).mulVec b := by
  rw [← Matrix.mulVec_mulVec, Matrix.dotProduct_mulVec a, Matrix.vecMul_transpose]

theorem dot_chol {R C : Matrix (Fin n) (Fin n) ℝ} (h : IsChol R C) (a b : Fin n → ℝ) : C⁻¹.mulVec a ⬝ᵥ C⁻¹.mulVec b = a ⬝ᵥ R⁻¹.mulVec b := by
  rw [dot_mul, chol_inv h]

/-- A Gaussian kernel gives no negative quadratic form. -/
theorem kernel_nonneg (theta : Fin d → ℝ) (ht : ∀ k, 0 ≤ theta k) {ι : Type} [Fintype ι] (X : ι → Fin d → ℝ) (c : ι → ℝ) :
    0 ≤ ∑ i, ∑ j, c i * c j * Real.exp (-∑ k, theta k * (X i k - X j k) ^ 2) := by
  have key : ∀ b : ι → ℝ, 0 ≤ ∑ i, ∑ j, b i * b j * Real.exp (∑ k, 2 * theta k * X i k * X j k) := by
    intro b
    have hs : HasSum (fun N : ℕ => ∑ i, ∑ j, b i * b j * ((∑ k, 2 * theta k * X i k * X j k) ^ N / (N.factorial : ℝ))) (∑ i, ∑ j, b i * b j * Real.exp (∑ k, 2 * theta k * X i k * X j k)) := by
      refine hasSum_sum fun i _ => hasSum_sum fun j _ => HasSum.mul_left _ ?_
      rw [Real.exp_eq_exp_ℝ]
      exact NormedSpace.expSeries_div_hasSum_exp _
    refine hs.nonneg fun N => ?_
    have e : ∑ i, ∑ j, b i * b j * ((∑ k, 2 * theta k * X i k * X j k) ^ N / (N.factorial : ℝ)) =
        (∑ p : Fin N → Fin d, (∏ a, 2 * theta (p a)) * (∑ i, b i * ∏ a, X i (p a)) ^ 2) / (N.factorial : ℝ) := by
      have e1 : ∀ i j, (∑ k, 2 * theta k * X i k * X j k) ^ N = ∑ p : Fin N → Fin d, (∏ a, 2 * theta (p a)) * (∏ a, X i (p a)) * ∏ a, X j (p a) := by
        intro i j
        rw [Finset.sum_pow', Fintype.piFinset_univ]
        refine Finset.sum_congr rfl fun p _ => ?_
        rw [← Finset.prod_mul_distrib, ← Finset.prod_mul_distrib]
      simp only [e1, Finset.sum_div, Finset.mul_sum]
      rw [Finset.sum_congr rfl fun i _ => Finset.sum_comm, Finset.sum_comm]
      refine Finset.sum_congr rfl fun p _ => ?_
      rw [sq, Finset.sum_mul_sum, Finset.mul_sum, Finset.sum_div]
      refine Finset.sum_congr rfl fun i _ => ?_
      rw [Finset.mul_sum, Finset.sum_div]
      exact Finset.sum_congr rfl fun j _ => by ring
    rw [e]
    refine div_nonneg (Finset.sum_nonneg fun p _ => mul_nonneg (Finset.prod_nonneg fun a _ => by have := ht (p a); positivity) (sq_nonneg _)) (by positivity)
  have e : ∀ i j, Real.exp (-∑ k, theta k * (X i k - X j k) ^ 2) = Real.exp (-∑ k, theta k * X i k ^ 2) * Real.exp (-∑ k, theta k * X j k ^ 2) * Real.exp (∑ k, 2 * theta k * X i k * X j k) := by
    intro i j
    rw [← Real.exp_add, ← Real.exp_add, ← Finset.sum_neg_distrib, ← Finset.sum_neg_distrib, ← Finset.sum_neg_distrib, ← Finset.sum_add_distrib, ← Finset.sum_add_distrib]
    congr 1
    exact Finset.sum_congr rfl fun k _ => by ring
  refine le_of_le_of_eq (key fun i => c i * Real.exp (-∑ k, theta k * X i k ^ 2)) (Finset.sum_congr rfl fun i _ => Finset.sum_congr rfl fun j _ => ?_)
  rw [e i j]
  ring

/-- The kernel. -/
noncomputable def kern (theta x y : Fin d → ℝ) : ℝ := Real.exp (-∑ k, theta k * (x k - y k) ^ 2)

theorem corr_kern (theta x y : Fin d → ℝ) : ckCorr theta (ckDist x y) = kern theta x y := by
  simp only [ckCorr, ckDist, kern, sq_abs]

theorem kern_comm (theta x y : Fin d → ℝ) : kern theta x y = kern theta y x := by
  unfold kern
  congr 2
  exact Finset.sum_congr rfl fun k _ => by ring

theorem kern_self (theta x : Fin d → ℝ) : kern theta x x = 1 := by simp [kern]

theorem R_entry (nug : ℝ) (X : Fin n → Fin d → ℝ) (theta : Fin d → ℝ) (i j : Fin n) : ckR nug X theta i j = (if i = j then nug else 0) + kern theta (X i) (X j) := by
  simp only [ckR, ckSquare, Matrix.add_apply, Matrix.smul_apply, Matrix.one_apply, Matrix.of_apply, corr_kern, smul_eq_mul]
  rcases lt_trichotomy i j with h | h | h
  · simp [h, h.ne]
  · subst h
    simp [kern_self, add_comm]
  · simp [h, h.ne', not_lt_of_gt h, kern_comm theta (X j)]

theorem R_symm (nug : ℝ) (X : Fin n → Fin d → ℝ) (theta : Fin d → ℝ) : (ckR nug X theta).transpose = ckR nug X theta := by
  ext i j
  rw [Matrix.transpose_apply, R_entry, R_entry, kern_comm]
  simp [eq_comm]

/-- The quadratic form of the correlation matrix. -/
theorem R_quad (nug : ℝ) (X : Fin n → Fin d → ℝ) (theta : Fin d → ℝ) (w : Fin n → ℝ) :
    w ⬝ᵥ (ckR nug X theta).mulVec w = nug * (w ⬝ᵥ w) + ∑ i, ∑ j, w i * w j * kern theta (X i) (X j) := by
  simp only [dotProduct, Matrix.mulVec, R_entry, Finset.mul_sum, ← Finset.sum_add_distrib]
  refine Finset.sum_congr rfl fun i _ => ?_
  have : ∀ j, w i * (((if i = j then nug else 0) + kern theta (X i) (X j)) * w j) = (if i = j then nug * (w i * w j) else 0) + w i * w j * kern theta (X i) (X j) := by
    intro j
    split <;> ring
  simp only [this, Finset.sum_add_distrib, Finset.sum_ite_eq, Finset.mem_univ, if_true]

theorem R_posdef {nug : ℝ} (hn : 0 < nug) (X : Fin n → Fin d → ℝ) {theta : Fin d → ℝ} (ht : ∀ k, 0 ≤ theta k) : SymPosDef (ckR nug X theta) := by
  refine ⟨R_symm nug X theta, fun v hv => ?_⟩
  rw [R_quad]
  have h1 : 0 < v ⬝ᵥ v := by
    obtain ⟨i, hi⟩ := Function.ne_iff.mp hv
    refine Finset.sum_pos' (fun j _ => mul_self_nonneg _) ⟨i, Finset.mem_univ _, ?_⟩
    exact mul_self_pos.mpr hi
  have h2 := kernel_nonneg theta ht X v
  have h3 := mul_pos hn h1
  simp only [kern]
  linarith

/-- The error of a linear predictor has a variance of at least the nugget times the square of its weights. -/
theorem errVar_ge (nug : ℝ) (X : Fin n → Fin d → ℝ) {theta : Fin d → ℝ} (ht : ∀ k, 0 ≤ theta k) (x : Fin d → ℝ) (w : Fin n → ℝ) :
    nug * (w ⬝ᵥ w) ≤ errVar (ckR nug X theta) (fun k => ckCorr theta (ckDist x (X k))) w := by
  have h := kernel_nonneg theta ht (fun o : Option (Fin n) => o.elim x X) (fun o => o.elim (-1) w)
  simp only [Fintype.sum_option, Option.elim_none, Option.elim_some] at h
  have hk : ∀ i, kern theta x (X i) = Real.exp (-∑ k, theta k * (x k - X i k) ^ 2) := fun i => rfl
  have hk' : ∀ i, kern theta x (X i) = Real.exp (-∑ k, theta k * (X i k - x k) ^ 2) := fun i => kern_comm theta x (X i)
  have hkk : ∀ i j, kern theta (X i) (X j) = Real.exp (-∑ k, theta k * (X i k - X j k) ^ 2) := fun i j => rfl
  simp only [← hk, ← hk', ← hkk, sub_self] at h
  rw [errVar, R_quad]
  simp only [corr_kern]
  rw [Finset.sum_add_distrib] at h
  have e1 : ∑ i, (-1 : ℝ) * w i * kern theta x (X i) = -(w ⬝ᵥ fun k => kern theta x (X k)) := by
    rw [dotProduct, ← Finset.sum_neg_distrib]
    exact Finset.sum_congr rfl fun i _ => by ring
  have e2 : ∑ i, w i * (-1 : ℝ) * kern theta x (X i) = -(w ⬝ᵥ fun k => kern theta x (X k)) := by
    rw [dotProduct, ← Finset.sum_neg_distrib]
    exact Finset.sum_congr rfl fun i _ => by ring
  rw [e1, e2] at h
  simp at h
  linarith

/-- What `rlf` leaves behind at a level when its factors exist. -/
structure Trained (nug : ℝ) (L : CkFitted d) (P : CkPar L.D.lvl.n (L.D.q + L.D.p)) : Prop where
  par : L.par = some P
  chol : IsChol (ckR nug L.D.lvl.X L.theta) P.C
  upper : ∀ i j, j < i → P.G i j = 0
  unit : IsUnit P.G.det
  diag : ∀ i, P.G i i ≠ 0
  gram : P.G.transpose * P.G = L.D.F.transpose * (ckR nug L.D.lvl.X L.theta)⁻¹ * L.D.F
  beta : P.beta = (P.G.transpose * P.G)⁻¹.mulVec (L.D.F.transpose.mulVec ((ckR nug L.D.lvl.X L.theta)⁻¹.mulVec L.D.lvl.y))
  sigma : P.sigma2 = ((L.D.lvl.y - L.D.F.mulVec P.beta) ⬝ᵥ (ckR nug L.D.lvl.X L.theta)⁻¹.mulVec (L.D.lvl.y - L.D.F.mulVec P.beta)) / ((L.D.lvl.n : ℝ) - L.D.p - L.D.q)
  spos : 0 < P.sigma2
  size : L.D.q + L.D.p < L.D.lvl.n

theorem solve_Gt {nug : ℝ} {L : CkFitted d} {P : CkPar L.D.lvl.n (L.D.q + L.D.p)} (h : Trained nug L P) : ckSolve true P.G.transpose = .ok P.G.transpose⁻¹ := by
  have hd : ∀ i, P.G.transpose i i ≠ 0 := h.diag
  unfold ckSolve
  rw [if_pos hd, tri_lower (A := P.G.transpose) fun i j hij => h.upper j i hij]

theorem low_eq {nug : ℝ} {L : CkFitted d} {P : CkPar L.D.lvl.n (L.D.q + L.D.p)} (h : Trained nug L P) (x : Fin d → ℝ) :
    L.low x = .ok (L.row 0 x ⬝ᵥ P.beta + L.r x ⬝ᵥ (ckR nug L.D.lvl.X L.theta)⁻¹.mulVec (L.D.lvl.y - L.D.F.mulVec P.beta),
      P.sigma2 * (1 - L.r x ⬝ᵥ (ckR nug L.D.lvl.X L.theta)⁻¹.mulVec (L.r x) +
        (L.row 0 x - L.D.F.transpose.mulVec ((ckR nug L.D.lvl.X L.theta)⁻¹.mulVec (L.r x))) ⬝ᵥ
          (P.G.transpose * P.G)⁻¹.mulVec (L.row 0 x - L.D.F.transpose.mulVec ((ckR nug L.D.lvl.X L.theta)⁻¹.mulVec (L.r x))))) := by
  unfold CkFitted.low
  rw [h.par]
  simp only [solve_chol h.chol, solve_cholT h.chol, solve_Gt h]
  have e1 : P.C.transpose⁻¹.mulVec (P.C⁻¹.mulVec L.D.lvl.y - (P.C⁻¹ * L.D.F).mulVec P.beta) = (ckR nug L.D.lvl.X L.theta)⁻¹.mulVec (L.D.lvl.y - L.D.F.mulVec P.beta) := by
    rw [← Matrix.mulVec_mulVec, ← Matrix.mulVec_sub, Matrix.mulVec_mulVec, chol_inv h.chol, Matrix.transpose_nonsing_inv]
  have e2 : (P.C⁻¹ * L.D.F).transpose.mulVec (P.C⁻¹.mulVec (L.r x)) = L.D.F.transpose.mulVec ((ckR nug L.D.lvl.X L.theta)⁻¹.mulVec (L.r x)) := by
    rw [Matrix.transpose_mul, ← Matrix.mulVec_mulVec, Matrix.mulVec_mulVec (L.r x) P.C⁻¹.transpose, chol_inv h.chol]
  rw [e1, e2, dot_chol h.chol, dot_mul, Matrix.transpose_nonsing_inv, Matrix.transpose_transpose, ← Matrix.mul_inv_rev]

theorem up_eq {nug : ℝ} {L : CkFitted d} {P : CkPar L.D.lvl.n (L.D.q + L.D.p)} (h : Trained nug L P) (x : Fin d → ℝ) (b : ℝ × ℝ) :
    L.up x b = .ok (L.row b.1 x ⬝ᵥ P.beta + L.r x ⬝ᵥ (ckR nug L.D.lvl.X L.theta)⁻¹.mulVec (L.D.lvl.y - L.D.F.mulVec P.beta),
      (∑ a, ∑ c, L.D.g x a * (P.sigma2 * (P.G.transpose * P.G)⁻¹ (Fin.castAdd _ a) (Fin.castAdd _ c) + P.beta (Fin.castAdd _ a) * P.beta (Fin.castAdd _ c)) * L.D.g x c) * b.2 +
        P.sigma2 / 2 * (1 - L.r x ⬝ᵥ (ckR nug L.D.lvl.X L.theta)⁻¹.mulVec (L.r x)) +
        P.sigma2 * ((L.row b.1 x - L.D.F.transpose.mulVec ((ckR nug L.D.lvl.X L.theta)⁻¹.mulVec (L.r x))) ⬝ᵥ
          (P.G.transpose * P.G)⁻¹.mulVec (L.row b.1 x - L.D.F.transpose.mulVec ((ckR nug L.D.lvl.X L.theta)⁻¹.mulVec (L.r x))))) := by
  unfold CkFitted.up
  rw [h.par]
  simp only [solve_chol h.chol, solve_Gt h]
  have e1 : P.C⁻¹.mulVec L.D.lvl.y - (P.C⁻¹ * L.D.F).mulVec P.beta = P.C⁻¹.mulVec (L.D.lvl.y - L.D.F.mulVec P.beta) := by
    rw [← Matrix.mulVec_mulVec, ← Matrix.mulVec_sub]
  have e2 : (P.C⁻¹ * L.D.F).transpose.mulVec (P.C⁻¹.mulVec (L.r x)) = L.D.F.transpose.mulVec ((ckR nug L.D.lvl.X L.theta)⁻¹.mulVec (L.r x)) := by
    rw [Matrix.transpose_mul, ← Matrix.mulVec_mulVec, Matrix.mulVec_mulVec (L.r x) P.C⁻¹.transpose, chol_inv h.chol]
  rw [e1, e2, dot_chol h.chol, dot_chol h.chol, dot_chol h.chol, dot_mul, Matrix.transpose_nonsing_inv, Matrix.transpose_transpose, ← Matrix.mul_inv_rev]
  have e3 : P.sigma2 / 2 = ((L.D.lvl.y - L.D.F.mulVec P.beta) ⬝ᵥ (ckR nug L.D.lvl.X L.theta)⁻¹.mulVec (L.D.lvl.y - L.D.F.mulVec P.beta)) / (2 * ((L.D.lvl.n : ℝ) - L.D.p - L.D.q)) := by
    rw [h.sigma, div_div, mul_comm]
  rw [e3]

/-- `rlf` where the Cholesky decomposition exists. -/
theorem rlf_trained {lib : CkLib} (hl : lib.Exact) {nug : ℝ} {D : CkDesign d} {theta : Fin d → ℝ} {P : CkPar D.lvl.n (D.q + D.p)} {v : ℝ} (hs : D.q + D.p < D.lvl.n) {par : Option (CkPar D.lvl.n (D.q + D.p))} (hpar : par = some P)
    (h : ckRlf lib nug D theta = .ok (some P, some v)) : Trained nug ⟨D, theta, par⟩ P := by
  unfold ckRlf at h
  split at h
  · cases h
  rename_i C hC
  have hc := hl.chol _ _ hC
  rw [solve_chol hc] at h
  simp only at h
  split at h
  · cases h
  rename_i T hT
  obtain ⟨hT1, hu⟩ := solve_upper (hl.upper _ hs.le) hT
  have hup := hl.upper (C⁻¹ * D.F) hs.le
  have hd : ∀ i, (lib.qr (C⁻¹ * D.F)).2 i i ≠ 0 := by
    intro i hi
    unfold ckSolve at hT
    split at hT
    · rename_i hh
      exact hh i hi
    · cases hT
  have hp := hl.prod (C⁻¹ * D.F) hs.le
  have ho := hl.orth (C⁻¹ * D.F) hs.le
  generalize (lib.qr (C⁻¹ * D.F)).1 = Q at *
  generalize (lib.qr (C⁻¹ * D.F)).2 = G at *
  have hg : G.transpose * G = D.F.transpose * (ckR nug D.lvl.X theta)⁻¹ * D.F := by
    rw [chol_inv hc, ← Matrix.mul_assoc, ← Matrix.transpose_mul, Matrix.mul_assoc, ← hp, Matrix.transpose_mul, Matrix.mul_assoc, ← Matrix.mul_assoc Q.transpose, ho, Matrix.one_mul]
  simp only [Except.ok.injEq, Prod.mk.injEq, Option.some.injEq] at h
  obtain ⟨h1, h2⟩ := h
  have hb : P.beta = (G.transpose * G)⁻¹.mulVec (D.F.transpose.mulVec ((ckR nug D.lvl.X theta)⁻¹.mulVec D.lvl.y)) := by
    subst h1
    simp only
    have e : D.F.transpose.mulVec ((ckR nug D.lvl.X theta)⁻¹.mulVec D.lvl.y) = G.transpose.mulVec (Q.transpose.mulVec (C⁻¹.mulVec D.lvl.y)) := by
      rw [chol_inv hc, ← Matrix.mulVec_mulVec, Matrix.mulVec_mulVec, ← Matrix.transpose_mul, ← hp, Matrix.transpose_mul]
      simp only [Matrix.mulVec_mulVec, Matrix.mul_assoc]
    rw [e, hT1, Matrix.mul_inv_rev, Matrix.mulVec_mulVec _ _ G.transpose, Matrix.mulVec_mulVec]
    have hGt : IsUnit G.transpose.det := by rw [Matrix.det_transpose]; exact hu
    rw [Matrix.mul_assoc, Matrix.nonsing_inv_mul _ hGt, Matrix.mul_one, ← Matrix.mulVec_mulVec]
  have he : C⁻¹.mulVec D.lvl.y - (C⁻¹ * D.F).mulVec P.beta = C⁻¹.mulVec (D.lvl.y - D.F.mulVec P.beta) := by
    rw [← Matrix.mulVec_mulVec, ← Matrix.mulVec_sub]
  have hP : P.C = C ∧ P.G = G ∧ P.sigma2 = ((C⁻¹.mulVec D.lvl.y - (C⁻¹ * D.F).mulVec P.beta) ⬝ᵥ (C⁻¹.mulVec D.lvl.y - (C⁻¹ * D.F).mulVec P.beta)) / ((D.lvl.n : ℝ) - D.p - D.q) := by
    subst h1
    exact ⟨rfl, rfl, rfl⟩
  obtain ⟨p1, p2, p3⟩ := hP
  have hpos : 0 < P.sigma2 := by
    rw [p3]
    subst h1
    split at h2
    · rename_i h3
      exact h3
    · cases h2
  refine ⟨hpar, by rw [p1]; exact hc, by rw [p2]; exact hup, by rw [p2]; exact hu, by rw [p2]; exact hd, by rw [p2]; exact hg, by rw [p2]; exact hb, ?_, hpos, hs⟩
  rw [p3, he, dot_chol hc]

/-- A level of the trained surrogate: where its regression matrix comes from and what is stored. -/
structure LevelOf (nug : ℝ) (regr rho : CkRegr d) (prev : Option (CkLevel d)) (l : CkLevel d) (L : CkFitted d) : Prop where
  first : prev = none → L.D = ckDesign regr rho l none
  next : ∀ pl, prev = some pl → ∃ h : l.n ≤ pl.n, L.D = ckDesign regr rho l (some (ckLast pl l.n h))
  trained : ∀ P, L.par = some P → Trained nug L P
  theta : ∀ k, 0 < L.theta k
  size : L.D.q + L.D.p < L.D.lvl.n
  some : 0 < nug → L.par ≠ none

/-- The levels of the trained surrogate. -/
def FittedOf (nug : ℝ) (regr rho : CkRegr d) : Option (CkLevel d) → List (CkLevel d) → List (CkFitted d) → Prop
  | _, [], Ls => Ls = []
  | prev, l :: ls, Ls => ∃ L Ls', Ls = L :: Ls' ∧ LevelOf nug regr rho prev l L ∧ FittedOf nug regr rho (some l) ls Ls'

theorem check_ok {regr rho : CkRegr d} {one : Bool} {prev : Option (CkLevel d)} {l : CkLevel d} {D : CkDesign d} (h : ckCheck regr rho one prev l = .ok D) :
    (prev = none → D = ckDesign regr rho l none) ∧ (∀ pl, prev = some pl → ∃ h : l.n ≤ pl.n, D = ckDesign regr rho l (some (ckLast pl l.n h))) ∧ D.q + D.p < D.lvl.n := by
  unfold ckCheck at h
  split at h
  · cases h
  split at h
  · cases h
  split at h
  · split at h
    · cases h
    · rename_i hn
      cases h
      exact ⟨fun _ => rfl, fun pl e => (by cases e), by simp only [ckDesign]; omega⟩
  · rename_i pl
    split at h
    · rename_i hle
      split at h
      · cases h
      · rename_i hn
        cases h
        exact ⟨fun e => (by cases e), fun pl' e => (by cases e; exact ⟨hle, rfl⟩), by simp only [ckDesign]; omega⟩
    · cases h

theorem theta_pos {t : List ℝ} {th : Fin d → ℝ} (h : ckTheta d t = .ok th) (hp : ∀ v ∈ t, 0 < v) (k : Fin d) : 0 < th k := by
  unfold ckTheta at h
  split at h
  · rename_i h1
    cases h
    match t, h1 with
    | [v], _ => exact hp v (by simp)
  · split at h
    · rename_i h2
      cases h
      exact hp _ (List.get_mem _ _)
    · cases h

theorem rlf_some {lib : CkLib} (hl : lib.Exact) {nug : ℝ} (hn : 0 < nug) {D : CkDesign d} {theta : Fin d → ℝ} (ht : ∀ k, 0 < theta k) {r} (h : ckRlf lib nug D theta = .ok r) : r.1 ≠ none := by
  unfold ckRlf at h
  split at h
  · rename_i hc
    exact absurd hc (hl.total _ (R_posdef hn _ fun k => (ht k).le))
  split at h
  · cases h
  simp only at h
  split at h
  · cases h
  cases h
  simp

/-- A level whose parameters are given. -/
theorem fitLevel_given {lib : CkLib} (hl : lib.Exact) {nug : ℝ} {i : Nat} {t : List ℝ} {D : CkDesign d} {r} (hp : ∀ v ∈ t, 0 < v) (hs : D.q + D.p < D.lvl.n) (h : ckFitLevel lib nug i (some t) D = .ok r) :
    r.1 = t ∧ r.2.D = D ∧ ckTheta d t = .ok r.2.theta ∧ (∀ P, r.2.par = some P → Trained nug r.2 P) ∧ (0 < nug → r.2.par ≠ none) := by
  unfold ckFitLevel at h
  simp only at h
  split at h
  · cases h
  rename_i th hth
  split at h
  · cases h
  rename_i q hq
  split at h
  · cases h
  rename_i hv
  cases h
  refine ⟨rfl, rfl, hth, ?_, fun hn => rlf_some hl hn (theta_pos hth hp) hq⟩
  intro P hP
  obtain ⟨v, hv⟩ := Option.ne_none_iff_exists'.mp hv
  exact rlf_trained hl hs hP (v := v) (by rw [hq]; exact congrArg _ (Prod.ext hP hv))

theorem fits_given {lib : CkLib} (hl : lib.Exact) {nug : ℝ} {regr rho : CkRegr d} {one : Bool} : ∀ (ls : List (CkLevel d)) (prev : Option (CkLevel d)) (i : Nat) (ts : List (Option (List ℝ))) (Ds : List (CkDesign d)) (rs : List (List ℝ × CkFitted d)),
    ts.length = ls.length → (∀ t ∈ ts, t.isSome) → (∀ t ∈ ts, ckPositive t) → ckDesigns regr rho one prev ls = .ok Ds → ckFits lib nug i ts Ds = .ok rs →
    FittedOf nug regr rho prev ls (rs.map fun r => r.2) ∧ rs.map (fun r => some r.1) = ts := by
  intro ls
  induction ls with
  | nil =>
    intro prev i ts Ds rs hlen _ _ hD hr
    cases ts with
    | nil =>
      simp only [ckDesigns] at hD
      cases hD
      simp only [ckFits] at hr
      cases hr
      exact ⟨rfl, rfl⟩
    | cons => simp at hlen
  | cons l ls ih =>
    intro prev i ts Ds rs hlen hsome hpos hD hr
    cases ts with
    | nil => simp at hlen
    | cons t ts =>
      simp only [ckDesigns] at hD
      split at hD
      · cases hD
      rename_i D hDl
      split at hD
      · cases hD
      rename_i Ds' hDs
      cases hD
      simp only [ckFits] at hr
      split at hr
      · cases hr
      rename_i r hrl
      split at hr
      · cases hr
      rename_i rs' hrs
      cases hr
      obtain ⟨tl, rfl⟩ := Option.isSome_iff_exists.mp (hsome t (by simp))
      obtain ⟨c1, c2, c3⟩ := check_ok hDl
      have hp := hpos _ (List.mem_cons_self ..) tl rfl
      obtain ⟨f1, f2, f3, f4, f5⟩ := fitLevel_given hl hp c3 hrl
      obtain ⟨g1, g2⟩ := ih (some l) (i + 1) ts Ds' rs' (by simpa using hlen) (fun t ht => hsome t (by simp [ht])) (fun t ht => hpos t (by simp [ht])) hDs hrs
      refine ⟨⟨r.2, rs'.map fun r => r.2, rfl, ⟨fun e => f2.trans (c1 e), fun pl e => ?_, f4, theta_pos f3 hp, by rw [f2]; exact c3, f5⟩, g1⟩, by simp [f1, g2]⟩
      obtain ⟨h, e⟩ := c2 pl e
      exact ⟨h, f2.trans e⟩

theorem expand_given {th : CkTheta} (hg : th.Given) {n : Nat} {ts : List (Option (List ℝ))} (h : th.expand n = .ok ts) : ts.length = n ∧ ∀ t ∈ ts, t.isSome := by
  cases th with
  | all t =>
    simp only [CkTheta.expand] at h
    cases h
    refine ⟨by simp, fun u hu => ?_⟩
    rw [List.eq_of_mem_replicate hu]
    exact hg
  | levels l =>
    simp only [CkTheta.expand] at h
    split at h
    · rename_i hl
      cases h
      exact ⟨hl, hg⟩
    · cases h

theorem fit_given {lib : CkLib} (hl : lib.Exact) {nug : ℝ} {M M' : CkModel d} {levels : List (CkLevel d)} (hg : M.theta.Given) (h : ckFit lib nug M levels = .ok M') :
    levels ≠ [] ∧ FittedOf nug M.regr M.rho none levels M'.fitted ∧ M'.regr = M.regr ∧ M'.rho = M.rho ∧ ∃ ts, M.theta.expand levels.length = .ok ts ∧ M'.theta = .levels ts := by
  unfold ckFit at h
  split at h
  · cases h
  rename_i hne
  split at h
  · cases h
  rename_i ts hts
  split at h
  · cases h
  rename_i hpos
  split at h
  · cases h
  rename_i Ds hDs
  split at h
  · cases h
  rename_i rs hrs
  cases h
  obtain ⟨e1, e2⟩ := expand_given hg hts
  have hp : ∀ t ∈ ts, ckPositive t := fun t ht => by
    by_contra hc
    exact hpos ⟨t, ht, hc⟩
  obtain ⟨g1, g2⟩ := fits_given hl _ _ _ _ _ _ e1 e2 hp hDs hrs
  exact ⟨hne, g1, rfl, rfl, ts, hts, by rw [g2]⟩

theorem normal_eq {nug : ℝ} {L : CkFitted d} {P : CkPar L.D.lvl.n (L.D.q + L.D.p)} (h : Trained nug L P) :
    L.D.F.transpose.mulVec ((ckR nug L.D.lvl.X L.theta)⁻¹.mulVec (L.D.lvl.y - L.D.F.mulVec P.beta)) = 0 := by
  have hu : IsUnit (P.G.transpose * P.G).det := by
    rw [Matrix.det_mul, Matrix.det_transpose]
    exact h.unit.mul h.unit
  have e : L.D.F.transpose.mulVec ((ckR nug L.D.lvl.X L.theta)⁻¹.mulVec (L.D.F.mulVec P.beta)) = (P.G.transpose * P.G).mulVec P.beta := by
    rw [h.gram, ← Matrix.mulVec_mulVec, ← Matrix.mulVec_mulVec]
  rw [Matrix.mulVec_sub, Matrix.mulVec_sub, e, h.beta, Matrix.mulVec_mulVec _ (P.G.transpose * P.G), Matrix.mul_nonsing_inv _ hu, Matrix.one_mulVec, sub_self]

/-- The regression is determined by the samples and does not reproduce the observed values. -/
def Adequate (F : Matrix (Fin n) (Fin m) ℝ) (y : Fin n → ℝ) : Prop := (∀ v, F.mulVec v = 0 → v = 0) ∧ ∀ v, F.mulVec v ≠ y

theorem trained_adequate {nug : ℝ} {L : CkFitted d} {P : CkPar L.D.lvl.n (L.D.q + L.D.p)} (h : Trained nug L P) : Adequate L.D.F L.D.lvl.y := by
  have hu : IsUnit (P.G.transpose * P.G).det := by
    rw [Matrix.det_mul, Matrix.det_transpose]
    exact h.unit.mul h.unit
  have inj : ∀ v, L.D.F.mulVec v = 0 → v = 0 := by
    intro v hv
    have : (P.G.transpose * P.G).mulVec v = 0 := by
      rw [h.gram, ← Matrix.mulVec_mulVec, hv, Matrix.mulVec_zero]
    have := congrArg (P.G.transpose * P.G)⁻¹.mulVec this
    rwa [Matrix.mulVec_mulVec, Matrix.nonsing_inv_mul _ hu, Matrix.one_mulVec, Matrix.mulVec_zero] at this
  refine ⟨inj, fun v hv => ?_⟩
  have hb : P.beta = v := by
    rw [h.beta, ← hv, Matrix.mulVec_mulVec v, Matrix.mulVec_mulVec v, ← Matrix.mul_assoc, ← h.gram, Matrix.mulVec_mulVec, Matrix.nonsing_inv_mul _ hu, Matrix.one_mulVec]
  have hs := h.sigma
  rw [hb, hv, sub_self] at hs
  have := h.spos
  rw [hs] at this
  simp at this

theorem rlf_ok_of {lib : CkLib} (hl : lib.Exact) {nug : ℝ} {D : CkDesign d} {theta : Fin d → ℝ} (hpd : SymPosDef (ckR nug D.lvl.X theta)) (hs : D.q + D.p < D.lvl.n) (ha : Adequate D.F D.lvl.y) :
    ∃ P v, ckRlf lib nug D theta = .ok (some P, some v) := by
  obtain ⟨C, hC⟩ := Option.ne_none_iff_exists'.mp (hl.total _ hpd)
  have hc := hl.chol _ _ hC
  have hCi : ∀ v, C⁻¹.mulVec v = 0 → v = 0 := by
    intro v hv
    have := congrArg C.mulVec hv
    rwa [Matrix.mulVec_mulVec, Matrix.mul_nonsing_inv _ (chol_det hc), Matrix.one_mulVec, Matrix.mulVec_zero] at this
  unfold ckRlf
  simp only [hC, solve_chol hc]
  have hp := hl.prod (C⁻¹ * D.F) hs.le
  have hup := hl.upper (C⁻¹ * D.F) hs.le
  generalize (lib.qr (C⁻¹ * D.F)).1 = Q at *
  generalize (lib.qr (C⁻¹ * D.F)).2 = G at *
  have hdet : G.det ≠ 0 := by
    intro h0
    obtain ⟨v, hv, hv0⟩ := Matrix.exists_mulVec_eq_zero_iff.mpr h0
    refine hv (ha.1 v (hCi _ ?_))
    rw [Matrix.mulVec_mulVec, ← hp, ← Matrix.mulVec_mulVec, hv0, Matrix.mulVec_zero]
  have hd : ∀ i, G i i ≠ 0 := by
    have e : G.det = ∏ i, G i i := Matrix.det_of_isUpperTriangular (fun i j hij => hup i j hij)
    rw [e] at hdet
    exact fun i => Finset.prod_ne_zero_iff.mp hdet i (Finset.mem_univ i)
  have hT : ckSolve false G = .ok (ckTri false G)⁻¹ := by
    unfold ckSolve
    rw [if_pos hd]
  simp only [hT]
  rw [if_pos]
  · exact ⟨_, _, rfl⟩
  · refine div_pos ?_ ?_
    · rw [← Matrix.mulVec_mulVec, ← Matrix.mulVec_sub]
      have hne : C⁻¹.mulVec (D.lvl.y - D.F.mulVec ((ckTri false G)⁻¹.mulVec (Q.transpose.mulVec (C⁻¹.mulVec D.lvl.y)))) ≠ 0 := by
        intro h0
        exact ha.2 _ (sub_eq_zero.mp (hCi _ h0)).symm
      obtain ⟨i, hi⟩ := Function.ne_iff.mp hne
      exact Finset.sum_pos' (fun j _ => mul_self_nonneg _) ⟨i, Finset.mem_univ _, mul_self_pos.mpr hi⟩
    · have : (D.q : ℝ) + D.p < D.lvl.n := by exact_mod_cast hs
      linarith

theorem rlf_ok {lib : CkLib} (hl : lib.Exact) {nug : ℝ} (hn : 0 < nug) {D : CkDesign d} {theta : Fin d → ℝ} (ht : ∀ k, 0 < theta k) (hs : D.q + D.p < D.lvl.n) (ha : Adequate D.F D.lvl.y) :
    ∃ P v, ckRlf lib nug D theta = .ok (some P, some v) := rlf_ok_of hl (R_posdef hn D.lvl.X fun k => (ht k).le) hs ha

/-- `low_eq` when the prediction uses other parameters than the ones the attributes belong to. -/
theorem low_mixed {nug : ℝ} {D : CkDesign d} {ta tb : Fin d → ℝ} {P : CkPar D.lvl.n (D.q + D.p)} (h : Trained nug ⟨D, tb, some P⟩ P) (x : Fin d → ℝ) :
    ∃ s, (⟨D, ta, some P⟩ : CkFitted d).low x = .ok ((⟨D, ta, some P⟩ : CkFitted d).row 0 x ⬝ᵥ P.beta + (⟨D, ta, some P⟩ : CkFitted d).r x ⬝ᵥ (ckR nug D.lvl.X tb)⁻¹.mulVec (D.lvl.y - D.F.mulVec P.beta), s) := by
  have e1 : P.C.transpose⁻¹.mulVec (P.C⁻¹.mulVec D.lvl.y - (P.C⁻¹ * D.F).mulVec P.beta) = (ckR nug D.lvl.X tb)⁻¹.mulVec (D.lvl.y - D.F.mulVec P.beta) := by
    rw [← Matrix.mulVec_mulVec, ← Matrix.mulVec_sub, Matrix.mulVec_mulVec, chol_inv h.chol, Matrix.transpose_nonsing_inv]
  unfold CkFitted.low
  have hG := solve_Gt h
  simp only [solve_chol h.chol, solve_cholT h.chol]
  simp only at hG
  rw [hG]
  simp only
  rw [e1]
  exact ⟨_, rfl⟩

end
end OpenMDAO
