import Verif.Lemmas.Kriging
import Verif.Props.KrigingGrad
import Mathlib.Analysis.InnerProductSpace.PiL2
/-!
# C80 to C83: predictions of the Kriging surrogate
-/
namespace OpenMDAO
set_option linter.unusedSectionVars false
variable {N d m : Nat}
open Matrix

/-! ## Training points -/

theorem kDist_sq (X : Fin (N + 1) → Fin d → ℝ) (i j : Fin (N + 1)) (k : Fin d) : kDist X i k j ^ 2 = (X i k - X j k) ^ 2 := by
  rw [kDist]
  split
  · exact sq_abs _
  · split
    · rw [sq_abs]; ring
    · have : i = j := le_antisymm (not_lt.1 ‹_›) (not_lt.1 ‹_›)
      subst this; simp

/-- At a training point the row of correlations is the row of the matrix, without the nugget. -/
theorem r_train (K : KrigState N d m) (nugget : Fin (N + 1) → ℝ) (x : Fin d → ℝ) (i : Fin (N + 1)) (hx : K.norm x = K.X i) (v : Fin (N + 1) → ℝ) :
    ∑ j, K.r x j * v j = (kCorr nugget K.X K.thetas).mulVec v i - nugget i * v i := by
  have e : ∀ j, K.r x j * v j = kCorr nugget K.X K.thetas i j * v j - if i = j then nugget i * v i else 0 := by
    intro j
    simp only [KrigState.r, hx, kCorr, of_apply, kDist_sq]
    split
    · rename_i h; subst h; simp; ring
    · simp
  rw [Finset.sum_congr rfl fun j _ => e j, Finset.sum_sub_distrib, Finset.sum_ite_eq]
  simp [mulVec, dotProduct]

/-- The error at the training points. -/
theorem train_error {svd : Matrix (Fin (N + 1)) (Fin (N + 1)) ℝ → Svd N} {opt : ((Fin d → ℝ) → Option ℝ) → Option (Fin d → ℝ)} {nugget : Fin (N + 1) → ℝ} {D : KrigData N d m} {st K : KrigState N d m}
    (h : kTrain svd opt nugget D st = (K, .ok ())) (i : Fin (N + 1)) (l : Fin m) :
    D.y i l - K.mean false (D.x i) l = K.Ystd l * (K.Y i l - (kCorr nugget K.X K.thetas).mulVec (fun i => K.alpha i l) i + nugget i * K.alpha i l) := by
  obtain ⟨-, t, -, -, hX, hY, hxm, hxs, hym, hys, -⟩ := kTrain_ok h
  have hx : K.norm (D.x i) = K.X i := by funext k; simp [KrigState.norm, hX, hxm, hxs]
  have e := r_train K nugget (D.x i) i hx fun j => K.alpha j l
  have hpos := kScale_pos fun i => D.y i l
  have hy : D.y i l = K.Ymean l + K.Ystd l * K.Y i l := by
    simp only [hY, hym, hys]
    field_simp
    ring
  rw [hy, KrigState.mean]
  simp only [KrigState.row, Bool.false_eq_true, if_false]
  rw [e]
  ring

theorem sum_sq_norm (c : Fin (N + 1) → ℝ) : ∑ i, ((c i - kMean c) / kScale c) ^ 2 ≤ ((N + 1 : Nat) : ℝ) := by
  have hn : (0 : ℝ) < ((N + 1 : Nat) : ℝ) := by positivity
  have hs : 0 ≤ (∑ i, (c i - kMean c) ^ 2) / ((N + 1 : Nat) : ℝ) := by positivity
  have e : ∑ i, ((c i - kMean c) / kScale c) ^ 2 = (∑ i, (c i - kMean c) ^ 2) / kScale c ^ 2 := by
    rw [Finset.sum_div]; exact Finset.sum_congr rfl fun i _ => by rw [div_pow]
  rw [e, kScale]
  split
  · rename_i h
    have : (∑ i, (c i - kMean c) ^ 2) / ((N + 1 : Nat) : ℝ) = 0 := (Real.sqrt_eq_zero hs).1 h
    have : ∑ i, (c i - kMean c) ^ 2 = 0 := by
      rcases div_eq_zero_iff.1 this with h | h
      · exact h
      · exact absurd h hn.ne'
    rw [this, zero_div]; exact hn.le
  · rename_i h
    rw [kStd, Real.sq_sqrt hs]
    rw [kStd] at h
    have h0 : ∑ i, (c i - kMean c) ^ 2 ≠ 0 := by intro h0; rw [h0] at h; simp at h
    rw [div_div_eq_mul_div, mul_comm, mul_div_assoc, div_self h0, mul_one]

theorem minkowski {u v : Fin (N + 1) → ℝ} {A B : ℝ} (hA : 0 ≤ A) (hB : 0 ≤ B) (hu : ∑ i, u i ^ 2 ≤ A ^ 2) (hv : ∑ i, v i ^ 2 ≤ B ^ 2) : ∑ i, (u i + v i) ^ 2 ≤ (A + B) ^ 2 := by
  have cs := Finset.sum_mul_sq_le_sq_mul_sq Finset.univ u v
  have h1 : (∑ i, u i * v i) ^ 2 ≤ (A * B) ^ 2 := by
    rw [mul_pow]
    exact cs.trans (mul_le_mul hu hv (Finset.sum_nonneg fun i _ => sq_nonneg _) (sq_nonneg _))
  have h2 : ∑ i, u i * v i ≤ A * B := (le_abs_self _).trans (abs_le_of_sq_le_sq h1 (by positivity))
  have e : ∑ i, (u i + v i) ^ 2 = ∑ i, u i ^ 2 + 2 * ∑ i, u i * v i + ∑ i, v i ^ 2 := by
    rw [Finset.mul_sum, ← Finset.sum_add_distrib, ← Finset.sum_add_distrib]
    exact Finset.sum_congr rfl fun i _ => by ring
  rw [e]
  nlinarith

theorem sum_sq_diag (g c : Fin (N + 1) → ℝ) (b : ℝ) (h : ∀ j, |g j| ≤ b) : ∑ j, (g j * c j) ^ 2 ≤ b ^ 2 * ∑ j, c j ^ 2 := by
  rw [Finset.mul_sum]
  refine Finset.sum_le_sum fun j _ => ?_
  rw [mul_pow]
  exact mul_le_mul_of_nonneg_right (sq_le_sq' (abs_le.1 (h j)).1 (abs_le.1 (h j)).2) (sq_nonneg _)

theorem dot_sq (v : Fin (N + 1) → ℝ) : v ⬝ᵥ v = ∑ i, v i ^ 2 := Finset.sum_congr rfl fun i _ => (sq (v i)).symm

/-- **C80.** At the training points the root mean square error of each output is at most its standard deviation times `(1e-8 hi / lo)² + nug / lo`, where all singular values of the correlation matrix lie between `lo` and `hi` and
the nugget is at most `nug`. (The error is not zero: `C80_refuted`.) -/
theorem C80_training_error_partial (svd : Matrix (Fin (N + 1)) (Fin (N + 1)) ℝ → Svd N) (opt : ((Fin d → ℝ) → Option ℝ) → Option (Fin d → ℝ)) (nugget : Fin (N + 1) → ℝ) (D : KrigData N d m) (st K : KrigState N d m)
    (h : kTrain svd opt nugget D st = (K, .ok ())) (hsvd : IsSvd (kCorr nugget K.X K.thetas) (svd (kCorr nugget K.X K.thetas))) (nug lo hi : ℝ) (hnug : ∀ i, 0 ≤ nugget i ∧ nugget i ≤ nug) (hlo : 0 < lo)
    (hs : ∀ j, lo ≤ (svd (kCorr nugget K.X K.thetas)).S j ∧ (svd (kCorr nugget K.X K.thetas)).S j ≤ hi) (l : Fin m) :
    (∑ i, (D.y i l - K.mean false (D.x i) l) ^ 2) / ((N + 1 : Nat) : ℝ) ≤ (K.Ystd l * ((1e-8 * hi / lo) ^ 2 + nug / lo)) ^ 2 := by
  have hn : (0 : ℝ) < ((N + 1 : Nat) : ℝ) := by positivity
  obtain ⟨-, t, -, -, hX, hY, hxm, hxs, hym, hys, -, hal, -⟩ := kTrain_ok h
  simp only [train_error h]
  generalize hR : kCorr nugget K.X K.thetas = R at *
  generalize hsv : svd R = s at *
  have hS : IsSvd R s := hsvd
  have hnug0 : 0 ≤ nug := (hnug 0).1.trans (hnug 0).2
  have hhi : 0 < hi := hlo.trans_le ((hs 0).1.trans (hs 0).2)
  have hq : ∑ i, K.Y i l ^ 2 ≤ ((N + 1 : Nat) : ℝ) := by simp only [hY]; exact sum_sq_norm fun i => D.y i l
  set c := s.Uᵀ.mulVec fun i => K.Y i l with hc
  have hcY : s.U.mulVec c = fun i => K.Y i l := by rw [hc, mulVec_mulVec, hS.left', one_mulVec]
  have hcc : ∑ j, c j ^ 2 = ∑ i, K.Y i l ^ 2 := by
    rw [← dot_sq, ← dot_sq fun i => K.Y i l, ← hcY, sq_mulVec _ hS.left]
  have ha : (fun i => K.alpha i l) = s.Vhᵀ.mulVec ((diagonal (kInv s.S)).mulVec c) := by rw [hal]; exact kAlpha_eq s K.Y l
  have hSp : ∀ j, 0 < s.S j := fun j => hlo.trans_le (hs j).1
  have hrg : 0 < kReg s.S := by rw [kReg]; have := hSp 0; positivity
  -- first part: the regularization
  have p1 : ∑ i, (K.Y i l - R.mulVec (fun i => K.alpha i l) i) ^ 2 ≤ ((1e-8 * hi / lo) ^ 2) ^ 2 * ((N + 1 : Nat) : ℝ) := by
    have e : (fun i => K.Y i l - R.mulVec (fun i => K.alpha i l) i) = s.U.mulVec fun j => (kReg s.S ^ 2 / (s.S j ^ 2 + kReg s.S ^ 2)) * c j := by
      have : (fun i => K.Y i l - R.mulVec (fun i => K.alpha i l) i) = s.U.mulVec c - R.mulVec (fun i => K.alpha i l) := by rw [hcY]; rfl
      rw [this, ha, svd_apply hS, ← mulVec_sub]
      congr 1
      funext j
      simp only [Pi.sub_apply, mulVec_diagonal, kInv]
      have := hSp j
      field_simp
      ring
    have e2 : ∑ i, (K.Y i l - R.mulVec (fun i => K.alpha i l) i) ^ 2 = ∑ j, ((kReg s.S ^ 2 / (s.S j ^ 2 + kReg s.S ^ 2)) * c j) ^ 2 := by
      rw [← dot_sq fun i => K.Y i l - R.mulVec (fun i => K.alpha i l) i, e, sq_mulVec _ hS.left, dot_sq]
    rw [e2]
    refine (sum_sq_diag _ c ((1e-8 * hi / lo) ^ 2) fun j => ?_).trans ?_
    · have := hSp j
      rw [abs_of_nonneg (by positivity), div_pow, kReg]
      refine div_le_div₀ (by positivity) ?_ (by positivity) ?_
      · exact pow_le_pow_left₀ (by have := hSp 0; positivity) (mul_le_mul_of_nonneg_left (hs 0).2 (by norm_num)) 2
      · have := pow_le_pow_left₀ hlo.le (hs j).1 2
        nlinarith [sq_nonneg (1e-8 * s.S 0)]
    · rw [hcc]; exact mul_le_mul_of_nonneg_left hq (by positivity)
  -- second part: the nugget
  have p2 : ∑ i, (nugget i * K.alpha i l) ^ 2 ≤ (nug / lo) ^ 2 * ((N + 1 : Nat) : ℝ) := by
    refine (sum_sq_diag _ (fun i => K.alpha i l) nug fun j => by rw [abs_of_nonneg (hnug j).1]; exact (hnug j).2).trans ?_
    have e2 : ∑ i, K.alpha i l ^ 2 = ∑ j, (kInv s.S j * c j) ^ 2 := by
      rw [← dot_sq fun i => K.alpha i l, ha, sq_mulVec _ (by rw [transpose_transpose]; exact hS.right), dot_sq]
      exact Finset.sum_congr rfl fun j _ => by rw [mulVec_diagonal]
    rw [e2]
    have e3 := sum_sq_diag (kInv s.S) c (1 / lo) fun j => by
      have := hSp j
      rw [kInv, abs_of_nonneg (by positivity), div_le_div_iff₀ (by positivity) hlo]
      have := (hs j).1
      nlinarith [sq_nonneg (kReg s.S)]
    have e4 : nug ^ 2 * ∑ j, (kInv s.S j * c j) ^ 2 ≤ nug ^ 2 * ((1 / lo) ^ 2 * ((N + 1 : Nat) : ℝ)) := by
      refine mul_le_mul_of_nonneg_left (e3.trans ?_) (sq_nonneg _)
      rw [hcc]; exact mul_le_mul_of_nonneg_left hq (by positivity)
    refine e4.trans (le_of_eq ?_)
    ring
  have sq : Real.sqrt ((N + 1 : Nat) : ℝ) ^ 2 = ((N + 1 : Nat) : ℝ) := Real.sq_sqrt hn.le
  have key := minkowski (A := (1e-8 * hi / lo) ^ 2 * Real.sqrt ((N + 1 : Nat) : ℝ)) (B := nug / lo * Real.sqrt ((N + 1 : Nat) : ℝ)) (by positivity) (by positivity)
    (by rw [mul_pow, sq]; exact p1) (by rw [mul_pow, sq]; exact p2)
  rw [div_le_iff₀ hn]
  simp only [mul_pow (K.Ystd l)]
  rw [← Finset.mul_sum, mul_assoc]
  refine mul_le_mul_of_nonneg_left (key.trans (le_of_eq ?_)) (sq_nonneg _)
  rw [← add_mul, mul_pow, sq]

theorem S0_pos {R : Matrix (Fin (N + 1)) (Fin (N + 1)) ℝ} {s : Svd N} (h : IsSvd R s) (hR : R ≠ 0) : 0 < s.S 0 := by
  rcases (h.nonneg 0).lt_or_eq with h0 | h0
  · exact h0
  · refine absurd ?_ hR
    have : s.S = 0 := by
      funext j
      exact le_antisymm ((h.sorted (Fin.zero_le j)).trans h0.symm.le) (h.nonneg j)
    rw [h.prod, this]
    simp

/-! ## Two points -/

/-- Training data `0 ↦ 0`, `2 ↦ 2`. -/
def twoKrig : KrigData 1 1 1 := ⟨fun i _ => 2 * (i : ℕ), fun i _ => 2 * (i : ℕ)⟩

/-- The normalized values. -/
def pm (i : Fin (1 + 1)) : ℝ := 2 * ((i : ℕ) : ℝ) - 1
theorem sum_pair (f : Fin (1 + 1) → ℝ) : ∑ i, f i = f 0 + f 1 := Fin.sum_univ_two f
theorem pm0 : pm 0 = -1 := by norm_num [pm]
theorem pm1 : pm 1 = 1 := by norm_num [pm]

theorem twoMean : kMean (N := 1) (fun i : Fin 2 => (2 * ((i : ℕ) : ℝ))) = 1 := by simp [kMean]
theorem twoStd : kScale (N := 1) (fun i : Fin 2 => (2 * ((i : ℕ) : ℝ))) = 1 := by
  have : kStd (N := 1) (fun i : Fin 2 => (2 * ((i : ℕ) : ℝ))) = 1 := by
    rw [kStd, twoMean, Fin.sum_univ_two]; norm_num
  rw [kScale, this]; simp

/-- The normalized points. -/
theorem twoNorm : (fun (i : Fin (1 + 1)) (k : Fin 1) => (twoKrig.x i k - kMean fun i => twoKrig.x i k) / kScale fun i => twoKrig.x i k) = fun i _ => pm i := by
  funext i k
  simp only [twoKrig]
  rw [twoMean, twoStd, div_one, pm]

/-- The matrix of two points. -/
noncomputable def twoR (a e : ℝ) : Matrix (Fin (1 + 1)) (Fin (1 + 1)) ℝ := Matrix.of fun i j => if i = j then a else e

theorem twoCorr (c : ℝ) (th : Fin 1 → ℝ) : kCorr (fun _ => c) (fun (i : Fin (1 + 1)) (_ : Fin 1) => pm i) th = twoR (1 + c) (Real.exp (-(th 0 * 4))) := by
  ext i j
  simp only [kCorr, twoR, of_apply, kDist_sq]
  split
  · rfl
  · congr 2
    rw [Fin.sum_univ_one]
    fin_cases i <;> fin_cases j <;> simp_all [pm0, pm1] <;> norm_num

theorem two_tikhonov (a e h : ℝ) (hp : (a - e) ^ 2 + h ^ 2 ≠ 0) :
    IsTikhonov (twoR a e) h pm (fun i => (a - e) / ((a - e) ^ 2 + h ^ 2) * pm i) := by
  have m : ∀ v : Fin (1 + 1) → ℝ, (twoR a e).mulVec v = fun i => if i = 0 then a * v 0 + e * v 1 else e * v 0 + a * v 1 := by
    intro v; funext i
    simp only [mulVec, dotProduct, twoR, of_apply]
    fin_cases i <;> simp
  have mt : (twoR a e)ᵀ = twoR a e := by
    ext i j; simp [twoR, eq_comm]
  rw [IsTikhonov, mt, m, m, m]
  funext i
  fin_cases i <;> simp [pm0, pm1] <;> field_simp <;> ring

/-- The weights of two points, for every singular value decomposition. -/
theorem two_alpha (a e : ℝ) (ha : 0 < a) (s : Svd 1) (hs : IsSvd (twoR a e) s) (i : Fin 2) :
    kAlpha s (fun (i : Fin (1 + 1)) (_ : Fin 1) => pm i) i 0 = (a - e) / ((a - e) ^ 2 + kReg s.S ^ 2) * pm i := by
  have h0 : 0 < s.S 0 := S0_pos hs fun h => by
    have := congrFun (congrFun h 0) 0
    simp [twoR] at this
    exact ha.ne' this
  have hr : 0 < kReg s.S := by rw [kReg]; positivity
  have t := tikhonov hs h0 pm
  have u := tikhonov_unique hr.ne' t (two_tikhonov a e (kReg s.S) (by positivity))
  have k := kAlpha_eq s (fun (i : Fin (1 + 1)) (_ : Fin 1) => pm i) 0
  rw [u] at k
  exact congrFun k i

/-- What the training with two points leaves behind. -/
theorem two_trained {svd : Matrix (Fin (1 + 1)) (Fin (1 + 1)) ℝ → Svd 1} {opt : ((Fin 1 → ℝ) → Option ℝ) → Option (Fin 1 → ℝ)} {c : ℝ} (hc : 0 ≤ c) {st K : KrigState 1 1 1}
    (h : kTrain svd opt (fun _ => c) twoKrig st = (K, .ok ())) (hsvd : IsSvd (kCorr (fun _ => c) K.X K.thetas) (svd (kCorr (fun _ => c) K.X K.thetas))) :
    0 < K.thetas 0 ∧ K.X = (fun i _ => pm i) ∧ K.Y = (fun i _ => pm i) ∧ K.Xmean 0 = 1 ∧ K.Xstd 0 = 1 ∧ K.Ymean 0 = 1 ∧ K.Ystd 0 = 1 ∧
      kCorr (fun _ => c) K.X K.thetas = twoR (1 + c) (Real.exp (-(K.thetas 0 * 4))) ∧
      ∃ g, 0 < g ∧ ∀ i, K.alpha i 0 = (1 + c - Real.exp (-(K.thetas 0 * 4))) / ((1 + c - Real.exp (-(K.thetas 0 * 4))) ^ 2 + g ^ 2) * pm i := by
  obtain ⟨-, t, -, -, hX, hY, hxm, hxs, hym, hys, hth, hal, -⟩ := kTrain_ok h
  have hX' : K.X = fun i _ => pm i := hX.trans twoNorm
  have hY' : K.Y = fun i _ => pm i := hY.trans twoNorm
  have hR : kCorr (fun _ => c) K.X K.thetas = twoR (1 + c) (Real.exp (-(K.thetas 0 * 4))) := by rw [hX', twoCorr]
  refine ⟨by rw [hth]; exact Real.exp_pos _, hX', hY', by rw [hxm]; exact twoMean, by rw [hxs]; exact twoStd, by rw [hym]; exact twoMean, by rw [hys]; exact twoStd, hR, ?_⟩
  rw [hR] at hsvd
  rw [hR, hY'] at hal
  have h0 : 0 < (svd (twoR (1 + c) (Real.exp (-(K.thetas 0 * 4))))).S 0 := S0_pos hsvd fun h => by
    have := congrFun (congrFun h 0) 0
    simp [twoR] at this
    linarith
  exact ⟨kReg (svd (twoR (1 + c) (Real.exp (-(K.thetas 0 * 4))))).S, by rw [kReg]; positivity, fun i => by rw [hal]; exact two_alpha _ _ (by linarith) _ hsvd i⟩

/-- **C80 is false as an equation.** Trained with the two points `0 ↦ 0` and `2 ↦ 2`, for no nugget (zero included), no hyper-parameters and no singular value decomposition does the surrogate return 0 at 0. -/
theorem C80_refuted (svd : Matrix (Fin (1 + 1)) (Fin (1 + 1)) ℝ → Svd 1) (opt : ((Fin 1 → ℝ) → Option ℝ) → Option (Fin 1 → ℝ)) (c : ℝ) (hc : 0 ≤ c) (st K : KrigState 1 1 1)
    (h : kTrain svd opt (fun _ => c) twoKrig st = (K, .ok ())) (hsvd : IsSvd (kCorr (fun _ => c) K.X K.thetas) (svd (kCorr (fun _ => c) K.X K.thetas))) :
    K.mean false (twoKrig.x 0) 0 ≠ twoKrig.y 0 0 := by
  intro e
  have te := train_error h 0 0
  rw [e, sub_self] at te
  obtain ⟨hpos, hX, hY, -, -, -, hs1, hR, g, hg, hA⟩ := two_trained hc h hsvd
  have he : Real.exp (-(K.thetas 0 * 4)) < 1 := Real.exp_lt_one_iff.2 (by linarith)
  rw [hR, hs1, hY] at te
  generalize Real.exp (-(K.thetas 0 * 4)) = x at *
  have hq : (1 + c - x) ^ 2 + g ^ 2 ≠ 0 := by positivity
  simp [hA, mulVec, dotProduct, twoR, pm0, pm1] at te
  field_simp at te
  nlinarith [mul_nonneg hc (by linarith : (0 : ℝ) ≤ 1 + c - x), pow_pos hg 2]

/-- A singular value decomposition for symmetric matrices with equal entries on the diagonal. -/
noncomputable def twoSvd (R : Matrix (Fin (1 + 1)) (Fin (1 + 1)) ℝ) : Svd 1 :=
  ⟨Matrix.of fun i j => if i = 1 ∧ j = 1 then -(1 / Real.sqrt 2) else 1 / Real.sqrt 2, fun j => if j = 0 then R 0 0 + R 0 1 else R 0 0 - R 0 1,
    Matrix.of fun i j => if i = 1 ∧ j = 1 then -(1 / Real.sqrt 2) else 1 / Real.sqrt 2⟩

theorem twoSvd_ok (a e : ℝ) (he : 0 ≤ e) (hea : e ≤ a) : IsSvd (twoR a e) (twoSvd (twoR a e)) := by
  have q : 1 / Real.sqrt 2 * (1 / Real.sqrt 2) = 1 / 2 := by
    rw [div_mul_div_comm, one_mul, Real.mul_self_sqrt (by norm_num)]
  generalize hg : 1 / Real.sqrt 2 = g at q
  have o : (twoSvd (twoR a e)).Uᵀ * (twoSvd (twoR a e)).U = 1 := by
    ext i j
    fin_cases i <;> fin_cases j <;> simp [twoSvd, Matrix.mul_apply, hg] <;> linarith
  have t : (twoSvd (twoR a e)).Uᵀ = (twoSvd (twoR a e)).U := by ext i j; simp [twoSvd, and_comm]
  refine ⟨o, ?_, ?_, ?_, ?_⟩
  · have : (twoSvd (twoR a e)).Vh = (twoSvd (twoR a e)).U := rfl
    rw [this, t]; rw [t] at o; exact o
  · intro j; fin_cases j <;> simp [twoSvd, twoR] <;> linarith
  · intro i j hij
    fin_cases i <;> fin_cases j <;> simp_all [twoSvd, twoR]
    linarith
  · ext i j
    fin_cases i <;> fin_cases j <;> simp [twoSvd, twoR, Matrix.mul_apply, diagonal_apply] <;> rw [← one_div, hg] <;> nlinarith

/-- The optimizer that succeeds at once. -/
def optZero (_ : (Fin 1 → ℝ) → Option ℝ) : Option (Fin 1 → ℝ) := some fun _ => 0

/-- A surrogate before training. -/
def krigStart (N d m : Nat) : KrigState N d m := ⟨false, fun _ _ => 0, fun _ _ => 0, fun _ => 0, fun _ => 0, fun _ => 0, fun _ => 0, fun _ => 0, fun _ _ => 0, 0, fun _ => 0, 0, fun _ => 0⟩

/-- Two points trained. -/
theorem two_exists (c : ℝ) (hc : 0 ≤ c) (st : KrigState 1 1 1) : ∃ K, kTrain twoSvd optZero (fun _ => c) twoKrig st = (K, .ok ()) ∧
    IsSvd (kCorr (fun _ => c) K.X K.thetas) (twoSvd (kCorr (fun _ => c) K.X K.thetas)) := by
  refine ⟨_, rfl, ?_⟩
  show IsSvd (kCorr (fun _ => c) (fun (i : Fin (1 + 1)) (k : Fin 1) => (twoKrig.x i k - kMean fun i => twoKrig.x i k) / kScale fun i => twoKrig.x i k) fun k => Real.exp 0) _
  have e : kCorr (fun _ => c) (fun (i : Fin (1 + 1)) (k : Fin 1) => (twoKrig.x i k - kMean fun i => twoKrig.x i k) / kScale fun i => twoKrig.x i k) (fun k => Real.exp 0) = twoR (1 + c) (Real.exp (-(Real.exp 0 * 4))) := by
    rw [twoNorm]; exact twoCorr c _
  rw [e]
  have : Real.exp (-(Real.exp 0 * 4)) < 1 := Real.exp_lt_one_iff.2 (by have := Real.exp_pos 0; linarith)
  exact twoSvd_ok _ _ (Real.exp_pos _).le (by linarith)

/-- The hypotheses of C79 and C80 are met, with the singular values `1 + c ± exp(-4)`. -/
example : ∃ K, kTrain twoSvd optZero (fun _ => 1 / 100) twoKrig (krigStart 1 1 1) = (K, .ok ()) ∧
    IsSvd (kCorr (fun _ => 1 / 100) K.X K.thetas) (twoSvd (kCorr (fun _ => 1 / 100) K.X K.thetas)) ∧ K.mean false (twoKrig.x 0) 0 ≠ twoKrig.y 0 0 := by
  obtain ⟨K, h, hs⟩ := two_exists (1 / 100) (by norm_num) (krigStart 1 1 1)
  exact ⟨K, h, hs, C80_refuted _ _ _ (by norm_num) _ _ h hs⟩

/-! ## Rescaling -/

theorem kMean_affine (f : Fin (N + 1) → ℝ) (a b : ℝ) : (kMean fun i => a * f i + b) = a * kMean f + b := by
  have hn : ((N + 1 : Nat) : ℝ) ≠ 0 := by positivity
  rw [kMean, kMean, Finset.sum_add_distrib, ← Finset.mul_sum, Finset.sum_const, Finset.card_univ, Fintype.card_fin, nsmul_eq_mul, add_div, mul_div_assoc, mul_div_cancel_left₀ _ hn]

theorem kStd_affine (f : Fin (N + 1) → ℝ) (a b : ℝ) : (kStd fun i => a * f i + b) = |a| * kStd f := by
  rw [kStd, kMean_affine, kStd]
  have : ∑ i, (a * f i + b - (a * kMean f + b)) ^ 2 = a ^ 2 * ∑ i, (f i - kMean f) ^ 2 := by
    rw [Finset.mul_sum]; exact Finset.sum_congr rfl fun i _ => by ring
  rw [this, mul_div_assoc, Real.sqrt_mul (sq_nonneg a), Real.sqrt_sq_eq_abs]

theorem kStd_zero {f : Fin (N + 1) → ℝ} (h : kStd f = 0) (i : Fin (N + 1)) : f i = kMean f := by
  have hn : (0 : ℝ) < ((N + 1 : Nat) : ℝ) := by positivity
  rw [kStd, Real.sqrt_eq_zero (by positivity), div_eq_zero_iff] at h
  have h := h.resolve_right hn.ne'
  have := (Finset.sum_eq_zero_iff_of_nonneg fun i _ => sq_nonneg _).1 h i (Finset.mem_univ _)
  exact sub_eq_zero.1 (pow_eq_zero_iff (by decide) |>.1 this)

theorem kScale_affine {f : Fin (N + 1) → ℝ} (a b : ℝ) (ha : a ≠ 0) (h : kStd f ≠ 0) : (kScale fun i => a * f i + b) = |a| * kScale f := by
  have : |a| * kStd f ≠ 0 := mul_ne_zero (abs_ne_zero.2 ha) h
  rw [kScale, kStd_affine, if_neg this, kScale, if_neg h]

theorem kScale_const {f : Fin (N + 1) → ℝ} (a b : ℝ) (h : kStd f = 0) : (kScale fun i => a * f i + b) = kScale f := by
  rw [kScale, kStd_affine, h, mul_zero, kScale, h]

theorem kCorr_sign (nugget : Fin (N + 1) → ℝ) (X X' : Fin (N + 1) → Fin d → ℝ) (g : Fin d → ℝ) (hg : ∀ k, g k ^ 2 = 1) (hX : ∀ i k, X' i k = g k * X i k) : kCorr nugget X' = kCorr nugget X := by
  funext th
  ext i j
  simp only [kCorr, of_apply, kDist_sq, hX]
  congr 3
  refine Finset.sum_congr rfl fun k _ => ?_
  rw [← mul_sub, mul_pow, hg, one_mul]

theorem kTrain_err {svd : Matrix (Fin (N + 1)) (Fin (N + 1)) ℝ → Svd N} {opt : ((Fin d → ℝ) → Option ℝ) → Option (Fin d → ℝ)} {nugget : Fin (N + 1) → ℝ} (D : KrigData N d m) (st : KrigState N d m) :
    (kTrain svd opt nugget D st).2 = if N = 0 ∨ opt (kObjective svd nugget (fun i k => (D.x i k - kMean fun i => D.x i k) / kScale fun i => D.x i k) (fun i l => (D.y i l - kMean fun i => D.y i l) / kScale fun i => D.y i l)) = none
      then .error .ValueError else .ok () := by
  rw [kTrain]
  split
  · rename_i h; rw [if_pos (Or.inl (by omega))]
  · rename_i h
    dsimp only
    have : N ≠ 0 := by omega
    split
    · rename_i ho; rw [if_pos (Or.inr ho)]
    · rename_i t ho; rw [if_neg]; rw [ho]; simp [this]

/-- **C81.** Rescaling and shifting the inputs (also with negative factors) and the outputs (with positive factors) of the training data changes the predictions accordingly: trained with the changed data, the surrogate at the changed
point returns the changed mean, and the error scaled by the factor of the output. Training fails for one if and only if it fails for the other. Every input must take two different values in the training data. The singular value
decomposition and the optimizer are any functions. -/
theorem C81_rescaling (svd : Matrix (Fin (N + 1)) (Fin (N + 1)) ℝ → Svd N) (opt : ((Fin d → ℝ) → Option ℝ) → Option (Fin d → ℝ)) (nugget : Fin (N + 1) → ℝ) (D D' : KrigData N d m) (a b : Fin d → ℝ) (c e : Fin m → ℝ)
    (ha : ∀ k, a k ≠ 0) (hc : ∀ l, 0 < c l) (hvar : ∀ k, ∃ i j, D.x i k ≠ D.x j k) (hx : ∀ i k, D'.x i k = a k * D.x i k + b k) (hy : ∀ i l, D'.y i l = c l * D.y i l + e l) (st st' : KrigState N d m) :
    (kTrain svd opt nugget D' st').2 = (kTrain svd opt nugget D st).2 ∧
    ∀ K K', kTrain svd opt nugget D st = (K, .ok ()) → kTrain svd opt nugget D' st' = (K', .ok ()) → ∀ int z,
      ∃ y r, K.predict int z = .ok (y, r) ∧ K'.predict int (fun k => a k * z k + b k) = .ok (fun l => c l * y l + e l, fun l => c l * r l) := by
  have hst : ∀ k, kStd (fun i => D.x i k) ≠ 0 := fun k h => by
    obtain ⟨i, j, hij⟩ := hvar k
    exact hij ((kStd_zero h i).trans (kStd_zero h j).symm)
  have hxm : ∀ k, (kMean fun i => D'.x i k) = a k * (kMean fun i => D.x i k) + b k := fun k => by simp only [hx]; exact kMean_affine _ _ _
  have hxs : ∀ k, (kScale fun i => D'.x i k) = |a k| * (kScale fun i => D.x i k) := fun k => by simp only [hx]; exact kScale_affine _ _ (ha k) (hst k)
  have hym : ∀ l, (kMean fun i => D'.y i l) = c l * (kMean fun i => D.y i l) + e l := fun l => by simp only [hy]; exact kMean_affine _ _ _
  have hys : ∀ l, (kStd (fun i => D.y i l) = 0 ∧ (kScale fun i => D'.y i l) = kScale fun i => D.y i l) ∨ (kScale fun i => D'.y i l) = c l * (kScale fun i => D.y i l) := fun l => by
    by_cases h : kStd (fun i => D.y i l) = 0
    · left; refine ⟨h, ?_⟩; simp only [hy]; exact kScale_const _ _ h
    · right; simp only [hy]; rw [kScale_affine _ _ (hc l).ne' h, abs_of_pos (hc l)]
  have hg : ∀ k, (a k / |a k|) ^ 2 = 1 := fun k => by rw [div_pow, sq_abs, div_self (pow_ne_zero 2 (ha k))]
  have hX : ∀ z k, (a k * z + b k - kMean fun i => D'.x i k) / (kScale fun i => D'.x i k) = a k / |a k| * ((z - kMean fun i => D.x i k) / kScale fun i => D.x i k) := fun z k => by
    rw [hxm, hxs, div_mul_div_comm]; congr 1; ring
  have hYeq : (fun i l => (D'.y i l - kMean fun i => D'.y i l) / kScale fun i => D'.y i l) = fun i l => (D.y i l - kMean fun i => D.y i l) / kScale fun i => D.y i l := by
    funext i l
    rw [hym, hy]
    rcases hys l with ⟨h0, h⟩ | h
    · have := kStd_zero h0 i
      rw [h, this]; simp
    · have := (hc l).ne'
      have := (kScale_pos fun i => D.y i l).ne'
      rw [h, show c l * D.y i l + e l - (c l * (kMean fun i => D.y i l) + e l) = c l * (D.y i l - kMean fun i => D.y i l) by ring, mul_div_mul_left _ _ (hc l).ne']
  have hC : kCorr nugget (fun i k => (D'.x i k - kMean fun i => D'.x i k) / kScale fun i => D'.x i k) = kCorr nugget fun i k => (D.x i k - kMean fun i => D.x i k) / kScale fun i => D.x i k :=
    kCorr_sign _ _ _ (fun k => a k / |a k|) hg fun i k => by rw [hx i k]; exact hX _ _
  have hO : kObjective svd nugget (fun i k => (D'.x i k - kMean fun i => D'.x i k) / kScale fun i => D'.x i k) (fun i l => (D'.y i l - kMean fun i => D'.y i l) / kScale fun i => D'.y i l) =
      kObjective svd nugget (fun i k => (D.x i k - kMean fun i => D.x i k) / kScale fun i => D.x i k) (fun i l => (D.y i l - kMean fun i => D.y i l) / kScale fun i => D.y i l) := by
    funext t; simp only [kObjective, hC, hYeq]
  refine ⟨by rw [kTrain_err, kTrain_err, hO], fun K K' h h' int z => ?_⟩
  obtain ⟨-, t, ht, hT, kX, kY, kxm, kxs, kym, kys, kth, kal, kU, kS, kV, ksig⟩ := kTrain_ok h
  obtain ⟨-, t', ht', hT', kX', kY', kxm', kxs', kym', kys', kth', kal', kU', kS', kV', ksig'⟩ := kTrain_ok h'
  rw [hO, ht] at ht'
  cases Option.some.inj ht'
  have eth : K'.thetas = K.thetas := kth'.trans kth.symm
  have eY : K'.Y = K.Y := by rw [kY', kY]; exact hYeq
  have eC : kCorr nugget K'.X K'.thetas = kCorr nugget K.X K.thetas := by rw [kX', kX, eth, hC]
  have eal : K'.alpha = K.alpha := by rw [kal', kal, eC, eY]
  have er : K'.row int (fun k => a k * z k + b k) = K.row int z := by
    funext i
    have : K'.r (fun k => a k * z k + b k) i = K.r z i := by
      simp only [KrigState.r, eth]
      congr 2
      refine Finset.sum_congr rfl fun k _ => ?_
      have e1 : K'.norm (fun k => a k * z k + b k) k = a k / |a k| * K.norm z k := by
        simp only [KrigState.norm, kxm', kxs', kxm, kxs]; exact hX _ _
      have e2 : K'.X i k = a k / |a k| * K.X i k := by
        simp only [kX', kX]; rw [hx i k]; exact hX _ _
      rw [e1, e2, ← mul_sub, mul_pow, hg, one_mul]
    rw [KrigState.row, KrigState.row, this]
  have hY0 : ∀ l, kStd (fun i => D.y i l) = 0 → ∀ i, K.alpha i l = 0 := fun l h0 i => by
    rw [kal, kAlpha]
    have : ∀ k, K.Y k l = 0 := fun k => by
      rw [kY]
      have := kStd_zero h0 k
      simp only [this, sub_self, zero_div]
    simp [this]
  refine ⟨K.mean int z, K.rmse int z, by rw [KrigState.predict, if_pos hT], ?_⟩
  rw [KrigState.predict, if_pos hT']
  congr 2
  · funext l
    simp only [KrigState.mean, er, eal, kym', kys', kym, kys, hym]
    rcases hys l with ⟨h0, _⟩ | h
    · simp [hY0 l h0]
    · rw [h]; ring
  · funext l
    simp only [KrigState.rmse, er, kV', kV, kS', kS, kU', kU, eC]
    rw [ksig', ksig]
    simp only [eY, eal, kys', kys]
    rcases hys l with ⟨h0, _⟩ | h
    · have : kSigma2 K.Y K.alpha l = 0 := by simp [kSigma2, hY0 l h0]
      simp [this]
    · rw [h]
      generalize (1 - ∑ j, (∑ i, K.row int z i * (svd (kCorr nugget K.X K.thetas)).Vh j i) * ∑ k, kInv (svd (kCorr nugget K.X K.thetas)).S j * (svd (kCorr nugget K.X K.thetas)).U k j * K.row int z k) = q
      have e1 : q * (kSigma2 K.Y K.alpha l * (c l * (kScale fun i => D.y i l)) ^ 2) = c l ^ 2 * (q * (kSigma2 K.Y K.alpha l * (kScale fun i => D.y i l) ^ 2)) := by ring
      rw [e1]
      generalize q * (kSigma2 K.Y K.alpha l * (kScale fun i => D.y i l) ^ 2) = w
      have hcl := hc l
      by_cases hw : w < 0
      · rw [if_pos hw, if_pos (mul_neg_of_pos_of_neg (by positivity) hw)]; simp
      · rw [if_neg hw, if_neg (not_lt.2 (mul_nonneg (by positivity) (not_lt.1 hw))), Real.sqrt_mul (sq_nonneg _), Real.sqrt_sq hcl.le]

/-- `2 ↦ 20`, `-2 ↦ 40`, that is inputs times -2 plus 2, outputs times 10 plus 20. -/
example : (kTrain twoSvd optZero (fun _ => 0) ⟨fun i k => -2 * twoKrig.x i k + 2, fun i l => 10 * twoKrig.y i l + 20⟩ (krigStart 1 1 1)).2 = .ok () ∧
    ∀ K K', kTrain twoSvd optZero (fun _ => 0) twoKrig (krigStart 1 1 1) = (K, .ok ()) →
      kTrain twoSvd optZero (fun _ => 0) ⟨fun i k => -2 * twoKrig.x i k + 2, fun i l => 10 * twoKrig.y i l + 20⟩ (krigStart 1 1 1) = (K', .ok ()) → ∀ int z,
      ∃ y r, K.predict int z = .ok (y, r) ∧ K'.predict int (fun k => -2 * z k + 2) = .ok (fun l => 10 * y l + 20, fun l => 10 * r l) := by
  obtain ⟨h1, h2⟩ := C81_rescaling twoSvd optZero (fun _ => 0) twoKrig ⟨fun i k => -2 * twoKrig.x i k + 2, fun i l => 10 * twoKrig.y i l + 20⟩ (fun _ => -2) (fun _ => 2) (fun _ => 10) (fun _ => 20)
    (by norm_num) (by norm_num) (fun k => ⟨0, 1, by norm_num [twoKrig]⟩) (fun _ _ => rfl) (fun _ _ => rfl) (krigStart 1 1 1) (krigStart 1 1 1)
  exact ⟨h1.trans rfl, h2⟩

/-! ## The error -/

/-- **C82, one output.** With the regularized solutions `α` of `R α = Y` and `β` of `R β = r(x)`, where `R` is the correlation matrix and `r(x)` the correlations of the point with the training points, the error at `x` is
the square root of `(1 - r·β) (Y·α / n) std²`, or 0 where that is negative. -/
theorem C82_one_output_partial (svd : Matrix (Fin (N + 1)) (Fin (N + 1)) ℝ → Svd N) (opt : ((Fin d → ℝ) → Option ℝ) → Option (Fin d → ℝ)) (nugget : Fin (N + 1) → ℝ) (D : KrigData N d 1) (st K : KrigState N d 1)
    (h : kTrain svd opt nugget D st = (K, .ok ())) (hsvd : IsSvd (kCorr nugget K.X K.thetas) (svd (kCorr nugget K.X K.thetas))) (hR : kCorr nugget K.X K.thetas ≠ 0) (x : Fin d → ℝ) :
    ∃ g α β, 0 < g ∧ IsTikhonov (kCorr nugget K.X K.thetas) g (fun i => K.Y i 0) α ∧ IsTikhonov (kCorr nugget K.X K.thetas) g (K.r x) β ∧
      K.rmse false x 0 = Real.sqrt (max 0 ((1 - K.r x ⬝ᵥ β) * (((fun i => K.Y i 0) ⬝ᵥ α) / ((N + 1 : Nat) : ℝ) * K.Ystd 0 ^ 2))) := by
  obtain ⟨-, t, -, -, -, -, -, -, -, -, -, kal, kU, kS, kV, ksig⟩ := kTrain_ok h
  generalize hRR : kCorr nugget K.X K.thetas = R at *
  generalize svd R = s at *
  have h0 := S0_pos hsvd hR
  refine ⟨kReg s.S, fun i => K.alpha i 0, s.Vhᵀ.mulVec ((diagonal (kInv s.S)).mulVec (s.Uᵀ.mulVec (K.r x))), by rw [kReg]; positivity, ?_, tikhonov hsvd h0 _, ?_⟩
  · rw [kal, kAlpha_eq]; exact tikhonov hsvd h0 _
  · have e1 : ∑ j, (∑ i, K.r x i * s.Vh j i) * ∑ k, kInv s.S j * s.U k j * K.r x k = K.r x ⬝ᵥ s.Vhᵀ.mulVec ((diagonal (kInv s.S)).mulVec (s.Uᵀ.mulVec (K.r x))) := by
      rw [dotProduct_mulVec, vecMul_transpose]
      simp only [dotProduct, mulVec_diagonal]
      simp only [mulVec, dotProduct, transpose_apply]
      refine Finset.sum_congr rfl fun j _ => ?_
      congr 1
      · exact Finset.sum_congr rfl fun i _ => mul_comm _ _
      · rw [Finset.mul_sum]; exact Finset.sum_congr rfl fun k _ => by ring
    have e2 : K.sigma2 0 = ((fun i => K.Y i 0) ⬝ᵥ fun i => K.alpha i 0) / ((N + 1 : Nat) : ℝ) * K.Ystd 0 ^ 2 := by
      rw [ksig]; simp [kSigma2, dotProduct]
    rw [KrigState.rmse]
    simp only [KrigState.row, Bool.false_eq_true, if_false, kV, kS, kU]
    rw [e1, e2]
    congr 1
    split
    · rename_i hw; rw [max_eq_left hw.le]
    · rename_i hw; rw [max_eq_right (not_lt.1 hw)]

/-- Training data with two outputs, the second falling as the first rises. -/
def oppKrig : KrigData 1 1 2 := ⟨fun i _ => 2 * (i : ℕ), fun i l => if l = 0 then 2 * (i : ℕ) else 2 - 2 * (i : ℕ)⟩

theorem oppNorm : (fun (i : Fin (1 + 1)) (l : Fin 2) => (oppKrig.y i l - kMean fun i => oppKrig.y i l) / kScale fun i => oppKrig.y i l) = fun i l => if l = 0 then pm i else -pm i := by
  have e : (fun i : Fin (1 + 1) => (2 : ℝ) - 2 * ((i : ℕ) : ℝ)) = fun i : Fin (1 + 1) => -1 * (2 * ((i : ℕ) : ℝ)) + 2 := by funext i; ring
  have hs : kStd (N := 1) (fun i : Fin 2 => (2 * ((i : ℕ) : ℝ))) ≠ 0 := fun h => by
    have h1 := kStd_zero h 0
    rw [twoMean] at h1
    norm_num at h1
  funext i l
  simp only [oppKrig]
  by_cases hl : l = 0
  · simp only [hl, if_true]
    rw [twoMean, twoStd, div_one, pm]
  · simp only [hl, if_false]
    rw [e, kMean_affine, kScale_affine _ _ (by norm_num) hs, twoMean, twoStd, pm]
    norm_num
    ring

theorem opp_sigma (s : Svd 1) (l : Fin 2) : kSigma2 (fun (i : Fin (1 + 1)) (l : Fin 2) => if l = 0 then pm i else -pm i) (kAlpha s fun (i : Fin (1 + 1)) (l : Fin 2) => if l = 0 then pm i else -pm i) l = 0 := by
  simp only [kSigma2]
  rw [div_eq_zero_iff]; left
  rw [Finset.sum_comm]
  refine Finset.sum_eq_zero fun i _ => ?_
  simp [Fin.sum_univ_two]

/-- **C82 is false for two outputs.** With two outputs of which the second falls as the first rises, the error is 0 at every point, whatever the decomposition and the hyper-parameters; trained with the first output alone,
the error halfway between the two training points is positive. -/
theorem C82_two_outputs_refuted (svd : Matrix (Fin (1 + 1)) (Fin (1 + 1)) ℝ → Svd 1) (opt : ((Fin 1 → ℝ) → Option ℝ) → Option (Fin 1 → ℝ)) (c : ℝ) (hc : 0 ≤ c) :
    (∀ st K, kTrain svd opt (fun _ => c) oppKrig st = (K, .ok ()) → ∀ int x l, K.rmse int x l = 0) ∧
    ∀ st K, kTrain svd opt (fun _ => c) twoKrig st = (K, .ok ()) → IsSvd (kCorr (fun _ => c) K.X K.thetas) (svd (kCorr (fun _ => c) K.X K.thetas)) → 0 < K.rmse false (fun _ => 1) 0 := by
  constructor
  · intro st K h int x l
    obtain ⟨-, t, -, -, -, hY, -, -, -, -, -, kal, -, -, -, ksig⟩ := kTrain_ok h
    have hY := hY.trans oppNorm
    have : K.sigma2 l = 0 := by rw [ksig, kal, hY]; simp only [opp_sigma, zero_mul]
    rw [KrigState.rmse, this]; simp
  · intro st K h hsvd
    obtain ⟨hpos, hX, hY, hxm, hxs, -, hs1, hR, -⟩ := two_trained hc h hsvd
    have he : Real.exp (-(K.thetas 0 * 4)) < 1 := Real.exp_lt_one_iff.2 (by linarith)
    have hR0 : kCorr (fun _ => c) K.X K.thetas ≠ 0 := fun h0 => by
      have := congrFun (congrFun (hR.symm.trans h0) 0) 0
      simp [twoR] at this
      linarith
    obtain ⟨g, α, β, hg, ha, hb, e⟩ := C82_one_output_partial svd opt (fun _ => c) twoKrig st K h hsvd hR0 fun _ => 1
    have hr : ∀ i, K.r (fun _ => 1) i = Real.exp (-K.thetas 0) := fun i => by
      simp only [KrigState.r, Fin.sum_univ_one, KrigState.norm, hxm, hxs, hX, sub_self, zero_div, zero_sub]
      fin_cases i <;> simp [pm0, pm1]
    set y := Real.exp (-K.thetas 0) with hy
    have hy0 : 0 < y := Real.exp_pos _
    have hy1 : y < 1 := Real.exp_lt_one_iff.2 (by linarith)
    have hx : Real.exp (-(K.thetas 0 * 4)) = y ^ 4 := by rw [hy, ← Real.exp_nat_mul]; congr 1; push_cast; ring
    rw [hR, hx] at ha hb
    have m : ∀ v : Fin (1 + 1) → ℝ, (twoR (1 + c) (y ^ 4)).mulVec v = fun i => if i = 0 then (1 + c) * v 0 + y ^ 4 * v 1 else y ^ 4 * v 0 + (1 + c) * v 1 := by
      intro v; funext i
      simp only [mulVec, dotProduct, twoR, of_apply]
      fin_cases i <;> simp
    have mt : (twoR (1 + c) (y ^ 4))ᵀ = twoR (1 + c) (y ^ 4) := by ext i j; simp [twoR, eq_comm]
    have hq : 0 < (1 + c + y ^ 4) ^ 2 + g ^ 2 := by positivity
    have hb' : β = fun _ => (1 + c + y ^ 4) / ((1 + c + y ^ 4) ^ 2 + g ^ 2) * y := by
      refine tikhonov_unique hg.ne' hb ?_
      have : K.r (fun _ => 1) = fun _ => y := funext hr
      rw [this, IsTikhonov, mt, m, m, m]
      funext i
      fin_cases i <;> simp <;> field_simp <;> ring
    have hq2 : 0 < (1 + c - y ^ 4) ^ 2 + g ^ 2 := by positivity
    have ha' : α = fun i => (1 + c - y ^ 4) / ((1 + c - y ^ 4) ^ 2 + g ^ 2) * pm i := by
      rw [hY] at ha
      exact tikhonov_unique hg.ne' ha (two_tikhonov _ _ _ hq2.ne')
    have y4 : y ^ 4 < 1 := pow_lt_one₀ hy0.le hy1 (by decide)
    rw [e, Real.sqrt_pos]
    refine lt_max_of_lt_right ?_
    refine mul_pos ?_ (mul_pos (div_pos ?_ (by positivity)) (by rw [hs1]; norm_num))
    · have e1 : K.r (fun _ => 1) ⬝ᵥ β = 2 * y ^ 2 * (1 + c + y ^ 4) / ((1 + c + y ^ 4) ^ 2 + g ^ 2) := by
        rw [hb']; simp only [dotProduct, hr, sum_pair]; ring
      rw [e1, sub_pos, div_lt_one hq]
      have h2 : 2 * y ^ 2 ≤ 1 + c + y ^ 4 := by nlinarith [sq_nonneg (1 - y ^ 2)]
      have h3 : 0 < 1 + c + y ^ 4 := by positivity
      nlinarith [mul_le_mul_of_nonneg_right h2 h3.le, pow_pos hg 2]
    · rw [ha', hY]
      simp only [dotProduct, sum_pair, pm0, pm1]
      have : 0 < (1 + c - y ^ 4) / ((1 + c - y ^ 4) ^ 2 + g ^ 2) := div_pos (by linarith) hq2
      linarith

/-- For such outputs the function that the optimizer minimizes is not a number at any point. -/
theorem finding_opposite_outputs (svd : Matrix (Fin (1 + 1)) (Fin (1 + 1)) ℝ → Svd 1) (nugget : Fin (1 + 1) → ℝ) (X : Fin (1 + 1) → Fin 1 → ℝ) (t : Fin 1 → ℝ) :
    kObjective svd nugget X (fun (i : Fin (1 + 1)) (l : Fin 2) => (oppKrig.y i l - kMean fun i => oppKrig.y i l) / kScale fun i => oppKrig.y i l) t = none := by
  rw [oppNorm, kObjective]
  simp only [kLike, opp_sigma, Finset.sum_const_zero]
  simp [npLog]

example : ∃ K, kTrain twoSvd optZero (fun _ => 0) oppKrig (krigStart 1 1 2) = (K, .ok ()) ∧ K.rmse false (fun _ => 1) 0 = 0 :=
  ⟨_, rfl, (C82_two_outputs_refuted twoSvd optZero 0 le_rfl).1 _ _ rfl _ _ _⟩

/-! ## Number types and failed trainings -/

/-- **C83, retraining.** A training that succeeds determines the surrogate, whatever it was before. -/
theorem C83_determined_partial (svd : Matrix (Fin (N + 1)) (Fin (N + 1)) ℝ → Svd N) (opt : ((Fin d → ℝ) → Option ℝ) → Option (Fin d → ℝ)) (nugget : Fin (N + 1) → ℝ) (D : KrigData N d m) (st st' K : KrigState N d m)
    (h : kTrain svd opt nugget D st = (K, .ok ())) : kTrain svd opt nugget D st' = (K, .ok ()) := by
  rw [kTrain] at h ⊢
  split at h
  · cases h
  · rename_i hn
    rw [if_neg hn]
    revert h; dsimp only
    split
    · intro h; cases h
    · intro h; exact h

/-- A surrogate that was never trained refuses to predict. -/
theorem C83_untrained (K : KrigState N d m) (h : K.trained = false) (int : Bool) (x : Fin d → ℝ) : K.predict int x = .error .RuntimeError := by
  rw [KrigState.predict, h]; rfl

/-- **C83, integer points.** At a point given with integers that is no training point, the prediction of every output is the mean of its training values, wherever the point is. -/
theorem C83_integer_point (svd : Matrix (Fin (N + 1)) (Fin (N + 1)) ℝ → Svd N) (opt : ((Fin d → ℝ) → Option ℝ) → Option (Fin d → ℝ)) (nugget : Fin (N + 1) → ℝ) (D : KrigData N d m) (st K : KrigState N d m)
    (h : kTrain svd opt nugget D st = (K, .ok ())) (x : Fin d → ℝ) (hx : ∀ i, x ≠ D.x i) (l : Fin m) : K.mean true x l = (∑ i, D.y i l) / ((N + 1 : Nat) : ℝ) := by
  obtain ⟨-, t, -, -, hX, -, hxm, hxs, hym, -, hth, -⟩ := kTrain_ok h
  have h0 : ∀ i, K.row true x i = 0 := fun i => by
    obtain ⟨k, hk⟩ := Function.ne_iff.1 (hx i)
    have hp : 0 < ∑ k, K.thetas k * (K.norm x k - K.X i k) ^ 2 := by
      refine Finset.sum_pos' (fun k _ => ?_) ⟨k, Finset.mem_univ _, ?_⟩
      · rw [hth]; have := Real.exp_pos (t k); positivity
      · rw [hth]
        have hs := kScale_pos fun i => D.x i k
        have : K.norm x k - K.X i k ≠ 0 := by
          simp only [KrigState.norm, hX, hxm, hxs]
          rw [← sub_div]
          refine div_ne_zero ?_ hs.ne'
          intro h0; exact hk (by linarith)
        have := Real.exp_pos (t k)
        positivity
    have hlt : K.r x i < 1 := Real.exp_lt_one_iff.2 (by linarith)
    have hge : 0 ≤ K.r x i := (Real.exp_pos _).le
    have : ⌊K.r x i⌋ = 0 := Int.floor_eq_zero_iff.2 ⟨hge, hlt⟩
    simp [KrigState.row, this]
  simp [KrigState.mean, h0, hym, kMean]

/-- **C83 is false.** The prediction depends on the number type of the point: at the integer 3 it is 1, at the real number 3 it is more. -/
theorem C83_integer_refuted (svd : Matrix (Fin (1 + 1)) (Fin (1 + 1)) ℝ → Svd 1) (opt : ((Fin 1 → ℝ) → Option ℝ) → Option (Fin 1 → ℝ)) (c : ℝ) (hc : 0 ≤ c) (st K : KrigState 1 1 1)
    (h : kTrain svd opt (fun _ => c) twoKrig st = (K, .ok ())) (hsvd : IsSvd (kCorr (fun _ => c) K.X K.thetas) (svd (kCorr (fun _ => c) K.X K.thetas))) :
    K.mean true (fun _ => 3) 0 = 1 ∧ 1 < K.mean false (fun _ => 3) 0 := by
  constructor
  · rw [C83_integer_point svd opt _ twoKrig st K h _ fun i => ?_]
    · simp [twoKrig]
    · intro e
      have := congrFun e 0
      fin_cases i <;> norm_num [twoKrig] at this
  · obtain ⟨hpos, hX, hY, hxm, hxs, hym, hs1, hR, g, hg, hA⟩ := two_trained hc h hsvd
    have he : Real.exp (-(K.thetas 0 * 4)) < 1 := Real.exp_lt_one_iff.2 (by linarith)
    simp only [KrigState.mean, KrigState.row, Bool.false_eq_true, if_false, hym, hs1, sum_pair, hA, pm0, pm1]
    have r0 : K.r (fun _ => 3) 0 = Real.exp (-(K.thetas 0 * 9)) := by
      simp only [KrigState.r, Fin.sum_univ_one, KrigState.norm, hxm, hxs, hX, pm0]; norm_num
    have r1 : K.r (fun _ => 3) 1 = Real.exp (-K.thetas 0) := by
      simp only [KrigState.r, Fin.sum_univ_one, KrigState.norm, hxm, hxs, hX, pm1]; norm_num
    rw [r0, r1]
    have hlt : Real.exp (-(K.thetas 0 * 9)) < Real.exp (-K.thetas 0) := Real.exp_lt_exp.2 (by linarith)
    have hl : 0 < (1 + c - Real.exp (-(K.thetas 0 * 4))) / ((1 + c - Real.exp (-(K.thetas 0 * 4))) ^ 2 + g ^ 2) := div_pos (by linarith) (by positivity)
    nlinarith [mul_pos hl (sub_pos.2 hlt)]

/-- The same inputs with constant outputs. -/
def constKrig : KrigData 1 1 1 := ⟨fun i _ => 2 * (i : ℕ), fun _ _ => 5⟩

open Classical in
/-- An optimizer that succeeds if its function is a number at the starting point. -/
noncomputable def optFinite (f : (Fin 1 → ℝ) → Option ℝ) : Option (Fin 1 → ℝ) := if (f fun _ => 0).isSome then some fun _ => 0 else none

theorem constFails (c : ℝ) (st : KrigState 1 1 1) : (kTrain twoSvd optFinite (fun _ => c) constKrig st).2 = .error .ValueError := by
  rw [kTrain_err]
  rw [if_pos]
  right
  have hY : (fun (i : Fin (1 + 1)) (l : Fin 1) => (constKrig.y i l - kMean fun i => constKrig.y i l) / kScale fun i => constKrig.y i l) = fun _ _ => 0 := by
    funext i l
    have : (kMean fun i : Fin (1 + 1) => constKrig.y i l) = 5 := by simp [kMean, constKrig]
    rw [this]; simp [constKrig]
  rw [hY]
  have : ∀ s : Svd 1, kSigma2 (fun (_ : Fin (1 + 1)) (_ : Fin 1) => (0 : ℝ)) (kAlpha s fun _ _ => 0) = fun _ => 0 := fun s => by funext l; simp [kSigma2]
  rw [optFinite, if_neg]
  simp [kObjective, kLike, this, npLog]

/-- **C83 is false after a failed training.** Trained with two points and then, in vain, with constant outputs 5, the surrogate neither refuses to predict nor predicts as before: it predicts 4 more than before at every point,
which at the first point is not 5 either. -/
theorem C83_failed_training_refuted (c : ℝ) (hc : 0 ≤ c) (K K' : KrigState 1 1 1) (h : kTrain twoSvd optZero (fun _ => c) twoKrig (krigStart 1 1 1) = (K, .ok ()))
    (h' : kTrain twoSvd optFinite (fun _ => c) constKrig K = (K', .error .ValueError)) :
    (∀ int x, ∃ y r r', K.predict int x = .ok (y, r) ∧ K'.predict int x = .ok (fun l => y l + 4, r')) ∧ K'.mean false (fun _ => 0) 0 ≠ 5 := by
  obtain ⟨K1, h1, hsvd⟩ := two_exists c hc (krigStart 1 1 1)
  have hK : K1 = K := by rw [h] at h1; exact (Prod.mk.inj h1).1.symm
  subst hK
  have hT := (kTrain_ok h).2.choose_spec.2.1
  obtain ⟨hpos, hX, hY, hxm, hxs, hym, hs1, hR, g, hg, hA⟩ := two_trained hc h hsvd
  have hm5 : (kMean fun i : Fin (1 + 1) => constKrig.y i 0) = 5 := by simp [kMean, constKrig]
  have hs5 : (kScale fun i : Fin (1 + 1) => constKrig.y i 0) = 1 := by
    rw [kScale, if_pos]
    rw [kStd, hm5]; simp [constKrig]
  have key : K'.trained = true ∧ K'.X = K1.X ∧ K'.Xmean = K1.Xmean ∧ K'.Xstd = K1.Xstd ∧ K'.Ymean 0 = 5 ∧ K'.Ystd 0 = 1 ∧ K'.thetas = K1.thetas ∧ K'.alpha = K1.alpha := by
    obtain ⟨-, t, -, -, kX, -, kxm, kxs, -⟩ := kTrain_ok h
    rw [kTrain] at h'
    rw [if_neg (by decide)] at h'
    revert h'; dsimp only
    split
    · intro h'
      rw [← (Prod.mk.inj h').1]
      exact ⟨rfl, kX.symm, kxm.symm, kxs.symm, hm5, hs5, rfl, rfl⟩
    · intro h'; cases (Prod.mk.inj h').2
  obtain ⟨kT, kX, kxm, kxs, kym, kys, kth, kal⟩ := key
  have hrow : ∀ int x, K'.row int x = K1.row int x := fun int x => by
    funext i; simp only [KrigState.row, KrigState.r, KrigState.norm, kX, kxm, kxs, kth]
  have hmean : ∀ int x l, K'.mean int x l = K1.mean int x l + 4 := fun int x l => by
    have : l = 0 := Subsingleton.elim _ _
    subst this
    simp only [KrigState.mean, hrow, kal, kym, kys, hym, hs1]; ring
  refine ⟨fun int x => ⟨K1.mean int x, K1.rmse int x, K'.rmse int x, by rw [KrigState.predict, if_pos hT], ?_⟩, ?_⟩
  · rw [KrigState.predict, if_pos kT]
    congr 2
    funext l; exact hmean int x l
  · rw [hmean]
    have he : Real.exp (-(K1.thetas 0 * 4)) < 1 := Real.exp_lt_one_iff.2 (by linarith)
    have hl : 0 < (1 + c - Real.exp (-(K1.thetas 0 * 4))) / ((1 + c - Real.exp (-(K1.thetas 0 * 4))) ^ 2 + g ^ 2) := div_pos (by linarith) (by positivity)
    have r0 : K1.r (fun _ => 0) 0 = 1 := by
      simp only [KrigState.r, Fin.sum_univ_one, KrigState.norm, hxm, hxs, hX, pm0]; norm_num
    have r1 : K1.r (fun _ => 0) 1 = Real.exp (-(K1.thetas 0 * 4)) := by
      simp only [KrigState.r, Fin.sum_univ_one, KrigState.norm, hxm, hxs, hX, pm1]; norm_num
    simp only [KrigState.mean, KrigState.row, Bool.false_eq_true, if_false, hym, hs1, sum_pair, hA, pm0, pm1, r0, r1]
    intro h5
    nlinarith [mul_pos hl (sub_pos.2 he)]

example : ∃ K K', kTrain twoSvd optZero (fun _ => 0) twoKrig (krigStart 1 1 1) = (K, .ok ()) ∧ kTrain twoSvd optFinite (fun _ => 0) constKrig K = (K', .error .ValueError) := by
  obtain ⟨K, h, -⟩ := two_exists 0 le_rfl (krigStart 1 1 1)
  exact ⟨K, _, h, Prod.ext rfl (constFails 0 K)⟩

end OpenMDAO
