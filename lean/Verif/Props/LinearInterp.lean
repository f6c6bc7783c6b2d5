import Verif.Props.NearNbr
import Mathlib.LinearAlgebra.AffineSpace.FiniteDimensional
import Mathlib.Algebra.BigOperators.Field
/-!
# C78: hyperplanes through the nearest neighbours
-/
namespace OpenMDAO
set_option linter.unusedSectionVars false
open Filter Topology

variable {N d e : Nat}

/-- What the singular value decomposition gives: a vector other than zero that is orthogonal to all rows. -/
def IsNull {d : Nat} (null : (Fin d → Fin (d + 1) → ℝ) → Fin (d + 1) → ℝ) : Prop := ∀ M, null M ≠ 0 ∧ ∀ i, ∑ c, M i c * null M c = 0

/-- The value of the affine function with the given constant and slopes. -/
def affineAt {d : Nat} (a0 : ℝ) (a : Fin d → ℝ) (x : Fin d → ℝ) : ℝ := a0 + ∑ k, a k * x k

/-- The neighbours as a query result, to say that they are the nearest. -/
def asNbrs (q : (Fin d → ℝ) → Fin (d + 1) → Fin (N + 1)) (z : Fin d → ℝ) : Nbrs N := ⟨List.ofFn fun i : Fin d => q z i.castSucc, q z (Fin.last d)⟩

/-- A vector orthogonal to all differences of consecutive points of a simplex is zero. -/
theorem perp_zero (P : Fin (d + 1) → Fin d → ℝ) (hP : AffineIndependent ℝ P) (c : Fin d → ℝ) (h : ∀ i : Fin d, ∑ k, (P i.succ k - P i.castSucc k) * c k = 0) : c = 0 := by
  have hconst : ∀ i, ∑ k, P i k * c k = ∑ k, P 0 k * c k := by
    intro i
    induction i using Fin.induction with
    | zero => rfl
    | succ i ih =>
      rw [← ih]
      have := h i
      simp only [sub_mul, Finset.sum_sub_distrib] at this
      linarith
  let φ : (Fin d → ℝ) →ₗ[ℝ] ℝ := ∑ k, (c k) • LinearMap.proj k
  have hφ : ∀ v, φ v = ∑ k, v k * c k := by
    intro v
    simp only [φ, LinearMap.sum_apply, LinearMap.smul_apply, LinearMap.proj_apply, smul_eq_mul]
    exact Finset.sum_congr rfl fun k _ => mul_comm _ _
  have htop := hP.vectorSpan_eq_top_of_card_eq_finrank_add_one (by simp)
  have hle : vectorSpan ℝ (Set.range P) ≤ LinearMap.ker φ := by
    rw [vectorSpan_def, Submodule.span_le]
    rintro v ⟨_, ⟨i, rfl⟩, _, ⟨j, rfl⟩, rfl⟩
    simp only [SetLike.mem_coe, LinearMap.mem_ker, vsub_eq_sub, hφ, Pi.sub_apply, sub_mul, Finset.sum_sub_distrib]
    rw [hconst i, hconst j, sub_self]
  funext k
  have : (Pi.single k 1 : Fin d → ℝ) ∈ LinearMap.ker φ := hle (by rw [htop]; trivial)
  rw [LinearMap.mem_ker, hφ] at this
  simpa [Pi.single_apply] using this

/-- With neighbours in general position the normal is not vertical. -/
theorem normal_last (null : (Fin d → Fin (d + 1) → ℝ) → Fin (d + 1) → ℝ) (hnull : IsNull null) (D : NNData N d e) (loc : Fin (d + 1) → Fin (N + 1)) (hP : AffineIndependent ℝ fun i => D.X (loc i)) (j : Fin e) : null (nvect D loc j) (Fin.last d) ≠ 0 := by
  intro h0
  obtain ⟨h1, h2⟩ := hnull (nvect D loc j)
  set v := null (nvect D loc j) with hv
  have hz : (fun k : Fin d => v k.castSucc / D.tpr k) = 0 := by
    refine perp_zero (fun i => D.X (loc i)) hP _ fun i => ?_
    have := h2 i
    rw [Fin.sum_univ_castSucc, h0, mul_zero, add_zero] at this
    rw [← this]
    refine Finset.sum_congr rfl fun k _ => ?_
    simp only [nvect, Fin.lastCases_castSucc, NNData.tp, NNData.norm]
    have := D.tpr_ne k
    field_simp
    ring
  apply h1
  funext c
  refine Fin.lastCases ?_ (fun k => ?_) c
  · exact h0
  · have := congrFun hz k
    simp only [Pi.zero_apply, div_eq_zero_iff, D.tpr_ne k, or_false] at this
    exact this

/-- The plane goes through all neighbours. -/
theorem plane_const (null : (Fin d → Fin (d + 1) → ℝ) → Fin (d + 1) → ℝ) (hnull : IsNull null) (D : NNData N d e) (loc : Fin (d + 1) → Fin (N + 1)) (j : Fin e) (i : Fin (d + 1)) :
    (∑ k : Fin d, D.tp (loc i) k * null (nvect D loc j) k.castSucc) + D.tv (loc i) j * null (nvect D loc j) (Fin.last d) = planeConst D loc j (null (nvect D loc j)) := by
  induction i using Fin.induction with
  | zero => rfl
  | succ i ih =>
    rw [← ih]
    have := (hnull (nvect D loc j)).2 i
    rw [Fin.sum_univ_castSucc] at this
    simp only [nvect, Fin.lastCases_castSucc, Fin.lastCases_last, sub_mul, Finset.sum_sub_distrib] at this
    linarith

/-- Slopes of the plane in the units of the data. -/
noncomputable def slopeOf (D : NNData N d e) (j : Fin e) (v : Fin (d + 1) → ℝ) (k : Fin d) : ℝ := -(v k.castSucc) / v (Fin.last d) * (D.tvr j / D.tpr k)

/-- Constant of the plane in the units of the data. -/
noncomputable def constOf (D : NNData N d e) (j : Fin e) (v : Fin (d + 1) → ℝ) (pc : ℝ) : ℝ := ((∑ k : Fin d, D.tpm k / D.tpr k * v k.castSucc) + pc) / v (Fin.last d) * D.tvr j + D.tvm j

theorem plane_units (D : NNData N d e) (j : Fin e) (v : Fin (d + 1) → ℝ) (hv : v (Fin.last d) ≠ 0) (pc : ℝ) (x : Fin d → ℝ) :
    affineAt (constOf D j v pc) (slopeOf D j v) x = ((∑ k : Fin d, D.norm x k * v k.castSucc) - pc) / -(v (Fin.last d)) * D.tvr j + D.tvm j := by
  have h1 : ∑ k : Fin d, D.norm x k * v k.castSucc = (∑ k : Fin d, x k / D.tpr k * v k.castSucc) - ∑ k : Fin d, D.tpm k / D.tpr k * v k.castSucc := by
    rw [← Finset.sum_sub_distrib]
    refine Finset.sum_congr rfl fun k _ => ?_
    rw [NNData.norm]
    ring
  have h2 : ∑ k : Fin d, slopeOf D j v k * x k = -((∑ k : Fin d, x k / D.tpr k * v k.castSucc) / v (Fin.last d) * D.tvr j) := by
    rw [Finset.sum_div, Finset.sum_mul, ← Finset.sum_neg_distrib]
    refine Finset.sum_congr rfl fun k _ => ?_
    rw [slopeOf]
    ring
  rw [affineAt, h2, h1, constOf]
  field_simp
  ring

/-- **C78, prediction.** If the neighbours of a point are in general position, the prediction is the value at the point of an affine function that has the training values at all of them. -/
theorem C78_plane (null : (Fin d → Fin (d + 1) → ℝ) → Fin (d + 1) → ℝ) (hnull : IsNull null) (D : NNData N d e) (q : (Fin d → ℝ) → Fin (d + 1) → Fin (N + 1)) (x : Fin d → ℝ)
    (hP : AffineIndependent ℝ fun i => D.X (q (D.norm x) i)) (j : Fin e) :
    ∃ a0 a, (∀ i, affineAt a0 a (D.X (q (D.norm x) i)) = D.Y (q (D.norm x) i) j) ∧ linearPredict null D q x j = some (affineAt a0 a x) := by
  have hl := normal_last null hnull D (q (D.norm x)) hP j
  refine ⟨constOf D j (null (nvect D (q (D.norm x)) j)) (planeConst D (q (D.norm x)) j (null (nvect D (q (D.norm x)) j))), slopeOf D j (null (nvect D (q (D.norm x)) j)), fun i => ?_, ?_⟩
  · rw [plane_units D j _ hl, ← D.unscale, ← plane_const null hnull D (q (D.norm x)) j i]
    change ((∑ k : Fin d, D.tp (q (D.norm x) i) k * _) - _) / _ * _ + _ = _
    field_simp
    ring
  · rw [plane_units D j _ hl]
    simp only [linearPredict]
    rw [if_neg hl]

/-- Affine functions that agree on the points of a simplex agree everywhere. -/
theorem affine_unique (P : Fin (d + 1) → Fin d → ℝ) (hP : AffineIndependent ℝ P) (a0 b0 : ℝ) (a b : Fin d → ℝ) (h : ∀ i, affineAt a0 a (P i) = affineAt b0 b (P i)) : a = b ∧ a0 = b0 := by
  have hc : (fun k => a k - b k) = 0 := by
    refine perp_zero P hP _ fun i => ?_
    have h1 := h i.succ
    have h2 := h i.castSucc
    simp only [affineAt] at h1 h2
    have : ∑ k, (P i.succ k - P i.castSucc k) * (a k - b k) = (∑ k, a k * P i.succ k) - (∑ k, a k * P i.castSucc k) - (∑ k, b k * P i.succ k) + ∑ k, b k * P i.castSucc k := by
      rw [← Finset.sum_sub_distrib, ← Finset.sum_sub_distrib, ← Finset.sum_add_distrib]
      exact Finset.sum_congr rfl fun k _ => by ring
    rw [this]
    linarith
  have hab : a = b := funext fun k => sub_eq_zero.1 (congrFun hc k)
  refine ⟨hab, ?_⟩
  have := h 0
  rw [hab] at this
  simpa [affineAt] using this

/-- **C78, reproduction.** If the training values at the neighbours come from an affine function, the prediction is its value; so affine data are predicted exactly, and the prediction at a neighbour is its training value. -/
theorem C78_reproduces (null : (Fin d → Fin (d + 1) → ℝ) → Fin (d + 1) → ℝ) (hnull : IsNull null) (D : NNData N d e) (q : (Fin d → ℝ) → Fin (d + 1) → Fin (N + 1)) (x : Fin d → ℝ)
    (hP : AffineIndependent ℝ fun i => D.X (q (D.norm x) i)) (j : Fin e) (b0 : ℝ) (b : Fin d → ℝ) (hb : ∀ i, affineAt b0 b (D.X (q (D.norm x) i)) = D.Y (q (D.norm x) i) j) : linearPredict null D q x j = some (affineAt b0 b x) := by
  obtain ⟨a0, a, h1, h2⟩ := C78_plane null hnull D q x hP j
  obtain ⟨rfl, rfl⟩ := affine_unique _ hP a0 b0 a b fun i => (h1 i).trans (hb i).symm
  exact h2

/-- **C78, interpolation.** At a training point that is one of its neighbours, the prediction is the training value. -/
theorem C78_interpolates (null : (Fin d → Fin (d + 1) → ℝ) → Fin (d + 1) → ℝ) (hnull : IsNull null) (D : NNData N d e) (q : (Fin d → ℝ) → Fin (d + 1) → Fin (N + 1)) (l : Fin (N + 1))
    (hP : AffineIndependent ℝ fun i => D.X (q (D.tp l) i)) (hl : ∃ i, q (D.tp l) i = l) (j : Fin e) : linearPredict null D q (D.X l) j = some (D.Y l j) := by
  obtain ⟨a0, a, h1, h2⟩ := C78_plane null hnull D q (D.X l) hP j
  obtain ⟨i, hi⟩ := hl
  rw [h2]
  have := h1 i
  change affineAt a0 a (D.X (q (D.tp l) i)) = D.Y (q (D.tp l) i) j at this
  rw [hi] at this
  rw [this]

theorem affine_deriv (a0 : ℝ) (a : Fin d → ℝ) (x : Fin d → ℝ) (k : Fin d) : HasDerivAt (fun t => affineAt a0 a (Function.update x k t)) (a k) (x k) := by
  have h : (fun t => affineAt a0 a (Function.update x k t)) = fun t => a k * t + (a0 + ∑ m ∈ Finset.univ.erase k, a m * x m) := by
    funext t
    rw [affineAt, ← Finset.add_sum_erase _ _ (Finset.mem_univ k), Function.update_self]
    have : ∑ m ∈ Finset.univ.erase k, a m * Function.update x k t m = ∑ m ∈ Finset.univ.erase k, a m * x m :=
      Finset.sum_congr rfl fun m hm => by rw [Function.update_of_ne (Finset.ne_of_mem_erase hm)]
    rw [this]
    ring
  rw [h]
  have h1 : HasDerivAt (fun t : ℝ => a k * t) (a k) (x k) := ((hasDerivAt_id (x k)).const_mul (a k)).congr_deriv (by simp)
  exact h1.add_const _

/-- **C78, gradient.** But for several outputs of one input, the gradient at a point without ties and with neighbours in general position is the derivative of the prediction. -/
theorem C78_gradient_partial (null : (Fin d → Fin (d + 1) → ℝ) → Fin (d + 1) → ℝ) (hnull : IsNull null) (D : NNData N d e) (q : (Fin d → ℝ) → Fin (d + 1) → Fin (N + 1)) (hq : IsNearest D.tp (d + 1) (asNbrs q)) (x : Fin d → ℝ)
    (hx : NoTies D.tp (D.norm x)) (hP : AffineIndependent ℝ fun i => D.X (q (D.norm x) i)) (hde : ¬ (d = 1 ∧ 1 < e)) :
    ∃ G, linearGrad null D q x = .ok G ∧ ∀ j k, ∃ g, G j k = some g ∧ ∃ f : ℝ → ℝ, HasDerivAt f g (x k) ∧ ∀ᶠ t in 𝓝 (x k), linearPredict null D q (Function.update x k t) j = some (f t) := by
  have hl := normal_last null hnull D (q (D.norm x)) hP
  by_cases he : ∃ _ : Fin e, True
  · obtain ⟨j0, -⟩ := he
    refine ⟨fun j k => some (slopeOf D j (null (nvect D (q (D.norm x)) j)) k), ?_, fun j k => ⟨slopeOf D j (null (nvect D (q (D.norm x)) j)) k, rfl, ?_⟩⟩
    · simp only [linearGrad]
      rw [if_neg (fun h => hl j0 (h j0)), if_neg hde]
      congr 1
      funext j k
      rw [if_neg (hl j)]
      rfl
    · refine ⟨_, affine_deriv (constOf D j (null (nvect D (q (D.norm x)) j)) (planeConst D (q (D.norm x)) j (null (nvect D (q (D.norm x)) j)))) (slopeOf D j (null (nvect D (q (D.norm x)) j))) x k, ?_⟩
      filter_upwards [query_line D (d + 1) (asNbrs q) hq x k hx] with t ht
      have hqt : q (D.norm (Function.update x k t)) = q (D.norm x) := by
        simp only [asNbrs, Nbrs.mk.injEq] at ht
        obtain ⟨h1, h2⟩ := ht
        have h1 := List.ofFn_injective h1
        funext i
        refine Fin.lastCases h2 (fun k => ?_) i
        exact congrFun h1 k
      simp only [linearPredict]
      rw [hqt, if_neg (hl j), plane_units D j _ (hl j)]
  · simp only [linearGrad]
    have : ∀ j : Fin e, False := fun j => he ⟨j, trivial⟩
    refine ⟨fun _ _ => some 0, ?_, fun j => (this j).elim⟩
    rw [if_pos fun j => (this j).elim]

/-- **C78 fails for several outputs of one input**: the gradient is a `ValueError`, the shapes do not fit. -/
theorem C78_one_input_refuted (null : (Fin 1 → Fin 2 → ℝ) → Fin 2 → ℝ) (hnull : IsNull null) (D : NNData N 1 e) (q : (Fin 1 → ℝ) → Fin 2 → Fin (N + 1)) (x : Fin 1 → ℝ) (he : 1 < e)
    (hP : AffineIndependent ℝ fun i => D.X (q (D.norm x) i)) : linearGrad null D q x = .error .ValueError := by
  simp only [linearGrad]
  rw [if_neg fun h => normal_last null hnull D (q (D.norm x)) hP ⟨0, by omega⟩ (h ⟨0, by omega⟩), if_pos ⟨trivial, he⟩]

/-! ## A concrete case -/

/-- The normal in the plane. -/
noncomputable def planeNull (M : Fin 1 → Fin 2 → ℝ) : Fin 2 → ℝ := if M 0 = 0 then ![1, 0] else ![-(M 0 1), M 0 0]

theorem planeNull_ok : IsNull planeNull := by
  intro M
  unfold planeNull
  split
  · rename_i h
    refine ⟨fun h0 => by simpa using congrFun h0 0, fun i => ?_⟩
    rw [Subsingleton.elim i 0, h]
    simp
  · rename_i h
    refine ⟨fun h0 => h ?_, fun i => ?_⟩
    · funext c
      have h1 := congrFun h0 0
      have h2 := congrFun h0 1
      simp at h1 h2
      fin_cases c
      · exact h2
      · exact h1
    · rw [Subsingleton.elim i 0]
      simp [Fin.sum_univ_two]
      ring

open Classical in
/-- Both points, the nearer first. -/
noncomputable def pairQuery (z : Fin 1 → ℝ) : Fin 2 → Fin 2 := if |z 0| ≤ |z 0 - 1| then ![0, 1] else ![1, 0]

theorem pairQuery_indep (z : Fin 1 → ℝ) : AffineIndependent ℝ fun i => twoPts.X (pairQuery z i) := by
  have hinj : Function.Injective (pairQuery z) := by
    unfold pairQuery
    intro a b h
    split at h <;> fin_cases a <;> fin_cases b <;> simp at h ⊢
  have h2 : AffineIndependent ℝ twoPts.X := by
    have : twoPts.X = ![fun _ => 0, fun _ => 1] := by
      funext i
      fin_cases i <;> simp [twoPts]
    rw [this]
    refine affineIndependent_of_ne ℝ fun h => ?_
    simpa using congrFun h 0
  exact h2.comp_embedding ⟨pairQuery z, hinj⟩

/-- The hypotheses of C78 are met by these data, and the prediction is that of the line through the points. -/
example : IsNull planeNull ∧ IsNearest twoPts.tp 2 (asNbrs pairQuery) ∧ linearPredict planeNull twoPts pairQuery (fun _ => 1 / 4) 0 = some (2 + 3 * (1 / 4)) := by
  refine ⟨planeNull_ok, ?_, ?_⟩
  · have : asNbrs pairQuery = twoQuery := by
      funext z
      unfold asNbrs pairQuery twoQuery
      split <;> rfl
    rw [this]
    exact twoQuery_nearest
  · have := C78_reproduces planeNull planeNull_ok twoPts pairQuery (fun _ => 1 / 4) (pairQuery_indep _) 0 2 (fun _ => 3) (fun i => ?_)
    · rw [this]
      norm_num [affineAt]
    · have : ∀ l : Fin 2, affineAt 2 (fun _ => 3) (twoPts.X l) = twoPts.Y l 0 := by
        intro l
        fin_cases l <;> norm_num [affineAt, twoPts]
      exact this _

end OpenMDAO
