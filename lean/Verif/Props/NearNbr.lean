import Verif.Lemmas.NearNbr
import Mathlib.LinearAlgebra.Matrix.NonsingularInverse
import Mathlib.Algebra.BigOperators.Fin
import Mathlib.Tactic.NormNum
/-!
# C76: radial basis functions

The basis functions and the table of their derivatives, interpolation of the training data, the gradient.
-/
namespace OpenMDAO
set_option linter.unusedSectionVars false
open Filter Topology

variable {N d e : Nat}

/-- The value of the derivative of a polynomial in the scheme of `polyval`. -/
def polyvalD (l : List ℝ) (t : ℝ) (s : ℝ × ℝ) : ℝ × ℝ := l.foldl (fun acc c => (acc.1 * t + c, acc.2 * t + acc.1)) s

theorem polyval_fold (l : List ℝ) (t : ℝ) (a : ℝ → ℝ) (a' : ℝ) (h : HasDerivAt a a' t) :
    HasDerivAt (fun s => l.foldl (fun acc c => acc * s + c) (a s)) (polyvalD l t (a t, a')).2 t := by
  induction l generalizing a a' with
  | nil => exact h
  | cons c l ih =>
    have h1 : HasDerivAt (fun s => a s * s + c) (a' * t + a t * 1) t := (h.mul (hasDerivAt_id t)).add_const c
    have := ih (fun s => a s * s + c) (a' * t + a t) (by simpa using h1)
    exact this

theorem polyval_deriv (l : List ℝ) (t : ℝ) : HasDerivAt (npPolyval l) (polyvalD l t (0, 0)).2 t := polyval_fold l t (fun _ => 0) 0 (hasDerivAt_const t 0)

/-- Derivative of a basis function of the given form. -/
theorem form_deriv (f : RbfForm) (t : ℝ) : HasDerivAt f.val (-(f.pow * (1 - t) ^ (f.pow - 1)) / f.den * npPolyval f.poly t + (1 - t) ^ f.pow / f.den * (polyvalD f.poly t (0, 0)).2) t := by
  have h0 : HasDerivAt (fun s : ℝ => 1 - s) (-1) t := by
    have := (hasDerivAt_const t (1 : ℝ)).sub (hasDerivAt_id t)
    exact this.congr_deriv (by simp)
  have h1 : HasDerivAt (fun s : ℝ => (1 - s) ^ f.pow) (f.pow * (1 - t) ^ (f.pow - 1) * (-1)) t := h0.pow f.pow
  have h2 := (h1.div_const f.den).mul (polyval_deriv f.poly t)
  refine h2.congr_deriv ?_
  ring

/-- The tables agree but for `comp == 1` with one independent dimension. -/
theorem tables_agree (comp : Int) (dims : Nat) (f g : RbfForm) (hf : rbfForm comp dims = .ok f) (hg : rbfDForm comp dims = .ok g) (hne : ¬ (comp = 1 ∧ dims ≤ 2)) (t : ℝ) :
    -(f.pow * (1 - t) ^ (f.pow - 1)) / f.den * npPolyval f.poly t + (1 - t) ^ f.pow / f.den * (polyvalD f.poly t (0, 0)).2 = g.val t := by
  unfold rbfForm at hf
  unfold rbfDForm at hg
  split_ifs at hf hg
  all_goals (try split at hf)
  all_goals (try simp only [] at hg)
  all_goals first
    | (exfalso; exact hne ⟨rfl, by assumption⟩)
    | (cases hf; done)
    | (cases hf; cases hg; simp only [RbfForm.val, npPolyval, polyvalD, List.foldl]; norm_num; try ring)

/-- **C76, basis functions.** Where the derivative table is right: for every `comp` but −3, and but 1 with one independent dimension, it is the derivative of the basis function, at every argument. -/
theorem C76_basis_partial (comp : Int) (dims : Nat) (R dR : ℝ → ℝ) (hR : rbfFun comp dims = .ok R) (hd : rbfDFun comp dims = .ok dR) (h3 : comp ≠ -3) (h1 : ¬ (comp = 1 ∧ dims ≤ 2)) (t : ℝ) : HasDerivAt R (dR t) t := by
  simp only [rbfFun, rbfDFun, h3, if_false] at hR hd
  cases hf : rbfForm comp dims with
  | error e => rw [hf] at hR; cases hR
  | ok f =>
    cases hg : rbfDForm comp dims with
    | error e => rw [hg] at hd; cases hd
    | ok g =>
      rw [hf] at hR
      rw [hg] at hd
      cases hR
      cases hd
      exact (form_deriv f t).congr_deriv (tables_agree comp dims f g hf hg h1 t)

/-- Which values of `comp` there are. -/
theorem C76_supported (comp : Int) (dims : Nat) : (∃ R dR, rbfFun comp dims = .ok R ∧ rbfDFun comp dims = .ok dR) ↔ -3 ≤ comp ∧ comp ≤ 4 := by
  constructor
  · rintro ⟨R, dR, hR, -⟩
    by_contra hc
    have h : comp ≠ -3 ∧ comp ≠ -1 ∧ comp ≠ -2 ∧ comp ≠ 0 ∧ comp ≠ 1 ∧ comp ≠ 2 ∧ comp ≠ 3 ∧ comp ≠ 4 := by omega
    have : rbfForm comp dims = .error .NameError := by
      unfold rbfForm
      rw [if_neg h.2.1, if_neg h.2.2.1]
      split_ifs <;> split <;> simp_all
    simp only [rbfFun, if_neg h.1, this] at hR
    cases hR
  · intro h
    have : comp = -3 ∨ comp = -2 ∨ comp = -1 ∨ comp = 0 ∨ comp = 1 ∨ comp = 2 ∨ comp = 3 ∨ comp = 4 := by omega
    rcases this with rfl | rfl | rfl | rfl | rfl | rfl | rfl | rfl <;> simp only [rbfFun, rbfDFun, rbfForm, rbfDForm] <;> by_cases h2 : dims ≤ 2 <;> by_cases h4 : dims ≤ 4 <;> by_cases h6 : dims ≤ 6 <;> simp [h2, h4, h6]

/-- **C76 fails with one independent dimension and `comp = 1`**: the table has the derivative with the wrong sign. -/
theorem C76_one_dim_refuted : ∃ R dR, rbfFun 1 2 = .ok R ∧ rbfDFun 1 2 = .ok dR ∧ ∀ t : ℝ, HasDerivAt R (-(dR t)) t ∧ (0 < t → t < 1 → ¬ HasDerivAt R (dR t) t) := by
  refine ⟨_, _, rfl, rfl, fun t => ?_⟩
  have h : HasDerivAt (RbfForm.val ⟨3, 12, [3, 1]⟩) (-(RbfForm.val ⟨0, 1, [1, -2, 1, 0]⟩ t)) t := by
    refine (form_deriv ⟨3, 12, [3, 1]⟩ t).congr_deriv ?_
    simp only [RbfForm.val, npPolyval, polyvalD, List.foldl]
    norm_num
    ring
  refine ⟨h, fun h0 h1 h' => ?_⟩
  have := h.unique h'
  have hz : RbfForm.val ⟨0, 1, [1, -2, 1, 0]⟩ t = t * (1 - t) ^ 2 := by
    simp only [RbfForm.val, npPolyval, List.foldl]
    norm_num
    ring
  rw [hz] at this
  have : 0 < t * (1 - t) ^ 2 := mul_pos h0 (pow_pos (by linarith) 2)
  linarith

/-- **C76 fails for `comp = -3`**, the multiquadric: the derivative of `sqrt(t² + 1)` is `t / sqrt(t² + 1)`, but the table gives 1. -/
theorem C76_multiquadric_refuted (dims : Nat) : ∃ R dR, rbfFun (-3) dims = .ok R ∧ rbfDFun (-3) dims = .ok dR ∧ ∀ t : ℝ, 0 < t → dR t = 1 ∧ HasDerivAt R (t / Real.sqrt (t ^ 2 + 1)) t ∧ ¬ HasDerivAt R (dR t) t := by
  refine ⟨_, _, rfl, rfl, fun t ht => ?_⟩
  have h1 : t / Real.sqrt (t * t * 1) * npPolyval [1] t = 1 := by
    rw [mul_one, Real.sqrt_mul_self ht.le]
    simp only [npPolyval, List.foldl]
    field_simp
    ring
  have hp : 0 < t ^ 2 + 1 := by positivity
  have h2 : HasDerivAt (fun t : ℝ => Real.sqrt (t ^ 2 + 1) * npPolyval [1] t) (t / Real.sqrt (t ^ 2 + 1)) t := by
    have a : HasDerivAt (fun t : ℝ => t ^ 2 + 1) (2 * t) t := by
      have := (hasDerivAt_pow 2 t).add (hasDerivAt_const t (1 : ℝ))
      exact this.congr_deriv (by simp)
    have b := (a.sqrt hp.ne')
    have c : (fun t : ℝ => Real.sqrt (t ^ 2 + 1) * npPolyval [1] t) = fun t : ℝ => Real.sqrt (t ^ 2 + 1) := by
      funext s
      simp [npPolyval]
    rw [c]
    refine b.congr_deriv ?_
    rw [mul_div_mul_left _ _ two_ne_zero]
  refine ⟨h1, h2, fun h' => ?_⟩
  have := h2.unique h'
  rw [h1, div_eq_one_iff_eq (Real.sqrt_pos.2 hp).ne'] at this
  have h3 := Real.sq_sqrt hp.le
  rw [← this] at h3
  linarith

/-! ## The gradient -/

/-- A function with derivative zero at zero, of a distance ratio that vanishes, has derivative zero. -/
theorem flat_comp (R g : ℝ → ℝ) (u : ℝ) (hR : HasDerivAt R 0 0) (hg0 : g u = 0) (hg : Tendsto g (𝓝 u) (𝓝 0)) (hO : g =O[𝓝 u] fun t => t - u) : HasDerivAt (fun t => R (g t)) 0 u := by
  rw [hasDerivAt_iff_isLittleO] at hR ⊢
  have := (hR.comp_tendsto hg).trans_isBigO (f := _) (k := fun t => t - u) (by simpa [Function.comp_def] using hO)
  simpa [Function.comp_def, hg0] using this

/-- Distance of a point that is moved along one coordinate. -/
theorem eudist_move (z : Fin d → ℝ) (k : Fin d) (s : ℝ) : eudist (Function.update z k s) z = |s - z k| := by
  rw [eudist, ← Finset.add_sum_erase _ _ (Finset.mem_univ k)]
  have : ∑ m ∈ Finset.univ.erase k, (Function.update z k s m - z m) ^ 2 = 0 := by
    refine Finset.sum_eq_zero fun m hm => ?_
    rw [Function.update_of_ne (Finset.ne_of_mem_erase hm)]
    simp
  rw [this, add_zero, Function.update_self, Real.sqrt_sq_eq_abs]

/-- One neighbour's part of the prediction. -/
theorem term_deriv (r : Rbf N d e) (b : Nbrs N) (x : Fin d → ℝ) (k : Fin d) (l : Fin (N + 1)) (hR : ∀ t, HasDerivAt r.R (r.dR t) t) (hfar : eudist (r.D.norm x) (r.D.tp b.far) ≠ 0)
    (h0 : eudist (r.D.norm x) (r.D.tp l) = 0 → r.dR 0 = 0) :
    HasDerivAt (fun t => r.R (r.T b (r.D.norm (Function.update x k t)) l))
      (r.dR (eudist (r.D.norm x) (r.D.tp l) / eudist (r.D.norm x) (r.D.tp b.far)) *
        ((r.D.norm x k - r.D.tp l k - (eudist (r.D.norm x) (r.D.tp l) / eudist (r.D.norm x) (r.D.tp b.far)) ^ 2 * (r.D.norm x k - r.D.tp b.far k)) /
          (eudist (r.D.norm x) (r.D.tp b.far) ^ 2 * (eudist (r.D.norm x) (r.D.tp l) / eudist (r.D.norm x) (r.D.tp b.far)))) * (1 / r.D.tpr k)) (x k) := by
  have hB := norm_dist_deriv r.D x (r.D.tp b.far) k hfar
  by_cases hA : eudist (r.D.norm x) (r.D.tp l) = 0
  · rw [hA, zero_div, h0 hA, zero_mul, zero_mul]
    have hx : r.D.norm x = r.D.tp l := (eudist_eq_zero _ _).1 hA
    have hAt : ∀ t, eudist (r.D.norm (Function.update x k t)) (r.D.tp l) = |(t - x k) / r.D.tpr k| := by
      intro t
      rw [← hx, r.D.norm_update, eudist_move]
      congr 1
      simp only [NNData.norm]
      ring
    have hRz : HasDerivAt r.R 0 0 := by simpa [h0 hA] using hR 0
    have hc : ContinuousAt (fun t => (eudist (r.D.norm (Function.update x k t)) (r.D.tp b.far))⁻¹) (x k) :=
      hB.continuousAt.inv₀ (by rw [Function.update_eq_self]; exact hfar)
    have hg : (fun t => r.T b (r.D.norm (Function.update x k t)) l) = fun t => |(t - x k) / r.D.tpr k| * (eudist (r.D.norm (Function.update x k t)) (r.D.tp b.far))⁻¹ := by
      funext t
      rw [Rbf.T, hAt, div_eq_mul_inv]
    have hO : (fun t => r.T b (r.D.norm (Function.update x k t)) l) =O[𝓝 (x k)] fun t => t - x k := by
      rw [hg]
      have h1 : (fun t => |(t - x k) / r.D.tpr k|) =O[𝓝 (x k)] fun t => t - x k := by
        refine Asymptotics.IsBigO.abs_left ?_
        simp only [div_eq_mul_inv, mul_comm _ (r.D.tpr k)⁻¹]
        exact (Asymptotics.isBigO_refl _ _).const_mul_left _
      have h2 := h1.mul (hc.isBigO_one ℝ)
      simpa using h2
    have hT : Tendsto (fun t => r.T b (r.D.norm (Function.update x k t)) l) (𝓝 (x k)) (𝓝 0) := by
      refine hO.trans_tendsto ?_
      have : Tendsto (fun t : ℝ => t - x k) (𝓝 (x k)) (𝓝 (x k - x k)) := tendsto_id.sub_const _
      simpa using this
    refine flat_comp r.R _ (x k) hRz ?_ hT hO
    rw [Rbf.T, hAt]
    simp
  · have hA' := norm_dist_deriv r.D x (r.D.tp l) k hA
    have hT := hA'.div hB (by rw [Function.update_eq_self]; exact hfar)
    have hc := HasDerivAt.comp (x k) (h₂ := r.R) (hR _) hT
    refine hc.congr_deriv ?_
    simp only [Pi.div_apply, Function.update_eq_self]
    have ht := r.D.tpr_ne k
    field_simp

/-- The farthest neighbour is not at the point itself, if there are others. -/
theorem far_ne (pts : Fin (N + 1) → Fin d → ℝ) (n : Nat) (q : (Fin d → ℝ) → Nbrs N) (hq : IsNearest pts n q) (z : Fin d → ℝ) (h : NoTies pts z) (l : Fin (N + 1)) (hl : l ∈ (q z).near) : eudist z (pts (q z).far) ≠ 0 := by
  obtain ⟨-, h2, h3, -⟩ := hq z
  intro h0
  rw [Nbrs.all, List.pairwise_append] at h3
  have hle := h3.2.2 l hl (q z).far (by simp)
  rw [Nbrs.all, List.nodup_append] at h2
  exact h2.2.2 l hl (q z).far (by simp) (h l _ (by have := eudist_nonneg z (pts l); linarith))

/-- The gradient from the distances at the point itself is the derivative of the prediction. -/
theorem gradOf_deriv (r : Rbf N d e) (n : Nat) (hq : IsNearest r.D.tp n r.q) (hR : ∀ t, HasDerivAt r.R (r.dR t) t) (x : Fin d → ℝ) (hx : NoTies r.D.tp (r.D.norm x)) (h0 : r.dR 0 = 0 ∨ ∀ l, x ≠ r.D.X l) (j : Fin e) (k : Fin d) :
    HasDerivAt (fun t => r.predict (Function.update x k t) j) (r.gradOf (fun l => eudist (r.D.norm x) (r.D.tp l)) (r.q (r.D.norm x)) x j k) (x k) := by
  classical
  have hev := query_line r.D n r.q hq x k hx
  set b := r.q (r.D.norm x) with hb
  have hsum : HasDerivAt (fun t => (∑ l, (if l ∈ b.near then r.R (r.T b (r.D.norm (Function.update x k t)) l) else 0) * r.W l j) * r.D.tvr j + r.D.tvm j)
      (r.gradOf (fun l => eudist (r.D.norm x) (r.D.tp l)) b x j k) (x k) := by
    have hl : ∀ l ∈ (Finset.univ : Finset (Fin (N + 1))), HasDerivAt (fun t => (if l ∈ b.near then r.R (r.T b (r.D.norm (Function.update x k t)) l) else 0) * r.W l j)
        ((if l ∈ b.near then r.dR (eudist (r.D.norm x) (r.D.tp l) / eudist (r.D.norm x) (r.D.tp b.far)) *
          ((r.D.norm x k - r.D.tp l k - (eudist (r.D.norm x) (r.D.tp l) / eudist (r.D.norm x) (r.D.tp b.far)) ^ 2 * (r.D.norm x k - r.D.tp b.far k)) /
          (eudist (r.D.norm x) (r.D.tp b.far) ^ 2 * (eudist (r.D.norm x) (r.D.tp l) / eudist (r.D.norm x) (r.D.tp b.far)))) * (1 / r.D.tpr k) else 0) * r.W l j) (x k) := by
      intro l _
      by_cases hm : l ∈ b.near
      · simp only [hm, if_true]
        refine HasDerivAt.mul_const (term_deriv r b x k l hR (far_ne r.D.tp n r.q hq _ hx l hm) ?_) _
        intro hz
        rcases h0 with h0 | h0
        · exact h0
        · exact absurd (r.D.norm_inj _ _ ((eudist_eq_zero _ _).1 hz)) (h0 l)
      · simp only [hm, if_false, zero_mul]
        exact hasDerivAt_const _ _
    have hs := ((HasDerivAt.fun_sum hl).mul_const (r.D.tvr j)).add_const (r.D.tvm j)
    refine hs.congr_deriv ?_
    have hnd : b.near.Nodup := by
      have := (hq (r.D.norm x)).2.1
      rw [Nbrs.all] at this
      exact (List.nodup_append.1 this).1
    simp only [Rbf.gradOf]
    rw [← List.sum_toFinset _ hnd]
    simp only [ite_mul, zero_mul]
    rw [← Finset.sum_filter, Finset.sum_mul, Finset.sum_mul]
    have : Finset.univ.filter (fun l => l ∈ b.near) = b.near.toFinset := by
      ext l
      simp
    rw [this]
    refine Finset.sum_congr rfl fun l hl => ?_
    by_cases hz : eudist (r.D.norm x) (r.D.tp l) / eudist (r.D.norm x) (r.D.tp b.far) = 0
    · have hm : l ∈ b.near := List.mem_toFinset.1 hl
      have hd0 : r.dR 0 = 0 := by
        rcases h0 with h0 | h0
        · exact h0
        · have hA := (div_eq_zero_iff.1 hz).resolve_right (far_ne r.D.tp n r.q hq _ hx l hm)
          exact absurd (r.D.norm_inj _ _ ((eudist_eq_zero _ _).1 hA)) (h0 l)
      simp only [hz, hd0, zero_mul]
    · simp only [hz, if_false]
      ring
  refine hsum.congr_of_eventuallyEq ?_
  filter_upwards [hev] with t ht
  simp only [Rbf.predict, Rbf.row]
  rw [ht]

/-- The value of the derivative table at zero. -/
theorem table_zero (comp : Int) (dims : Nat) (dR : ℝ → ℝ) (hd : rbfDFun comp dims = .ok dR) (h3 : comp ≠ -3) (h0 : comp ≠ 0) : dR 0 = 0 := by
  simp only [rbfDFun, h3, if_false] at hd
  cases hg : rbfDForm comp dims with
  | error e => rw [hg] at hd; cases hd
  | ok g =>
    rw [hg] at hd
    cases hd
    unfold rbfDForm at hg
    split_ifs at hg
    all_goals (try split at hg)
    all_goals first
      | (exact absurd rfl h0)
      | (cases hg; done)
      | (cases hg; simp [RbfForm.val, npPolyval])

theorem rbfTrain_ok (solve : (Fin (N + 1) → Fin (N + 1) → ℝ) → (Fin (N + 1) → Fin e → ℝ) → Fin (N + 1) → Fin e → ℝ) (D : NNData N d e) (q : Nat → (Fin d → ℝ) → Nbrs N) (n : Nat) (comp : Int) (r : Rbf N d e)
    (h : rbfTrain solve D q n comp = .ok r) : n ≤ N + 1 ∧ r.D = D ∧ r.q = q n ∧ rbfFun comp (d + 1) = .ok r.R ∧ rbfDFun comp (d + 1) = .ok r.dR ∧ r.W = solve (fun i => r.row (D.tp i)) D.tv := by
  unfold rbfTrain at h
  split_ifs at h with hn
  split at h
  · cases h
  · cases h
  · rename_i R dR hR hd
    cases h
    exact ⟨not_lt.1 hn, rfl, rfl, hR, hd, rfl⟩

/-- **C76, gradient.** The gradient of a trained interpolator is the derivative of its prediction in every input, at every point without ties among the distances to the training points: for every `comp` but −3, and but 1 with one
independent dimension; with `comp = 0` at points other than the training points. The cache must be empty, or of this point, or of a point that is not close. -/
theorem C76_gradient_partial (solve : (Fin (N + 1) → Fin (N + 1) → ℝ) → (Fin (N + 1) → Fin e → ℝ) → Fin (N + 1) → Fin e → ℝ) (D : NNData N d e) (q : Nat → (Fin d → ℝ) → Nbrs N) (n : Nat) (comp : Int) (r : Rbf N d e)
    (h : rbfTrain solve D q n comp = .ok r) (hq : IsNearest D.tp n (q n)) (h3 : comp ≠ -3) (h1 : ¬ (comp = 1 ∧ d + 1 ≤ 2)) (close : (Fin d → ℝ) → (Fin d → ℝ) → Bool) (x : Fin d → ℝ)
    (c : Option (NNCache N d)) (hc : ∀ s, c = some s → s = cacheOf D (q n) x ∨ close s.pt (D.norm x) = false) (hx : NoTies D.tp (D.norm x)) (h0 : comp = 0 → ∀ l, x ≠ D.X l) (j : Fin e) (k : Fin d) :
    HasDerivAt (fun t => r.predict (Function.update x k t) j) (r.gradient close c x j k) (x k) := by
  obtain ⟨-, hD, hqr, hR, hd, -⟩ := rbfTrain_ok solve D q n comp r h
  have hs : cachedQuery r.D r.q close c x = cacheOf r.D r.q x := by
    cases c with
    | none => rfl
    | some s =>
      rw [hD, hqr]
      rcases hc s rfl with hs | hs
      · subst hs
        simp only [cachedQuery]
        split <;> rfl
      · simp only [cachedQuery, hs]
        rfl
  rw [Rbf.gradient, hs]
  refine gradOf_deriv r n (by rw [hD, hqr]; exact hq) (C76_basis_partial comp (d + 1) r.R r.dR hR hd h3 h1) x (by rw [hD]; exact hx) ?_ j k
  by_cases hz : comp = 0
  · right
    rw [hD]
    exact h0 hz
  · left
    exact table_zero comp (d + 1) r.dR hd h3 hz

/-- **C76, interpolation.** If the equations for the weights are solved, the prediction at a training point is its training value. -/
theorem C76_interpolates (solve : (Fin (N + 1) → Fin (N + 1) → ℝ) → (Fin (N + 1) → Fin e → ℝ) → Fin (N + 1) → Fin e → ℝ) (hsolve : ∀ A B, (Matrix.of A).det ≠ 0 → ∀ i j, ∑ l, A i l * solve A B l j = B i j)
    (D : NNData N d e) (q : Nat → (Fin d → ℝ) → Nbrs N) (n : Nat) (comp : Int) (r : Rbf N d e) (h : rbfTrain solve D q n comp = .ok r) (hdet : (Matrix.of fun i => r.row (D.tp i)).det ≠ 0) (i : Fin (N + 1)) (j : Fin e) :
    r.predict (D.X i) j = D.Y i j := by
  obtain ⟨-, hD, -, -, -, hW⟩ := rbfTrain_ok solve D q n comp r h
  rw [Rbf.predict, hW, hD]
  have := hsolve (fun i => r.row (D.tp i)) D.tv hdet i j
  change (∑ l, r.row (D.tp i) l * solve (fun i => r.row (D.tp i)) D.tv l j) * D.tvr j + D.tvm j = D.Y i j
  rw [this, D.unscale]

theorem form_error (comp : Int) (dims : Nat) (e : PyErr) (h : rbfForm comp dims = .error e) : e = .NameError := by
  unfold rbfForm at h
  split_ifs at h
  all_goals (split at h <;> cases h <;> rfl)

theorem dform_error (comp : Int) (dims : Nat) (e : PyErr) (h : rbfDForm comp dims = .error e) : e = .NameError := by
  unfold rbfDForm at h
  split_ifs at h
  all_goals (split at h <;> cases h <;> rfl)

/-- Too few training points, and a `comp` there is none of. -/
theorem C76_errors (solve : (Fin (N + 1) → Fin (N + 1) → ℝ) → (Fin (N + 1) → Fin e → ℝ) → Fin (N + 1) → Fin e → ℝ) (D : NNData N d e) (q : Nat → (Fin d → ℝ) → Nbrs N) (n : Nat) (comp : Int) :
    (rbfTrain solve D q n comp = .error .ValueError ↔ N + 1 < n) ∧ ((∃ r, rbfTrain solve D q n comp = .ok r) ↔ n ≤ N + 1 ∧ -3 ≤ comp ∧ comp ≤ 4) := by
  have hs := C76_supported comp (d + 1)
  unfold rbfTrain
  by_cases hn : N + 1 < n
  · simp only [hn, if_true, true_iff, reduceCtorEq, exists_false, false_iff, not_and]
    exact ⟨trivial, fun h => absurd hn (not_lt.2 h)⟩
  · simp only [hn, if_false, iff_false, not_lt.1 hn, true_and]
    rw [← hs]
    cases hR : rbfFun comp (d + 1) with
    | error e =>
      refine ⟨?_, by simp⟩
      have : e = .NameError := by
        unfold rbfFun at hR
        split_ifs at hR
        cases hf : rbfForm comp (d + 1) with
        | ok f => rw [hf] at hR; cases hR
        | error e' => rw [hf] at hR; cases hR; exact form_error comp (d + 1) e hf
      subst this
      simp
    | ok R =>
      cases hd : rbfDFun comp (d + 1) with
      | error e =>
        refine ⟨?_, by simp⟩
        have : e = .NameError := by
          unfold rbfDFun at hd
          split_ifs at hd
          cases hf : rbfDForm comp (d + 1) with
          | ok f => rw [hf] at hd; cases hd
          | error e' => rw [hf] at hd; cases hd; exact dform_error comp (d + 1) e hf
        subst this
        simp
      | ok dR => simp

/-! ## A concrete case -/

/-- Two training points 0 and 1 with values 2 and 5. -/
noncomputable def twoPts : NNData 1 1 1 := { X := fun i _ => i.val, Y := fun i _ => if i = 0 then 2 else 5 }

theorem two_min (v : Fin 2 → ℝ) : colMin v = min (v 0) (v 1) := by
  unfold colMin
  refine le_antisymm (le_min (Finset.inf'_le _ (Finset.mem_univ 0)) (Finset.inf'_le _ (Finset.mem_univ 1))) ?_
  rw [Finset.le_inf'_iff]
  intro i _
  fin_cases i
  · exact min_le_left _ _
  · exact min_le_right _ _

theorem two_max (v : Fin 2 → ℝ) : colMax v = max (v 0) (v 1) := by
  unfold colMax
  refine le_antisymm ?_ (max_le (Finset.le_sup' _ (Finset.mem_univ 0)) (Finset.le_sup' _ (Finset.mem_univ 1)))
  rw [Finset.sup'_le_iff]
  intro i _
  fin_cases i
  · exact le_max_left _ _
  · exact le_max_right _ _

theorem twoPts_norm (x : Fin 1 → ℝ) : twoPts.norm x = x := by
  funext k
  simp [NNData.norm, NNData.tpm, NNData.tpr, colRange, two_min, two_max, twoPts]

theorem twoPts_dist (z : Fin 1 → ℝ) (i : Fin 2) : eudist z (twoPts.tp i) = |z 0 - i.val| := by
  rw [NNData.tp, twoPts_norm, eudist]
  simp [twoPts, Real.sqrt_sq_eq_abs]

open Classical in
/-- Both points, the nearer first. -/
noncomputable def twoQuery (z : Fin 1 → ℝ) : Nbrs 1 := if |z 0| ≤ |z 0 - 1| then ⟨[0], 1⟩ else ⟨[1], 0⟩

theorem twoQuery_nearest : IsNearest twoPts.tp 2 twoQuery := by
  intro z
  have hall : ∀ a : Fin 2, a ∈ (twoQuery z).all := by
    intro a
    unfold twoQuery
    split <;> fin_cases a <;> simp [Nbrs.all]
  refine ⟨?_, ?_, ?_, fun a _ b hb => absurd (hall b) hb⟩
  · unfold twoQuery
    split <;> rfl
  · unfold twoQuery
    split <;> simp [Nbrs.all]
  · unfold twoQuery
    split
    · rename_i h
      simpa [Nbrs.all, twoPts_dist] using h
    · rename_i h
      simpa [Nbrs.all, twoPts_dist] using (not_le.1 h).le

theorem twoPts_noTies : NoTies twoPts.tp (twoPts.norm fun _ => 1 / 4) := by
  intro a b h
  rw [twoPts_norm, twoPts_dist, twoPts_dist] at h
  have h0 : |(1 / 4 : ℝ) - 0| = 1 / 4 := by norm_num
  have h1 : |(1 / 4 : ℝ) - 1| = 3 / 4 := by rw [abs_of_neg] <;> norm_num
  fin_cases a <;> fin_cases b
  · rfl
  · norm_num [h0, h1] at h
  · norm_num [h0, h1] at h
  · rfl

/-- Solving with the inverse matrix. -/
noncomputable def invSolve (A : Fin 2 → Fin 2 → ℝ) (B : Fin 2 → Fin 1 → ℝ) : Fin 2 → Fin 1 → ℝ := fun i j => ((Matrix.of A)⁻¹ * Matrix.of B) i j

/-- The hypotheses of C76 are met by these data with the default basis function. -/
example : ∃ r, rbfTrain invSolve twoPts (fun _ => twoQuery) 2 2 = .ok r ∧ IsNearest twoPts.tp 2 twoQuery ∧ NoTies twoPts.tp (twoPts.norm fun _ => 1 / 4) ∧ (Matrix.of fun i => r.row (twoPts.tp i)).det ≠ 0 ∧
    ∀ A B, (Matrix.of A).det ≠ 0 → ∀ i j, ∑ l, A i l * invSolve A B l j = B i j := by
  have hr : ∃ r, rbfTrain invSolve twoPts (fun _ => twoQuery) 2 2 = .ok r := (C76_errors invSolve twoPts (fun _ => twoQuery) 2 2).2.2 (by norm_num)
  obtain ⟨r, hr⟩ := hr
  refine ⟨r, hr, twoQuery_nearest, twoPts_noTies, ?_, ?_⟩
  · obtain ⟨-, hD, hq, hR, -, -⟩ := rbfTrain_ok _ _ _ _ _ _ hr
    have h0 : r.R 0 ≠ 0 := by
      have : rbfFun 2 (1 + 1) = .ok (RbfForm.val ⟨5, 840, [24, 15, 3]⟩) := rfl
      rw [this] at hR
      rw [← Except.ok.inj hR]
      norm_num [RbfForm.val, npPolyval]
    have t : ∀ i : Fin 2, twoPts.tp i 0 = i.val := by
      intro i
      rw [NNData.tp, twoPts_norm]
      rfl
    have q0 : twoQuery (twoPts.tp 0) = ⟨[0], 1⟩ := by simp [twoQuery, t]
    have q1 : twoQuery (twoPts.tp 1) = ⟨[1], 0⟩ := by simp [twoQuery, t]
    have e0 : ∀ i : Fin 2, eudist (twoPts.tp i) (twoPts.tp i) = 0 := fun i => (eudist_eq_zero _ _).2 rfl
    simp [Matrix.det_fin_two, Rbf.row, hq, hD, q0, q1, Rbf.T, e0, h0]
  · intro A B hA i j
    have : (Matrix.of A * ((Matrix.of A)⁻¹ * Matrix.of B)) = Matrix.of B := by
      rw [← Matrix.mul_assoc, Matrix.mul_nonsing_inv _ (Ne.isUnit hA), Matrix.one_mul]
    have := congrFun (congrFun this i) j
    rw [Matrix.mul_apply] at this
    exact this

end OpenMDAO
