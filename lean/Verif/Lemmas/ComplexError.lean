import Mathlib.Analysis.Complex.Basic
import Mathlib.Analysis.Complex.RealDeriv
import Mathlib.Analysis.Calculus.Deriv.Basic
import Mathlib.Analysis.Calculus.FDeriv.Analytic
/-! # The error of a complex step -/
namespace OpenMDAO
open Topology Filter

theorem cs_error (g : ℂ → ℂ) (f : ℝ → ℝ) (hg : AnalyticAt ℂ g 0) (hf : ∀ᶠ t : ℝ in 𝓝 0, g (t : ℂ) = (f t : ℂ)) :
    ∃ D c δ : ℝ, 0 < δ ∧ HasDerivAt f D 0 ∧ ∀ h : ℝ, h ≠ 0 → |h| < δ → |(g (Complex.I * (h : ℂ))).im / h - D| ≤ c * h ^ 2 := by
  obtain ⟨p, hp⟩ := hg
  have hO := hp.isBigO_sub_partialSum_pow 3
  obtain ⟨C, hC⟩ := hO.bound
  have hsum : ∀ y : ℂ, p.partialSum 3 y = p.coeff 0 + y * p.coeff 1 + y ^ 2 * p.coeff 2 := by
    intro y
    simp [FormalMultilinearSeries.partialSum, Finset.sum_range_succ]
  simp only [hsum, zero_add] at hC
  have hder : HasDerivAt g (p.coeff 1) (((0 : ℝ) : ℝ) : ℂ) := by
    rw [Complex.ofReal_zero]
    exact hp.hasDerivAt
  have hreal := hder.real_of_complex
  have hfd : HasDerivAt f (p.coeff 1).re 0 := by
    refine hreal.congr_of_eventuallyEq ?_
    filter_upwards [hf] with t ht
    rw [ht, Complex.ofReal_re]
  have h0 : (p.coeff 0).im = 0 := by
    have h1 : g 0 = p.coeff 0 := by
      have := hp.coeff_zero (fun _ => 0)
      rw [← this]
      unfold FormalMultilinearSeries.coeff
      congr 1
      funext i
      exact i.elim0
    have h2 := hf.self_of_nhds
    rw [Complex.ofReal_zero, h1] at h2
    rw [h2, Complex.ofReal_im]
  have h1 : (p.coeff 1).im = 0 := by
    have hd : HasDerivAt (fun t : ℝ => g (t : ℂ)) (p.coeff 1) 0 := hder.comp_ofReal
    have hd2 : HasDerivAt (fun t : ℝ => ((f t : ℝ) : ℂ)) (((p.coeff 1).re : ℝ) : ℂ) 0 := hfd.ofReal_comp
    have hd3 := hd.congr_of_eventuallyEq (f₁ := fun t : ℝ => ((f t : ℝ) : ℂ)) (by filter_upwards [hf] with t ht; exact ht.symm)
    have := hd2.unique hd3
    rw [← this, Complex.ofReal_im]
  have h2 : (p.coeff 2).im = 0 := by
    have hb : ∀ᶠ t : ℝ in 𝓝[>] 0, |(p.coeff 2).im| ≤ C * t := by
      have hC' : ∀ᶠ t : ℝ in 𝓝 0, ‖g (t : ℂ) - (p.coeff 0 + (t : ℂ) * p.coeff 1 + (t : ℂ) ^ 2 * p.coeff 2)‖ ≤ C * ‖‖(t : ℂ)‖ ^ 3‖ := by
        have hcont : Tendsto (fun t : ℝ => (t : ℂ)) (𝓝 0) (𝓝 0) := by
          have := Complex.continuous_ofReal.tendsto 0
          rwa [Complex.ofReal_zero] at this
        exact hcont.eventually hC
      filter_upwards [nhdsWithin_le_nhds hC', nhdsWithin_le_nhds hf, self_mem_nhdsWithin] with t ht hft htp
      have htp : 0 < t := htp
      have him := (Complex.abs_im_le_norm _).trans ht
      have e1 : ((t : ℂ) ^ 2).im = 0 := by rw [← Complex.ofReal_pow, Complex.ofReal_im]
      have e2 : ((t : ℂ) ^ 2).re = t ^ 2 := by rw [← Complex.ofReal_pow, Complex.ofReal_re]
      rw [hft] at him
      simp only [Complex.sub_im, Complex.add_im, Complex.mul_im, Complex.ofReal_im, Complex.ofReal_re, h0, h1, e1, e2] at him
      have hn : ‖‖(t : ℂ)‖ ^ 3‖ = t ^ 3 := by
        rw [Complex.norm_real, Real.norm_of_nonneg htp.le, Real.norm_of_nonneg (pow_pos htp 3).le]
      rw [hn] at him
      have hx : |0 - (0 + (t * 0 + 0 * (p.coeff 1).re) + (t ^ 2 * (p.coeff 2).im + 0 * (p.coeff 2).re))| = t ^ 2 * |(p.coeff 2).im| := by
        rw [show 0 - (0 + (t * 0 + 0 * (p.coeff 1).re) + (t ^ 2 * (p.coeff 2).im + 0 * (p.coeff 2).re)) = -(t ^ 2 * (p.coeff 2).im) by ring, abs_neg, abs_mul, abs_of_pos (pow_pos htp 2)]
      rw [hx] at him
      have : t ^ 2 * |(p.coeff 2).im| ≤ t ^ 2 * (C * t) := by
        calc _ ≤ C * t ^ 3 := him
          _ = _ := by ring
      exact le_of_mul_le_mul_left this (pow_pos htp 2)
    have hlim : Tendsto (fun t : ℝ => C * t) (𝓝[>] 0) (𝓝 0) := by
      have : Tendsto (fun t : ℝ => C * t) (𝓝 0) (𝓝 (C * 0)) := (continuous_const.mul continuous_id).tendsto 0
      rw [mul_zero] at this
      exact this.mono_left nhdsWithin_le_nhds
    have := ge_of_tendsto hlim hb
    exact abs_nonpos_iff.mp this
  have hCi : ∀ᶠ h : ℝ in 𝓝 0, ‖g (Complex.I * (h : ℂ)) - (p.coeff 0 + (Complex.I * (h : ℂ)) * p.coeff 1 + (Complex.I * (h : ℂ)) ^ 2 * p.coeff 2)‖ ≤ C * ‖‖Complex.I * (h : ℂ)‖ ^ 3‖ := by
    have hcont : Tendsto (fun t : ℝ => Complex.I * (t : ℂ)) (𝓝 0) (𝓝 0) := by
      have hc : Continuous fun t : ℝ => Complex.I * (t : ℂ) := continuous_const.mul Complex.continuous_ofReal
      have := hc.tendsto 0
      simp only [Complex.ofReal_zero, mul_zero] at this
      exact this
    exact hcont.eventually hC
  obtain ⟨δ, hδ, hball⟩ := Metric.eventually_nhds_iff.mp hCi
  refine ⟨(p.coeff 1).re, C, δ, hδ, hfd, ?_⟩
  intro h hh hlt
  have hb := hball (y := h) (by rwa [Real.dist_eq, sub_zero])
  have him := (Complex.abs_im_le_norm _).trans hb
  have hn : ‖‖Complex.I * (h : ℂ)‖ ^ 3‖ = |h| ^ 3 := by
    rw [norm_mul, Complex.norm_I, one_mul, Complex.norm_real, Real.norm_eq_abs h, Real.norm_of_nonneg (pow_nonneg (abs_nonneg h) 3)]
  have e3 : (Complex.I * (h : ℂ)) ^ 2 = ((-h ^ 2 : ℝ) : ℂ) := by
    rw [mul_pow, Complex.I_sq]
    push_cast
    ring
  rw [hn, e3] at him
  simp only [Complex.sub_im, Complex.add_im, Complex.mul_im, Complex.mul_re, Complex.I_re, Complex.I_im, Complex.ofReal_im, Complex.ofReal_re, h0, h1, h2] at him
  have hx : (g (Complex.I * (h : ℂ))).im - (0 + ((0 * h - 1 * 0) * 0 + (0 * 0 + 1 * h) * (p.coeff 1).re) + (-h ^ 2 * 0 + 0 * (p.coeff 2).re)) = (g (Complex.I * (h : ℂ))).im - h * (p.coeff 1).re := by ring
  rw [hx] at him
  have hq : (g (Complex.I * (h : ℂ))).im / h - (p.coeff 1).re = ((g (Complex.I * (h : ℂ))).im - h * (p.coeff 1).re) / h := by field_simp
  rw [hq, abs_div, div_le_iff₀ (abs_pos.mpr hh)]
  calc _ ≤ C * |h| ^ 3 := him
    _ = C * h ^ 2 * |h| := by rw [← sq_abs h]; ring

end OpenMDAO
