import Verif.Spec.Brent
import Mathlib.Tactic.Linarith
import Mathlib.Tactic.Ring
import Mathlib.Tactic.FieldSimp
/-! # The invariants of the loop of the Brent solver -/
namespace OpenMDAO
set_option linter.unusedSectionVars false

section
variable {K σ : Type} [Field K] [LinearOrder K] [IsStrictOrderedRing K]



/-- What holds at the beginning of every turn of the loop. -/
structure LoopInv (f : K → K) (v : BrentVars K) : Prop where
  pre : v.fpre = f v.xpre
  cur : v.fcur = f v.xcur
  ne : v.fpre ≠ 0
  br : v.fpre * v.fcur < 0 ∨ (v.fblk = f v.xblk ∧ v.fpre * v.fblk < 0 ∧ (v.xpre - v.xcur) * (v.xblk - v.xcur) ≤ 0)

/-- What holds after the first two statements, if the current residual was not zero. -/
structure BodyInv (f : K → K) (w : BrentVars K) : Prop where
  pre : w.fpre = f w.xpre
  cur : w.fcur = f w.xcur
  blk : w.fblk = f w.xblk
  opp : w.fcur * w.fblk < 0
  side : w.xpre = w.xblk ∨ (0 < w.fpre * w.fcur ∧ (w.xpre - w.xcur) * (w.xblk - w.xcur) ≤ 0)

theorem same_sign {a b c : K} (h1 : a * c < 0) (h2 : ¬ a * b < 0) (hb : b ≠ 0) : b * c < 0 ∧ 0 < a * b := by
  have ha : a ≠ 0 := by rintro rfl; simp at h1
  have hab : 0 < a * b := lt_of_le_of_ne (not_lt.mp h2) (Ne.symm (mul_ne_zero ha hb))
  refine ⟨?_, hab⟩
  rcases lt_or_gt_of_ne ha with h | h
  · have hb' : b < 0 := by
      by_contra hc
      exact absurd (mul_nonpos_of_nonpos_of_nonneg h.le (not_lt.mp hc)) (not_le.mpr hab)
    have hc' : 0 < c := by
      by_contra hc
      exact absurd (mul_nonneg_of_nonpos_of_nonpos h.le (not_lt.mp hc)) (not_le.mpr h1)
    exact mul_neg_of_neg_of_pos hb' hc'
  · have hb' : 0 < b := by
      by_contra hc
      exact absurd (mul_nonpos_of_nonneg_of_nonpos h.le (not_lt.mp hc)) (not_le.mpr hab)
    have hc' : c < 0 := by
      by_contra hc
      exact absurd (mul_nonneg h.le (not_lt.mp hc)) (not_le.mpr h1)
    exact mul_neg_of_pos_of_neg hb' hc'

theorem bracket_inv (f : K → K) (v : BrentVars K) (h : LoopInv f v) (hc : v.fcur ≠ 0) : BodyInv f v.bracket ∧ v.bracket.xcur = v.xcur := by
  unfold BrentVars.bracket
  by_cases hs : v.fpre * v.fcur < 0
  · rw [if_pos hs]
    exact ⟨⟨h.pre, h.cur, h.pre, by rw [mul_comm]; exact hs, Or.inl rfl⟩, rfl⟩
  · rw [if_neg hs]
    rcases h.br with hb | ⟨hb1, hb2, hb3⟩
    · exact absurd hb hs
    · have := same_sign hb2 hs hc
      exact ⟨⟨h.pre, h.cur, hb1, this.1, Or.inr ⟨this.2, hb3⟩⟩, rfl⟩

theorem best_inv (f : K → K) (v : BrentVars K) (h : BodyInv f v) : BodyInv f v.best ∧ ((v.best.xcur = v.xcur ∧ v.best.xblk = v.xblk) ∨ (v.best.xcur = v.xblk ∧ v.best.xblk = v.xcur)) := by
  unfold BrentVars.best
  by_cases hs : |v.fblk| < |v.fcur|
  · rw [if_pos hs]
    exact ⟨⟨h.cur, h.blk, h.cur, by rw [mul_comm]; exact h.opp, Or.inl rfl⟩, Or.inr ⟨rfl, rfl⟩⟩
  · rw [if_neg hs]
    exact ⟨h, Or.inl ⟨rfl, rfl⟩⟩

/-- With a current residual of zero nothing is exchanged. -/
theorem zero_stays (v : BrentVars K) (hc : v.fcur = 0) : v.bracket.best = v := by
  have h1 : v.bracket = v := by
    unfold BrentVars.bracket
    rw [if_neg (by rw [hc]; simp)]
  rw [h1]
  unfold BrentVars.best
  rw [if_neg (by rw [hc, abs_zero]; exact not_lt.mpr (abs_nonneg _))]

/-- The trial step of scipy points into the bracket. -/
theorem trial_inside (f : K → K) (w : BrentVars K) (h : BodyInv f w) (hlt : |w.fcur| < |w.fpre|) : 0 ≤ brentTrial w * (w.xblk - w.xcur) := by
  have hopp := h.opp
  have hX : w.xblk - w.xcur ≠ 0 := by
    intro he
    have : w.xblk = w.xcur := sub_eq_zero.mp he
    rw [h.cur, h.blk, this] at hopp
    exact absurd (mul_self_nonneg (f w.xcur)) (not_le.mpr hopp)
  have hc : w.fcur ≠ 0 := by intro he; rw [he] at hopp; simp at hopp
  unfold brentTrial
  by_cases hs : w.xpre = w.xblk
  · rw [if_pos hs]
    have hf : w.fpre = w.fblk := by rw [h.pre, h.blk, hs]
    have hd : w.fcur - w.fblk ≠ 0 := by
      intro he
      rw [sub_eq_zero.mp he] at hopp
      exact absurd (mul_self_nonneg w.fblk) (not_le.mpr hopp)
    rw [hf, hs]
    have : -w.fcur * (w.xcur - w.xblk) / (w.fcur - w.fblk) * (w.xblk - w.xcur) = (w.xblk - w.xcur) ^ 2 * ((w.fcur * w.fcur - w.fcur * w.fblk) / (w.fcur - w.fblk) ^ 2) := by
      field_simp
      ring
    rw [this]
    apply mul_nonneg (sq_nonneg _)
    apply div_nonneg _ (sq_nonneg _)
    linarith [mul_self_nonneg w.fcur]
  · rw [if_neg hs]
    rcases h.side with h1 | ⟨h1, h2⟩
    · exact absurd h1 hs
    · simp only
      have key : ∀ c p b : K, 0 < c → c < p → b < 0 → ∀ P X : K, P ≠ 0 → X ≠ 0 → P * X ≤ 0 → 0 ≤ -c * (b * ((b - c) / X) - p * ((p - c) / P)) / ((b - c) / X * ((p - c) / P) * (b - p)) * X := by
        intro c p b hc hcp hb P X hP hX hPX
        have e1 : p - c ≠ 0 := by linarith
        have e2 : b - c ≠ 0 := by linarith
        have e3 : b - p ≠ 0 := by linarith
        have : -c * (b * ((b - c) / X) - p * ((p - c) / P)) / ((b - c) / X * ((p - c) / P) * (b - p)) * X = (c * b * (P * X)) / ((p - c) * (p - b)) + (c * p * X ^ 2) / ((c - b) * (p - b)) := by
          have e4 : p - b ≠ 0 := by linarith
          have e5 : c - b ≠ 0 := by linarith
          have q1 : b - p = -(p - b) := by ring
          have q2 : b - c = -(c - b) := by ring
          rw [q1, q2]
          field_simp
          ring
        rw [this]
        apply add_nonneg
        · apply div_nonneg _ (mul_nonneg (by linarith) (by linarith))
          exact mul_nonneg_of_nonpos_of_nonpos (mul_nonpos_of_nonneg_of_nonpos hc.le hb.le) hPX
        · apply div_nonneg _ (mul_nonneg (by linarith) (by linarith))
          exact mul_nonneg (mul_nonneg hc.le (by linarith)) (sq_nonneg X)
      have hP : w.xpre - w.xcur ≠ 0 := by
        intro he
        rw [h.pre, h.cur, sub_eq_zero.mp he] at hlt
        exact lt_irrefl _ hlt
      rcases lt_or_gt_of_ne hc with hn | hpos
      · have hp : w.fpre < 0 := by
          by_contra hcc
          exact absurd (mul_nonpos_of_nonneg_of_nonpos (not_lt.mp hcc) hn.le) (not_le.mpr h1)
        have hb : 0 < w.fblk := by
          by_contra hcc
          exact absurd (mul_nonneg_of_nonpos_of_nonpos hn.le (not_lt.mp hcc)) (not_le.mpr h.opp)
        rw [abs_of_neg hn, abs_of_neg hp] at hlt
        have := key (-w.fcur) (-w.fpre) (-w.fblk) (by linarith) hlt (by linarith) _ _ hP hX h2
        have e : - -w.fcur * (-w.fblk * ((-w.fblk - -w.fcur) / (w.xblk - w.xcur)) - -w.fpre * ((-w.fpre - -w.fcur) / (w.xpre - w.xcur))) /
            ((-w.fblk - -w.fcur) / (w.xblk - w.xcur) * ((-w.fpre - -w.fcur) / (w.xpre - w.xcur)) * (-w.fblk - -w.fpre)) =
            -w.fcur * (w.fblk * ((w.fblk - w.fcur) / (w.xblk - w.xcur)) - w.fpre * ((w.fpre - w.fcur) / (w.xpre - w.xcur))) /
            ((w.fblk - w.fcur) / (w.xblk - w.xcur) * ((w.fpre - w.fcur) / (w.xpre - w.xcur)) * (w.fblk - w.fpre)) := by
          have q1 : -w.fblk - -w.fcur = -(w.fblk - w.fcur) := by ring
          have q2 : -w.fpre - -w.fcur = -(w.fpre - w.fcur) := by ring
          have q3 : -w.fblk - -w.fpre = -(w.fblk - w.fpre) := by ring
          rw [q1, q2, q3, neg_div, neg_div]
          rw [← neg_div_neg_eq]
          congr 1 <;> ring
        rw [e] at this
        exact this
      · have hp : 0 < w.fpre := by
          by_contra hcc
          exact absurd (mul_nonpos_of_nonpos_of_nonneg (not_lt.mp hcc) hpos.le) (not_le.mpr h1)
        have hb : w.fblk < 0 := by
          by_contra hcc
          exact absurd (mul_nonneg hpos.le (not_lt.mp hcc)) (not_le.mpr h.opp)
        rw [abs_of_pos hpos, abs_of_pos hp] at hlt
        exact key w.fcur w.fpre w.fblk hpos hlt hb _ _ hP hX h2

theorem between_of (a X d : K) (h1 : 0 ≤ d * X) (h2 : |d| ≤ |X|) : (a - (a + d)) * (a + X - (a + d)) ≤ 0 := by
  have h3 : d * d ≤ d * X := by
    rw [← abs_mul_abs_self d, ← abs_of_nonneg h1, abs_mul]
    exact mul_le_mul_of_nonneg_left h2 (abs_nonneg d)
  have : (a - (a + d)) * (a + X - (a + d)) = d * d - d * X := by ring
  rw [this]
  linarith

theorem next_between (f : K → K) (w : BrentVars K) (h : BodyInv f w) (tol : K) (ht0 : 0 ≤ tol) (htol : ¬ |(w.xblk - w.xcur) / 2| < tol) :
    (w.xcur - (w.choose tol).next tol) * (w.xblk - (w.choose tol).next tol) ≤ 0 := by
  have hX : |(w.xblk - w.xcur) / 2| = |w.xblk - w.xcur| / 2 := by rw [abs_div, abs_of_pos (by norm_num : (0 : K) < 2)]
  rw [hX, not_lt] at htol
  have hXn := abs_nonneg (w.xblk - w.xcur)
  have gen : ∀ d, 0 ≤ d * (w.xblk - w.xcur) → |d| ≤ |w.xblk - w.xcur| → (w.xcur - (w.xcur + d)) * (w.xblk - (w.xcur + d)) ≤ 0 := by
    intro d h1 h2
    have := between_of w.xcur (w.xblk - w.xcur) d h1 h2
    rwa [show w.xcur + (w.xblk - w.xcur) = w.xblk by ring] at this
  have hx : (w.choose tol).xcur = w.xcur ∧ (w.choose tol).xblk = w.xblk := by
    unfold BrentVars.choose
    simp only
    split <;> exact ⟨rfl, rfl⟩
  have hs : 0 ≤ (w.choose tol).scur * (w.xblk - w.xcur) ∧ |(w.choose tol).scur| ≤ |w.xblk - w.xcur| := by
    unfold BrentVars.choose
    simp only
    split
    · rename_i hc
      obtain ⟨h1, h2, h3⟩ := hc
      refine ⟨trial_inside f w h h2, ?_⟩
      have h4 := lt_of_lt_of_le h3 (min_le_right _ _)
      rw [hX] at h4
      show |brentTrial w| ≤ _
      linarith
    · refine ⟨?_, ?_⟩
      · show 0 ≤ (w.xblk - w.xcur) / 2 * (w.xblk - w.xcur)
        have : (w.xblk - w.xcur) / 2 * (w.xblk - w.xcur) = (w.xblk - w.xcur) ^ 2 / 2 := by ring
        rw [this]
        exact div_nonneg (sq_nonneg _) (by norm_num)
      · show |(w.xblk - w.xcur) / 2| ≤ _
        rw [hX]
        linarith
  unfold BrentVars.next
  rw [hx.1, hx.2]
  split
  · exact gen _ hs.1 hs.2
  · rename_i hle
    split
    · rename_i hp
      have : 0 < w.xblk - w.xcur := by linarith
      exact gen tol (mul_nonneg ht0 this.le) (by rw [abs_of_nonneg ht0]; linarith)
    · rename_i hp
      have : w.xblk - w.xcur ≤ 0 := by linarith [not_lt.mp hp]
      exact gen (-tol) (mul_nonneg_of_nonpos_of_nonpos (by linarith) this) (by rw [abs_neg, abs_of_nonneg ht0]; linarith)

/-- Every step goes into the bracket, by at least the tolerance, and stays away from the far end by half of it. -/
theorem next_away (f : K → K) (w : BrentVars K) (h : BodyInv f w) (tol : K) (ht0 : 0 ≤ tol) (htol : ¬ |(w.xblk - w.xcur) / 2| < tol) :
    |w.xcur - (w.choose tol).next tol| ≤ |w.xblk - w.xcur| - tol / 2 ∧ |w.xblk - (w.choose tol).next tol| ≤ |w.xblk - w.xcur| - tol / 2 := by
  have hX : |(w.xblk - w.xcur) / 2| = |w.xblk - w.xcur| / 2 := by rw [abs_div, abs_of_pos (by norm_num : (0 : K) < 2)]
  rw [hX, not_lt] at htol
  have gen : ∀ d, 0 ≤ d * (w.xblk - w.xcur) → tol ≤ |d| → |d| ≤ |w.xblk - w.xcur| - tol / 2 →
      |w.xcur - (w.xcur + d)| ≤ |w.xblk - w.xcur| - tol / 2 ∧ |w.xblk - (w.xcur + d)| ≤ |w.xblk - w.xcur| - tol / 2 := by
    intro d h1 h2 h3
    refine ⟨by rw [show w.xcur - (w.xcur + d) = -d by ring, abs_neg]; exact h3, ?_⟩
    rw [show w.xblk - (w.xcur + d) = (w.xblk - w.xcur) - d by ring]
    generalize w.xblk - w.xcur = X at *
    rcases abs_cases d with ⟨hd, hd0⟩ | ⟨hd, hd0⟩ <;> rcases abs_cases X with ⟨hX1, hX0⟩ | ⟨hX1, hX0⟩
    · rw [hd] at h2 h3
      rw [hX1] at h3 ⊢
      rw [abs_of_nonneg (by linarith)]; linarith
    · rcases eq_or_lt_of_le hd0 with h0 | h0
      · subst h0
        rw [sub_zero, hX1]
        rw [hd] at h2
        linarith
      · exact absurd (mul_neg_of_pos_of_neg h0 hX0) (not_lt.mpr h1)
    · rcases eq_or_lt_of_le hX0 with h0 | h0
      · subst h0
        rw [hX1] at h3
        rw [hd] at h3
        linarith
      · exact absurd (mul_neg_of_neg_of_pos hd0 h0) (not_lt.mpr h1)
    · rw [hd] at h2 h3
      rw [hX1] at h3 ⊢
      rw [abs_of_nonpos (by linarith)]; linarith
  have hx : (w.choose tol).xcur = w.xcur ∧ (w.choose tol).xblk = w.xblk := by
    unfold BrentVars.choose
    simp only
    split <;> exact ⟨rfl, rfl⟩
  have hs : 0 ≤ (w.choose tol).scur * (w.xblk - w.xcur) ∧ |(w.choose tol).scur| ≤ |w.xblk - w.xcur| - tol / 2 := by
    unfold BrentVars.choose
    simp only
    split
    · rename_i hc
      obtain ⟨h1, h2, h3⟩ := hc
      refine ⟨trial_inside f w h h2, ?_⟩
      have h4 := lt_of_lt_of_le h3 (min_le_right _ _)
      rw [hX] at h4
      show |brentTrial w| ≤ _
      have := abs_nonneg (w.xblk - w.xcur)
      linarith
    · refine ⟨?_, ?_⟩
      · show 0 ≤ (w.xblk - w.xcur) / 2 * (w.xblk - w.xcur)
        have : (w.xblk - w.xcur) / 2 * (w.xblk - w.xcur) = (w.xblk - w.xcur) ^ 2 / 2 := by ring
        rw [this]
        exact div_nonneg (sq_nonneg _) (by norm_num)
      · show |(w.xblk - w.xcur) / 2| ≤ _
        rw [hX]
        linarith
  unfold BrentVars.next
  rw [hx.1, hx.2]
  split
  · rename_i hlt
    exact gen _ hs.1 hlt.le hs.2
  · split
    · rename_i hp
      have : 0 < w.xblk - w.xcur := by linarith
      exact gen tol (mul_nonneg ht0 this.le) (by rw [abs_of_nonneg ht0]) (by rw [abs_of_nonneg ht0]; linarith)
    · rename_i hp
      have : w.xblk - w.xcur ≤ 0 := by linarith [not_lt.mp hp]
      exact gen (-tol) (mul_nonneg_of_nonpos_of_nonpos (by linarith) this) (by rw [abs_neg, abs_of_nonneg ht0]) (by rw [abs_neg, abs_of_nonneg ht0]; linarith)

/-- The state of the loop after one evaluation. -/
theorem step_inv (f : K → K) (v : BrentVars K) (h : LoopInv f v) (xtol rtol : K) (hx : 0 ≤ xtol) (hr : 0 ≤ rtol)
    (hgo : ¬ (v.bracket.best.fcur = 0 ∨ |(v.bracket.best.xblk - v.bracket.best.xcur) / 2| < xtol + rtol * |v.bracket.best.xcur|)) :
    BodyInv f v.bracket.best ∧ ∀ x, x = (v.bracket.best.choose (xtol + rtol * |v.bracket.best.xcur|)).next (xtol + rtol * |v.bracket.best.xcur|) →
      LoopInv f { (v.bracket.best.choose (xtol + rtol * |v.bracket.best.xcur|)) with xpre := v.bracket.best.xcur, fpre := v.bracket.best.fcur, xcur := x, fcur := f x } ∧
      (v.bracket.best.xcur - x) * (v.bracket.best.xblk - x) ≤ 0 ∧ (v.bracket.best.choose (xtol + rtol * |v.bracket.best.xcur|)).xblk = v.bracket.best.xblk := by
  rw [not_or] at hgo
  have hc : v.fcur ≠ 0 := by
    intro he
    rw [zero_stays v he] at hgo
    exact hgo.1 he
  have hb := (best_inv f _ (bracket_inv f v h hc).1).1
  refine ⟨hb, ?_⟩
  rintro x rfl
  have htol : 0 ≤ xtol + rtol * |v.bracket.best.xcur| := add_nonneg hx (mul_nonneg hr (abs_nonneg _))
  have hbt := next_between f _ hb _ htol hgo.2
  have hblk : (v.bracket.best.choose (xtol + rtol * |v.bracket.best.xcur|)).xblk = v.bracket.best.xblk ∧ (v.bracket.best.choose (xtol + rtol * |v.bracket.best.xcur|)).fblk = v.bracket.best.fblk := by
    unfold BrentVars.choose
    simp only
    split <;> exact ⟨rfl, rfl⟩
  refine ⟨⟨hb.cur, rfl, hgo.1, Or.inr ⟨?_, ?_, ?_⟩⟩, hbt, hblk.1⟩
  · simp only [hblk.1, hblk.2, hb.blk]
  · simp only [hblk.2]; exact hb.opp
  · simp only [hblk.1]; exact hbt

theorem range_step (f : K → K) (lo hi : K) (v : BrentVars K) (h : LoopInv f v) (hc : v.fcur ≠ 0) (hpre : lo ≤ v.xpre ∧ v.xpre ≤ hi) (hcur : lo ≤ v.xcur ∧ v.xcur ≤ hi)
    (hblk : v.fpre * v.fcur < 0 ∨ (lo ≤ v.xblk ∧ v.xblk ≤ hi)) : (lo ≤ v.bracket.best.xcur ∧ v.bracket.best.xcur ≤ hi) ∧ (lo ≤ v.bracket.best.xblk ∧ v.bracket.best.xblk ≤ hi) := by
  obtain ⟨hb1, hb2⟩ := bracket_inv f v h hc
  have hbk : lo ≤ v.bracket.xblk ∧ v.bracket.xblk ≤ hi := by
    unfold BrentVars.bracket
    by_cases hs : v.fpre * v.fcur < 0
    · rw [if_pos hs]; exact hpre
    · rw [if_neg hs]
      rcases hblk with hh | hh
      · exact absurd hh hs
      · exact hh
  rcases (best_inv f _ hb1).2 with ⟨h1, h2⟩ | ⟨h1, h2⟩
  · rw [h1, h2, hb2]; exact ⟨hcur, hbk⟩
  · rw [h1, h2, hb2]; exact ⟨hbk, hcur⟩

theorem range_next (lo hi a b x1 : K) (ha : lo ≤ a ∧ a ≤ hi) (hb : lo ≤ b ∧ b ≤ hi) (hbt : (a - x1) * (b - x1) ≤ 0) : lo ≤ x1 ∧ x1 ≤ hi := by
  constructor
  · by_contra hcc
    have h1 : 0 < a - x1 := by linarith [ha.1, not_le.mp hcc]
    have h2 : 0 < b - x1 := by linarith [hb.1, not_le.mp hcc]
    exact absurd (mul_pos h1 h2) (not_lt.mpr hbt)
  · by_contra hcc
    have h1 : a - x1 < 0 := by linarith [ha.2, not_le.mp hcc]
    have h2 : b - x1 < 0 := by linarith [hb.2, not_le.mp hcc]
    exact absurd (mul_pos_of_neg_of_neg h1 h2) (not_lt.mpr hbt)

theorem loop_found (eval : EvalAt σ K) (val : σ → K) (f : K → K) (hev : Residual eval val f) (xtol rtol : K) (hx : 0 ≤ xtol) (hr : 0 ≤ rtol) (n : Nat) (v : BrentVars K) (s s' : σ) (x : K) (h : LoopInv f v)
    (lo hi : K) (hpre : lo ≤ v.xpre ∧ v.xpre ≤ hi) (hcur : lo ≤ v.xcur ∧ v.xcur ≤ hi) (hblk : v.fpre * v.fcur < 0 ∨ (lo ≤ v.xblk ∧ v.xblk ≤ hi))
    (hs : val s = v.xcur) (hret : brentLoop eval xtol rtol n v s = (s', .ok x)) : Found f xtol rtol lo hi (val s') := by
  induction n generalizing v s with
  | zero => simp [brentLoop] at hret
  | succ n ih =>
    unfold brentLoop at hret
    simp only at hret
    by_cases hgo : v.bracket.best.fcur = 0 ∨ |(v.bracket.best.xblk - v.bracket.best.xcur) / 2| < xtol + rtol * |v.bracket.best.xcur|
    · rw [if_pos hgo] at hret
      have hss : s = s' := congrArg Prod.fst hret
      rw [← hss, hs]
      refine ⟨hcur, ?_⟩
      by_cases hc : v.fcur = 0
      · left; rw [← h.cur]; exact hc
      · obtain ⟨hb1, hb2⟩ := bracket_inv f v h hc
        obtain ⟨hw, hpos⟩ := best_inv f _ hb1
        have hrg := range_step f lo hi v h hc hpre hcur hblk
        rcases hgo with hz | hlt
        · exact absurd hw.opp (by rw [hz]; simp)
        · right
          rw [abs_div, abs_of_pos (by norm_num : (0 : K) < 2), div_lt_iff₀ (by norm_num : (0 : K) < 2)] at hlt
          have hop := hw.opp
          rw [hw.cur, hw.blk] at hop
          rcases hpos with ⟨h1, h2⟩ | ⟨h1, h2⟩
          · refine ⟨v.bracket.best.xblk, v.bracket.best.xcur, Or.inl (by rw [h1, hb2]), hrg.2, ?_, ?_⟩
            · rw [← hb2, ← h1]; exact hop
            · rw [← hb2, ← h1, abs_sub_comm, mul_comm 2]; exact hlt
          · refine ⟨v.bracket.best.xcur, v.bracket.best.xcur, Or.inr rfl, hrg.1, ?_, ?_⟩
            · rw [← hb2, ← h2, mul_comm]; exact hop
            · rw [← hb2, ← h2, mul_comm 2]; exact hlt
    · rw [if_neg hgo] at hret
      obtain ⟨hb, hstep⟩ := step_inv f v h xtol rtol hx hr hgo
      obtain ⟨hinv, hbt, hzb⟩ := hstep _ rfl
      have hc : v.fcur ≠ 0 := by
        intro he
        rw [zero_stays v he] at hgo
        exact hgo (Or.inl he)
      have hw := range_step f lo hi v h hc hpre hcur hblk
      generalize hx1 : (v.bracket.best.choose (xtol + rtol * |v.bracket.best.xcur|)).next (xtol + rtol * |v.bracket.best.xcur|) = x1 at hret hinv hbt
      cases he : eval s x1 with
      | mk s1 out =>
        cases out with
        | error e => rw [he] at hret; simp at hret
        | ok r =>
          rw [he] at hret
          simp only at hret
          obtain ⟨hv1, hv2⟩ := hev s x1 s1 r he
          rw [hv2] at hret
          exact ih _ s1 hinv hw.1 (range_next lo hi _ _ x1 hw.1 hw.2 hbt) (Or.inr (by rw [hzb]; exact hw.2)) hv1 hret

/-- The width of the bracket at the beginning of a turn. -/
def BrentVars.width (v : BrentVars K) : K := |v.bracket.best.xblk - v.bracket.best.xcur|

theorem width_eq (v : BrentVars K) : v.width = if v.fpre * v.fcur < 0 then |v.xpre - v.xcur| else |v.xblk - v.xcur| := by
  unfold BrentVars.width BrentVars.best BrentVars.bracket
  by_cases h : v.fpre * v.fcur < 0
  · rw [if_pos h, if_pos h]
    split
    · exact abs_sub_comm _ _
    · rfl
  · rw [if_neg h, if_neg h]
    split
    · exact abs_sub_comm _ _
    · rfl

theorem loop_converges (eval : EvalAt σ K) (f : K → K) (hev : ∀ s x, ∃ s', eval s x = (s', .ok (f x))) (xtol rtol : K) (hx : 0 < xtol) (hr : 0 ≤ rtol) (n : Nat) (v : BrentVars K) (s : σ) (h : LoopInv f v)
    (hw : 2 * v.width < n * xtol) : ∃ x, (brentLoop eval xtol rtol n v s).2 = .ok x := by
  induction n generalizing v s with
  | zero =>
    have := abs_nonneg (v.bracket.best.xblk - v.bracket.best.xcur)
    unfold BrentVars.width at hw
    simp only [Nat.cast_zero, zero_mul] at hw
    linarith
  | succ n ih =>
    unfold brentLoop
    simp only
    by_cases hgo : v.bracket.best.fcur = 0 ∨ |(v.bracket.best.xblk - v.bracket.best.xcur) / 2| < xtol + rtol * |v.bracket.best.xcur|
    · rw [if_pos hgo]; exact ⟨_, rfl⟩
    · rw [if_neg hgo]
      obtain ⟨hb, hstep⟩ := step_inv f v h xtol rtol hx.le hr hgo
      obtain ⟨hinv, _, hzb⟩ := hstep _ rfl
      have htol : xtol ≤ xtol + rtol * |v.bracket.best.xcur| := by linarith [mul_nonneg hr (abs_nonneg v.bracket.best.xcur)]
      obtain ⟨a1, a2⟩ := next_away f _ hb _ (le_trans hx.le htol) (not_or.mp hgo).2
      obtain ⟨s1, h1⟩ := hev s ((v.bracket.best.choose (xtol + rtol * |v.bracket.best.xcur|)).next (xtol + rtol * |v.bracket.best.xcur|))
      rw [h1]
      generalize (v.bracket.best.choose (xtol + rtol * |v.bracket.best.xcur|)).next (xtol + rtol * |v.bracket.best.xcur|) = x1 at hinv a1 a2 h1 ⊢
      simp only
      apply ih _ s1 hinv
      push_cast at hw
      unfold BrentVars.width at hw
      rw [width_eq]
      simp only [hzb]
      split <;> linarith

theorem loop_agree (eval eval' : EvalAt σ K) (f : K → K) (lo hi : K) (hev : ∀ s x, lo ≤ x → x ≤ hi → eval s x = eval' s x) (hf : ∀ s x s1 r, lo ≤ x → x ≤ hi → eval s x = (s1, .ok r) → r = f x)
    (xtol rtol : K) (hx : 0 ≤ xtol) (hr : 0 ≤ rtol) (n : Nat) (v : BrentVars K) (s : σ) (h : LoopInv f v) (hpre : lo ≤ v.xpre ∧ v.xpre ≤ hi) (hcur : lo ≤ v.xcur ∧ v.xcur ≤ hi)
    (hblk : v.fpre * v.fcur < 0 ∨ (lo ≤ v.xblk ∧ v.xblk ≤ hi)) : brentLoop eval xtol rtol n v s = brentLoop eval' xtol rtol n v s := by
  induction n generalizing v s with
  | zero => rfl
  | succ n ih =>
    unfold brentLoop
    simp only
    by_cases hgo : v.bracket.best.fcur = 0 ∨ |(v.bracket.best.xblk - v.bracket.best.xcur) / 2| < xtol + rtol * |v.bracket.best.xcur|
    · rw [if_pos hgo, if_pos hgo]
    · rw [if_neg hgo, if_neg hgo]
      obtain ⟨hb, hstep⟩ := step_inv f v h xtol rtol hx hr hgo
      obtain ⟨hinv, hbt, hzb⟩ := hstep _ rfl
      have hc : v.fcur ≠ 0 := by
        intro he
        rw [zero_stays v he] at hgo
        exact hgo (Or.inl he)
      have hw := range_step f lo hi v h hc hpre hcur hblk
      generalize hx1 : (v.bracket.best.choose (xtol + rtol * |v.bracket.best.xcur|)).next (xtol + rtol * |v.bracket.best.xcur|) = x1 at hinv hbt ⊢
      have hin := range_next lo hi _ _ x1 hw.1 hw.2 hbt
      rw [← hev s x1 hin.1 hin.2]
      cases he : eval s x1 with
      | mk s1 out =>
        cases out with
        | error e => rfl
        | ok r =>
          simp only
          rw [hf s x1 s1 r hin.1 hin.2 he]
          exact ih _ s1 hinv hw.1 hin (Or.inr (by rw [hzb]; exact hw.2))

theorem loop_count (eval : EvalAt σ K) (cnt : σ → Nat) (hc : ∀ s x, cnt (eval s x).1 ≤ cnt s + 1) (xtol rtol : K) (n : Nat) (v : BrentVars K) (s : σ) : cnt (brentLoop eval xtol rtol n v s).1 ≤ cnt s + n := by
  induction n generalizing v s with
  | zero => simp [brentLoop]
  | succ n ih =>
    unfold brentLoop
    simp only
    split
    · simp
    · generalize (v.bracket.best.choose (xtol + rtol * |v.bracket.best.xcur|)).next (xtol + rtol * |v.bracket.best.xcur|) = x1
      have h1 := hc s x1
      cases he : eval s x1 with
      | mk s1 out =>
        rw [he] at h1
        cases out with
        | error e => simp only at h1 ⊢; omega
        | ok r =>
          simp only at h1 ⊢
          exact le_trans (ih _ s1) (by omega)

theorem init_inv (f : K → K) (a b : K) (hab : ¬ 0 < f a * f b) (ha : f a ≠ 0) (hb : f b ≠ 0) : LoopInv f ⟨a, f a, b, f b, 0, 0, 0, 0⟩ :=
  ⟨rfl, rfl, ha, Or.inl (lt_of_le_of_ne (not_lt.mp hab) (mul_ne_zero ha hb))⟩

theorem loop_traced (eval : EvalAt σ K) (log : σ → Option PyErr) (ht : Traced eval log) (xtol rtol : K) (n : Nat) (v : BrentVars K) (s : σ) (h0 : log s = none) :
    (∀ e, log (brentLoop eval xtol rtol n v s).1 = some e → (brentLoop eval xtol rtol n v s).2 = .error e) ∧
    (log (brentLoop eval xtol rtol n v s).1 = none → (brentLoop eval xtol rtol n v s).2 = .error .RuntimeError ∨ ∃ x, (brentLoop eval xtol rtol n v s).2 = .ok x) := by
  induction n generalizing v s with
  | zero => simp [brentLoop, h0]
  | succ n ih =>
    unfold brentLoop
    simp only
    split
    · simp [h0]
    · generalize (v.bracket.best.choose (xtol + rtol * |v.bracket.best.xcur|)).next (xtol + rtol * |v.bracket.best.xcur|) = x1
      obtain ⟨h1, h2⟩ := ht s x1
      cases he : eval s x1 with
      | mk s1 out =>
        rw [he] at h1 h2
        cases out with
        | error e =>
          simp only at h1 ⊢
          rw [h1 e rfl]
          simp
        | ok r =>
          simp only at h2 ⊢
          exact ih _ s1 (by rw [h2 r rfl, h0])

theorem brentq_traced (eval : EvalAt σ K) (log : σ → Option PyErr) (ht : Traced eval log) (xtol rtol : K) (n : Nat) (a b : K) (s : σ) (h0 : log s = none) :
    (∀ e, log (brentq eval xtol rtol n a b s).1 = some e → (brentq eval xtol rtol n a b s).2 = .error e) ∧
    (log (brentq eval xtol rtol n a b s).1 = none → (brentq eval xtol rtol n a b s).2 = .error .RuntimeError ∨ (brentq eval xtol rtol n a b s).2 = .error .ValueError ∨ ∃ x, (brentq eval xtol rtol n a b s).2 = .ok x) := by
  unfold brentq
  obtain ⟨h1, h2⟩ := ht s a
  cases he : eval s a with
  | mk s1 out =>
    rw [he] at h1 h2
    cases out with
    | error e =>
      simp only at h1 ⊢
      rw [h1 e rfl]
      simp
    | ok fa =>
      simp only at h2 ⊢
      have h01 : log s1 = none := by rw [h2 fa rfl, h0]
      obtain ⟨h3, h4⟩ := ht s1 b
      cases hb : eval s1 b with
      | mk s2 out =>
        rw [hb] at h3 h4
        cases out with
        | error e =>
          simp only at h3 ⊢
          rw [h3 e rfl]
          simp
        | ok fb =>
          simp only at h4 ⊢
          have h02 : log s2 = none := by rw [h4 fb rfl, h01]
          split
          · simp [h02]
          · split
            · simp [h02]
            · split
              · simp [h02]
              · obtain ⟨h5, h6⟩ := loop_traced eval log ht xtol rtol n ⟨a, fa, b, fb, 0, 0, 0, 0⟩ s2 h02
                refine ⟨h5, fun hn => ?_⟩
                rcases h6 hn with h | h
                · exact Or.inl h
                · exact Or.inr (Or.inr h)

end

end OpenMDAO
