import Verif.Model.NLGS
import Mathlib.Data.Rat.Defs
import Mathlib.Tactic.NormNum
import Mathlib.Tactic.Linarith
import Mathlib.Algebra.Order.Ring.Rat
/-! # C25 and C29: nonlinear Gauss-Seidel -/
namespace OpenMDAO
set_option linter.unusedSectionVars false

variable {K : Type} [Field K] [LinearOrder K] {S D : Type}

/-- Specification: the float is (a number or minus infinity) at most `t`; false for NaN and plus infinity. -/
def Flt.AtMost : Flt K → K → Prop
  | .fin x, t => x ≤ t
  | .ninf, _ => True
  | _, _ => False

/-- The final state of a solve, if it ended without an exception of the model. -/
def NLOut.state? : NLOut K S D → Option (NLState K S D)
  | .quiet st => some st
  | .converged st => some st
  | .failed st => some st
  | .analysisError st => some st
  | .raised _ => none
  | .diverged => none

theorem Flt.atMost_of_not_gt {x : Flt K} {t : K} (h : x.gt (.fin t) = false) (hn : x ≠ .nan) : x.AtMost t := by
  cases x with
  | nan => exact absurd rfl hn
  | pinf => simp [Flt.gt, Flt.lt] at h
  | ninf => trivial
  | fin x => simpa [Flt.gt, Flt.lt, Flt.AtMost] using h

/-- A property of the loop state that holds initially and is kept by the body holds of the final state. -/
theorem nlLoop_inv (o : NLOpts K) (sys : NLSys K S D) (base : Flt K) (P : NLState K S D → Prop)
    (hstep : ∀ st st', P st → st.iter < o.maxiter → nlUnconverged o base st.norm st.unorm = true →
      nlBody o sys base st = .ok st' → P st') :
    ∀ fuel st, P st → ∀ st', (nlLoop o sys base fuel st).state? = some st' →
      P st' ∧ ¬ (st'.iter < o.maxiter ∧ nlUnconverged o base st'.norm st'.unorm = true) ∧
      nlLoop o sys base fuel st = nlFinish o st' := by
  intro fuel
  induction fuel with
  | zero =>
    intro st hP st' h
    unfold nlLoop at h ⊢
    split_ifs at h ⊢ with hc
    · simp [NLOut.state?] at h
    · have : st' = st := by
        unfold nlFinish at h
        split_ifs at h <;> simp [NLOut.state?] at h <;> exact h.symm
      subst this
      exact ⟨hP, by simpa using hc, rfl⟩
  | succ fuel ih =>
    intro st hP st' h
    unfold nlLoop at h ⊢
    split_ifs at h ⊢ with hc
    · cases hb : nlBody o sys base st with
      | error e => rw [hb] at h; simp [NLOut.state?] at h
      | ok st1 =>
        rw [hb] at h
        simp only at h ⊢
        simp only [Bool.and_eq_true, decide_eq_true_eq] at hc
        exact ih st1 (hstep st st1 hP hc.1 hc.2 hb) st' h
    · have : st' = st := by
        unfold nlFinish at h
        split_ifs at h <;> simp [NLOut.state?] at h <;> exact h.symm
      subst this
      exact ⟨hP, by simpa using hc, rfl⟩

theorem aitken_iter (o : NLOpts K) (sys : NLSys K S D) (b : Flt K) (c : S) (st : NLState K S D) :
    (aitken o sys b c st).iter = st.iter ∧ (aitken o sys b c st).sweeps = st.sweeps ∧
    (aitken o sys b c st).norm = st.norm ∧ (aitken o sys b c st).unorm = st.unorm := by
  unfold aitken
  split <;> simp [aitkenRelax]

theorem nlBody_iter {o : NLOpts K} {sys : NLSys K S D} {b : Flt K} {st st' : NLState K S D}
    (h : nlBody o sys b st = .ok st') : st'.iter = st.iter + 1 ∧ st'.sweeps = st.sweeps + 1 := by
  unfold nlBody at h
  split at h
  · cases h
  · injection h with h; subst h
    obtain ⟨h1, h2, -⟩ := aitken_iter o sys b st.s _
    exact ⟨h1, h2⟩

theorem nlLoop_terminates (o : NLOpts K) (sys : NLSys K S D) (b : Flt K) :
    ∀ fuel st, o.maxiter ≤ st.iter + fuel → nlLoop o sys b fuel st ≠ .diverged := by
  intro fuel
  induction fuel with
  | zero =>
    intro st h
    unfold nlLoop
    split_ifs with hc
    · simp only [Bool.and_eq_true, decide_eq_true_eq] at hc; omega
    · unfold nlFinish; split_ifs <;> simp
  | succ fuel ih =>
    intro st h
    unfold nlLoop
    split_ifs with hc
    · cases hb : nlBody o sys b st with
      | error e => simp
      | ok st1 =>
        simp only
        exact ih st1 (by rw [(nlBody_iter hb).1]; omega)
    · unfold nlFinish; split_ifs <;> simp

/-- C25. The solver terminates: `maxiter` rounds of fuel are always enough. -/
theorem C25_terminates (o : NLOpts K) (sys : NLSys K S D) (fuel : Nat) (hf : o.maxiter ≤ fuel) (a : Flt K)
    (d : Option D) (s : S) : nlSolve o sys fuel a d s ≠ .diverged := by
  unfold nlSolve
  split
  · simp
  · split_ifs
    · simp
    · split
      · simp
      · exact nlLoop_terminates o sys _ fuel _ (by omega)

/-- What a finished solve looks like: an initial run and, unless `maxiter = 1`, an evaluation of the residuals and then the
loop. -/
theorem nlSolve_cases {o : NLOpts K} {sys : NLSys K S D} {fuel : Nat} {a : Flt K} {d : Option D} {s : S}
    {st : NLState K S D} (h : (nlSolve o sys fuel a d s).state? = some st) :
    (o.maxiter = 1 ∧ (∃ s0, sys.run s = .ok s0 ∧ st = nlInit sys a d s0) ∧ nlSolve o sys fuel a d s = .quiet st) ∨
    ∃ s1, sys.sweep s = .ok s1 ∧ o.maxiter ≠ 1 ∧
        (nlLoop o sys (nlBase o (sys.rnorm s1)) fuel (nlInit sys a d s1)).state? = some st ∧
        nlSolve o sys fuel a d s = nlLoop o sys (nlBase o (sys.rnorm s1)) fuel (nlInit sys a d s1) := by
  unfold nlSolve at h ⊢
  unfold NLSys.sweep
  cases hs : sys.run s with
  | error e => rw [hs] at h; simp [NLOut.state?] at h
  | ok s0 =>
    rw [hs] at h
    simp only at h ⊢
    split_ifs at h ⊢ with hm
    · simp only [NLOut.state?, Option.some.injEq] at h
      exact .inl ⟨hm, ⟨s0, rfl, h.symm⟩, by rw [h]⟩
    · cases hr : sys.resid s0 with
      | error e => rw [hr] at h; simp [NLOut.state?] at h
      | ok s1 =>
        rw [hr] at h
        exact .inr ⟨s1, rfl, hm, h, rfl⟩

/-- C25. Number of runs of the model: at most `maxiter`, except that `maxiter = 0` still runs it once
(`C25_maxiter_zero_refuted`). -/
theorem C25_sweeps_bounded_partial (o : NLOpts K) (sys : NLSys K S D) (fuel : Nat) (a : Flt K) (d : Option D) (s : S)
    (st : NLState K S D) (h : (nlSolve o sys fuel a d s).state? = some st) : st.sweeps ≤ max 1 o.maxiter := by
  obtain ⟨hm, ⟨s0, -, rfl⟩, -⟩ | ⟨s1, hs1, hm, hl, -⟩ := nlSolve_cases h
  · simp [nlInit]
  · have := (nlLoop_inv o sys _ (fun st => st.sweeps = st.iter ∧ st.iter ≤ max 1 o.maxiter) (by
      intro st st' hP hlt _ hb
      obtain ⟨h1, h2⟩ := nlBody_iter hb
      exact ⟨by omega, by have := hP.2; omega⟩) fuel _ ⟨rfl, by simp [nlInit]⟩ st hl).1
    have h1 := this.1; have h2 := this.2
    omega

/-- A system on the rationals with fixed norm histories, for the concrete cases: the state counts the sweeps. -/
def toySys (norm : Nat → Flt ℚ) (dn : Nat → Flt ℚ) (fac : Flt ℚ) : NLSys ℚ Nat Nat where
  run n := .ok (n + 1)
  resid n := .ok n
  rnorm := norm
  delta n _ := n
  dnorm := dn
  factor _ _ := fac
  relax _ s _ _ := s

/-- the default tolerances, as rationals -/
def toyOpts (maxiter : Nat) (err ait : Bool) : NLOpts ℚ :=
  { atol := 1 / 10, rtol := 1 / 10, utol := 1 / 1000, maxiter, useAitken := ait, alphaMin := 1 / 4, alphaMax := 2,
    errOnMaxiter := err }

/-- C25 "at most maxiter runs" is false of the code for `maxiter = 0`. -/
theorem C25_maxiter_zero_refuted : ∃ st, nlSolve (toyOpts 0 false false) (toySys (fun _ => .fin 1) (fun _ => .fin 1) (.fin 1)) 5
    (.fin 1) none 0 = .failed st ∧ st.sweeps = 1 := by
  refine ⟨⟨1, 1, .fin 1, .pinf, .fin 1, none, 1, []⟩, ?_, rfl⟩
  norm_num [nlSolve, NLSys.sweep, nlLoop, nlInit, nlFinish, toyOpts, toySys]

/-- C25. Success means convergence: the final residual norm is not NaN, and it meets the absolute tolerance, or its
ratio to the norm after the initial run meets the relative tolerance, or the last sweep changed the unknowns by at
most the step tolerance. Assumed (see `C25_infinite_residual_refuted`): the residual after the initial run is not
infinite and changes of the unknowns are not NaN. -/
theorem C25_success_partial (o : NLOpts K) (sys : NLSys K S D) (fuel : Nat) (a : Flt K) (d : Option D) (s : S)
    (hatol : 0 ≤ o.atol) (hdn : ∀ x, sys.dnorm x ≠ .nan)
    (hinf : ∀ s1, sys.sweep s = .ok s1 → sys.rnorm s1 ≠ .pinf ∧ sys.rnorm s1 ≠ .ninf)
    (st : NLState K S D) (h : nlSolve o sys fuel a d s = .converged st) :
    sys.rnorm st.s ≠ .nan ∧ ∃ s1, sys.sweep s = .ok s1 ∧
      ((sys.rnorm st.s).AtMost o.atol ∨ ((sys.rnorm st.s).div (sys.rnorm s1)).AtMost o.rtol ∨
        ∃ prev, sys.sweep prev = .ok st.s ∧ (sys.dnorm (sys.delta st.s prev)).AtMost o.utol) := by
  obtain ⟨hm, ⟨s0, -, rfl⟩, h'⟩ | ⟨s1, hs1, hm, hl, h'⟩ := nlSolve_cases (st := st) (by rw [h]; rfl)
  · rw [h'] at h; cases h
  · have key := nlLoop_inv o sys (nlBase o (sys.rnorm s1))
      (fun st => (nlUnconverged o (nlBase o (sys.rnorm s1)) st.norm st.unorm = false → st.norm = sys.rnorm st.s) ∧
        ((st.unorm = .pinf ∧ st.norm = sys.rnorm s1 ∧ st.s = s1) ∨
        ((sys.rnorm s1).gt (.fin o.atol) = true ∧
          (nlUnconverged o (nlBase o (sys.rnorm s1)) st.norm st.unorm = false →
            ∃ prev, sys.sweep prev = .ok st.s ∧ st.unorm = sys.dnorm (sys.delta st.s prev)) ∧
          st.unorm ≠ .nan))) (by
        intro st st' hP hlt hun hb
        have hgt : (sys.rnorm s1).gt (.fin o.atol) = true := by
          rcases hP.2 with ⟨-, h2, -⟩ | ⟨h1, -⟩
          · rw [h2] at hun; simp only [nlUnconverged, Bool.and_eq_true] at hun; exact hun.1.1
          · exact h1
        unfold nlBody at hb
        cases hsw : sys.sweep st.s with
        | error e => rw [hsw] at hb; cases hb
        | ok s' =>
          rw [hsw] at hb
          injection hb with hb
          obtain ⟨-, -, e3, e4⟩ := aitken_iter o sys (nlBase o (sys.rnorm s1)) st.s
            { st with s := s', iter := st.iter + 1, sweeps := st.sweeps + 1, norm := sys.rnorm s', unorm := sys.dnorm (sys.delta s' st.s) }
          rw [hb] at e3 e4
          simp only at e3 e4
          have hs' : nlUnconverged o (nlBase o (sys.rnorm s1)) st'.norm st'.unorm = false → st'.s = s' := by
            intro hc
            rw [e3, e4] at hc
            rw [← hb]
            unfold aitken
            simp only [hc]
            split <;> first | rfl | (rename_i h; cases h)
          refine ⟨fun hc => by rw [hs' hc, e3], .inr ⟨hgt, fun hc => ⟨st.s, by rw [hs' hc, hsw], by rw [e4, hs' hc]⟩, ?_⟩⟩
          rw [e4]; exact hdn _) fuel _ ⟨fun _ => rfl, .inl ⟨rfl, rfl, rfl⟩⟩ st hl
    obtain ⟨⟨k1, k2⟩, k3, k4⟩ := key
    rw [h', k4] at h
    unfold nlFinish at h
    split_ifs at h with hf
    simp only [Bool.or_eq_true, decide_eq_true_eq, not_or, not_le] at hf
    have hun : nlUnconverged o (nlBase o (sys.rnorm s1)) st.norm st.unorm = false := by
      by_contra hc; exact k3 ⟨hf.1, by simpa using hc⟩
    have hn := k1 hun
    have hnan : sys.rnorm st.s ≠ .nan := by
      intro hc; rw [hn, hc] at hf; exact hf.2 rfl
    refine ⟨hnan, s1, hs1, ?_⟩
    have hun0 := hun
    simp only [nlUnconverged, Bool.and_eq_false_iff] at hun
    rcases hun with (h1 | h2) | h3
    · left; rw [hn] at h1; exact Flt.atMost_of_not_gt h1 hnan
    · by_cases hgt : (sys.rnorm s1).gt (.fin o.atol) = true
      · right; left
        have hb : nlBase o (sys.rnorm s1) = sys.rnorm s1 := by simp [nlBase, hgt]
        rw [hn, hb] at h2
        refine Flt.atMost_of_not_gt h2 ?_
        obtain ⟨i1, i2⟩ := hinf s1 hs1
        cases hr : sys.rnorm s1 with
        | nan => rw [hr] at hgt; simp [Flt.gt, Flt.lt] at hgt
        | pinf => exact absurd hr i1
        | ninf => exact absurd hr i2
        | fin b =>
          rw [hr] at hgt
          have hb0 : o.atol < b := by simpa [Flt.gt, Flt.lt] using hgt
          have hb1 : b ≠ 0 := (lt_of_le_of_lt hatol hb0).ne'
          cases hx : sys.rnorm st.s with
          | nan => exact absurd hx hnan
          | pinf => simp only [Flt.div]; split_ifs <;> simp
          | ninf => simp only [Flt.div]; split_ifs <;> simp
          | fin x => simp [Flt.div, hb1]
      · rcases k2 with ⟨-, h5, h6⟩ | ⟨h5, -⟩
        · left
          rw [h6]
          rw [h6] at hnan
          exact Flt.atMost_of_not_gt (by simpa using hgt) hnan
        · exact absurd h5 hgt
    · rcases k2 with ⟨h4, -⟩ | ⟨-, h5, h6⟩
      · rw [h4] at h3; simp [Flt.gt, Flt.lt] at h3
      · right; right
        obtain ⟨prev, p1, p2⟩ := h5 hun0
        exact ⟨prev, p1, by rw [← p2]; exact Flt.atMost_of_not_gt h3 h6⟩

/-- A run that converges by the relative tolerance after two sweeps. -/
example : ∃ st, nlSolve (toyOpts 5 true false) (toySys (fun n => .fin (100 / (n * n * n * n))) (fun _ => .fin 1) (.fin 1)) 5
    (.fin 1) none 0 = .converged st ∧ st.sweeps = 2 := by
  refine ⟨⟨2, 2, .fin (25 / 4), .fin 1, .fin 1, none, 2, []⟩, ?_, rfl⟩
  norm_num [nlSolve, NLSys.sweep, nlLoop, nlInit, nlFinish, toyOpts, toySys, nlUnconverged, nlBase, Flt.gt, Flt.lt, Flt.div, Flt.isnan,
    nlBody, aitken]

/-- C25 "success means convergence" is false of the code when the residual is infinite: `inf/inf` is NaN, the loop
is left at once and the solve is reported as converged. -/
theorem C25_infinite_residual_refuted : ∃ st : NLState ℚ Nat Nat,
    nlSolve (toyOpts 5 true false) (toySys (fun _ => .pinf) (fun _ => .fin 1) (.fin 1)) 5 (.fin 1) none 0 = .converged st ∧
    ¬ (Flt.pinf : Flt ℚ).AtMost (1 / 10) := by
  refine ⟨⟨1, 1, .pinf, .pinf, .fin 1, none, 1, []⟩, ?_, id⟩
  norm_num [nlSolve, NLSys.sweep, nlLoop, nlInit, nlFinish, toyOpts, toySys, nlUnconverged, nlBase, Flt.gt, Flt.lt, Flt.div, Flt.isnan]

/-- C25, error reporting for `maxiter ≠ 1`: the solve ends with an analysis error iff `err_on_maxiter` is set and the
iteration limit was reached or the residual is NaN; without the option the failure is only reported. Missing for the
full property: see the next two theorems. -/
theorem C25_error_iff_partial (o : NLOpts K) (sys : NLSys K S D) (fuel : Nat) (a : Flt K) (d : Option D) (s : S)
    (hm : o.maxiter ≠ 1) (st : NLState K S D) (h : (nlSolve o sys fuel a d s).state? = some st) :
    (nlSolve o sys fuel a d s = .analysisError st ↔
      o.errOnMaxiter = true ∧ (o.maxiter ≤ st.sweeps ∨ st.norm = .nan)) ∧
    (nlSolve o sys fuel a d s = .failed st ↔
      o.errOnMaxiter = false ∧ (o.maxiter ≤ st.sweeps ∨ st.norm = .nan)) ∧
    (nlSolve o sys fuel a d s = .converged st ↔ ¬ (o.maxiter ≤ st.sweeps ∨ st.norm = .nan)) := by
  obtain ⟨hm', -, -⟩ | ⟨s1, hs1, -, hl, h'⟩ := nlSolve_cases h
  · exact absurd hm' hm
  · obtain ⟨h1, -, h3⟩ := nlLoop_inv o sys _ (fun st => st.sweeps = st.iter) (by
      intro st st' hP _ _ hb
      obtain ⟨h1, h2⟩ := nlBody_iter hb
      omega) fuel _ rfl st hl
    have hnan : st.norm.isnan = true ↔ st.norm = .nan := by cases st.norm <;> simp [Flt.isnan]
    rw [h', h3]
    unfold nlFinish
    have e : (decide (o.maxiter ≤ st.iter) || st.norm.isnan) = true ↔ (o.maxiter ≤ st.sweeps ∨ st.norm = .nan) := by
      simp [hnan, h1]
    split_ifs with hc herr
    · have := e.mp hc; simp [herr, this]
    · have := e.mp hc; simp at herr; simp [herr, this]
    · have := mt e.mpr hc; simp [this]

/-- C25 "an error is raised iff the solver did not converge" is false of the code: converging in the last permitted
sweep is reported as a failure although the residual norm is 0. -/
theorem C25_late_convergence_refuted : ∃ st : NLState ℚ Nat Nat,
    nlSolve (toyOpts 2 true false) (toySys (fun n => if n = 1 then .fin 1 else .fin 0) (fun _ => .fin 1) (.fin 1)) 5
      (.fin 1) none 0 = .analysisError st ∧ st.norm = .fin 0 := by
  refine ⟨⟨2, 2, .fin 0, .fin 1, .fin 1, none, 2, []⟩, ?_, rfl⟩
  norm_num [nlSolve, NLSys.sweep, nlLoop, nlInit, nlFinish, toyOpts, toySys, nlUnconverged, nlBase, Flt.gt, Flt.lt, Flt.div, Flt.isnan,
    nlBody, aitken]

/-- C25: with `maxiter = 1` no error is raised although the residuals of the final state, were they evaluated, have norm 7. -/
theorem C25_maxiter_one_refuted : ∃ st : NLState ℚ Nat Nat,
    nlSolve (toyOpts 1 true false) (toySys (fun _ => .fin 7) (fun _ => .fin 1) (.fin 1)) 5 (.fin 1) none 0 = .quiet st ∧
    ∃ s', (toySys (fun _ => .fin 7) (fun _ => .fin 1) (.fin 1)).resid st.s = .ok s' ∧
      (toySys (fun _ => .fin 7) (fun _ => .fin 1) (.fin 1)).rnorm s' = .fin 7 := by
  refine ⟨⟨1, 1, .fin 7, .pinf, .fin 1, none, 1, []⟩, ?_, 1, rfl, rfl⟩
  norm_num [nlSolve, nlInit, toyOpts, toySys]

/-- C25: with `maxiter = 1` the model is run once, its residuals are not evaluated (an error in their evaluation does not
surface), and the solve always ends normally unless the run raises. -/
theorem C25_maxiter_one (o : NLOpts K) (sys : NLSys K S D) (fuel : Nat) (a : Flt K) (d : Option D) (s : S)
    (hm : o.maxiter = 1) :
    (∀ e, sys.run s = .error e → nlSolve o sys fuel a d s = .raised e) ∧
    (∀ s0, sys.run s = .ok s0 → ∃ st, nlSolve o sys fuel a d s = .quiet st ∧ st.s = s0 ∧ st.sweeps = 1) := by
  constructor
  · intro e h; unfold nlSolve; rw [h]
  · intro s0 h; unfold nlSolve; rw [h]; simp only [hm, if_true]; exact ⟨_, rfl, rfl, rfl⟩

example : ∃ st, nlSolve (toyOpts 1 true true) { toySys (fun _ => .fin 7) (fun _ => .fin 1) (.fin 1) with
      resid := fun _ => .error .ValueError } 5 (.fin 1) none 0 = .quiet st ∧ st.s = 1 ∧ st.sweeps = 1 :=
  (C25_maxiter_one _ _ 5 _ _ 0 rfl).2 1 rfl

/-! ## C29 -/

theorem clamp_within (lo hi : K) (h : lo ≤ hi) (x : Flt K) :
    ∃ y, Flt.pyMax (.fin lo) (Flt.pyMin (.fin hi) x) = .fin y ∧ lo ≤ y ∧ y ≤ hi := by
  cases x with
  | nan =>
    rcases lt_or_ge lo hi with h1 | h1
    · exact ⟨hi, by simp [Flt.pyMax, Flt.pyMin, Flt.gt, Flt.lt, h1], h, le_refl _⟩
    · exact ⟨lo, by simp [Flt.pyMax, Flt.pyMin, Flt.gt, Flt.lt, not_lt.mpr h1], le_refl _, h⟩
  | pinf =>
    rcases lt_or_ge lo hi with h1 | h1
    · exact ⟨hi, by simp [Flt.pyMax, Flt.pyMin, Flt.gt, Flt.lt, h1], h, le_refl _⟩
    · exact ⟨lo, by simp [Flt.pyMax, Flt.pyMin, Flt.gt, Flt.lt, not_lt.mpr h1], le_refl _, h⟩
  | ninf => simp [Flt.pyMax, Flt.pyMin, Flt.gt, Flt.lt, h]
  | fin x =>
    rcases lt_or_ge x hi with h1 | h1
    · rcases lt_or_ge lo x with h2 | h2
      · exact ⟨x, by simp [Flt.pyMax, Flt.pyMin, Flt.gt, Flt.lt, h1, h2], h2.le, h1.le⟩
      · exact ⟨lo, by simp [Flt.pyMax, Flt.pyMin, Flt.gt, Flt.lt, h1, not_lt.mpr h2], le_refl _, h⟩
    · rcases lt_or_ge lo hi with h2 | h2
      · exact ⟨hi, by simp [Flt.pyMax, Flt.pyMin, Flt.gt, Flt.lt, not_lt.mpr h1, h2], h, le_refl _⟩
      · exact ⟨lo, by simp [Flt.pyMax, Flt.pyMin, Flt.gt, Flt.lt, not_lt.mpr h1, not_lt.mpr h2], le_refl _, h⟩

/-- C29. Every relaxation factor applied in a solve lies within the configured limits, whatever the history of
updates and whatever factor the solver object kept from earlier solves; NaN (two equal updates) included. -/
theorem C29_factor_within_limits (o : NLOpts K) (sys : NLSys K S D) (h : o.alphaMin ≤ o.alphaMax) (fuel : Nat)
    (a : Flt K) (d : Option D) (s : S) (st : NLState K S D) (hst : (nlSolve o sys fuel a d s).state? = some st) :
    ∀ x ∈ st.alphas, ∃ y, x = .fin y ∧ o.alphaMin ≤ y ∧ y ≤ o.alphaMax := by
  obtain ⟨hm, ⟨s0, -, rfl⟩, -⟩ | ⟨s1, hs1, hm, hl, -⟩ := nlSolve_cases hst
  · simp [nlInit]
  · refine (nlLoop_inv o sys _ (fun st => ∀ x ∈ st.alphas, ∃ y, x = .fin y ∧ o.alphaMin ≤ y ∧ y ≤ o.alphaMax) ?_
      fuel _ (by simp [nlInit]) st hl).1
    intro st st' hP _ _ hb
    unfold nlBody at hb
    split at hb
    · cases hb
    · injection hb with hb; subst hb
      unfold aitken
      split
      · exact hP
      · intro x hx
        simp only [aitkenRelax, List.mem_append, List.mem_singleton] at hx
        rcases hx with hx | rfl
        · exact hP x hx
        · exact clamp_within _ _ h _
      · exact hP
      · exact hP

/-- C29. Effect of one iteration: the factors applied are recorded, and either no factor is applied and the unknowns are those
left by the run of the model, or exactly one factor `a` is applied, and the unknowns are those before the iteration moved by
`a` times the change made by the run. -/
theorem C29_relaxed_update (o : NLOpts K) (sys : NLSys K S D) (bn : Flt K) (st st' : NLState K S D)
    (h : nlBody o sys bn st = .ok st') : ∃ s1, sys.sweep st.s = .ok s1 ∧
      ((st'.alphas = st.alphas ∧ st'.s = s1) ∨
       (o.useAitken = true ∧ ∃ a, st'.alphas = st.alphas ++ [a] ∧ st'.alpha = a ∧
        st'.s = sys.relax st.s s1 a (sys.delta s1 st.s))) := by
  unfold nlBody at h
  cases hs : sys.sweep st.s with
  | error e => rw [hs] at h; cases h
  | ok s1 =>
    rw [hs] at h
    injection h with h; subst h
    refine ⟨s1, rfl, ?_⟩
    unfold aitken
    split <;> rename_i hu _ _
    · exact .inl ⟨rfl, rfl⟩
    · exact .inr ⟨hu, _, rfl, rfl, rfl⟩
    · exact .inl ⟨rfl, rfl⟩
    · exact .inl ⟨rfl, rfl⟩

/-- Factors are applied, and a NaN update is clamped to the upper limit. -/
example : ∃ st : NLState ℚ Nat Nat,
    nlSolve (toyOpts 4 false true) (toySys (fun _ => .fin 1) (fun _ => .fin 1) .nan) 5 (.fin 1) none 0 = .failed st ∧
    st.alphas = [.fin 2, .fin 2] := by
  refine ⟨⟨4, 4, .fin 1, .fin 1, .fin 2, some 4, 4, [.fin 2, .fin 2]⟩, ?_, rfl⟩
  norm_num [nlSolve, NLSys.sweep, nlLoop, nlInit, nlFinish, toyOpts, toySys, nlUnconverged, nlBase, Flt.gt, Flt.lt, Flt.div, Flt.isnan,
    nlBody, aitken, aitkenRelax, aitkenAlpha, Flt.mul, Flt.pyMax, Flt.pyMin]

end OpenMDAO
