import Verif.Model.Newton
import Verif.Props.NLGS
import Mathlib.Tactic.Ring
import Mathlib.Tactic.FieldSimp
/-! # C26, C27, C28 and C63: Newton, line search, bounded steps -/
namespace OpenMDAO
set_option linter.unusedSectionVars false

variable {K : Type} [Field K] [LinearOrder K] {S : Type}

/-- The final state of a Newton solve that ended by a verdict. -/
def NewtonOut.state? : NewtonOut K S → Option (NewtonState K S)
  | .converged st => some st
  | .failed st => some st
  | .analysisError st => some st
  | .raised _ _ => none
  | .diverged => none

/-- The derivative type of the system when control returns to the caller. -/
def NewtonOut.typ? : NewtonOut K S → Option String
  | .converged st => some st.typ
  | .failed st => some st.typ
  | .analysisError st => some st.typ
  | .raised _ t => some t
  | .diverged => none

theorem newtonFinish_state {o : NewtonOpts K} {t : String} {st st' : NewtonState K S}
    (h : (newtonFinish o t st).state? = some st') : st' = { st with typ := t } := by
  unfold newtonFinish at h
  split_ifs at h <;> simp [NewtonOut.state?] at h <;> exact h.symm

theorem newtonLoop_inv (o : NewtonOpts K) (sys : NewtonSys K S) (t : String) (n0 : Flt K) (P : NewtonState K S → Prop)
    (hstep : ∀ st st', P st → st.iter < o.maxiter → newtonUnconverged o n0 st.norm st.unorm = true →
      newtonBody sys st = .ok st' → P st') :
    ∀ fuel st, P st → ∀ st', (newtonLoop o sys t n0 fuel st).state? = some st' →
      ∃ sf, P sf ∧ st' = { sf with typ := t } ∧ ¬ (sf.iter < o.maxiter ∧ newtonUnconverged o n0 sf.norm sf.unorm = true) ∧
      newtonLoop o sys t n0 fuel st = newtonFinish o t sf := by
  intro fuel
  induction fuel with
  | zero =>
    intro st hP st' h
    unfold newtonLoop at h ⊢
    split_ifs at h ⊢ with hc
    · simp [NewtonOut.state?] at h
    · exact ⟨st, hP, newtonFinish_state h, by simpa using hc, rfl⟩
  | succ fuel ih =>
    intro st hP st' h
    unfold newtonLoop at h ⊢
    split_ifs at h ⊢ with hc
    · cases hb : newtonBody sys st with
      | error e => rw [hb] at h; simp [NewtonOut.state?] at h
      | ok st1 =>
        rw [hb] at h
        simp only at h ⊢
        simp only [Bool.and_eq_true, decide_eq_true_eq] at hc
        exact ih st1 (hstep st st1 hP hc.1 hc.2 hb) st' h
    · exact ⟨st, hP, newtonFinish_state h, by simpa using hc, rfl⟩

theorem newtonBody_iter {sys : NewtonSys K S} {st st' : NewtonState K S} (h : newtonBody sys st = .ok st') :
    st'.iter = st.iter + 1 ∧ st'.linSolves = st.linSolves + 1 ∧ st'.typ = st.typ := by
  unfold newtonBody at h
  split at h
  · cases h
  · split at h
    · cases h
    · injection h with h; subst h; exact ⟨rfl, rfl, rfl⟩

/-- C26. The solver terminates. -/
theorem C26_terminates (o : NewtonOpts K) (sys : NewtonSys K S) (t : String) (fuel : Nat) (hf : o.maxiter ≤ fuel) (s : S) :
    newtonSolve o sys t fuel s ≠ .diverged := by
  have : ∀ n0 fuel st, o.maxiter ≤ st.iter + fuel → newtonLoop o sys t n0 fuel st ≠ .diverged := by
    intro n0 fuel
    induction fuel with
    | zero =>
      intro st h
      unfold newtonLoop
      split_ifs with hc
      · simp only [Bool.and_eq_true, decide_eq_true_eq] at hc; omega
      · unfold newtonFinish; split_ifs <;> simp
    | succ fuel ih =>
      intro st h
      unfold newtonLoop
      split_ifs with hc
      · cases hb : newtonBody sys st with
        | error e => simp
        | ok st1 =>
          simp only
          exact ih st1 (by rw [(newtonBody_iter hb).1]; omega)
      · unfold newtonFinish; split_ifs <;> simp
  unfold newtonSolve
  split
  · simp
  · exact this _ fuel _ (by omega)

theorem newtonSolve_cases {o : NewtonOpts K} {sys : NewtonSys K S} {t : String} {fuel : Nat} {s : S} {st : NewtonState K S}
    (h : (newtonSolve o sys t fuel s).state? = some st) :
    ∃ s0, sys.init s = .ok s0 ∧ (newtonLoop o sys t (sys.rnorm s0) fuel (newtonInit sys s0)).state? = some st ∧
      newtonSolve o sys t fuel s = newtonLoop o sys t (sys.rnorm s0) fuel (newtonInit sys s0) := by
  unfold newtonSolve at h ⊢
  cases hs : sys.init s with
  | error e => rw [hs] at h; simp [NewtonOut.state?] at h
  | ok s0 => rw [hs] at h; exact ⟨s0, rfl, h, rfl⟩

/-- C26. At most `maxiter` linear solves are made. -/
theorem C26_linear_solves_bounded (o : NewtonOpts K) (sys : NewtonSys K S) (t : String) (fuel : Nat) (s : S)
    (st : NewtonState K S) (h : (newtonSolve o sys t fuel s).state? = some st) : st.linSolves ≤ o.maxiter := by
  obtain ⟨s0, -, hl, -⟩ := newtonSolve_cases h
  obtain ⟨sf, ⟨h1, h2⟩, rfl, -, -⟩ := newtonLoop_inv o sys t _ (fun st => st.linSolves = st.iter ∧ st.iter ≤ o.maxiter) (by
      intro st st' hP hlt _ hb
      obtain ⟨h1, h2, -⟩ := newtonBody_iter hb
      exact ⟨by omega, by omega⟩) fuel _ ⟨rfl, Nat.zero_le _⟩ st hl
  simp only; omega

/-- C26. The verdict: with `err_on_maxiter` an analysis error is raised iff the iteration limit was reached or the final
norm is NaN, without it the failure is only reported; otherwise the solve counts as converged. -/
theorem C26_verdict (o : NewtonOpts K) (sys : NewtonSys K S) (t : String) (fuel : Nat) (s : S)
    (st : NewtonState K S) (h : (newtonSolve o sys t fuel s).state? = some st) :
    (newtonSolve o sys t fuel s = .analysisError st ↔
      o.errOnMaxiter = true ∧ (o.maxiter ≤ st.linSolves ∨ st.norm = .nan)) ∧
    (newtonSolve o sys t fuel s = .failed st ↔
      o.errOnMaxiter = false ∧ (o.maxiter ≤ st.linSolves ∨ st.norm = .nan)) ∧
    (newtonSolve o sys t fuel s = .converged st ↔ ¬ (o.maxiter ≤ st.linSolves ∨ st.norm = .nan)) := by
  obtain ⟨s0, -, hl, he⟩ := newtonSolve_cases h
  obtain ⟨sf, h1, rfl, -, h3⟩ := newtonLoop_inv o sys t _ (fun st => st.linSolves = st.iter) (by
      intro st st' hP hlt _ hb
      obtain ⟨h1, h2, -⟩ := newtonBody_iter hb
      omega) fuel _ rfl st hl
  have hnan : sf.norm.isnan = true ↔ sf.norm = .nan := by cases sf.norm <;> simp [Flt.isnan]
  rw [he, h3]
  unfold newtonFinish
  have e : (decide (o.maxiter ≤ sf.iter) || sf.norm.isnan) = true ↔ (o.maxiter ≤ sf.linSolves ∨ sf.norm = .nan) := by
    simp [hnan, h1]
  simp only
  split_ifs with hc herr
  · have := e.mp hc; simp [herr, this]
  · have := e.mp hc; simp at herr; simp [herr, this]
  · have := mt e.mpr hc; simp [this]

/-- C26. Success means convergence: the final norm is not NaN and meets the absolute tolerance or (relative to the norm
before the first step) the relative tolerance, or a Newton step changed the unknowns by at most the step tolerance (the
last step, taken before any line search shortened it). Assumed: the initial norm is not infinite
(`C26_infinite_residual_refuted`), changes are not NaN, and the line search returns the norm of the state it returns
(`btSolve_norm`). -/
theorem C26_success_partial (o : NewtonOpts K) (sys : NewtonSys K S) (t : String) (fuel : Nat) (s : S)
    (hatol : 0 ≤ o.atol) (hdn : ∀ x y, sys.unorm x y ≠ .nan)
    (hinf : ∀ s0, sys.init s = .ok s0 → sys.rnorm s0 ≠ .pinf ∧ sys.rnorm s0 ≠ .ninf)
    (hls : ∀ f, sys.ls = some f → ∀ b bn x r, f b bn x (sys.rnorm x) = .ok r → r.2 = sys.rnorm r.1)
    (st : NewtonState K S) (h : newtonSolve o sys t fuel s = .converged st) :
    sys.rnorm st.s ≠ .nan ∧ ∃ s0, sys.init s = .ok s0 ∧
      ((sys.rnorm st.s).AtMost o.atol ∨ ((sys.rnorm st.s).div (sys.rnorm s0)).AtMost o.rtol ∨
        ∃ prev s', sys.step prev = .ok s' ∧ (sys.unorm s' prev).AtMost o.utol ∧ (sys.ls = none → s' = st.s)) := by
  obtain ⟨s0, hs0, hl, he⟩ := newtonSolve_cases (st := st) (by rw [h]; rfl)
  obtain ⟨sf, ⟨k1, k2⟩, rfl, k3, k4⟩ := newtonLoop_inv o sys t (sys.rnorm s0)
    (fun st => st.norm = sys.rnorm st.s ∧ ((st.unorm = .pinf ∧ st.s = s0) ∨
      ((sys.rnorm s0).gt (.fin o.atol) = true ∧ st.unorm ≠ .nan ∧ ∃ prev s', sys.step prev = .ok s' ∧
        st.unorm = sys.unorm s' prev ∧ (sys.ls = none → s' = st.s)))) (by
      intro st st' hP hlt hun hb
      have hgt : (sys.rnorm s0).gt (.fin o.atol) = true := by
        rcases hP.2 with ⟨-, h2⟩ | ⟨h1, -⟩
        · rw [hP.1, h2] at hun; simp only [newtonUnconverged, Bool.and_eq_true] at hun; exact hun.1.1
        · exact h1
      unfold newtonBody at hb
      cases hst : sys.step st.s with
      | error e => rw [hst] at hb; cases hb
      | ok s' =>
        rw [hst] at hb
        simp only at hb
        cases hlr : newtonLS sys st.s st.norm s' with
        | error e => rw [hlr] at hb; cases hb
        | ok r =>
          obtain ⟨s'', f⟩ := r
          rw [hlr] at hb
          injection hb with hb; subst hb
          unfold newtonLS at hlr
          cases hlsc : sys.ls with
          | none =>
            rw [hlsc] at hlr
            simp only [Except.ok.injEq, Prod.mk.injEq] at hlr
            refine ⟨by simp [← hlr.1, ← hlr.2], .inr ⟨hgt, hdn _ _, st.s, s', hst, rfl, fun _ => hlr.1⟩⟩
          | some g =>
            rw [hlsc] at hlr
            exact ⟨hls g hlsc _ _ _ _ hlr, .inr ⟨hgt, hdn _ _, st.s, s', hst, rfl, fun hc => by cases hc⟩⟩)
    fuel _ ⟨rfl, .inl ⟨rfl, rfl⟩⟩ st hl
  rw [he, k4] at h
  unfold newtonFinish at h
  split_ifs at h with hf
  simp only [Bool.or_eq_true, decide_eq_true_eq, not_or, not_le] at hf
  have hun : newtonUnconverged o (sys.rnorm s0) sf.norm sf.unorm = false := by
    by_contra hc; exact k3 ⟨hf.1, by simpa using hc⟩
  have hnan : sys.rnorm sf.s ≠ .nan := by
    intro hc; rw [k1, hc] at hf; exact hf.2 rfl
  refine ⟨hnan, s0, hs0, ?_⟩
  simp only [newtonUnconverged, Bool.and_eq_false_iff] at hun
  simp only
  rcases hun with (h1 | h2) | h3
  · left; rw [k1] at h1; exact Flt.atMost_of_not_gt h1 hnan
  · by_cases hgt : (sys.rnorm s0).gt (.fin o.atol) = true
    · right; left
      rw [k1] at h2
      refine Flt.atMost_of_not_gt h2 ?_
      obtain ⟨i1, i2⟩ := hinf s0 hs0
      cases hr : sys.rnorm s0 with
      | nan => rw [hr] at hgt; simp [Flt.gt, Flt.lt] at hgt
      | pinf => exact absurd hr i1
      | ninf => exact absurd hr i2
      | fin b =>
        rw [hr] at hgt
        have hb0 : o.atol < b := by simpa [Flt.gt, Flt.lt] using hgt
        have hb1 : b ≠ 0 := (lt_of_le_of_lt hatol hb0).ne'
        cases hx : sys.rnorm sf.s with
        | nan => exact absurd hx hnan
        | pinf => simp only [Flt.div]; split_ifs <;> simp
        | ninf => simp only [Flt.div]; split_ifs <;> simp
        | fin x => simp [Flt.div, hb1]
    · rcases k2 with ⟨-, h6⟩ | ⟨h5, -⟩
      · left
        rw [h6]; rw [h6] at hnan
        exact Flt.atMost_of_not_gt (by simpa using hgt) hnan
      · exact absurd h5 hgt
  · rcases k2 with ⟨h4, -⟩ | ⟨-, h5, prev, s', p1, p2, p3⟩
    · rw [h4] at h3; simp [Flt.gt, Flt.lt] at h3
    · right; right
      exact ⟨prev, s', p1, by rw [← p2]; exact Flt.atMost_of_not_gt h3 h5, p3⟩

/-- A system with a given norm history; the state counts the steps. `fails` says after which state a step raises. -/
def toyNewton (norm : Nat → Flt ℚ) (fails : Nat → Bool) : NewtonSys ℚ Nat where
  init n := .ok n
  rnorm := norm
  step n := if fails n then .error .ValueError else .ok (n + 1)
  unorm _ _ := .fin 1
  ls := none

/-- options for the concrete cases -/
def toyNOpts (maxiter : Nat) : NewtonOpts ℚ := { atol := 1 / 10, rtol := 1 / 10, utol := 1 / 1000, maxiter, errOnMaxiter := true }

/-- A run that converges after two steps. -/
example : newtonSolve (toyNOpts 5) (toyNewton (fun n => .fin (100 - 49 * n)) (fun _ => false)) "fd" 5 0 =
    .converged ⟨2, 2, .fin 2, .fin 1, 2, "fd"⟩ := by
  norm_num [newtonSolve, newtonLoop, newtonInit, newtonBody, newtonFinish, newtonUnconverged, newtonLS, toyNOpts, toyNewton,
    Flt.gt, Flt.lt, Flt.div, Flt.isnan]

/-- C26 "success means convergence" is false of the code for an infinite initial residual. -/
theorem C26_infinite_residual_refuted :
    newtonSolve (toyNOpts 5) (toyNewton (fun _ => .pinf) (fun _ => false)) "user" 5 0 =
      .converged ⟨0, 0, .pinf, .pinf, 0, "user"⟩ ∧ ¬ (Flt.pinf : Flt ℚ).AtMost (1 / 10) := by
  refine ⟨?_, id⟩
  norm_num [newtonSolve, newtonLoop, newtonInit, newtonFinish, newtonUnconverged, toyNOpts, toyNewton,
    Flt.gt, Flt.lt, Flt.div, Flt.isnan]

/-- C26. Whenever the solve ends by a verdict (including the analysis error), or by an exception of the initial run, the
derivative type of the group is what it was. Missing: exceptions inside the loop, refuted below. -/
theorem C26_type_restored_partial (o : NewtonOpts K) (sys : NewtonSys K S) (t : String) (fuel : Nat) (s : S) :
    (∀ st, (newtonSolve o sys t fuel s).state? = some st → (newtonSolve o sys t fuel s).typ? = some t) ∧
    (∀ e, sys.init s = .error e → (newtonSolve o sys t fuel s).typ? = some t) := by
  constructor
  · intro st h
    obtain ⟨s0, -, hl, he⟩ := newtonSolve_cases h
    obtain ⟨sf, -, -, -, h3⟩ := newtonLoop_inv o sys t _ (fun _ => True) (fun _ _ _ _ _ _ => trivial) fuel _ trivial st hl
    rw [he, h3]
    unfold newtonFinish
    split_ifs <;> rfl
  · intro e h
    unfold newtonSolve
    rw [h]; rfl

/-- C26 is false of the code when an exception interrupts an iteration (for example a failed model evaluation): the group
is left with derivative type 'user'. -/
theorem C26_type_not_restored_refuted :
    (newtonSolve (toyNOpts 5) (toyNewton (fun _ => .fin 1) (fun n => n == 1)) "fd" 5 0).typ? = some "user" := by
  norm_num [newtonSolve, newtonLoop, newtonInit, newtonBody, newtonFinish, newtonUnconverged, newtonLS, toyNOpts, toyNewton,
    Flt.gt, Flt.lt, Flt.div, Flt.isnan, NewtonOut.typ?]

/-! ## C27 -/

/-- The final state of a line search that ended by a verdict. -/
def BTOut.state? : BTOut K S → Option (BTState K S)
  | .converged st => some st
  | .failed st => some st
  | .analysisError st => some st
  | .raised _ => none
  | .diverged => none

theorem btFinish_state {o : BTOpts K} {st st' : BTState K S} (h : (btFinish o st).state? = some st') : st' = st := by
  unfold btFinish at h
  split_ifs at h <;> simp [BTOut.state?] at h <;> exact h.symm

theorem btLoop_inv (o : BTOpts K) (ev : K → Except PyErr S) (rn : S → Flt K) (bn : Flt K) (P : BTState K S → Prop)
    (hstep : ∀ st s', P st → st.iter < o.maxiter → ev (st.alpha * o.rho) = .ok s' →
      P { s := s', iter := st.iter + 1, alpha := st.alpha * o.rho, fnorm := rn s' }) :
    ∀ fuel st, P st → ∀ st', (btLoop o ev rn bn fuel st).state? = some st' →
      P st' ∧ ¬ (st'.iter < o.maxiter ∧ btInsufficient o bn st' = true) ∧
      btLoop o ev rn bn fuel st = btFinish o st' := by
  intro fuel
  induction fuel with
  | zero =>
    intro st hP st' h
    unfold btLoop at h ⊢
    split_ifs at h ⊢ with hc
    · simp [BTOut.state?] at h
    · have := btFinish_state h; subst this
      exact ⟨hP, by simpa using hc, rfl⟩
  | succ fuel ih =>
    intro st hP st' h
    unfold btLoop at h ⊢
    split_ifs at h ⊢ with hc
    · cases hb : ev (st.alpha * o.rho) with
      | error e => rw [hb] at h; simp [BTOut.state?] at h
      | ok s1 =>
        rw [hb] at h
        simp only at h ⊢
        simp only [Bool.and_eq_true, decide_eq_true_eq] at hc
        exact ih _ (hstep st s1 hP hc.1 hb) st' h
    · have := btFinish_state h; subst this
      exact ⟨hP, by simpa using hc, rfl⟩

/-- C27. The line search terminates. -/
theorem C27_terminates (o : BTOpts K) (ev : K → Except PyErr S) (rn : S → Flt K) (a0 : K) (bn : Flt K) (fuel : Nat)
    (hf : o.maxiter ≤ fuel) (s : S) (f : Flt K) : btSolve o ev rn a0 bn fuel s f ≠ .diverged := by
  have : ∀ fuel (st : BTState K S), o.maxiter ≤ st.iter + fuel → btLoop o ev rn bn fuel st ≠ .diverged := by
    intro fuel
    induction fuel with
    | zero =>
      intro st h
      unfold btLoop
      split_ifs with hc
      · simp only [Bool.and_eq_true, decide_eq_true_eq] at hc; omega
      · unfold btFinish; split_ifs <;> simp
    | succ fuel ih =>
      intro st h
      unfold btLoop
      split_ifs with hc
      · cases hb : ev (st.alpha * o.rho) with
        | error e => simp
        | ok st1 =>
          simp only
          exact ih _ (by simp only; omega)
      · unfold btFinish; split_ifs <;> simp
  exact this fuel _ (by simp; omega)

/-- C27. At most `maxiter` reductions are made; after `k` reductions the step length is `alpha * rho^k`, and the state
left behind is the model evaluated at that step length (or, without reductions, the state handed in). -/
theorem C27_step_lengths (o : BTOpts K) (ev : K → Except PyErr S) (rn : S → Flt K) (a0 : K) (bn : Flt K) (fuel : Nat)
    (s : S) (f : Flt K) (st : BTState K S) (h : (btSolve o ev rn a0 bn fuel s f).state? = some st) :
    st.iter ≤ o.maxiter ∧ st.alpha = a0 * o.rho ^ st.iter ∧
    (st.iter = 0 → st.s = s ∧ st.fnorm = f) ∧
    (0 < st.iter → ev (a0 * o.rho ^ st.iter) = .ok st.s ∧ st.fnorm = rn st.s) := by
  refine (btLoop_inv o ev rn bn (fun st => st.iter ≤ o.maxiter ∧ st.alpha = a0 * o.rho ^ st.iter ∧
    (st.iter = 0 → st.s = s ∧ st.fnorm = f) ∧
    (0 < st.iter → ev (a0 * o.rho ^ st.iter) = .ok st.s ∧ st.fnorm = rn st.s)) ?_ fuel _
    ⟨Nat.zero_le _, by simp, fun _ => ⟨rfl, rfl⟩, fun hc => by simp at hc⟩ st h).1
  rintro st s' ⟨h1, h2, -, -⟩ hlt hev
  have e : st.alpha * o.rho = a0 * o.rho ^ (st.iter + 1) := by rw [h2, pow_succ]; ring
  refine ⟨by simp only; omega, e, fun hc => by simp at hc, fun _ => ⟨by rw [← e]; exact hev, rfl⟩⟩

/-- The line search returns the norm of the state it returns (needed by C26). -/
theorem btSolve_norm (o : BTOpts K) (ev : K → Except PyErr S) (rn : S → Flt K) (a0 : K) (bn : Flt K) (fuel : Nat)
    (s : S) (st : BTState K S) (h : (btSolve o ev rn a0 bn fuel s (rn s)).state? = some st) : st.fnorm = rn st.s := by
  obtain ⟨-, -, h3, h4⟩ := C27_step_lengths o ev rn a0 bn fuel s (rn s) st h
  rcases Nat.eq_zero_or_pos st.iter with h0 | h0
  · obtain ⟨e1, e2⟩ := h3 h0; rw [e1, e2]
  · exact (h4 h0).2

variable [IsStrictOrderedRing K]

/-- C27. Unless failure is reported (or raised), the accepted residual norm is a number and decreases sufficiently:
`base - norm ≥ c * alpha * rho^k * base`. Assumed: the norm before the step is finite
(`C27_infinite_base_refuted`), norms are not minus infinity. -/
theorem C27_sufficient_decrease_partial (o : BTOpts K) (ev : K → Except PyErr S) (rn : S → Flt K) (a0 b : K) (fuel : Nat)
    (s : S) (hrn : ∀ x, rn x ≠ .ninf) (st : BTState K S)
    (h : btSolve o ev rn a0 (.fin b) fuel s (rn s) = .converged st) :
    ∃ x, rn st.s = .fin x ∧ o.c * (a0 * o.rho ^ st.iter) * b ≤ b - x := by
  have hst : (btSolve o ev rn a0 (.fin b) fuel s (rn s)).state? = some st := by rw [h]; rfl
  obtain ⟨-, h2, h3, h4⟩ := C27_step_lengths o ev rn a0 (.fin b) fuel s (rn s) st hst
  have hnorm : st.fnorm = rn st.s := btSolve_norm o ev rn a0 (.fin b) fuel s st hst
  obtain ⟨-, hnot, hfin⟩ := btLoop_inv o ev rn (.fin b) (fun _ => True) (fun _ _ _ _ _ => trivial) fuel _ trivial st hst
  have h' : btFinish o st = .converged st := by rw [← hfin]; exact h
  unfold btFinish at h'
  split_ifs at h' with hc
  simp only [Bool.or_eq_true, decide_eq_true_eq, not_or, not_le] at hc
  have hins : btInsufficient o (.fin b) st = false := by
    by_contra hcc; exact hnot ⟨hc.1, by simpa using hcc⟩
  rw [hnorm] at hc
  unfold btInsufficient at hins
  rw [hnorm] at hins
  cases hr : rn st.s with
  | nan => rw [hr] at hc; simp [Flt.isnan] at hc
  | ninf => exact absurd hr (hrn _)
  | pinf => rw [hr] at hins; simp [Flt.sub, Flt.neg, Flt.add, Flt.mul, Flt.lt] at hins
  | fin x =>
    rw [hr] at hins
    refine ⟨x, rfl, ?_⟩
    simp [Flt.sub, Flt.neg, Flt.add, Flt.mul, Flt.lt] at hins
    rw [← h2]; linarith

/-- C27. Failure is reported (or raised) iff `maxiter` reductions were made or the final norm is NaN. -/
theorem C27_failure_reported (o : BTOpts K) (ev : K → Except PyErr S) (rn : S → Flt K) (a0 : K) (bn : Flt K) (fuel : Nat)
    (s : S) (f : Flt K) (st : BTState K S) (h : (btSolve o ev rn a0 bn fuel s f).state? = some st) :
    (btSolve o ev rn a0 bn fuel s f = .converged st ↔ ¬ (st.iter = o.maxiter ∨ st.fnorm = .nan)) ∧
    (btSolve o ev rn a0 bn fuel s f = .analysisError st ↔ (st.iter = o.maxiter ∨ st.fnorm = .nan) ∧ o.errOnMaxiter = true) := by
  obtain ⟨h1, -⟩ := C27_step_lengths o ev rn a0 bn fuel s f st h
  obtain ⟨-, -, hfin⟩ := btLoop_inv o ev rn bn (fun _ => True) (fun _ _ _ _ _ => trivial) fuel _ trivial st h
  have hfin' : btSolve o ev rn a0 bn fuel s f = btFinish o st := hfin
  have hnan : st.fnorm.isnan = true ↔ st.fnorm = .nan := by cases st.fnorm <;> simp [Flt.isnan]
  have e : (decide (o.maxiter ≤ st.iter) || st.fnorm.isnan) = true ↔ (st.iter = o.maxiter ∨ st.fnorm = .nan) := by
    simp only [Bool.or_eq_true, decide_eq_true_eq, hnan]
    constructor
    · rintro (h | h); exacts [.inl (by omega), .inr h]
    · rintro (h | h); exacts [.inl (by omega), .inr h]
  rw [hfin']
  unfold btFinish
  split_ifs with hc herr
  · have := e.mp hc; simp [herr, this]
  · have := e.mp hc; simp at herr; simp [herr, this]
  · have := mt e.mpr hc; simp [this]

/-- Two reductions, then sufficient decrease. -/
example : btSolve (K := ℚ) (S := ℚ) { maxiter := 5, rho := 1 / 2, c := 1 / 2 } (fun a => .ok a) (fun a => .fin (10 * (1 - a) + 40 * a * a))
    1 (.fin 10) 5 1 (.fin 40) = .converged ⟨1 / 8, 3, 1 / 8, .fin (75 / 8)⟩ := by
  norm_num [btSolve, btLoop, btFinish, btInsufficient, Flt.sub, Flt.neg, Flt.add, Flt.mul, Flt.lt, Flt.isnan]

/-- C27 is false of the code when the norm before the step is infinite: an infinite norm is accepted. -/
theorem C27_infinite_base_refuted : btSolve (K := ℚ) { maxiter := 5, rho := 1 / 2, c := 1 / 2 } (fun _ => .ok ()) (fun _ => .pinf)
    1 .pinf 5 () .pinf = .converged ⟨(), 0, 1, .pinf⟩ := by
  norm_num [btSolve, btLoop, btFinish, btInsufficient, Flt.sub, Flt.neg, Flt.add, Flt.mul, Flt.lt, Flt.isnan]

/-- C27, within Newton. One Newton iteration with backtracking ends on the ray from the previous iterate along the Newton
direction, at the initial step length reduced `k ≤ maxiter` times, with the residual norm of that point; and, if the norm
before the iteration was a number and the search did not use up its iterations and did not meet NaN, with sufficient
decrease relative to the norm before the iteration. -/
theorem C27_newton_iteration {V : Type} (B : NewtonBTSys K S V) (o : BTOpts K) (a0 : K) (st st' : NewtonState K S)
    (h : newtonBody (B.toNewton o a0) st = .ok st') :
    ∃ (d : V) (k : Nat), B.dir st.s = .ok d ∧ k ≤ o.maxiter ∧ B.move st.s d (a0 * o.rho ^ k) = .ok st'.s ∧
      st'.norm = B.rnorm st'.s ∧
      (∀ b, st.norm = .fin b → (∀ x, B.rnorm x ≠ .ninf) → k < o.maxiter → st'.norm ≠ .nan →
        ∃ x, B.rnorm st'.s = .fin x ∧ o.c * (a0 * o.rho ^ k) * b ≤ b - x) ∧
      (o.errOnMaxiter = true → k < o.maxiter ∧ st'.norm ≠ .nan) := by
  unfold newtonBody at h
  cases hd : B.dir st.s with
  | error e => simp [NewtonBTSys.toNewton, hd] at h
  | ok d =>
    cases hm : B.move st.s d a0 with
    | error e => simp [NewtonBTSys.toNewton, hd, hm] at h
    | ok s1 =>
      have hstep : (B.toNewton o a0).step st.s = .ok s1 := by simp [NewtonBTSys.toNewton, hd, hm]
      have hls : newtonLS (B.toNewton o a0) st.s st.norm s1 =
          (btSolve o (B.move st.s d) B.rnorm a0 st.norm o.maxiter s1 (B.rnorm s1)).result := by
        simp [newtonLS, NewtonBTSys.toNewton, hd]
      rw [hstep] at h
      simp only at h
      rw [hls] at h
      have main : ∀ bt, (btSolve o (B.move st.s d) B.rnorm a0 st.norm o.maxiter s1 (B.rnorm s1)).state? = some bt →
          bt.iter ≤ o.maxiter ∧ B.move st.s d (a0 * o.rho ^ bt.iter) = .ok bt.s ∧ bt.fnorm = B.rnorm bt.s := by
        intro bt hbt
        obtain ⟨g1, -, g3, g4⟩ := C27_step_lengths o (B.move st.s d) B.rnorm a0 st.norm o.maxiter s1 (B.rnorm s1) bt hbt
        refine ⟨g1, ?_, btSolve_norm o _ _ _ _ _ _ _ hbt⟩
        rcases Nat.eq_zero_or_pos bt.iter with h0 | h0
        · rw [h0, pow_zero, mul_one, hm, (g3 h0).1]
        · exact (g4 h0).1
      have fin : ∀ bt, (btSolve o (B.move st.s d) B.rnorm a0 st.norm o.maxiter s1 (B.rnorm s1)).state? = some bt →
          st'.s = bt.s → st'.norm = bt.fnorm →
          (o.errOnMaxiter = true → bt.iter < o.maxiter ∧ bt.fnorm ≠ .nan) →
          ∃ (d' : V) (k : Nat), Except.ok (ε := PyErr) d = .ok d' ∧ k ≤ o.maxiter ∧ B.move st.s d' (a0 * o.rho ^ k) = .ok st'.s ∧
            st'.norm = B.rnorm st'.s ∧
            (∀ b, st.norm = .fin b → (∀ x, B.rnorm x ≠ .ninf) → k < o.maxiter → st'.norm ≠ .nan →
              ∃ x, B.rnorm st'.s = .fin x ∧ o.c * (a0 * o.rho ^ k) * b ≤ b - x) ∧
            (o.errOnMaxiter = true → k < o.maxiter ∧ st'.norm ≠ .nan) := by
        intro bt hbt e1 e2 herr
        obtain ⟨g1, g2, g3⟩ := main bt hbt
        refine ⟨d, bt.iter, rfl, g1, by rw [e1]; exact g2, by rw [e1, e2]; exact g3, ?_, by rw [e2]; exact herr⟩
        intro b hb hni hk hnan
        have hconv : btSolve o (B.move st.s d) B.rnorm a0 st.norm o.maxiter s1 (B.rnorm s1) = .converged bt :=
          (C27_failure_reported o _ _ a0 _ _ s1 _ bt hbt).1.mpr (by
            rintro (hc | hc)
            · omega
            · exact hnan (by rw [e2, hc]))
        rw [hb] at hconv
        obtain ⟨x, x1, x2⟩ := C27_sufficient_decrease_partial o _ _ a0 b _ s1 hni bt hconv
        exact ⟨x, by rw [e1]; exact x1, x2⟩
      cases hb : btSolve o (B.move st.s d) B.rnorm a0 st.norm o.maxiter s1 (B.rnorm s1) with
      | converged bt =>
        rw [hb] at h
        injection h with h
        have hbt : (btSolve o (B.move st.s d) B.rnorm a0 st.norm o.maxiter s1 (B.rnorm s1)).state? = some bt := by rw [hb]; rfl
        refine fin bt hbt (by subst h; rfl) (by subst h; rfl) fun _ => ?_
        have := (C27_failure_reported o _ _ a0 _ _ s1 _ bt hbt).1.mp hb
        have h1 := (main bt hbt).1
        exact ⟨by rcases Nat.lt_or_ge bt.iter o.maxiter with hc | hc
                  · exact hc
                  · exact absurd (.inl (by omega)) this, fun hc => this (.inr hc)⟩
      | failed bt =>
        rw [hb] at h
        injection h with h
        have hbt : (btSolve o (B.move st.s d) B.rnorm a0 st.norm o.maxiter s1 (B.rnorm s1)).state? = some bt := by rw [hb]; rfl
        refine fin bt hbt (by subst h; rfl) (by subst h; rfl) fun herr => ?_
        have q := C27_failure_reported o _ _ a0 _ _ s1 _ bt hbt
        by_cases hc : bt.iter = o.maxiter ∨ bt.fnorm = .nan
        · exact absurd (q.2.mpr ⟨hc, herr⟩) (by rw [hb]; simp)
        · exact absurd (q.1.mpr hc) (by rw [hb]; simp)
      | analysisError bt => rw [hb] at h; simp [BTOut.result] at h
      | raised e => rw [hb] at h; simp [BTOut.result] at h
      | diverged => rw [hb] at h; simp [BTOut.result] at h

/-- C27, within Newton. With a line search that raises on failure, parameters `0 ≤ c`, `0 ≤ rho`, a non-negative initial step
and norms that are non-negative or NaN or infinite, a Newton solve that starts at a finite residual norm and ends normally never ends with
a larger residual norm than it started with. -/
theorem C27_newton_never_worse {V : Type} (B : NewtonBTSys K S V) (o : BTOpts K) (no : NewtonOpts K) (a0 : K) (t : String)
    (fuel : Nat) (herr : o.errOnMaxiter = true) (hc : 0 ≤ o.c) (hrho : 0 ≤ o.rho) (ha : 0 ≤ a0)
    (hpos : ∀ x y, B.rnorm x = .fin y → 0 ≤ y) (hni : ∀ x, B.rnorm x ≠ .ninf)
    (s s0 : S) (b : K) (h0 : B.init s = .ok s0) (hb : B.rnorm s0 = .fin b) (st : NewtonState K S)
    (h : (newtonSolve no (B.toNewton o a0) t fuel s).state? = some st) :
    ∃ x, B.rnorm st.s = .fin x ∧ st.norm = .fin x ∧ x ≤ b := by
  obtain ⟨s0', hs0, hl, -⟩ := newtonSolve_cases h
  have e : s0' = s0 := by
    have : B.init s = .ok s0' := hs0
    rw [h0] at this; injection this with this; exact this.symm
  subst e
  obtain ⟨sf, ⟨x, k1, k2, k3⟩, rfl, -, -⟩ := newtonLoop_inv no (B.toNewton o a0) t _
    (fun st => ∃ x, B.rnorm st.s = .fin x ∧ st.norm = .fin x ∧ x ≤ b) (by
      rintro st st' ⟨x, p1, p2, p3⟩ - - hbody
      obtain ⟨d, k, -, -, -, q4, q5, q6⟩ := C27_newton_iteration B o a0 st st' hbody
      obtain ⟨r1, r2⟩ := q6 herr
      obtain ⟨y, y1, y2⟩ := q5 x p2 hni r1 r2
      refine ⟨y, y1, by rw [q4, y1], ?_⟩
      have : 0 ≤ o.c * (a0 * o.rho ^ k) * x := by
        have := hpos _ _ p1
        positivity
      linarith) fuel _ ⟨b, hb, hb, le_refl _⟩ st hl
  exact ⟨x, k1, k2, k3⟩

/-- A search that has to reduce its step: the residual `|x|` at `x = 1` with the direction `-3`: `1 - 3` is worse, `1 - 3/2` is
accepted. -/
def exBT : NewtonBTSys ℚ ℚ ℚ where
  init := .ok
  rnorm := fun x => .fin |x|
  unorm := fun x y => .fin |x - y|
  dir := fun x => .ok (-3 * x)
  move := fun x d a => .ok (x + a * d)

example : newtonSolve (K := ℚ) { atol := 3 / 4, rtol := 0, utol := 0, maxiter := 3 }
    (exBT.toNewton { maxiter := 3, rho := 1 / 2, c := 1 / 10, errOnMaxiter := true } 1) "user" 3 1 =
    .converged ⟨-1 / 2, 1, .fin (1 / 2), .fin 3, 1, "user"⟩ := by
  norm_num [newtonSolve, newtonLoop, newtonInit, newtonBody, newtonFinish, newtonUnconverged, newtonLS, exBT,
    NewtonBTSys.toNewton, btSolve, btLoop, btInsufficient, btFinish, BTOut.result,
    Flt.gt, Flt.lt, Flt.div, Flt.isnan, Flt.sub, Flt.neg, Flt.add, Flt.mul, abs_of_pos, abs_of_neg]

/-! ## C28 -/

/-- Specification: a number lies within optional bounds. -/
def Within (lo up : Option K) (x : K) : Prop := (∀ l, lo = some l → l ≤ x) ∧ (∀ u, up = some u → x ≤ u)

theorem limitUpper_spec {up : Option K} {v d a : K} (ha : 0 ≤ a) (hv : ∀ u, up = some u → v ≤ u) :
    ∃ a', limitUpper up v d (.fin a) = .fin a' ∧ 0 ≤ a' ∧ a' ≤ a ∧ ∀ b, 0 ≤ b → b ≤ a' → ∀ u, up = some u → v + b * d ≤ u := by
  cases up with
  | none => exact ⟨a, rfl, ha, le_refl _, by simp⟩
  | some u =>
    have hvu := hv u rfl
    have h0 : ¬ u - v < 0 := by linarith
    simp only [limitUpper, h0, if_false]
    rcases lt_trichotomy d 0 with hd | hd | hd
    · have key : ∀ b, 0 ≤ b → v + b * d ≤ u := fun b hb => by nlinarith
      have hdiv : (Flt.fin (u - v)).div (.fin d) = .fin ((u - v) / d) := by simp [Flt.div, hd.ne]
      rw [hdiv]
      by_cases hq : 0 ≤ (u - v) / d
      · by_cases hlt : (u - v) / d < a
        · refine ⟨(u - v) / d, by simp [limitBy, Flt.ge, Flt.lt, hq, hlt], hq, hlt.le, ?_⟩
          rintro b hb - u' ⟨⟩; exact key b hb
        · refine ⟨a, by simp [limitBy, Flt.ge, Flt.lt, hq, hlt], ha, le_refl _, ?_⟩
          rintro b hb - u' ⟨⟩; exact key b hb
      · refine ⟨a, by simp [limitBy, Flt.ge, hq], ha, le_refl _, ?_⟩
        rintro b hb - u' ⟨⟩; exact key b hb
    · subst hd
      refine ⟨a, ?_, ha, le_refl _, ?_⟩
      · rcases eq_or_lt_of_le hvu with e | e
        · subst e; simp [Flt.div, limitBy, Flt.ge]
        · have : u - v ≠ 0 := by linarith [sub_pos.mpr e]
          simp [Flt.div, limitBy, Flt.ge, this, sub_pos.mpr e, Flt.lt]
      · rintro b hb - u' ⟨⟩; simpa using hvu
    · have hdiv : (Flt.fin (u - v)).div (.fin d) = .fin ((u - v) / d) := by simp [Flt.div, hd.ne']
      rw [hdiv]
      have hq : 0 ≤ (u - v) / d := div_nonneg (by linarith) hd.le
      have key : ∀ b, b ≤ (u - v) / d → v + b * d ≤ u := by
        intro b hb
        have := mul_le_mul_of_nonneg_right hb hd.le
        rw [div_mul_cancel₀ _ hd.ne'] at this
        linarith
      by_cases hlt : (u - v) / d < a
      · refine ⟨(u - v) / d, by simp [limitBy, Flt.ge, Flt.lt, hq, hlt], hq, hlt.le, ?_⟩
        rintro b - hb u' ⟨⟩; exact key b hb
      · refine ⟨a, by simp [limitBy, Flt.ge, Flt.lt, hq, hlt], ha, le_refl _, ?_⟩
        rintro b - hb u' ⟨⟩; exact key b (hb.trans (not_lt.mp hlt))

theorem limitLower_spec {lo : Option K} {v d a : K} (ha : 0 ≤ a) (hv : ∀ l, lo = some l → l ≤ v) :
    ∃ a', limitLower lo v d (.fin a) = .fin a' ∧ 0 ≤ a' ∧ a' ≤ a ∧ ∀ b, 0 ≤ b → b ≤ a' → ∀ l, lo = some l → l ≤ v + b * d := by
  cases lo with
  | none => exact ⟨a, rfl, ha, le_refl _, by simp⟩
  | some l =>
    have hvl := hv l rfl
    have h0 : ¬ 0 < l - v := by linarith
    simp only [limitLower, h0, if_false]
    rcases lt_trichotomy d 0 with hd | hd | hd
    · have hdiv : (Flt.fin (l - v)).div (.fin d) = .fin ((l - v) / d) := by simp [Flt.div, hd.ne]
      rw [hdiv]
      have hq : 0 ≤ (l - v) / d := div_nonneg_of_nonpos (by linarith) hd.le
      have key : ∀ b, b ≤ (l - v) / d → l ≤ v + b * d := by
        intro b hb
        have := mul_le_mul_of_nonpos_right hb hd.le
        rw [div_mul_cancel₀ _ hd.ne] at this
        linarith
      by_cases hlt : (l - v) / d < a
      · refine ⟨(l - v) / d, by simp [limitBy, Flt.ge, Flt.lt, hq, hlt], hq, hlt.le, ?_⟩
        rintro b - hb u' ⟨⟩; exact key b hb
      · refine ⟨a, by simp [limitBy, Flt.ge, Flt.lt, hq, hlt], ha, le_refl _, ?_⟩
        rintro b - hb u' ⟨⟩; exact key b (hb.trans (not_lt.mp hlt))
    · subst hd
      refine ⟨a, ?_, ha, le_refl _, ?_⟩
      · rcases eq_or_lt_of_le hvl with e | e
        · subst e; simp [Flt.div, limitBy, Flt.ge]
        · have h1 : l - v ≠ 0 := by linarith [sub_pos.mpr e]
          have h2 : ¬ 0 < l - v := by linarith
          simp only [Flt.div, if_true, h1, h2, if_false, limitBy, Flt.ge]
          simp
      · rintro b hb - u' ⟨⟩; simpa using hvl
    · have key : ∀ b, 0 ≤ b → l ≤ v + b * d := fun b hb => by nlinarith
      have hdiv : (Flt.fin (l - v)).div (.fin d) = .fin ((l - v) / d) := by simp [Flt.div, hd.ne']
      rw [hdiv]
      by_cases hq : 0 ≤ (l - v) / d
      · by_cases hlt : (l - v) / d < a
        · refine ⟨(l - v) / d, by simp [limitBy, Flt.ge, Flt.lt, hq, hlt], hq, hlt.le, ?_⟩
          rintro b hb - u' ⟨⟩; exact key b hb
        · refine ⟨a, by simp [limitBy, Flt.ge, Flt.lt, hq, hlt], ha, le_refl _, ?_⟩
          rintro b hb - u' ⟨⟩; exact key b hb
      · refine ⟨a, by simp [limitBy, Flt.ge, hq], ha, le_refl _, ?_⟩
        rintro b hb - u' ⟨⟩; exact key b hb

/-- Specification: entry `j` of an optional bound. -/
def boundEntry (b : Option (NumArr K)) (j : Nat) : Option K := b.bind (bdEntry · j)

theorem limitVar_spec (lo up : Option (NumArr K)) (a0 : K) (ha : 0 ≤ a0) : ∀ (vs ds : List K) (j : Nat), vs.length = ds.length →
    (∀ (i : Nat) v, vs[i]? = some v → Within (boundEntry lo (j + i)) (boundEntry up (j + i)) v) →
    (limitVar lo up j vs ds (List.replicate vs.length (.fin a0))).length = vs.length ∧
    ∀ (i : Nat) v d, vs[i]? = some v → ds[i]? = some d → ∃ a,
      (limitVar lo up j vs ds (List.replicate vs.length (.fin a0)))[i]? = some (.fin a) ∧ 0 ≤ a ∧ a ≤ a0 ∧
      Within (boundEntry lo (j + i)) (boundEntry up (j + i)) (v + a * d) := by
  intro vs
  induction vs with
  | nil => intro ds j _ _; simp [limitVar]
  | cons v vs ih =>
    intro ds j hlen hin
    cases ds with
    | nil => simp at hlen
    | cons d ds =>
      obtain ⟨ih1, ih2⟩ := ih ds (j + 1) (by simpa using hlen) (by
        intro i w hw
        have := hin (i + 1) w (by simpa using hw)
        rwa [show j + (i + 1) = j + 1 + i by omega] at this)
      refine ⟨by simp [limitVar, List.replicate_succ, ih1], ?_⟩
      intro i w e hw he
      cases i with
      | zero =>
        simp only [List.getElem?_cons_zero, Option.some.injEq] at hw he
        subst hw he
        have h0 := hin 0 v rfl
        obtain ⟨a1, u1, u2, u3, u4⟩ := limitUpper_spec (up := boundEntry up j) (d := d) ha (by simpa using h0.2)
        obtain ⟨a2, l1, l2, l3, l4⟩ := limitLower_spec (lo := boundEntry lo j) (d := d) u2 (by simpa using h0.1)
        refine ⟨a2, ?_, l2, l3.trans u3, ?_⟩
        · simp only [limitVar, List.length_cons, List.replicate_succ, List.getElem?_cons_zero]
          unfold boundEntry at u1 l1
          rw [u1, l1]
        · exact ⟨fun l hl => l4 a2 l2 (le_refl _) l hl, fun u hu => u4 a2 l2 l3 u hu⟩
      | succ i =>
        obtain ⟨a, a1, a2, a3, a4⟩ := ih2 i w e (by simpa using hw) (by simpa using he)
        refine ⟨a, ?_, a2, a3, ?_⟩
        · simp only [limitVar, List.length_cons, List.replicate_succ, List.getElem?_cons_succ]
          exact a1
        · rwa [show j + (i + 1) = j + 1 + i by omega]

/-- C28. From values within their bounds, the limited step stays within the bounds: for every element of every variable
the step factor is a number between 0 and the requested one, and the new value is within the element's bounds. Missing
(refuted below): variables whose metadata has a `pass_by_obj` (or `remote`) entry. -/
theorem C28_step_within_bounds_partial (vars : List (StepVar K)) (a0 : K) (ha : 0 ≤ a0)
    (hlen : ∀ x ∈ vars, x.vals.length = x.du.length) (hskip : ∀ x ∈ vars, x.hasSkipKey = false)
    (hin : ∀ x ∈ vars, ∀ (i : Nat) v, x.vals[i]? = some v → Within (boundEntry x.lower i) (boundEntry x.upper i) v) :
    ∃ parts : List (List (Flt K)),
      stepLimit vars (List.replicate (vars.map (·.vals.length)).sum (.fin a0)) = parts.flatten ∧
      parts.map List.length = vars.map (·.vals.length) ∧
      ∀ (k : Nat) x part, vars[k]? = some x → parts[k]? = some part → ∀ (i : Nat) v d, x.vals[i]? = some v → x.du[i]? = some d →
        ∃ a, part[i]? = some (.fin a) ∧ 0 ≤ a ∧ a ≤ a0 ∧ Within (boundEntry x.lower i) (boundEntry x.upper i) (v + a * d) := by
  induction vars with
  | nil => exact ⟨[], rfl, rfl, by simp⟩
  | cons x vars ih =>
    obtain ⟨parts, p1, p2, p3⟩ := ih (fun y hy => hlen y (List.mem_cons_of_mem _ hy))
      (fun y hy => hskip y (List.mem_cons_of_mem _ hy)) (fun y hy => hin y (List.mem_cons_of_mem _ hy))
    obtain ⟨l1, l2⟩ := limitVar_spec x.lower x.upper a0 ha x.vals x.du 0 (hlen x List.mem_cons_self) (by
      intro i v hv; simpa using hin x List.mem_cons_self i v hv)
    refine ⟨limitVar x.lower x.upper 0 x.vals x.du (List.replicate x.vals.length (.fin a0)) :: parts, ?_, ?_, ?_⟩
    · simp only [stepLimit, hskip x List.mem_cons_self, Bool.false_eq_true, if_false, List.map_cons, List.sum_cons,
        List.take_replicate, List.drop_replicate, List.flatten_cons]
      rw [show min x.vals.length (x.vals.length + (vars.map (·.vals.length)).sum) = x.vals.length by omega,
        show x.vals.length + (vars.map (·.vals.length)).sum - x.vals.length = (vars.map (·.vals.length)).sum by omega, p1]
    · simp [l1, p2]
    · intro k y part hk hp
      cases k with
      | zero =>
        simp at hk hp; subst hk hp
        intro i v d hv hd
        obtain ⟨a, a1, a2, a3, a4⟩ := l2 i v d hv hd
        exact ⟨a, a1, a2, a3, by simpa using a4⟩
      | succ k => exact p3 k y part (by simpa using hk) (by simpa using hp)

example : stepLimit [⟨false, some (.s 0), some (.a [1, 2]), [1 / 2, 1], [2, -4]⟩, ⟨false, none, some (.s 5), [5], [3]⟩]
    [.fin 1, .fin 1, .fin 1] = [.fin (1 / 4 : ℚ), .fin (1 / 4), .fin 0] := by
  norm_num [stepLimit, limitVar, limitUpper, limitLower, limitBy, bdEntry, Flt.div, Flt.ge, Flt.lt]

/-- C28 is false of the code for a variable declared with `pass_by_obj=False`: the code tests the presence of the metadata
entry, not its value, and skips the bounds. -/
theorem C28_pass_by_obj_false_refuted :
    stepLimit [⟨true, none, some (.s 1), [0], [5]⟩] [.fin (1 : ℚ)] = [.fin 1] ∧ ¬ (0 + 1 * 5 ≤ (1 : ℚ)) := by
  refine ⟨?_, by norm_num⟩
  norm_num [stepLimit]

/-! ## C63 -/

/-- C63. An element that is outside its bounds and has a non-zero step is placed exactly on the violated bound, whatever
step length was requested. Missing: elements with a zero step, refuted below. -/
theorem C63_violated_returns_to_bound_partial (lo up : Option K) (v d : K) (hd : d ≠ 0) (a0 : Flt K)
    (hlu : ∀ l u, lo = some l → up = some u → l ≤ u) :
    (∀ u, up = some u → u < v → ∃ a, limitLower lo v d (limitUpper up v d a0) = .fin a ∧ v + a * d = u) ∧
    (∀ l, lo = some l → v < l → ∃ a, limitLower lo v d (limitUpper up v d a0) = .fin a ∧ v + a * d = l) := by
  constructor
  · rintro u rfl huv
    have h0 : u - v < 0 := by linarith
    have e1 : limitUpper (some u) v d a0 = .fin ((u - v) / d) := by simp [limitUpper, h0, Flt.div, hd]
    have hval : v + (u - v) / d * d = u := by rw [div_mul_cancel₀ _ hd]; ring
    rw [e1]
    cases lo with
    | none => exact ⟨_, rfl, hval⟩
    | some l =>
      have hl := hlu l u rfl rfl
      have h1 : ¬ 0 < l - v := by linarith
      refine ⟨(u - v) / d, ?_, hval⟩
      have e2 : (Flt.fin (l - v)).div (.fin d) = .fin ((l - v) / d) := by simp [Flt.div, hd]
      simp only [limitLower, h1, if_false, e2, limitBy]
      by_cases hq : 0 ≤ (l - v) / d
      · have hd0 : d < 0 := by
          by_contra hc
          have hd1 : 0 < d := lt_of_le_of_ne (not_lt.mp hc) (Ne.symm hd)
          have := (div_nonneg_iff.mp hq)
          rcases this with ⟨h, -⟩ | ⟨-, h⟩
          · linarith
          · linarith
        have : (u - v) / d ≤ (l - v) / d := div_le_div_of_nonpos_of_le hd0.le (by linarith)
        simp [Flt.ge, hq, Flt.lt, not_lt.mpr this]
      · simp [Flt.ge, hq]
  · rintro l rfl hvl
    have h0 : 0 < l - v := by linarith
    refine ⟨(l - v) / d, by simp [limitLower, h0, Flt.div, hd], ?_⟩
    rw [div_mul_cancel₀ _ hd]; ring

example : limitLower (some 0) 7 (-2) (limitUpper (some (3 : ℚ)) 7 (-2) (.fin 1)) = .fin 2 := by
  norm_num [limitLower, limitUpper, Flt.div, limitBy, Flt.ge, Flt.lt]

/-- C63 is false of the code for an element with zero step: the factor is minus infinity and the new value is NaN. -/
theorem C63_zero_step_refuted : limitUpper (some (3 : ℚ)) 7 0 (.fin 1) = .ninf ∧
    (Flt.fin (7 : ℚ)).add (Flt.ninf.mul (.fin 0)) = .nan := by
  norm_num [limitUpper, Flt.div, Flt.mul, Flt.add, Flt.infSign]

end OpenMDAO
