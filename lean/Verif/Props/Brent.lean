import Verif.Lemmas.Brent
import Mathlib.Algebra.Order.Ring.Rat
import Mathlib.Algebra.Field.Rat
import Mathlib.Topology.Order.IntermediateValue
import Mathlib.Topology.Instances.Real.Lemmas
/-! # Properties of the Brent solver (C86 to C88) -/
namespace OpenMDAO
set_option linter.unusedSectionVars false

section
variable {K σ : Type} [Field K] [LinearOrder K] [IsStrictOrderedRing K]

/-- **C86.** If the residual is a function of the state variable that does not vanish at the lower bound (or vanishes at both bounds), then whenever `Converged` is reported the state variable has been left between the bounds at a
root of the residual, or the residual has the other sign at a point between the bounds nearer than twice the tolerance. -/
theorem C86_converged_partial (o : BrentOpts σ K) (init : σ → σ × Except PyErr Unit) (eval : EvalAt σ K) (val : σ → K) (f : K → K) (hev : Residual eval val f) (hx : 0 ≤ o.xtol) (hr : 0 ≤ o.rtol) (s s' : σ)
    (hlow : f (o.lower s) ≠ 0 ∨ f (o.upper s) = 0) (hret : brentSolve o init eval s = (s', .ok true)) :
    Found f o.xtol o.rtol (min (o.lower s) (o.upper s)) (max (o.lower s) (o.upper s)) (val s') := by
  have hlo : min (o.lower s) (o.upper s) ≤ o.lower s ∧ o.lower s ≤ max (o.lower s) (o.upper s) := ⟨min_le_left _ _, le_max_left _ _⟩
  have hup : min (o.lower s) (o.upper s) ≤ o.upper s ∧ o.upper s ≤ max (o.lower s) (o.upper s) := ⟨min_le_right _ _, le_max_right _ _⟩
  unfold brentSolve at hret
  simp only at hret
  split at hret
  · simp at hret
  · rename_i s1 _ _
    split at hret
    · rename_i s2 xr hq
      have hss : s2 = s' := congrArg Prod.fst hret
      rw [← hss]
      unfold brentq at hq
      split at hq
      · simp at hq
      · rename_i s3 fa hea
        obtain ⟨_, ha⟩ := hev _ _ _ _ hea
        split at hq
        · simp at hq
        · rename_i s4 fb heb
          obtain ⟨hvb, hb⟩ := hev _ _ _ _ heb
          subst ha hb
          split at hq
          · simp at hq
          · rename_i hsign
            split at hq
            · rename_i hz
              have : s4 = s2 := congrArg Prod.fst hq
              rw [← this, hvb]
              refine ⟨hup, Or.inl ?_⟩
              rcases hlow with h1 | h1
              · exact absurd hz h1
              · exact h1
            · rename_i hz
              split at hq
              · rename_i hz2
                have : s4 = s2 := congrArg Prod.fst hq
                rw [← this, hvb]
                exact ⟨hup, Or.inl hz2⟩
              · rename_i hz2
                have hi := init_inv f _ _ hsign hz hz2
                exact loop_found eval val f hev o.xtol o.rtol hx hr o.maxiter _ s4 s2 xr hi _ _ hlo hup (Or.inl (lt_of_le_of_ne (not_lt.mp hsign) (mul_ne_zero hz hz2))) hvb hq
    · split at hret <;> simp at hret
    · simp at hret

/-- **C86.** The search does converge: if no component raises anything, the residual changes sign between the bounds and the iteration limit is large enough for the tolerance, `Converged` is reported. (The limit is the one that holds for
all residuals with every step of the smallest size.) -/
theorem C86_converges (o : BrentOpts σ K) (init : σ → σ × Except PyErr Unit) (eval : EvalAt σ K) (f : K → K) (hev : ∀ s x, ∃ s', eval s x = (s', .ok (f x))) (hx : 0 < o.xtol) (hr : 0 ≤ o.rtol) (s : σ) (hi : (init s).2 = .ok ())
    (hsign : f (o.lower s) * f (o.upper s) ≤ 0) (hmax : 2 * |o.upper s - o.lower s| < o.maxiter * o.xtol) : (brentSolve o init eval s).2 = .ok true := by
  unfold brentSolve
  simp only
  cases hin : init s with
  | mk s1 out =>
    rw [hin] at hi
    simp only at hi
    subst hi
    simp only
    obtain ⟨s2, h2⟩ := hev s1 (o.lower s)
    obtain ⟨s3, h3⟩ := hev s2 (o.upper s)
    unfold brentq
    rw [h2]
    simp only
    rw [h3]
    simp only
    rw [if_neg (not_lt.mpr hsign)]
    by_cases ha : f (o.lower s) = 0
    · rw [if_pos ha]
    · rw [if_neg ha]
      by_cases hb : f (o.upper s) = 0
      · rw [if_pos hb]
      · rw [if_neg hb]
        have hneg : f (o.lower s) * f (o.upper s) < 0 := lt_of_le_of_ne hsign (mul_ne_zero ha hb)
        obtain ⟨x, hx⟩ := loop_converges eval f hev o.xtol o.rtol hx hr o.maxiter ⟨o.lower s, f (o.lower s), o.upper s, f (o.upper s), 0, 0, 0, 0⟩ s3 (init_inv f _ _ (not_lt.mpr hsign) ha hb) (by
          rw [width_eq]
          simp only
          rw [if_pos hneg, abs_sub_comm]
          exact hmax)
        cases hq : brentLoop eval o.xtol o.rtol o.maxiter ⟨o.lower s, f (o.lower s), o.upper s, f (o.upper s), 0, 0, 0, 0⟩ s3 with
        | mk s4 out =>
          rw [hq] at hx
          simp only at hx
          subst hx
          rfl

/-- **C87.** The model is run for state values between the bounds only: two systems that agree there give the same result, whatever they do elsewhere. -/
theorem C87_within_bounds (o : BrentOpts σ K) (init : σ → σ × Except PyErr Unit) (eval eval' : EvalAt σ K) (f : K → K) (hx : 0 ≤ o.xtol) (hr : 0 ≤ o.rtol) (s : σ)
    (hev : ∀ t x, min (o.lower s) (o.upper s) ≤ x → x ≤ max (o.lower s) (o.upper s) → eval t x = eval' t x)
    (hf : ∀ t x t' r, min (o.lower s) (o.upper s) ≤ x → x ≤ max (o.lower s) (o.upper s) → eval t x = (t', .ok r) → r = f x) : brentSolve o init eval s = brentSolve o init eval' s := by
  have hq : ∀ s1, brentq eval o.xtol o.rtol o.maxiter (o.lower s) (o.upper s) s1 = brentq eval' o.xtol o.rtol o.maxiter (o.lower s) (o.upper s) s1 := by
    intro s1
    unfold brentq
    rw [← hev s1 (o.lower s) (min_le_left _ _) (le_max_left _ _)]
    cases ha : eval s1 (o.lower s) with
    | mk s2 out =>
      cases out with
      | error e => rfl
      | ok fa =>
        have hfa := hf _ _ _ _ (min_le_left _ _) (le_max_left _ _) ha
        simp only
        rw [← hev s2 (o.upper s) (min_le_right _ _) (le_max_right _ _)]
        cases hb : eval s2 (o.upper s) with
        | mk s3 out =>
          cases out with
          | error e => rfl
          | ok fb =>
            have hfb := hf _ _ _ _ (min_le_right _ _) (le_max_right _ _) hb
            subst hfa hfb
            simp only
            by_cases h1 : 0 < f (o.lower s) * f (o.upper s)
            · rw [if_pos h1, if_pos h1]
            · rw [if_neg h1, if_neg h1]
              by_cases h2 : f (o.lower s) = 0
              · rw [if_pos h2, if_pos h2]
              · rw [if_neg h2, if_neg h2]
                by_cases h3 : f (o.upper s) = 0
                · rw [if_pos h3, if_pos h3]
                · rw [if_neg h3, if_neg h3]
                  have hi := init_inv f _ _ h1 h2 h3
                  exact loop_agree eval eval' f _ _ hev hf o.xtol o.rtol hx hr o.maxiter _ s3 hi ⟨min_le_left _ _, le_max_left _ _⟩ ⟨min_le_right _ _, le_max_right _ _⟩
                    (Or.inl (lt_of_le_of_ne (not_lt.mp h1) (mul_ne_zero h2 h3)))
  unfold brentSolve
  simp only
  cases init s with
  | mk s1 out =>
    cases out with
    | error e => rfl
    | ok _ => simp only [hq s1]

/-- **C87.** Besides the initial run the model is run at most `maxiter + 2` times. -/
theorem C87_evaluations (o : BrentOpts σ K) (init : σ → σ × Except PyErr Unit) (eval : EvalAt σ K) (cnt : σ → Nat) (hc : ∀ s x, cnt (eval s x).1 ≤ cnt s + 1) (s : σ) :
    cnt (brentSolve o init eval s).1 ≤ cnt (init s).1 + o.maxiter + 2 := by
  have hq : ∀ a b s1, cnt (brentq eval o.xtol o.rtol o.maxiter a b s1).1 ≤ cnt s1 + o.maxiter + 2 := by
    intro a b s1
    unfold brentq
    have h1 := hc s1 a
    cases ha : eval s1 a with
    | mk s2 out =>
      rw [ha] at h1
      cases out with
      | error e => simp only at h1 ⊢; omega
      | ok fa =>
        simp only at h1 ⊢
        have h2 := hc s2 b
        cases hb : eval s2 b with
        | mk s3 out =>
          rw [hb] at h2
          cases out with
          | error e => simp only at h2 ⊢; omega
          | ok fb =>
            simp only at h2 ⊢
            have h3 := loop_count eval cnt hc o.xtol o.rtol o.maxiter ⟨a, fa, b, fb, 0, 0, 0, 0⟩ s3
            split
            · simp only; omega
            · split
              · simp only; omega
              · split
                · simp only; omega
                · omega
  unfold brentSolve
  simp only
  cases init s with
  | mk s1 out =>
    cases out with
    | error e => simp only; omega
    | ok _ =>
      simp only
      have := hq (o.lower s) (o.upper s) s1
      cases hb : brentq eval o.xtol o.rtol o.maxiter (o.lower s) (o.upper s) s1 with
      | mk s2 out =>
        rw [hb] at this
        simp only at this
        cases out with
        | ok _ => exact this
        | error e =>
          cases e
          case RuntimeError => simp only; split <;> exact this
          all_goals exact this

/-! ### Outcomes -/

/-- **C88.** An exception other than a `RuntimeError` that a component raises during the search reaches the caller of the solver. -/
theorem C88_errors_reach_caller_partial (o : BrentOpts σ K) (init : σ → σ × Except PyErr Unit) (eval : EvalAt σ K) (log : σ → Option PyErr) (ht : Traced eval log) (s : σ) (h0 : log (init s).1 = none) (e : PyErr) (hne : e ≠ .RuntimeError)
    (hlog : log (brentSolve o init eval s).1 = some e) : (brentSolve o init eval s).2 = .error e := by
  unfold brentSolve at hlog ⊢
  simp only at hlog ⊢
  cases hi : init s with
  | mk s1 out =>
    rw [hi] at h0 hlog
    cases out with
    | error e' => simp only at h0 hlog; rw [h0] at hlog; simp at hlog
    | ok _ =>
      simp only at h0 hlog ⊢
      have hb := (brentq_traced eval log ht o.xtol o.rtol o.maxiter (o.lower s) (o.upper s) s1 h0).1
      cases hq : brentq eval o.xtol o.rtol o.maxiter (o.lower s) (o.upper s) s1 with
      | mk s2 out =>
        rw [hq] at hb hlog
        simp only at hb
        cases out with
        | ok x =>
          simp only at hlog
          exact absurd (hb e hlog) (by simp)
        | error e2 =>
          have h2 : log s2 = some e := by
            cases e2
            case RuntimeError => simp only at hlog; split at hlog <;> exact hlog
            all_goals exact hlog
          have h3 := hb e h2
          cases h3
          cases e
          case RuntimeError => exact absurd rfl hne
          all_goals rfl

/-- **C88.** If no component raises anything, the solver reports convergence, or complains about bounds without a change of sign (`ValueError`), or did not converge: that is an `AnalysisError` if `err_on_maxiter` is set and silent
otherwise. The `ValueError` is raised exactly if the residuals at the bounds have the same sign. -/
theorem C88_outcomes (o : BrentOpts σ K) (init : σ → σ × Except PyErr Unit) (eval : EvalAt σ K) (f : K → K) (hev : ∀ s x, ∃ s', eval s x = (s', .ok (f x))) (s : σ) (hi : (init s).2 = .ok ()) :
    ((brentSolve o init eval s).2 = .error .ValueError ↔ 0 < f (o.lower s) * f (o.upper s)) ∧
    ((brentSolve o init eval s).2 = .ok true ∨ (brentSolve o init eval s).2 = .error .ValueError ∨ (brentSolve o init eval s).2 = if o.errOnMaxiter then .error .AnalysisError else .ok false) := by
  have hl : ∀ n v t, (brentLoop eval o.xtol o.rtol n v t).2 = .error .RuntimeError ∨ ∃ x, (brentLoop eval o.xtol o.rtol n v t).2 = .ok x := by
    intro n
    induction n with
    | zero => intro v t; left; rfl
    | succ n ih =>
      intro v t
      unfold brentLoop
      simp only
      split
      · right; exact ⟨_, rfl⟩
      · obtain ⟨t1, h1⟩ := hev t ((v.bracket.best.choose (o.xtol + o.rtol * |v.bracket.best.xcur|)).next (o.xtol + o.rtol * |v.bracket.best.xcur|))
        rw [h1]
        exact ih _ _
  unfold brentSolve
  simp only
  cases hin : init s with
  | mk s1 out =>
    rw [hin] at hi
    simp only at hi
    subst hi
    simp only
    obtain ⟨s2, h2⟩ := hev s1 (o.lower s)
    obtain ⟨s3, h3⟩ := hev s2 (o.upper s)
    unfold brentq
    rw [h2]
    simp only
    rw [h3]
    simp only
    by_cases hs : 0 < f (o.lower s) * f (o.upper s)
    · rw [if_pos hs]; simp [hs]
    · rw [if_neg hs]
      by_cases ha : f (o.lower s) = 0
      · rw [if_pos ha]; simp [hs]
      · rw [if_neg ha]
        by_cases hb : f (o.upper s) = 0
        · rw [if_pos hb]; simp [hs]
        · rw [if_neg hb]
          have := hl o.maxiter ⟨o.lower s, f (o.lower s), o.upper s, f (o.upper s), 0, 0, 0, 0⟩ s3
          cases hq : brentLoop eval o.xtol o.rtol o.maxiter ⟨o.lower s, f (o.lower s), o.upper s, f (o.upper s), 0, 0, 0, 0⟩ s3 with
          | mk s4 out =>
            rw [hq] at this
            rcases this with h | ⟨x, h⟩
            · simp only at h
              subst h
              simp only
              cases o.errOnMaxiter <;> simp [hs]
            · simp only at h
              subst h
              simp [hs]

end

/-- **C86.** For a continuous residual a report of `Converged` means that the residual has a root between the bounds, nearer to the state variable than twice the tolerance (relative to the larger bound). -/
theorem C86_root_near_partial {σ : Type} (o : BrentOpts σ ℝ) (init : σ → σ × Except PyErr Unit) (eval : EvalAt σ ℝ) (val : σ → ℝ) (f : ℝ → ℝ) (hc : Continuous f) (hev : Residual eval val f) (hx : 0 ≤ o.xtol) (hr : 0 ≤ o.rtol) (s s' : σ)
    (hlow : f (o.lower s) ≠ 0 ∨ f (o.upper s) = 0) (hret : brentSolve o init eval s = (s', .ok true)) :
    ∃ x, f x = 0 ∧ min (o.lower s) (o.upper s) ≤ x ∧ x ≤ max (o.lower s) (o.upper s) ∧ |val s' - x| ≤ 2 * (o.xtol + o.rtol * max |o.lower s| |o.upper s|) := by
  obtain ⟨hin, h | ⟨y, z, hz, hy, hneg, hd⟩⟩ := C86_converged_partial o init eval val f hev hx hr s s' hlow hret
  · refine ⟨val s', h, hin.1, hin.2, ?_⟩
    rw [sub_self, abs_zero]
    have := mul_nonneg hr (le_trans (abs_nonneg (o.lower s)) (le_max_left _ |o.upper s|))
    linarith
  · have habs : ∀ w, min (o.lower s) (o.upper s) ≤ w → w ≤ max (o.lower s) (o.upper s) → |w| ≤ max |o.lower s| |o.upper s| := by
      intro w h1 h2
      rw [abs_le]
      constructor
      · rcases le_total (o.lower s) (o.upper s) with h | h
        · rw [min_eq_left h] at h1
          linarith [neg_abs_le (o.lower s), le_max_left |o.lower s| |o.upper s|]
        · rw [min_eq_right h] at h1
          linarith [neg_abs_le (o.upper s), le_max_right |o.lower s| |o.upper s|]
      · rcases le_total (o.lower s) (o.upper s) with h | h
        · rw [max_eq_right h] at h2
          linarith [le_abs_self (o.upper s), le_max_right |o.lower s| |o.upper s|]
        · rw [max_eq_left h] at h2
          linarith [le_abs_self (o.lower s), le_max_left |o.lower s| |o.upper s|]
    have hzb : |z| ≤ max |o.lower s| |o.upper s| := by
      rcases hz with rfl | rfl
      · exact habs _ hin.1 hin.2
      · exact habs _ hy.1 hy.2
    have hbound : |val s' - y| ≤ 2 * (o.xtol + o.rtol * max |o.lower s| |o.upper s|) := by
      have := mul_le_mul_of_nonneg_left hzb hr
      linarith
    have hmem : (0 : ℝ) ∈ Set.uIcc (f (val s')) (f y) := by
      rw [Set.mem_uIcc]
      rcases mul_neg_iff.mp hneg with ⟨h1, h2⟩ | ⟨h1, h2⟩
      · right; exact ⟨h2.le, h1.le⟩
      · left; exact ⟨h1.le, h2.le⟩
    obtain ⟨x, hxm, hx0⟩ := intermediate_value_uIcc hc.continuousOn hmem
    rw [Set.mem_uIcc] at hxm
    refine ⟨x, hx0, ?_, ?_, ?_⟩
    · rcases hxm with h | h
      · exact le_trans hin.1 h.1
      · exact le_trans hy.1 h.1
    · rcases hxm with h | h
      · exact le_trans h.2 hy.2
      · exact le_trans h.2 hin.2
    · refine le_trans ?_ hbound
      rcases hxm with ⟨h1, h2⟩ | ⟨h1, h2⟩
      · rw [abs_sub_comm, abs_of_nonneg (by linarith), abs_sub_comm, abs_of_nonneg (by linarith)]; linarith
      · rw [abs_of_nonneg (by linarith), abs_of_nonneg (by linarith)]; linarith

/-- **C88.** `setup` succeeds exactly if the state variable is named and every bound that is to be read from a variable names (by its promoted name at the top) a parameter of the system; it then returns such parameters. -/
theorem C88_setup (params : List (String × String)) (sv vl vu : String) :
    (∀ l u, brentSetup params sv vl vu = .ok (l, u) → sv ≠ "" ∧ (vl = "" ∧ l = none ∨ ∃ n, l = some n ∧ (n, vl) ∈ params) ∧ (vu = "" ∧ u = none ∨ ∃ n, u = some n ∧ (n, vu) ∈ params)) ∧
    (brentSetup params sv vl vu = .error .ValueError ↔ sv = "" ∨ (vl ≠ "" ∧ ∀ n, (n, vl) ∉ params) ∨ (vu ≠ "" ∧ ∀ n, (n, vu) ∉ params)) := by
  have hb : ∀ v, (v = "" ∧ brentBound params v = .ok none) ∨ (v ≠ "" ∧ ∃ n, (n, v) ∈ params ∧ brentBound params v = .ok (some n)) ∨ (v ≠ "" ∧ (∀ n, (n, v) ∉ params) ∧ brentBound params v = .error .ValueError) := by
    intro v
    unfold brentBound
    by_cases hv : v = ""
    · left; exact ⟨hv, by rw [if_pos hv]⟩
    · right
      rw [if_neg hv]
      cases hf : params.find? fun p => decide (p.2 = v) with
      | some p =>
        left
        have h1 := List.find?_some hf
        have h2 := List.mem_of_find?_eq_some hf
        refine ⟨hv, p.1, ?_, rfl⟩
        have h3 : p.2 = v := by simpa using h1
        rw [← h3]; exact h2
      | none =>
        right
        refine ⟨hv, ?_, rfl⟩
        intro n hn
        have := List.find?_eq_none.mp hf _ hn
        simp at this
  unfold brentSetup
  by_cases hs : sv = ""
  · rw [if_pos hs]; simp [hs]
  · rw [if_neg hs]
    simp only [Bind.bind, Except.bind]
    rcases hb vl with ⟨h1, h2⟩ | ⟨h1, n, h2, h3⟩ | ⟨h1, h2, h3⟩ <;> rcases hb vu with ⟨g1, g2⟩ | ⟨g1, m, g2, g3⟩ | ⟨g1, g2, g3⟩
    all_goals simp_all
    all_goals first | exact ⟨⟨_, h2⟩, ⟨_, g2⟩⟩ | exact ⟨_, by assumption⟩

/-! ### Concrete systems -/

/-- A system whose state is the state variable, a counter and the last exception; the residual is `f`, the component raises at some points. -/
def toyBrentEval (f : ℚ → ℚ) (bad : ℚ → Option PyErr) : EvalAt (ℚ × Nat × Option PyErr) ℚ := fun s x =>
  match bad x with
  | some e => ((x, s.2.1 + 1, some e), .error e)
  | none => ((x, s.2.1 + 1, s.2.2), .ok (f x))

def toyBrentInit : (ℚ × Nat × Option PyErr) → (ℚ × Nat × Option PyErr) × Except PyErr Unit := fun s => (s, .ok ())

/-- The default options but for the tolerances. -/
def toyBrent : BrentOpts (ℚ × Nat × Option PyErr) ℚ := ⟨fun _ => 0, fun _ => 100, 1/1000, 0, 100, false⟩

theorem toy_residual (f : ℚ → ℚ) (bad : ℚ → Option PyErr) : Residual (toyBrentEval f bad) Prod.fst f := by
  intro s x s' r h
  unfold toyBrentEval at h
  cases hb : bad x with
  | some e => rw [hb] at h; simp at h
  | none =>
    rw [hb] at h
    simp only [Prod.mk.injEq, Except.ok.injEq] at h
    exact ⟨by rw [← h.1], h.2.symm⟩

theorem toy_traced (f : ℚ → ℚ) (bad : ℚ → Option PyErr) : Traced (toyBrentEval f bad) (fun s => s.2.2) := by
  intro s x
  unfold toyBrentEval
  cases hb : bad x with
  | some e => simp
  | none => simp

/-- The hypotheses of the theorems above are met by `x² - 2` (not zero at the bounds); the search converges. -/
example : (fun x : ℚ => x * x - 2) (toyBrent.lower (7, 0, none)) ≠ 0 ∧ (brentSolve toyBrent toyBrentInit (toyBrentEval (fun x : ℚ => x * x - 2) fun _ => none) (7, 0, none)).2 = .ok true ∧ 0 ≤ toyBrent.xtol ∧ 0 ≤ toyBrent.rtol := by
  refine ⟨by norm_num [toyBrent], by decide +kernel, by norm_num [toyBrent], by norm_num [toyBrent]⟩

example : ((fun x : ℚ => x * x - 2) 0) * ((fun x : ℚ => x * x - 2) 100) ≤ 0 ∧ 2 * |(100 : ℚ) - 0| < ((300 : Nat) : ℚ) * 1 := by norm_num

/-- An exception of a component met during the search. -/
example : (brentSolve toyBrent toyBrentInit (toyBrentEval (fun x : ℚ => x * x - 2) fun x => if 1 < x ∧ x < 3 then some .ZeroDivisionError else none) (7, 0, none)).1.2.2 = some .ZeroDivisionError := by decide +kernel

/-- No change of sign; and too few iterations, with and without `err_on_maxiter`. -/
example : (brentSolve toyBrent toyBrentInit (toyBrentEval (fun x : ℚ => x * x + 2) fun _ => none) (7, 0, none)).2 = .error .ValueError ∧
    (brentSolve { toyBrent with maxiter := 2 } toyBrentInit (toyBrentEval (fun x : ℚ => x * x - 2) fun _ => none) (7, 0, none)).2 = .ok false ∧
    (brentSolve { toyBrent with maxiter := 2, errOnMaxiter := true } toyBrentInit (toyBrentEval (fun x : ℚ => x * x - 2) fun _ => none) (7, 0, none)).2 = .error .AnalysisError := by
  refine ⟨by decide +kernel, by decide +kernel, by decide +kernel⟩

example : brentSetup [("c.lo", "a.lo"), ("c.hi", "hi")] "x" "hi" "" = .ok (some "c.hi", none) ∧ brentSetup [("c.lo", "a.lo")] "x" "lo" "" = .error .ValueError := by
  refine ⟨by decide +kernel, by decide +kernel⟩

/-- **C86 is false as it stands.** With the default bounds and the residual `x`, whose root is the lower bound, the solver reports convergence and leaves the state variable at the upper bound, where the residual is `100`. -/
theorem C86_lower_root_refuted : ¬ ∀ (f : ℚ → ℚ) (s s' : ℚ × Nat × Option PyErr), brentSolve toyBrent toyBrentInit (toyBrentEval f fun _ => none) s = (s', .ok true) → Found f toyBrent.xtol toyBrent.rtol (min (toyBrent.lower s) (toyBrent.upper s)) (max (toyBrent.lower s) (toyBrent.upper s)) s'.1 := by
  intro h
  have h1 := h (fun x => x) (7, 0, none) (100, 2, none) (by decide +kernel)
  rcases h1.2 with h2 | ⟨y, z, _, hy, hneg, _⟩
  · norm_num at h2
  · have h3 : (0 : ℚ) ≤ y := le_trans (by norm_num [toyBrent]) hy.1
    simp only at hneg
    linarith

/-- **C88 is false as it stands.** A `RuntimeError` raised by a component is taken for a failure to converge: with the default options the solver returns as if nothing had happened. -/
theorem C88_component_error_refuted : ¬ ∀ (bad : ℚ → Option PyErr) (s : ℚ × Nat × Option PyErr) (e : PyErr), (brentSolve toyBrent toyBrentInit (toyBrentEval (fun x => x * x - 2) bad) s).1.2.2 = some e →
    (brentSolve toyBrent toyBrentInit (toyBrentEval (fun x => x * x - 2) bad) s).2 = .error e := by
  intro h
  have h1 := h (fun x => if 1 < x ∧ x < 3 then some .RuntimeError else none) (7, 0, none) .RuntimeError (by decide +kernel)
  have h2 : (brentSolve toyBrent toyBrentInit (toyBrentEval (fun x => x * x - 2) fun x => if 1 < x ∧ x < 3 then some .RuntimeError else none) (7, 0, none)).2 = .ok false := by decide +kernel
  rw [h2] at h1
  simp at h1

/-- Bounds that are read from variables are the values of those variables before the initial run of the solver: a component that computes the bound is not consulted. -/
theorem finding_stale_bounds : (brentSolve (σ := ℚ × ℚ) ⟨fun _ => 0, fun s => s.2, 1/1000, 0, 100, false⟩ (fun s => ((s.1, 4), .ok ())) (fun s x => ((x, s.2), .ok (x - 3))) (7, 1)).2 = .error .ValueError := by decide +kernel

end OpenMDAO
