import Verif.Lemmas.ComplexStep
import Verif.Lemmas.ComplexError
import Mathlib.Analysis.Calculus.Deriv.Pow
import Mathlib.Analysis.Calculus.Deriv.Add
import Mathlib.Analysis.Calculus.Deriv.Mul
/-! # Properties of the complex step linearization (C84, C85) -/
namespace OpenMDAO
set_option linter.unusedSectionVars false
open Topology Filter

theorem target_of (c : CsComp) (ps : List (Str × CsParam)) (uvec rvec : List (Str × List ℝ)) (fdP : List Str) (hset : SetUp c ps uvec rvec fdP) (p : Str) (hp : p ∈ fdP ++ c.states) :
    ∃ val, Target c ps uvec p val := by
  by_cases hs : p ∈ c.states
  · obtain ⟨m, hm⟩ := Option.isSome_iff_exists.mp (hset.states p hs)
    obtain ⟨v, hv, _⟩ := Option.map_eq_some_iff.mp hm
    exact ⟨v, fun h => absurd hs h, fun _ => hv⟩
  · rcases List.mem_append.mp hp with hp | hp
    · obtain ⟨m, hm⟩ := Option.isSome_iff_exists.mp (hset.params p hp).1
      obtain ⟨q, hq, _⟩ := Option.map_eq_some_iff.mp hm
      exact ⟨q.val, fun _ => ⟨q, hq, rfl⟩, fun h => absurd h hs⟩
    · exact absurd hp hs

theorem target_unique (c : CsComp) (ps : List (Str × CsParam)) (uvec : List (Str × List ℝ)) (p : Str) (v w : List ℝ) (hv : Target c ps uvec p v) (hw : Target c ps uvec p w) : v = w := by
  by_cases hs : p ∈ c.states
  · have := hv.state hs
    rw [hw.state hs] at this
    exact (Option.some.inj this).symm
  · obtain ⟨q, h1, h2⟩ := hv.param hs
    obtain ⟨q', h3, h4⟩ := hw.param hs
    rw [h1] at h3
    cases h3
    rw [← h2, ← h4]

theorem lookup_of_keys (d : List (Str × List ℝ)) (u : List (Str × List ℝ)) (h : layoutOf d = layoutOf u) (n : Str) : (d.lookup n).map List.length = (u.lookup n).map List.length := by
  induction u generalizing d with
  | nil => cases d with
    | nil => rfl
    | cons _ _ => simp [layoutOf] at h
  | cons x u ih =>
    cases d with
    | nil => simp [layoutOf] at h
    | cons y d =>
      obtain ⟨a, b⟩ := x
      obtain ⟨a', b'⟩ := y
      simp only [layoutOf, List.map_cons, List.cons.injEq, Prod.mk.injEq] at h
      simp only [List.lookup_cons, h.1.1]
      cases n == a
      · exact ih d h.2
      · simp [h.1.2]

theorem csInv_init (c : CsComp) (ps : List (Str × CsParam)) (uvec rvec : List (Str × List ℝ)) (fdP : List Str) (hset : SetUp c ps uvec rvec fdP) :
    CsInv c uvec ⟨uvec, rvec, csCopy uvec, csCopy rvec, none, []⟩ := by
  refine ⟨rfl, hset.layout, ?_, ?_, fun _ => rfl⟩
  · intro n v hv
    rw [lookup_csCopy] at hv
    obtain ⟨w, _, hw⟩ := Option.map_eq_some_iff.mp hv
    exact ⟨_, hw.symm⟩
  · intro ns hns
    rw [lookup_csCopy, Option.isSome_map]
    have h1 := hset.states _ (hset.scalers ns hns).1
    unfold unknownSize at h1
    have h2 := lookup_of_keys rvec uvec hset.layout ns.1
    rw [← h2, Option.isSome_map] at h1
    exact h1

/-- All blocks. -/
theorem csJacobian_spec (c : CsComp) (ps : List (Str × CsParam)) (uvec rvec : List (Str × List ℝ)) (fdP fdU : List Str) (steps : List (Str × ℝ)) (h : ℝ) (hw : WellBehaved c ps uvec fdU)
    (hset : SetUp c ps uvec rvec fdP) :
    ∃ r' J, csJacobian c ps uvec rvec fdP fdU steps h = .ok ((uvec, r'), J) ∧ (r' = rvec ∨ (c.states = [] ∧ r' = zeroed uvec)) ∧
      (c.states = [] → (∃ p ∈ fdP, ∃ q, ps.lookup p = some q ∧ q.val ≠ []) → r' = zeroed uvec) ∧
      ∀ p ∈ fdP ++ c.states, ∀ val, Target c ps uvec p val → ∀ u ∈ fdU, ∃ m, unknownSize uvec u = some m ∧ CBlk J u p m val.length val.length
        (fun j => csCol c ps uvec ⟨decide (p ∈ c.states), p, j, Complex.I * (((steps.lookup p).getD h : ℝ) : ℂ)⟩ ((steps.lookup p).getD h) u) := by
  obtain ⟨s, h1, h2, h3, h4, h5⟩ := foldlM_ok (csVar c ps fdU steps h) (fdP ++ c.states)
    (fun pre s => CsInv c uvec s.1 ∧ (s.1.rvec = rvec ∨ (c.states = [] ∧ s.1.rvec = zeroed uvec)) ∧
      (c.states = [] → (∃ p ∈ pre, ∃ val, Target c ps uvec p val ∧ val ≠ []) → s.1.rvec = zeroed uvec) ∧
      ∀ p ∈ pre, ∀ val, Target c ps uvec p val → ∀ u ∈ fdU, ∃ m, unknownSize uvec u = some m ∧ CBlk s.2 u p m val.length val.length
        (fun j => csCol c ps uvec ⟨decide (p ∈ c.states), p, j, Complex.I * (((steps.lookup p).getD h : ℝ) : ℂ)⟩ ((steps.lookup p).getD h) u))
    (by
      rintro pre p ⟨st, J⟩ hp ⟨hi, hr, hz, hb⟩
      obtain ⟨val, ht⟩ := target_of c ps uvec rvec fdP hset p hp
      obtain ⟨st', J', g1, g2, g3, g4, g5⟩ := csVar_spec c ps uvec rvec fdP fdU steps h hw hset p val ht st hi J
      refine ⟨(st', J'), g1, g2, ?_, ?_, ?_⟩
      · show st'.rvec = rvec ∨ _
        rw [g3]
        by_cases hc : c.states = [] ∧ val ≠ []
        · rw [if_pos hc]; exact Or.inr ⟨hc.1, rfl⟩
        · rw [if_neg hc]; exact hr
      · rintro hs ⟨p', hp', val', ht', hne⟩
        show st'.rvec = zeroed uvec
        rw [g3]
        by_cases hc : c.states = [] ∧ val ≠ []
        · rw [if_pos hc]
        · rw [if_neg hc]
          rcases List.mem_append.mp hp' with hp' | hp'
          · exact hz hs ⟨p', hp', val', ht', hne⟩
          · rw [List.mem_singleton.mp hp'] at ht'
            exact absurd ⟨hs, by rw [target_unique c ps uvec p val val' ht ht']; exact hne⟩ hc
      · intro p' hp' val' ht' u hu
        by_cases he : p' = p
        · subst he
          rw [target_unique c ps uvec p' val' val ht' ht]
          exact g4 u hu
        · rcases List.mem_append.mp hp' with hp' | hp'
          · obtain ⟨m, hm, b, hb1, hb2⟩ := hb p' hp' val' ht' u hu
            exact ⟨m, hm, b, by rw [g5 (u, p') he]; exact hb1, hb2⟩
          · exact absurd (List.mem_singleton.mp hp') he)
    (⟨uvec, rvec, csCopy uvec, csCopy rvec, none, []⟩, []) ⟨csInv_init c ps uvec rvec fdP hset, Or.inl rfl, by simp, by simp⟩
  refine ⟨s.1.rvec, s.2, ?_, h3, ?_, h5⟩
  · unfold csJacobian
    simp only [h1, Bind.bind, Except.bind]
    rw [h2.uvec]
  · rintro hs ⟨p, hp, q, hq, hne⟩
    exact h4 hs ⟨p, by simp [hp], q.val, ⟨fun _ => ⟨q, hq, rfl⟩, fun hps => absurd hps (by simp [hs])⟩, hne⟩

/-- **C84.** For a component whose code computes everything it assigns, the entry of the complex step Jacobian for entry `r` of an unknown (of a residual, if the component has states) and entry `j` of a parameter without
unit conversion, or of a state, differs from the derivative of that value with respect to the stored entry by at most a constant times the square of the step, provided that the value is an analytic function of the entry. -/
theorem C84_derivative_partial (c : CsComp) (ps : List (Str × CsParam)) (uvec rvec : List (Str × List ℝ)) (fdP fdU : List Str) (steps : List (Str × ℝ)) (hw : WellBehaved c ps uvec fdU) (hset : SetUp c ps uvec rvec fdP)
    (p : Str) (hp : p ∈ fdP ++ c.states) (hconv : p ∉ c.states → ∀ q, ps.lookup p = some q → q.conv = none) (hst : steps.lookup p = none)
    (j : Nat) (hj : ∃ n, (if p ∈ c.states then unknownSize uvec p else paramSize ps p) = some n ∧ j < n)
    (u : Str) (hu : u ∈ fdU) (r : Nat) (g : ℂ → ℂ) (f : ℝ → ℝ) (hg : AnalyticAt ℂ g 0) (hf : ∀ᶠ t : ℝ in 𝓝 0, g (t : ℂ) = (f t : ℂ))
    (hval : ∀ᶠ t : ℂ in 𝓝 0, AssignsAt c ps uvec ⟨decide (p ∈ c.states), p, j, t⟩ u r (g t)) :
    ∃ D C δ : ℝ, 0 < δ ∧ HasDerivAt f D 0 ∧ ∀ h : ℝ, h ≠ 0 → |h| < δ → ∃ out J b col x, csJacobian c ps uvec rvec fdP fdU steps h = .ok (out, J) ∧
      J.lookup (u, p) = some b ∧ b[j]? = some col ∧ col[r]? = some x ∧ |x - D| ≤ C * h ^ 2 := by
  obtain ⟨D, C, δ, hδ, hD, herr⟩ := cs_error g f hg hf
  have hval' : ∀ᶠ h : ℝ in 𝓝 0, AssignsAt c ps uvec ⟨decide (p ∈ c.states), p, j, Complex.I * (h : ℂ)⟩ u r (g (Complex.I * (h : ℂ))) := by
    have hcont : Tendsto (fun t : ℝ => Complex.I * (t : ℂ)) (𝓝 0) (𝓝 0) := by
      have hc : Continuous fun t : ℝ => Complex.I * (t : ℂ) := continuous_const.mul Complex.continuous_ofReal
      have := hc.tendsto 0
      simp only [Complex.ofReal_zero, mul_zero] at this
      exact this
    exact hcont.eventually hval
  obtain ⟨δ', hδ', hball⟩ := Metric.eventually_nhds_iff.mp hval'
  refine ⟨D, C, min δ δ', lt_min hδ hδ', hD, ?_⟩
  intro h hh hlt
  obtain ⟨asg, l, w, a1, a2, a3, a4⟩ := hball (y := h) (by rw [Real.dist_eq, sub_zero]; exact lt_of_lt_of_le hlt (min_le_right _ _))
  obtain ⟨r', J, g1, _, _, g4⟩ := csJacobian_spec c ps uvec rvec fdP fdU steps h hw hset
  obtain ⟨val, ht⟩ := target_of c ps uvec rvec fdP hset p hp
  obtain ⟨m, hm, b, b1, b2, b3, b4⟩ := g4 p hp val ht u hu
  have hjv : j < val.length := by
    obtain ⟨n, hn, hjn⟩ := hj
    by_cases hs : p ∈ c.states
    · rw [if_pos hs] at hn
      unfold unknownSize at hn
      rw [ht.state hs] at hn
      rw [Option.map_some] at hn
      rw [Option.some.inj hn]
      exact hjn
    · rw [if_neg hs] at hn
      unfold paramSize at hn
      obtain ⟨q, hq, hv⟩ := ht.param hs
      rw [hq, Option.map_some, hv] at hn
      rw [Option.some.inj hn]
      exact hjn
  have hb := b4 j hjv
  rw [hst, Option.getD_none] at hb
  have hraw := rawParams_eq ps ⟨decide (p ∈ c.states), p, j, Complex.I * (h : ℂ)⟩ (by
    intro hd q hq
    exact hconv (by simpa using hd) q hq)
  refine ⟨_, J, b, _, (g (Complex.I * (h : ℂ))).im / h, g1, b1, hb, ?_, herr h hh (lt_of_lt_of_le hlt (min_le_left _ _))⟩
  show (csCol c ps uvec ⟨decide (p ∈ c.states), p, j, Complex.I * (h : ℂ)⟩ h u)[r]? = _
  unfold csCol
  rw [hraw, a1]
  simp only [a2]
  rw [List.getElem?_map]
  unfold scaledList
  cases hsc : c.scalers.lookup u with
  | none =>
    rw [hsc] at a4
    simp only [a3, Option.map_some, a4]
  | some s =>
    rw [hsc] at a4
    simp only [List.getElem?_map, a3, Option.map_some, a4]
    congr 3
    push_cast
    rw [one_div, div_eq_mul_inv]

/-- **C85.** After a complex step linearization the unknowns are as before; the residuals are as before if the component has states. If it has none and at least one entry is stepped, all its residuals are zero. -/
theorem C85_vectors_partial (c : CsComp) (ps : List (Str × CsParam)) (uvec rvec : List (Str × List ℝ)) (fdP fdU : List Str) (steps : List (Str × ℝ)) (h : ℝ) (hw : WellBehaved c ps uvec fdU)
    (hset : SetUp c ps uvec rvec fdP) :
    ∃ r' J, csJacobian c ps uvec rvec fdP fdU steps h = .ok ((uvec, r'), J) ∧ (c.states ≠ [] → r' = rvec) ∧
      (c.states = [] → (∃ p ∈ fdP, ∃ n, paramSize ps p = some (n + 1)) → ∀ kv ∈ r', ∀ x ∈ kv.2, x = 0) := by
  obtain ⟨r', J, h1, h2, h3, _⟩ := csJacobian_spec c ps uvec rvec fdP fdU steps h hw hset
  refine ⟨r', J, h1, ?_, ?_⟩
  · intro hs
    rcases h2 with h2 | h2
    · exact h2
    · exact absurd h2.1 hs
  · rintro hs ⟨p, hp, n, hn⟩ kv hkv x hx
    unfold paramSize at hn
    obtain ⟨q, hq, hqn⟩ := Option.map_eq_some_iff.mp hn
    rw [h3 hs ⟨p, hp, q, hq, by intro he; rw [he] at hqn; simp at hqn⟩] at hkv
    unfold zeroed at hkv
    obtain ⟨y, _, rfl⟩ := List.mem_map.mp hkv
    obtain ⟨_, _, rfl⟩ := List.mem_map.mp hx
    rfl

/-! ### Cases -/

/-- A component `y = x**2`. -/
noncomputable def squareCs : CsComp where
  states := []
  code rp _ := match rp ['x'] with
    | some [z] => .ok [(['y'], .calc [z * z])]
    | _ => .error .ValueError

/-- A component `y = x` that hands on what it reads: `unknowns['y'] = params['x']`. -/
def passCs : CsComp where
  states := []
  code rp _ := match rp ['x'] with
    | some _ => .ok [(['y'], .bare ['x'])]
    | none => .error .KeyError

/-- A component with the state `s` and the residual `s**2 - x`, scaled by `2`. -/
noncomputable def rootCs : CsComp where
  states := [['s']]
  code rp ru := match rp ['x'], ru ['s'] with
    | some [x], some [s] => .ok [(['s'], .calc [s * s - x])]
    | _, _ => .error .ValueError
  scalers := [(['s'], 2)]

theorem squareCs_well (q : CsParam) (hq : q.val.length = 1) (y : ℝ) : WellBehaved squareCs [(['x'], q)] [(['y'], [y])] [['y']] := by
  refine ⟨?_, fun _ _ _ _ => rfl⟩
  intro rp ru hrp _
  have h1 := hrp ['x']
  simp only [paramSize, List.lookup_cons, beq_self_eq_true, Option.map_some, hq] at h1
  obtain ⟨l, hl, hl1⟩ := Option.map_eq_some_iff.mp h1
  match l, hl1 with
  | [z], _ =>
    refine ⟨[(['y'], .calc [z * z])], by simp [squareCs, hl], by simp, ?_⟩
    intro u hu
    rw [List.mem_singleton.mp hu]
    exact ⟨[z * z], rfl, rfl⟩

theorem squareCs_setUp (q : CsParam) (y r : ℝ) : SetUp squareCs [(['x'], q)] [(['y'], [y])] [(['y'], [r])] [['x']] := by
  refine ⟨rfl, ?_, by simp [squareCs], by simp [squareCs], by simp [squareCs]⟩
  intro p hp
  rw [List.mem_singleton.mp hp]
  exact ⟨rfl, by simp [squareCs]⟩

/-- The hypotheses of C84 hold for `y = x**2` at `x = 3`. -/
example : ∃ D C δ : ℝ, 0 < δ ∧ HasDerivAt (fun t : ℝ => (3 + t) * (3 + t)) D 0 ∧ ∀ h : ℝ, h ≠ 0 → |h| < δ →
    ∃ out J b col x, csJacobian squareCs [(['x'], ⟨[3], none⟩)] [(['y'], [9])] [(['y'], [0])] [['x']] [['y']] [] h = .ok (out, J) ∧ J.lookup (['y'], ['x']) = some b ∧ b[0]? = some col ∧ col[0]? = some x ∧
      |x - D| ≤ C * h ^ 2 :=
  C84_derivative_partial squareCs [(['x'], ⟨[3], none⟩)] [(['y'], [9])] [(['y'], [0])] [['x']] [['y']] [] (squareCs_well _ rfl 9) (squareCs_setUp _ 9 0) ['x'] (by simp) (by
    intro _ q hq
    simp only [List.lookup_cons, beq_self_eq_true, Option.some.injEq] at hq
    rw [← hq]) rfl 0 ⟨1, rfl, by omega⟩ ['y'] (by simp) 0 (fun t => (3 + t) * (3 + t)) (fun t => (3 + t) * (3 + t))
    ((analyticAt_const.add analyticAt_id).mul (analyticAt_const.add analyticAt_id)) (by filter_upwards with t; push_cast; rfl)
    (by
      filter_upwards with t
      exact ⟨[(['y'], .calc [(3 + t) * (3 + t)])], [(3 + t) * (3 + t)], _, by simp [squareCs, paramsAt, Displ.apply, convert], rfl, rfl, rfl⟩)

theorem rootCs_well (x s : ℝ) : WellBehaved rootCs [(['x'], ⟨[x], none⟩)] [(['s'], [s])] [['s']] := by
  refine ⟨?_, fun h => by simp [rootCs] at h⟩
  intro rp ru hrp hru
  have h1 := hrp ['x']
  have h2 := hru ['s']
  simp only [paramSize, unknownSize, List.lookup_cons, beq_self_eq_true, Option.map_some, List.length_singleton] at h1 h2
  obtain ⟨l, hl, hl1⟩ := Option.map_eq_some_iff.mp h1
  obtain ⟨m, hm, hm1⟩ := Option.map_eq_some_iff.mp h2
  match l, hl1, m, hm1 with
  | [a], _, [b], _ =>
    refine ⟨[(['s'], .calc [b * b - a])], by simp [rootCs, hl, hm], by simp, ?_⟩
    intro u hu
    rw [List.mem_singleton.mp hu]
    exact ⟨[b * b - a], rfl, rfl⟩

theorem rootCs_setUp (x s r : ℝ) : SetUp rootCs [(['x'], ⟨[x], none⟩)] [(['s'], [s])] [(['s'], [r])] [['x']] := by
  refine ⟨rfl, ?_, ?_, ?_, by simp [rootCs]⟩
  · intro p hp
    rw [List.mem_singleton.mp hp]
    exact ⟨rfl, by simp [rootCs]⟩
  · intro p hp
    rw [List.mem_singleton.mp hp]
    rfl
  · intro ns hns
    rw [List.mem_singleton.mp hns]
    exact ⟨by simp [rootCs], by norm_num⟩

/-- The hypotheses of C84 hold for the residual `(s**2 - x) / 2` and the state `s`. -/
example : ∃ D C δ : ℝ, 0 < δ ∧ HasDerivAt (fun t : ℝ => ((3 + t) * (3 + t) - 5) / 2) D 0 ∧ ∀ h : ℝ, h ≠ 0 → |h| < δ →
    ∃ out J b col x, csJacobian rootCs [(['x'], ⟨[5], none⟩)] [(['s'], [3])] [(['s'], [2])] [['x']] [['s']] [] h = .ok (out, J) ∧ J.lookup (['s'], ['s']) = some b ∧ b[0]? = some col ∧ col[0]? = some x ∧
      |x - D| ≤ C * h ^ 2 :=
  C84_derivative_partial rootCs [(['x'], ⟨[5], none⟩)] [(['s'], [3])] [(['s'], [2])] [['x']] [['s']] [] (rootCs_well 5 3) (rootCs_setUp 5 3 2) ['s'] (by simp [rootCs]) (by simp [rootCs]) rfl 0 ⟨1, rfl, by omega⟩ ['s'] (by simp) 0
    (fun t => ((3 + t) * (3 + t) - 5) / 2) (fun t => ((3 + t) * (3 + t) - 5) / 2)
    ((((analyticAt_const.add analyticAt_id).mul (analyticAt_const.add analyticAt_id)).sub analyticAt_const).div analyticAt_const (by norm_num)) (by filter_upwards with t; push_cast; rfl)
    (by
      filter_upwards with t
      exact ⟨[(['s'], .calc [(3 + t) * (3 + t) - 5])], [(3 + t) * (3 + t) - 5], _, by simp [rootCs, paramsAt, unknownsAt, Displ.apply, convert], rfl, rfl, by simp [rootCs]⟩)

/-- The hypotheses of C85 hold with and without states. -/
example : ∃ r' J, csJacobian rootCs [(['x'], ⟨[5], none⟩)] [(['s'], [3])] [(['s'], [2])] [['x']] [['s']] [] (1 / 1000) = .ok (([(['s'], [3])], r'), J) ∧ r' = [(['s'], [2])] := by
  obtain ⟨r', J, h1, h2, _⟩ := C85_vectors_partial rootCs [(['x'], ⟨[5], none⟩)] [(['s'], [3])] [(['s'], [2])] [['x']] [['s']] [] (1 / 1000) (rootCs_well 5 3) (rootCs_setUp 5 3 2)
  exact ⟨r', J, h1, h2 (by simp [rootCs])⟩

/-- The full statement of C84 fails for a parameter with a unit conversion: with a source value of `1` and a factor of `2`, `y = x**2` has derivative `8` with respect to the source, and the Jacobian holds `2` for every step. -/
theorem C84_units_refuted : ∃ f : ℝ → ℝ, (∀ t : ℝ, AssignsAt squareCs [(['x'], ⟨[1], some (2, 0)⟩)] [(['y'], [4])] ⟨false, ['x'], 0, (t : ℂ)⟩ ['y'] 0 (f t : ℂ)) ∧ HasDerivAt f 8 0 ∧
    ∀ h : ℝ, h ≠ 0 → ∃ out J, csJacobian squareCs [(['x'], ⟨[1], some (2, 0)⟩)] [(['y'], [4])] [(['y'], [0])] [['x']] [['y']] [] h = .ok (out, J) ∧ J.lookup (['y'], ['x']) = some [[2]] := by
  refine ⟨fun t => (2 * (1 + t)) * (2 * (1 + t)), ?_, ?_, ?_⟩
  · intro t
    exact ⟨[(['y'], .calc [(2 * (1 + (t : ℂ))) * (2 * (1 + (t : ℂ)))])], [(2 * (1 + (t : ℂ))) * (2 * (1 + (t : ℂ)))], _, by simp [squareCs, paramsAt, Displ.apply, convert], rfl, rfl, by simp [squareCs]⟩
  · have h1 : HasDerivAt (fun t : ℝ => 2 * (1 + t)) 2 0 := (((hasDerivAt_id (0 : ℝ)).const_add 1).const_mul 2).congr_deriv (by norm_num)
    exact (h1.mul h1).congr_deriv (by norm_num)
  · intro h hh
    obtain ⟨r', J, g1, _, _, g4⟩ := csJacobian_spec squareCs [(['x'], ⟨[1], some (2, 0)⟩)] [(['y'], [4])] [(['y'], [0])] [['x']] [['y']] [] h (squareCs_well _ rfl 4) (squareCs_setUp _ 4 0)
    obtain ⟨m, hm, b, b1, b2, b3, b4⟩ := g4 ['x'] (by simp) [1] ⟨fun _ => ⟨⟨[1], some (2, 0)⟩, rfl, rfl⟩, fun hs => by simp [squareCs] at hs⟩ ['y'] (by simp)
    refine ⟨_, J, g1, ?_⟩
    rw [b1]
    have h0 := b4 0 (by simp)
    have hcol : csCol squareCs [(['x'], ⟨[1], some (2, 0)⟩)] [(['y'], [4])] ⟨decide (['x'] ∈ squareCs.states), ['x'], 0, Complex.I * (((([] : List (Str × ℝ)).lookup ['x']).getD h : ℝ) : ℂ)⟩
        ((([] : List (Str × ℝ)).lookup ['x']).getD h) ['y'] = [2] := by
      simp [csCol, squareCs, rawParams, Displ.apply, scaledList]
      field_simp
      norm_num
    simp only [hcol] at h0
    match b, b2, h0 with
    | [x], _, h0 => simp at h0; rw [h0]

/-- The full statement of C84 fails for code that assigns the object it has read: `unknowns['y'] = params['x']` gets the derivative `0` for every step, because the step is taken back in the same array before the result is read. -/
theorem C84_handed_on_refuted (h : ℝ) : (∀ t : ℂ, paramsAt [(['x'], ⟨[1], none⟩)] ⟨false, ['x'], 0, t⟩ ['x'] = some [1 + t]) ∧ ∃ out, csJacobian passCs [(['x'], ⟨[1], none⟩)] [(['y'], [1])] [(['y'], [0])] [['x']] [['y']] [] h = .ok (out, [((['y'], ['x']), [[0]])]) := by
  refine ⟨fun t => by simp [paramsAt, Displ.apply, convert], ([(['y'], [1])], [(['y'], [0])]), ?_⟩
  simp [csJacobian, csVar, csTarget, csAlloc, csColumn, CsSt.sysApply, CsSt.applyNl, CsSt.runCode, passCs, CsSt.readP, CsSt.stepComplex, CsSt.setVar, CsSt.assign, CsSt.bindRhs, csCopy, vecOp, dictSet, csSetCol, fitCol,
    CsVal.read, CsSt.clearVar, List.range_succ, Bind.bind, Except.bind, pure, Except.pure]

/-- The full statement of C85 fails for an explicit component: a residual of `5` is replaced by `0`. -/
theorem C85_residuals_refuted (h : ℝ) : ∃ J, csJacobian squareCs [(['x'], ⟨[2], none⟩)] [(['y'], [-1])] [(['y'], [5])] [['x']] [['y']] [] h = .ok (([(['y'], [-1])], [(['y'], [0])]), J) := by
  obtain ⟨r', J, h1, _, h3, _⟩ := csJacobian_spec squareCs [(['x'], ⟨[2], none⟩)] [(['y'], [-1])] [(['y'], [5])] [['x']] [['y']] [] h (squareCs_well _ rfl (-1)) (squareCs_setUp _ (-1) 5)
  have := h3 rfl ⟨['x'], by simp, ⟨[2], none⟩, rfl, by simp⟩
  refine ⟨J, ?_⟩
  rw [h1, this]
  simp [zeroed]

end OpenMDAO
