import Verif.Props.NearNbr
/-!
# C77: weighted neighbours

Interpolation and bounds of the prediction, its gradient, and the cache.
-/
namespace OpenMDAO
set_option linter.unusedSectionVars false
open Filter Topology

variable {N d e : Nat}

theorem list_sum_deriv {α : Type} (l : List α) (f : α → ℝ → ℝ) (f' : α → ℝ) (u : ℝ) (h : ∀ a ∈ l, HasDerivAt (f a) (f' a) u) : HasDerivAt (fun t => (l.map fun a => f a t).sum) (l.map f').sum u := by
  induction l with
  | nil => exact hasDerivAt_const _ _
  | cons a l ih =>
    simp only [List.map_cons, List.sum_cons]
    exact (h a (by simp)).fun_add (ih fun b hb => h b (by simp [hb]))

theorem list_sum_nonneg' {α : Type} (l : List α) (f : α → ℝ) (h : ∀ a ∈ l, 0 ≤ f a) : 0 ≤ (l.map f).sum := by
  induction l with
  | nil => simp
  | cons a l ih =>
    simp only [List.map_cons, List.sum_cons]
    exact add_nonneg (h a (by simp)) (ih fun b hb => h b (by simp [hb]))

theorem list_sum_ge_mem {α : Type} (l : List α) (f : α → ℝ) (h : ∀ a ∈ l, 0 ≤ f a) (a : α) (ha : a ∈ l) : f a ≤ (l.map f).sum := by
  induction l with
  | nil => cases ha
  | cons b l ih =>
    simp only [List.map_cons, List.sum_cons]
    have h1 := h b (by simp)
    have h2 := list_sum_nonneg' l f fun b hb => h b (by simp [hb])
    rcases List.mem_cons.1 ha with rfl | ha
    · linarith
    · have := ih (fun b hb => h b (by simp [hb])) ha
      linarith

theorem list_sum_mono {α : Type} (l : List α) (f g : α → ℝ) (h : ∀ a ∈ l, f a ≤ g a) : (l.map f).sum ≤ (l.map g).sum := by
  induction l with
  | nil => simp
  | cons a l ih =>
    simp only [List.map_cons, List.sum_cons]
    exact add_le_add (h a (by simp)) (ih fun b hb => h b (by simp [hb]))

theorem list_sum_mul {α : Type} (l : List α) (f : α → ℝ) (c : ℝ) : (l.map fun a => c * f a).sum = c * (l.map f).sum := by
  induction l with
  | nil => simp
  | cons a l ih => simp only [List.map_cons, List.sum_cons, ih]; ring

theorem list_sum_sub {α : Type} (l : List α) (f g : α → ℝ) : (l.map fun a => f a - g a).sum = (l.map f).sum - (l.map g).sum := by
  induction l with
  | nil => simp
  | cons a l ih => simp only [List.map_cons, List.sum_cons, ih]; ring

theorem nnWeight_nonneg (p : Nat) (dist : Fin (N + 1) → ℝ) (hd : ∀ l, 0 ≤ dist l) (all : List (Fin (N + 1))) (l : Fin (N + 1)) : 0 ≤ nnWeight p dist all l := by
  unfold nnWeight
  split_ifs
  · exact zero_le_one
  · exact le_rfl
  · exact div_nonneg zero_le_one (pow_nonneg (hd l) p)

theorem nnWeight_sum_pos (p : Nat) (dist : Fin (N + 1) → ℝ) (hd : ∀ l, 0 ≤ dist l) (all : List (Fin (N + 1))) (hne : all ≠ []) : 0 < (all.map (nnWeight p dist all)).sum := by
  have key : ∃ l ∈ all, 0 < nnWeight p dist all l := by
    by_cases h : ∃ m ∈ all, dist m = 0
    · obtain ⟨m, hm, h0⟩ := h
      refine ⟨m, hm, ?_⟩
      rw [nnWeight, if_pos ⟨m, hm, h0⟩, if_pos h0]
      exact zero_lt_one
    · obtain ⟨m, hm⟩ := List.exists_mem_of_ne_nil all hne
      refine ⟨m, hm, ?_⟩
      rw [nnWeight, if_neg h]
      exact div_pos zero_lt_one (pow_pos (lt_of_le_of_ne (hd m) fun h0 => h ⟨m, hm, h0.symm⟩) p)
  obtain ⟨l, hl, hpos⟩ := key
  exact hpos.trans_le (list_sum_ge_mem all _ (fun a _ => nnWeight_nonneg p dist hd all a) l hl)

theorem all_ne_nil (b : Nbrs N) : b.all ≠ [] := by simp [Nbrs.all]

/-- **C77, bounds.** The prediction lies between any two bounds of the values at the neighbours, so it never overshoots the training data. -/
theorem C77_bounds (D : NNData N d e) (q : (Fin d → ℝ) → Nbrs N) (p : Nat) (x : Fin d → ℝ) (j : Fin e) (lo hi : ℝ) (h : ∀ l ∈ (q (D.norm x)).all, lo ≤ D.Y l j ∧ D.Y l j ≤ hi) :
    lo ≤ weightedPredict D q p x j ∧ weightedPredict D q p x j ≤ hi := by
  unfold weightedPredict weightedAt
  set all := (q (D.norm x)).all with hall
  set w := nnWeight (distEff d p) (fun l => eudist (D.norm x) (D.tp l)) all with hw
  have hpos : 0 < (all.map w).sum := nnWeight_sum_pos _ _ (fun l => eudist_nonneg _ _) all (all_ne_nil _)
  have hnn : ∀ l, 0 ≤ w l := fun l => nnWeight_nonneg _ _ (fun l => eudist_nonneg _ _) all l
  have hv := D.tvr_pos j
  have hY : ∀ l, D.Y l j = D.tv l j * D.tvr j + D.tvm j := fun l => (D.unscale l j).symm
  constructor
  · have h1 : ((lo - D.tvm j) / D.tvr j) * (all.map w).sum ≤ (all.map fun l => D.tv l j * w l).sum := by
      rw [← list_sum_mul]
      refine list_sum_mono _ _ _ fun l hl => mul_le_mul_of_nonneg_right ?_ (hnn l)
      rw [div_le_iff₀ hv]
      have := (h l hl).1
      rw [hY] at this
      linarith
    rw [← le_div_iff₀ hpos, div_le_iff₀ hv] at h1
    linarith
  · have h1 : (all.map fun l => D.tv l j * w l).sum ≤ ((hi - D.tvm j) / D.tvr j) * (all.map w).sum := by
      rw [← list_sum_mul]
      refine list_sum_mono _ _ _ fun l hl => mul_le_mul_of_nonneg_right ?_ (hnn l)
      rw [le_div_iff₀ hv]
      have := (h l hl).2
      rw [hY] at this
      linarith
    rw [← div_le_iff₀ hpos, le_div_iff₀ hv] at h1
    linarith

theorem tp_inj (D : NNData N d e) (hX : Function.Injective D.X) (i l : Fin (N + 1)) (h : D.tp i = D.tp l) : i = l := hX (D.norm_inj _ _ h)

/-- A training point is among its own neighbours. -/
theorem self_mem (D : NNData N d e) (n : Nat) (q : (Fin d → ℝ) → Nbrs N) (hq : IsNearest D.tp n q) (hX : Function.Injective D.X) (i : Fin (N + 1)) : i ∈ (q (D.tp i)).all := by
  by_contra hn
  obtain ⟨-, -, -, h4⟩ := hq (D.tp i)
  have := h4 (q (D.tp i)).far (by simp [Nbrs.all]) i hn
  rw [(eudist_eq_zero _ _).2 rfl] at this
  have h0 : eudist (D.tp i) (D.tp (q (D.tp i)).far) = 0 := le_antisymm this (eudist_nonneg _ _)
  have := tp_inj D hX _ _ ((eudist_eq_zero _ _).1 h0)
  exact hn (by rw [this]; simp [Nbrs.all, ← this])

theorem sum_single {α : Type} [DecidableEq α] (l : List α) (hn : l.Nodup) (i : α) (hi : i ∈ l) (f : α → ℝ) : (l.map fun a => f a * if a = i then 1 else 0).sum = f i := by
  rw [← List.sum_toFinset _ hn]
  simp [hi]

/-- **C77, interpolation.** At a training point the prediction is its training value. -/
theorem C77_interpolates (D : NNData N d e) (n : Nat) (q : (Fin d → ℝ) → Nbrs N) (hq : IsNearest D.tp n q) (hX : Function.Injective D.X) (p : Nat) (i : Fin (N + 1)) (j : Fin e) : weightedPredict D q p (D.X i) j = D.Y i j := by
  classical
  unfold weightedPredict weightedAt
  have hm : i ∈ (q (D.norm (D.X i))).all := self_mem D n q hq hX i
  have hz : eudist (D.norm (D.X i)) (D.tp i) = 0 := (eudist_eq_zero _ _).2 rfl
  have hw : ∀ l, nnWeight (distEff d p) (fun l => eudist (D.norm (D.X i)) (D.tp l)) (q (D.norm (D.X i))).all l = if l = i then 1 else 0 := by
    intro l
    rw [nnWeight, if_pos ⟨i, hm, hz⟩]
    by_cases hl : l = i
    · subst hl
      simp [hz]
    · rw [if_neg hl, if_neg]
      intro h0
      exact hl (tp_inj D hX _ _ ((eudist_eq_zero _ _).1 h0)).symm
  simp only [funext hw]
  have hn := (hq (D.norm (D.X i))).2.1
  rw [sum_single _ hn i hm fun l => D.tv l j]
  have := sum_single _ hn i hm fun _ => (1 : ℝ)
  simp only [one_mul] at this
  rw [this, div_one, D.unscale]

/-- The sums of the prediction as long as no distance is zero. -/
theorem grad_formula (D : NNData N d e) (p : Nat) (all : List (Fin (N + 1))) (hne : all ≠ []) (x : Fin d → ℝ) (hd : ∀ l, eudist (D.norm x) (D.tp l) ≠ 0) (j : Fin e) (k : Fin d) :
    HasDerivAt (fun t => (all.map fun l => D.tv l j * (1 / eudist (D.norm (Function.update x k t)) (D.tp l) ^ p)).sum / (all.map fun l => 1 / eudist (D.norm (Function.update x k t)) (D.tp l) ^ p).sum * D.tvr j + D.tvm j)
      (((all.map fun l => 1 / eudist (D.norm x) (D.tp l) ^ p).sum * (all.map fun l => -(p : ℝ) * (1 / eudist (D.norm x) (D.tp l) ^ (p + 2)) * (D.norm x k - D.tp l k) * D.tv l j).sum -
        (all.map fun l => 1 / eudist (D.norm x) (D.tp l) ^ p * D.tv l j).sum * (all.map fun l => -(p : ℝ) * (1 / eudist (D.norm x) (D.tp l) ^ (p + 2)) * (D.norm x k - D.tp l k)).sum) /
        (all.map fun l => 1 / eudist (D.norm x) (D.tp l) ^ p).sum ^ 2 * (D.tvr j / D.tpr k)) (x k) := by
  have hw : ∀ l, HasDerivAt (fun t => 1 / eudist (D.norm (Function.update x k t)) (D.tp l) ^ p) (1 / D.tpr k * (-(p : ℝ) * (1 / eudist (D.norm x) (D.tp l) ^ (p + 2)) * (D.norm x k - D.tp l k))) (x k) := by
    intro l
    have h1 := (norm_dist_deriv D x (D.tp l) k (hd l)).pow p
    have h2 := h1.inv (by simp only [Pi.pow_apply, Function.update_eq_self]; exact pow_ne_zero p (hd l))
    simp only [one_div]
    refine h2.congr_deriv ?_
    simp only [Pi.pow_apply, Function.update_eq_self]
    have hl := hd l
    have ht := D.tpr_ne k
    cases p with
    | zero => simp
    | succ p =>
      simp only [Nat.add_sub_cancel]
      field_simp
      ring
  have hs := list_sum_deriv all _ _ (x k) fun l _ => hw l
  have hv := list_sum_deriv all _ _ (x k) fun l _ => (hw l).const_mul (D.tv l j)
  have hpos : (all.map fun l => 1 / eudist (D.norm x) (D.tp l) ^ p).sum ≠ 0 := by
    obtain ⟨m, hm⟩ := List.exists_mem_of_ne_nil all hne
    have hp : ∀ l, 0 < 1 / eudist (D.norm x) (D.tp l) ^ p := fun l => div_pos zero_lt_one (pow_pos (lt_of_le_of_ne (eudist_nonneg _ _) (Ne.symm (hd l))) p)
    exact ((hp m).trans_le (list_sum_ge_mem all _ (fun a _ => (hp a).le) m hm)).ne'
  have hq := ((hv.fun_div hs (by simpa only [Function.update_eq_self] using hpos)).mul_const (D.tvr j)).add_const (D.tvm j)
  refine hq.congr_deriv ?_
  simp only [Function.update_eq_self]
  have e1 : (all.map fun l => D.tv l j * (1 / D.tpr k * (-(p : ℝ) * (1 / eudist (D.norm x) (D.tp l) ^ (p + 2)) * (D.norm x k - D.tp l k)))).sum =
      1 / D.tpr k * (all.map fun l => -(p : ℝ) * (1 / eudist (D.norm x) (D.tp l) ^ (p + 2)) * (D.norm x k - D.tp l k) * D.tv l j).sum := by
    rw [← list_sum_mul]
    congr 1
    refine List.map_congr_left fun l _ => ?_
    ring
  have e2 : (all.map fun l => 1 / eudist (D.norm x) (D.tp l) ^ p * D.tv l j).sum = (all.map fun l => D.tv l j * (1 / eudist (D.norm x) (D.tp l) ^ p)).sum := by
    congr 1
    refine List.map_congr_left fun l _ => ?_
    ring
  rw [e1, list_sum_mul, e2]
  have ht := D.tpr_ne k
  field_simp

theorem cached_ok (D : NNData N d e) (q : (Fin d → ℝ) → Nbrs N) (close : (Fin d → ℝ) → (Fin d → ℝ) → Bool) (c : Option (NNCache N d)) (x : Fin d → ℝ) (hc : ∀ s, c = some s → s = cacheOf D q x ∨ close s.pt (D.norm x) = false) :
    cachedQuery D q close c x = cacheOf D q x := by
  cases c with
  | none => rfl
  | some s =>
    rcases hc s rfl with hs | hs
    · subst hs
      simp only [cachedQuery]
      split <;> rfl
    · simp only [cachedQuery, hs]
      rfl

/-- **C77, gradient.** At a point that is no training point and has no ties among its distances, the gradient is the derivative of the prediction in every input; the cache must be empty, of this point and this number of neighbours,
or of a point that is not close. -/
theorem C77_gradient_partial (D : NNData N d e) (n : Nat) (q : (Fin d → ℝ) → Nbrs N) (hq : IsNearest D.tp n q) (close : (Fin d → ℝ) → (Fin d → ℝ) → Bool) (c : Option (NNCache N d)) (p : Nat) (x : Fin d → ℝ)
    (hc : ∀ s, c = some s → s = cacheOf D q x ∨ close s.pt (D.norm x) = false) (hx : NoTies D.tp (D.norm x)) (ht : ∀ l, x ≠ D.X l) (j : Fin e) (k : Fin d) :
    ∃ g, weightedGrad D q close c p x j k = some g ∧ HasDerivAt (fun t => weightedPredict D q p (Function.update x k t) j) g (x k) := by
  have hd : ∀ l, eudist (D.norm x) (D.tp l) ≠ 0 := fun l h0 => ht l (D.norm_inj _ _ ((eudist_eq_zero _ _).1 h0))
  rw [weightedGrad, cached_ok D q close c x hc]
  have hno : ¬ ∃ m ∈ (cacheOf D q x).nbrs.all, (cacheOf D q x).dist m = 0 := by
    rintro ⟨m, -, h0⟩
    exact hd m h0
  rw [weightedGradOf, if_neg hno]
  refine ⟨_, rfl, ?_⟩
  have h := grad_formula D (distEff d p) (q (D.norm x)).all (all_ne_nil _) x hd j k
  refine h.congr_of_eventuallyEq ?_
  have hev : ∀ᶠ t in 𝓝 (x k), ∀ l, eudist (D.norm (Function.update x k t)) (D.tp l) ≠ 0 := by
    rw [eventually_all]
    intro l
    have := (norm_dist_deriv D x (D.tp l) k (hd l)).continuousAt
    exact this.eventually_ne (by rw [Function.update_eq_self]; exact hd l)
  filter_upwards [query_line D n q hq x k hx, hev] with t h1 h2
  simp only [weightedPredict, weightedAt]
  rw [h1]
  have : ∀ l, nnWeight (distEff d p) (fun l => eudist (D.norm (Function.update x k t)) (D.tp l)) (q (D.norm x)).all l = 1 / eudist (D.norm (Function.update x k t)) (D.tp l) ^ distEff d p := by
    intro l
    rw [nnWeight, if_neg]
    rintro ⟨m, -, h0⟩
    exact h2 m h0
  simp only [funext this]

theorem list_sum_littleO {α : Type} (l : List α) (f : α → ℝ → ℝ) (g : ℝ → ℝ) (u : ℝ) (h : ∀ a ∈ l, f a =o[𝓝 u] g) : (fun t => (l.map fun a => f a t).sum) =o[𝓝 u] g := by
  induction l with
  | nil => exact Asymptotics.isLittleO_zero _ _
  | cons a l ih =>
    simp only [List.map_cons, List.sum_cons]
    exact (h a (by simp)).add (ih fun b hb => h b (by simp [hb]))

theorem abs_list_sum {α : Type} (l : List α) (f : α → ℝ) : |(l.map f).sum| ≤ (l.map fun a => |f a|).sum := by
  induction l with
  | nil => simp
  | cons a l ih =>
    simp only [List.map_cons, List.sum_cons]
    exact (abs_add_le _ _).trans (add_le_add le_rfl ih)

/-- The weighted mean differs from the value at `i` by at most the sum of the differences times the ratios of the distances. -/
theorem mean_diff (D : NNData N d e) (p : Nat) (dist : Fin (N + 1) → ℝ) (hd : ∀ l, 0 ≤ dist l) (all : List (Fin (N + 1))) (hz : ¬ ∃ m ∈ all, dist m = 0) (i : Fin (N + 1)) (hi : i ∈ all) (j : Fin e) :
    |(all.map fun l => D.tv l j * nnWeight p dist all l).sum / (all.map (nnWeight p dist all)).sum - D.tv i j| ≤ (all.map fun l => |D.tv l j - D.tv i j| * (dist i ^ p / dist l ^ p)).sum := by
  have hw : ∀ l, nnWeight p dist all l = 1 / dist l ^ p := fun l => by rw [nnWeight, if_neg hz]
  have hpos := nnWeight_sum_pos p dist hd all (List.ne_nil_of_mem hi)
  have hnn : ∀ l, 0 ≤ nnWeight p dist all l := fun l => nnWeight_nonneg p dist hd all l
  have hdi : 0 < dist i := lt_of_le_of_ne (hd i) fun h => hz ⟨i, hi, h.symm⟩
  have e1 : (all.map fun l => D.tv l j * nnWeight p dist all l).sum / (all.map (nnWeight p dist all)).sum - D.tv i j =
      (all.map fun l => (D.tv l j - D.tv i j) * nnWeight p dist all l).sum / (all.map (nnWeight p dist all)).sum := by
    have : (fun l => (D.tv l j - D.tv i j) * nnWeight p dist all l) = fun l => D.tv l j * nnWeight p dist all l - D.tv i j * nnWeight p dist all l := by
      funext l
      ring
    rw [this, list_sum_sub, list_sum_mul, sub_div, mul_div_assoc, div_self hpos.ne', mul_one]
  rw [e1, abs_div, abs_of_pos hpos]
  have hwi : 0 < nnWeight p dist all i := by
    rw [hw]
    exact div_pos zero_lt_one (pow_pos hdi p)
  have hge : nnWeight p dist all i ≤ (all.map (nnWeight p dist all)).sum := list_sum_ge_mem all _ (fun a _ => hnn a) i hi
  have h2 : (all.map fun l => |(D.tv l j - D.tv i j) * nnWeight p dist all l|).sum = nnWeight p dist all i * (all.map fun l => |D.tv l j - D.tv i j| * (dist i ^ p / dist l ^ p)).sum := by
    rw [← list_sum_mul]
    congr 1
    refine List.map_congr_left fun l hl => ?_
    rw [abs_mul, abs_of_nonneg (hnn l), hw, hw]
    have := (pow_pos hdi p).ne'
    field_simp
  have hS : 0 ≤ (all.map fun l => |D.tv l j - D.tv i j| * (dist i ^ p / dist l ^ p)).sum :=
    list_sum_nonneg' _ _ fun l _ => mul_nonneg (abs_nonneg _) (div_nonneg (pow_nonneg (hd i) p) (pow_nonneg (hd l) p))
  rw [div_le_iff₀ hpos]
  refine (abs_list_sum _ _).trans ?_
  rw [h2, mul_comm]
  exact mul_le_mul_of_nonneg_left hge hS

/-- **C77 fails at training points**: the prediction has the derivative zero there, in every input, but the gradient is not a number. (The effective exponent is at least two unless `dist_eff = 1` is asked for.) -/
theorem C77_training_point_refuted (D : NNData N d e) (n : Nat) (q : (Fin d → ℝ) → Nbrs N) (hq : IsNearest D.tp n q) (hX : Function.Injective D.X) (close : (Fin d → ℝ) → (Fin d → ℝ) → Bool) (p : Nat) (hp : 2 ≤ distEff d p)
    (i : Fin (N + 1)) (hi : NoTies D.tp (D.tp i)) (j : Fin e) (k : Fin d) :
    HasDerivAt (fun t => weightedPredict D q p (Function.update (D.X i) k t) j) 0 (D.X i k) ∧ weightedGrad D q close none p (D.X i) j k = none := by
  classical
  have hm : i ∈ (q (D.tp i)).all := self_mem D n q hq hX i
  constructor
  · have hev := query_line D n q hq (D.X i) k hi
    set all := (q (D.norm (D.X i))).all with hall
    have hmem : i ∈ all := hm
    set P := distEff d p with hP
    have hat : ∀ t, eudist (D.norm (Function.update (D.X i) k t)) (D.tp i) = |(t - D.X i k) / D.tpr k| := by
      intro t
      rw [NNData.tp, D.norm_update, eudist_move]
      congr 1
      simp only [NNData.norm]
      ring
    have hdl : ∀ l, l ≠ i → eudist (D.norm (D.X i)) (D.tp l) ≠ 0 := fun l hl h0 => hl (tp_inj D hX _ _ ((eudist_eq_zero _ _).1 h0)).symm
    have hterm : ∀ l ∈ all, (fun t => |D.tv l j - D.tv i j| * (eudist (D.norm (Function.update (D.X i) k t)) (D.tp i) ^ P / eudist (D.norm (Function.update (D.X i) k t)) (D.tp l) ^ P) * D.tvr j) =o[𝓝 (D.X i k)] fun t => t - D.X i k := by
      intro l _
      by_cases hl : l = i
      · subst hl
        simp only [sub_self, abs_zero, zero_mul]
        exact Asymptotics.isLittleO_zero _ _
      · have hc : ContinuousAt (fun t => (eudist (D.norm (Function.update (D.X i) k t)) (D.tp l) ^ P)⁻¹) (D.X i k) := by
          refine ContinuousAt.inv₀ ((norm_dist_deriv D (D.X i) (D.tp l) k (hdl l hl)).continuousAt.pow P) ?_
          simp only [Pi.pow_apply, Function.update_eq_self]
          exact pow_ne_zero P (hdl l hl)
        have h1 : (fun t => |(t - D.X i k) / D.tpr k| ^ P) =o[𝓝 (D.X i k)] fun t => t - D.X i k := by
          have : (fun t => |(t - D.X i k) / D.tpr k|) =O[𝓝 (D.X i k)] fun t => t - D.X i k := by
            refine Asymptotics.IsBigO.abs_left ?_
            simp only [div_eq_mul_inv, mul_comm _ (D.tpr k)⁻¹]
            exact (Asymptotics.isBigO_refl _ _).const_mul_left _
          refine (this.pow P).trans_isLittleO ?_
          have h0 : (fun s : ℝ => s ^ P) =o[𝓝 0] fun s => s := by
            simpa using Asymptotics.isLittleO_pow_pow (𝕜 := ℝ) (m := 1) (n := P) (by omega)
          have ht : Tendsto (fun t : ℝ => t - D.X i k) (𝓝 (D.X i k)) (𝓝 0) := by
            have : Tendsto (fun t : ℝ => t - D.X i k) (𝓝 (D.X i k)) (𝓝 (D.X i k - D.X i k)) := tendsto_id.sub_const _
            simpa using this
          exact h0.comp_tendsto ht
        have h2 := ((h1.mul_isBigO (hc.isBigO_one ℝ)).const_mul_left |D.tv l j - D.tv i j|).mul_isBigO (Asymptotics.isBigO_refl (fun _ : ℝ => D.tvr j) _)
        have h3 := h2.trans_isBigO (k := fun t => t - D.X i k) (by
          have := (Asymptotics.isBigO_refl (fun t : ℝ => t - D.X i k) (𝓝 (D.X i k))).const_mul_left (D.tvr j)
          simpa [mul_comm] using this)
        refine h3.congr_left fun t => ?_
        simp only [hat, div_eq_mul_inv]
    have hsum := list_sum_littleO all _ _ _ hterm
    rw [hasDerivAt_iff_isLittleO]
    refine (Asymptotics.IsBigO.of_bound 1 ?_).trans_isLittleO hsum
    have hnz : ∀ᶠ t in 𝓝 (D.X i k), ∀ l, l ≠ i → eudist (D.norm (Function.update (D.X i) k t)) (D.tp l) ≠ 0 := by
      rw [eventually_all]
      intro l
      by_cases hl : l = i
      · exact Eventually.of_forall fun _ h => absurd hl h
      · have := (norm_dist_deriv D (D.X i) (D.tp l) k (hdl l hl)).continuousAt
        have := this.eventually_ne (y := 0) (by rw [Function.update_eq_self]; exact hdl l hl)
        exact this.mono fun _ h _ => h
    filter_upwards [hev, hnz] with t h1 h2
    have hYi : weightedPredict D q p (Function.update (D.X i) k (D.X i k)) j = D.tv i j * D.tvr j + D.tvm j := by
      rw [Function.update_eq_self, C77_interpolates D n q hq hX, D.unscale]
    rw [hYi, smul_zero, sub_zero, one_mul, Real.norm_eq_abs, Real.norm_eq_abs]
    have hpull : (all.map fun l => |D.tv l j - D.tv i j| * (eudist (D.norm (Function.update (D.X i) k t)) (D.tp i) ^ P / eudist (D.norm (Function.update (D.X i) k t)) (D.tp l) ^ P) * D.tvr j).sum =
        D.tvr j * (all.map fun l => |D.tv l j - D.tv i j| * (eudist (D.norm (Function.update (D.X i) k t)) (D.tp i) ^ P / eudist (D.norm (Function.update (D.X i) k t)) (D.tp l) ^ P)).sum := by
      rw [← list_sum_mul]
      congr 1
      refine List.map_congr_left fun l _ => ?_
      ring
    rw [hpull]
    refine le_trans ?_ (le_abs_self _)
    by_cases hti : t = D.X i k
    · subst hti
      rw [hYi, sub_self, abs_zero]
      exact mul_nonneg (D.tvr_pos j).le (list_sum_nonneg' _ _ fun l _ => mul_nonneg (abs_nonneg _) (div_nonneg (pow_nonneg (eudist_nonneg _ _) P) (pow_nonneg (eudist_nonneg _ _) P)))
    · have hz : ¬ ∃ m ∈ all, eudist (D.norm (Function.update (D.X i) k t)) (D.tp m) = 0 := by
        rintro ⟨m, -, h0⟩
        by_cases hmi : m = i
        · rw [hmi, hat, abs_eq_zero, div_eq_zero_iff] at h0
          rcases h0 with h0 | h0
          · exact hti (sub_eq_zero.1 h0)
          · exact D.tpr_ne k h0
        · exact h2 m hmi h0
      have := mean_diff D P (fun l => eudist (D.norm (Function.update (D.X i) k t)) (D.tp l)) (fun l => eudist_nonneg _ _) all hz i hmem j
      simp only [weightedPredict, weightedAt]
      rw [h1]
      have e1 : ∀ a b c m : ℝ, a * c + m - (b * c + m) = c * (a - b) := fun a b c m => by ring
      rw [e1, abs_mul, abs_of_pos (D.tvr_pos j)]
      exact mul_le_mul_of_nonneg_left this (D.tvr_pos j).le
  · simp only [weightedGrad, cachedQuery]
    rw [weightedGradOf, if_pos]
    exact ⟨i, hm, (eudist_eq_zero _ _).2 rfl⟩

/-- **C77 fails after a prediction with another number of neighbours**: the gradient asked for with the neighbours `q` is the one for the neighbours `q'` of the prediction before it at the same point. -/
theorem C77_cache_refuted (D : NNData N d e) (q q' : (Fin d → ℝ) → Nbrs N) (close : (Fin d → ℝ) → (Fin d → ℝ) → Bool) (hclose : ∀ z, close z z = true) (p : Nat) (x : Fin d → ℝ) :
    weightedGrad D q close (some (cacheOf D q' x)) p x = weightedGrad D q' close none p x := by
  funext j k
  have : cachedQuery D q close (some (cacheOf D q' x)) x = cacheOf D q' x := if_pos (hclose _)
  simp only [weightedGrad, this]
  rfl

/-- Only the nearer point. -/
noncomputable def oneQuery (z : Fin 1 → ℝ) : Nbrs 1 := ⟨[], (twoQuery z).all.headD 0⟩

theorem grad_two : weightedGrad twoPts twoQuery (fun _ _ => true) none 0 (fun _ => 1 / 4) 0 0 = some (288 / 100) ∧ weightedGrad twoPts oneQuery (fun _ _ => true) none 0 (fun _ => 1 / 4) 0 0 = some 0 := by
  have h0 : |(1 / 4 : ℝ) - 0| = 1 / 4 := by norm_num
  have h1 : |(1 / 4 : ℝ) - 1| = 3 / 4 := by rw [abs_of_neg] <;> norm_num
  have q2 : twoQuery (fun _ => 1 / 4) = ⟨[0], 1⟩ := by
    rw [twoQuery, if_pos]
    rw [h1]
    norm_num
  have q1 : oneQuery (fun _ => 1 / 4) = ⟨[], 0⟩ := by
    rw [oneQuery, q2]
    rfl
  have t : ∀ i : Fin 2, twoPts.tp i 0 = i.val := by
    intro i
    rw [NNData.tp, twoPts_norm]
    rfl
  have r : twoPts.tpr 0 = 1 := by simp [NNData.tpr, colRange, two_min, two_max, twoPts]
  have v : twoPts.tvr 0 = 3 := by norm_num [NNData.tvr, colRange, two_min, two_max, twoPts]
  have v0 : twoPts.tv 0 0 = 0 := by rw [NNData.tv, v]; norm_num [NNData.tvm, two_min, two_max, twoPts]
  have v1 : twoPts.tv 1 0 = 1 := by rw [NNData.tv, v]; norm_num [NNData.tvm, two_min, two_max, twoPts]
  have d0 : |(1 / 4 : ℝ) - ((0 : Fin 2).val : ℝ)| = 1 / 4 := by norm_num
  have d1 : |(1 / 4 : ℝ) - ((1 : Fin 2).val : ℝ)| = 3 / 4 := by simpa using h1
  constructor
  · simp only [weightedGrad, cachedQuery, cacheOf, twoPts_norm, q2, Nbrs.all, twoPts_dist]
    rw [weightedGradOf, if_neg]
    · simp only [List.nil_append, List.cons_append, List.map_cons, List.map_nil, List.sum_cons, List.sum_nil, d0, d1, t, r, v, v0, v1, twoPts_norm, distEff]
      norm_num
    · rintro ⟨m, hm, h⟩
      rcases List.mem_cons.1 hm with rfl | hm
      · rw [d0] at h
        norm_num at h
      · rw [List.mem_singleton.1 hm, d1] at h
        norm_num at h
  · simp only [weightedGrad, cachedQuery, cacheOf, twoPts_norm, q1, Nbrs.all, twoPts_dist]
    rw [weightedGradOf, if_neg]
    · simp only [List.nil_append, List.map_cons, List.map_nil, List.sum_cons, List.sum_nil, d0, t, r, v, v0, twoPts_norm, distEff]
      norm_num
    · rintro ⟨m, hm, h⟩
      simp only [List.nil_append, List.mem_singleton] at hm
      subst hm
      norm_num at h

/-- A concrete case: with two neighbours the gradient of the data 2, 5 at one quarter is 2.88; after a prediction with one neighbour it is given as zero. -/
example : weightedGrad twoPts twoQuery (fun _ _ => true) (some (cacheOf twoPts oneQuery fun _ => 1 / 4)) 0 (fun _ => 1 / 4) 0 0 = some 0 := by
  rw [C77_cache_refuted _ _ _ _ fun _ => rfl]
  exact grad_two.2

/-- The hypotheses of the theorems are met by these data. -/
example : IsNearest twoPts.tp 2 twoQuery ∧ Function.Injective twoPts.X ∧ NoTies twoPts.tp (twoPts.norm fun _ => 1 / 4) ∧ (∀ l, (fun _ => 1 / 4) ≠ twoPts.X l) ∧ 2 ≤ distEff 1 0 ∧ NoTies twoPts.tp (twoPts.tp 0) := by
  refine ⟨twoQuery_nearest, ?_, twoPts_noTies, ?_, by decide, ?_⟩
  · intro a b h
    have := congrFun h 0
    simp only [twoPts, Nat.cast_inj] at this
    exact Fin.ext this
  · intro l h
    have := congrFun h 0
    fin_cases l <;> norm_num [twoPts] at this
  · intro a b h
    have t : twoPts.tp 0 0 = 0 := by
      rw [NNData.tp, twoPts_norm]
      simp [twoPts]
    rw [twoPts_dist, twoPts_dist, t] at h
    fin_cases a <;> fin_cases b <;> simp_all

end OpenMDAO
