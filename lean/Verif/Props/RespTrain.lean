import Verif.Model.RespTrain
import Verif.Spec.RespTrain
import Verif.Props.ResponseSurface
import Mathlib.Algebra.BigOperators.Ring.Finset
import Mathlib.Algebra.Order.BigOperators.Group.List
import Mathlib.Algebra.Order.Ring.Abs
import Mathlib.Algebra.BigOperators.Fin
import Mathlib.Analysis.InnerProductSpace.Projection.Minimal
import Mathlib.Analysis.InnerProductSpace.PiL2
import Mathlib.Topology.Algebra.Module.FiniteDimension
import Mathlib.Tactic.IntervalCases
/-! C171: a response surface is the best quadratic function for its training data. -/
namespace OpenMDAO
set_option linter.unusedSectionVars false

section ring
variable {K : Type} [CommRing K]

theorem rowSet_app (pre vs z : List K) : rowSet (pre ++ z) pre.length vs = pre ++ vs ++ z.drop vs.length := by
  have h1 : (pre ++ z).take pre.length = pre := by simp
  have h2 : (pre ++ z).drop (pre.length + vs.length) = z.drop vs.length := by simp
  rw [rowSet, h1, h2]

/-- The loop writes the quadratic block behind what is there. -/
theorem quadLoop_spec (x : List K) : ∀ (k i : Nat) (pre : List K), i + k = x.length →
    ((List.range' i k).foldl (quadStep x) (pre ++ List.replicate (quadTerms (x.drop i)).length 0, pre.length)).1 = pre ++ quadTerms (x.drop i)
  | 0, i, pre, h => by
    have : x.drop i = [] := List.drop_eq_nil_of_le (by omega)
    simp [this, quadTerms]
  | k + 1, i, pre, h => by
    have hi : i < x.length := by omega
    have hd : x.drop i = x[i] :: x.drop (i + 1) := List.drop_eq_getElem_cons hi
    have hg : x.getD i 0 = x[i] := by simp [List.getD, hi]
    rw [List.range'_succ, List.foldl_cons]
    have hl : ((x.drop i).map (x.getD i 0 * ·)).length = x.length - i := by simp
    have hz : quadTerms (x.drop i) = (x.drop i).map (x.getD i 0 * ·) ++ quadTerms (x.drop (i + 1)) := by rw [hd, quadTerms, hg]
    have hs : quadStep x (pre ++ List.replicate (quadTerms (x.drop i)).length 0, pre.length) i =
        ((pre ++ (x.drop i).map (x.getD i 0 * ·)) ++ List.replicate (quadTerms (x.drop (i + 1))).length 0, (pre ++ (x.drop i).map (x.getD i 0 * ·)).length) := by
      unfold quadStep
      simp only
      rw [rowSet_app, hz, List.length_append, List.length_append, hl, List.drop_replicate, Nat.add_sub_cancel_left]
    rw [hs, quadLoop_spec x k (i + 1) _ (by omega), hz, List.append_assoc]

theorem designRow_eq (x : List K) : designRow x = 1 :: x ++ quadTerms x := by
  have h2 := quadTerms_length x
  have h3 := numTerms_two x.length
  have hlen : numTerms x.length = 1 + x.length + (quadTerms x).length := by
    have : 2 * numTerms x.length = 2 * (1 + x.length + (quadTerms x).length) := by rw [h3]; nlinarith [h2]
    omega
  have h1 : rowSet (rowSet (List.replicate (numTerms x.length) (0 : K)) 0 [1]) 1 x = (1 :: x) ++ List.replicate (quadTerms x).length 0 := by
    have a : List.replicate (numTerms x.length) (0 : K) = [] ++ List.replicate (numTerms x.length) 0 := rfl
    have b : rowSet (List.replicate (numTerms x.length) (0 : K)) 0 [1] = [1] ++ List.replicate (x.length + (quadTerms x).length) 0 := by
      rw [a, show (0 : Nat) = ([] : List K).length from rfl, rowSet_app, hlen, List.drop_replicate]
      simp only [List.nil_append, List.length_singleton]
      congr 2
      omega
    rw [b, show (1 : Nat) = ([1] : List K).length from rfl, rowSet_app, List.drop_replicate, Nat.add_sub_cancel_left]
    rfl
  have := quadLoop_spec x x.length 0 (1 :: x) (by omega)
  rw [List.drop_zero] at this
  rw [designRow, h1, List.range_eq_range']
  exact this

theorem regressors_design (n : Nat) (x : List K) (h : x.length = n) : regressors n x = .ok (designRow x) := by
  subst h
  simp [regressors, designRow_eq]

theorem designRow_length (x : List K) : (designRow x).length = numTerms x.length := by
  have h2 := quadTerms_length x
  have h3 := numTerms_two x.length
  rw [designRow_eq]
  have : 2 * numTerms x.length = 2 * (1 + x.length + (quadTerms x).length) := by rw [h3]; nlinarith [h2]
  simp
  omega

theorem dot_range (x : List K) (l : Nat → K) : dot x ((List.range x.length).map l) = ∑ i ∈ Finset.range x.length, l i * x.getD i 0 := by
  induction x generalizing l with
  | nil => simp [dot]
  | cons a t ih =>
    rw [List.length_cons, List.range_succ_eq_map, List.map_cons, dot_cons, List.map_map, Finset.sum_range_succ', ih]
    simp only [List.getD_cons_succ, List.getD_cons_zero, Function.comp]
    ring

/-- The coefficients of the quadratic block for the matrix `Q`. -/
def quadCoefs (Q : Nat → Nat → K) : Nat → List K
  | 0 => []
  | n + 1 => (Q 0 0 :: (List.range n).map fun j => Q 0 (j + 1) + Q (j + 1) 0) ++ quadCoefs (fun i j => Q (i + 1) (j + 1)) n

theorem quadCoefs_length (Q : Nat → Nat → K) (x : List K) : (quadCoefs Q x.length).length = (quadTerms x).length := by
  induction x generalizing Q with
  | nil => rfl
  | cons a t ih => simp only [List.length_cons, quadCoefs, quadTerms, List.length_append, List.length_map, List.length_range, ih]

theorem dot_quad (Q : Nat → Nat → K) (x : List K) : dot (quadTerms x) (quadCoefs Q x.length) = ∑ i ∈ Finset.range x.length, ∑ j ∈ Finset.range x.length, Q i j * (x.getD i 0 * x.getD j 0) := by
  induction x generalizing Q with
  | nil => simp [quadTerms, dot]
  | cons a t ih =>
    rw [List.length_cons, quadCoefs, quadTerms, dot_app _ _ _ _ (by simp), ih, dot_map_mul, dot_cons, dot_range, Finset.sum_range_succ']
    simp only [Finset.sum_range_succ', List.getD_cons_succ, List.getD_cons_zero, Finset.sum_add_distrib]
    have : ∀ f : Nat → K, ∑ i ∈ Finset.range t.length, f i * (t.getD i 0 * a) = a * ∑ i ∈ Finset.range t.length, f i * t.getD i 0 := fun f => by
      rw [Finset.mul_sum]; exact Finset.sum_congr rfl fun i _ => by ring
    have h2 : ∀ f : Nat → K, ∑ i ∈ Finset.range t.length, f i * (a * t.getD i 0) = a * ∑ i ∈ Finset.range t.length, f i * t.getD i 0 := fun f => by
      rw [Finset.mul_sum]; exact Finset.sum_congr rfl fun i _ => by ring
    rw [this, h2]
    simp only [add_mul, Finset.sum_add_distrib, mul_add]
    ring

/-- The coefficients of a quadratic function. -/
def allCoefs (c : K) (l : Nat → K) (Q : Nat → Nat → K) (n : Nat) : List K := c :: (List.range n).map l ++ quadCoefs Q n

theorem dot_design (c : K) (l : Nat → K) (Q : Nat → Nat → K) (x : List K) : dot (designRow x) (allCoefs c l Q x.length) = quadratic c l Q x := by
  rw [designRow_eq, allCoefs, List.cons_append, List.cons_append, dot_cons, dot_app _ _ _ _ (by simp), dot_range, dot_quad, quadratic]
  ring

theorem allCoefs_length (c : K) (l : Nat → K) (Q : Nat → Nat → K) (x : List K) : (allCoefs c l Q x.length).length = (designRow x).length := by
  rw [designRow_eq, allCoefs]
  simp [quadCoefs_length]

theorem quad_exists (n : Nat) : ∀ off : List K, 2 * off.length = n * (n + 1) → ∃ Q, quadCoefs Q n = off := by
  induction n with
  | zero => intro off h; exact ⟨fun _ _ => 0, by simp [quadCoefs]; exact (List.length_eq_zero_iff.1 (by simpa using h))⟩
  | succ n ih =>
    intro off h
    have hl : off.length = (n + 1) + (off.drop (n + 1)).length := by
      rw [List.length_drop]
      have : n + 1 ≤ off.length := by nlinarith
      omega
    obtain ⟨Q, hQ⟩ := ih (off.drop (n + 1)) (by nlinarith)
    refine ⟨fun i j => if i = 0 then off.getD j 0 else if j = 0 then 0 else Q (i - 1) (j - 1), ?_⟩
    rw [quadCoefs]
    have h1 : (fun i j : Nat => (fun i j : Nat => if i = 0 then off.getD j 0 else if j = 0 then 0 else Q (i - 1) (j - 1)) (i + 1) (j + 1)) = Q := by
      funext i j; simp
    rw [h1, hQ]
    conv_rhs => rw [← List.take_append_drop (n + 1) off]
    congr 1
    apply List.ext_getElem
    · simp; omega
    · intro k hk hk'
      have hk2 : k < off.length := by simp at hk'; omega
      cases k with
      | zero => simp [List.getD, List.getElem?_eq_getElem hk2]
      | succ k => simp [List.getD, List.getElem?_eq_getElem hk2]

/-- Every vector of coefficients is that of a quadratic function. -/
theorem coefs_exists (n : Nat) (b : List K) (h : b.length = numTerms n) : ∃ c l Q, allCoefs c l Q n = b := by
  have h3 := numTerms_two n
  cases b with
  | nil => simp at h; rw [← h] at h3; nlinarith
  | cons c b =>
    obtain ⟨Q, hQ⟩ := quad_exists n (b.drop n) (by rw [List.length_drop]; simp at h; rw [← h] at h3; have : n ≤ b.length := by nlinarith
                                                   zify [this] at h3 ⊢; linarith)
    refine ⟨c, fun i => b.getD i 0, Q, ?_⟩
    rw [allCoefs, hQ, List.cons_append]
    congr 1
    conv_rhs => rw [← List.take_append_drop n b]
    congr 1
    have hn : n ≤ b.length := by simp at h; rw [← h] at h3; nlinarith
    apply List.ext_getElem
    · simp; omega
    · intro k hk hk'
      have hk2 : k < b.length := by simp at hk'; omega
      simp [List.getD, List.getElem?_eq_getElem hk2]

end ring

section field
variable {K : Type} [Field K] [LinearOrder K] [IsStrictOrderedRing K] {lstsq : Nat → List (List K) → List K → List K}

theorem train_trained (h : IsLstsq lstsq) (s : RespSurf K) (n : Nat) (xs : List (List K)) (y : List K) (hx : ∀ x ∈ xs, x.length = n) (hy : xs.length = y.length) :
    (respTrain lstsq s n xs y).1 = ⟨true, n, lstsq (numTerms n) (xs.map designRow) y⟩ ∧ (lstsq (numTerms n) (xs.map designRow) y).length = numTerms n ∧
      ∀ b : List K, b.length = numTerms n → sqSum (xs.map designRow) y (lstsq (numTerms n) (xs.map designRow) y) ≤ sqSum (xs.map designRow) y b := by
  refine ⟨by simp [respTrain, hy], h (numTerms n) (xs.map designRow) y (fun row hr => ?_) (by simpa using hy)⟩
  obtain ⟨x, hxm, rfl⟩ := List.mem_map.1 hr
  rw [designRow_length, hx x hxm]

theorem predict_trained (b : List K) (n : Nat) (x : List K) (hx : x.length = n) (hb : b.length = numTerms n) : respPredict ⟨true, n, b⟩ x = .ok (dot (designRow x) b) := by
  simp only [respPredict, regressors_design n x hx]
  rw [if_neg (by simp), if_pos (by rw [designRow_length, hx, hb])]

theorem sqSum_map (xs : List (List K)) (y b : List K) : sqSum (xs.map designRow) y b = (List.zipWith (fun x v => (dot (designRow x) b - v) ^ 2) xs y).sum := by
  rw [sqSum, List.zipWith_map_left]

theorem zipWith_congr_left {f g : List K → K → K} (xs : List (List K)) (y : List K) (h : ∀ x ∈ xs, ∀ v, f x v = g x v) : List.zipWith f xs y = List.zipWith g xs y := by
  induction xs generalizing y with
  | nil => rfl
  | cons x xs ih => cases y with
    | nil => rfl
    | cons v y => rw [List.zipWith_cons_cons, List.zipWith_cons_cons, h x List.mem_cons_self, ih y fun x hx => h x (List.mem_cons_of_mem _ hx)]

/-- **C171.** After a training, the sum of the squared errors of the predictions at the training points is at most that of any quadratic function. -/
theorem C171_least_squares (h : IsLstsq lstsq) (s : RespSurf K) (n : Nat) (xs : List (List K)) (y : List K) (hx : ∀ x ∈ xs, x.length = n) (hy : xs.length = y.length) :
    ∃ f : List K → K, (∀ x, x.length = n → respPredict (respTrain lstsq s n xs y).1 x = .ok (f x)) ∧ ∀ c l Q,
      (List.zipWith (fun x v => (f x - v) ^ 2) xs y).sum ≤ (List.zipWith (fun x v => (quadratic c l Q x - v) ^ 2) xs y).sum := by
  obtain ⟨h1, h2, h3⟩ := train_trained h s n xs y hx hy
  refine ⟨fun x => dot (designRow x) (lstsq (numTerms n) (xs.map designRow) y), fun x hxn => by rw [h1]; exact predict_trained _ n x hxn h2, fun c l Q => ?_⟩
  have hlen : (allCoefs c l Q n).length = numTerms n := by
    have := allCoefs_length c l Q (List.replicate n 0)
    rwa [designRow_length, List.length_replicate] at this
  have := h3 (allCoefs c l Q n) hlen
  rw [sqSum_map, sqSum_map] at this
  refine this.trans (le_of_eq ?_)
  rw [zipWith_congr_left xs y fun x hxm v => ?_]
  rw [← dot_design, hx x hxm]

theorem sq_zip_zero {f : List K → K} {xs : List (List K)} {y : List K} (hy : xs.length = y.length) (h : (List.zipWith (fun x v => (f x - v) ^ 2) xs y).sum ≤ 0) : xs.map f = y := by
  induction xs generalizing y with
  | nil => cases y with
    | nil => rfl
    | cons v y => simp at hy
  | cons x xs ih => cases y with
    | nil => simp at hy
    | cons v y =>
      rw [List.zipWith_cons_cons, List.sum_cons] at h
      have h1 : 0 ≤ (List.zipWith (fun x v => (f x - v) ^ 2) xs y).sum := by
        refine List.sum_nonneg fun z hz => ?_
        obtain ⟨i, hi, rfl⟩ := List.mem_iff_getElem.1 hz
        rw [List.getElem_zipWith]
        exact sq_nonneg _
      have h2 := sq_nonneg (f x - v)
      have h3 : f x - v = 0 := pow_eq_zero_iff (two_ne_zero) |>.1 (by linarith)
      rw [List.map_cons, ih (by simpa using hy) (by linarith), sub_eq_zero.1 h3]

theorem zip_self_zero (f : List K → K) (xs : List (List K)) : (List.zipWith (fun x v => (f x - v) ^ 2) xs (xs.map f)).sum = 0 := by
  induction xs with
  | nil => rfl
  | cons x xs ih => rw [List.map_cons, List.zipWith_cons_cons, List.sum_cons, ih]; ring

/-- **C171.** If the responses are those of a quadratic function, the surface passes through all of them; and if the training points tell quadratic functions apart, it predicts that function at every point. -/
theorem C171_exact (h : IsLstsq lstsq) (s : RespSurf K) (n : Nat) (xs : List (List K)) (c : K) (l : Nat → K) (Q : Nat → Nat → K) (hx : ∀ x ∈ xs, x.length = n) :
    (∀ x ∈ xs, respPredict (respTrain lstsq s n xs (xs.map (quadratic c l Q))).1 x = .ok (quadratic c l Q x)) ∧
      ((∀ c' l' Q', (∀ x ∈ xs, quadratic c' l' Q' x = 0) → ∀ x : List K, x.length = n → quadratic c' l' Q' x = 0) →
        ∀ x, x.length = n → respPredict (respTrain lstsq s n xs (xs.map (quadratic c l Q))).1 x = .ok (quadratic c l Q x)) := by
  have hy : xs.length = (xs.map (quadratic c l Q)).length := by simp
  obtain ⟨h1, h2, h3⟩ := train_trained h s n xs (xs.map (quadratic c l Q)) hx hy
  obtain ⟨f, hf, hm⟩ := C171_least_squares h s n xs (xs.map (quadratic c l Q)) hx hy
  have h0 := sq_zip_zero hy ((hm c l Q).trans (le_of_eq (zip_self_zero _ xs)))
  have hat : ∀ x ∈ xs, f x = quadratic c l Q x := List.map_inj_left.1 h0
  refine ⟨fun x hxm => by rw [hf x (hx x hxm), hat x hxm], fun huniq x hxn => ?_⟩
  obtain ⟨c', l', Q', hc⟩ := coefs_exists n _ h2
  have hfq : ∀ x, x.length = n → f x = quadratic c' l' Q' x := fun x hxn => by
    have := hf x hxn
    rw [h1, predict_trained _ n x hxn h2, ← hc] at this
    rw [← dot_design, hxn]
    exact (Except.ok.inj this).symm
  have hsub : ∀ x, quadratic (c' - c) (fun i => l' i - l i) (fun i j => Q' i j - Q i j) x = quadratic c' l' Q' x - quadratic c l Q x := fun x => by
    simp only [quadratic, sub_mul, Finset.sum_sub_distrib]
    ring
  have := huniq _ _ _ (fun x hxm => by rw [hsub, ← hfq x (hx x hxm), hat x hxm, sub_self]) x hxn
  rw [hsub] at this
  rw [hf x hxn, hfq x hxn, sub_eq_zero.1 this]

/-- A successful training gives a surface for which the Jacobian is the derivative of the prediction (C57). -/
theorem C171_trained (h : IsLstsq lstsq) (s : RespSurf K) (n : Nat) (xs : List (List K)) (y : List K) (hx : ∀ x ∈ xs, x.length = n) (hy : xs.length = y.length) :
    (respTrain lstsq s n xs y).2 = .ok () ∧ (respTrain lstsq s n xs y).1.Trained ∧ (respTrain lstsq s n xs y).1.n = n := by
  obtain ⟨h1, h2, -⟩ := train_trained h s n xs y hx hy
  refine ⟨by simp [respTrain, hy], ?_, by rw [h1]⟩
  rw [h1]
  exact ⟨rfl, h2⟩

/-- The surface after a training does not depend on earlier ones. -/
theorem C171_again (s s' : RespSurf K) (n : Nat) (xs : List (List K)) (y : List K) (hy : xs.length = y.length) : respTrain lstsq s n xs y = respTrain lstsq s' n xs y := by
  simp only [respTrain, if_pos hy]

end field

/-! There is such an `lstsq` over the real numbers. -/
theorem lsq_exists {m n : Nat} (A : (Fin n → ℝ) →ₗ[ℝ] EuclideanSpace ℝ (Fin m)) (u : EuclideanSpace ℝ (Fin m)) : ∃ b, ∀ b', ‖u - A b‖ ≤ ‖u - A b'‖ := by
  have hc : IsComplete ((LinearMap.range A : Submodule ℝ (EuclideanSpace ℝ (Fin m))) : Set (EuclideanSpace ℝ (Fin m))) := (LinearMap.range A).complete_of_finiteDimensional
  obtain ⟨v, hv, h⟩ := Submodule.exists_norm_eq_iInf_of_complete_subspace (LinearMap.range A) hc u
  obtain ⟨b, rfl⟩ := LinearMap.mem_range.1 hv
  refine ⟨b, fun b' => ?_⟩
  rw [h]
  exact ciInf_le ⟨0, by rintro _ ⟨w, rfl⟩; exact norm_nonneg _⟩ (⟨A b', LinearMap.mem_range.2 ⟨b', rfl⟩⟩ : (LinearMap.range A))

theorem zip_sum_fin {α : Type} [Inhabited α] (f : α → ℝ → ℝ) (xs : List α) (y : List ℝ) (m : Nat) (hx : xs.length = m) (hy : y.length = m) :
    (List.zipWith f xs y).sum = ∑ i : Fin m, f (xs.getD i default) (y.getD i 0) := by
  rw [← List.sum_ofFn]
  congr 1
  apply List.ext_getElem
  · simp [hx, hy]
  · intro k h1 h2
    have hk : k < m := by simpa using h2
    simp [List.getD, List.getElem?_eq_getElem (hx ▸ hk : k < xs.length), List.getElem?_eq_getElem (hy ▸ hk : k < y.length)]

theorem lstsq_exists : ∃ lstsq : Nat → List (List ℝ) → List ℝ → List ℝ, IsLstsq lstsq := by
  have : ∀ (n : Nat) (X : List (List ℝ)) (y : List ℝ), ∃ b : List ℝ, (∀ row ∈ X, row.length = n) → X.length = y.length → b.length = n ∧ ∀ b' : List ℝ, b'.length = n → sqSum X y b ≤ sqSum X y b' := by
    intro n X y
    by_cases hX : ∀ row ∈ X, row.length = n
    swap
    · exact ⟨[], fun h => absurd h hX⟩
    by_cases hy : X.length = y.length
    swap
    · exact ⟨[], fun _ h => absurd h hy⟩
    let A : (Fin n → ℝ) →ₗ[ℝ] EuclideanSpace ℝ (Fin X.length) :=
      { toFun := fun b => WithLp.toLp 2 fun i => ∑ j : Fin n, (X.getD i []).getD j 0 * b j
        map_add' := fun a b => by
          ext i
          simp [mul_add, Finset.sum_add_distrib]
        map_smul' := fun c a => by
          ext i
          simp only [Pi.smul_apply, smul_eq_mul, PiLp.smul_apply, RingHom.id_apply, Finset.mul_sum]
          exact Finset.sum_congr rfl fun j _ => by ring }
    let u : EuclideanSpace ℝ (Fin X.length) := WithLp.toLp 2 fun i => y.getD i 0
    have key : ∀ b : List ℝ, b.length = n → sqSum X y b = ‖u - A (fun j => b.getD j 0)‖ ^ 2 := fun b hb => by
      rw [EuclideanSpace.norm_sq_eq, sqSum, zip_sum_fin _ X y X.length rfl hy.symm]
      refine Finset.sum_congr rfl fun i _ => ?_
      have hrow : (X.getD i []).length = n := hX _ (by simp [List.getD])
      have : dot (X.getD i default) b = ∑ j : Fin n, (X.getD i []).getD j 0 * b.getD j 0 := by
        rw [dot]
        exact zip_sum_fin (fun a b => a * b) (X.getD i []) b n hrow hb
      rw [this]
      simp only [u, A, PiLp.sub_apply, LinearMap.coe_mk, AddHom.coe_mk, Real.norm_eq_abs, sq_abs]
      ring
    obtain ⟨b, hb⟩ := lsq_exists A u
    refine ⟨List.ofFn b, fun _ _ => ⟨by simp, fun b' hb' => ?_⟩⟩
    have hbb : (fun j : Fin n => (List.ofFn b).getD j 0) = b := by funext j; simp [List.getD]
    rw [key _ (by simp), key b' hb', hbb]
    exact pow_le_pow_left₀ (norm_nonneg _) (hb _) 2
  choose f hf using this
  exact ⟨f, fun n X y h1 h2 => hf n X y h1 h2⟩

/-- Three points on a line tell quadratic functions of one variable apart. -/
example : ∀ (c' : ℚ) (l' : Nat → ℚ) (Q' : Nat → Nat → ℚ), (∀ x ∈ [[(0 : ℚ)], [1], [2]], quadratic c' l' Q' x = 0) → ∀ x : List ℚ, x.length = 1 → quadratic c' l' Q' x = 0 := by
  intro c l Q h x hx
  have h0 := h [0] (by simp)
  have h1 := h [1] (by simp)
  have h2 := h [2] (by simp)
  obtain ⟨a, rfl⟩ := List.length_eq_one_iff.1 hx
  simp [quadratic] at h0 h1 h2 ⊢
  have hQ : Q 0 0 = 0 := by linarith
  have hl : l 0 = 0 := by linarith
  rw [hQ, hl, h0]; simp

/-- A row in two inputs. -/
example : designRow [(2 : Int), 3] = [1, 2, 3, 4, 6, 9] := by decide

/-- The coefficients found for `1 + 2 x + 3 y + 4 x² + 5 x y + 6 y²`, and the prediction with them. -/
example : allCoefs (1 : Int) (fun i => if i = 0 then 2 else 3) (fun i j => if i = 1 ∧ j = 1 then 6 else if i = 0 ∧ j = 0 then 4 else if i = 0 then 5 else 0) 2 = [1, 2, 3, 4, 5, 6] := by decide

/-- A training that fails leaves the surface marked as trained: the old coefficients go on being used. -/
theorem finding_C171_failed : (respTrain (fun _ _ _ => []) (⟨true, 1, [7, 0, 0]⟩ : RespSurf Int) 1 [[1], [2]] [5]).2 = .error .ValueError ∧
    respPredict (respTrain (fun _ _ _ => []) (⟨true, 1, [7, 0, 0]⟩ : RespSurf Int) 1 [[1], [2]] [5]).1 [1] = .ok 7 ∧
    respPredict (respTrain (fun _ _ _ => []) (⟨false, 0, []⟩ : RespSurf Int) 1 [[1], [2]] [5]).1 [1] = .error .ValueError := by
  refine ⟨by rfl, by decide, by decide⟩

end OpenMDAO
