import Verif.Model.ResponseSurface
import Mathlib.Tactic.Ring
import Mathlib.Tactic.LinearCombination
import Mathlib.Tactic.NormNum
import Mathlib.Analysis.Calculus.Deriv.Pow
import Mathlib.Analysis.Calculus.Deriv.Mul
import Mathlib.Analysis.Calculus.Deriv.Add
/-! C57: the Jacobian of a response surface is the derivative of its prediction. -/
namespace OpenMDAO
set_option linter.unusedSectionVars false

variable {K : Type} [CommRing K]

/-- A trained surface has one coefficient for the constant, one per input and one per pair of inputs. -/
def RespSurf.Trained (s : RespSurf K) : Prop := s.trained = true ∧ s.betas.length = (s.n + 1) * (s.n + 2) / 2

/-- `x + t h` -/
def along (x h : List K) (t : K) : List K := List.zipWith (fun a b => a + t * b) x h

theorem quadTerms_length (x : List K) : 2 * (quadTerms x).length = x.length * (x.length + 1) := by
  induction x with
  | nil => rfl
  | cons a t ih =>
    simp only [quadTerms, List.length_append, List.length_map, List.length_cons]
    rw [Nat.mul_add, ih]; ring

theorem numTerms_two (n : Nat) : 2 * numTerms n = (n + 1) * (n + 2) :=
  Nat.mul_div_cancel' (Nat.even_mul_succ_self (n + 1)).two_dvd

theorem dot_nil_left (v : List K) : dot [] v = 0 := by simp [dot]

theorem dot_cons (a : K) (u : List K) (b : K) (v : List K) : dot (a :: u) (b :: v) = a * b + dot u v := by simp [dot]

theorem dot_app (u1 u2 v1 v2 : List K) (h : u1.length = v1.length) : dot (u1 ++ u2) (v1 ++ v2) = dot u1 v1 + dot u2 v2 := by
  simp [dot, List.zipWith_append h]

theorem dot_map_mul (c : K) (u v : List K) : dot (u.map (c * ·)) v = c * dot u v := by
  induction u generalizing v with
  | nil => simp [dot_nil_left]
  | cons a t ih =>
    cases v with
    | nil => simp [dot]
    | cons b v => rw [List.map_cons, dot_cons, dot_cons, ih]; ring

theorem dot_along (x h v : List K) (t : K) (hl : x.length = h.length) :
    dot (along x h t) v = dot x v + t * dot h v := by
  induction x generalizing h v with
  | nil => cases h with
    | nil => simp [along, dot]
    | cons => simp at hl
  | cons a x ih =>
    cases h with
    | nil => simp at hl
    | cons b h =>
      cases v with
      | nil => simp [dot]
      | cons c v =>
        have := ih h v (by simpa using hl)
        simp only [along, List.zipWith_cons_cons] at this ⊢
        rw [dot_cons, dot_cons, dot_cons, this]; ring

theorem dot_comm' (u v : List K) : dot u v = dot v u := by
  induction u generalizing v with
  | nil => simp [dot]
  | cons a u ih => cases v with
    | nil => simp [dot]
    | cons b v => rw [dot_cons, dot_cons, ih]; ring

theorem dot_axpy (a : K) (js cs u : List K) (h : js.length = cs.length) :
    dot (List.zipWith (fun w b => w + a * b) js cs) u = dot js u + a * dot cs u := dot_along js cs u a h

theorem along_length (x h : List K) (t : K) (hl : x.length = h.length) : (along x h t).length = x.length := by
  simp [along, hl]

/-- Expansion of the quadratic block along a line. -/
theorem quad_along (x h js off : List K) (t : K) (hl : x.length = h.length) (hj : js.length = x.length)
    (ho : off.length = (quadTerms x).length) :
    dot (quadTerms (along x h t)) off = dot (quadTerms x) off + t * (dot (linLoop x js off) h - dot js h)
      + t ^ 2 * dot (quadTerms h) off := by
  induction x generalizing h js off with
  | nil =>
    cases h with
    | nil => cases js with
      | nil => simp [along, quadTerms, dot]
      | cons => simp at hj
    | cons => simp at hl
  | cons a x ih =>
    cases h with
    | nil => simp at hl
    | cons b u =>
      cases js with
      | nil => simp at hj
      | cons j js =>
        have hxu : x.length = u.length := by simpa using hl
        have hjs : js.length = x.length := by simpa using hj
        -- split the coefficients into the block of `a` and the rest
        obtain ⟨c, cs, rest, rfl, hcs⟩ : ∃ c cs rest, off = (c :: cs) ++ rest ∧ cs.length = x.length := by
          cases off with
          | nil => simp [quadTerms] at ho
          | cons c off' =>
            have : x.length ≤ off'.length := by
              simp [quadTerms] at ho
              omega
            exact ⟨c, off'.take x.length, off'.drop x.length, by simp, by simp [this]⟩
        have hrest : rest.length = (quadTerms x).length := by
          simp [quadTerms] at ho
          omega
        have hal : along (a :: x) (b :: u) t = (a + t * b) :: along x u t := rfl
        have e1 : ∀ (p : K) (q : List K), q.length = x.length →
            dot (quadTerms (p :: q)) ((c :: cs) ++ rest) = p * (p * c + dot q cs) + dot (quadTerms q) rest := by
          intro p q hq
          rw [quadTerms, dot_app _ _ _ _ (by simp [hq, hcs]), dot_map_mul, dot_cons]
        rw [hal, e1 _ _ (along_length x u t hxu), e1 a x rfl, e1 b u hxu.symm]
        have e2 : linLoop (a :: x) (j :: js) ((c :: cs) ++ rest) =
            (j + (a * c + dot x cs) + a * c) :: linLoop x (List.zipWith (fun w b => w + a * b) js cs) rest := by
          have hm : x.length = cs.length := hcs.symm
          simp [linLoop, hm, dot_cons, List.take_append_of_le_length, List.drop_append_of_le_length]
        have hzl : (List.zipWith (fun w b => w + a * b) js cs).length = x.length := by simp [hjs, hcs]
        have := ih u (List.zipWith (fun w b => w + a * b) js cs) rest hxu hzl hrest
        rw [e2, dot_cons, dot_cons, this, dot_axpy a js cs u (by rw [hjs, hcs]), dot_along x u cs t hxu, dot_comm' cs u]
        ring

theorem linLoop_length (x js off : List K) (hj : js.length = x.length) (ho : off.length = (quadTerms x).length) :
    (linLoop x js off).length = x.length := by
  induction x generalizing js off with
  | nil => simpa [linLoop] using hj
  | cons a x ih =>
    cases js with
    | nil => simp at hj
    | cons j js =>
      have hjs : js.length = x.length := by simpa using hj
      have hb : x.length + 1 ≤ off.length := by
        simp [quadTerms] at ho; omega
      simp only [linLoop, List.length_cons]
      rw [ih]
      · simp [hjs]; omega
      · simp [quadTerms] at ho; simp; omega

/-- **C57, exact expansion.** For a trained surface and any point and direction of the right length, the prediction along the line
is the prediction at the point, plus `t` times the product of the Jacobian row with the direction, plus `t²` times a number
that does not depend on `t` or on the point. This holds over every commutative ring. -/
theorem C57_expansion (s : RespSurf K) (x h : List K) (hs : s.Trained) (hx : x.length = s.n) (hh : h.length = s.n) :
    ∃ (p : K) (jac : List K), respPredict s x = .ok p ∧ respLinearize s x = .ok jac ∧ jac.length = s.n ∧
      ∀ t, respPredict s (along x h t) = .ok (p + t * dot jac h + t ^ 2 * dot (quadTerms h) (s.betas.drop (s.n + 1))) := by
  obtain ⟨htr, hbl⟩ := hs
  have hq : ∀ y : List K, y.length = s.n → 1 + s.n + (quadTerms y).length = s.betas.length := by
    intro y hy
    have h1 := quadTerms_length y
    have h2 := numTerms_two s.n
    rw [hy] at h1
    have h3 : (s.n + 1) * (s.n + 2) = s.n * (s.n + 1) + 2 * (s.n + 1) := by ring
    rw [hbl]
    change _ = numTerms s.n
    omega
  -- shape of the coefficients
  obtain ⟨c, lin, q, hβ, hlin⟩ : ∃ c lin q, s.betas = c :: (lin ++ q) ∧ lin.length = s.n := by
    cases hb : s.betas with
    | nil => have := hq x hx; rw [hb] at this; simp at this
    | cons c r =>
      have := hq x hx
      rw [hb] at this
      simp at this
      exact ⟨c, r.take s.n, r.drop s.n, by simp, by simp; omega⟩
  have hqd : s.betas.drop (s.n + 1) = q := by rw [hβ]; simp [← hlin]
  have hld : (s.betas.drop 1).take s.n = lin := by rw [hβ]; simp [← hlin]
  have hql : q.length = (quadTerms x).length := by
    have := hq x hx; rw [hβ] at this; simp [hlin] at this; omega
  have hpred : ∀ y : List K, y.length = s.n → respPredict s y = .ok (c + dot y lin + dot (quadTerms y) q) := by
    intro y hy
    have hy2 := hq y hy
    have : regressors s.n y = .ok (1 :: y ++ quadTerms y) := by simp [regressors, hy]
    simp only [respPredict, htr, this]
    rw [if_neg (by simp), if_pos (by simp [hy]; omega), hβ]
    congr 1
    rw [List.cons_append, dot_cons, dot_app _ _ _ _ (by rw [hy, hlin])]
    ring
  refine ⟨_, linLoop x lin q, hpred x hx, ?_, ?_, ?_⟩
  · simp only [respLinearize, htr, hx, hqd, hld]; simp
  · rw [linLoop_length x lin q (by rw [hlin, hx]) hql, hx]
  · intro t
    have hxh : x.length = h.length := by rw [hx, hh]
    rw [hpred _ (by rw [along_length x h t hxh, hx]), hqd, dot_along x h lin t hxh,
      quad_along x h lin q t hxh (by rw [hlin, hx]) hql, dot_comm' lin h]
    congr 1
    ring

/-- **C57.** Over the reals: along every line through a point the prediction is differentiable at the point and its derivative is
the product of the Jacobian row returned by `linearize` with the direction. -/
theorem C57_derivative (s : RespSurf ℝ) (x h : List ℝ) (hs : s.Trained) (hx : x.length = s.n) (hh : h.length = s.n) :
    ∃ (f : ℝ → ℝ) (jac : List ℝ), (∀ t, respPredict s (along x h t) = .ok (f t)) ∧ respLinearize s x = .ok jac ∧
      jac.length = s.n ∧ HasDerivAt f (dot jac h) 0 := by
  obtain ⟨p, jac, _, hj, hlen, hf⟩ := C57_expansion s x h hs hx hh
  refine ⟨_, jac, hf, hj, hlen, ?_⟩
  have h1 : HasDerivAt (fun t : ℝ => t * dot jac h) (dot jac h) 0 := by
    simpa using (hasDerivAt_id (0 : ℝ)).mul_const (dot jac h)
  have h2 : HasDerivAt (fun t : ℝ => t ^ 2 * dot (quadTerms h) (s.betas.drop (s.n + 1))) 0 0 := by
    simpa using (hasDerivAt_pow 2 (0 : ℝ)).mul_const (dot (quadTerms h) (s.betas.drop (s.n + 1)))
  have h3 := (h1.const_add p).fun_add h2
  rw [add_zero] at h3
  exact h3

theorem dot_single (jac : List K) (n i : Nat) (hl : jac.length = n) (hi : i < n) :
    dot jac ((List.replicate n (0 : K)).set i 1) = jac[i]'(by omega) := by
  induction jac generalizing n i with
  | nil => simp at hl; omega
  | cons a jac ih =>
    cases n with
    | zero => simp at hl
    | succ n =>
      cases i with
      | zero =>
        have : ∀ (l : List K) m, dot l (List.replicate m (0 : K)) = 0 := by
          intro l
          induction l with
          | nil => intro m; simp [dot]
          | cons b l ih2 => intro m; cases m with
            | zero => simp [dot]
            | succ m => rw [List.replicate_succ, dot_cons, ih2]; ring
        simp [List.replicate_succ, dot_cons, this]
      | succ i =>
        have := ih n i (by simpa using hl) (by omega)
        simp [List.replicate_succ, dot_cons, this]

/-- **C57, entry by entry.** Entry `i` of the Jacobian row is the partial derivative with respect to input `i`. -/
theorem C57_entrywise (s : RespSurf ℝ) (x : List ℝ) (i : Nat) (hs : s.Trained) (hx : x.length = s.n) (hi : i < s.n) :
    ∃ (f : ℝ → ℝ) (jac : List ℝ) (d : ℝ),
      (∀ t, respPredict s (along x ((List.replicate s.n 0).set i 1) t) = .ok (f t)) ∧
      respLinearize s x = .ok jac ∧ jac[i]? = some d ∧ HasDerivAt f d 0 := by
  obtain ⟨f, jac, h1, h2, h3, h4⟩ := C57_derivative s x ((List.replicate s.n 0).set i 1) hs hx (by simp)
  refine ⟨f, jac, jac[i]'(by omega), h1, h2, by simp [h3, hi], ?_⟩
  rwa [dot_single jac s.n i h3 hi] at h4

/-- Before training a prediction is a RuntimeError, whatever the point. -/
theorem C57_untrained (s : RespSurf K) (x : List K) (h : s.trained = false) : respPredict s x = .error .RuntimeError := by
  simp [respPredict, h]

/-- A surface in two variables with six different coefficients: value and Jacobian at (2, 3). -/
example : respPredict (⟨true, 2, [1, 2, 3, 4, 5, 6]⟩ : RespSurf ℤ) [2, 3] = .ok 114 ∧
    respLinearize (⟨true, 2, [1, 2, 3, 4, 5, 6]⟩ : RespSurf ℤ) [2, 3] = .ok [33, 49] := by decide

example : (⟨true, 2, [1, 2, 3, 4, 5, 6]⟩ : RespSurf ℤ).Trained := ⟨rfl, rfl⟩

/-- Finding: a point with too few entries is not rejected. The quadratic terms then land on coefficients of other terms: with the
surface `x0² ` fitted in two variables, the "point" (2) gives `2·β1 + 4·β2`, here 4 times the coefficient of `x1`. -/
theorem finding_C57_short_point :
    respPredict (⟨true, 2, [0, 0, 7, 0, 0, 0]⟩ : RespSurf ℤ) [2] = .ok 28 := by decide

end OpenMDAO
