import Verif.Spec.NearNbr
import Mathlib.Analysis.SpecialFunctions.Sqrt
import Mathlib.Analysis.Calculus.Deriv.Add
import Mathlib.Analysis.Calculus.Deriv.Mul
import Mathlib.Analysis.Calculus.Deriv.Pow
import Mathlib.Analysis.Calculus.Deriv.Inv
import Mathlib.Data.List.Sort
import Mathlib.Tactic.FieldSimp
import Mathlib.Tactic.Ring
import Mathlib.Tactic.Linarith
/-!
# Distances, scaling, and neighbours of nearby points
-/
namespace OpenMDAO
set_option linter.unusedSectionVars false
open Filter Topology

variable {N d e : Nat}

theorem colRange_ne (v : Fin (N + 1) → ℝ) : colRange v ≠ 0 := by
  rw [colRange]
  split
  · exact one_ne_zero
  · assumption

theorem colRange_pos (v : Fin (N + 1) → ℝ) : 0 < colRange v := by
  have h : colMin v ≤ colMax v := (Finset.inf'_le v (Finset.mem_univ 0)).trans (Finset.le_sup' v (Finset.mem_univ 0))
  refine lt_of_le_of_ne ?_ (Ne.symm (colRange_ne v))
  rw [colRange]
  split
  · exact zero_le_one
  · exact sub_nonneg.2 h

theorem NNData.tpr_ne (D : NNData N d e) (k : Fin d) : D.tpr k ≠ 0 := colRange_ne _
theorem NNData.tvr_ne (D : NNData N d e) (j : Fin e) : D.tvr j ≠ 0 := colRange_ne _
theorem NNData.tvr_pos (D : NNData N d e) (j : Fin e) : 0 < D.tvr j := colRange_pos _

theorem NNData.unscale (D : NNData N d e) (i : Fin (N + 1)) (j : Fin e) : D.tv i j * D.tvr j + D.tvm j = D.Y i j := by
  rw [NNData.tv, div_mul_cancel₀ _ (D.tvr_ne j)]
  ring

theorem NNData.norm_update (D : NNData N d e) (x : Fin d → ℝ) (k : Fin d) (t : ℝ) : D.norm (Function.update x k t) = Function.update (D.norm x) k ((t - D.tpm k) / D.tpr k) := by
  funext m
  by_cases h : m = k
  · subst h
    simp [NNData.norm]
  · simp [NNData.norm, h]

theorem eudist_nonneg (x y : Fin d → ℝ) : 0 ≤ eudist x y := Real.sqrt_nonneg _

theorem sumsq_nonneg (x y : Fin d → ℝ) : 0 ≤ ∑ k, (x k - y k) ^ 2 := Finset.sum_nonneg fun _ _ => sq_nonneg _

theorem eudist_eq_zero (x y : Fin d → ℝ) : eudist x y = 0 ↔ x = y := by
  rw [eudist, Real.sqrt_eq_zero (sumsq_nonneg x y), Finset.sum_eq_zero_iff_of_nonneg fun _ _ => sq_nonneg _]
  constructor
  · intro h
    funext k
    have := h k (Finset.mem_univ k)
    exact sub_eq_zero.1 (pow_eq_zero_iff (two_ne_zero)|>.1 this)
  · rintro rfl k -
    simp

theorem eudist_sq (x y : Fin d → ℝ) : eudist x y ^ 2 = ∑ k, (x k - y k) ^ 2 := Real.sq_sqrt (sumsq_nonneg x y)

theorem continuous_eudist (y : Fin d → ℝ) : Continuous fun x : Fin d → ℝ => eudist x y := by
  unfold eudist
  fun_prop

theorem NNData.norm_inj (D : NNData N d e) (x y : Fin d → ℝ) (h : D.norm x = D.norm y) : x = y := by
  funext k
  have := congrFun h k
  simp only [NNData.norm] at this
  rw [div_left_inj' (D.tpr_ne k)] at this
  linarith

/-- Partial derivative of the square of the distance. -/
theorem sumsq_deriv (z p : Fin d → ℝ) (k : Fin d) : HasDerivAt (fun t => ∑ m, (Function.update z k t m - p m) ^ 2) (2 * (z k - p k)) (z k) := by
  have h : (fun t => ∑ m, (Function.update z k t m - p m) ^ 2) = fun t => (t - p k) ^ 2 + ∑ m ∈ Finset.univ.erase k, (z m - p m) ^ 2 := by
    funext t
    rw [← Finset.add_sum_erase _ _ (Finset.mem_univ k)]
    congr 1
    · simp
    · refine Finset.sum_congr rfl fun m hm => ?_
      rw [Function.update_of_ne (Finset.ne_of_mem_erase hm)]
  rw [h]
  have h0 : HasDerivAt (fun t : ℝ => t - p k) 1 (z k) := (hasDerivAt_id (z k)).sub_const (p k)
  have h1 : HasDerivAt (fun t : ℝ => (t - p k) ^ 2) (2 * (z k - p k)) (z k) := by
    exact (h0.pow 2).congr_deriv (by simp)
  exact h1.add_const _

/-- Partial derivative of the distance. -/
theorem eudist_deriv (z p : Fin d → ℝ) (k : Fin d) (h : eudist z p ≠ 0) : HasDerivAt (fun t => eudist (Function.update z k t) p) ((z k - p k) / eudist z p) (z k) := by
  have hs : (∑ m, (Function.update z k (z k) m - p m) ^ 2) ≠ 0 := by
    rw [Function.update_eq_self, ← eudist_sq]
    exact pow_ne_zero 2 h
  have := (sumsq_deriv z p k).sqrt hs
  rw [Function.update_eq_self] at this
  refine this.congr_deriv ?_
  change 2 * (z k - p k) / (2 * eudist z p) = _
  rw [mul_div_mul_left _ _ two_ne_zero]

/-- The order of the distances does not change near a point without ties. -/
theorem order_near (pts : Fin (N + 1) → Fin d → ℝ) (z : Fin d → ℝ) (h : NoTies pts z) :
    ∀ᶠ z' in 𝓝 z, ∀ a b, eudist z' (pts a) < eudist z' (pts b) ↔ eudist z (pts a) < eudist z (pts b) := by
  have key : ∀ᶠ z' in 𝓝 z, ∀ a b, eudist z (pts a) < eudist z (pts b) → eudist z' (pts a) < eudist z' (pts b) := by
    rw [eventually_all]
    intro a
    rw [eventually_all]
    intro b
    by_cases hab : eudist z (pts a) < eudist z (pts b)
    · have := (continuous_eudist (pts a)).continuousAt.eventually_lt (continuous_eudist (pts b)).continuousAt hab
      exact this.mono fun _ h _ => h
    · exact Eventually.of_forall fun _ h => absurd h hab
  filter_upwards [key] with z' hz a b
  refine ⟨fun hlt => ?_, hz a b⟩
  rcases lt_trichotomy (eudist z (pts a)) (eudist z (pts b)) with h1 | h1 | h1
  · exact h1
  · rw [h a b h1] at hlt
    exact absurd hlt (lt_irrefl _)
  · exact absurd (hz b a h1) (not_lt.2 hlt.le)

/-- Two lists of `n` nearest points in the same strict order are the same. -/
theorem nearest_unique {α : Type} [Fintype α] [DecidableEq α] (lt : α → α → Prop) (asy : ∀ a b, lt a b → ¬ lt b a) (l l' : List α) (hl : l.length = l'.length)
    (n1 : l.Nodup) (n2 : l'.Nodup) (p1 : l.Pairwise lt) (p2 : l'.Pairwise lt) (o1 : ∀ a ∈ l, ∀ b, b ∉ l → lt a b) (o2 : ∀ a ∈ l', ∀ b, b ∉ l' → lt a b) : l = l' := by
  have sub : ∀ a ∈ l, a ∈ l' := by
    intro a ha
    by_contra hn
    have : ∃ b ∈ l', b ∉ l := by
      by_contra hc
      push Not at hc
      have hs : l'.toFinset ⊆ l.toFinset.erase a := by
        intro b hb
        rw [List.mem_toFinset] at hb
        exact Finset.mem_erase.2 ⟨fun e => hn (e ▸ hb), List.mem_toFinset.2 (hc b hb)⟩
      have := Finset.card_le_card hs
      rw [List.toFinset_card_of_nodup n2, Finset.card_erase_of_mem (List.mem_toFinset.2 ha), List.toFinset_card_of_nodup n1] at this
      have : 0 < l.length := List.length_pos_of_mem ha
      omega
    obtain ⟨b, hb, hbl⟩ := this
    exact asy a b (o1 a ha b hbl) (o2 b hb a hn)
  have hp : l.Perm l' := (List.subperm_of_subset n1 sub).perm_of_length_le (by omega)
  exact hp.eq_of_pairwise (fun a b _ _ h1 h2 => absurd h2 (asy a b h1)) p1 p2

theorem Nbrs.all_inj (b b' : Nbrs N) (h : b.all = b'.all) : b = b' := by
  obtain ⟨n, f⟩ := b
  obtain ⟨n', f'⟩ := b'
  simp only [Nbrs.all] at h
  obtain ⟨h1, h2⟩ := List.append_inj' h rfl
  simp only [List.cons.injEq, and_true] at h2
  rw [h1, h2]

/-- Near a point without ties the query returns the same neighbours. -/
theorem query_near (pts : Fin (N + 1) → Fin d → ℝ) (n : Nat) (q : (Fin d → ℝ) → Nbrs N) (hq : IsNearest pts n q) (z : Fin d → ℝ) (h : NoTies pts z) : ∀ᶠ z' in 𝓝 z, q z' = q z := by
  filter_upwards [order_near pts z h] with z' hz
  have h' : NoTies pts z' := by
    intro a b hab
    by_contra hn
    rcases lt_trichotomy (eudist z (pts a)) (eudist z (pts b)) with h1 | h1 | h1
    · exact absurd ((hz a b).2 h1) (not_lt.2 hab.ge)
    · exact hn (h a b h1)
    · exact absurd ((hz b a).2 h1) (not_lt.2 hab.le)
  obtain ⟨a1, a2, a3, a4⟩ := hq z
  obtain ⟨b1, b2, b3, b4⟩ := hq z'
  refine Nbrs.all_inj _ _ (nearest_unique (fun a b => eudist z (pts a) < eudist z (pts b)) (fun a b h => not_lt.2 h.le) _ _ (b1.trans a1.symm) b2 a2 ?_ ?_ ?_ ?_)
  · exact (b2.and b3).imp fun {a b} hab => (hz a b).1 (lt_of_le_of_ne hab.2 fun e => hab.1 (h' a b e))
  · exact (a2.and a3).imp fun {a b} hab => lt_of_le_of_ne hab.2 fun e => hab.1 (h a b e)
  · intro a ha b hb
    exact (hz a b).1 (lt_of_le_of_ne (b4 a ha b hb) fun e => hb (h' a b e ▸ ha))
  · intro a ha b hb
    exact lt_of_le_of_ne (a4 a ha b hb) fun e => hb (h a b e ▸ ha)

/-- The same along one input. -/
theorem query_line (D : NNData N d e) (n : Nat) (q : (Fin d → ℝ) → Nbrs N) (hq : IsNearest D.tp n q) (x : Fin d → ℝ) (k : Fin d) (h : NoTies D.tp (D.norm x)) :
    ∀ᶠ t in 𝓝 (x k), q (D.norm (Function.update x k t)) = q (D.norm x) := by
  have hc : Continuous fun t : ℝ => D.norm (Function.update x k t) := by
    simp only [NNData.norm_update]
    fun_prop
  have ht : Tendsto (fun t : ℝ => D.norm (Function.update x k t)) (𝓝 (x k)) (𝓝 (D.norm x)) := by
    have := hc.tendsto (x k)
    rwa [Function.update_eq_self] at this
  exact ht.eventually (query_near D.tp n q hq (D.norm x) h)

/-- Derivative of the scaled distance along one input. -/
theorem norm_dist_deriv (D : NNData N d e) (x p : Fin d → ℝ) (k : Fin d) (h : eudist (D.norm x) p ≠ 0) :
    HasDerivAt (fun t => eudist (D.norm (Function.update x k t)) p) ((D.norm x k - p k) / eudist (D.norm x) p / D.tpr k) (x k) := by
  simp only [NNData.norm_update]
  have h1 : HasDerivAt (fun t : ℝ => (t - D.tpm k) / D.tpr k) (1 / D.tpr k) (x k) := by
    have h0 : HasDerivAt (fun t : ℝ => t - D.tpm k) 1 (x k) := (hasDerivAt_id (x k)).sub_const _
    exact h0.div_const _
  have h2 := eudist_deriv (D.norm x) p k h
  have := HasDerivAt.comp (x k) (h₂ := fun s => eudist (Function.update (D.norm x) k s) p) (h := fun t : ℝ => (t - D.tpm k) / D.tpr k) h2 h1
  refine this.congr_deriv ?_
  ring

end OpenMDAO
