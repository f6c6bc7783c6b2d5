import Verif.Spec.LinearGS
import Mathlib.Tactic.Ring
import Mathlib.Tactic.LinearCombination
import Mathlib.Algebra.BigOperators.Group.Finset.Sigma
import Mathlib.Algebra.BigOperators.Group.Finset.Piecewise
/-! Helper lemmas for C32 and C33. -/
namespace OpenMDAO

set_option linter.unusedSectionVars false

variable {ι π K : Type} [Fintype ι] [Fintype π] [DecidableEq ι] [Field K]

theorem A_mul (G : LinGroup ι π K) (i : ι) (p : ι → Prop) [DecidablePred p] (x : ι → K) :
    (∑ j : ι, if p j then G.A i j * x j else 0) =
      (∑ k : π, if p (G.src k) then G.jp i k * x (G.src k) else 0) + (∑ j : ι, if p j then G.js i j * x j else 0)
        - if p i ∧ G.expl i then x i else 0 := by
  have h1 : (∑ k : π, if p (G.src k) then G.jp i k * x (G.src k) else 0) =
      ∑ j : ι, if p j then (∑ k : π, if G.src k = j then G.jp i k else 0) * x j else 0 := by
    have : ∀ k : π, (if p (G.src k) then G.jp i k * x (G.src k) else 0) =
        ∑ j : ι, if G.src k = j then (if p j then G.jp i k * x j else 0) else 0 := by
      intro k
      rw [Finset.sum_ite_eq]
      simp
    simp_rw [this]
    rw [Finset.sum_comm]
    refine Finset.sum_congr rfl fun j _ => ?_
    by_cases hj : p j
    · simp only [hj, if_true, Finset.sum_mul]
      refine Finset.sum_congr rfl fun k _ => ?_
      split <;> simp
    · simp [hj]
  have h2 : (if p i ∧ G.expl i then x i else 0) = ∑ j : ι, if p j then (if i = j ∧ G.expl i then 1 else 0) * x j else 0 := by
    have : ∀ j : ι, (if p j then (if i = j ∧ G.expl i then (1 : K) else 0) * x j else 0) =
        if i = j then (if p j ∧ G.expl i then x j else 0) else 0 := by
      intro j
      by_cases hp : p j <;> by_cases hi : i = j <;> by_cases he : G.expl i <;> simp [hp, hi, he]
    simp_rw [this]
    rw [Finset.sum_ite_eq]
    simp
  rw [h1, h2, ← Finset.sum_add_distrib, ← Finset.sum_sub_distrib]
  refine Finset.sum_congr rfl fun j _ => ?_
  by_cases hp : p j
  · simp only [hp, if_true]; unfold LinGroup.A; ring
  · simp [hp]

theorem A_mul_T (G : LinGroup ι π K) (j : ι) (p : ι → Prop) [DecidablePred p] (y : ι → K) :
    (∑ i : ι, if p i then G.A i j * y i else 0) =
      (∑ k : π, if G.src k = j then (∑ i : ι, if p i then G.jp i k * y i else 0) else 0)
        + (∑ i : ι, if p i then G.js i j * y i else 0) - if p j ∧ G.expl j then y j else 0 := by
  have h1 : (∑ k : π, if G.src k = j then (∑ i : ι, if p i then G.jp i k * y i else 0) else 0) =
      ∑ i : ι, if p i then (∑ k : π, if G.src k = j then G.jp i k else 0) * y i else 0 := by
    have : ∀ k : π, (if G.src k = j then (∑ i : ι, if p i then G.jp i k * y i else 0) else 0) =
        ∑ i : ι, if G.src k = j then (if p i then G.jp i k * y i else 0) else 0 := by
      intro k
      split <;> simp
    simp_rw [this]
    rw [Finset.sum_comm]
    refine Finset.sum_congr rfl fun i _ => ?_
    by_cases hi : p i
    · simp only [hi, if_true, Finset.sum_mul]
      refine Finset.sum_congr rfl fun k _ => ?_
      split <;> simp
    · simp [hi]
  have h2 : (if p j ∧ G.expl j then y j else 0) = ∑ i : ι, if p i then (if i = j ∧ G.expl i then 1 else 0) * y i else 0 := by
    have : ∀ i : ι, (if p i then (if i = j ∧ G.expl i then (1 : K) else 0) * y i else 0) =
        if j = i then (if p i ∧ G.expl i then y i else 0) else 0 := by
      intro i
      by_cases hi : i = j
      · subst hi
        by_cases hp : p i <;> by_cases he : G.expl i <;> simp [hp, he]
      · have : ¬ j = i := fun h => hi h.symm
        simp [hi, this]
    simp_rw [this]
    rw [Finset.sum_ite_eq]
    simp
  rw [h1, h2, ← Finset.sum_add_distrib, ← Finset.sum_sub_distrib]
  refine Finset.sum_congr rfl fun i _ => ?_
  by_cases hp : p i
  · simp only [hp, if_true]; unfold LinGroup.A; ring
  · simp [hp]

/-- Splitting a sum over the unknowns into those of child `c` and the others. -/
theorem sum_split (p : ι → Prop) [DecidablePred p] (f : ι → K) :
    ∑ j : ι, f j = (∑ j : ι, if p j then f j else 0) + ∑ j : ι, if ¬ p j then f j else 0 := by
  rw [← Finset.sum_add_distrib]
  refine Finset.sum_congr rfl fun j _ => ?_
  by_cases h : p j <;> simp [h]

/-- Contribution of the child's own unknowns that the forward sweep puts on the right-hand side. -/
def innerTerm (G : LinGroup ι π K) (x : ι → K) (i : ι) : K :=
  (∑ k : π, if G.owner (G.src k) = G.owner i then G.jp i k * x (G.src k) else 0) + ∑ j : ι, G.js i j * x j

theorem gsStepFwd_other (G : LinGroup ι π K) (S : GSSolve ι π K) (rhs : ι → K) (s : GSState ι π K) (c : Nat) (j : ι)
    (h : G.owner j ≠ c) : (gsStepFwd G S rhs s c).du j = s.du j := by
  simp [gsStepFwd, h, subApplyFwd, xferInside, xferFwd]

/-- Right-hand side handed to the child. -/
theorem gsStepFwd_own (G : LinGroup ι π K) (S : GSSolve ι π K) (rhs : ι → K) (s : GSState ι π K) (c : Nat) (hw : G.WF) :
    ∃ r : ι → K, (∀ j, G.owner j = c → (gsStepFwd G S rhs s c).du j = S.sol c r j) ∧
      ∀ i, G.owner i = c → r i = rhs i - (∑ k : π, G.jp i k * s.du (G.src k)) - ∑ j : ι, G.js i j * s.du j := by
  refine ⟨fun i => if G.owner i = c then
    -(subApplyFwd G c (xferFwd G c s)).dr i + rhs i else 0, ?_, ?_⟩
  · intro j hj
    simp [gsStepFwd, hj]
  · intro i hi
    simp only [hi, if_true, subApplyFwd, xferInside, xferFwd]
    have h1 : (∑ k : π, if G.powner k = c then G.jp i k *
        (if G.powner k = c ∧ G.owner (G.src k) = c then s.du (G.src k)
          else if G.powner k = c ∧ G.owner (G.src k) ≠ c then s.du (G.src k) else s.dp k) else 0) =
        ∑ k : π, G.jp i k * s.du (G.src k) := by
      refine Finset.sum_congr rfl fun k _ => ?_
      by_cases hk : G.powner k = c
      · by_cases hs : G.owner (G.src k) = c <;> simp [hk, hs]
      · rw [hw.jp i k (by rw [hi]; exact hk)]; simp
    have h2 : (∑ j : ι, if G.owner j = c then G.js i j * s.du j else 0) = ∑ j : ι, G.js i j * s.du j := by
      refine Finset.sum_congr rfl fun j _ => ?_
      by_cases hj : G.owner j = c
      · simp [hj]
      · rw [hw.js i j (by rw [hi]; exact hj)]; simp
    rw [h1, h2]
    ring

/-- The block equation after a forward step: what is solved differs from the block equation by `innerTerm` of the previous
iterate. -/
theorem gsStepFwd_eq (G : LinGroup ι π K) (S : GSSolve ι π K) (rhs : ι → K) (s : GSState ι π K) (c : Nat) (hw : G.WF)
    (hS : ExactBlocks G S.sol) (i : ι) (hi : G.owner i = c) :
    ∑ j : ι, G.A i j * (gsStepFwd G S rhs s c).du j = rhs i - innerTerm G s.du i := by
  obtain ⟨r, hr1, hr2⟩ := gsStepFwd_own G S rhs s c hw
  rw [sum_split (fun j => G.owner j = c)]
  have h1 : (∑ j : ι, if G.owner j = c then G.A i j * (gsStepFwd G S rhs s c).du j else 0) = r i := by
    rw [← hS c r i hi]
    refine Finset.sum_congr rfl fun j _ => ?_
    by_cases hj : G.owner j = c
    · simp only [hj, if_true, hr1 j hj]
    · simp [hj]
  have h2 : (∑ j : ι, if ¬ G.owner j = c then G.A i j * (gsStepFwd G S rhs s c).du j else 0) =
      ∑ j : ι, if ¬ G.owner j = c then G.A i j * s.du j else 0 := by
    refine Finset.sum_congr rfl fun j _ => ?_
    by_cases hj : G.owner j = c
    · simp [hj]
    · simp only [hj, not_false_eq_true, if_true, gsStepFwd_other G S rhs s c j hj]
  rw [h1, h2, hr2 i hi, A_mul G i (fun j => ¬ G.owner j = c)]
  have h3 : (∑ j : ι, if ¬ G.owner j = c then G.js i j * s.du j else 0) = 0 := by
    refine Finset.sum_eq_zero fun j _ => ?_
    by_cases hj : G.owner j = c
    · simp [hj]
    · rw [hw.js i j (by rw [hi]; exact hj)]; simp
  have h4 : (∑ k : π, G.jp i k * s.du (G.src k)) =
      (∑ k : π, if G.owner (G.src k) = c then G.jp i k * s.du (G.src k) else 0) +
      ∑ k : π, if ¬ G.owner (G.src k) = c then G.jp i k * s.du (G.src k) else 0 := by
    rw [← Finset.sum_add_distrib]
    refine Finset.sum_congr rfl fun k _ => ?_
    by_cases h : G.owner (G.src k) = c <;> simp [h]
  rw [h3, h4]
  unfold innerTerm
  simp only [hi, not_true, false_and, if_false]
  ring

theorem innerTerm_zero (G : LinGroup ι π K) (hw : G.WF) (x : ι → K) (i : ι) (h : ∀ j, G.owner j = G.owner i → x j = 0) :
    innerTerm G x i = 0 := by
  unfold innerTerm
  rw [Finset.sum_eq_zero, Finset.sum_eq_zero, add_zero]
  · intro j _
    by_cases hj : G.owner j = G.owner i
    · rw [h j hj, mul_zero]
    · rw [hw.js i j hj, zero_mul]
  · intro k _
    by_cases hk : G.owner (G.src k) = G.owner i
    · simp [hk, h _ hk]
    · simp [hk]

theorem innerTerm_explicit (G : LinGroup ι π K) (hw : G.WF) (he : AllExplicit G) (x : ι → K) (i : ι) :
    innerTerm G x i = 0 := by
  unfold innerTerm
  rw [Finset.sum_eq_zero, Finset.sum_eq_zero, add_zero]
  · intro j _; rw [he.nostate, zero_mul]
  · intro k _
    by_cases hk : G.owner (G.src k) = G.owner i
    · have : G.powner k ≠ G.owner i := fun h => he.noinner k (h.trans hk.symm)
      rw [hw.jp i k this]; simp
    · simp [hk]

/-- In a feed-forward group the matrix has no entry of an earlier child's residual with respect to a later child. -/
theorem A_zero_of_noconn (G : LinGroup ι π K) (hw : G.WF) (i j : ι) (hij : G.owner i ≠ G.owner j)
    (h : ∀ k, G.powner k = G.owner i → G.owner (G.src k) ≠ G.owner j) : G.A i j = 0 := by
  unfold LinGroup.A
  rw [Finset.sum_eq_zero, hw.js i j (Ne.symm hij)]
  · have : i ≠ j := fun h => hij (by rw [h])
    simp [this]
  · intro k _
    by_cases hk : G.src k = j
    · have : G.powner k ≠ G.owner i := fun hp => h k hp (by rw [hk])
      rw [hw.jp i k this]; simp
    · simp [hk]

/-- The rhs handed to the child in reverse mode, and what the step leaves. -/
theorem gsStepRev_facts (G : LinGroup ι π K) (S : GSSolve ι π K) (rhs : ι → K) (s : GSState ι π K) (c : Nat) (hw : G.WF) :
    (∀ j, G.owner j ≠ c → (gsStepRev G S rhs s c).dr j = s.dr j) ∧
    (∀ k, G.powner k ≠ c → (gsStepRev G S rhs s c).dp k = s.dp k) ∧
    (∀ k, G.powner k = c → (gsStepRev G S rhs s c).dp k = ∑ i : ι, G.jp i k * (gsStepRev G S rhs s c).dr i) ∧
    ∃ r : ι → K, (∀ j, G.owner j = c → (gsStepRev G S rhs s c).dr j = S.sol c r j) ∧
      ∀ j, G.owner j = c → r j = rhs j - ∑ k : π, if G.src k = j ∧ G.powner k ≠ c then s.dp k else 0 := by
  refine ⟨?_, ?_, ?_, ?_⟩
  · intro j hj; simp [gsStepRev, subApplyRev, xferRev, hj]
  · intro k hk; simp [gsStepRev, subApplyRev, xferRev, hk]
  · intro k hk
    simp only [gsStepRev, subApplyRev, hk, if_true]
    refine Finset.sum_congr rfl fun i _ => ?_
    by_cases hi : G.owner i = c
    · simp [hi]
    · rw [hw.jp i k (by rw [hk]; exact Ne.symm hi)]; simp
  · refine ⟨fun j => if G.owner j = c then -(xferRev G c { s with du := fun _ => 0 }).du j + rhs j else 0, ?_, ?_⟩
    · intro j hj; simp [gsStepRev, subApplyRev, hj]
    · intro j hj
      simp only [hj, if_true, xferRev]
      ring

/-- The block equation after a reverse step, when the params of the other children are consistent with their residuals. -/
theorem gsStepRev_eq (G : LinGroup ι π K) (S : GSSolve ι π K) (rhs : ι → K) (s : GSState ι π K) (c : Nat) (hw : G.WF)
    (hS : ExactBlocksT G S.sol) (j : ι) (hj : G.owner j = c)
    (hc : ∀ k, G.src k = j → G.powner k ≠ c → s.dp k = ∑ i : ι, G.jp i k * s.dr i) :
    ∑ i : ι, G.A i j * (gsStepRev G S rhs s c).dr i = rhs j := by
  obtain ⟨h1, _, _, r, hr1, hr2⟩ := gsStepRev_facts G S rhs s c hw
  rw [sum_split (fun i => G.owner i = c)]
  have e1 : (∑ i : ι, if G.owner i = c then G.A i j * (gsStepRev G S rhs s c).dr i else 0) = r j := by
    rw [← hS c r j hj]
    refine Finset.sum_congr rfl fun i _ => ?_
    by_cases hi : G.owner i = c
    · simp only [hi, if_true, hr1 i hi]
    · simp [hi]
  have e2 : (∑ i : ι, if ¬ G.owner i = c then G.A i j * (gsStepRev G S rhs s c).dr i else 0) =
      ∑ i : ι, if ¬ G.owner i = c then G.A i j * s.dr i else 0 := by
    refine Finset.sum_congr rfl fun i _ => ?_
    by_cases hi : G.owner i = c
    · simp [hi]
    · simp only [hi, not_false_eq_true, if_true, h1 i hi]
  rw [e1, e2, hr2 j hj, A_mul_T G j (fun i => ¬ G.owner i = c)]
  have e3 : (∑ i : ι, if ¬ G.owner i = c then G.js i j * s.dr i else 0) = 0 := by
    refine Finset.sum_eq_zero fun i _ => ?_
    by_cases hi : G.owner i = c
    · simp [hi]
    · rw [hw.js i j (by rw [hj]; exact Ne.symm hi)]; simp
  have e4 : (∑ k : π, if G.src k = j ∧ G.powner k ≠ c then s.dp k else 0) =
      ∑ k : π, if G.src k = j then (∑ i : ι, if ¬ G.owner i = c then G.jp i k * s.dr i else 0) else 0 := by
    refine Finset.sum_congr rfl fun k _ => ?_
    by_cases hk : G.src k = j
    · by_cases hp : G.powner k = c
      · simp only [hk, hp, ne_eq, not_true, and_false, if_false, if_true]
        symm
        refine Finset.sum_eq_zero fun i _ => ?_
        by_cases hi : G.owner i = c
        · simp [hi]
        · rw [hw.jp i k (by rw [hp]; exact Ne.symm hi)]; simp
      · simp only [hk, hp, ne_eq, not_false_eq_true, and_self, if_true]
        rw [hc k hk hp]
        refine Finset.sum_congr rfl fun i _ => ?_
        by_cases hi : G.owner i = c
        · rw [hw.jp i k (by rw [hi]; exact hp)]; simp
        · simp [hi]
    · simp [hk]
  rw [e3, e4]
  simp [hj]

theorem groupApplyFwd_dr (G : LinGroup ι π K) (hw : G.WF) (s : GSState ι π K) (i : ι) :
    (groupApplyFwd G s).dr i = ∑ j : ι, G.A i j * s.du j := by
  have h := A_mul G i (fun _ => True) s.du
  simp only [if_true, true_and] at h
  rw [h]
  simp only [groupApplyFwd]
  congr 2
  · refine Finset.sum_congr rfl fun k _ => ?_
    by_cases hk : G.powner k = G.owner i
    · simp [hk]
    · rw [hw.jp i k hk]; simp
  · refine Finset.sum_congr rfl fun j _ => ?_
    by_cases hj : G.owner j = G.owner i
    · simp [hj]
    · rw [hw.js i j hj]; simp

theorem groupApplyRev_du (G : LinGroup ι π K) (hw : G.WF) (s : GSState ι π K) (j : ι) :
    (groupApplyRev G s).du j = ∑ i : ι, G.A i j * s.dr i := by
  have h := A_mul_T G j (fun _ => True) s.dr
  simp only [if_true, true_and] at h
  rw [h]
  simp only [groupApplyRev]
  have e1 : (∑ i : ι, if G.owner j = G.owner i then G.js i j * s.dr i else 0) = ∑ i : ι, G.js i j * s.dr i := by
    refine Finset.sum_congr rfl fun i _ => ?_
    by_cases hi : G.owner j = G.owner i
    · simp [hi]
    · rw [hw.js i j hi]; simp
  have e2 : ∀ k, (∑ i : ι, if G.powner k = G.owner i then G.jp i k * s.dr i else 0) = ∑ i : ι, G.jp i k * s.dr i := by
    intro k
    refine Finset.sum_congr rfl fun i _ => ?_
    by_cases hi : G.powner k = G.owner i
    · simp [hi]
    · rw [hw.jp i k hi]; simp
  simp_rw [e1, e2]
  ring

end OpenMDAO
