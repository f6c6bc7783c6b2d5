import Verif.Spec.Totals
import Verif.Lemmas.Connections
import Mathlib.Tactic.Ring
import Mathlib.Tactic.LinearCombination
import Mathlib.Algebra.BigOperators.Ring.Finset
import Mathlib.Algebra.BigOperators.Group.Finset.Piecewise
import Mathlib.Algebra.BigOperators.Group.Finset.Sigma
/-! Helper lemmas for C34. -/
namespace OpenMDAO

set_option linter.unusedSectionVars false

/-- A monadic fold succeeds and establishes `P` of the whole list when every step does so for its prefix. -/
theorem foldlM_ok {σ β : Type} (f : σ → β → Except PyErr σ) (l : List β) (P : List β → σ → Prop)
    (h : ∀ pre x s, x ∈ l → P pre s → ∃ s', f s x = .ok s' ∧ P (pre ++ [x]) s') :
    ∀ s, P [] s → ∃ s', l.foldlM f s = .ok s' ∧ P l s' := by
  have gen : ∀ (l2 pre : List β) (s : σ), (∀ x ∈ l2, x ∈ l) → P pre s → ∃ s', l2.foldlM f s = .ok s' ∧ P (pre ++ l2) s' := by
    intro l2
    induction l2 with
    | nil => intro pre s _ hp; exact ⟨s, rfl, by simpa using hp⟩
    | cons x l2 ih =>
      intro pre s hl hp
      obtain ⟨s1, h1, h2⟩ := h pre x s (hl x (by simp)) hp
      obtain ⟨s2, h3, h4⟩ := ih (pre ++ [x]) s1 (fun y hy => hl y (by simp [hy])) h2
      refine ⟨s2, ?_, by simpa using h4⟩
      rw [List.foldlM_cons, h1]
      exact h3
  intro s hs
  simpa using gen l [] s (fun _ h => h) hs

variable {K : Type} [Field K]

theorem totIdx_valid (n : Nat) (slices : List (String × (Nat × Nat))) (d : List (String × List Nat)) (names : List String)
    (hv : ValidNames n slices d names) (x : String) (hx : x ∈ names) :
    totIdx slices d x = .ok (selected slices d x) ∧ totSize slices d x = .ok (selected slices d x).length ∧
      ∀ k ∈ selected slices d x, k < n := by
  obtain ⟨s, e, h1, h2, h3, h4⟩ := hv x hx
  unfold totIdx totSize selected
  rw [h1]
  cases hd : d.lookup x with
  | none =>
    refine ⟨rfl, by simp, ?_⟩
    intro k hk
    simp only [List.mem_range'_1] at hk
    omega
  | some l =>
    obtain ⟨h5, h6, h7⟩ := h4 l hd
    cases l with
    | nil => exact absurd rfl h5
    | cons y l =>
      refine ⟨?_, by simp, ?_⟩
      · have : ¬ (((y :: l).map (· + s)).length > e - s || ((y :: l).map (· + s)).any fun k => decide (k ≥ e)) := by
          simp only [Bool.or_eq_true, decide_eq_true_eq, List.any_eq_true, not_or, not_exists, not_and]
          constructor
          · simpa using h6
          · intro k hk
            obtain ⟨a, ha, rfl⟩ := List.mem_map.mp hk
            have := h7 a ha
            omega
        show (if _ then _ else _) = _
        rw [if_neg this]
      · intro k hk
        obtain ⟨a, ha, rfl⟩ := List.mem_map.mp hk
        have := h7 a ha
        omega

/-- `Jslices` after one of the two loops. -/
theorem jslice_fold (slices : List (String × (Nat × Nat))) (d : List (String × List Nat)) (names : List String) :
    ∀ (st : List (String × (Nat × Nat)) × Nat), names.Nodup →
    (∀ x ∈ names, totSize slices d x = .ok (selected slices d x).length) →
    ∃ r, names.foldlM (jsliceStep slices d) st = .ok r ∧ r.2 = st.2 + (labels slices d names).length ∧
      (∀ x, x ∉ names → r.1.lookup x = st.1.lookup x) ∧
      ∀ x ∈ names, ∃ off, r.1.lookup x = some (st.2 + off, st.2 + off + (selected slices d x).length) ∧
        off + (selected slices d x).length ≤ (labels slices d names).length ∧
        ∀ a o, (selected slices d x)[a]? = some o → (labels slices d names)[off + a]? = some (x, o) := by
  induction names with
  | nil => intro st _ _; exact ⟨st, rfl, by simp [labels], by simp, by simp⟩
  | cons y names ih =>
    intro st hnd hs
    rw [List.nodup_cons] at hnd
    have hstep : jsliceStep slices d st y = .ok (dictSet st.1 y (st.2, st.2 + (selected slices d y).length),
        st.2 + (selected slices d y).length) := by
      simp only [jsliceStep, hs y (by simp)]
    obtain ⟨r, h1, h2, h3, h4⟩ := ih
      (dictSet st.1 y (st.2, st.2 + (selected slices d y).length), st.2 + (selected slices d y).length) hnd.2
      (fun x hx => hs x (by simp [hx]))
    have hlab : labels slices d (y :: names) = (selected slices d y).map (fun o => (y, o)) ++ labels slices d names := by
      simp [labels]
    refine ⟨r, ?_, ?_, ?_, ?_⟩
    · rw [List.foldlM_cons, hstep]; exact h1
    · rw [h2, hlab]; simp; omega
    · intro x hx
      rw [h3 x (fun h => hx (by simp [h])), lookup_dictSet, if_neg (fun h => hx (by simp [h]))]
    · intro x hx
      rcases List.mem_cons.mp hx with h | h
      · subst h
        refine ⟨0, ?_, by rw [hlab]; simp, ?_⟩
        · rw [h3 x hnd.1, lookup_dictSet, if_pos rfl]; simp
        · intro a o ha
          have hlt : a < (selected slices d x).length := (List.getElem?_eq_some_iff.mp ha).1
          rw [hlab, Nat.zero_add, List.getElem?_append_left (by simpa using hlt), List.getElem?_map, ha]
          rfl
      · obtain ⟨off, h5, h6, h7⟩ := h4 x h
        refine ⟨(selected slices d y).length + off, ?_, ?_, ?_⟩
        · rw [h5]; simp [Nat.add_assoc]
        · rw [hlab]; simp; omega
        · intro a o ha
          rw [hlab, List.getElem?_append_right (by simp; omega)]
          have : (selected slices d y).length + off + a - ((selected slices d y).map fun o => (y, o)).length = off + a := by
            simp; omega
          rw [this]
          exact h7 a o ha

/-- Writing a column that fits. -/
theorem setCol_fits (J : TMat K) (r0 c : Nat) (vals : List K) (hr : r0 + vals.length ≤ J.m) (hc : c < J.n) :
    J.setCol r0 (r0 + vals.length) c vals =
      .ok { J with a := fun i j => if j = c ∧ r0 ≤ i ∧ i < r0 + vals.length then vals.getD (i - r0) 0 else J.a i j } := by
  have hn : min (r0 + vals.length) J.m - min r0 J.m = vals.length := by
    rw [Nat.min_eq_left hr, Nat.min_eq_left (by omega)]; omega
  unfold TMat.setCol
  simp only [hn]
  rw [if_neg (by omega), if_pos trivial]

/-- Writing values that agree with `V`: keeps every agreement and establishes it on the written cells. -/
theorem setCol_agree (V : Nat → Nat → K) (J : TMat K) (r0 c : Nat) (vals : List K) (hr : r0 + vals.length ≤ J.m) (hc : c < J.n)
    (hV : ∀ a v, vals[a]? = some v → V (r0 + a) c = v) :
    ∃ J', J.setCol r0 (r0 + vals.length) c vals = .ok J' ∧ J'.m = J.m ∧ J'.n = J.n ∧
      (∀ i j, J.a i j = V i j → J'.a i j = V i j) ∧ ∀ a, a < vals.length → J'.a (r0 + a) c = V (r0 + a) c := by
  refine ⟨_, setCol_fits J r0 c vals hr hc, rfl, rfl, ?_, ?_⟩
  · intro i j h
    simp only
    by_cases hh : j = c ∧ r0 ≤ i ∧ i < r0 + vals.length
    · rw [if_pos hh]
      have hlt : i - r0 < vals.length := by omega
      have := hV (i - r0) vals[i - r0] (List.getElem?_eq_getElem hlt)
      rw [List.getD_eq_getElem?_getD, List.getElem?_eq_getElem hlt, Option.getD_some, ← this, hh.1]
      congr 1
      omega
    · rw [if_neg hh]; exact h
  · intro a ha
    simp only
    rw [if_pos ⟨trivial, by omega, by omega⟩]
    have := hV a vals[a] (List.getElem?_eq_getElem ha)
    rw [this, Nat.add_sub_cancel_left, List.getD_eq_getElem?_getD, List.getElem?_eq_getElem ha, Option.getD_some]

theorem setRow_agree (V : Nat → Nat → K) (J : TMat K) (r c0 : Nat) (vals : List K) (hc : c0 + vals.length ≤ J.n) (hr : r < J.m)
    (hV : ∀ a v, vals[a]? = some v → V r (c0 + a) = v) :
    ∃ J', J.setRow r c0 (c0 + vals.length) vals = .ok J' ∧ J'.m = J.m ∧ J'.n = J.n ∧
      (∀ i j, J.a i j = V i j → J'.a i j = V i j) ∧ ∀ a, a < vals.length → J'.a r (c0 + a) = V r (c0 + a) := by
  obtain ⟨J', h1, h2, h3, h4, h5⟩ := setCol_agree (fun i j => V j i) J.T c0 r vals hc hr hV
  refine ⟨J'.T, ?_, h3, h2, fun i j h => h4 j i h, h5⟩
  rw [TMat.setRow, h1]
  rfl

theorem scaleVals_getElem (scale : List (String × K)) (name : String) (vals : List K) (a : Nat) :
    (scaleVals scale name vals)[a]? = (vals[a]?).map (· * factorOf scale name) := by
  unfold scaleVals factorOf
  cases scale.lookup name with
  | none => simp
  | some k => simp

theorem scaleVals_length (scale : List (String × K)) (name : String) (vals : List K) :
    (scaleVals scale name vals).length = vals.length := by
  unfold scaleVals
  cases scale.lookup name <;> simp

/-- Forward and reverse solves against unit right-hand sides are the columns and rows of `D`. -/
theorem solve_fwd_total (n : Nat) (A D : Nat → Nat → K) (solve : Mode → (Nat → K) → Nat → K) (hD : IsTotalDeriv n A D)
    (hS : ExactSolver n A solve) (q : Nat) (hq : q < n) (o : Nat) (ho : o < n) : solve .fwd (totRhs q) o = D o q := by
  have h1 : (∑ i ∈ Finset.range n, D o i * ∑ j ∈ Finset.range n, A i j * solve .fwd (totRhs q) j) =
      ∑ j ∈ Finset.range n, (∑ i ∈ Finset.range n, D o i * A i j) * solve .fwd (totRhs q) j := by
    simp_rw [Finset.mul_sum, Finset.sum_mul]
    rw [Finset.sum_comm]
    refine Finset.sum_congr rfl fun j _ => Finset.sum_congr rfl fun i _ => ?_
    ring
  have h2 : (∑ i ∈ Finset.range n, D o i * ∑ j ∈ Finset.range n, A i j * solve .fwd (totRhs q) j) = - D o q := by
    rw [Finset.sum_congr rfl fun i hi => by rw [hS.fwd (totRhs q) i (Finset.mem_range.mp hi)]]
    simp only [totRhs, mul_ite, mul_neg, mul_one, mul_zero]
    rw [Finset.sum_ite_eq' (Finset.range n) q]
    simp [hq]
  have h3 : (∑ j ∈ Finset.range n, (∑ i ∈ Finset.range n, D o i * A i j) * solve .fwd (totRhs q) j) =
      - solve .fwd (totRhs q) o := by
    rw [Finset.sum_congr rfl fun j hj => by rw [hD.left o ho j (Finset.mem_range.mp hj)]]
    simp only [ite_mul, neg_mul, one_mul, zero_mul]
    rw [Finset.sum_ite_eq (Finset.range n) o]
    simp [ho]
  have := (h2.symm.trans h1).trans h3
  exact (neg_injective this).symm

theorem solve_rev_total (n : Nat) (A D : Nat → Nat → K) (solve : Mode → (Nat → K) → Nat → K) (hD : IsTotalDeriv n A D)
    (hS : ExactSolver n A solve) (q : Nat) (hq : q < n) (o : Nat) (ho : o < n) : solve .rev (totRhs o) q = D o q := by
  have h1 : (∑ j ∈ Finset.range n, (∑ i ∈ Finset.range n, A i j * solve .rev (totRhs o) i) * D j q) =
      ∑ i ∈ Finset.range n, (∑ j ∈ Finset.range n, A i j * D j q) * solve .rev (totRhs o) i := by
    simp_rw [Finset.sum_mul]
    rw [Finset.sum_comm]
    refine Finset.sum_congr rfl fun i _ => Finset.sum_congr rfl fun j _ => ?_
    ring
  have h2 : (∑ j ∈ Finset.range n, (∑ i ∈ Finset.range n, A i j * solve .rev (totRhs o) i) * D j q) = - D o q := by
    rw [Finset.sum_congr rfl fun j hj => by rw [hS.rev (totRhs o) j (Finset.mem_range.mp hj)]]
    simp only [totRhs, ite_mul, neg_mul, one_mul, zero_mul]
    rw [Finset.sum_ite_eq' (Finset.range n) o]
    simp [ho]
  have h3 : (∑ i ∈ Finset.range n, (∑ j ∈ Finset.range n, A i j * D j q) * solve .rev (totRhs o) i) =
      - solve .rev (totRhs o) q := by
    rw [Finset.sum_congr rfl fun i hi => by rw [hD.right i (Finset.mem_range.mp hi) q hq]]
    simp only [ite_mul, neg_mul, one_mul, zero_mul]
    rw [Finset.sum_ite_eq' (Finset.range n) q]
    simp [hq]
  have := (h2.symm.trans h1).trans h3
  exact (neg_injective this).symm

theorem mem_voiOrder (E : TotEnv K) (mode : Mode) (inputs : List String) (x : String) :
    x ∈ voiOrder E mode inputs ↔ x ∈ inputs := by
  unfold voiOrder
  simp only [List.mem_append, List.mem_filter, List.contains_iff_mem, Bool.not_eq_true']
  constructor
  · rintro (⟨_, h⟩ | ⟨h, _⟩) <;> exact h
  · intro h
    by_cases hv : x ∈ E.vois mode
    · exact Or.inl ⟨hv, h⟩
    · exact Or.inr ⟨h, by simpa using hv⟩

end OpenMDAO
