import Verif.Lemmas.LinearGS
import Mathlib.Data.Fintype.Basic
import Mathlib.Algebra.BigOperators.Fin
import Mathlib.Algebra.Order.Field.Rat
import Mathlib.Tactic.NormNum
import Mathlib.Tactic.FinCases
import Mathlib.Tactic.Linarith
/-!
# C32, C33: the linear Gauss-Seidel solver
-/
namespace OpenMDAO

set_option linter.unusedSectionVars false

variable {ι π K : Type} [Fintype ι] [Fintype π] [DecidableEq ι] [Field K]

/-! ## C32 -/

theorem fwd_fold (G : LinGroup ι π K) (S : GSSolve ι π K) (rhs : ι → K) (hw : G.WF) (hS : ExactBlocks G S.sol) (l : List Nat) :
    ∀ (done : Nat → Prop) (s : GSState ι π K), l.Nodup → FeedForward G l →
      (∀ a, done a → ∀ c ∈ l, a ≠ c ∧ ∀ k, G.powner k = a → G.owner (G.src k) ≠ c) →
      (AllExplicit G ∨ ∀ j, G.owner j ∈ l → s.du j = 0) →
      (∀ i, done (G.owner i) → ∑ j : ι, G.A i j * s.du j = rhs i) →
      ∀ i, done (G.owner i) ∨ G.owner i ∈ l → ∑ j : ι, G.A i j * (gsSweepFwd G S rhs l s).du j = rhs i := by
  induction l with
  | nil =>
    intro done s _ _ _ _ hinv i hi
    exact hinv i (by simpa using hi)
  | cons c l ih =>
    intro done s hnd hff hdone h0 hinv i hi
    rw [List.nodup_cons] at hnd
    unfold FeedForward at hff
    rw [List.pairwise_cons] at hff
    have hstep : gsSweepFwd G S rhs (c :: l) s = gsSweepFwd G S rhs l (gsStepFwd G S rhs s c) := rfl
    rw [hstep]
    refine ih (fun a => done a ∨ a = c) _ hnd.2 hff.2 ?_ ?_ ?_ i ?_
    · intro a ha c' hc'
      rcases ha with ha | rfl
      · exact hdone a ha c' (by simp [hc'])
      · exact ⟨fun h => hnd.1 (h ▸ hc'), hff.1 c' hc'⟩
    · rcases h0 with h0 | h0
      · exact Or.inl h0
      · refine Or.inr fun j hj => ?_
        rw [gsStepFwd_other G S rhs s c j (fun h => hnd.1 (h ▸ hj))]
        exact h0 j (by simp [hj])
    · intro i' hi'
      rcases hi' with hi' | hi'
      · rw [← hinv i' hi']
        refine Finset.sum_congr rfl fun j _ => ?_
        by_cases hj : G.owner j = c
        · have := hdone _ hi' c (by simp)
          rw [A_zero_of_noconn G hw i' j (by rw [hj]; exact this.1) (by rw [hj]; exact this.2)]
          simp
        · rw [gsStepFwd_other G S rhs s c j hj]
      · rw [gsStepFwd_eq G S rhs s c hw hS i' hi']
        rcases h0 with h0 | h0
        · rw [innerTerm_explicit G hw h0, sub_zero]
        · rw [innerTerm_zero G hw _ i' (fun j hj => h0 j (by simp [hj, hi'])), sub_zero]
    · rcases hi with hi | hi
      · exact Or.inl (Or.inl hi)
      · rcases List.mem_cons.mp hi with hi | hi
        · exact Or.inl (Or.inr hi)
        · exact Or.inr hi

/-- **C32, forward mode.** One sweep over a feed-forward group whose children solve their own blocks exactly yields the exact
solution of `A du = rhs`: from the zero vector the solver starts with, for children that are components with or without
states or subgroups; from any starting vector when all children are explicit components. `dr` and `dp` may contain
anything, and so may whatever the children's solves leave behind. -/
theorem C32_fwd (G : LinGroup ι π K) (S : GSSolve ι π K) (rhs : ι → K) (order : List Nat) (s : GSState ι π K)
    (hw : G.WF) (hS : ExactBlocks G S.sol) (ho : IsOrder G order) (hff : FeedForward G order)
    (h0 : AllExplicit G ∨ ∀ j, s.du j = 0) :
    G.Solves (gsSweepFwd G S rhs order s).du rhs := by
  intro i
  refine fwd_fold G S rhs hw hS order (fun _ => False) s ho.nodup hff (by simp) ?_ (by simp) i (Or.inr (ho.mem i))
  rcases h0 with h0 | h0
  · exact Or.inl h0
  · exact Or.inr fun j _ => h0 j

theorem rev_fold (G : LinGroup ι π K) (S : GSSolve ι π K) (rhs : ι → K) (hw : G.WF) (hS : ExactBlocksT G S.sol) (l : List Nat) :
    ∀ (done : Nat → Prop) (s : GSState ι π K), l.Nodup →
      (∀ k, G.powner k ∈ l ∨ done (G.powner k)) →
      (∀ a, done a → ∀ c ∈ l, a ≠ c ∧ ∀ k, G.powner k = c → G.owner (G.src k) ≠ a) →
      l.Pairwise (fun a b => ∀ k, G.powner k = b → G.owner (G.src k) ≠ a) →
      (∀ k, done (G.powner k) → s.dp k = ∑ i : ι, G.jp i k * s.dr i) →
      (∀ j, done (G.owner j) → ∑ i : ι, G.A i j * s.dr i = rhs j) →
      ∀ j, done (G.owner j) ∨ G.owner j ∈ l → ∑ i : ι, G.A i j * (l.foldl (gsStepRev G S rhs) s).dr i = rhs j := by
  induction l with
  | nil =>
    intro done s _ _ _ _ _ hinv j hj
    exact hinv j (by simpa using hj)
  | cons c l ih =>
    intro done s hnd hall hdone hff hdp hinv j hj
    rw [List.nodup_cons] at hnd
    rw [List.pairwise_cons] at hff
    obtain ⟨f1, f2, f3, _⟩ := gsStepRev_facts G S rhs s c hw
    rw [List.foldl_cons]
    refine ih (fun a => done a ∨ a = c) _ hnd.2 ?_ ?_ hff.2 ?_ ?_ j ?_
    · intro k
      rcases hall k with h | h
      · rcases List.mem_cons.mp h with h | h
        · exact Or.inr (Or.inr h)
        · exact Or.inl h
      · exact Or.inr (Or.inl h)
    · intro a ha c' hc'
      rcases ha with ha | rfl
      · exact hdone a ha c' (by simp [hc'])
      · exact ⟨fun h => hnd.1 (h ▸ hc'), hff.1 c' hc'⟩
    · intro k hk
      by_cases hkc : G.powner k = c
      · exact f3 k hkc
      · have hk' : done (G.powner k) := by
          rcases hk with h | h
          · exact h
          · exact absurd h hkc
        rw [f2 k hkc, hdp k hk']
        refine Finset.sum_congr rfl fun i _ => ?_
        by_cases hi : G.owner i = c
        · rw [hw.jp i k (by rw [hi]; exact hkc)]; simp
        · rw [f1 i hi]
    · intro j' hj'
      rcases hj' with hj' | hj'
      · rw [← hinv j' hj']
        refine Finset.sum_congr rfl fun i _ => ?_
        by_cases hi : G.owner i = c
        · have := hdone _ hj' c (by simp)
          rw [A_zero_of_noconn G hw i j' (by rw [hi]; exact Ne.symm this.1) (by rw [hi]; exact this.2)]
          simp
        · rw [f1 i hi]
      · refine gsStepRev_eq G S rhs s c hw hS j' hj' fun k hk hkc => ?_
        rcases hall k with h | h
        · rcases List.mem_cons.mp h with h | h
          · exact absurd h hkc
          · exact absurd (by rw [hk]; exact hj') (hff.1 (G.powner k) h k rfl)
        · exact hdp k h
    · rcases hj with hj | hj
      · exact Or.inl (Or.inl hj)
      · rcases List.mem_cons.mp hj with hj | hj
        · exact Or.inl (Or.inr hj)
        · exact Or.inr hj

/-- **C32, reverse mode.** One sweep in reversed order yields the exact solution of `Aᵀ dr = rhs`, from any contents of the
three vectors, for components with or without states and subgroups alike. -/
theorem C32_rev (G : LinGroup ι π K) (S : GSSolve ι π K) (rhs : ι → K) (order : List Nat) (s : GSState ι π K)
    (hw : G.WF) (hS : ExactBlocksT G S.sol) (ho : IsOrder G order) (hp : ∀ k, G.powner k ∈ order)
    (hff : FeedForward G order) :
    G.SolvesT (gsSweepRev G S rhs order s).dr rhs := by
  intro j
  refine rev_fold G S rhs hw hS order.reverse (fun _ => False) s (List.nodup_reverse.mpr ho.nodup) ?_ (by simp) ?_
    (by simp) (by simp) j (Or.inr (List.mem_reverse.mpr (ho.mem j)))
  · intro k; exact Or.inl (List.mem_reverse.mpr (hp k))
  · rw [List.pairwise_reverse]
    exact hff

/-! ## C33 -/

theorem fwd_fixed_steps (G : LinGroup ι π K) (S : GSSolve ι π K) (rhs : ι → K) (l : List Nat) :
    ∀ s : GSState ι π K, l.Nodup → (gsSweepFwd G S rhs l s).du = s.du →
      ∀ c ∈ l, ∃ t : GSState ι π K, t.du = s.du ∧ (gsStepFwd G S rhs t c).du = s.du := by
  have hkeep : ∀ (l : List Nat) (s : GSState ι π K) (j : ι), G.owner j ∉ l → (gsSweepFwd G S rhs l s).du j = s.du j := by
    intro l
    induction l with
    | nil => intro s j _; rfl
    | cons c l ih =>
      intro s j hj
      have : gsSweepFwd G S rhs (c :: l) s = gsSweepFwd G S rhs l (gsStepFwd G S rhs s c) := rfl
      rw [this, ih _ j (fun h => hj (by simp [h])), gsStepFwd_other G S rhs s c j (fun h => hj (by simp [h]))]
  induction l with
  | nil => intro s _ _ c hc; simp at hc
  | cons c l ih =>
    intro s hnd hfix c' hc'
    rw [List.nodup_cons] at hnd
    have e : gsSweepFwd G S rhs (c :: l) s = gsSweepFwd G S rhs l (gsStepFwd G S rhs s c) := rfl
    rw [e] at hfix
    have h1 : (gsStepFwd G S rhs s c).du = s.du := by
      funext j
      by_cases hj : G.owner j = c
      · rw [← hkeep l (gsStepFwd G S rhs s c) j (by rw [hj]; exact hnd.1), hfix]
      · exact gsStepFwd_other G S rhs s c j hj
    rcases List.mem_cons.mp hc' with h | h
    · subst h
      exact ⟨s, rfl, h1⟩
    · obtain ⟨t, ht1, ht2⟩ := ih (gsStepFwd G S rhs s c) hnd.2 (by rw [hfix, h1]) c' h
      exact ⟨t, ht1.trans h1, ht2.trans h1⟩

theorem fwd_step_of_solution (G : LinGroup ι π K) (S : GSSolve ι π K) (rhs : ι → K) (hw : G.WF) (hS : ExactBlocks G S.sol)
    (hI : InjBlocks G) (he : AllExplicit G) (s : GSState ι π K) (c : Nat) (h : G.Solves s.du rhs) :
    (gsStepFwd G S rhs s c).du = s.du := by
  funext j
  by_cases hj : G.owner j = c
  · have hz := hI c (fun j => (gsStepFwd G S rhs s c).du j - s.du j) (fun i hi => ?_) j hj
    · exact sub_eq_zero.mp hz
    · have h1 := gsStepFwd_eq G S rhs s c hw hS i hi
      rw [innerTerm_explicit G hw he, sub_zero] at h1
      have h2 := h i
      have h3 : (∑ j : ι, if G.owner j = c then G.A i j * ((gsStepFwd G S rhs s c).du j - s.du j) else 0) =
          (∑ j : ι, G.A i j * (gsStepFwd G S rhs s c).du j) - ∑ j : ι, G.A i j * s.du j := by
        rw [← Finset.sum_sub_distrib]
        refine Finset.sum_congr rfl fun j _ => ?_
        by_cases hj : G.owner j = c
        · simp only [hj, if_true]; ring
        · simp [hj, gsStepFwd_other G S rhs s c j hj]
      rw [h3, h1, h2, sub_self]
  · exact gsStepFwd_other G S rhs s c j hj

/-- **C33, forward mode, explicit components.** A vector is left unchanged by a sweep iff it solves the (possibly cyclic)
system. Missing with respect to the full statement: children with states or subgroups with internal connections, for which
both directions are false (`C33_fwd_refuted`, `C33_fwd_wrong_fixpoint_refuted`). -/
theorem C33_fwd_partial (G : LinGroup ι π K) (S : GSSolve ι π K) (rhs : ι → K) (order : List Nat) (s : GSState ι π K)
    (hw : G.WF) (hS : ExactBlocks G S.sol) (hI : InjBlocks G) (ho : IsOrder G order) (he : AllExplicit G) :
    (gsSweepFwd G S rhs order s).du = s.du ↔ G.Solves s.du rhs := by
  constructor
  · intro hfix i
    obtain ⟨t, ht1, ht2⟩ := fwd_fixed_steps G S rhs order s ho.nodup hfix (G.owner i) (ho.mem i)
    have := gsStepFwd_eq G S rhs t (G.owner i) hw hS i rfl
    rw [innerTerm_explicit G hw he, sub_zero, ht2] at this
    exact this
  · intro hsol
    have : ∀ (l : List Nat) (t : GSState ι π K), t.du = s.du → (gsSweepFwd G S rhs l t).du = s.du := by
      intro l
      induction l with
      | nil => intro t ht; exact ht
      | cons c l ih =>
        intro t ht
        exact ih (gsStepFwd G S rhs t c)
          ((fwd_step_of_solution G S rhs hw hS hI he t c (by rw [ht]; exact hsol)).trans ht)
    exact this order s rfl

/-- The params hold the transposed products of the residuals, as every sweep and every evaluation of the norm leaves them. -/
def Consistent (G : LinGroup ι π K) (s : GSState ι π K) : Prop := ∀ k, s.dp k = ∑ i : ι, G.jp i k * s.dr i

theorem rev_step_consistent (G : LinGroup ι π K) (S : GSSolve ι π K) (rhs : ι → K) (hw : G.WF) (s : GSState ι π K) (c : Nat)
    (hc : Consistent G s) : Consistent G (gsStepRev G S rhs s c) := by
  obtain ⟨f1, f2, f3, _⟩ := gsStepRev_facts G S rhs s c hw
  intro k
  by_cases hk : G.powner k = c
  · exact f3 k hk
  · rw [f2 k hk, hc k]
    refine Finset.sum_congr rfl fun i _ => ?_
    by_cases hi : G.owner i = c
    · rw [hw.jp i k (by rw [hi]; exact hk)]; simp
    · rw [f1 i hi]

theorem rev_fixed_steps (G : LinGroup ι π K) (S : GSSolve ι π K) (rhs : ι → K) (hw : G.WF) (l : List Nat) :
    ∀ s : GSState ι π K, l.Nodup → Consistent G s → (l.foldl (gsStepRev G S rhs) s).dr = s.dr →
      ∀ c ∈ l, ∃ t : GSState ι π K, Consistent G t ∧ t.dr = s.dr ∧ (gsStepRev G S rhs t c).dr = s.dr := by
  have hkeep : ∀ (l : List Nat) (s : GSState ι π K) (j : ι), G.owner j ∉ l →
      (l.foldl (gsStepRev G S rhs) s).dr j = s.dr j := by
    intro l
    induction l with
    | nil => intro s j _; rfl
    | cons c l ih =>
      intro s j hj
      rw [List.foldl_cons, ih _ j (fun h => hj (by simp [h])),
        (gsStepRev_facts G S rhs s c hw).1 j (fun h => hj (by simp [h]))]
  induction l with
  | nil => intro s _ _ _ c hc; simp at hc
  | cons c l ih =>
    intro s hnd hcons hfix c' hc'
    rw [List.nodup_cons] at hnd
    rw [List.foldl_cons] at hfix
    have h1 : (gsStepRev G S rhs s c).dr = s.dr := by
      funext j
      by_cases hj : G.owner j = c
      · rw [← hkeep l (gsStepRev G S rhs s c) j (by rw [hj]; exact hnd.1), hfix]
      · exact (gsStepRev_facts G S rhs s c hw).1 j hj
    rcases List.mem_cons.mp hc' with h | h
    · subst h
      exact ⟨s, hcons, rfl, h1⟩
    · obtain ⟨t, ht0, ht1, ht2⟩ := ih (gsStepRev G S rhs s c) hnd.2 (rev_step_consistent G S rhs hw s c hcons)
        (by rw [hfix, h1]) c' h
      exact ⟨t, ht0, ht1.trans h1, ht2.trans h1⟩

/-- **C33, reverse mode.** With consistent params, `dr` is left unchanged by a sweep iff it solves the transposed system; components
with or without states and subgroups. The params are consistent again afterwards. -/
theorem C33_rev (G : LinGroup ι π K) (S : GSSolve ι π K) (rhs : ι → K) (order : List Nat) (s : GSState ι π K)
    (hw : G.WF) (hS : ExactBlocksT G S.sol) (hI : InjBlocksT G) (ho : IsOrder G order) (hc : Consistent G s) :
    ((gsSweepRev G S rhs order s).dr = s.dr ↔ G.SolvesT s.dr rhs) ∧ Consistent G (gsSweepRev G S rhs order s) := by
  refine ⟨⟨?_, ?_⟩, ?_⟩
  · intro hfix j
    obtain ⟨t, ht0, ht1, ht2⟩ := rev_fixed_steps G S rhs hw order.reverse s (List.nodup_reverse.mpr ho.nodup) hc hfix
      (G.owner j) (List.mem_reverse.mpr (ho.mem j))
    have := gsStepRev_eq G S rhs t (G.owner j) hw hS j rfl (fun k _ _ => ht0 k)
    rw [ht2] at this
    exact this
  · intro hsol
    have : ∀ (l : List Nat) (t : GSState ι π K), Consistent G t → t.dr = s.dr →
        (l.foldl (gsStepRev G S rhs) t).dr = s.dr := by
      intro l
      induction l with
      | nil => intro t _ ht; exact ht
      | cons c l ih =>
        intro t htc ht
        rw [List.foldl_cons]
        refine ih _ (rev_step_consistent G S rhs hw t c htc) ?_
        funext i
        by_cases hi : G.owner i = c
        · have hz := hI c (fun j => (gsStepRev G S rhs t c).dr j - t.dr j) (fun j hj => ?_) i hi
          · rw [← ht]; exact sub_eq_zero.mp hz
          · have h1 := gsStepRev_eq G S rhs t c hw hS j hj (fun k _ _ => htc k)
            have h2 := hsol j
            rw [← ht] at h2
            have h3 : (∑ i : ι, if G.owner i = c then G.A i j * ((gsStepRev G S rhs t c).dr i - t.dr i) else 0) =
                (∑ i : ι, G.A i j * (gsStepRev G S rhs t c).dr i) - ∑ i : ι, G.A i j * t.dr i := by
              rw [← Finset.sum_sub_distrib]
              refine Finset.sum_congr rfl fun i _ => ?_
              by_cases hi : G.owner i = c
              · simp only [hi, if_true]; ring
              · simp [hi, (gsStepRev_facts G S rhs t c hw).1 i hi]
            rw [h3, h1, h2, sub_self]
        · rw [(gsStepRev_facts G S rhs t c hw).1 i hi, ht]
    exact this _ s hc rfl
  · have : ∀ (l : List Nat) (t : GSState ι π K), Consistent G t → Consistent G (l.foldl (gsStepRev G S rhs) t) := by
      intro l
      induction l with
      | nil => intro t ht; exact ht
      | cons c l ih => intro t ht; rw [List.foldl_cons]; exact ih _ (rev_step_consistent G S rhs hw t c ht)
    exact this _ s hc

/-! ## The whole solve -/

theorem lnLoop_spec [LinearOrder K] (o : LnOpts K) (sweep : GSState ι π K → GSState ι π K)
    (norm : GSState ι π K → GSState ι π K × K) (P : GSState ι π K → K → Prop)
    (hP : ∀ s, P (norm (sweep s)).1 (norm (sweep s)).2) (hm : o.maxiter ≠ 1) (n : Nat) :
    ∀ (iter : Nat) (s : GSState ι π K) (f : K), (iter = 0 ∨ P s f) →
      let r := lnLoop o sweep norm iter s f n
      (r.2.1 = 0 ∨ P r.1 r.2.2) ∧ r.2.1 ≤ iter + n ∧ (r.2.1 < iter + n → ¬ (r.2.2 > o.atol ∧ r.2.2 > o.rtol)) := by
  induction n with
  | zero => intro iter s f h; exact ⟨h, Nat.le_refl _, fun h => absurd h (by simp [lnLoop])⟩
  | succ n ih =>
    intro iter s f h
    unfold lnLoop
    by_cases hc : f > o.atol ∧ f / 1 > o.rtol
    · simp only [hc, and_self, if_true, hm, if_false]
      have := ih (iter + 1) (norm (sweep s)).1 (norm (sweep s)).2 (Or.inr (hP s))
      simp only at this ⊢
      refine ⟨this.1, by omega, fun hlt => this.2.2 (by omega)⟩
    · rw [if_neg hc]
      refine ⟨h, by simp, fun _ hh => hc ?_⟩
      simpa using hh

/-- **C33 (reported convergence).** With `maxiter > 1` and tolerances below 1, when the solver does not report a failure it
returns a vector whose residual `A x - rhs` (respectively `Aᵀ x - rhs`) has a norm of at most `atol` or at most `rtol`, for
any children, cyclic or not, and whatever the children's solves do. -/
theorem C33_converged_residual [LinearOrder K] (G : LinGroup ι π K) (S : GSSolve ι π K) (nrm : (ι → K) → K) (o : LnOpts K)
    (rhs : ι → K) (order : List Nat) (fwd : Bool) (s : GSState ι π K) (hw : G.WF) (hm : 1 < o.maxiter)
    (ha : o.atol < 1) (hr : o.rtol < 1) (hok : (lnSolve G S nrm o rhs order fwd s).failed = false) :
    ∃ x, (lnSolve G S nrm o rhs order fwd s).sol = some x ∧
      (nrm (fun i => (∑ j : ι, (if fwd then G.A i j else G.A j i) * x j) - rhs i) ≤ o.atol ∨
       nrm (fun i => (∑ j : ι, (if fwd then G.A i j else G.A j i) * x j) - rhs i) ≤ o.rtol) := by
  let sweep := if fwd then gsSweepFwd G S rhs order else gsSweepRev G S rhs order
  let P : GSState ι π K → K → Prop := fun t f =>
    f = nrm (fun i => (∑ j : ι, (if fwd then G.A i j else G.A j i) * lnSol fwd t j) - rhs i)
  have hP : ∀ s, P (lnNorm G nrm rhs fwd (sweep s)).1 (lnNorm G nrm rhs fwd (sweep s)).2 := by
    intro s
    show (lnNorm G nrm rhs fwd (sweep s)).2 = _
    unfold lnNorm
    cases fwd with
    | true =>
      simp only [if_true, lnSol]
      congr 1
      funext i
      rw [groupApplyFwd_dr G hw]
      rfl
    | false =>
      simp only [Bool.false_eq_true, if_false, lnSol]
      congr 1
      funext i
      rw [groupApplyRev_du G hw]
      rfl
  have hspec := lnLoop_spec o sweep (lnNorm G nrm rhs fwd) P hP (by omega) o.maxiter 0
    { s with du := fun _ => 0, dp := fun _ => 0 } 1 (Or.inl rfl)
  unfold lnSolve at hok ⊢
  simp only [decide_eq_false_iff_not] at hok
  simp only [Nat.zero_add] at hspec
  generalize hrr : lnLoop o sweep (lnNorm G nrm rhs fwd) 0 { s with du := fun _ => 0, dp := fun _ => 0 } 1 o.maxiter = r at hspec
  have hrr' : lnLoop o (if fwd then gsSweepFwd G S rhs order else gsSweepRev G S rhs order) (lnNorm G nrm rhs fwd) 0
    { s with du := fun _ => 0, dp := fun _ => 0 } 1 o.maxiter = r := hrr
  simp only [hrr'] at hok ⊢
  obtain ⟨h1, h2, h3⟩ := hspec
  have hlt : r.2.1 < o.maxiter := by omega
  have hnot := h3 hlt
  have hne : r.2.1 ≠ 0 := by
    intro h0
    obtain ⟨n, hn⟩ : ∃ n, o.maxiter = n + 1 := ⟨o.maxiter - 1, by omega⟩
    rw [hn] at hrr
    unfold lnLoop at hrr
    rw [if_pos ⟨ha, by simpa using hr⟩] at hrr
    simp only at hrr
    have hmono : ∀ (n iter : Nat) (s : GSState ι π K) (f : K), iter ≤ (lnLoop o sweep (lnNorm G nrm rhs fwd) iter s f n).2.1 := by
      intro n
      induction n with
      | zero => intro iter s f; exact Nat.le_refl _
      | succ n ih =>
        intro iter s f
        unfold lnLoop
        split
        · exact Nat.le_trans (Nat.le_succ _) (ih _ _ _)
        · exact Nat.le_refl _
    have := hmono n (0 + 1) (if o.maxiter = 1 then (sweep { s with du := fun _ => 0, dp := fun _ => 0 }, (0 : K))
      else lnNorm G nrm rhs fwd (sweep { s with du := fun _ => 0, dp := fun _ => 0 })).1
      (if o.maxiter = 1 then (sweep { s with du := fun _ => 0, dp := fun _ => 0 }, (0 : K))
      else lnNorm G nrm rhs fwd (sweep { s with du := fun _ => 0, dp := fun _ => 0 })).2
    rw [hrr] at this
    omega
  rw [if_neg hne]
  refine ⟨_, rfl, ?_⟩
  have hf := h1.resolve_left hne
  by_cases hc : r.2.2 > o.atol
  · right
    rw [← hf]
    exact not_lt.mp fun h => hnot ⟨hc, h⟩
  · left
    rw [← hf]
    exact not_lt.mp hc

/-- **C32 for the solver itself.** With the default `maxiter = 1` the solve of a feed-forward group returns the exact solution in
both modes. -/
theorem C32_solve [LinearOrder K] [IsStrictOrderedRing K] (G : LinGroup ι π K) (S : GSSolve ι π K) (nrm : (ι → K) → K) (o : LnOpts K) (rhs : ι → K)
    (order : List Nat) (s : GSState ι π K) (hw : G.WF) (ho : IsOrder G order) (hp : ∀ k, G.powner k ∈ order)
    (hff : FeedForward G order) (hm : o.maxiter = 1) (ha : o.atol < 1) (hr : o.rtol < 1) :
    (ExactBlocks G S.sol → ∃ x, (lnSolve G S nrm o rhs order true s).sol = some x ∧ G.Solves x rhs) ∧
    (ExactBlocksT G S.sol → ∃ x, (lnSolve G S nrm o rhs order false s).sol = some x ∧ G.SolvesT x rhs) := by
  constructor
  · intro hS
    refine ⟨(gsSweepFwd G S rhs order { s with du := fun _ => 0, dp := fun _ => 0 }).du, ?_,
      C32_fwd G S rhs order _ hw hS ho hff (Or.inr fun _ => rfl)⟩
    simp [lnSolve, hm, lnLoop, ha, hr, lnSol]
  · intro hS
    refine ⟨(gsSweepRev G S rhs order { s with du := fun _ => 0, dp := fun _ => 0 }).dr, ?_,
      C32_rev G S rhs order _ hw hS ho hp hff⟩
    simp [lnSolve, hm, lnLoop, ha, hr, lnSol]

/-! ## Concrete groups -/

/-- `y0` is the output of child 0, `s` the state of child 1; child 1 has a param connected to `y0`; when `cyc ≠ 0` child 0 has a
param connected to `s` with that partial. -/
def exGroup (cyc : ℚ) : LinGroup (Fin 2) (Fin 2) ℚ where
  owner := fun i => i.val
  powner := fun k => k.val
  src := fun k => if k = 0 then 1 else 0
  jp := fun i k => if i = 0 ∧ k = 0 then cyc else if i = 1 ∧ k = 1 then 1 else 0
  js := fun i j => if i = 1 ∧ j = 1 then 2 else 0
  expl := fun i => i = 0

/-- exact solves of the two children: `-rhs` and `rhs / 2` -/
def exSolve : GSSolve (Fin 2) (Fin 2) ℚ where
  sol := fun _ r i => if i = 0 then -r 0 else r 1 / 2
  junk := fun _ s => s

theorem exGroup_wf (c : ℚ) : (exGroup c).WF := by
  constructor
  · intro i k; fin_cases i <;> fin_cases k <;> simp [exGroup]
  · intro i j; fin_cases i <;> fin_cases j <;> simp [exGroup]

theorem exGroup_exact (c : ℚ) : ExactBlocks (exGroup c) exSolve.sol := by
  intro n r i hi
  subst hi
  fin_cases i <;> simp [exGroup, LinGroup.A, exSolve, Fin.sum_univ_two]
  ring

theorem exGroup_exactT (c : ℚ) : ExactBlocksT (exGroup c) exSolve.sol := by
  intro n r i hi
  subst hi
  fin_cases i <;> simp [exGroup, LinGroup.A, exSolve, Fin.sum_univ_two]
  ring

theorem exGroup_inj (c : ℚ) : InjBlocks (exGroup c) ∧ InjBlocksT (exGroup c) := by
  constructor <;>
  · intro n x h i hi
    subst hi
    have := h i rfl
    fin_cases i <;> simp [exGroup, LinGroup.A, Fin.sum_univ_two] at this ⊢ <;> linarith

theorem exGroup_order (c : ℚ) : IsOrder (exGroup c) [0, 1] :=
  ⟨by decide, by intro i; fin_cases i <;> simp [exGroup]⟩

/-- An explicit component feeding an implicit one: meets the hypotheses of C32. (`exGroup` meets those of `C33_rev`.) -/
def exFF : LinGroup (Fin 2) (Fin 1) ℚ where
  owner := fun i => i.val
  powner := fun _ => 1
  src := fun _ => 0
  jp := fun i _ => if i = 1 then 1 else 0
  js := fun i j => if i = 1 ∧ j = 1 then 2 else 0
  expl := fun i => i = 0

example : exFF.WF ∧ IsOrder exFF [0, 1] ∧ FeedForward exFF [0, 1] ∧ ¬ AllExplicit exFF ∧ (∀ k, exFF.powner k ∈ [0, 1]) := by
  refine ⟨⟨?_, ?_⟩, ⟨by decide, ?_⟩, ?_, ?_, ?_⟩
  · intro i k; fin_cases i <;> simp [exFF]
  · intro i j; fin_cases i <;> fin_cases j <;> simp [exFF]
  · intro i; fin_cases i <;> simp [exFF]
  · simp [FeedForward, exFF]
  · intro h; have := h.nostate 1 1; simp [exFF] at this
  · intro k; simp [exFF]

example : ExactBlocks exFF (fun _ r i => if i = 0 then -r 0 else r 1 / 2) := by
  intro n r i hi
  subst hi
  fin_cases i <;> simp [exFF, LinGroup.A, Fin.sum_univ_two]
  ring

/-- Two explicit components in a cycle: meets the hypotheses of `C33_fwd_partial`. -/
def exCycle : LinGroup (Fin 2) (Fin 2) ℚ where
  owner := fun i => i.val
  powner := fun k => k.val
  src := fun k => if k = 0 then 1 else 0
  jp := fun i k => if i = 0 ∧ k = 0 then 3 else if i = 1 ∧ k = 1 then 5 else 0
  js := fun _ _ => 0
  expl := fun _ => true

example : exCycle.WF ∧ AllExplicit exCycle ∧ IsOrder exCycle [0, 1] ∧ InjBlocks exCycle ∧
    ExactBlocks exCycle (fun _ r i => -r i) ∧ exCycle.Solves (fun i => if i = 0 then 1 else 2) (fun i => if i = 0 then 5 else 3) := by
  refine ⟨⟨?_, ?_⟩, ⟨?_, ?_⟩, ⟨by decide, ?_⟩, ?_, ?_, ?_⟩
  · intro i k; fin_cases i <;> fin_cases k <;> simp [exCycle]
  · intro i j; fin_cases i <;> fin_cases j <;> simp [exCycle]
  · intro i j; rfl
  · intro k; fin_cases k <;> simp [exCycle]
  · intro i; fin_cases i <;> simp [exCycle]
  · intro n x h i hi
    subst hi
    have := h i rfl
    fin_cases i <;> simp [exCycle, LinGroup.A, Fin.sum_univ_two] at this ⊢ <;> linarith
  · intro n r i hi
    subst hi
    fin_cases i <;> simp [exCycle, LinGroup.A, Fin.sum_univ_two]
  · intro i; fin_cases i <;> simp [exCycle, LinGroup.A, Fin.sum_univ_two] <;> norm_num

/-- **C33 is false in forward mode for implicit components**: with consistent, exactly solvable blocks a solution of the coupled
system is changed by a sweep, because the product of the child's state partial with the old state is subtracted from the
right-hand side of the child's own solve. -/
theorem C33_fwd_refuted : ∃ (G : LinGroup (Fin 2) (Fin 2) ℚ) (S : GSSolve (Fin 2) (Fin 2) ℚ) (rhs : Fin 2 → ℚ)
    (s : GSState (Fin 2) (Fin 2) ℚ), G.WF ∧ ExactBlocks G S.sol ∧ InjBlocks G ∧ IsOrder G [0, 1] ∧
    G.Solves s.du rhs ∧ (gsSweepFwd G S rhs [0, 1] s).du ≠ s.du := by
  refine ⟨exGroup 1, exSolve, fun i => if i = 0 then 0 else 3, ⟨fun _ => 1, fun _ => 0, fun _ => 0⟩, exGroup_wf 1,
    exGroup_exact 1, (exGroup_inj 1).1, exGroup_order 1, ?_, ?_⟩
  · intro i; fin_cases i <;> simp [exGroup, LinGroup.A, Fin.sum_univ_two]; norm_num
  · intro h
    have := congrFun h 1
    simp [gsSweepFwd, gsStepFwd, subApplyFwd, xferInside, xferFwd, exGroup, exSolve, Fin.sum_univ_two] at this
    norm_num at this

/-- The other direction is false as well: `du = (3/5, 3/5)` is left unchanged by the sweep although it is not a solution. -/
theorem C33_fwd_wrong_fixpoint_refuted : ∃ (G : LinGroup (Fin 2) (Fin 2) ℚ) (S : GSSolve (Fin 2) (Fin 2) ℚ) (rhs : Fin 2 → ℚ)
    (s : GSState (Fin 2) (Fin 2) ℚ), G.WF ∧ ExactBlocks G S.sol ∧ InjBlocks G ∧ IsOrder G [0, 1] ∧
    (gsSweepFwd G S rhs [0, 1] s).du = s.du ∧ ¬ G.Solves s.du rhs := by
  refine ⟨exGroup 1, exSolve, fun i => if i = 0 then 0 else 3, ⟨fun _ => 3 / 5, fun _ => 0, fun _ => 0⟩, exGroup_wf 1,
    exGroup_exact 1, (exGroup_inj 1).1, exGroup_order 1, ?_, ?_⟩
  · funext i
    fin_cases i <;> simp [gsSweepFwd, gsStepFwd, subApplyFwd, xferInside, xferFwd, exGroup, exSolve, Fin.sum_univ_two]
    norm_num
  · intro h
    have := h 1
    simp [exGroup, LinGroup.A, Fin.sum_univ_two] at this
    norm_num at this

/-- With `atol ≥ 1` (allowed by the option) the loop body never runs and no solution is returned; the caller then fails with a
KeyError at `group.py:959`. -/
theorem finding_atol_one [LinearOrder K] (G : LinGroup ι π K) (S : GSSolve ι π K) (nrm : (ι → K) → K) (o : LnOpts K) (rhs : ι → K)
    (order : List Nat) (fwd : Bool) (s : GSState ι π K) (ha : 1 ≤ o.atol) :
    (lnSolve G S nrm o rhs order fwd s).sol = none := by
  unfold lnSolve
  cases hm : o.maxiter with
  | zero => simp [lnLoop]
  | succ n =>
    have : ¬ (o.atol < 1 ∧ o.rtol < 1) := fun h => absurd h.1 (not_lt.mpr ha)
    simp [lnLoop, this]

end OpenMDAO
