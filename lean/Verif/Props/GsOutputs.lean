import Verif.Props.LinearGS
import Verif.Spec.GsOutputs
/-!
# C168: the names of the variables and the linear Gauss-Seidel solver
-/
namespace OpenMDAO

set_option linter.unusedSectionVars false

variable {ι π K : Type} [Fintype ι] [Fintype π] [DecidableEq ι] [Field K]

theorem inGroup_iff (N : GSNames ι) (x : Str) : N.inGroup x = true ↔ ∃ j, N.top j = x := by
  simp [GSNames.inGroup]

theorem gsOut_iff (N : GSNames ι) (G : LinGroup ι π K) (c : Nat) (x : Str) :
    N.gsOut G c x = true ↔ (∃ j, N.top j = x) ∧ ¬ ∃ j, G.owner j = c ∧ N.sub j = x := by
  simp [GSNames.gsOut, inGroup_iff]

theorem gsOut_own (N : GSNames ι) (G : LinGroup ι π K) (h : N.NoClash G) (i : ι) :
    ¬ (G.expl i = true ∧ N.gsOut G (G.owner i) (N.loc i) = true) := by
  rintro ⟨he, hg⟩
  rw [gsOut_iff] at hg
  exact hg.2 (h i he hg.1)

/-! ## The sweeps -/

theorem subApplyFwdN_eq (G : LinGroup ι π K) (N : GSNames ι) (c : Nat) (s : GSState ι π K)
    (h : ∀ i, G.owner i = c → (G.expl i = true ∧ N.gsOut G c (N.loc i) = true) → s.du i = 0) :
    subApplyFwdN G N c s = subApplyFwd G c s := by
  unfold subApplyFwdN subApplyFwd
  simp only [GSState.mk.injEq, true_and, and_true]
  funext i
  by_cases hi : G.owner i = c
  · simp only [hi, if_true]
    by_cases hg : G.expl i = true ∧ N.gsOut G c (N.loc i) = true
    · rw [if_pos hg]
      have : (xferInside G c s).du i = 0 := h i hi hg
      rw [this, sub_zero]
    · rw [if_neg hg, sub_zero]
  · simp only [hi, if_false]

theorem gsStepFwdN_eq (G : LinGroup ι π K) (N : GSNames ι) (S : GSSolve ι π K) (rhs : ι → K) (s : GSState ι π K) (c : Nat)
    (h : ∀ i, G.owner i = c → (G.expl i = true ∧ N.gsOut G c (N.loc i) = true) → s.du i = 0) :
    gsStepFwdN G N S rhs s c = gsStepFwd G S rhs s c := by
  unfold gsStepFwdN gsStepFwd
  rw [subApplyFwdN_eq G N c (xferFwd G c s) h]

/-- **C168 (forward sweeps).** When no explicit output has the local name of an unknown outside its child, a forward sweep is the
sweep C32 and C33 speak of, from any state. -/
theorem C168_sweep_partial (G : LinGroup ι π K) (N : GSNames ι) (S : GSSolve ι π K) (rhs : ι → K) (order : List Nat)
    (s : GSState ι π K) (h : N.NoClash G) : gsSweepFwdN G N S rhs order s = gsSweepFwd G S rhs order s := by
  unfold gsSweepFwdN gsSweepFwd
  congr 1
  funext s c
  refine gsStepFwdN_eq G N S rhs s c fun i hi hg => ?_
  subst hi
  exact absurd hg (gsOut_own N G h i)

/-- **C168 (components).** Children that are components, or that promote all their outputs, cannot clash. -/
theorem C168_components (G : LinGroup ι π K) (N : GSNames ι) (h : ∀ i, N.sub i = N.loc i) : N.NoClash G :=
  fun i _ _ => ⟨i, rfl, h i⟩

/-- **C168 (first forward sweep).** From the zero vector the names do not matter: the first sweep is the sweep of C32, clash or
not. -/
theorem C168_first_sweep (G : LinGroup ι π K) (N : GSNames ι) (S : GSSolve ι π K) (rhs : ι → K) (order : List Nat)
    (s : GSState ι π K) (hn : order.Nodup) (h0 : ∀ i, s.du i = 0) :
    gsSweepFwdN G N S rhs order s = gsSweepFwd G S rhs order s := by
  have : ∀ (l : List Nat) (s : GSState ι π K), l.Nodup → (∀ i, G.owner i ∈ l → s.du i = 0) →
      l.foldl (gsStepFwdN G N S rhs) s = l.foldl (gsStepFwd G S rhs) s := by
    intro l
    induction l with
    | nil => intro s _ _; rfl
    | cons c l ih =>
      intro s hn h0
      rw [List.nodup_cons] at hn
      rw [List.foldl_cons, List.foldl_cons, gsStepFwdN_eq G N S rhs s c fun i hi _ => h0 i (by simp [hi])]
      refine ih _ hn.2 fun i hi => ?_
      rw [gsStepFwd_other G S rhs s c i (fun h => hn.1 (h ▸ hi))]
      exact h0 i (by simp [hi])
  exact this order s hn fun i _ => h0 i

/-- The two states have the same solution and params. -/
def SameSol (s t : GSState ι π K) : Prop := s.dr = t.dr ∧ s.dp = t.dp

theorem gsStepRevN_same (G : LinGroup ι π K) (N : GSNames ι) (S : GSSolve ι π K) (rhs : ι → K) (s t : GSState ι π K) (c : Nat)
    (h : SameSol s t) : SameSol (gsStepRevN G N S rhs s c) (gsStepRev G S rhs t c) := by
  obtain ⟨h1, h2⟩ := h
  have hx : xferRev G c { s with du := fun _ => 0 } = xferRev G c { t with du := fun _ => 0 } := by
    obtain ⟨sdu, sdr, sdp⟩ := s
    obtain ⟨tdu, tdr, tdp⟩ := t
    simp only at h1 h2
    rw [h1, h2]
  unfold gsStepRevN gsStepRev SameSol
  rw [hx]
  exact ⟨rfl, rfl⟩

/-- **C168 (reverse sweeps).** In reverse mode the names never matter for the solution: a sweep from states with the same `dr` and
`dp` yields the same `dr` and `dp` as the sweep of C32 and C33, whatever the names, with or without an `IndepVarComp`. -/
theorem C168_reverse_sweep (G : LinGroup ι π K) (N : GSNames ι) (S : GSSolve ι π K) (rhs : ι → K) (order : List Nat)
    (s t : GSState ι π K) (h1 : s.dr = t.dr) (h2 : s.dp = t.dp) :
    (gsSweepRevN G N S rhs order s).dr = (gsSweepRev G S rhs order t).dr ∧
    (gsSweepRevN G N S rhs order s).dp = (gsSweepRev G S rhs order t).dp := by
  have : ∀ (l : List Nat) (s t : GSState ι π K), SameSol s t →
      SameSol (l.foldl (gsStepRevN G N S rhs) s) (l.foldl (gsStepRev G S rhs) t) := by
    intro l
    induction l with
    | nil => intro s t h; exact h
    | cons c l ih => intro s t h; exact ih _ _ (gsStepRevN_same G N S rhs s t c h)
  exact this order.reverse s t ⟨h1, h2⟩

/-- **C168 (feed-forward groups).** With the default `maxiter = 1` the solve of a feed-forward group returns the exact solution in
both modes, whatever the names. -/
theorem C168_feed_forward [LinearOrder K] [IsStrictOrderedRing K] (G : LinGroup ι π K) (N : GSNames ι) (S : GSSolve ι π K)
    (nrm : (ι → K) → K) (o : LnOpts K) (rhs : ι → K) (order : List Nat) (s : GSState ι π K) (hw : G.WF) (ho : IsOrder G order)
    (hp : ∀ k, G.powner k ∈ order) (hff : FeedForward G order) (hm : o.maxiter = 1) (ha : o.atol < 1) (hr : o.rtol < 1) :
    (ExactBlocks G S.sol → ∃ x, (lnSolveN G N S nrm o rhs order true s).sol = some x ∧ G.Solves x rhs) ∧
    (ExactBlocksT G S.sol → ∃ x, (lnSolveN G N S nrm o rhs order false s).sol = some x ∧ G.SolvesT x rhs) := by
  constructor
  · intro hS
    refine ⟨(gsSweepFwdN G N S rhs order { s with du := fun _ => 0, dp := fun _ => 0 }).du, ?_, ?_⟩
    · simp [lnSolveN, hm, lnLoop, ha, hr, lnSol]
    · rw [C168_first_sweep G N S rhs order _ ho.nodup (fun _ => rfl)]
      exact C32_fwd G S rhs order _ hw hS ho hff (Or.inr fun _ => rfl)
  · intro hS
    refine ⟨(gsSweepRevN G N S rhs order { s with du := fun _ => 0, dp := fun _ => 0 }).dr, ?_, ?_⟩
    · simp [lnSolveN, hm, lnLoop, ha, hr, lnSol]
    · rw [(C168_reverse_sweep G N S rhs order _ { s with du := fun _ => 0, dp := fun _ => 0 } rfl rfl).1]
      exact C32_rev G S rhs order _ hw hS ho hp hff

/-! ## The test of convergence -/

/-- **C168 (what `_norm` measures).** The vector whose norm is tested is the residual of the linear system, plus the solution itself
at every explicit output whose local name is not a name of the group, plus, in reverse mode, whatever is in `du` for the
outputs of an `IndepVarComp`. -/
theorem C168_norm_vector (G : LinGroup ι π K) (N : GSNames ι) (nrm : (ι → K) → K) (rhs : ι → K) (fwd : Bool)
    (s : GSState ι π K) (hw : G.WF) (hi : ∀ j, N.indep j = true → ∀ i, G.js i j = 0) :
    (lnNormN G N nrm rhs fwd s).2 = nrm (fun i => G.residual fwd (lnSol fwd s) rhs i +
      (if G.expl i = true ∧ ¬ ∃ j, N.top j = N.loc i then lnSol fwd s i else 0) +
      (if fwd = false ∧ N.indep i = true then s.du i else 0)) := by
  cases fwd with
  | true =>
    simp only [lnNormN, if_true, lnSol]
    congr 1
    funext i
    have h := groupApplyFwd_dr G hw s i
    unfold LinGroup.residual
    simp only [if_true, Bool.true_eq_false, false_and, if_false, add_zero]
    rw [← h]
    simp only [groupApplyFwdN, groupApplyFwd]
    by_cases he : G.expl i = true <;> by_cases hg : ∃ j, N.top j = N.loc i <;>
      simp [he, hg, inGroup_iff]
    ring
  | false =>
    simp only [lnNormN, Bool.false_eq_true, if_false, lnSol]
    congr 1
    funext j
    have h := groupApplyRev_du G hw s j
    unfold LinGroup.residual
    simp only [Bool.false_eq_true, if_false, true_and]
    rw [← h]
    simp only [groupApplyRevN, groupApplyRev]
    have hz : N.indep j = true → (∑ i : ι, if G.owner j = G.owner i then G.js i j * s.dr i else 0) = 0 := by
      intro hj
      refine Finset.sum_eq_zero fun i _ => ?_
      rw [hi j hj i]; simp
    by_cases hj : N.indep j = true
    · rw [hz hj]
      by_cases he : G.expl j = true <;> by_cases hg : ∃ k, N.top k = N.loc j <;>
        simp [he, hg, hj, inGroup_iff] <;> ring
    · by_cases he : G.expl j = true <;> by_cases hg : ∃ k, N.top k = N.loc j <;>
        simp [he, hg, hj, inGroup_iff] <;> ring

/-- **C168 (the product of one child in reverse mode).** After the product with child `c` in a reverse sweep, `du` of an output of
the child is the transposed block of the child times `dr`, plus `dr` itself at an explicit output unless its local name
is a name of the group and not a name of the child, plus, for an `IndepVarComp`, what was in `du` before. -/
theorem C168_reverse_block (G : LinGroup ι π K) (N : GSNames ι) (c : Nat) (s : GSState ι π K) (hw : G.WF)
    (hi : ∀ j, N.indep j = true → ∀ i, G.js i j = 0) (j : ι) (hj : G.owner j = c) :
    (subApplyRevN G N c s).du j = (∑ i : ι, if G.owner i = c then G.A i j * s.dr i else 0) +
      (if G.expl j = true ∧ ¬ ((∃ k, N.top k = N.loc j) ∧ ¬ ∃ k, G.owner k = c ∧ N.sub k = N.loc j) then s.dr j else 0) +
      (if N.indep j = true then s.du j else 0) := by
  simp only [← gsOut_iff N G c (N.loc j), Bool.not_eq_true]
  have hA : (∑ i : ι, if G.owner i = c then G.A i j * s.dr i else 0) =
      (∑ i : ι, if G.owner i = c then G.js i j * s.dr i else 0) - (if G.expl j = true then s.dr j else 0) +
        ∑ k : π, if G.src k = j ∧ G.powner k = c then ∑ i : ι, (if G.owner i = c then G.jp i k * s.dr i else 0) else 0 := by
    have h1 : ∀ i, (if G.owner i = c then G.A i j * s.dr i else 0) =
        (if G.owner i = c then G.js i j * s.dr i else 0) - (if i = j then (if G.expl j = true then s.dr j else 0) else 0) +
          ∑ k : π, if G.src k = j ∧ G.powner k = c then (if G.owner i = c then G.jp i k * s.dr i else 0) else 0 := by
      intro i
      by_cases ho : G.owner i = c
      · have h2 : (∑ k : π, if G.src k = j ∧ G.powner k = c then (if G.owner i = c then G.jp i k * s.dr i else 0) else 0) =
            (∑ k : π, if G.src k = j then G.jp i k else 0) * s.dr i := by
          rw [Finset.sum_mul]
          refine Finset.sum_congr rfl fun k _ => ?_
          by_cases hk : G.powner k = c
          · by_cases hs : G.src k = j <;> simp [hs, hk, ho]
          · have : G.jp i k = 0 := hw.jp i k (by rw [ho]; exact hk)
            by_cases hs : G.src k = j <;> simp [hs, hk, this]
        rw [h2]
        unfold LinGroup.A
        by_cases hij : i = j
        · subst hij
          by_cases he : G.expl i = true <;> simp [ho, he] <;> ring
        · simp [ho, hij]; ring
      · have hij : i ≠ j := fun h => ho (h ▸ hj)
        simp [ho, hij]
    simp only [h1]
    rw [Finset.sum_add_distrib, Finset.sum_sub_distrib, Finset.sum_comm]
    congr 1
    · congr 1
      simp
    · refine Finset.sum_congr rfl fun k _ => ?_
      split <;> simp
  have hz : N.indep j = true → (∑ i : ι, if G.owner i = c then G.js i j * s.dr i else 0) = 0 := by
    intro h
    refine Finset.sum_eq_zero fun i _ => ?_
    rw [hi j h i]; simp
  rw [hA]
  unfold subApplyRevN
  simp only [if_pos hj]
  have hd : ∀ k : π, (if G.src k = j ∧ G.powner k = c then
      (if G.powner k = c then ∑ i : ι, (if G.owner i = c then G.jp i k * s.dr i else 0) else s.dp k) else 0) =
      if G.src k = j ∧ G.powner k = c then ∑ i : ι, (if G.owner i = c then G.jp i k * s.dr i else 0) else 0 := by
    intro k
    by_cases h : G.src k = j ∧ G.powner k = c
    · simp only [if_pos h, if_pos h.2]
    · simp only [if_neg h]
  simp only [hd]
  by_cases hn : N.indep j = true
  · rw [hz hn]
    by_cases he : G.expl j = true <;> cases hg : N.gsOut G c (N.loc j) <;> simp [he, hn] <;> ring
  · by_cases he : G.expl j = true <;> cases hg : N.gsOut G c (N.loc j) <;> simp [he, hn] <;> ring

theorem lnLoop_mono [LinearOrder K] (o : LnOpts K) (sweep : GSState ι π K → GSState ι π K)
    (norm : GSState ι π K → GSState ι π K × K) (n : Nat) :
    ∀ (iter : Nat) (s : GSState ι π K) (f : K), iter ≤ (lnLoop o sweep norm iter s f n).2.1 := by
  induction n with
  | zero => intro iter s f; exact Nat.le_refl _
  | succ n ih =>
    intro iter s f
    unfold lnLoop
    split
    · exact Nat.le_trans (Nat.le_succ _) (ih _ _ _)
    · exact Nat.le_refl _

/-- A loop that stops early stopped on a small norm of the state it stopped in. -/
theorem lnLoop_early [LinearOrder K] (o : LnOpts K) (sweep : GSState ι π K → GSState ι π K)
    (norm : GSState ι π K → GSState ι π K × K) (s : GSState ι π K) (hm : 1 < o.maxiter) (ha : o.atol < 1) (hr : o.rtol < 1)
    (h : (lnLoop o sweep norm 0 s 1 o.maxiter).2.1 < o.maxiter) :
    (lnLoop o sweep norm 0 s 1 o.maxiter).2.1 ≠ 0 ∧
    ∃ t, (lnLoop o sweep norm 0 s 1 o.maxiter).1 = (norm (sweep t)).1 ∧
      ((norm (sweep t)).2 ≤ o.atol ∨ (norm (sweep t)).2 ≤ o.rtol) := by
  have hspec := lnLoop_spec o sweep norm (fun t f => ∃ u, t = (norm (sweep u)).1 ∧ f = (norm (sweep u)).2)
    (fun s => ⟨s, rfl, rfl⟩) (by omega) o.maxiter 0 s 1 (Or.inl rfl)
  simp only [Nat.zero_add] at hspec
  obtain ⟨h1, _, h3⟩ := hspec
  have hne : (lnLoop o sweep norm 0 s 1 o.maxiter).2.1 ≠ 0 := by
    obtain ⟨n, hn⟩ : ∃ n, o.maxiter = n + 1 := ⟨o.maxiter - 1, by omega⟩
    rw [hn]
    unfold lnLoop
    rw [if_pos ⟨ha, by simpa using hr⟩]
    exact Nat.ne_of_gt (Nat.lt_of_lt_of_le Nat.zero_lt_one (lnLoop_mono o sweep norm n _ _ _))
  refine ⟨hne, ?_⟩
  obtain ⟨u, hu1, hu2⟩ := h1.resolve_left hne
  have hnot := h3 h
  rw [hu2] at hnot
  refine ⟨u, hu1, ?_⟩
  by_cases hc : (norm (sweep u)).2 > o.atol
  · exact Or.inr (not_lt.mp fun h => hnot ⟨hc, h⟩)
  · exact Or.inl (not_lt.mp hc)

/-- A loop whose norm is never small runs to `maxiter`. -/
theorem lnLoop_never [LinearOrder K] (o : LnOpts K) (sweep : GSState ι π K → GSState ι π K)
    (norm : GSState ι π K → GSState ι π K × K) (hm : o.maxiter ≠ 1)
    (h : ∀ s, o.atol < (norm (sweep s)).2 ∧ o.rtol < (norm (sweep s)).2) (n : Nat) :
    ∀ (iter : Nat) (s : GSState ι π K) (f : K), o.atol < f ∧ o.rtol < f →
      (lnLoop o sweep norm iter s f n).2.1 = iter + n := by
  induction n with
  | zero => intro iter s f _; rfl
  | succ n ih =>
    intro iter s f hf
    unfold lnLoop
    rw [if_pos ⟨hf.1, by simpa using hf.2⟩]
    simp only [hm, if_false]
    rw [ih _ _ _ (h s)]
    omega

/-- **C168 (reported convergence).** When every explicit output is promoted up to the group (or at least has, in its component, some
name of the group), and in reverse mode the group has no `IndepVarComp`, a solve that does not report a failure returns a
vector whose residual has a norm of at most `atol` or at most `rtol`. -/
theorem C168_converged_partial [LinearOrder K] (G : LinGroup ι π K) (N : GSNames ι) (S : GSSolve ι π K) (nrm : (ι → K) → K)
    (o : LnOpts K) (rhs : ι → K) (order : List Nat) (fwd : Bool) (s : GSState ι π K) (hw : G.WF) (hm : 1 < o.maxiter)
    (ha : o.atol < 1) (hr : o.rtol < 1) (hp : ∀ i, G.expl i = true → ∃ j, N.top j = N.loc i)
    (hi : fwd = true ∨ ∀ j, N.indep j = false)
    (hok : (lnSolveN G N S nrm o rhs order fwd s).failed = false) :
    ∃ x, (lnSolveN G N S nrm o rhs order fwd s).sol = some x ∧
      (nrm (G.residual fwd x rhs) ≤ o.atol ∨ nrm (G.residual fwd x rhs) ≤ o.rtol) := by
  have hnorm : ∀ t : GSState ι π K, (lnNormN G N nrm rhs fwd t).2 = nrm (G.residual fwd (lnSol fwd t) rhs) := by
    intro t
    have hN : fwd = false → ∀ j, N.indep j = false := by
      intro hf
      rcases hi with hi | hi
      · rw [hf] at hi; cases hi
      · exact hi
    cases fwd with
    | true =>
      have h := C168_norm_vector G { N with indep := fun _ => false } nrm rhs true t hw (by simp)
      have e : (lnNormN G N nrm rhs true t).2 = (lnNormN G { N with indep := fun _ => false } nrm rhs true t).2 := rfl
      rw [e, h]
      congr 1
      funext i
      have : ¬ (G.expl i = true ∧ ¬ ∃ j, N.top j = N.loc i) := fun hh => hh.2 (hp i hh.1)
      simp only [this, if_false, Bool.true_eq_false, false_and, add_zero]
    | false =>
      rw [C168_norm_vector G N nrm rhs false t hw (by intro j hj; rw [hN rfl j] at hj; cases hj)]
      congr 1
      funext i
      have : ¬ (G.expl i = true ∧ ¬ ∃ j, N.top j = N.loc i) := fun hh => hh.2 (hp i hh.1)
      simp only [this, if_false, hN rfl i, Bool.false_eq_true, and_false, add_zero]
  have hkeep : ∀ t : GSState ι π K, lnSol fwd (lnNormN G N nrm rhs fwd t).1 = lnSol fwd t := by
    intro t; cases fwd <;> rfl
  unfold lnSolveN at hok ⊢
  simp only [decide_eq_false_iff_not, gt_iff_lt, ge_iff_le, not_and, not_le] at hok
  have hlt := hok hm
  obtain ⟨h1, t, h2, h3⟩ := lnLoop_early o _ _ _ hm ha hr hlt
  simp only [if_neg h1]
  refine ⟨_, rfl, ?_⟩
  rw [h2, hkeep]
  rw [hnorm] at h3
  exact h3

/-! ## Refutations -/

/-- Two explicit components with one output each, `u = a v` and `v = b u`. -/
def twoComps (a b : ℚ) : LinGroup (Fin 2) (Fin 2) ℚ where
  owner := fun i => i.val
  powner := fun k => k.val
  src := fun k => if k = 0 then 1 else 0
  jp := fun i k => if i = 0 ∧ k = 0 then a else if i = 1 ∧ k = 1 then b else 0
  js := fun _ _ => 0
  expl := fun _ => true

def twoSolve : GSSolve (Fin 2) (Fin 2) ℚ where
  sol := fun _ r i => -r i
  junk := fun _ s => s

/-- maximum of the absolute values -/
def nrm2 (v : Fin 2 → ℚ) : ℚ := max |v 0| |v 1|

def twoChild (c : Nat) : Str := if c = 0 then ['c', '1'] else ['c', '2']

/-- The output `u` of `c1` is not promoted, the output `v` of `c2` is. -/
def mixedNames : GSNames (Fin 2) where
  loc := fun i => if i = 0 then ['u'] else ['v']
  sub := fun i => if i = 0 then ['u'] else ['v']
  top := fun i => if i = 0 then ['c', '1', '.', 'u'] else ['v']
  indep := fun _ => false

/-- Neither output is promoted. -/
def plainNames : GSNames (Fin 2) where
  loc := fun i => if i = 0 then ['u'] else ['v']
  sub := fun i => if i = 0 then ['u'] else ['v']
  top := fun i => if i = 0 then ['c', '1', '.', 'u'] else ['c', '2', '.', 'v']
  indep := fun _ => false

/-- Both outputs are promoted, `c1` is an `IndepVarComp`. -/
def indepNames : GSNames (Fin 2) where
  loc := fun i => if i = 0 then ['u'] else ['v']
  sub := fun i => if i = 0 then ['u'] else ['v']
  top := fun i => if i = 0 then ['u'] else ['v']
  indep := fun i => i = 0

/-- `c1` is a group whose component `d` has an output `v` that is not promoted out of the group `c1`; `c2` promotes its own `v`. -/
def clashNames : GSNames (Fin 2) where
  loc := fun _ => ['v']
  sub := fun i => if i = 0 then ['d', '.', 'v'] else ['v']
  top := fun i => if i = 0 then ['c', '1', '.', 'd', '.', 'v'] else ['v']
  indep := fun _ => false

theorem twoComps_wf (a b : ℚ) : (twoComps a b).WF := by
  constructor
  · intro i k; fin_cases i <;> fin_cases k <;> simp [twoComps]
  · intro i j; simp [twoComps]

theorem twoComps_exact (a b : ℚ) : ExactBlocks (twoComps a b) twoSolve.sol ∧ ExactBlocksT (twoComps a b) twoSolve.sol := by
  constructor <;>
  · intro n r i hi
    subst hi
    fin_cases i <;> simp [twoComps, LinGroup.A, twoSolve, Fin.sum_univ_two]

theorem mixed_valid (a b : ℚ) : mixedNames.Valid (twoComps a b) twoChild := by
  refine ⟨?_, ?_, ?_⟩
  · intro i; fin_cases i <;> simp [mixedNames, twoComps, twoChild]
  · intro i; fin_cases i <;> simp [mixedNames]
  · intro i j; fin_cases i <;> fin_cases j <;> simp [mixedNames]

theorem plain_valid (a b : ℚ) : plainNames.Valid (twoComps a b) twoChild := by
  refine ⟨?_, ?_, ?_⟩
  · intro i; fin_cases i <;> simp [plainNames, twoComps, twoChild]
  · intro i; fin_cases i <;> simp [plainNames]
  · intro i j; fin_cases i <;> fin_cases j <;> simp [plainNames]

theorem indep_valid (a b : ℚ) : indepNames.Valid (twoComps a b) twoChild := by
  refine ⟨?_, ?_, ?_⟩
  · intro i; fin_cases i <;> simp [indepNames, twoComps, twoChild]
  · intro i; fin_cases i <;> simp [indepNames]
  · intro i j; fin_cases i <;> fin_cases j <;> simp [indepNames]

theorem clash_valid (a b : ℚ) : clashNames.Valid (twoComps a b) twoChild := by
  refine ⟨?_, ?_, ?_⟩
  · intro i; fin_cases i <;> simp [clashNames, twoComps, twoChild]
  · intro i
    fin_cases i
    · right; exact ⟨['d'], by simp [clashNames]⟩
    · left; simp [clashNames]
  · intro i j; fin_cases i <;> fin_cases j <;> simp [clashNames]

/-- The hypotheses of `C168_converged_partial` and `C168_sweep_partial` are met by components whose outputs are all promoted. -/
example : (∀ i, (twoComps 1 2).expl i = true → ∃ j, indepNames.top j = indepNames.loc i) ∧ indepNames.NoClash (twoComps 1 2) :=
  ⟨fun i _ => ⟨i, by fin_cases i <;> simp [indepNames]⟩, C168_components _ _ fun i => by fin_cases i <;> simp [indepNames]⟩

example : plainNames.NoClash (twoComps 1 2) ∧ ¬ clashNames.NoClash (twoComps 1 2) := by
  refine ⟨C168_components _ _ fun i => by fin_cases i <;> simp [plainNames], fun h => ?_⟩
  obtain ⟨j, h1, h2⟩ := h 0 rfl ⟨1, by simp [clashNames]⟩
  fin_cases j <;> simp [clashNames, twoComps] at h1 h2

/-- The hypotheses of `C168_reverse_block` are met where the identity is subtracted, by the clashing names. -/
example : (twoComps 1 2).WF ∧ (∀ j, clashNames.indep j = true → ∀ i, (twoComps 1 2).js i j = 0) ∧ (twoComps 1 2).owner 0 = 0 ∧
    (∃ k, clashNames.top k = clashNames.loc 0) ∧ ¬ ∃ k, (twoComps 1 2).owner k = 0 ∧ clashNames.sub k = clashNames.loc 0 := by
  refine ⟨twoComps_wf _ _, fun _ _ _ => rfl, rfl, ⟨1, by simp [clashNames]⟩, ?_⟩
  rintro ⟨k, h1, h2⟩
  fin_cases k <;> simp [clashNames, twoComps] at h1 h2

def zeroState : GSState (Fin 2) (Fin 2) ℚ := ⟨fun _ => 0, fun _ => 0, fun _ => 0⟩

/-- **Refutation: convergence is reported for a wrong solution.** `u = v - 1`, `v = -u`, the output `u` not promoted, `v` promoted:
the solver reports convergence and returns `(-1, 1)`, whose residual is `(1, 0)`; the solution is `(-1/2, 1/2)`. -/
theorem C168_wrong_convergence_refuted : ∃ (G : LinGroup (Fin 2) (Fin 2) ℚ) (N : GSNames (Fin 2)) (rhs : Fin 2 → ℚ) (x : Fin 2 → ℚ),
    G.WF ∧ N.Valid G twoChild ∧ ExactBlocks G twoSolve.sol ∧
    (lnSolveN G N twoSolve nrm2 ⟨1 / 1000, 1 / 1000, 10⟩ rhs [0, 1] true zeroState).failed = false ∧
    (lnSolveN G N twoSolve nrm2 ⟨1 / 1000, 1 / 1000, 10⟩ rhs [0, 1] true zeroState).sol = some x ∧
    ¬ G.Solves x rhs ∧ nrm2 (G.residual true x rhs) = 1 := by
  have h : (lnSolveN (twoComps 1 (-1)) mixedNames twoSolve nrm2 ⟨1 / 1000, 1 / 1000, 10⟩ (fun i => if i = 0 then 1 else 0) [0, 1]
      true zeroState).sol.map (fun x => (x 0, x 1)) = some (-1, 1) := by decide +kernel
  obtain ⟨x, hx, hv⟩ := Option.map_eq_some_iff.mp h
  have hx' : x = fun i => if i = 0 then -1 else 1 := by
    injection hv with h0 h1
    funext i
    fin_cases i
    · simpa using h0
    · simpa using h1
  refine ⟨twoComps 1 (-1), mixedNames, fun i => if i = 0 then 1 else 0, x,
    twoComps_wf _ _, mixed_valid _ _, (twoComps_exact _ _).1, by decide +kernel, hx, ?_, ?_⟩
  · intro h
    have := h 0
    rw [hx'] at this
    revert this
    decide +kernel
  · rw [hx']
    decide +kernel

/-- `v = 2 u`, where `u` has no inputs. -/
def feedComps : LinGroup (Fin 2) (Fin 1) ℚ where
  owner := fun i => i.val
  powner := fun _ => 1
  src := fun _ => 0
  jp := fun i _ => if i = 1 then 2 else 0
  js := fun _ _ => 0
  expl := fun _ => true

def feedSolve : GSSolve (Fin 2) (Fin 1) ℚ where
  sol := fun _ r i => -r i
  junk := fun _ s => s

theorem feed_wf : feedComps.WF := by
  constructor
  · intro i k; fin_cases i <;> simp [feedComps]
  · intro i j; simp [feedComps]

theorem feed_exact : ExactBlocks feedComps feedSolve.sol ∧ ExactBlocksT feedComps feedSolve.sol := by
  constructor <;>
  · intro n r i hi
    subst hi
    fin_cases i <;> simp [feedComps, LinGroup.A, feedSolve, Fin.sum_univ_two]

/-- The hypotheses of `C168_feed_forward` are met. -/
example : feedComps.WF ∧ IsOrder feedComps [0, 1] ∧ (∀ k, feedComps.powner k ∈ [0, 1]) ∧ FeedForward feedComps [0, 1] := by
  refine ⟨feed_wf, ⟨by decide, fun i => by fin_cases i <;> simp [feedComps]⟩, by simp [feedComps], ?_⟩
  simp [FeedForward, feedComps]

theorem feed_valid : plainNames.Valid feedComps twoChild ∧ indepNames.Valid feedComps twoChild := by
  refine ⟨⟨?_, ?_, ?_⟩, ⟨?_, ?_, ?_⟩⟩
  · intro i; fin_cases i <;> simp [plainNames, feedComps, twoChild]
  · intro i; fin_cases i <;> simp [plainNames]
  · intro i j; fin_cases i <;> fin_cases j <;> simp [plainNames]
  · intro i; fin_cases i <;> simp [indepNames, feedComps, twoChild]
  · intro i; fin_cases i <;> simp [indepNames]
  · intro i j; fin_cases i <;> fin_cases j <;> simp [indepNames]

theorem sweep_plain (s : GSState (Fin 2) (Fin 1) ℚ) :
    (gsSweepFwdN feedComps plainNames feedSolve (fun i => if i = 0 then -1 else 0) [0, 1] s).du =
      fun i => if i = 0 then 1 else 2 := by
  rw [C168_sweep_partial _ _ _ _ _ _ (C168_components _ _ fun i => by fin_cases i <;> simp [plainNames])]
  funext i
  fin_cases i <;>
    simp [gsSweepFwd, gsStepFwd, subApplyFwd, xferInside, xferFwd, feedComps, feedSolve]

theorem sweep_indep (s : GSState (Fin 2) (Fin 1) ℚ) :
    (gsSweepRevN feedComps indepNames feedSolve (fun i => if i = 0 then 0 else -1) [0, 1] s).dr =
      (fun i => if i = 0 then 2 else 1) ∧
    (gsSweepRevN feedComps indepNames feedSolve (fun i => if i = 0 then 0 else -1) [0, 1] s).du 0 = -2 := by
  constructor
  · rw [(C168_reverse_sweep _ _ _ _ _ s s rfl rfl).1]
    funext i
    fin_cases i <;>
      simp [gsSweepRev, gsStepRev, subApplyRev, xferRev, feedComps, feedSolve, Fin.sum_univ_two]
  · have h : GSNames.gsOut indepNames feedComps 0 (indepNames.loc 0) = false := by decide +kernel
    have hi : indepNames.indep 0 = true := rfl
    generalize indepNames = N at h hi
    simp only [gsSweepRevN, List.reverse_cons, List.reverse_nil, List.nil_append, List.cons_append, List.foldl_cons,
      List.foldl_nil]
    generalize hu : gsStepRevN feedComps N feedSolve (fun i => if i = 0 then 0 else -1) s 1 = t
    have ht : t.dp 0 = 2 := by
      rw [← hu]
      simp [gsStepRevN, subApplyRevN, xferRev, feedComps, feedSolve, Fin.sum_univ_two]
    have hp : (feedComps.powner 0 = 1) := rfl
    simp [gsStepRevN, subApplyRevN, xferRev, h, hi, ht]
    simp [feedComps, feedSolve]

/-- **Refutation: a solved system is reported as failed.** `v = 2 u` with neither output promoted: every sweep yields the exact
solution, and the solver runs to `maxiter` and reports a failure, whatever `maxiter > 1`. -/
theorem C168_unpromoted_refuted : ∃ (G : LinGroup (Fin 2) (Fin 1) ℚ) (N : GSNames (Fin 2)) (rhs : Fin 2 → ℚ),
    G.WF ∧ N.Valid G twoChild ∧ ExactBlocks G feedSolve.sol ∧
    (∀ s, G.Solves (gsSweepFwdN G N feedSolve rhs [0, 1] s).du rhs) ∧
    ∀ m s, 1 < m → (lnSolveN G N feedSolve nrm2 ⟨1 / 1000, 1 / 1000, m⟩ rhs [0, 1] true s).failed = true := by
  refine ⟨feedComps, plainNames, fun i => if i = 0 then -1 else 0, feed_wf, feed_valid.1, feed_exact.1, ?_, ?_⟩
  · intro s
    rw [sweep_plain]
    intro i
    fin_cases i <;> simp [feedComps, LinGroup.A, Fin.sum_univ_two]
  · intro m s hm
    have hn : ∀ s : GSState (Fin 2) (Fin 1) ℚ, (lnNormN feedComps plainNames nrm2 (fun i => if i = 0 then -1 else 0) true
        (gsSweepFwdN feedComps plainNames feedSolve (fun i => if i = 0 then -1 else 0) [0, 1] s)).2 = 2 := by
      intro s
      rw [C168_norm_vector _ _ _ _ _ _ feed_wf (by simp [feedComps])]
      simp only [lnSol, if_true, sweep_plain]
      decide +kernel
    have := lnLoop_never (⟨1 / 1000, 1 / 1000, m⟩ : LnOpts ℚ)
      (gsSweepFwdN feedComps plainNames feedSolve (fun i => if i = 0 then -1 else 0) [0, 1])
      (lnNormN feedComps plainNames nrm2 (fun i => if i = 0 then -1 else 0) true) (by simp; omega)
      (by intro s; rw [hn s]; norm_num) m 0 { s with du := fun _ => 0, dp := fun _ => 0 } 1 (by norm_num)
    unfold lnSolveN
    rw [decide_eq_true_eq]
    exact ⟨hm, (this.trans (Nat.zero_add m)).ge⟩

/-- **Refutation: an `IndepVarComp` in reverse mode.** `v = 2 u` where `u` comes from an `IndepVarComp` and both are promoted: every
reverse sweep yields the exact solution, and the solver runs to `maxiter` and reports a failure, because the `IndepVarComp`
does not zero `du`. -/
theorem C168_indep_refuted : ∃ (G : LinGroup (Fin 2) (Fin 1) ℚ) (N : GSNames (Fin 2)) (rhs : Fin 2 → ℚ),
    G.WF ∧ N.Valid G twoChild ∧ (∀ i, N.Promoted i) ∧ ExactBlocksT G feedSolve.sol ∧
    (∀ s, G.SolvesT (gsSweepRevN G N feedSolve rhs [0, 1] s).dr rhs) ∧
    ∀ m s, 1 < m → (lnSolveN G N feedSolve nrm2 ⟨1 / 1000, 1 / 1000, m⟩ rhs [0, 1] false s).failed = true := by
  refine ⟨feedComps, indepNames, fun i => if i = 0 then 0 else -1, feed_wf, feed_valid.2, fun i => ?_, feed_exact.2, ?_, ?_⟩
  · fin_cases i <;> simp [GSNames.Promoted, indepNames]
  · intro s
    rw [(sweep_indep s).1]
    intro i
    fin_cases i <;> simp [feedComps, LinGroup.A, Fin.sum_univ_two]
  · intro m s hm
    have hn : ∀ s : GSState (Fin 2) (Fin 1) ℚ, (lnNormN feedComps indepNames nrm2 (fun i => if i = 0 then 0 else -1) false
        (gsSweepRevN feedComps indepNames feedSolve (fun i => if i = 0 then 0 else -1) [0, 1] s)).2 = 2 := by
      intro s
      rw [C168_norm_vector _ _ _ _ _ _ feed_wf (by simp [feedComps])]
      simp only [lnSol, Bool.false_eq_true, if_false, (sweep_indep s).1]
      unfold nrm2
      simp only [(sweep_indep s).2]
      simp [indepNames, LinGroup.residual, feedComps, LinGroup.A, Fin.sum_univ_two]
    have := lnLoop_never (⟨1 / 1000, 1 / 1000, m⟩ : LnOpts ℚ)
      (gsSweepRevN feedComps indepNames feedSolve (fun i => if i = 0 then 0 else -1) [0, 1])
      (lnNormN feedComps indepNames nrm2 (fun i => if i = 0 then 0 else -1) false) (by simp; omega)
      (by intro s; rw [hn s]; norm_num) m 0 { s with du := fun _ => 0, dp := fun _ => 0 } 1 (by norm_num)
    unfold lnSolveN
    rw [decide_eq_true_eq]
    exact ⟨hm, (this.trans (Nat.zero_add m)).ge⟩

/-- **Refutation: a clash of names makes the sweeps tend to a wrong vector.** `v₁ = v₂/2`, `v₂ = v₁/2 + 1`, where `v₁` is the output
`v` of component `d` in the group `c1`, not promoted, and `v₂` the output `v` of `c2`, promoted. `(2/7, 8/7)` is left unchanged by a
sweep, the solution `(2/3, 4/3)` is not. -/
theorem C168_clash_refuted : ∃ (G : LinGroup (Fin 2) (Fin 2) ℚ) (N : GSNames (Fin 2)) (rhs : Fin 2 → ℚ) (s t : GSState (Fin 2) (Fin 2) ℚ),
    G.WF ∧ AllExplicit G ∧ N.Valid G twoChild ∧ ExactBlocks G twoSolve.sol ∧
    (gsSweepFwdN G N twoSolve rhs [0, 1] s).du = s.du ∧ ¬ G.Solves s.du rhs ∧
    G.Solves t.du rhs ∧ (gsSweepFwdN G N twoSolve rhs [0, 1] t).du ≠ t.du := by
  refine ⟨twoComps (1 / 2) (1 / 2), clashNames, fun i => if i = 0 then 0 else -1,
    ⟨fun i => if i = 0 then 2 / 7 else 8 / 7, fun _ => 0, fun _ => 0⟩,
    ⟨fun i => if i = 0 then 2 / 3 else 4 / 3, fun _ => 0, fun _ => 0⟩, twoComps_wf _ _, ⟨fun _ _ => rfl, ?_⟩, clash_valid _ _,
    (twoComps_exact _ _).1, ?_, ?_, ?_, ?_⟩
  · intro k; fin_cases k <;> simp [twoComps]
  · funext i; revert i; decide +kernel
  · intro h; have := h 0; revert this; decide +kernel
  · intro i; revert i; decide +kernel
  · intro h; have := congrFun h 0; revert this; decide +kernel

end OpenMDAO
