import Verif.Lemmas.Gmres
import Mathlib.Data.List.Basic
import Mathlib.Data.List.Nodup
import Mathlib.Algebra.Field.Rat
import Mathlib.Algebra.Order.Ring.Rat
import Mathlib.Algebra.BigOperators.Fin
import Mathlib.Algebra.Order.Ring.Abs
import Mathlib.Tactic.FinCases
import Mathlib.Tactic.NormNum
/-!
# C91 to C94: linear solvers between the children and scipy

`LinGroup.mul` is the product with the matrix of the group (or its transpose), `Krylov.run` a run of scipy's `gmres` on a fixed operator.
-/
namespace OpenMDAO
set_option linter.unusedSectionVars false

variable {ι π K V : Type} [Fintype ι] [Fintype π] [DecidableEq ι] [Field K]

/-- **C91.** Solution, iteration count and reported failure of `LinearGaussSeidel.solve` depend on the right-hand side only: whatever an earlier solve left in `dumat`, `drmat`, `dpmat` has no effect, in both modes and for any number of sweeps. -/
theorem C91_stateless [LinearOrder K] (G : LinGroup ι π K) (S : GSSolve ι π K) (nrm : (ι → K) → K) (o : LnOpts K) (rhs : ι → K) (order : List Nat) (fwd : Bool)
    (hc : fwd = false → ∀ i, G.owner i ∈ order) (s t : GSState ι π K) :
    lnSolve G S nrm o rhs order fwd s = lnSolve G S nrm o rhs order fwd t := by
  cases fwd with
  | true =>
    have h := lnLoop_rel o (gsSweepFwd G S rhs order) (lnNorm G nrm rhs true) (fun s t => s.du = t.du) (fun s t => s.du = t.du) (fun _ _ h => h)
      (fun s t h => gsSweepFwd_congr G S rhs order s t h)
      (fun s t h => by simp only [lnNorm, if_true, groupApplyFwd, h]; exact ⟨trivial, trivial⟩)
      o.maxiter 0 { s with du := fun _ => 0, dp := fun _ => 0 } { t with du := fun _ => 0, dp := fun _ => 0 } 1 rfl (Or.inr rfl)
    obtain ⟨h1, h2⟩ := h
    simp only [lnSolve, if_true, lnSol]
    rw [← h1]
    split
    · rfl
    · rename_i hne
      rw [h2.resolve_left hne]
  | false =>
    have h := lnLoop_rel o (gsSweepRev G S rhs order) (lnNorm G nrm rhs false) (fun s t => s.dp = t.dp) (fun s t => s.dp = t.dp ∧ s.dr = t.dr) (fun _ _ h => h.1)
      (fun s t h => by
        obtain ⟨h1, h2⟩ := gsFoldRev_congr G S rhs order.reverse s t h
        exact ⟨h1, funext fun i => h2 i (Or.inl (List.mem_reverse.2 (hc rfl i)))⟩)
      (fun s t h => by simp only [lnNorm, Bool.false_eq_true, if_false, groupApplyRev, h.2]; exact ⟨⟨trivial, trivial⟩, trivial⟩)
      o.maxiter 0 { s with du := fun _ => 0, dp := fun _ => 0 } { t with du := fun _ => 0, dp := fun _ => 0 } 1 rfl (Or.inl rfl)
    obtain ⟨h1, h2⟩ := h
    simp only [lnSolve, Bool.false_eq_true, if_false, lnSol]
    rw [← h1]
    split
    · rfl
    · rename_i hne
      rw [(h2.resolve_left hne).2]

/-- `LinearGaussSeidel` is a function of the right-hand side. -/
theorem lnAsSolver_is [LinearOrder K] (G : LinGroup ι π K) (S : GSSolve ι π K) (nrm : (ι → K) → K) (o : LnOpts K) (order : List Nat) (fwd : Bool) (hc : fwd = false → ∀ i, G.owner i ∈ order)
    (after : (ι → K) → GSState ι π K → GSState ι π K) (s0 : GSState ι π K) :
    (lnAsSolver G S nrm o order fwd after).Is fun rhs => (lnAsSolver G S nrm o order fwd after rhs s0).1 := by
  intro rhs s
  simp only [lnAsSolver]
  rw [C91_stateless G S nrm o rhs order fwd hc s s0]

/-- A finding: a Gauss-Seidel preconditioner that makes no iteration (`maxiter` 0, or a tolerance of at least 1, since the first norm is taken as 1) has no solution to return and fails with `KeyError`. -/
theorem finding_C92_gs_no_iteration [LinearOrder K] (G : LinGroup ι π K) (S : GSSolve ι π K) (nrm : (ι → K) → K) (o : LnOpts K) (order : List Nat) (fwd : Bool)
    (after : (ι → K) → GSState ι π K → GSState ι π K) (ho : o.maxiter = 0 ∨ 1 ≤ o.atol ∨ 1 ≤ o.rtol) (rhs : ι → K) (s : GSState ι π K) :
    (lnAsSolver G S nrm o order fwd after rhs s).1 = .error .KeyError := by
  have h0 : ∀ sw nm (s0 : GSState ι π K), (lnLoop o sw nm 0 s0 1 o.maxiter).2.1 = 0 := by
    intro sw nm s0
    cases hm : o.maxiter with
    | zero => rfl
    | succ n =>
      rw [lnLoop, if_neg]
      rintro ⟨h1, h2⟩
      rw [div_one] at h2
      rcases ho with h | h | h
      · omega
      · exact absurd h1 (not_lt.mpr h)
      · exact absurd h2 (not_lt.mpr h)
  simp only [lnAsSolver, lnSolve, h0, if_true]

/-- **C92, one run.** The matrix-vector products and preconditioner calls that scipy's `gmres` makes, in whatever number and order, all see the fixed matrix of the group (its transpose in reverse mode) and a fixed preconditioner: the state shared by the
callbacks does not leak into the result. -/
theorem C92_run [LinearOrder K] (G : LinGroup ι π K) (hw : G.WF) (nrm : (ι → K) → K) (tiny : K) (fwd : Bool) (P : LinSolver ι π K) (f : (ι → K) → Except PyErr (ι → K)) (hP : P.Is f) (k : Krylov (ι → K)) (s : GSState ι π K) :
    (runKrylov G nrm tiny fwd (some P) k s).1 = k.run (G.mul fwd) (preconOf nrm tiny f) := by
  induction k generalizing s with
  | done x info => rfl
  | matvec v k ih =>
    simp only [runKrylov, Krylov.run]
    rw [ih, multLin_eq G hw]
  | psolve v k ih =>
    simp only [runKrylov, Krylov.run]
    have h := preconLin_eq nrm tiny fwd P f hP v s
    rcases hr : preconLin nrm tiny fwd P v s with ⟨e | w, t⟩
    · rw [hr] at h; simp only [← h]
    · rw [hr] at h; simp only [← h]
      exact ih w t

/-- **C92, one run, no preconditioner.** -/
theorem C92_run_plain [LinearOrder K] (G : LinGroup ι π K) (hw : G.WF) (nrm : (ι → K) → K) (tiny : K) (fwd : Bool) (k : Krylov (ι → K)) (s : GSState ι π K) :
    (runKrylov G nrm tiny fwd none k s).1 = k.run (G.mul fwd) .ok := by
  induction k generalizing s with
  | done x info => rfl
  | matvec v k ih =>
    simp only [runKrylov, Krylov.run]
    rw [ih, multLin_eq G hw]
  | psolve v k ih =>
    simp only [runKrylov, Krylov.run]
    exact ih v s

theorem run_eq [LinearOrder K] (G : LinGroup ι π K) (hw : G.WF) (nrm : (ι → K) → K) (tiny : K) (fwd : Bool) (P : Option (LinSolver ι π K)) (M : (ι → K) → Except PyErr (ι → K)) (hM : PreconIs nrm tiny P M) (k : Krylov (ι → K)) (s : GSState ι π K) :
    (runKrylov G nrm tiny fwd P k s).1 = k.run (G.mul fwd) M := by
  cases P with
  | none => rw [show M = .ok from hM]; exact C92_run_plain G hw nrm tiny fwd k s
  | some P' =>
    obtain ⟨f, h1, h2⟩ := hM
    rw [h2]
    exact C92_run G hw nrm tiny fwd P' f h1 k s

/-- **C92.** When `ScipyGMRES.solve` returns, it returns for every right-hand side, in order, exactly the vector that scipy's `gmres` computes for the matrix of the group, with the message of a failure when `info > 0`. -/
theorem C92_solution [LinearOrder K] [DecidableEq V] (G : LinGroup ι π K) (hw : G.WF) (nrm : (ι → K) → K) (tiny : K) (fwd : Bool) (P : Option (LinSolver ι π K)) (M : (ι → K) → Except PyErr (ι → K)) (hM : PreconIs nrm tiny P M)
    (prog : (ι → K) → Krylov (ι → K)) (errOnMax : Bool) (rhs : List (V × (ι → K))) (st : V → GSState ι π K) (l : List (V × (ι → K) × Bool))
    (h : (gmresLoop G nrm tiny fwd P prog errOnMax rhs st).1 = .ok l) :
    List.Forall₂ (fun p q => q.1 = p.1 ∧ ∃ info : Int, 0 ≤ info ∧ (prog p.2).run (G.mul fwd) M = .ok (q.2.1, info) ∧ q.2.2 = decide (0 < info)) rhs l := by
  induction rhs generalizing st l with
  | nil => simp only [gmresLoop, Except.ok.injEq] at h; subst h; exact .nil
  | cons p rest ih =>
    obtain ⟨voi, r⟩ := p
    have hr := run_eq G hw nrm tiny fwd P M hM (prog r) (st voi)
    simp only [gmresLoop] at h
    rcases hk : runKrylov G nrm tiny fwd P (prog r) (st voi) with ⟨e | ⟨x, info⟩, t⟩
    · rw [hk] at h; cases h
    · rw [hk] at h hr
      simp only at h hr
      split at h
      · cases h
      · split at h
        · cases h
        · rename_i hneg
          rcases hg : gmresLoop G nrm tiny fwd P prog errOnMax rest (Function.update st voi t) with ⟨e | l', st2⟩
          · rw [hg] at h; cases h
          · rw [hg] at h
            simp only [Except.ok.injEq] at h
            subst h
            exact .cons ⟨rfl, info, Int.not_lt.1 hneg, hr.symm, rfl⟩ (ih (Function.update st voi t) l' (by rw [hg]))

/-- **C92, convergence.** If scipy's `gmres` keeps its promise, a solution returned without a failure message has the residual of the group's linear system below the tolerance. -/
theorem C92_converged [LinearOrder K] [DecidableEq V] (G : LinGroup ι π K) (hw : G.WF) (nrm : (ι → K) → K) (tiny tol : K) (fwd : Bool) (P : Option (LinSolver ι π K)) (M : (ι → K) → Except PyErr (ι → K)) (hM : PreconIs nrm tiny P M)
    (prog : (ι → K) → Krylov (ι → K)) (hg : GmresContract nrm tol prog) (errOnMax : Bool) (rhs : List (V × (ι → K))) (st : V → GSState ι π K) (l : List (V × (ι → K) × Bool))
    (h : (gmresLoop G nrm tiny fwd P prog errOnMax rhs st).1 = .ok l) :
    List.Forall₂ (fun p q => q.1 = p.1 ∧ (q.2.2 = false →
      nrm (fun i => p.2 i - G.mul fwd q.2.1 i) ≤ tol * nrm p.2 ∨ nrm (fun i => p.2 i - G.mul fwd q.2.1 i) ≤ tol)) rhs l := by
  refine (C92_solution G hw nrm tiny fwd P M hM prog errOnMax rhs st l h).imp fun p q hpq => ⟨hpq.1, fun hf => ?_⟩
  obtain ⟨info, h0, hrun, hd⟩ := hpq.2
  rw [hf] at hd
  have : info = 0 := by
    have := of_decide_eq_false hd.symm
    omega
  subst this
  exact hg _ _ _ _ hrun

/-- **C93.** With `err_on_maxiter` set, `ScipyGMRES.solve` returns only converged solutions. -/
theorem C93_err_on_maxiter [LinearOrder K] [DecidableEq V] (G : LinGroup ι π K) (nrm : (ι → K) → K) (tiny : K) (fwd : Bool) (P : Option (LinSolver ι π K)) (prog : (ι → K) → Krylov (ι → K)) (rhs : List (V × (ι → K))) (st : V → GSState ι π K)
    (l : List (V × (ι → K) × Bool)) (h : (gmresLoop G nrm tiny fwd P prog true rhs st).1 = .ok l) : ∀ q ∈ l, q.2.2 = false := by
  induction rhs generalizing st l with
  | nil => simp only [gmresLoop, Except.ok.injEq] at h; subst h; simp
  | cons p rest ih =>
    obtain ⟨voi, r⟩ := p
    simp only [gmresLoop] at h
    rcases hk : runKrylov G nrm tiny fwd P (prog r) (st voi) with ⟨e | ⟨x, info⟩, t⟩
    · rw [hk] at h; cases h
    · rw [hk] at h
      simp only [and_true] at h
      split at h
      · cases h
      · rename_i hpos
        split at h
        · cases h
        · rcases hg : gmresLoop G nrm tiny fwd P prog true rest (Function.update st voi t) with ⟨e | l', st2⟩
          · rw [hg] at h; cases h
          · rw [hg] at h
            simp only [Except.ok.injEq] at h
            subst h
            intro q hq
            rcases List.mem_cons.1 hq with rfl | hq
            · simpa using hpos
            · exact ih (Function.update st voi t) l' (by rw [hg]) q hq

/-- **C93, failures.** `ScipyGMRES.solve` raises exactly for the first right-hand side for which `gmres` reports a breakdown (`RuntimeError`), or no convergence with `err_on_maxiter` set (`AnalysisError`), or for which the preconditioner raises. -/
theorem C93_raises_iff [LinearOrder K] [DecidableEq V] (G : LinGroup ι π K) (hw : G.WF) (nrm : (ι → K) → K) (tiny : K) (fwd : Bool) (P : Option (LinSolver ι π K)) (M : (ι → K) → Except PyErr (ι → K)) (hM : PreconIs nrm tiny P M)
    (prog : (ι → K) → Krylov (ι → K)) (errOnMax : Bool) (rhs : List (V × (ι → K))) (st : V → GSState ι π K) (e : PyErr) :
    (gmresLoop G nrm tiny fwd P prog errOnMax rhs st).1 = .error e ↔
      ∃ pre p post, rhs = pre ++ p :: post ∧ (∀ q ∈ pre, Passes (G.mul fwd) M prog errOnMax q.2) ∧ FailsWith (G.mul fwd) M prog errOnMax p.2 e := by
  induction rhs generalizing st with
  | nil => simp [gmresLoop]
  | cons p rest ih =>
    obtain ⟨voi, r⟩ := p
    have hr := run_eq G hw nrm tiny fwd P M hM (prog r) (st voi)
    have split_iff : ∀ Q : Prop, (FailsWith (G.mul fwd) M prog errOnMax r e ∨ (Passes (G.mul fwd) M prog errOnMax r ∧ ∃ pre p post, rest = pre ++ p :: post ∧ (∀ q ∈ pre, Passes (G.mul fwd) M prog errOnMax q.2) ∧ FailsWith (G.mul fwd) M prog errOnMax p.2 e) ↔ Q) →
        ((∃ pre p post, (voi, r) :: rest = pre ++ p :: post ∧ (∀ q ∈ pre, Passes (G.mul fwd) M prog errOnMax q.2) ∧ FailsWith (G.mul fwd) M prog errOnMax p.2 e) ↔ Q) := by
      intro Q hQ
      rw [← hQ]
      constructor
      · rintro ⟨pre, p, post, h1, h2, h3⟩
        cases pre with
        | nil =>
          simp only [List.nil_append, List.cons.injEq] at h1
          obtain ⟨rfl, rfl⟩ := h1
          exact Or.inl h3
        | cons a pre =>
          simp only [List.cons_append, List.cons.injEq] at h1
          obtain ⟨rfl, h1⟩ := h1
          exact Or.inr ⟨h2 _ List.mem_cons_self, pre, p, post, h1, fun q hq => h2 q (List.mem_cons_of_mem _ hq), h3⟩
      · rintro (h | ⟨h0, pre, p, post, h1, h2, h3⟩)
        · exact ⟨[], _, rest, rfl, by simp, h⟩
        · refine ⟨(voi, r) :: pre, p, post, by rw [h1]; rfl, ?_, h3⟩
          intro q hq
          rcases List.mem_cons.1 hq with rfl | hq
          · exact h0
          · exact h2 q hq
    refine (split_iff _ ?_).symm
    simp only [gmresLoop]
    rcases hk : runKrylov G nrm tiny fwd P (prog r) (st voi) with ⟨e' | ⟨x, info⟩, t⟩
    · rw [hk] at hr
      simp only at hr
      simp only [FailsWith, Passes, ← hr]
      simp [eq_comm]
    · rw [hk] at hr
      simp only at hr
      rw [← ih (Function.update st voi t)]
      simp only [FailsWith, Passes, ← hr]
      by_cases hp : 0 < info ∧ errOnMax = true
      · rw [if_pos hp]
        have h1 : ¬ info < 0 := by omega
        have h2 : info ≠ 0 := by omega
        simp [hp.1, hp.2, h1, h2, eq_comm]
      · rw [if_neg hp]
        by_cases hn : info < 0
        · rw [if_pos hn]
          have h1 : ¬ 0 < info := by omega
          have h2 : ¬ 0 ≤ info := by omega
          simp [hn, h1, h2, eq_comm]
        · rw [if_neg hn]
          have h0 : 0 ≤ info := by omega
          have h1 : errOnMax = true → info = 0 := fun he => by
            have : ¬ 0 < info := fun h => hp ⟨h, he⟩
            omega
          have hA : (∃ x' info', (Except.ok (x, info) : Except PyErr ((ι → K) × Int)) = .ok (x', info') ∧ 0 ≤ info' ∧ (errOnMax = true → info' = 0)) := ⟨x, info, rfl, h0, h1⟩
          have hB : ¬ ((Except.ok (x, info) : Except PyErr ((ι → K) × Int)) = .error e ∨ ∃ x' info', (Except.ok (x, info) : Except PyErr ((ι → K) × Int)) = .ok (x', info') ∧
              ((0 < info' ∧ errOnMax = true ∧ e = .AnalysisError) ∨ (info' < 0 ∧ e = .RuntimeError))) := by
            rintro (h | ⟨x', info', h, h2⟩)
            · cases h
            · simp only [Except.ok.injEq, Prod.mk.injEq] at h
              obtain ⟨rfl, rfl⟩ := h
              rcases h2 with ⟨h3, h4, _⟩ | ⟨h3, _⟩
              · exact hp ⟨h3, h4⟩
              · exact hn h3
          rw [or_iff_right hB, and_iff_right hA]
          rcases hg : gmresLoop G nrm tiny fwd P prog errOnMax rest (Function.update st voi t) with ⟨e' | l', st2⟩
          · simp
          · simp

/-! ## C94 -/

theorem foldl_zero [DecidableEq V] (l : List V) (sol : V → ι → K) (v : V) :
    (l.foldl (fun s v => Function.update s v fun _ => (0 : K)) sol) v = if v ∈ l then fun _ => 0 else sol v := by
  induction l generalizing sol with
  | nil => simp
  | cons a l ih =>
    rw [List.foldl_cons, ih]
    by_cases hl : v ∈ l
    · simp [hl]
    · by_cases ha : v = a
      · subst ha; simp [hl]
      · simp [hl, ha]

theorem foldlM_store [DecidableEq V] (out : List (V × (ι → K))) (l : List V) (sol sol' : V → ι → K) (h : l.foldlM (storeSol out) sol = .ok sol') (v : V) :
    if v ∈ l then out.lookup v = some (sol' v) else sol' v = sol v := by
  induction l generalizing sol with
  | nil =>
    simp only [List.foldlM_nil, pure, Except.pure, Except.ok.injEq] at h
    subst h; simp
  | cons a l ih =>
    rw [List.foldlM_cons] at h
    cases hw : storeSol out sol a with
    | error e => rw [hw] at h; cases h
    | ok s1 =>
      rw [hw] at h
      have := ih s1 h
      unfold storeSol at hw
      split at hw
      · cases hw
      · rename_i x hx
        simp only [Except.ok.injEq] at hw
        subst hw
        by_cases hl : v ∈ l
        · simp only [hl, if_true] at this
          simp [hl, this]
        · simp only [hl, if_false] at this
          by_cases ha : v = a
          · subst ha
            simp only [Function.update_self] at this
            simp [this, hx]
          · simp only [ne_eq, ha, not_false_eq_true, Function.update_of_ne] at this
            simp [hl, ha, this]

theorem foldlM_store_ok [DecidableEq V] (out : List (V × (ι → K))) (l : List V) (sol : V → ι → K) (h : ∀ v ∈ l, (out.lookup v).isSome) : ∃ sol', l.foldlM (storeSol out) sol = .ok sol' := by
  induction l generalizing sol with
  | nil => exact ⟨sol, rfl⟩
  | cons a l ih =>
    obtain ⟨x, hx⟩ := Option.isSome_iff_exists.1 (h a List.mem_cons_self)
    obtain ⟨s', hs'⟩ := ih (Function.update sol a x) fun v hv => h v (List.mem_cons_of_mem _ hv)
    refine ⟨s', ?_⟩
    rw [List.foldlM_cons]
    simp only [storeSol, hx, bind, Except.bind]
    exact hs'

/-- **C94, groups with user derivatives.** After `Group.solve_linear` every variable of interest has the answer of the group's linear solver for its own right-hand side, or zero when the right-hand side is below 1e-15; other variables of interest keep
their vectors. -/
theorem C94_user [LinearOrder K] [DecidableEq V] (nrm : (ι → K) → K) (tiny : K) (solver : List (V × (ι → K)) → Except PyErr (List (V × (ι → K)))) (vois : List V) (rhs sol sol' : V → ι → K) (Good : (ι → K) → (ι → K) → Prop)
    (hs : ∀ l out, solver l = .ok out → ∀ v r x, (v, r) ∈ l → out.lookup v = some x → Good r x)
    (h : groupSolveLinear true nrm tiny solver vois rhs sol = .ok sol') :
    (∀ v ∈ vois, if nrm (rhs v) < tiny then sol' v = fun _ => 0 else Good (rhs v) (sol' v)) ∧ ∀ v, v ∉ vois → sol' v = sol v := by
  simp only [groupSolveLinear, if_true] at h
  have hz : ∀ v, ((vois.filter fun v => decide (nrm (rhs v) < tiny)).foldl (fun s v => Function.update s v fun _ => (0 : K)) sol) v = if v ∈ vois ∧ nrm (rhs v) < tiny then fun _ => 0 else sol v := by
    intro v
    rw [foldl_zero]
    simp [List.mem_filter]
  split at h
  · rename_i he
    simp only [Except.ok.injEq] at h
    subst h
    have he' : ∀ v ∈ vois, nrm (rhs v) < tiny := by
      intro v hv
      rw [List.isEmpty_iff, List.filter_eq_nil_iff] at he
      simpa using he v hv
    constructor
    · intro v hv
      rw [if_pos (he' v hv), hz, if_pos ⟨hv, he' v hv⟩]
    · intro v hv
      rw [hz, if_neg fun h => hv h.1]
  · split at h
    · cases h
    · rename_i out ho
      have hst := foldlM_store out _ _ _ h
      constructor
      · intro v hv
        have := hst v
        by_cases ht : nrm (rhs v) < tiny
        · rw [if_neg (by simp [ht]), hz, if_pos ⟨hv, ht⟩] at this
          rw [if_pos ht, this]
        · have hm : v ∈ vois.filter fun v => !decide (nrm (rhs v) < tiny) := by simp [hv, ht]
          rw [if_pos hm] at this
          rw [if_neg ht]
          exact hs _ _ ho v (rhs v) _ (List.mem_map.2 ⟨v, hm, rfl⟩) this
      · intro v hv
        have := hst v
        rw [if_neg (by simp [hv]), hz, if_neg fun h => hv h.1] at this
        exact this

/-- **C94, no spurious failure.** If the solver answers every right-hand side it is given, `solve_linear` succeeds; if the solver raises, the exception reaches the caller. -/
theorem C94_error_iff [LinearOrder K] [DecidableEq V] (nrm : (ι → K) → K) (tiny : K) (solver : List (V × (ι → K)) → Except PyErr (List (V × (ι → K)))) (vois : List V) (rhs sol : V → ι → K)
    (hs : ∀ l out, solver l = .ok out → ∀ p ∈ l, (out.lookup p.1).isSome) (e : PyErr) :
    groupSolveLinear true nrm tiny solver vois rhs sol = .error e ↔
      ∃ l, l ≠ [] ∧ l.map Prod.fst = vois.filter (fun v => !decide (nrm (rhs v) < tiny)) ∧ (∀ p ∈ l, p.2 = rhs p.1) ∧ solver l = .error e := by
  have huniq : ∀ l : List (V × (ι → K)), l.map Prod.fst = vois.filter (fun v => !decide (nrm (rhs v) < tiny)) → (∀ p ∈ l, p.2 = rhs p.1) →
      l = (vois.filter fun v => !decide (nrm (rhs v) < tiny)).map fun v => (v, rhs v) := by
    intro l h1 h2
    rw [← h1, List.map_map]
    exact (List.map_id l).symm.trans (List.map_congr_left fun p hp => by simp [← h2 p hp])
  have hrhs : (∃ l, l ≠ [] ∧ l.map Prod.fst = vois.filter (fun v => !decide (nrm (rhs v) < tiny)) ∧ (∀ p ∈ l, p.2 = rhs p.1) ∧ solver l = .error e) ↔
      (vois.filter fun v => !decide (nrm (rhs v) < tiny)) ≠ [] ∧ solver ((vois.filter fun v => !decide (nrm (rhs v) < tiny)).map fun v => (v, rhs v)) = .error e := by
    constructor
    · rintro ⟨l, h0, h1, h2, h3⟩
      rw [← huniq l h1 h2]
      exact ⟨by rw [← h1]; simpa using h0, h3⟩
    · rintro ⟨h1, h2⟩
      exact ⟨_, by simpa using h1, by simp [List.map_map, Function.comp_def], by
        intro p hp
        obtain ⟨v, _, rfl⟩ := List.mem_map.1 hp
        rfl, h2⟩
  rw [hrhs]
  simp only [groupSolveLinear, if_true]
  split
  · rename_i he
    rw [List.isEmpty_iff] at he
    simp [he]
  · rename_i he
    rw [List.isEmpty_iff] at he
    simp only [ne_eq, he, not_false_eq_true, true_and]
    split
    · rename_i e' ho
      simp [ho]
    · rename_i out ho
      obtain ⟨s', hs'⟩ := foldlM_store_ok out (vois.filter fun v => !decide (nrm (rhs v) < tiny)) _ (fun v hv => hs _ _ ho (v, rhs v) (List.mem_map.2 ⟨v, hv, rfl⟩))
      rw [hs', ho]
      simp

/-- **C94, groups that are finite-differenced, one variable of interest.** The linearised group is `-du + J dp`, so the solution is `-rhs`. -/
theorem C94_fd_partial [LinearOrder K] [DecidableEq V] (nrm : (ι → K) → K) (tiny : K) (solver : List (V × (ι → K)) → Except PyErr (List (V × (ι → K)))) (v : V) (rhs sol : V → ι → K) :
    ∃ sol', groupSolveLinear false nrm tiny solver [v] rhs sol = .ok sol' ∧ (∀ i, sol' v i = - rhs v i) ∧ ∀ w, w ≠ v → sol' w = sol w := by
  refine ⟨_, rfl, ?_, ?_⟩
  · intro i; simp
  · intro w hw; simp [hw]

/-- **C94 is false for several variables of interest**: in a group with a finite-difference type, `return` is inside the loop, so the second variable of interest keeps what happened to be in its solution vector. -/
theorem C94_fd_refuted : ∃ (vois : List Bool) (rhs sol : Bool → Fin 1 → ℚ), vois.Nodup ∧
    ∀ (nrm : (Fin 1 → ℚ) → ℚ) (tiny : ℚ) (solver : List (Bool × (Fin 1 → ℚ)) → Except PyErr (List (Bool × (Fin 1 → ℚ)))),
      ∃ sol', groupSolveLinear false nrm tiny solver vois rhs sol = .ok sol' ∧ ∃ v ∈ vois, sol' v ≠ fun i => - rhs v i := by
  refine ⟨[true, false], fun _ _ => 1, fun _ _ => 0, by decide, fun nrm tiny solver => ⟨_, rfl, false, by simp, ?_⟩⟩
  intro h
  have := congrFun h 0
  simp at this

theorem forall2_lookup [DecidableEq V] {Q : (ι → K) → (ι → K) → Prop} (l : List (V × (ι → K))) (m : List (V × (ι → K) × Bool)) (h : List.Forall₂ (fun p q => q.1 = p.1 ∧ Q p.2 q.2.1) l m) (hn : (l.map Prod.fst).Nodup) (v : V) (r x : ι → K)
    (hm : (v, r) ∈ l) (hx : (m.map fun q => (q.1, q.2.1)).lookup v = some x) : Q r x := by
  induction h with
  | nil => cases hm
  | @cons p q l m h1 h2 ih =>
    rw [List.map_cons, List.nodup_cons] at hn
    rw [List.map_cons, List.lookup_cons] at hx
    by_cases hv : v = p.1
    · have : (v == q.1) = true := by rw [h1.1, hv]; simp
      rw [this] at hx
      simp only [Option.some.injEq] at hx
      subst hx
      rcases List.mem_cons.1 hm with he | he
      · rw [← he] at h1; exact h1.2
      · exact absurd (List.mem_map.2 ⟨_, he, hv⟩) hn.1
    · have : (v == q.1) = false := by rw [h1.1]; simpa using hv
      rw [this] at hx
      rcases List.mem_cons.1 hm with he | he
      · exact absurd (by rw [← he]) hv
      · exact ih hn.2 he hx

/-- **C94 with ScipyGMRES.** In a group whose linear solver is `ScipyGMRES` with `err_on_maxiter`, a `solve_linear` that returns leaves for every variable of interest a vector whose residual in the group's linear system is below 1e-15 or below the
tolerance of the solver. -/
theorem C94_gmres [LinearOrder K] [DecidableEq V] (G : LinGroup ι π K) (hw : G.WF) (nrm : (ι → K) → K) (tiny tol : K) (fwd : Bool) (P : Option (LinSolver ι π K)) (M : (ι → K) → Except PyErr (ι → K)) (hM : PreconIs nrm tiny P M)
    (prog : (ι → K) → Krylov (ι → K)) (hg : GmresContract nrm tol prog) (st : V → GSState ι π K) (vois : List V) (hn : vois.Nodup) (rhs sol sol' : V → ι → K)
    (h : groupSolveLinear true nrm tiny (fun l => gmresAnswers (gmresLoop G nrm tiny fwd P prog true l st).1) vois rhs sol = .ok sol') (v : V) (hv : v ∈ vois) :
    nrm (fun i => rhs v i - G.mul fwd (sol' v) i) < tiny ∨ nrm (fun i => rhs v i - G.mul fwd (sol' v) i) ≤ tol * nrm (rhs v) ∨ nrm (fun i => rhs v i - G.mul fwd (sol' v) i) ≤ tol := by
  have hs : ∀ l : List (V × (ι → K)), (l.map Prod.fst).Nodup → ∀ out, gmresAnswers (gmresLoop G nrm tiny fwd P prog true l st).1 = .ok out → ∀ v r x, (v, r) ∈ l → out.lookup v = some x →
      nrm (fun i => r i - G.mul fwd x i) ≤ tol * nrm r ∨ nrm (fun i => r i - G.mul fwd x i) ≤ tol := by
    intro l hnd out ho v r x hm hx
    cases hl : (gmresLoop G nrm tiny fwd P prog true l st).1 with
    | error e => rw [hl] at ho; cases ho
    | ok m =>
      rw [hl] at ho
      simp only [gmresAnswers, Except.ok.injEq] at ho
      subst ho
      have h1 := C92_converged G hw nrm tiny tol fwd P M hM prog hg true l st m hl
      have h2 := C93_err_on_maxiter G nrm tiny fwd P prog l st m hl
      have h3 : List.Forall₂ (fun p q => q.1 = p.1 ∧ (nrm (fun i => p.2 i - G.mul fwd q.2.1 i) ≤ tol * nrm p.2 ∨ nrm (fun i => p.2 i - G.mul fwd q.2.1 i) ≤ tol)) l m := by
        clear hl hm hx hnd
        induction h1 with
        | nil => exact .nil
        | cons a b ih => exact .cons ⟨a.1, a.2 (h2 _ List.mem_cons_self)⟩ (ih fun q hq => h2 q (List.mem_cons_of_mem _ hq))
      exact forall2_lookup (Q := fun r x => nrm (fun i => r i - G.mul fwd x i) ≤ tol * nrm r ∨ nrm (fun i => r i - G.mul fwd x i) ≤ tol) l m h3 hnd v r x hm hx
  have hz : ∀ r : ι → K, nrm r < tiny → nrm (fun i => r i - G.mul fwd (fun _ => 0) i) < tiny := by
    intro r hr
    have : (fun i => r i - G.mul fwd (fun _ => 0) i) = r := by
      funext i
      cases fwd <;> simp [LinGroup.mul]
    rw [this]; exact hr
  let solver : List (V × (ι → K)) → Except PyErr (List (V × (ι → K))) := fun l => if (l.map Prod.fst).Nodup then gmresAnswers (gmresLoop G nrm tiny fwd P prog true l st).1 else .error .KeyError
  have hsame : groupSolveLinear true nrm tiny solver vois rhs sol = .ok sol' := by
    rw [← h]
    have hnd : (((vois.filter fun v => !decide (nrm (rhs v) < tiny)).map fun v => (v, rhs v)).map Prod.fst).Nodup := by
      rw [List.map_map]
      have : (Prod.fst ∘ fun v : V => (v, rhs v)) = id := rfl
      rw [this, List.map_id]
      exact hn.filter _
    simp only [groupSolveLinear, if_true, solver, hnd]
  obtain ⟨h1, _⟩ := C94_user nrm tiny solver vois rhs sol sol' (fun r x => nrm (fun i => r i - G.mul fwd x i) ≤ tol * nrm r ∨ nrm (fun i => r i - G.mul fwd x i) ≤ tol)
    (by
      intro l out ho v r x hm hx
      simp only [solver] at ho
      split at ho
      · rename_i hnd
        exact hs l hnd out ho v r x hm hx
      · cases ho) hsame
  have := h1 v hv
  split at this
  · rename_i ht
    left
    rw [this]
    exact hz _ ht
  · exact Or.inr this

/-! ## The hypotheses are met -/

/-- Two explicit components that feed each other. -/
def gmG : LinGroup (Fin 2) (Fin 2) ℚ where
  owner := fun i => i.val
  powner := fun k => k.val
  src := fun k => if k = 0 then 1 else 0
  jp := fun i k => if i = k then (if i = 0 then 1 / 2 else 3) else 0
  js := fun _ _ => 0
  expl := fun _ => true

def gmNrm (v : Fin 2 → ℚ) : ℚ := |v 0| + |v 1|

/-- A program that tries one vector found with the preconditioner and checks it. -/
def gmProg (rhs : Fin 2 → ℚ) : Krylov (Fin 2 → ℚ) :=
  .psolve rhs fun x => .matvec x fun Ax => if Ax 0 = rhs 0 ∧ Ax 1 = rhs 1 then .done x 0 else .done x 1

theorem gmG_wf : gmG.WF := by
  refine ⟨?_, ?_⟩
  · intro i k; fin_cases i <;> fin_cases k <;> simp [gmG]
  · intro i j _; rfl

theorem gmProg_contract : GmresContract gmNrm (1 / 1000) gmProg := by
  intro A M rhs x h
  simp only [gmProg, Krylov.run] at h
  split at h
  · cases h
  · rename_i w hw
    split at h
    · rename_i hA
      simp only [Krylov.run, Except.ok.injEq, Prod.mk.injEq, and_true] at h
      subst h
      right
      simp [gmNrm, hA.1, hA.2]
    · simp [Krylov.run] at h

/-- An exact preconditioner: the inverse of `A = [[-1, 1/2], [3, -1]]`. -/
def gmPre : LinSolver (Fin 2) (Fin 2) ℚ := fun r s => (.ok fun i => if i = 0 then 2 * r 0 + r 1 else 6 * r 0 + 2 * r 1, ⟨s.dr, s.du, s.dp⟩)

example : PreconIs gmNrm (1 / 10 ^ 15) (some gmPre) (preconOf gmNrm (1 / 10 ^ 15) fun r => .ok fun i => if i = 0 then 2 * r 0 + r 1 else 6 * r 0 + 2 * r 1) := ⟨_, fun _ _ => rfl, rfl⟩

/-- Two right-hand sides and one that is zero, with stale vectors: `solve_linear` returns, and the solution of the first is exact. -/
example : (match groupSolveLinear true gmNrm (1 / 10 ^ 15) (fun l => gmresAnswers (gmresLoop gmG gmNrm (1 / 10 ^ 15) true (some gmPre) gmProg true l fun _ => ⟨fun _ => 7, fun _ => 8, fun _ => 9⟩).1)
    [0, 1, 2] (fun v : Fin 3 => if v = 1 then fun _ => 0 else fun i => if i = 0 then 1 else (v.val : ℚ)) (fun _ _ => 5) with
    | .ok sol' => decide (sol' 0 0 = 2 ∧ sol' 1 0 = 0 ∧ sol' 2 1 = 10)
    | .error _ => false) = true := by decide +kernel

/-- Without a preconditioner the program does not converge: the solve raises `AnalysisError`. -/
example : FailsWith (gmG.mul true) .ok gmProg true (fun _ => 1) .AnalysisError := by
  refine Or.inr ⟨fun _ => 1, 1, ?_, Or.inl ⟨by norm_num, rfl, rfl⟩⟩
  simp [gmProg, Krylov.run, LinGroup.mul, LinGroup.A, gmG, Fin.sum_univ_two]
  norm_num [Krylov.run]

/-- C91 on a case where the states differ: reverse mode, two sweeps. -/
example : (∀ i, gmG.owner i ∈ [0, 1]) ∧ (lnSolve gmG ⟨fun _ r i => -r i, fun _ s => s⟩ gmNrm ⟨1 / 10, 1 / 10, 2⟩ (fun _ => 1) [0, 1] false ⟨fun _ => 7, fun _ => 8, fun _ => 9⟩).iters = 2 := by
  constructor
  · intro i; fin_cases i <;> simp [gmG]
  · decide +kernel

end OpenMDAO
