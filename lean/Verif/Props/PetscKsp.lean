import Verif.Spec.PetscKsp
import Verif.Props.Gmres
/-!
# C162: what PetscKSP reports about a linear solve

`Ksp.run` is a run of PETSc's `KSP.solve` on a fixed operator, with the calls it makes to the monitor; `KspContract` is what PETSc promises.
-/
namespace OpenMDAO
set_option linter.unusedSectionVars false

variable {ι π K V : Type} [Fintype ι] [Fintype π] [DecidableEq ι] [Field K]

theorem runKsp_spec [LinearOrder K] (G : LinGroup ι π K) (hw : G.WF) (nrm : (ι → K) → K) (tiny : K) (fwd : Bool) (P : Option (LinSolver ι π K)) (M : (ι → K) → Except PyErr (ι → K)) (hM : PreconIs nrm tiny P M)
    (k : Ksp (ι → K) K) (s : KspState ι π K) :
    match k.run (G.mul fwd) M with
    | .error e => (runKsp G nrm tiny fwd P k s).1 = .error e
    | .ok (x, reason, calls) => (runKsp G nrm tiny fwd P k s).1 = .ok (x, reason) ∧ (runKsp G nrm tiny fwd P k s).2.iters = s.iters + calls.length ∧
        (runKsp G nrm tiny fwd P k s).2.mon = calls.foldl (fun m c => m.call c.1 c.2) s.mon := by
  induction k generalizing s with
  | done x reason => exact ⟨rfl, rfl, rfl⟩
  | matvec v k ih =>
    have := ih (G.mul fwd v) { s with vec := (multLin G fwd v s.vec).2 }
    simp only [runKsp, Ksp.run]
    rw [multLin_eq G hw]
    exact this
  | psolve v k ih =>
    cases P with
    | none =>
      have hM' : M = .ok := hM
      subst hM'
      simp only [runKsp, Ksp.run]
      exact ih v s
    | some P' =>
      obtain ⟨f, hf, rfl⟩ := hM
      have h := preconLin_eq nrm tiny fwd P' f hf v s.vec
      simp only [runKsp, Ksp.run]
      rcases hr : preconLin nrm tiny fwd P' v s.vec with ⟨e | w, t⟩
      · rw [hr] at h; simp only [← h]
      · rw [hr] at h; simp only [← h]
        exact ih w { s with vec := t }
  | monitor c r k ih =>
    have := ih { s with iters := s.iters + 1, mon := s.mon.call c r }
    simp only [runKsp, Ksp.run]
    rcases hk : k.run (G.mul fwd) M with e | ⟨x, reason, calls⟩
    · rw [hk] at this; exact this
    · rw [hk] at this
      simp only at this ⊢
      refine ⟨this.1, ?_, this.2.2⟩
      rw [this.2.1, List.length_cons]; omega

/-- **C162, the answers.** Each right-hand side gets the vector that PETSc computes with the fixed matrix of the group (its transpose in reverse mode) and the fixed preconditioner, whatever earlier solves left in the vectors, the counter and the monitors.
The message counts the calls of the monitor and says FAILED exactly when there were `maxiter` of them; it is printed when `iprint` is positive, and for a failure also when it is 0. -/
theorem C162_solution [LinearOrder K] [DecidableEq V] (G : LinGroup ι π K) (hw : G.WF) (nrm : (ι → K) → K) (tiny : K) (fwd : Bool) (P : Option (LinSolver ι π K)) (M : (ι → K) → Except PyErr (ι → K)) (hM : PreconIs nrm tiny P M)
    (prog : (ι → K) → Ksp (ι → K) K) (o : KspOpts) (rhs : List (V × (ι → K))) (st : V → KspState ι π K) (l : List (V × (ι → K) × KspMsg))
    (h : (kspLoop G nrm tiny fwd P prog o rhs st).1 = .ok l) :
    List.Forall₂ (fun p q => q.1 = p.1 ∧ ∃ reason calls, (prog p.2).run (G.mul fwd) M = .ok (q.2.1, reason, calls) ∧ q.2.2.iters = calls.length ∧ (q.2.2.failed = true ↔ o.maxiter ≤ calls.length) ∧
      (q.2.2.printed = true ↔ 0 < o.iprint ∨ (o.iprint = 0 ∧ o.maxiter ≤ calls.length)) ∧ (o.errOnMax = true → calls.length < o.maxiter)) rhs l := by
  induction rhs generalizing st l with
  | nil => simp only [kspLoop, Except.ok.injEq] at h; subst h; exact .nil
  | cons p rest ih =>
    obtain ⟨voi, r⟩ := p
    have hr := runKsp_spec G hw nrm tiny fwd P M hM (prog r) { st voi with iters := 0 }
    simp only [kspLoop] at h
    rcases hk : runKsp G nrm tiny fwd P (prog r) { st voi with iters := 0 } with ⟨e | ⟨x, reason⟩, t⟩
    · rw [hk] at h; cases h
    · rw [hk] at h hr
      rcases hn : (prog r).run (G.mul fwd) M with e | ⟨x', reason', calls⟩
      · rw [hn] at hr; cases hr
      · rw [hn] at hr
        simp only [Except.ok.injEq, Prod.mk.injEq, Nat.zero_add] at hr h
        obtain ⟨⟨rfl, rfl⟩, h2, -⟩ := hr
        split at h
        · cases h
        · rename_i hnf
          rcases hl : kspLoop G nrm tiny fwd P prog o rest (Function.update st voi t) with ⟨e | l', st2⟩
          · rw [hl] at h; cases h
          · rw [hl] at h
            simp only [Except.ok.injEq] at h
            subst h
            refine .cons ⟨rfl, reason, calls, hn, ?_⟩ (ih _ l' (by rw [hl]))
            rw [h2] at hnf ⊢
            simp only [kspMsg, decide_eq_true_eq, Bool.or_eq_true, Bool.and_eq_true] at hnf ⊢
            refine ⟨trivial, trivial, ?_, ?_⟩
            · constructor
              · rintro (h | ⟨h1, h2⟩)
                · exact .inl h
                · by_cases h0 : 0 < o.iprint
                  · exact .inl h0
                  · exact .inr ⟨by omega, h1⟩
              · rintro (h | ⟨h1, h2⟩)
                · exact .inl h
                · exact .inr ⟨h2, by omega⟩
            · intro he
              by_contra hc
              exact hnf ⟨by omega, he⟩

/-- **C162, exceptions.** The solve raises exactly when the preconditioner raises, or `err_on_maxiter` is set and the monitor was called `maxiter` times, for the first such right-hand side. -/
theorem C162_raises_iff [LinearOrder K] [DecidableEq V] (G : LinGroup ι π K) (hw : G.WF) (nrm : (ι → K) → K) (tiny : K) (fwd : Bool) (P : Option (LinSolver ι π K)) (M : (ι → K) → Except PyErr (ι → K)) (hM : PreconIs nrm tiny P M)
    (prog : (ι → K) → Ksp (ι → K) K) (o : KspOpts) (rhs : List (V × (ι → K))) (st : V → KspState ι π K) (e : PyErr) :
    (kspLoop G nrm tiny fwd P prog o rhs st).1 = .error e ↔
      ∃ pre p post, rhs = pre ++ p :: post ∧ (∀ q ∈ pre, KspPasses (G.mul fwd) M prog o.maxiter o.errOnMax q.2) ∧ KspFails (G.mul fwd) M prog o.maxiter o.errOnMax p.2 e := by
  induction rhs generalizing st with
  | nil => simp [kspLoop]
  | cons p rest ih =>
    obtain ⟨voi, r⟩ := p
    have hr := runKsp_spec G hw nrm tiny fwd P M hM (prog r) { st voi with iters := 0 }
    have hsplit : (∃ pre p post, (voi, r) :: rest = pre ++ p :: post ∧ (∀ q ∈ pre, KspPasses (G.mul fwd) M prog o.maxiter o.errOnMax q.2) ∧ KspFails (G.mul fwd) M prog o.maxiter o.errOnMax p.2 e) ↔
        KspFails (G.mul fwd) M prog o.maxiter o.errOnMax r e ∨ (KspPasses (G.mul fwd) M prog o.maxiter o.errOnMax r ∧
          ∃ pre p post, rest = pre ++ p :: post ∧ (∀ q ∈ pre, KspPasses (G.mul fwd) M prog o.maxiter o.errOnMax q.2) ∧ KspFails (G.mul fwd) M prog o.maxiter o.errOnMax p.2 e) := by
      constructor
      · rintro ⟨pre, p, post, h1, h2, h3⟩
        cases pre with
        | nil =>
          simp only [List.nil_append, List.cons.injEq] at h1
          obtain ⟨rfl, rfl⟩ := h1
          exact Or.inl h3
        | cons a pre =>
          simp only [List.cons_append, List.cons.injEq] at h1
          obtain ⟨rfl, h1⟩ := h1
          exact Or.inr ⟨h2 _ List.mem_cons_self, pre, p, post, h1, fun q hq => h2 q (List.mem_cons_of_mem _ hq), h3⟩
      · rintro (h | ⟨h0, pre, p, post, h1, h2, h3⟩)
        · exact ⟨[], _, rest, rfl, by simp, h⟩
        · refine ⟨(voi, r) :: pre, p, post, by rw [h1]; rfl, ?_, h3⟩
          intro q hq
          rcases List.mem_cons.1 hq with rfl | hq
          · exact h0
          · exact h2 q hq
    rw [hsplit]
    simp only [kspLoop]
    rcases hk : runKsp G nrm tiny fwd P (prog r) { st voi with iters := 0 } with ⟨e' | ⟨x, reason⟩, t⟩
    · rw [hk] at hr
      rcases hn : (prog r).run (G.mul fwd) M with e2 | ⟨x', reason', calls⟩
      · rw [hn] at hr
        simp only [Except.error.injEq] at hr
        subst hr
        simp [KspFails, KspPasses, hn]
      · rw [hn] at hr; cases hr.1
    · rw [hk] at hr
      rcases hn : (prog r).run (G.mul fwd) M with e2 | ⟨x', reason', calls⟩
      · rw [hn] at hr; cases hr
      · rw [hn] at hr
        simp only [Except.ok.injEq, Prod.mk.injEq, Nat.zero_add] at hr
        obtain ⟨⟨rfl, rfl⟩, h2, -⟩ := hr
        rw [← ih (Function.update st voi t)]
        simp only [KspFails, KspPasses, hn, kspMsg, h2, decide_eq_true_eq]
        by_cases hp : o.maxiter ≤ calls.length ∧ o.errOnMax = true
        · rw [if_pos hp]
          have : ¬ calls.length < o.maxiter := by omega
          simp [hp.1, hp.2, this, eq_comm]
        · rw [if_neg hp]
          have hq : o.errOnMax = true → calls.length < o.maxiter := fun he => by
            by_contra hc
            exact hp ⟨by omega, he⟩
          rcases hg : kspLoop G nrm tiny fwd P prog o rest (Function.update st voi t) with ⟨e' | l', st2⟩
          · constructor
            · intro h; exact .inr ⟨⟨x, reason, calls, rfl, hq⟩, h⟩
            · rintro (h | h)
              · rcases h with h | ⟨x2, r2, c2, h3, h4, h5, h6⟩
                · cases h
                · simp only [Except.ok.injEq, Prod.mk.injEq] at h3
                  obtain ⟨rfl, rfl, rfl⟩ := h3
                  exact absurd ⟨h5, h4⟩ hp
              · exact h.2
          · constructor
            · intro h; cases h
            · rintro (h | h)
              · rcases h with h | ⟨x2, r2, c2, h3, h4, h5, h6⟩
                · cases h
                · simp only [Except.ok.injEq, Prod.mk.injEq] at h3
                  obtain ⟨rfl, rfl, rfl⟩ := h3
                  exact absurd ⟨h5, h4⟩ hp
              · cases h.2

theorem length_of_range {l : List (Nat × K)} {n : Nat} (h : l.map Prod.fst = List.range n) : l.length = n := by
  have := congrArg List.length h
  simpa using this

/-- **C162 (partial), the report.** With PETSc's promise: the number in the message is the number of iterations plus one; a run that PETSc ended for reaching `maxiter` is reported as FAILED; and a run that is not reported as FAILED made fewer than
`maxiter - 1` iterations and either PETSc reported convergence and the residual is below one of the tolerances, or PETSc gave up for another reason. The last case is missing in the full claim, see the refutations. -/
theorem C162_report_partial [LinearOrder K] [DecidableEq V] (G : LinGroup ι π K) (hw : G.WF) (nrm : (ι → K) → K) (tiny atol rtol : K) (fwd : Bool) (P : Option (LinSolver ι π K)) (M : (ι → K) → Except PyErr (ι → K)) (hM : PreconIs nrm tiny P M)
    (prog : (ι → K) → Ksp (ι → K) K) (o : KspOpts) (hc : KspContract nrm atol rtol o.maxiter prog) (rhs : List (V × (ι → K))) (st : V → KspState ι π K) (l : List (V × (ι → K) × KspMsg))
    (h : (kspLoop G nrm tiny fwd P prog o rhs st).1 = .ok l) :
    List.Forall₂ (fun p q => q.1 = p.1 ∧ ∃ reason calls its, (prog p.2).run (G.mul fwd) M = .ok (q.2.1, reason, calls) ∧ calls.map Prod.fst = List.range (its + 1) ∧ q.2.2.iters = its + 1 ∧
      (reason = -3 → q.2.2.failed = true) ∧
      (q.2.2.failed = false → its + 1 < o.maxiter ∧ ((0 < reason ∧ (nrm (fun i => p.2 i - G.mul fwd q.2.1 i) ≤ atol ∨ nrm (fun i => p.2 i - G.mul fwd q.2.1 i) ≤ rtol * nrm p.2)) ∨ (reason < 0 ∧ reason ≠ -3)))) rhs l := by
  refine (C162_solution G hw nrm tiny fwd P M hM prog o rhs st l h).imp fun p q hpq => ⟨hpq.1, ?_⟩
  obtain ⟨reason, calls, hrun, hi, hf, -, -⟩ := hpq.2
  obtain ⟨its, -, hr⟩ := hc.numbered _ _ _ _ _ _ hrun
  have hlen := length_of_range hr
  have hlim : reason = -3 → q.2.2.failed = true := fun he => by
    rw [hf, length_of_range (hc.limit _ _ _ _ _ _ hrun he)]
    omega
  refine ⟨reason, calls, its, hrun, hr, by rw [hi, hlen], hlim, ?_⟩
  intro hff
  have hnot : ¬ o.maxiter ≤ calls.length := fun hle => by rw [hf.2 hle] at hff; cases hff
  refine ⟨by omega, ?_⟩
  rcases lt_trichotomy reason 0 with h0 | h0 | h0
  · exact .inr ⟨h0, fun he => by rw [hlim he] at hff; cases hff⟩
  · exact absurd h0 (hc.given _ _ _ _ _ _ hrun)
  · exact .inl ⟨h0, hc.converged _ _ _ _ _ _ hrun h0⟩

/-! ## The claim is false -/

/-- A number of monitor calls, counted from `c`. -/
def kspMons {W : Type} (r : K) : Nat → Nat → Ksp W K → Ksp W K
  | 0, _, k => k
  | n + 1, c, k => .monitor c r (kspMons r n (c + 1) k)

theorem kspMons_run {W : Type} (A : W → W) (M : W → Except PyErr W) (r : K) (n c : Nat) (x : W) (reason : Int) :
    ∃ calls, (kspMons r n c (.done x reason)).run A M = .ok (x, reason, calls) ∧ calls.map Prod.fst = List.range' c n := by
  induction n generalizing c with
  | zero => exact ⟨[], rfl, rfl⟩
  | succ n ih =>
    obtain ⟨calls, h1, h2⟩ := ih (c + 1)
    refine ⟨(c, r) :: calls, ?_, ?_⟩
    · simp only [kspMons, Ksp.run, h1]
    · simp [h2, List.range'_succ]

/-- A method that tries the preconditioned right-hand side: it stops after `its` iterations if that is the exact solution, otherwise it goes on to the limit. -/
def kspTry (maxit its : Nat) (rhs : Fin 2 → ℚ) : Ksp (Fin 2 → ℚ) ℚ :=
  .psolve rhs fun x => .matvec x fun Ax => if Ax 0 = rhs 0 ∧ Ax 1 = rhs 1 then kspMons 1 (its + 1) 0 (.done x 2) else kspMons 1 (maxit + 1) 0 (.done x (-3))

/-- A method that breaks down (`KSP_DIVERGED_BREAKDOWN`) before the first iteration. -/
def kspBreak (_ : Fin 2 → ℚ) : Ksp (Fin 2 → ℚ) ℚ := .monitor 0 1 (.done (fun _ => 0) (-5))

theorem kspTry_contract (maxit its : Nat) (h : its ≤ maxit) : KspContract gmNrm (1 / 1000) (1 / 1000) maxit (kspTry maxit its) := by
  have key : ∀ (A : (Fin 2 → ℚ) → Fin 2 → ℚ) M (rhs x : Fin 2 → ℚ) (reason : Int) calls, (kspTry maxit its rhs).run A M = .ok (x, reason, calls) →
      (reason = 2 ∧ calls.map Prod.fst = List.range (its + 1) ∧ A x 0 = rhs 0 ∧ A x 1 = rhs 1) ∨ (reason = -3 ∧ calls.map Prod.fst = List.range (maxit + 1)) := by
    intro A M rhs x reason calls hr
    simp only [kspTry, Ksp.run] at hr
    split at hr
    · cases hr
    · rename_i w hw
      split at hr
      · rename_i hA
        obtain ⟨calls', h1, h2⟩ := kspMons_run A M (1 : ℚ) (its + 1) 0 w 2
        rw [h1] at hr
        simp only [Except.ok.injEq, Prod.mk.injEq] at hr
        obtain ⟨rfl, rfl, rfl⟩ := hr
        exact .inl ⟨rfl, by rw [h2, List.range_eq_range'], hA⟩
      · obtain ⟨calls', h1, h2⟩ := kspMons_run A M (1 : ℚ) (maxit + 1) 0 w (-3)
        rw [h1] at hr
        simp only [Except.ok.injEq, Prod.mk.injEq] at hr
        obtain ⟨rfl, rfl, rfl⟩ := hr
        exact .inr ⟨rfl, by rw [h2, List.range_eq_range']⟩
  refine ⟨?_, ?_, ?_, ?_⟩
  · intro A M rhs x reason calls hr
    rcases key A M rhs x reason calls hr with ⟨-, h1, -⟩ | ⟨-, h1⟩
    · exact ⟨its, h, h1⟩
    · exact ⟨maxit, le_refl _, h1⟩
  · intro A M rhs x reason calls hr h0
    rcases key A M rhs x reason calls hr with ⟨-, -, h1, h2⟩ | ⟨h1, -⟩
    · left; simp [gmNrm, h1, h2]
    · omega
  · intro A M rhs x reason calls hr
    rcases key A M rhs x reason calls hr with ⟨h1, -⟩ | ⟨h1, -⟩ <;> omega
  · intro A M rhs x reason calls hr h0
    rcases key A M rhs x reason calls hr with ⟨h1, -⟩ | ⟨-, h1⟩
    · omega
    · exact h1

theorem kspBreak_contract (maxit : Nat) : KspContract gmNrm (1 / 1000) (1 / 1000) maxit kspBreak := by
  have key : ∀ (A : (Fin 2 → ℚ) → Fin 2 → ℚ) M (rhs x : Fin 2 → ℚ) (reason : Int) calls, (kspBreak rhs).run A M = .ok (x, reason, calls) → reason = -5 ∧ calls = [(0, 1)] := by
    intro A M rhs x reason calls hr
    simp only [kspBreak, Ksp.run, Except.ok.injEq, Prod.mk.injEq] at hr
    exact ⟨hr.2.1.symm, hr.2.2.symm⟩
  refine ⟨?_, ?_, ?_, ?_⟩
  · intro A M rhs x reason calls hr
    exact ⟨0, Nat.zero_le _, by rw [(key A M rhs x reason calls hr).2]; rfl⟩
  · intro A M rhs x reason calls hr h0
    have := (key A M rhs x reason calls hr).1; omega
  · intro A M rhs x reason calls hr
    have := (key A M rhs x reason calls hr).1; omega
  · intro A M rhs x reason calls hr h0
    have := (key A M rhs x reason calls hr).1; omega

theorem gmPre_is : PreconIs gmNrm (1 / 10 ^ 15) (some gmPre) (preconOf gmNrm (1 / 10 ^ 15) fun r => .ok fun i => if i = 0 then 2 * r 0 + r 1 else 6 * r 0 + 2 * r 1) := ⟨_, fun _ _ => rfl, rfl⟩

theorem kspTry_run (maxit its : Nat) : ∃ calls, (kspTry maxit its fun _ => 1).run (gmG.mul true) (preconOf gmNrm (1 / 10 ^ 15) fun r => .ok fun i => if i = 0 then 2 * r 0 + r 1 else 6 * r 0 + 2 * r 1) =
    .ok (fun i => if i = 0 then 3 else 8, 2, calls) ∧ calls.map Prod.fst = List.range (its + 1) := by
  obtain ⟨calls, h1, h2⟩ := kspMons_run (W := Fin 2 → ℚ) (gmG.mul true) (preconOf gmNrm (1 / 10 ^ 15) fun r => .ok fun i => if i = 0 then 2 * r 0 + r 1 else 6 * r 0 + 2 * r 1) (1 : ℚ) (its + 1) 0 (fun i => if i = 0 then 3 else 8) 2
  refine ⟨calls, ?_, by rw [h2, List.range_eq_range']⟩
  rw [← h1]
  have hp : preconOf gmNrm (1 / 10 ^ 15) (fun r => .ok fun i => if i = 0 then 2 * r 0 + r 1 else 6 * r 0 + 2 * r 1) (fun _ : Fin 2 => (1 : ℚ)) = .ok fun i => if i = 0 then 3 else 8 := by
    simp only [preconOf, gmNrm]
    rw [if_neg (by norm_num)]
    norm_num
  simp only [kspTry, Ksp.run, hp]
  rw [if_pos]
  constructor <;> · simp [LinGroup.mul, LinGroup.A, gmG, Fin.sum_univ_two]; try norm_num

/-- **C162 is false: a converged solve is reported as failed.** Whatever `maxiter ≥ 1` is, a solve for which PETSc finds the exact solution in `maxiter - 1` iterations, one fewer than allowed, is reported as FAILED, and with `err_on_maxiter` raises
`AnalysisError`: the monitor is also called for the initial residual. -/
theorem C162_converged_refuted (m : Nat) (ip : Int) (st : Unit → KspState (Fin 2) (Fin 2) ℚ) : ∃ prog : (Fin 2 → ℚ) → Ksp (Fin 2 → ℚ) ℚ, KspContract gmNrm (1 / 1000) (1 / 1000) (m + 1) prog ∧
    (∃ x reason calls, (prog fun _ => 1).run (gmG.mul true) (preconOf gmNrm (1 / 10 ^ 15) fun r => .ok fun i => if i = 0 then 2 * r 0 + r 1 else 6 * r 0 + 2 * r 1) = .ok (x, reason, calls) ∧ 0 < reason ∧
      calls.map Prod.fst = List.range (m + 1) ∧ gmG.mul true x = fun _ => 1) ∧
    (kspLoop gmG gmNrm (1 / 10 ^ 15) true (some gmPre) prog ⟨m + 1, ip, true⟩ [((), fun _ => 1)] st).1 = .error .AnalysisError := by
  obtain ⟨calls, h1, h2⟩ := kspTry_run (m + 1) m
  refine ⟨kspTry (m + 1) m, kspTry_contract _ _ (Nat.le_succ m), ⟨_, _, calls, h1, by norm_num, h2, ?_⟩, ?_⟩
  · funext i
    fin_cases i <;> · simp [LinGroup.mul, LinGroup.A, gmG, Fin.sum_univ_two]; try norm_num
  · rw [C162_raises_iff gmG gmG_wf gmNrm (1 / 10 ^ 15) true (some gmPre) _ gmPre_is]
    exact ⟨[], _, [], rfl, by simp, .inr ⟨_, _, calls, h1, rfl, by rw [length_of_range h2], rfl⟩⟩

/-- **C162 is false: a solve that broke down is reported as converged.** Whatever `maxiter ≥ 2` is, a run that PETSc ends with a breakdown before the first iteration passes `err_on_maxiter`, is reported as Converged in 1 iterations and its vector,
here zero for the right-hand side (1, 1), is returned as the solution. -/
theorem C162_silent_refuted (m : Nat) (ip : Int) (st : Unit → KspState (Fin 2) (Fin 2) ℚ) : ∃ prog : (Fin 2 → ℚ) → Ksp (Fin 2 → ℚ) ℚ, KspContract gmNrm (1 / 1000) (1 / 1000) (m + 2) prog ∧
    (∃ x reason calls, (prog fun _ => 1).run (gmG.mul true) (preconOf gmNrm (1 / 10 ^ 15) fun r => .ok fun i => if i = 0 then 2 * r 0 + r 1 else 6 * r 0 + 2 * r 1) = .ok (x, reason, calls) ∧ reason < 0) ∧
    ∃ x msg, (kspLoop gmG gmNrm (1 / 10 ^ 15) true (some gmPre) prog ⟨m + 2, ip, true⟩ [((), fun _ => 1)] st).1 = .ok [((), x, msg)] ∧ msg.failed = false ∧ msg.iters = 1 ∧
      ¬ (gmNrm (fun i => 1 - gmG.mul true x i) ≤ 1 / 1000 ∨ gmNrm (fun i => 1 - gmG.mul true x i) ≤ 1 / 1000 * gmNrm fun _ => 1) := by
  refine ⟨kspBreak, kspBreak_contract _, ⟨_, _, _, rfl, by norm_num⟩, fun _ => 0, kspMsg (m + 2) ip 1, ?_, ?_, rfl, ?_⟩
  · have : (kspMsg (m + 2) ip 1).failed = false := by simp [kspMsg]
    simp only [kspLoop, kspBreak, runKsp]
    simp only [Nat.zero_add, this, Bool.false_eq_true, false_and, if_false]
  · simp [kspMsg]
  · simp [LinGroup.mul, gmNrm]; norm_num

/-- With `maxiter` 0 or 1 every solve is reported as FAILED, converged or not. -/
theorem finding_C162_maxiter_one [LinearOrder K] [DecidableEq V] (G : LinGroup ι π K) (hw : G.WF) (nrm : (ι → K) → K) (tiny atol rtol : K) (fwd : Bool) (P : Option (LinSolver ι π K)) (M : (ι → K) → Except PyErr (ι → K)) (hM : PreconIs nrm tiny P M)
    (prog : (ι → K) → Ksp (ι → K) K) (o : KspOpts) (ho : o.maxiter ≤ 1) (hc : KspContract nrm atol rtol o.maxiter prog) (rhs : List (V × (ι → K))) (st : V → KspState ι π K) (l : List (V × (ι → K) × KspMsg))
    (h : (kspLoop G nrm tiny fwd P prog o rhs st).1 = .ok l) : ∀ q ∈ l, q.2.2.failed = true := by
  have := C162_report_partial G hw nrm tiny atol rtol fwd P M hM prog o hc rhs st l h
  intro q hq
  clear h
  induction this with
  | nil => cases hq
  | cons h1 _ ih =>
    rcases List.mem_cons.1 hq with rfl | hq
    · obtain ⟨_, _, _, its, -, -, -, -, h2⟩ := h1
      cases hf : q.2.2.failed with
      | true => rfl
      | false => have := (h2 hf).1; omega
    · exact ih hq

theorem mon_later [DecidableEq K] (calls : List (Nat × K)) (h : ∀ c ∈ calls, c.1 ≠ 0) (m : KspMon K) : (calls.foldl (fun m c => m.call c.1 c.2) m).norm0 = m.norm0 ∧
    (calls.foldl (fun m c => m.call c.1 c.2) m).norm = (calls.map Prod.snd).getLast?.getD m.norm := by
  induction calls generalizing m with
  | nil => exact ⟨rfl, rfl⟩
  | cons c l ih =>
    obtain ⟨h1, h2⟩ := ih (fun c hc => h c (List.mem_cons_of_mem _ hc)) (m.call c.1 c.2)
    rw [List.foldl_cons]
    refine ⟨?_, ?_⟩
    · rw [h1]; simp [KspMon.call, h c List.mem_cons_self]
    · rw [h2, List.map_cons]
      cases l with
      | nil => rfl
      | cons d l => simp [List.getLast?_cons]

/-- **C162, the printed norms.** The line printed for `iprint` 1 shows the residual norm of the last call of the monitor, relative to the norm of the first one when that is not zero; when it is zero, relative to the reference of an earlier solve (1 if there was none). -/
theorem C162_norms [LinearOrder K] (G : LinGroup ι π K) (hw : G.WF) (nrm : (ι → K) → K) (tiny : K) (fwd : Bool) (P : Option (LinSolver ι π K)) (M : (ι → K) → Except PyErr (ι → K)) (hM : PreconIs nrm tiny P M)
    (k : Ksp (ι → K) K) (s : KspState ι π K) (x : ι → K) (reason : Int) (first : K) (calls : List (Nat × K)) (hn : ((0, first) :: calls).map Prod.fst = List.range (calls.length + 1))
    (h : k.run (G.mul fwd) M = .ok (x, reason, (0, first) :: calls)) :
    (runKsp G nrm tiny fwd P k s).2.mon.norm0 = (if first = 0 then s.mon.norm0 else first) ∧ some (runKsp G nrm tiny fwd P k s).2.mon.norm = (first :: calls.map Prod.snd).getLast? := by
  have hr := runKsp_spec G hw nrm tiny fwd P M hM k s
  rw [h] at hr
  have hz : ∀ c ∈ calls, c.1 ≠ 0 := by
    intro c hc
    rw [List.map_cons, List.range_succ_eq_map, List.cons.injEq] at hn
    have : c.1 ∈ calls.map Prod.fst := List.mem_map_of_mem hc
    rw [hn.2, List.mem_map] at this
    obtain ⟨a, _, ha⟩ := this
    omega
  obtain ⟨h1, h2⟩ := mon_later calls hz (s.mon.call 0 first)
  simp only [List.foldl_cons] at hr
  rw [hr.2.2]
  refine ⟨?_, ?_⟩
  · rw [h1]
    by_cases hf : first = 0 <;> simp [KspMon.call, hf]
  · rw [h2]
    cases calls with
    | nil => rfl
    | cons d l => simp [List.getLast?_cons]

/-! ## The hypotheses are met -/

/-- Three iterations of ten: the solve returns the exact solution and reports no failure; the message says 4. -/
example : (match (kspLoop gmG gmNrm (1 / 10 ^ 15) true (some gmPre) (kspTry 10 3) ⟨10, 0, true⟩ [((), fun _ => 1)] fun _ => ⟨5, KspMon.new, ⟨fun _ => 7, fun _ => 8, fun _ => 9⟩⟩).1 with
    | .ok [((), x, msg)] => decide (x 0 = 3 ∧ x 1 = 8 ∧ msg = ⟨4, false, false⟩)
    | _ => false) = true := by decide +kernel

example : KspContract gmNrm (1 / 1000) (1 / 1000) 10 (kspTry 10 3) := kspTry_contract 10 3 (by norm_num)

/-- Without a preconditioner the method goes on to the limit and the solve raises. -/
example : (match (kspLoop gmG gmNrm (1 / 10 ^ 15) true none (kspTry 10 3) ⟨10, 0, true⟩ [((), fun _ => 1)] fun _ => ⟨5, KspMon.new, ⟨fun _ => 7, fun _ => 8, fun _ => 9⟩⟩).1 with
    | .error .AnalysisError => true
    | _ => false) = true := by decide +kernel

end OpenMDAO
