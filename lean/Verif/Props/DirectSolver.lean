import Verif.Model.DirectSolver
import Mathlib.LinearAlgebra.Matrix.NonsingularInverse
import Mathlib.LinearAlgebra.Matrix.Notation
/-! # Properties of the direct linear solver (C73) -/
namespace OpenMDAO
set_option linter.unusedSectionVars false

variable {K : Type} [Field K] {n : Nat}

/-- The libraries solve regular systems. -/
def Numerics.Correct (N : Numerics K n) : Prop :=
  ∀ A b, A.det ≠ 0 → (∃ x, N.npSolve A b = .ok x ∧ A.mulVec x = b) ∧ ∃ x, N.luSolve A b = .ok x ∧ A.mulVec x = b

/-- The matrix is due, or it is there. -/
def DirectReady (lu rev : Bool) (J : Matrix (Fin n) (Fin n) K) (d : DirectState K n) (s : DirectSys K n) : Prop :=
  s.cur = J ∧ (s.changed = true ∨ (d.jac = some (assembled rev J) ∧ (lu = true → d.lup = some (assembled rev J))))

theorem refresh_ready (lu rev : Bool) (J : Matrix (Fin n) (Fin n) K) (d : DirectState K n) (s : DirectSys K n) (h : DirectReady lu rev J d s) :
    DirectReady lu rev J (refresh lu rev d s).1 (refresh lu rev d s).2 ∧ (refresh lu rev d s).1.jac = some (assembled rev J) ∧ (lu = true → (refresh lu rev d s).1.lup = some (assembled rev J)) := by
  obtain ⟨h1, h2⟩ := h
  unfold refresh
  by_cases hc : s.changed = true
  · simp only [hc, if_true, h1]
    exact ⟨⟨rfl, Or.inr ⟨rfl, fun h => by simp [h]⟩⟩, trivial, fun h => by simp [h]⟩
  · rw [if_neg hc]
    have := h2.resolve_left hc
    exact ⟨⟨h1, Or.inr this⟩, this.1, this.2⟩

theorem loop_ready {V : Type} (N : Numerics K n) (lu rev : Bool) (J : Matrix (Fin n) (Fin n) K) (l : List (V × (Fin n → K))) (d : DirectState K n) (s : DirectSys K n) (h : DirectReady lu rev J d s) :
    DirectReady lu rev J (directLoop N lu rev l d s).2.1 (directLoop N lu rev l d s).2.2 := by
  induction l generalizing d s with
  | nil => exact h
  | cons e l ih =>
    obtain ⟨v, rhs⟩ := e
    have hr := (refresh_ready lu rev J d s h).1
    have := ih _ _ hr
    simp only [directLoop]
    split
    · exact hr
    · split
      · rename_i heq; rw [heq] at this; exact this
      · rename_i heq; rw [heq] at this; exact this

theorem loop_solves {V : Type} (N : Numerics K n) (hN : N.Correct) (lu rev : Bool) (J : Matrix (Fin n) (Fin n) K) (hJ : J.det ≠ 0) (l : List (V × (Fin n → K))) (d : DirectState K n) (s : DirectSys K n)
    (h : DirectReady lu rev J d s) :
    ∃ xs, (directLoop N lu rev l d s).1 = .ok xs ∧ List.Forall₂ (fun e x => x.1 = e.1 ∧ (if rev then J.transpose else J).mulVec x.2 = e.2) l xs := by
  induction l generalizing d s with
  | nil => exact ⟨[], rfl, List.Forall₂.nil⟩
  | cons e l ih =>
    obtain ⟨v, rhs⟩ := e
    obtain ⟨hr, hj, hl⟩ := refresh_ready lu rev J d s h
    obtain ⟨xs, h1, h2⟩ := ih _ _ hr
    have hdet : (assembled rev J).det ≠ 0 := by
      unfold assembled; split
      · rwa [Matrix.det_transpose]
      · exact hJ
    obtain ⟨x, hx1, hx2⟩ : ∃ x, backSolve N lu (refresh lu rev d s).1 rhs = .ok x ∧ (assembled rev J).mulVec x = rhs := by
      unfold backSolve
      cases lu with
      | true => simp only [if_true, hl rfl]; exact (hN _ rhs hdet).2
      | false => simp only [Bool.false_eq_true, if_false, hj]; exact (hN _ rhs hdet).1
    refine ⟨(v, x) :: xs, ?_, List.Forall₂.cons ⟨rfl, hx2⟩ h2⟩
    simp only [directLoop, hx1]
    split
    · rename_i heq; rw [heq] at h1; cases h1
    · rename_i heq; rw [heq] at h1; cases h1; rfl

/-- **C73, solutions after a linearization.** Whatever happened before, after a linearization with the regular Jacobian `J` every solve returns, for every quantity of interest, the solution of the system with `J` in forward mode and with its
transpose in reverse mode, as long as all solves since that linearization were in the same mode (and the solution method was not changed). -/
theorem C73_current_jacobian_partial {V : Type} (N : Numerics K n) (hN : N.Correct) (lu rev : Bool) (J : Matrix (Fin n) (Fin n) K) (hJ : J.det ≠ 0) (d : DirectState K n) (s : DirectSys K n)
    (before : List (List (V × (Fin n → K)))) (rhs : List (V × (Fin n → K))) :
    let st := directSolves N lu rev before d (relinearize J s)
    ∃ xs, (directSolve N lu rev rhs st.1 st.2).1 = .ok xs ∧ List.Forall₂ (fun e x => x.1 = e.1 ∧ (if rev then J.transpose else J).mulVec x.2 = e.2) rhs xs := by
  have step : ∀ (r : List (V × (Fin n → K))) (d : DirectState K n) (s : DirectSys K n), DirectReady lu rev J d s →
      DirectReady lu rev J (directSolve N lu rev r d s).2.1 (directSolve N lu rev r d s).2.2 := by
    intro r d s h
    exact loop_ready N lu rev J r _ s h
  have all : ∀ (l : List (List (V × (Fin n → K)))) (d : DirectState K n) (s : DirectSys K n), DirectReady lu rev J d s →
      DirectReady lu rev J (directSolves N lu rev l d s).1 (directSolves N lu rev l d s).2 := by
    intro l
    induction l with
    | nil => intro d s h; exact h
    | cons r l ih => intro d s h; exact ih _ _ (step r d s h)
  exact loop_solves N hN lu rev J hJ rhs _ _ (all before d (relinearize J s) ⟨rfl, Or.inl rfl⟩)

/-- Cramer's rule for two equations. -/
def cramer2 (A : Matrix (Fin 2) (Fin 2) ℚ) (b : Fin 2 → ℚ) : Except PyErr (Fin 2 → ℚ) :=
  let d := A 0 0 * A 1 1 - A 0 1 * A 1 0
  if d = 0 then .error .ValueError else .ok ![(b 0 * A 1 1 - A 0 1 * b 1) / d, (A 0 0 * b 1 - b 0 * A 1 0) / d]

def cramerNum : Numerics ℚ 2 := ⟨cramer2, cramer2⟩

theorem cramerNum_correct : cramerNum.Correct := by
  intro A b h
  rw [Matrix.det_fin_two] at h
  have : ∃ x, cramer2 A b = .ok x ∧ A.mulVec x = b := by
    refine ⟨![(b 0 * A 1 1 - A 0 1 * b 1) / (A 0 0 * A 1 1 - A 0 1 * A 1 0), (A 0 0 * b 1 - b 0 * A 1 0) / (A 0 0 * A 1 1 - A 0 1 * A 1 0)], ?_, ?_⟩
    · simp [cramer2, h]
    · funext i
      fin_cases i
      · simp only [Matrix.mulVec, dotProduct, Fin.sum_univ_two]
        simp
        field_simp
        ring
      · simp only [Matrix.mulVec, dotProduct, Fin.sum_univ_two]
        simp
        rw [mul_div_assoc', mul_div_assoc', ← add_div, div_eq_iff h]
        ring
  exact ⟨this, this⟩

def shearJ : Matrix (Fin 2) (Fin 2) ℚ := !![-1, 0; 3, -1]

example : shearJ.det ≠ 0 := by simp [shearJ, Matrix.det_fin_two]

def freshDirect : DirectState ℚ 2 := ⟨none, none, none⟩
def freshSys : DirectSys ℚ 2 := ⟨0, false⟩

example : (directSolve cramerNum false true [((), ![1, 2])] freshDirect (relinearize shearJ freshSys)).1.map (fun l => l.map fun x => (x.2 0, x.2 1)) = .ok [(-7, -2)] := by decide +kernel

/-- **C73, a change of mode.** Without a linearization in between, a reverse solve after a forward solve uses the forward matrix: it returns the solution of the system with `J`, which is not the solution of the
system with the transpose. Both solution methods do so. -/
theorem C73_mode_switch_refuted (lu : Bool) : ∃ x y : ℚ × ℚ,
    (let st := directSolves cramerNum lu false [[((), ![1, 2])]] freshDirect (relinearize shearJ freshSys);
      (directSolve cramerNum lu true [((), ![1, 2])] st.1 st.2).1.map (fun l => l.map fun x => (x.2 0, x.2 1))) = .ok [x] ∧
    ((directSolve cramerNum lu true [((), ![1, 2])] freshDirect (relinearize shearJ freshSys)).1.map (fun l => l.map fun x => (x.2 0, x.2 1))) = .ok [y] ∧ x ≠ y := by
  refine ⟨(-1, -5), (-7, -2), ?_, ?_, by decide⟩ <;> cases lu <;> decide +kernel

/-- Changing `solve_method` from `'solve'` to `'LU'` between two solves makes the second one use the factorization of an earlier Jacobian. -/
theorem finding_stale_factorization :
    let st0 := directSolve cramerNum true false [((), ![1, 2])] freshDirect (relinearize 1 freshSys)
    let st1 := directSolve cramerNum false false [((), ![1, 2])] st0.2.1 (relinearize shearJ st0.2.2)
    (directSolve cramerNum true false [((), ![1, 2])] st1.2.1 st1.2.2).1.map (fun l => l.map fun x => (x.2 0, x.2 1)) = .ok [(1, 2)] := by decide +kernel

/-- Two direct solvers on one system share the flag: the one used second raises. -/
theorem finding_shared_flag :
    let st0 := directSolve cramerNum false false [((), ![1, 2])] freshDirect (relinearize shearJ freshSys)
    (directSolve cramerNum false false [((), ![1, 2])] freshDirect st0.2.2).1.map (fun l => l.map fun x => (x.2 0, x.2 1)) = .error .TypeError := by decide +kernel

end OpenMDAO
