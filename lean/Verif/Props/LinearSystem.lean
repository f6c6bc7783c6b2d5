import Verif.Model.LinearSystem
import Mathlib.Algebra.BigOperators.Fin
import Mathlib.Algebra.BigOperators.Group.Finset.Sigma
import Mathlib.Tactic.Ring
import Mathlib.Tactic.NormNum
import Mathlib.Tactic.FinCases
import Mathlib.Tactic.LinearCombination
import Mathlib.Data.Rat.Defs
/-! C58: the implicit linear system component. -/
namespace OpenMDAO
set_option linter.unusedSectionVars false
open Matrix

variable {K : Type} [Field K] {n : Nat}

/-- Inner product of two vectors. -/
def vdot (u v : Fin n → K) : K := ∑ i, u i * v i

/-- Inner product of two matrices, entry by entry. -/
def mdot (u v : Matrix (Fin n) (Fin n) K) : K := ∑ i, ∑ j, u i j * v i j

/-- A part of a derivative vector; a part that does not exist contributes nothing. -/
def optDot {α : Type} (f : α → α → K) : Option α → Option α → K
  | some u, some v => f u v
  | _, _ => 0

/-- Inner product on the inputs of the component (state, matrix, right-hand side). -/
def LinSysD.dot (u v : LinSysD n K) : K := optDot vdot u.dx v.dx + optDot mdot u.dA v.dA + optDot vdot u.db v.db

/-- The same parts exist in both. -/
def LinSysD.Same (u v : LinSysD n K) : Prop :=
  u.dx.isSome = v.dx.isSome ∧ u.dA.isSome = v.dA.isSome ∧ u.db.isSome = v.db.isSome

theorem vdot_add (u v w : Fin n → K) : vdot u (fun i => v i + w i) = vdot u v + vdot u w := by
  simp [vdot, mul_add, Finset.sum_add_distrib]

theorem vdot_sub (u v w : Fin n → K) : vdot u (fun i => v i - w i) = vdot u v - vdot u w := by
  simp [vdot, mul_sub, Finset.sum_sub_distrib]

theorem vdot_transpose (A : Matrix (Fin n) (Fin n) K) (u r : Fin n → K) : vdot r (A.mulVec u) = vdot u (A.transpose.mulVec r) := by
  simp only [vdot, mulVec, dotProduct, transpose_apply, Finset.mul_sum]
  rw [Finset.sum_comm]
  refine Finset.sum_congr rfl fun i _ => Finset.sum_congr rfl fun j _ => ?_
  ring

theorem mdot_outer (M : Matrix (Fin n) (Fin n) K) (x r : Fin n → K) :
    vdot r (M.mulVec x) = mdot M (npOuter x r).transpose := by
  simp only [vdot, mdot, mulVec, dotProduct, npOuter, transpose_apply, Finset.mul_sum]
  refine Finset.sum_congr rfl fun i _ => Finset.sum_congr rfl fun j _ => ?_
  ring

/-- **C58, adjoint.** The forward and reverse products are adjoint: what the forward product adds to the residual, paired with `r`,
is what the reverse product with `r` adds to the inputs, paired with the input derivatives. It holds whichever of the
state, the matrix and the right-hand side take part. -/
theorem C58_adjoint (s : LinSys n K) (d e : LinSysD n K) (dr r : Fin n → K) (h : d.Same e) :
    vdot r (s.applyFwd d dr) - vdot r dr = d.dot (s.applyRev e r) - d.dot e := by
  obtain ⟨dx, dA, db⟩ := d
  obtain ⟨ex, eA, eb⟩ := e
  obtain ⟨h1, h2, h3⟩ := h
  have mdot_add : ∀ u v w : Matrix (Fin n) (Fin n) K, mdot u (v + w) = mdot u v + mdot u w := by
    intro u v w; simp [mdot, mul_add, Finset.sum_add_distrib]
  have comm : ∀ u v : Fin n → K, vdot u v = vdot v u := by
    intro u v; simp [vdot, mul_comm]
  rcases dx with _ | dx <;> rcases ex with _ | ex <;> simp at h1 <;>
  rcases dA with _ | dA <;> rcases eA with _ | eA <;> simp at h2 <;>
  rcases db with _ | db <;> rcases eb with _ | eb <;> simp at h3 <;>
  simp only [LinSys.applyFwd, LinSys.applyRev, LinSysD.dot, optDot, vdot_add, vdot_sub, mdot_add, vdot_transpose s.A, mdot_outer] <;>
  first
    | ring1
    | (simp only [comm r]; ring1)

/-- **C58, linearisation.** The forward product is the derivative of the residual: for every direction in the state, the matrix and
the right-hand side the residual changes by the forward product plus a second-order term. -/
theorem C58_derivative (s : LinSys n K) (dx db : Fin n → K) (dA : Matrix (Fin n) (Fin n) K) (t : K) (i : Fin n) :
    ({ s with A := s.A + t • dA, b := fun k => s.b k + t * db k, x := fun k => s.x k + t * dx k } : LinSys n K).resid i =
      s.resid i + t * s.applyFwd ⟨some dx, some dA, some db⟩ (fun _ => 0) i + t ^ 2 * dA.mulVec dx i := by
  simp only [LinSys.resid, LinSys.applyFwd, mulVec, dotProduct, Matrix.add_apply, Matrix.smul_apply, smul_eq_mul]
  have : ∑ j, (s.A i j + t * dA i j) * (s.x j + t * dx j) =
      (∑ j, s.A i j * s.x j) + t * (∑ j, s.A i j * dx j) + t * (∑ j, dA i j * s.x j) + t ^ 2 * ∑ j, dA i j * dx j := by
    simp only [Finset.mul_sum, ← Finset.sum_add_distrib]
    refine Finset.sum_congr rfl fun j _ => ?_
    ring
  rw [this]; ring

theorem luSolve_spec (L : Matrix (Fin n) (Fin n) K) (rhs : Fin n → K) (t : Bool) (h : L.det ≠ 0) :
    ∃ y, luSolve L rhs t = some y ∧ (if t then L.transpose else L).mulVec y = rhs := by
  refine ⟨(if t then L.transpose else L)⁻¹.mulVec rhs, by simp [luSolve, h], ?_⟩
  cases t
  · simp only [Bool.false_eq_true, if_false]
    rw [mulVec_mulVec, mul_nonsing_inv _ (Ne.isUnit h), one_mulVec]
  · simp only [if_true]
    rw [mulVec_mulVec, mul_nonsing_inv _ (by rw [det_transpose]; exact Ne.isUnit h), one_mulVec]

/-- **C58, nonlinear solve.** With an invertible matrix the state solves `A x = b`, the residual is zero, and neither the matrix nor
the right-hand side changes. -/
theorem C58_solve_nonlinear (s : LinSys n K) (h : s.A.det ≠ 0) :
    ∃ s' r, s.solveNonlinear = .ok (s', r) ∧ s'.A = s.A ∧ s'.b = s.b ∧ s.A.mulVec s'.x = s.b ∧ r = fun _ => 0 := by
  obtain ⟨y, hy, hs⟩ := luSolve_spec s.A s.b false h
  refine ⟨{ s with lup := some s.A, x := y }, LinSys.resid { s with lup := some s.A, x := y },
    by simp only [LinSys.solveNonlinear, hy], rfl, rfl, by simpa using hs, ?_⟩
  funext i
  have : s.A.mulVec y = s.b := by simpa using hs
  simp [LinSys.resid, this]

/-- **C58, linear solve.** After a nonlinear solve, for every right-hand side, the forward linear solve inverts the matrix and the
reverse linear solve inverts its transpose. The state and the right-hand side of the component may change in between, the
matrix must not. -/
theorem C58_solve_linear_partial (s s' : LinSys n K) (r : Fin n → K) (h : s.A.det ≠ 0) (hs : s.solveNonlinear = .ok (s', r))
    (x b rhs : Fin n → K) :
    (∃ y, ({ s' with x := x, b := b } : LinSys n K).solveLinear true rhs = .ok y ∧ s'.A.mulVec y = rhs) ∧
    (∃ y, ({ s' with x := x, b := b } : LinSys n K).solveLinear false rhs = .ok y ∧ s'.A.transpose.mulVec y = rhs) := by
  obtain ⟨y, hy, _⟩ := luSolve_spec s.A s.b false h
  simp only [LinSys.solveNonlinear, hy, Except.ok.injEq, Prod.mk.injEq] at hs
  obtain ⟨rfl, _⟩ := hs
  constructor
  · obtain ⟨z, hz, hz'⟩ := luSolve_spec s.A rhs false h
    exact ⟨z, by simp [LinSys.solveLinear, hz], by simpa using hz'⟩
  · obtain ⟨z, hz, hz'⟩ := luSolve_spec s.A rhs true h
    exact ⟨z, by simp [LinSys.solveLinear, hz], by simpa using hz'⟩

/-- **C58, duality of the solves.** Pairing the forward solution for `p` with `q` equals pairing `p` with the reverse solution for
`q`: total derivatives do not depend on the mode. -/
theorem C58_solve_adjoint (s : LinSys n K) (p q y z : Fin n → K) (hy : s.solveLinear true p = .ok y)
    (hz : s.solveLinear false q = .ok z) : vdot y q = vdot p z := by
  rcases hl : s.lup with _ | L
  · simp [LinSys.solveLinear, hl] at hy
  · by_cases hd : L.det = 0
    · simp [LinSys.solveLinear, hl, luSolve, hd] at hy
    · obtain ⟨y', h1, h2⟩ := luSolve_spec L p false hd
      obtain ⟨z', h3, h4⟩ := luSolve_spec L q true hd
      simp only [LinSys.solveLinear, hl, Bool.not_true, h1, Except.ok.injEq] at hy
      simp only [LinSys.solveLinear, hl, Bool.not_false, h3, Except.ok.injEq] at hz
      subst hy hz
      simp only [Bool.false_eq_true, if_false] at h2
      simp only [if_true] at h4
      rw [← h2, ← h4, ← vdot_transpose]
      simp [vdot, mul_comm]

/-- The matrix is `2`, then the params change to `A = 4` without a nonlinear solve (a Newton iteration only evaluates residuals). The
linear solve still divides by 2: it does not invert the matrix of the component. -/
theorem C58_stale_refuted : ∃ (s s' : LinSys 1 ℚ) (r rhs y : Fin 1 → ℚ) (A' : Matrix (Fin 1) (Fin 1) ℚ),
    s.solveNonlinear = .ok (s', r) ∧ A'.det ≠ 0 ∧ ({ s' with A := A' } : LinSys 1 ℚ).solveLinear true rhs = .ok y ∧
      A'.mulVec y ≠ rhs := by
  have hd : (Matrix.of ![![(2 : ℚ)]]).det ≠ 0 := by simp
  let s : LinSys 1 ℚ := ⟨Matrix.of ![![2]], fun _ => 1, fun _ => 0, none⟩
  obtain ⟨s', r, h, hA, _⟩ := C58_solve_nonlinear s hd
  obtain ⟨⟨y, hy, hy'⟩, _⟩ := C58_solve_linear_partial s s' r hd h s'.x s'.b (fun _ => 1)
  refine ⟨s, s', r, fun _ => 1, y, Matrix.of ![![4]], h, by simp, ?_, ?_⟩
  · simpa [LinSys.solveLinear] using hy
  · intro hc
    have h1 := congrFun hy' 0
    have h2 := congrFun hc 0
    rw [hA] at h1
    simp [s, mulVec, dotProduct] at h1 h2
    linarith

/-- A linear solve before any nonlinear solve is a TypeError. -/
theorem finding_C58_unsolved (s : LinSys n K) (h : s.lup = none) (fwd : Bool) (rhs : Fin n → K) :
    s.solveLinear fwd rhs = .error .TypeError := by simp [LinSys.solveLinear, h]

/-- An invertible matrix that is not symmetric. -/
example : (Matrix.of ![![(1 : ℚ), 2], ![0, 3]]).det ≠ 0 := by simp

example : LinSysD.Same (⟨some fun _ => 1, none, some fun _ => 2⟩ : LinSysD 2 ℚ) ⟨some fun _ => 0, none, some fun _ => 5⟩ :=
  ⟨rfl, rfl, rfl⟩

end OpenMDAO
