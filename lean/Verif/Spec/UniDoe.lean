import Verif.Model.UniDoe
import Mathlib.Algebra.Order.Field.Basic
/-!
# Specification: uniform design of experiments
-/
namespace OpenMDAO
variable {K : Type}

/-- The bound of entry `k`. -/
def UniBound.at (b : UniBound K) (k : Nat) : Option K :=
  match b with
  | .num x => some x
  | .arr l => l[k]?

/-- Every entry of the variable has both bounds. -/
def UniVar.Bounded (v : UniVar K) : Prop := ∀ k < v.size, (v.low.at k).isSome ∧ (v.high.at k).isSome

/-- A case for these variables: all of them, in their order, with values of their size, each between its bounds. With a negative scaler the
lower bound is above the upper one. -/
def UniFits [LinearOrder K] (vs : List (UniVar K)) (c : UniCase K) : Prop :=
  List.Forall₂ (fun v e => e.1 = v.name ∧ e.2.length = v.size ∧
    ∀ k x, e.2[k]? = some x → ∃ l h, v.low.at k = some l ∧ v.high.at k = some h ∧ min l h ≤ x ∧ x ≤ max l h) vs c

end OpenMDAO
