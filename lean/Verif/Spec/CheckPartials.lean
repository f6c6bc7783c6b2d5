import Verif.Model.CheckPartials
import Verif.Spec.ApplyLinear
/-! Vocabulary of the statements C89 and C90. -/
namespace OpenMDAO

variable {K : Type} [CommRing K]

/-- A component with a Jacobian: every name is in one vector once, states are unknowns and not params, the Jacobian is a dict. -/
structure LinComp.Sound (c : LinComp K) (dp du : List (String × Nat)) (jac : List ((String × String) × Mat K)) : Prop where
  supplied : c.jac = some jac
  keys : (jac.map Prod.fst).Nodup
  params : (dp.map Prod.fst).Nodup
  unknowns : (du.map Prod.fst).Nodup
  states : ∀ s ∈ c.states, s ∈ du.map Prod.fst ∧ s ∉ dp.map Prod.fst
  noFilter : c.relInputs = []

/-- The size of a param or state of the component. -/
def InputSize (c : LinComp K) (dp du : List (String × Nat)) (p : String) (m : Nat) : Prop :=
  (p ∈ c.states ∧ (p, m) ∈ du) ∨ (p ∉ c.states ∧ (p, m) ∈ dp)

/-- A factor, one when there is none. -/
def chkFactor (l : List (String × K)) (n : String) : K := (l.lookup n).getD 1

/-- The derivative of the scaled residual of `u` with respect to `p` in the units of its source, as it follows from the Jacobian supplied. -/
def LinComp.expected (c : LinComp K) (jac : List ((String × String) × Mat K)) (u p : String) (i j : Nat) : K :=
  match jac.lookup (u, p) with
  | none => 0
  | some J => chkFactor c.scales u * J.a i j * (if p ∈ c.states ∨ c.derivUnits = false then 1 else chkFactor c.units p)

/-- The array `M` has shape `(n, m)` and the given entries. -/
def Mat.Is (M : Mat K) (n m : Nat) (f : Nat → Nat → K) : Prop := M.m = n ∧ M.n = m ∧ ∀ i < n, ∀ j < m, M.a i j = f i j

end OpenMDAO
