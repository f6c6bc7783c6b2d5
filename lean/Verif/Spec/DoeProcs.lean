import Verif.Model.DoeProcs
/-!
# Specification: groups of processes that run cases
-/
namespace OpenMDAO

/-- The group at position `i`, of `s` processes, runs cases: with load balancing the first of several groups does not. -/
def RunsCases (n : Nat) (balance : Bool) (sizes : List Nat) (i s : Nat) : Prop := sizes[i]? = some s ∧ ¬ (1 < n ∧ balance = true ∧ i = 0)

end OpenMDAO
