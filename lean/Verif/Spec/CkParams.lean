import Verif.Model.CkParams
/-!
# Specification: correlation parameters and bounds for the optimizer of co-kriging
-/
namespace OpenMDAO

section
variable {K : Type} [Field K] [LinearOrder K]

/-- The values to be used are those given, or else 0.5 and the bounds 1e-5 and 50 for each of the `nf` inputs. -/
def CkArgs.Uses (nf : Nat) (A : CkArgs K) (r : CkStart K) : Prop :=
  (A.theta0 = some r.theta0 ∨ A.theta0 = none ∧ r.theta0 = List.replicate nf (1 / 2)) ∧
  (A.thetaL = some r.thetaL ∨ A.thetaL = none ∧ r.thetaL = List.replicate nf (1 / 100000)) ∧
  (A.thetaU = some r.thetaU ∨ A.thetaU = none ∧ r.thetaU = List.replicate nf 50)

/-- The start values are positive, there are as many bounds of both kinds as start values, and the bounds are `0 < l ≤ u`. -/
def CkStart.Sound (r : CkStart K) : Prop :=
  (∀ a ∈ r.theta0, 0 < a) ∧ r.thetaL.length = r.theta0.length ∧ r.thetaU.length = r.theta0.length ∧
  List.Forall₂ (fun l u => 0 < l ∧ l ≤ u) r.thetaL r.thetaU

/-- Nothing is filled in beside start values for another number of inputs. -/
def CkArgs.Fits (nf : Nat) (A : CkArgs K) : Prop :=
  (∃ l u, A.thetaL = some l ∧ A.thetaU = some u) ∨ ∀ t, A.theta0 = some t → t.length = nf

end
end OpenMDAO
