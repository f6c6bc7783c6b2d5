import Verif.Model.ParRun
import Verif.Spec.RunApply
/-! Specification of the run of a ParallelGroup. -/
namespace OpenMDAO

/-- Two states have the same unknowns, residuals and params for the components `G`. -/
def SameOn {V : Type} (G : List Nat) (s s' : RState V) : Prop := ∀ i ∈ G, s.u i = s'.u i ∧ s.r i = s'.r i ∧ s.p i = s'.p i

/-- They have the same ones for all other components. -/
def SameOff {V : Type} (G : List Nat) (s s' : RState V) : Prop := ∀ i, i ∉ G → s.u i = s'.u i ∧ s.r i = s'.r i ∧ s.p i = s'.p i

/-- No component of one subsystem is connected to a component of another one. -/
def NotConnected {V : Type} (m : RModel V) (cs : List (ParTree V)) : Prop := cs.Pairwise fun t t' => ∀ i ∈ t.comps, ∀ j ∈ t'.comps, j ∉ m.src i ∧ i ∉ m.src j

/-- No relaxation of the outputs after an iteration. -/
def RSolver.NotRelaxed {V : Type} : RSolver V → Prop
  | .runOnce => True
  | .nlgs _ _ relax => relax = none
  | .newton _ _ _ _ => True

end OpenMDAO
