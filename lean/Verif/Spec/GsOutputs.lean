import Verif.Model.GsOutputs
import Verif.Spec.LinearGS
/-! Vocabulary of the statement C168. -/
namespace OpenMDAO

variable {ι π K : Type} [Fintype ι] [Fintype π] [DecidableEq ι] [Field K]

/-- Names OpenMDAO can give: in the group an unknown is known under the name it has in its child, when the child promotes it, or
else that name after the name of the child and a dot; in the child the name ends with the name in the component; and no two
unknowns of the group share a name there. -/
structure GSNames.Valid (N : GSNames ι) (G : LinGroup ι π K) (child : Nat → Str) : Prop where
  top : ∀ i, N.top i = N.sub i ∨ N.top i = child (G.owner i) ++ '.' :: N.sub i
  sub : ∀ i, N.sub i = N.loc i ∨ ∃ p : Str, N.sub i = p ++ '.' :: N.loc i
  inj : ∀ i j, N.top i = N.top j → i = j

/-- The output is promoted from its component up to the group. -/
def GSNames.Promoted (N : GSNames ι) (i : ι) : Prop := N.top i = N.loc i

/-- No explicit output has, in its component, the name of another unknown of the group that its child does not have. -/
def GSNames.NoClash (N : GSNames ι) (G : LinGroup ι π K) : Prop :=
  ∀ i, G.expl i = true → (∃ j, N.top j = N.loc i) → ∃ j, G.owner j = G.owner i ∧ N.sub j = N.loc i

/-- Residual of the linear system at `x`: `A x - rhs`, in reverse mode `Aᵀ x - rhs`. -/
def LinGroup.residual (G : LinGroup ι π K) (fwd : Bool) (x rhs : ι → K) (i : ι) : K :=
  (∑ j : ι, (if fwd then G.A i j else G.A j i) * x j) - rhs i

end OpenMDAO
