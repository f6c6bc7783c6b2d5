import Verif.Model.ViewConn
/-!
# Specification: the table of connections
-/
namespace OpenMDAO
variable {α K : Type}

/-- The entries of a source that a target receives: all, or those at the indices into the flat array. -/
def Received (flat : List K) : Option (List Int) → List K → Prop
  | none, v => v = flat
  | some l, v => List.Forall₂ (fun i x => 0 ≤ i ∧ flat[i.toNat]? = some x) l v

/-- The parameter is connected to this source. -/
def ViewSys.To [DecidableEq α] (M : ViewSys α K) (s t : α) : Prop := ∃ idxs, M.conns.lookup t = some (s, idxs)

end OpenMDAO
