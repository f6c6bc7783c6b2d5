import Verif.Model.MetaLife
/-!
# Specification: the objects of a `MetaModel` are separate
-/
namespace OpenMDAO
variable {S D X Y : Type}

/-- No two outputs share a surrogate object, and the default surrogate is not at the same time the surrogate of an output. -/
structure MetaObj.Separate (m : MetaObj S) : Prop where
  nodup : m.outs.Nodup
  inj : ∀ n ∈ m.outs, ∀ n' ∈ m.outs, ∀ a, m.sur n = some a → m.sur n' = some a → n = n'
  dflt : ∀ n ∈ m.outs, ∀ a, m.sur n = some a → m.dflt ≠ some a
  used : ∀ n ∈ m.outs, ∀ a, m.sur n = some a → a < m.next
  dused : ∀ a, m.dflt = some a → a < m.next

/-- Output `n` has a surrogate in state `s`. -/
def MetaObj.Has (m : MetaObj S) (n : String) (s : S) : Prop := ∃ a, m.sur n = some a ∧ m.heap a = s

end OpenMDAO
