import Verif.Model.Hdf5
/-!
# Specification for C153: cases in HDF5 files
-/
namespace OpenMDAO

/-- The dictionary of a vector: names and values. -/
def vecDict {V : Type} (l : List (Str × V)) : PyTree V := .dict (l.map fun e => (e.1, .val e.2))

/-- The data of the last iteration recorded under the key. -/
def LastUnder {V D : Type} (o : RecOpts) (filtered : List (Str × Filt)) (key : Str) (ops : List (RecOp V D)) (s : Nat) (d : RecData V) : Prop :=
  ∃ pre c v post, ops = pre ++ .iter c s v :: post ∧ formatCoord c = key ∧ recIteration o filtered c v = .ok d ∧ ∀ c' s' v', .iter c' s' v' ∈ post → formatCoord c' ≠ key

/-- No iteration is recorded under the key. -/
def NoneUnder {V D : Type} (key : Str) (ops : List (RecOp V D)) : Prop := ∀ c s v, RecOp.iter c s v ∈ ops → formatCoord c ≠ key

/-- Two trees in which a value is at the same place. -/
def KeepsData {V : Type} (f f' : List (Str × HNode V)) : Prop := ∀ path v, (HNode.group [] f).at path = some (.data v) → (HNode.group [] f').at path = some (.data v)

end OpenMDAO
