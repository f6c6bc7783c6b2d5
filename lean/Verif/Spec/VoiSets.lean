import Verif.Model.VoiSets
/-!
# Specification for groups of variables of interest and scaled derivatives
-/
namespace OpenMDAO

variable {K : Type} [Field K] [DecidableEq K]

/-- Drivers that can be built by calls that raise no exception. -/
inductive Built (multi mpi : Bool) : VoiDrv K → Prop
  | init : Built multi mpi {}
  | desvar {d d' : VoiDrv K} (n : String) (m : VoiMeta K) : Built multi mpi d → d.addDesvar n m = .ok d' →
      Built multi mpi d'
  | objective {d d' : VoiDrv K} (n : String) (m : VoiMeta K) : Built multi mpi d →
      d.addObjective multi n m = .ok d' → Built multi mpi d'
  | constraint {d d' : VoiDrv K} (n : String) (m : VoiMeta K) : Built multi mpi d → d.addConstraint n m = .ok d' →
      Built multi mpi d'
  | parallel {d d' : VoiDrv K} (once : Bool) (l : List String) : Built multi mpi d →
      d.parallelDerivs mpi once l = .ok d' → Built multi mpi d'

/-- `r` splits the names `l`: every name is in one tuple, there are no empty tuples, and two names are together
exactly if they are in one of the sets. -/
structure Splits (sets : List (List String)) (l : List String) (r : List (List String)) : Prop where
  perm : r.flatten.Perm l
  nonempty : [] ∉ r
  together : ∀ a ∈ l, ∀ b ∈ l, (∃ t ∈ r, a ∈ t ∧ b ∈ t) ↔ a = b ∨ ∃ s ∈ sets, a ∈ s ∧ b ∈ s

/-- `f` are the scale factors of the `n` entries of a variable with this scaler. -/
def ScalerIs (n : Nat) (f : Nat → K) : NumArr K → Prop
  | .s x => ∀ i < n, f i = x
  | .a l => l.length = n ∧ ∀ i < n, l[i]? = some (f i)

/-- The columns of an `m` by `n` matrix. -/
def matCols (D : Nat → Nat → K) (m n : Nat) : List (List K) :=
  (List.range n).map fun c => (List.range m).map fun r => D r c

/-- The rows of an `m` by `n` matrix. -/
def matRowsOf (D : Nat → Nat → K) (m n : Nat) : List (List K) :=
  (List.range m).map fun r => (List.range n).map fun c => D r c

end OpenMDAO
