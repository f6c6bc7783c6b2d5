import Verif.Model.Totals
/-! Vocabulary of the statement C34. -/
namespace OpenMDAO

variable {K : Type} [Field K]

/-- Positions in the vector of unknowns selected for a variable: all of its entries, or the declared indices. -/
def selected (slices : List (String × (Nat × Nat))) (d : List (String × List Nat)) (name : String) : List Nat :=
  match slices.lookup name, d.lookup name with
  | some (s, e), none => List.range' s (e - s)
  | some (s, _), some l => l.map (· + s)
  | none, _ => []

/-- The variables exist in a vector of length `n`, and declared indices are a nonempty list of valid positions, not more than the
variable has entries. -/
def ValidNames (n : Nat) (slices : List (String × (Nat × Nat))) (d : List (String × List Nat)) (names : List String) : Prop :=
  ∀ x ∈ names, ∃ s e, slices.lookup x = some (s, e) ∧ s ≤ e ∧ e ≤ n ∧
    ∀ l, d.lookup x = some l → l ≠ [] ∧ l.length ≤ e - s ∧ ∀ k ∈ l, k < e - s

/-- Rows (columns) of the array format: every selected entry of every variable, in the order of the list of names. -/
def labels (slices : List (String × (Nat × Nat))) (d : List (String × List Nat)) (names : List String) : List (String × Nat) :=
  names.flatMap fun x => (selected slices d x).map fun o => (x, o)

/-- Scale factor of a name, 1 when none is given. -/
def factorOf (scale : List (String × K)) (name : String) : K := (scale.lookup name).getD 1

/-- `D` is minus the inverse of the matrix `A` of the linear system: `D o q` is the total derivative of unknown `o` with respect to
unknown `q`. -/
structure IsTotalDeriv (n : Nat) (A D : Nat → Nat → K) : Prop where
  right : ∀ i < n, ∀ q < n, (∑ j ∈ Finset.range n, A i j * D j q) = if i = q then -1 else 0
  left : ∀ i < n, ∀ q < n, (∑ j ∈ Finset.range n, D i j * A j q) = if i = q then -1 else 0

/-- The linear solver solves `A x = rhs` in forward mode and `Aᵀ x = rhs` in reverse mode. -/
structure ExactSolver (n : Nat) (A : Nat → Nat → K) (solve : Mode → (Nat → K) → Nat → K) : Prop where
  fwd : ∀ rhs, ∀ i < n, (∑ j ∈ Finset.range n, A i j * solve .fwd rhs j) = rhs i
  rev : ∀ rhs, ∀ j < n, (∑ i ∈ Finset.range n, A i j * solve .rev rhs i) = rhs j

end OpenMDAO
