import Verif.Spec.Totals
import Verif.Model.ParDeriv
/-! Vocabulary of the statements C121 and C122. -/
namespace OpenMDAO

variable {K : Type} [Field K]

/-- Entries of a variable that are asked for: the declared indices, or all. -/
def askedEntries (sizes : List (String × Nat)) (d : List (String × List Nat)) (name : String) : List Nat :=
  match d.lookup name with
  | some l => l
  | none => List.range ((sizes.lookup name).getD 0)

/-- The names are variables, and declared indices are a nonempty list of valid entries, not more than the variable has. -/
def ValidEntries (sizes : List (String × Nat)) (d : List (String × List Nat)) (names : List String) : Prop :=
  ∀ x ∈ names, ∃ n, sizes.lookup x = some n ∧ ∀ l, d.lookup x = some l → l ≠ [] ∧ l.length ≤ n ∧ ∀ k ∈ l, k < n

/-- A solver that treats each right-hand side by itself: the vector for key `k` solves the system with matrix `A k` of size `n k`, transposed in reverse mode. -/
structure ExactSolvers (n : Option String → Nat) (A : Option String → Nat → Nat → K)
    (solve : Mode → List (Option String × (Nat → K)) → List (Option String × (Nat → K))) : Prop where
  keys : ∀ mode rhs, (rhs.map Prod.fst).Nodup → (solve mode rhs).map Prod.fst = rhs.map Prod.fst
  fwd : ∀ rhs, (rhs.map Prod.fst).Nodup → ∀ k r x, (k, r) ∈ rhs → (k, x) ∈ solve .fwd rhs →
    ∀ i < n k, (∑ j ∈ Finset.range (n k), A k i j * x j) = r i
  rev : ∀ rhs, (rhs.map Prod.fst).Nodup → ∀ k r x, (k, r) ∈ rhs → (k, x) ∈ solve .rev rhs →
    ∀ j < n k, (∑ i ∈ Finset.range (n k), A k i j * x i) = r j

/-- The model behind the vectors. `D u a p b` is the total derivative of entry `a` of the unknown `u` with respect to entry `b` of `p`. Every vector, the full one and the reduced ones, has a
linear system with exact derivative matrix `Dm k`; the full one gives `D` for all its variables, the one of a variable of interest `v` gives `D` for derivatives with respect to `v` (forward) or
of `v` (reverse). That reduced systems do so is the content of C52. Variables that are irrelevant for `v` have derivative zero. -/
structure Differentiated (E : PDEnv K) (mode : Mode) (n : Option String → Nat) (A Dm : Option String → Nat → Nat → K) (D : String → Nat → String → Nat → K) : Prop where
  layout : ∀ k s, E.vecs.lookup k = some s → ∀ x b e, s.lookup x = some (b, e) → b ≤ e ∧ e ≤ n k ∧ E.sizes.lookup x = some (e - b)
  total : ∀ k s, E.vecs.lookup k = some s → IsTotalDeriv (n k) (A k) (Dm k)
  solver : ExactSolvers n A E.solve
  agree : ∀ k s u bu eu p bp ep, E.vecs.lookup k = some s → s.lookup u = some (bu, eu) → s.lookup p = some (bp, ep) →
    k = none ∨ k = some (if mode = .fwd then p else u) → ∀ a b, a < eu - bu → b < ep - bp → Dm k (bu + a) (bp + b) = D u a p b
  relevant : ∀ k s, E.vecs.lookup k = some s → ∀ x, (E.sizes.lookup x).isSome → (∀ l, E.rel.lookup k = some l → x ∈ l) → (s.lookup x).isSome
  all : ∀ l, E.rel.lookup none = some l → ∀ x, (E.sizes.lookup x).isSome → x ∈ l
  irrelevant : ∀ v l, E.rel.lookup (some v) = some l → ∀ x, x ∉ l → ∀ a b, (if mode = .fwd then D x a v b else D v b x a) = 0

/-- What the driver may ask for: the variables solved for are in the vectors that are used for them; a group of which one member is asked for is asked for as a whole, its members have the same
number of entries, and a group of several members needs `LinearGaussSeidel` at the root. -/
structure GroupsOk (E : PDEnv K) (mode : Mode) (inputs : List String) : Prop where
  full : ∀ v ∈ inputs, ∃ s, E.vecs.lookup none = some s ∧ (s.lookup v).isSome
  own : ∀ v ∈ inputs, E.lgs = true → v ∈ E.driverVois → (E.reduce = true ∨ ∃ g ∈ E.vois mode, v ∈ g ∧ 1 < g.length) →
    ∃ s, E.vecs.lookup (some v) = some s ∧ (s.lookup v).isSome
  whole : ∀ g ∈ E.vois mode, ∀ v ∈ g, v ∈ inputs → ∀ w ∈ g, w ∈ inputs
  nodup : ∀ g ∈ E.vois mode, g.Nodup
  sameSize : ∀ g ∈ E.vois mode, ∀ v ∈ g, ∀ w ∈ g, (askedEntries E.sizes (if mode = .fwd then E.poi else E.qoi) v).length =
    (askedEntries E.sizes (if mode = .fwd then E.poi else E.qoi) w).length
  parallel : ∀ g ∈ E.vois mode, 1 < g.length → E.lgs = true ∧ ∀ v ∈ g, v ∈ E.driverVois

/-- The pair is asked for: no sparsity is given, or it lists `p` for `u`. -/
def Asked (sparsity : Option (List (String × List String))) (u p : String) : Prop :=
  ∀ sp, sparsity = some sp → ∃ l, sp.lookup u = some l ∧ p ∈ l

/-- Row `i` of the constraint `u` is declared inactive. -/
def Inactive (inactives : List (String × List Nat)) (u : String) (i : Nat) : Prop := ∃ l, inactives.lookup u = some l ∧ i ∈ l

/-- Constraints of one group are inactive together. -/
def InactiveTogether (E : PDEnv K) (mode : Mode) : Prop :=
  mode = .rev → ∀ g ∈ E.vois .rev, ∀ v ∈ g, ∀ w ∈ g, ∀ i, Inactive E.inactives v i → Inactive E.inactives w i

end OpenMDAO
