import Verif.Model.LinearGS
/-! Vocabulary of the statements C32 and C33. -/
namespace OpenMDAO

variable {ι π K : Type} [Fintype ι] [Fintype π] [DecidableEq ι] [Field K]

/-- Entry of the matrix of the linear system: partials with respect to the params connected to `j`, partials with respect to
states, and `-1` on the diagonal of explicit outputs. -/
def LinGroup.A (G : LinGroup ι π K) (i j : ι) : K :=
  (∑ k : π, if G.src k = j then G.jp i k else 0) + G.js i j - if i = j ∧ G.expl i then 1 else 0

/-- Partials only relate variables of the same child. -/
structure LinGroup.WF (G : LinGroup ι π K) : Prop where
  jp : ∀ i k, G.powner k ≠ G.owner i → G.jp i k = 0
  js : ∀ i j, G.owner j ≠ G.owner i → G.js i j = 0

/-- `A x = rhs` -/
def LinGroup.Solves (G : LinGroup ι π K) (x rhs : ι → K) : Prop := ∀ i, ∑ j : ι, G.A i j * x j = rhs i

/-- `Aᵀ y = rhs` -/
def LinGroup.SolvesT (G : LinGroup ι π K) (y rhs : ι → K) : Prop := ∀ j, ∑ i : ι, G.A i j * y i = rhs j

/-- The children's own solves are exact: child `c` solves its diagonal block. -/
def ExactBlocks (G : LinGroup ι π K) (sol : Nat → (ι → K) → ι → K) : Prop :=
  ∀ c r i, G.owner i = c → (∑ j : ι, if G.owner j = c then G.A i j * sol c r j else 0) = r i

def ExactBlocksT (G : LinGroup ι π K) (sol : Nat → (ι → K) → ι → K) : Prop :=
  ∀ c r j, G.owner j = c → (∑ i : ι, if G.owner i = c then G.A i j * sol c r i else 0) = r j

/-- Diagonal blocks are invertible: only zero solves the homogeneous block system. -/
def InjBlocks (G : LinGroup ι π K) : Prop :=
  ∀ c (x : ι → K), (∀ i, G.owner i = c → (∑ j : ι, if G.owner j = c then G.A i j * x j else 0) = 0) →
    ∀ j, G.owner j = c → x j = 0

def InjBlocksT (G : LinGroup ι π K) : Prop :=
  ∀ c (y : ι → K), (∀ j, G.owner j = c → (∑ i : ι, if G.owner i = c then G.A i j * y i else 0) = 0) →
    ∀ i, G.owner i = c → y i = 0

/-- Every child is executed exactly once. -/
structure IsOrder (G : LinGroup ι π K) (order : List Nat) : Prop where
  nodup : order.Nodup
  mem : ∀ i, G.owner i ∈ order

/-- No child has a param connected to an output of a later child. -/
def FeedForward (G : LinGroup ι π K) (order : List Nat) : Prop :=
  order.Pairwise fun a b => ∀ k, G.powner k = a → G.owner (G.src k) ≠ b

/-- Every child is an explicit component: no states, and no connection inside a child. -/
structure AllExplicit (G : LinGroup ι π K) : Prop where
  nostate : ∀ i j, G.js i j = 0
  noinner : ∀ k, G.powner k ≠ G.owner (G.src k)

end OpenMDAO
