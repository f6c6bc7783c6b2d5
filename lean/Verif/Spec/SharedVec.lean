import Verif.Model.SharedVec
/-!
# Specification: shared derivative storage
-/
namespace OpenMDAO

/-- Two ranges of cells share no cell. -/
def Apart (c d : Cells) : Prop := ∀ i, ¬ ((c.off ≤ i ∧ i < c.off + c.len) ∧ (d.off ≤ i ∧ i < d.off + d.len))

/-- `voi` depends on, or influences, the variable with this top-level name; without an entry everything is relevant. -/
def RelTo (relevant : RelDict) (voi : Option Path) (top : Path) : Prop := ∀ r, relevant.lookup voi = some r → top ∈ r

instance (relevant : RelDict) (voi : Option Path) (top : Path) : Decidable (RelTo relevant voi top) :=
  decidable_of_iff ((((relevant.lookup voi).map fun r => decide (top ∈ r)).getD true) = true) (by
    unfold RelTo; cases relevant.lookup voi <;> simp)

/-- The vector of unknowns for `voi` has room for this variable. -/
def StoredU (relevant : RelDict) (voi : Option Path) (m : DerMeta) : Prop := RelTo relevant voi m.top ∧ m.pbo = false ∧ m.remote = false

instance (relevant : RelDict) (voi : Option Path) (m : DerMeta) : Decidable (StoredU relevant voi m) := by unfold StoredU; infer_instance

/-- The vector of parameters for `voi` has room for this variable. -/
def StoredP (relevant : RelDict) (voi : Option Path) (owned : List Path) (m : DerMeta) : Prop :=
  RelTo relevant voi m.top ∧ m.path ∈ owned ∧ m.pbo = false ∧ m.srcPbo = false ∧ m.remote = false

instance (relevant : RelDict) (voi : Option Path) (owned : List Path) (m : DerMeta) : Decidable (StoredP relevant voi owned m) := by
  unfold StoredP; infer_instance

/-- Metadata that the declaration of variables and the connection checks produce: pass-by-object variables have size 0; without source indices a parameter and its source have the same size, unless
one of them is passed by object. -/
def DeclWF (m : DerMeta) : Prop :=
  (m.pbo = true → m.size = 0) ∧ (m.srcPbo = true → m.srcSize = 0) ∧
    (m.pbo = false → m.srcPbo = false → m.srcIdx = false → m.srcSize = m.size)

/-- A parameter passed by object whose source is not, without source indices. -/
def PboOnVector (m : DerMeta) : Prop := m.pbo = true ∧ m.srcPbo = false ∧ m.srcIdx = false
