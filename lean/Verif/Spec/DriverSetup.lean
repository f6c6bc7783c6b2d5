import Verif.Model.DriverSetup
import Mathlib.Data.List.Forall2
/-!
# Specification of the setup of a driver (C151, C152)
-/
namespace OpenMDAO

/-- The driver uses derivatives. -/
def DrvMode.UsesGradients (m : DrvMode) : Prop := m.derived = true ∧ m.gradients = true

/-- An unknown of the model that may be used by the driver; as a design variable only if nothing computes it. -/
def UsableVar (m : DrvMode) (unknowns : List (Str × UMeta)) (isDesvar : Bool) (name : Str) : Prop :=
  ∃ u, (name, u) ∈ unknowns ∧ (isDesvar = true → u.canset = true) ∧ ¬ (m.mpi = true ∧ u.distrib = true) ∧ ¬ (m.UsesGradients ∧ u.pbo = true)

/-- Why a variable is refused. -/
def RefusedWith (m : DrvMode) (unknowns : List (Str × UMeta)) (isDesvar : Bool) (name : Str) (er : PyErr) : Prop :=
  ((∀ u, (name, u) ∉ unknowns) ∧ er = .ValueError) ∨
  ∃ u, (name, u) ∈ unknowns ∧
    ((isDesvar = true ∧ u.canset = false ∧ er = .RuntimeError) ∨
     ((isDesvar = true → u.canset = true) ∧ m.mpi = true ∧ u.distrib = true ∧ er = .ValueError) ∨
     ((isDesvar = true → u.canset = true) ∧ ¬ (m.mpi = true ∧ u.distrib = true) ∧ m.UsesGradients ∧ u.pbo = true ∧ er = .RuntimeError))

/-- All variables of a driver, in order, with whether they are design variables. -/
def DrvVars.all (d : DrvVars) : List (Bool × Str) :=
  d.desvars.map (fun e => (true, e.1)) ++ d.objs.map (fun e => (false, e.1)) ++ d.cons.map fun e => (false, e.1)

/-- Name and size of a variable: the number of its indices, or the size of the unknown. -/
def SizeOf (unknowns : List (Str × UMeta)) (e : Str × Option (List Nat)) (r : Str × Nat) : Prop :=
  r.1 = e.1 ∧ (∀ l, e.2 = some l → r.2 = l.length) ∧ (e.2 = none → ∃ u, (e.1, u) ∈ unknowns ∧ r.2 = u.size)

end OpenMDAO
