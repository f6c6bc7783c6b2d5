import Verif.Model.Paths
import Verif.Model.Promotes
/-!
# Model of `Driver._setup` (`openmdao/core/driver.py:65-134`) and of `Problem._check_relevant_pbos` (`openmdao/core/problem.py:994-1045`)

The scalers that `_setup` caches (`:136-156`) are modelled in `Verif.Model.VoiSets`. Names are texts; the flags `is_desvar`, `is_objective` and `is_constraint` that `_setup` stores in the metadata are not modelled.
-/
namespace OpenMDAO

/-- Metadata of an unknown of the model: set by an IndepVarComp (`_canset_`), passed by object, distributed (`src_indices`), size. Serves `voiSize` (`:125-129`). -/
structure UMeta where
  canset : Bool
  pbo : Bool
  distrib : Bool
  size : Nat
deriving DecidableEq

/-- What a driver was given: the names with their indices, in order. Serves `driverSetup` (`:79-134`). -/
structure DrvVars where
  desvars : List (Str × Option (List Nat))
  objs : List (Str × Option (List Nat))
  cons : List (Str × Option (List Nat))

/-- How the model is run: under MPI, by a driver that is not `Driver` itself, which supports gradients (`:75-78`). -/
structure DrvMode where
  mpi : Bool
  derived : Bool
  gradients : Bool

/-- `has_gradients` (`:75-78`). -/
def DrvMode.hasGradients (m : DrvMode) : Bool := if m.derived then m.gradients else false

/-- `meta['size']` (`:125-129`). -/
def voiSize (u : UMeta) : Option (List Nat) → Nat
  | some l => l.length
  | none => u.size

/-- One variable (`:87-130`): its name and size. -/
def setupVar (m : DrvMode) (unknowns : List (Str × UMeta)) (isDesvar : Bool) (e : Str × Option (List Nat)) : Except PyErr (Str × Nat) :=
  match unknowns.lookup e.1 with
  | none => .error .ValueError
  | some u =>
    if isDesvar && !u.canset then .error .RuntimeError
    else if m.mpi && u.distrib then .error .ValueError
    else if m.hasGradients && u.pbo then .error .RuntimeError
    else .ok (e.1, voiSize u e.2)

/-- `_setup` (`:79-134`): the sizes of design variables, objectives and constraints. -/
def driverSetup (m : DrvMode) (unknowns : List (Str × UMeta)) (d : DrvVars) : Except PyErr (List (Str × Nat) × List (Str × Nat) × List (Str × Nat)) := do
  let dv ← d.desvars.mapM (setupVar m unknowns true)
  let ob ← d.objs.mapM (setupVar m unknowns false)
  let co ← d.cons.mapM (setupVar m unknowns false)
  return (dv, ob, co)

/-! ## Variables passed by object that derivatives depend on -/

/-- `rels` (`problem.py:1009-1018`): all relevant variables; the set without a variable of interest counts only if it is the only one. -/
def allRelevant (relevant : List (Option Str × List Str)) : List Str :=
  relevant.flatMap fun e => if e.1 = none ∧ 1 < relevant.length then [] else e.2

/-- `rel_pbos` (`:1000-1020`); `user` is whether the derivatives of the root are of type 'user'. The list stands for a set. -/
def relevantPbos (m : DrvMode) (user : Bool) (unknowns : List (Str × UMeta)) (relevant : List (Option Str × List Str)) : List Str :=
  if !m.derived || !m.gradients || !user then []
  else (unknowns.filter fun u => u.2.pbo && decide (u.1 ∈ allRelevant relevant)).map Prod.fst

/-- `rel_conns` (`:1022-1028`): the connections (target, source) that the report names. -/
def relevantConns (conns : List (Str × Str)) (rels pbos : List Str) : List (Str × Str) :=
  pbos.flatMap fun src => (conns.filter fun c => decide (c.2 = src ∧ c.1 ∈ rels)).map fun c => (src, c.1)

/-- The lines with names that are written to the stream (`:1030-1037`), without the types of the values; if there are no connections to name, the names of the variables are printed, but not to the stream (`:1038-1039`). -/
def pboLines (conns : List (Str × Str)) (rels pbos : List Str) : List Str :=
  (relevantConns conns rels pbos).map fun c => c.1 ++ " -> ".toList ++ c.2

end OpenMDAO
