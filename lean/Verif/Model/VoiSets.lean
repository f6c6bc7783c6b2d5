import Verif.Model.Driver
import Verif.Model.Connections
import Mathlib.Data.List.Dedup
/-!
# Model of groups of variables of interest and of derivative scaling (`openmdao/core/driver.py`, `problem.py`)

The registration of design variables, objectives and constraints is reduced to names, scale factors and indices; their
bounds are modelled in `Model/Driver.lean`. Scale factors are floats or arrays.
-/
namespace OpenMDAO

variable {K : Type} [Field K] [DecidableEq K]

/-- `_desvars`, `_objs`, `_cons` and `_voi_sets` (`driver.py:51-56`). -/
structure VoiDrv (K : Type) where
  desvars : List (String × VoiMeta K) := []
  objs : List (String × VoiMeta K) := []
  cons : List (String × VoiMeta K) := []
  sets : List (List String) := []

/-- `name in d`. Serves `VoiDrv.addDesvar` (`driver.py:321-323,368`). -/
def hasName (d : List (String × VoiMeta K)) (name : String) : Bool := (d.lookup name).isSome

/-- `add_desvar` (`driver.py:321-323,368`). -/
def VoiDrv.addDesvar (d : VoiDrv K) (name : String) (m : VoiMeta K) : Except PyErr (VoiDrv K) :=
  if hasName d.desvars name then .error .RuntimeError
  else .ok { d with desvars := d.desvars ++ [(name, m)] }

/-- `add_objective` (`driver.py:545-574`); `multi` is `supports['multiple_objectives']`. -/
def VoiDrv.addObjective (multi : Bool) (d : VoiDrv K) (name : String) (m : VoiMeta K) : Except PyErr (VoiDrv K) :=
  if !d.objs.isEmpty && !multi then .error .RuntimeError
  else if hasName d.objs name then .error .RuntimeError
  else if (m.indices.any fun l => decide (1 < l.length)) && !multi then .error .RuntimeError
  else .ok { d with objs := d.objs ++ [(name, m)] }

/-- `add_constraint` (`driver.py:650-652,707`). -/
def VoiDrv.addConstraint (d : VoiDrv K) (name : String) (m : VoiMeta K) : Except PyErr (VoiDrv K) :=
  if hasName d.cons name then .error .RuntimeError
  else .ok { d with cons := d.cons ++ [(name, m)] }

/-- `parallel_derivs` (`driver.py:244-277`). `once` is true for an iterator, which has no names left after the first
loop; `mpi` is true under MPI, otherwise there is only a warning. -/
def VoiDrv.parallelDerivs (mpi once : Bool) (d : VoiDrv K) (names : List String) : Except PyErr (VoiDrv K) :=
  if names.any fun n => !(hasName d.desvars n || hasName d.objs n || hasName d.cons n) then .error .RuntimeError
  else
    let left := if once then [] else names
    if d.sets.any fun g => left.any fun n => g.contains n then .error .RuntimeError
    else
      let common := left.dedup.filter (hasName d.desvars)
      if !common.isEmpty && decide (common.length ≠ left.length) then .error .RuntimeError
      else .ok (if mpi then { d with sets := d.sets ++ [left] } else d)

/-- One name in the inner loop of `_of_interest` (`driver.py:211-214`): the tuple so far and `remaining`. -/
def voiStep (s : List String) (st : List String × List String) (v : String) :
    Except PyErr (List String × List String) :=
  if s.contains v then
    if st.2.contains v then .ok (st.1 ++ [v], st.2.filter (· ≠ v)) else .error .KeyError
  else .ok st

/-- One set in the outer loop of `_of_interest` (`driver.py:210-214`). -/
def setStep (l : List String) (st : List (List String) × List String) (s : List String) :
    Except PyErr (List (List String) × List String) :=
  match l.foldlM (voiStep s) ([], st.2) with
  | .error e => .error e
  | .ok r => .ok (st.1 ++ [r.1], r.2)

/-- `_of_interest` (`driver.py:201-222`). -/
def voiOfInterest (sets : List (List String)) (l : List String) : Except PyErr (List (List String)) :=
  match sets.foldlM (setStep l) ([], l) with
  | .error e => .error e
  | .ok r => .ok (r.1.filter (fun t => !t.isEmpty) ++ (l.filter fun v => r.2.contains v).map fun v => [v])

/-- `desvars_of_interest` (`driver.py:224-232`). -/
def VoiDrv.desvarsOfInterest (d : VoiDrv K) : Except PyErr (List (List String)) :=
  voiOfInterest d.sets (d.desvars.map (·.1))

/-- `outputs_of_interest` (`driver.py:234-242`). -/
def VoiDrv.outputsOfInterest (d : VoiDrv K) : Except PyErr (List (List String)) :=
  voiOfInterest d.sets (d.objs.map (·.1) ++ d.cons.map (·.1))

/-! ## Scaling of derivatives -/

/-- `scaler == 1.0`, for arrays `all(scaler == 1.0)` (`driver.py:139-143`). -/
def NumArr.allOne : NumArr K → Bool
  | .s x => x == 1
  | .a l => l.all (· == 1)

/-- `np.reciprocal(scaler)` (`driver.py:145`) of scalers that are not zero. -/
def NumArr.recip : NumArr K → NumArr K
  | .s x => .s x⁻¹
  | .a l => .a (l.map (·⁻¹))

/-- `dv_conversions` (`driver.py:136-145`). -/
def VoiDrv.dvConversions (d : VoiDrv K) : List (String × NumArr K) :=
  d.desvars.foldl (fun acc e => if e.2.scaler.allOne then acc else dictSet acc e.1 e.2.scaler.recip) []

/-- `fn_conversions` (`driver.py:147-156`). -/
def VoiDrv.fnConversions (d : VoiDrv K) : List (String × NumArr K) :=
  (d.objs ++ d.cons).foldl (fun acc e => if e.2.scaler.allOne then acc else dictSet acc e.1 e.2.scaler) []

/-- `poi_indices` of `_map_voi_indices` (`driver.py:194-197`). -/
def VoiDrv.poiIndices (d : VoiDrv K) : List (String × List Nat) :=
  d.desvars.foldl (fun acc e => match e.2.indices with | none => acc | some l => dictSet acc e.1 l) []

/-- `qoi_indices` of `_map_voi_indices` (`driver.py:189-192`). -/
def VoiDrv.qoiIndices (d : VoiDrv K) : List (String × List Nat) :=
  (d.cons ++ d.objs).foldl (fun acc e => match e.2.indices with | none => acc | some l => dictSet acc e.1 l) []

/-- `v *= s` for a one dimensional array: the operand may not be longer than the array. Serves `VoiDrv.blockFwd` (`problem.py:1757-1765`). -/
def imul (v : List K) : NumArr K → Except PyErr (List K)
  | .s x => .ok (v.map (· * x))
  | .a l =>
    if l.length = v.length then .ok (List.zipWith (· * ·) v l)
    else match l with
      | [x] => .ok (v.map (· * x))
      | _ => .error .ValueError

/-- `if name in scale: v *= scale[name]`. Serves `VoiDrv.blockFwd` (`problem.py:1757-1765`). -/
def scaleName (scale : List (String × NumArr K)) (name : String) (v : List K) : Except PyErr (List K) :=
  match scale.lookup name with
  | none => .ok v
  | some s => imul v s

/-- The block of a response `u` and a design variable `p` in forward mode, column by column (`problem.py:1757-1765`). -/
def VoiDrv.blockFwd (d : VoiDrv K) (u p : String) (cols : List (List K)) : Except PyErr (List (List K)) :=
  cols.mapM fun c => (scaleName d.dvConversions p c).bind (scaleName d.fnConversions u)

/-- The block in reverse mode, row by row (`problem.py:1767-1775`). -/
def VoiDrv.blockRev (d : VoiDrv K) (u p : String) (rows : List (List K)) : Except PyErr (List (List K)) :=
  rows.mapM fun r => (scaleName d.fnConversions u r).bind (scaleName d.dvConversions p)

/-- `J *= scale[name]` for a two dimensional array: the operand is applied to every row; one that is longer than the
rows raises `ValueError`, also if there are no rows. Serves `VoiDrv.blockFd` (`problem.py:1441-1447`). -/
def scaleRows (scale : List (String × NumArr K)) (name : String) (n : Nat) (rows : List (List K)) :
    Except PyErr (List (List K)) :=
  match imul (List.replicate n (0 : K)) ((scale.lookup name).getD (.s 1)) with
  | .error e => .error e
  | .ok _ => rows.mapM (scaleName scale name)

/-- The block by finite differences (`problem.py:1441-1447`), with `n` columns. -/
def VoiDrv.blockFd (d : VoiDrv K) (u p : String) (n : Nat) (rows : List (List K)) : Except PyErr (List (List K)) :=
  (scaleRows d.dvConversions p n rows).bind (scaleRows d.fnConversions u n)

end OpenMDAO
