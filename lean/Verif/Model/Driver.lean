import Verif.Model.Numpy
import Mathlib.Algebra.Field.Basic
import Mathlib.Algebra.Order.Field.Basic
/-!
# Model of the bookkeeping and scaling part of `openmdao/core/driver.py`

Numbers are a linearly ordered field `K`; `sys.float_info.max` is a parameter `fmax`. One process
(`nproc == 1`); pass-by-object design variables are not modelled. The low/high deprecation is not modelled.
-/
namespace OpenMDAO

variable {K : Type} [Field K] [LinearOrder K]

/-- A python float or a flattened 1-D numpy array. Serves `NumArr.index` (`driver.py:493-499,506-512`). -/
inductive NumArr (K : Type) where
  | s (x : K)
  | a (l : List K)
  deriving DecidableEq, Repr

/-- numpy elementwise binary operation with broadcasting of 1-D operands; `ValueError` if the lengths cannot
be broadcast. Serves `divScaler` (`driver.py:493-499`). -/
def NumArr.bc (f : K → K → K) : NumArr K → NumArr K → Except PyErr (NumArr K)
  | .s x, .s y => .ok (.s (f x y))
  | .s x, .a l => .ok (.a (l.map (f x)))
  | .a l, .s y => .ok (.a (l.map (f · y)))
  | .a l, .a m =>
    if l.length = m.length then .ok (.a (List.zipWith f l m))
    else match l, m with
      | [x], m => .ok (.a (m.map (f x)))
      | l, [y] => .ok (.a (l.map (f · y)))
      | _, _ => .error .ValueError

/-- `arr[index]` for a scaler / adder: arrays are indexed, floats used as they are
(`driver.py:493-499,506-512`). -/
def NumArr.index (x : NumArr K) (i : Nat) : Except PyErr (NumArr K) :=
  match x with
  | .s x => .ok (.s x)
  | .a l => match l[i]? with
    | some y => .ok (.s y)
    | none => .error .IndexError

/-- Metadata of a design variable / response (`driver.py:360-366,564-568,695-706`). -/
structure VoiMeta (K : Type) where
  adder : NumArr K
  scaler : NumArr K
  indices : Option (List Nat)

/-- Metadata of a design variable with its scaled bounds. Serves `addDesvar` (`driver.py:291-368`). -/
structure DesvarMeta (K : Type) extends VoiMeta K where
  lower : NumArr K
  upper : NumArr K

/-- `(bound + adder)*scaler`. Serves `addDesvar` (`driver.py:291-368`). -/
def scaleBound (b adder scaler : NumArr K) : Except PyErr (NumArr K) := do
  NumArr.bc (· * ·) (← NumArr.bc (· + ·) b adder) scaler

/-- `if indices:` with a list: empty lists are dropped. Serves `addDesvar` (`driver.py:291-368`). -/
def truthyIndices : Option (List Nat) → Option (List Nat)
  | some [] => none
  | x => x

/-- `add_desvar` (`driver.py:291-368`): `none` bounds stand for `None` and the infinite float. -/
def addDesvar (fmax : K) (desvars : List (String × DesvarMeta K)) (name : String) (lower upper : Option (NumArr K))
    (indices : Option (List Nat)) (adder scaler : NumArr K) : Except PyErr (List (String × DesvarMeta K)) :=
  if (desvars.lookup name).isSome then .error .RuntimeError
  else do
    let lower ← scaleBound (lower.getD (.s (-fmax))) adder scaler
    let upper ← scaleBound (upper.getD (.s fmax)) adder scaler
    return desvars ++ [(name, ⟨⟨adder, scaler, truthyIndices indices⟩, lower, upper⟩)]

/-- `flatval[meta['indices']]` if there are indices (`driver.py:415-424`). -/
def flatOf (m : VoiMeta K) (val : List K) : Except PyErr (List K) :=
  match m.indices with
  | some idxs => npGet val (.arr idxs)
  | none => .ok val

/-- `(flatval + adder)*scaler`. Serves `getVoi` (`driver.py:399-441`). -/
def applyScaling (m : VoiMeta K) (flat : List K) : Except PyErr (NumArr K) := do
  NumArr.bc (· * ·) (← NumArr.bc (· + ·) (.a flat) m.adder) m.scaler

/-- `_get_distrib_var` on one process (`driver.py:399-441`); `val` is the flat value of the variable. The
test that skips the arithmetic for adder 0 and scaler 1 is kept. -/
def getVoi (m : VoiMeta K) (val : List K) : Except PyErr (NumArr K) := do
  let flat ← flatOf m val
  match m.scaler, m.adder with
  | .s sc, .s ad => if sc ≠ 1 ∨ ad ≠ 0 then applyScaling m flat else .ok (.a flat)
  | _, _ => applyScaling m flat

/-- Shape of the variable as seen through `unknowns[name]`. Serves `setDesvarAt` (`driver.py:489-523`). -/
inductive VShape where
  | scalar
  | d1
  | d2 (cols : Nat)
  deriving DecidableEq

/-- `unknowns[name] = value` (`vec_wrapper.py` accessors): flat assignment with broadcasting. Serves `setDesvarAt` (`driver.py:489-523`). -/
def assignWhole (val : List K) (value : NumArr K) : Except PyErr (List K) :=
  match value with
  | .s x => npAssign val (.slice ⟨0, val.length, none⟩) [x]
  | .a l => npAssign val (.slice ⟨0, val.length, none⟩) l

/-- `unknowns[name][idx] = value` with an integer index array: on a 1-D array the entries, on a 2-D array the
rows (numpy indexes the first axis), where the value is broadcast along the last axis; a scalar variable is
read as a float, which does not support item assignment. Serves `setDesvarAt` (`driver.py:489-523`). -/
def assignIdx (shape : VShape) (val : List K) (idx : List Nat) (value : NumArr K) : Except PyErr (List K) :=
  let vals : List K := match value with | .s x => [x] | .a l => l
  match shape with
  | .scalar => .error .TypeError
  | .d1 => npAssign val (.arr idx) vals
  | .d2 cols =>
    if idx.any (fun k => decide (val.length ≤ k * cols)) then .error .IndexError
    else if vals.length = cols then
      idx.foldlM (fun v k => npAssign v (.slice ⟨k * cols, k * cols + cols, none⟩) vals) val
    else match vals with
      | [x] => idx.foldlM (fun v k => npAssign v (.slice ⟨k * cols, k * cols + cols, none⟩) [x]) val
      | _ => .error .ValueError

/-- `if index:` — python truth value of the optional index: `0` counts as absent. Serves `setDesvar` (`driver.py:466-523`). -/
def truthyIndex : Option Nat → Option Nat
  | some 0 => none
  | x => x

/-- The division by the scaler in `set_desvar` (`driver.py:493-499`). -/
def divScaler (scaler : NumArr K) (index : Option Nat) (value : NumArr K) : Except PyErr (NumArr K) :=
  match scaler, index with
  | .a l, some i => do NumArr.bc (· / ·) value (← (NumArr.a l).index i)
  | .a l, none => NumArr.bc (· / ·) value (.a l)
  | .s sc, _ => if sc ≠ 1 then NumArr.bc (· / ·) value (.s sc) else .ok value

/-- The subtraction of the adder in `set_desvar` (`driver.py:506-512`). -/
def subAdder (adder : NumArr K) (index : Option Nat) (value : NumArr K) : Except PyErr (NumArr K) :=
  match adder, index with
  | .a l, some i => do NumArr.bc (· - ·) value (← (NumArr.a l).index i)
  | .a l, none => NumArr.bc (· - ·) value (.a l)
  | .s ad, _ => if ad ≠ 0 then NumArr.bc (· - ·) value (.s ad) else .ok value

/-- `set_desvar` after the checks, `index` already tested for truth (`driver.py:489-523`). -/
def setDesvarAt (shape : VShape) (m : VoiMeta K) (value : NumArr K) (index : Option Nat) (val : List K) :
    Except PyErr (List K) := do
  let value ← divScaler m.scaler index value
  let value ← subAdder m.adder index value
  match index, m.indices with
  | some i, _ => assignIdx shape val [i] value
  | none, some idx => assignIdx shape val idx value
  | none, none => assignWhole val value

/-- `set_desvar` (`driver.py:466-523`) for a variable with flat value `val`. -/
def setDesvar (shape : VShape) (m : VoiMeta K) (value : NumArr K) (index : Option Nat) (val : List K) :
    Except PyErr (List K) :=
  match truthyIndex index with
  | some i =>
    if val.length ≤ i then .error .IndexError   -- `val[index]`
    else setDesvarAt shape m value (some i) val
  | none =>
    if val.length = 0 then .ok val
    else setDesvarAt shape m value none val

/-- What the driver class supports (`driver.py:36-46`). -/
structure Supports where
  equality : Bool := true
  inequality : Bool := true
  twoSided : Bool := true

/-- Metadata of a constraint. Serves `addConstraint` (`driver.py:600-707`). -/
structure ConMeta (K : Type) extends VoiMeta K where
  lower : Option (NumArr K)
  upper : Option (NumArr K)
  equals : Option (NumArr K)
  linear : Bool

/-- `if bound is not None: bound = (bound + adder)*scaler`. Serves `addConstraint` (`driver.py:600-707`). -/
def scaleOpt (b : Option (NumArr K)) (adder scaler : NumArr K) : Except PyErr (Option (NumArr K)) :=
  match b with
  | none => .ok none
  | some b => do return some (← scaleBound b adder scaler)

/-- `add_constraint` (`driver.py:600-707`). -/
def addConstraint (sup : Supports) (cons : List (String × ConMeta K)) (name : String)
    (lower upper equals : Option (NumArr K)) (linear : Bool) (indices : Option (List Nat))
    (adder scaler : NumArr K) : Except PyErr (List (String × ConMeta K)) :=
  if (cons.lookup name).isSome then .error .RuntimeError
  else if equals.isSome && (lower.isSome || upper.isSome) then .error .RuntimeError
  else if equals.isSome && !sup.equality then .error .RuntimeError
  else if equals.isNone && !sup.inequality then .error .RuntimeError
  else if lower.isSome && upper.isSome && !sup.twoSided then .error .RuntimeError
  else if lower.isNone && upper.isNone && equals.isNone then .error .RuntimeError
  else do
    let lower ← scaleOpt lower adder scaler
    let upper ← scaleOpt upper adder scaler
    let equals ← scaleOpt equals adder scaler
    return cons ++ [(name, ⟨⟨adder, scaler, truthyIndices indices⟩, lower, upper, equals, linear⟩)]

/-- filter arguments of `get_constraints`. Serves `getConstraints` (`driver.py:709-745`). -/
inductive CType where
  | all | eq | ineq
/-- Serves `getConstraints` (`driver.py:709-745`). -/
inductive LinType where
  | all | linear | nonlinear

/-- names returned by `get_constraints` (`driver.py:709-745`); the values are `getVoi` of each. -/
def getConstraints (cons : List (String × ConMeta K)) (ct : CType) (lt : LinType) : List (String × ConMeta K) :=
  cons.filter fun p =>
    !(match lt with
      | .linear => !p.2.linear
      | .nonlinear => p.2.linear
      | .all => false) &&
    !(match ct with
      | .eq => p.2.equals.isNone
      | .ineq => p.2.equals.isSome
      | .all => false)

end OpenMDAO
