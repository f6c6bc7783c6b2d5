import Verif.Model.Numpy
import Verif.Model.Promotes
/-!
# Model of `MetaModel`: training matrices, prediction inputs and slices of the Jacobian

`openmdao/components/meta_model.py`. Values are elements of a type `K` with a zero; arrays are flattened (`.flat`, row-major), matrices are lists of rows.
The surrogates are not modelled: their calls are collected.
-/
namespace OpenMDAO

/-- One training value as python sees it: a `float`, another number (a python or numpy integer), or something that `np.array` turns into an array, given flattened. Serves `fillRows` (`meta_model.py:331-334`). -/
inductive TrVal (K : Type) where
  | flt (x : K)
  | int (x : K)
  | arr (l : List K)
  deriving DecidableEq

/-- `np.array(v).flat`. Serves `fillRows` (`meta_model.py:331-334`). -/
def TrVal.flat {K : Type} : TrVal K → List K
  | .flt x => [x]
  | .int x => [x]
  | .arr l => l

/-- `isinstance(v, float)`. Serves `fillParams` (`meta_model.py:323-334`). -/
def TrVal.isFloat {K : Type} : TrVal K → Bool
  | .flt _ => true
  | _ => false

/-- The number stored when the value is one entry of a list assigned to a column. Serves `inputsLoop` (`meta_model.py:218-244`). -/
def TrVal.num {K : Type} : TrVal K → Except PyErr K
  | .flt x => .ok x
  | .int x => .ok x
  | .arr _ => .error .ValueError

/-- `row[idx:idx+sz] = flat`: numpy shortens the slice to the row, and stretches a single value. Serves `fillRows` (`meta_model.py:331-334`). -/
def setSlice {K : Type} (row : List K) (idx sz : Nat) (flat : List K) : Except PyErr (List K) :=
  let a := min idx row.length
  let b := min (idx + sz) row.length
  if flat.length = b - a then .ok (row.take a ++ flat ++ row.drop b)
  else match flat with
    | [x] => .ok (row.take a ++ List.replicate (b - a) x ++ row.drop b)
    | _ => .error .ValueError

/-- `row[idx] = x`. Serves `inputsLoop` (`meta_model.py:218-244`). -/
def setAt {K : Type} (row : List K) (idx : Nat) (x : K) : Except PyErr (List K) :=
  if idx < row.length then .ok (row.set idx x) else .error .IndexError

/-- The component: names and sizes of the parameters, names and sizes (`np.prod(shape)`) of the outputs, and the training data seen so far (`meta_model.py:57-77,95-104,123-140`). -/
structure MetaM (K : Type) where
  params : List (String × Nat)
  outs : List (String × Nat)
  trainIn : List (List K)
  trainOut : List (String × List (List K))

/-- The values of `self.params['train:…']`. Serves `mmCountParams` (`meta_model.py:288-298`). -/
abbrev TrainData (K : Type) := List (String × List (TrVal K))

/-- `self.params['train:' + name]`. Serves `mmCountParams` (`meta_model.py:288-298`). -/
def trainVal {K : Type} (data : TrainData K) (name : String) : Except PyErr (List (TrVal K)) :=
  match data.lookup name with
  | none => .error .KeyError
  | some v => .ok v

/-- First loop of `_train` (`meta_model.py:288-298`). -/
def mmCountParams {K : Type} (data : TrainData K) : Option Nat → List (String × Nat) → Except PyErr (Option Nat)
  | n, [] => .ok n
  | none, (p, _) :: ps =>
    match trainVal data p with
    | .error e => .error e
    | .ok v => mmCountParams data (some v.length) ps
  | some n, (p, _) :: ps =>
    match trainVal data p with
    | .error e => .error e
    | .ok v => if v.length = n then mmCountParams data (some n) ps else .error .RuntimeError

/-- Second loop of `_train` (`meta_model.py:300-307`); a component without parameters has `num_sample = None`, which equals no length. -/
def mmCountOuts {K : Type} (data : TrainData K) (n : Option Nat) : List (String × Nat) → Except PyErr Unit
  | [] => .ok ()
  | (o, _) :: os =>
    match trainVal data o with
    | .error e => .error e
    | .ok v => if some v.length = n then mmCountOuts data n os else .error .RuntimeError

/-- `for row_idx, v in enumerate(val): new_input[row_idx, idx:idx+sz] = v.flat` (`meta_model.py:331-334`): the rows as they are when the loop ends, and the exception that ended it. -/
def fillRows {K : Type} (idx sz : Nat) : List (List K) → List (TrVal K) → List (List K) × Option PyErr
  | r :: rs, v :: vs =>
    match setSlice r idx sz v.flat with
    | .error e => (r :: rs, some e)
    | .ok r' => (r' :: (fillRows idx sz rs vs).1, (fillRows idx sz rs vs).2)
  | rs, _ => (rs, none)

/-- One row of a column assignment. Serves `fillCol` (`meta_model.py:328`). -/
def colStep {K : Type} (idx : Nat) (rv : List K × TrVal K) : Except PyErr (List K) :=
  match rv.2.num with
  | .error e => .error e
  | .ok x => setAt rv.1 idx x

/-- `new_input[:, idx] = val` (`meta_model.py:328`): all rows or none. Lists that numpy would accept although an entry is an array (arrays of one element) are taken as errors. -/
def fillCol {K : Type} (idx : Nat) (rows : List (List K)) (vs : List (TrVal K)) : List (List K) × Option PyErr :=
  match (rows.zip vs).mapM (colStep idx) with
  | .error e => (rows, some e)
  | .ok rows' => (rows', none)

/-- Is the first entry a float: `isinstance(val[0], float)`. Serves `fillParams` (`meta_model.py:323-334`). -/
def firstFloat {K : Type} (vs : List (TrVal K)) : Bool :=
  match vs with
  | [] => false
  | v :: _ => v.isFloat

/-- Third loop of `_train` (`meta_model.py:323-334`): `idx` moves on only in the first branch. -/
def fillParams {K : Type} (data : TrainData K) : Nat → List (String × Nat) → List (List K) → List (List K) × Option PyErr
  | _, [], rows => (rows, none)
  | idx, (p, sz) :: ps, rows =>
    match trainVal data p with
    | .error e => (rows, some e)
    | .ok vs =>
      if firstFloat vs then
        match fillCol idx rows vs with
        | (rows', some e) => (rows', some e)
        | (rows', none) => fillParams data (idx + 1) ps rows'
      else
        match fillRows idx sz rows vs with
        | (rows', some e) => (rows', some e)
        | (rows', none) => fillParams data idx ps rows'

/-- New rows of one output (`meta_model.py:353-361`). -/
def fillOut {K : Type} (sz : Nat) (rows : List (List K)) (vs : List (TrVal K)) : List (List K) × Option PyErr :=
  if firstFloat vs then fillCol 0 rows vs else fillRows 0 sz rows vs

/-- A call `surrogate.train(inputs, outputs)` for an output. Serves `trainOuts` (`meta_model.py:337-365`). -/
abbrev TrainCall (K : Type) := String × List (List K) × List (List K)

/-- Zero rows. Serves `trainOuts` (`meta_model.py:337-365`). -/
def zeroRows {K : Type} [Zero K] (n w : Nat) : List (List K) := List.replicate n (List.replicate w 0)

/-- `self._training_output[name] = outputs`. Serves `trainOuts` (`meta_model.py:337-365`). -/
def MetaM.putOut {K : Type} (m : MetaM K) (o : String) (rows : List (List K)) : MetaM K :=
  { m with trainOut := dictSet m.trainOut o rows }

/-- Old rows of an output. A matrix with another number of rows or columns does not fit into `outputs[:num_old_pts, :]` (`meta_model.py:344-345`; numpy would stretch a single row, which is taken as an error too). -/
def oldOut {K : Type} (m : MetaM K) (o : String) (nold sz : Nat) : Except PyErr (List (List K)) :=
  if nold = 0 then .ok []
  else
    match m.trainOut.lookup o with
    | none => .error .KeyError
    | some rows => if rows.length = nold ∧ rows.all (fun r => r.length = sz) then .ok rows else .error .ValueError

/-- Outputs loop of `_train` (`meta_model.py:337-365`). `nold` is 0 without warm restart. The calls of the surrogates so far are collected. -/
def trainOuts {K : Type} [Zero K] (data : TrainData K) (n nold : Nat) : MetaM K → List (TrainCall K) → List (String × Nat) → MetaM K × Except PyErr (List (TrainCall K))
  | m, calls, [] => (m, .ok calls)
  | m, calls, (o, sz) :: os =>
    if 0 < n then
      match oldOut m o nold sz with
      | .error e => (m, .error e)
      | .ok old =>
        match trainVal data o with
        | .error e => (m.putOut o (old ++ zeroRows n sz), .error e)
        | .ok vs =>
          match fillOut sz (zeroRows n sz) vs with
          | (rows, some e) => (m.putOut o (old ++ rows), .error e)
          | (rows, none) => trainOuts data n nold (m.putOut o (old ++ rows)) (calls ++ [(o, m.trainIn, old ++ rows)]) os
    else
      match m.trainOut.lookup o with
      | none => (m, .error .KeyError)
      | some rows => trainOuts data n nold m (calls ++ [(o, m.trainIn, rows)]) os

/-- `sum` of the sizes: `_input_size` (`meta_model.py:104`). -/
def MetaM.inputSize {K : Type} (m : MetaM K) : Nat := (m.params.map (·.2)).sum

/-- `self._training_input = inputs` and the loops after it (`meta_model.py:309-365`). -/
def mmFill {K : Type} [Zero K] (m : MetaM K) (warm : Bool) (data : TrainData K) (n : Nat) : MetaM K × Except PyErr (List (TrainCall K)) :=
  let old := if warm then m.trainIn else []
  match (if 0 < n then fillParams data 0 m.params (zeroRows n m.inputSize) else ([], none)) with
  | (rows, some e) => ({ m with trainIn := old ++ rows }, .error e)
  | (rows, none) => trainOuts data n old.length { m with trainIn := old ++ rows } [] m.outs

/-- `MetaModel._train` (`meta_model.py:283-367`): the component afterwards, and the calls of the surrogates or the exception. Without parameters `num_sample` stays `None`. -/
def mmTrain {K : Type} [Zero K] (m : MetaM K) (warm : Bool) (data : TrainData K) : MetaM K × Except PyErr (List (TrainCall K)) :=
  match mmCountParams data none m.params with
  | .error e => (m, .error e)
  | .ok n =>
    match mmCountOuts data n m.outs with
    | .error e => (m, .error e)
    | .ok () =>
      match n with
      | none => (m, .error .TypeError)
      | some n => mmFill m warm data n

/-- A parameter value at prediction: an array (or list) or a number. Serves `inputsLoop` (`meta_model.py:218-244`). -/
inductive PVal (K : Type) where
  | num (x : K)
  | arr (l : List K)

/-- `MetaModel._params_to_inputs` (`meta_model.py:218-244`), the loop. -/
def inputsLoop {K : Type} (vals : List (String × PVal K)) : Nat → List (String × Nat) → List K → Except PyErr (List K)
  | _, [], inputs => .ok inputs
  | idx, (p, sz) :: ps, inputs =>
    match vals.lookup p with
    | none => .error .KeyError
    | some (.arr l) =>
      match setSlice inputs idx sz l with
      | .error e => .error e
      | .ok inputs' => inputsLoop vals (idx + sz) ps inputs'
    | some (.num x) =>
      match setAt inputs idx x with
      | .error e => .error e
      | .ok inputs' => inputsLoop vals (idx + 1) ps inputs'

/-- `MetaModel._params_to_inputs` with `out=None`. `meta_model.py:218-244`. -/
def paramsToInputs {K : Type} [Zero K] (m : MetaM K) (vals : List (String × PVal K)) : Except PyErr (List K) :=
  inputsLoop vals 0 m.params (List.replicate m.inputSize 0)

/-- The slices of `MetaModel.linearize` (`meta_model.py:269-281`) for one output: `sjac[:, idx:idx+sz]`. -/
def jacSlices {K : Type} (sjac : List (List K)) : Nat → List (String × Nat) → List (String × List (List K))
  | _, [] => []
  | idx, (p, sz) :: ps => (p, sjac.map fun row => (row.drop idx).take sz) :: jacSlices sjac (idx + sz) ps

end OpenMDAO
