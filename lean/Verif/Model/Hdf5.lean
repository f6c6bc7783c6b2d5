import Verif.Model.Recorder
import Verif.Model.Promotes
import Mathlib.Data.List.Sort
/-!
# Model of `HDF5Recorder` and `HDF5CaseReader`

`openmdao/recorders/hdf5_recorder.py`, `hdf5_reader.py`, `case.py`. An HDF5 file is a tree of groups, which have attributes, and of datasets. The names that are written contain no slash, so that each of them is one step in the tree. Of the attributes
`timestamp`, `success` and `msg`, which are written together, only `success` is modelled. Not modelled: the group `metadata`, the state of the file after an exception, empty arrays, compression. Existing names are taken to raise `ValueError` (older versions of
h5py raise `RuntimeError` for datasets).
-/
namespace OpenMDAO

variable {V : Type}

/-- A node of the file. Serves `hPart` (`hdf5_recorder.py:132-157`). -/
inductive HNode (V : Type)
  | data (v : V)
  | group (attrs : List (Str × Nat)) (kids : List (Str × HNode V))

/-- `node[k][k']…`. h5py, not code of /repo. -/
def HNode.at : HNode V → List Str → Option (HNode V)
  | n, [] => some n
  | .data _, _ :: _ => none
  | .group _ kids, k :: p =>
    match kids.lookup k with
    | none => none
    | some n => n.at p

/-- `require_group` of h5py: an existing group, or a new one; a dataset of that name raises `TypeError`. Serves `hIter` (`hdf5_recorder.py:102-157`). -/
def hRequire : Option (HNode V) → Except PyErr (List (Str × Nat) × List (Str × HNode V))
  | none => .ok ([], [])
  | some (.group a kids) => .ok (a, kids)
  | some (.data _) => .error .TypeError

/-- `create_group`, `create_dataset`. Serves `hDerData` (`hdf5_recorder.py:185-197`). -/
def hCreate (kids : List (Str × HNode V)) (k : Str) (n : HNode V) : Except PyErr (List (Str × HNode V)) :=
  if (kids.lookup k).isSome then .error .ValueError else .ok (dictSet kids k n)

/-- The derivatives handed to `record_derivatives`. Serves `hDerData` (`hdf5_recorder.py:185-197`). -/
inductive HDer (V : Type)
  | arr (v : V)
  | dict (l : List (Str × List (Str × V)))
  | other

/-- One of the three groups of an iteration (`hdf5_recorder.py:132-157`). The values of a vector have different names. `numeric` tells numbers and arrays from other values. -/
def hPart (numeric : V → Bool) (kids : List (Str × HNode V)) (part : Str × List (Str × V)) : Except PyErr (List (Str × HNode V)) :=
  if (kids.lookup part.1).isSome then .error .ValueError
  else if part.2.all fun e => numeric e.2 then .ok (dictSet kids part.1 (.group [] (part.2.map fun e => (e.1, .data e.2))))
  else .error .NotImplementedError

/-- A part that is recorded. Serves `hIter` (`hdf5_recorder.py:102-157`). -/
def hNamed (name : Str) : Option (List (Str × V)) → List (Str × List (Str × V))
  | none => []
  | some l => [(name, l)]

/-- The parts of an iteration in their order. Serves `hIter` (`hdf5_recorder.py:102-157`). -/
def hParts (d : RecData V) : List (Str × List (Str × V)) := hNamed "Parameters".toList d.p ++ hNamed "Unknowns".toList d.u ++ hNamed "Residuals".toList d.r

/-- `HDF5Recorder.record_iteration` (`hdf5_recorder.py:102-157`) after filtering. -/
def hIter (numeric : V → Bool) (f : List (Str × HNode V)) (key : Str) (success : Nat) (d : RecData V) : Except PyErr (List (Str × HNode V)) :=
  match hRequire (f.lookup key) with
  | .error e => .error e
  | .ok g =>
    match (hParts d).foldlM (hPart numeric) g.2 with
    | .error e => .error e
    | .ok kids => .ok (dictSet f key (.group (dictSet g.1 "success".toList success) kids))

/-- A dataset of a row. Serves `hRow` (`hdf5_recorder.py:192-195`). -/
def hCell (g : List (Str × HNode V)) (e : Str × V) : Except PyErr (List (Str × HNode V)) := hCreate g e.1 (.data e.2)

/-- The derivatives of one variable (`hdf5_recorder.py:192-195`). -/
def hRow (kids : List (Str × HNode V)) (row : Str × List (Str × V)) : Except PyErr (List (Str × HNode V)) :=
  match hRequire (kids.lookup row.1) with
  | .error e => .error e
  | .ok g =>
    match row.2.foldlM hCell g.2 with
    | .error e => .error e
    | .ok cells => .ok (dictSet kids row.1 (.group g.1 cells))

/-- The data of `record_derivatives` (`hdf5_recorder.py:185-197`). -/
def hDerData (kids : List (Str × HNode V)) : HDer V → Except PyErr (List (Str × HNode V))
  | .arr v => hCreate kids "Derivatives".toList (.data v)
  | .dict l =>
    match hRequire (kids.lookup "Derivatives".toList) with
    | .error e => .error e
    | .ok g =>
      match l.foldlM hRow g.2 with
      | .error e => .error e
      | .ok rows => .ok (dictSet kids "Derivatives".toList (.group g.1 rows))
  | .other => .error .ValueError

/-- `HDF5Recorder.record_derivatives` (`hdf5_recorder.py:159-197`). -/
def hDerivs (f : List (Str × HNode V)) (key : Str) (success : Nat) (d : HDer V) : Except PyErr (List (Str × HNode V)) :=
  match f.lookup key with
  | none => .error .KeyError
  | some (.data _) => .error .AttributeError
  | some (.group a kids) =>
    match hRequire (kids.lookup "Derivs".toList) with
    | .error e => .error e
    | .ok g =>
      match hDerData g.2 d with
      | .error e => .error e
      | .ok ds => .ok (dictSet f key (.group a (dictSet kids "Derivs".toList (.group (dictSet g.1 "success".toList success) ds))))

/-- One call. Serves `hdf5_recorder.py:102-200`. -/
def hStep (numeric : V → Bool) (o : RecOpts) (filtered : List (Str × Filt)) (f : List (Str × HNode V)) : RecOp V (HDer V) → Except PyErr (List (Str × HNode V))
  | .iter c success v =>
    match recIteration o filtered c v with
    | .error e => .error e
    | .ok d => hIter numeric f (formatCoord c) success d
  | .derivs c success d => if o.recD then hDerivs f (formatCoord c) success d else .ok f

/-- A whole history, beginning with a new file. Serves `hdf5_recorder.py:102-200`. -/
def hRun (numeric : V → Bool) (o : RecOpts) (filtered : List (Str × Filt)) (ops : List (RecOp V (HDer V))) : Except PyErr (List (Str × HNode V)) := ops.foldlM (hStep numeric o filtered) []

/-! ## Reading -/

/-- A python value: the value of a dataset or a dictionary. Serves `HNode.toPy` (`hdf5_reader.py:14-43`). -/
inductive PyTree (V : Type)
  | val (v : V)
  | dict (l : List (Str × PyTree V))

mutual
/-- `_group_to_dict` (`hdf5_reader.py:14-43`): attributes are not read. -/
def HNode.toPy : HNode V → PyTree V
  | .data v => .val v
  | .group _ kids => .dict (kidsToPy kids)
/-- The members of a group. Serves `HNode.toPy` (`hdf5_reader.py:14-43`). -/
def kidsToPy : List (Str × HNode V) → List (Str × PyTree V)
  | [] => []
  | (k, n) :: l => (k, n.toPy) :: kidsToPy l
end

/-- `d.get(key)`. Serves `h5Case` (`case.py:42-53`). -/
def PyTree.get (key : Str) : PyTree V → Option (PyTree V)
  | .val _ => none
  | .dict l => l.lookup key

/-- The attributes of a `Case` (`case.py:42-53`). -/
structure H5Case (V : Type) where
  success : Option (PyTree V)
  parameters : Option (PyTree V)
  unknowns : Option (PyTree V)
  derivs : Option (PyTree V)
  resids : Option (PyTree V)

/-- `Case.__init__` (`case.py:42-53`). -/
def h5Case (d : PyTree V) : H5Case V := ⟨d.get "success".toList, d.get "Parameters".toList, d.get "Unknowns".toList, d.get "Derivatives".toList, d.get "Residuals".toList⟩

/-- `HDF5CaseReader.get_case` with a text (`hdf5_reader.py:87-109`). -/
def h5GetCase (f : List (Str × HNode V)) (key : Str) : Except PyErr (H5Case V) :=
  match f.lookup key with
  | none => .error .KeyError
  | some n => .ok (h5Case n.toPy)

/-- `_case_keys` (`hdf5_reader.py:79-80`): h5py iterates over the names of a group in alphabetical order. -/
def h5Keys (f : List (Str × HNode V)) : List Str := (f.map (·.1)).insertionSort (· ≤ ·)

/-- `get_case` with a number. `hdf5_reader.py:86-120`. -/
def h5GetCaseAt (f : List (Str × HNode V)) (i : Int) : Except PyErr (H5Case V) :=
  let k := if i < 0 then i + (h5Keys f).length else i
  if k < 0 then .error .IndexError
  else
    match (h5Keys f)[k.toNat]? with
    | none => .error .IndexError
    | some key => h5GetCase f key

end OpenMDAO
