import Mathlib.Algebra.Group.Defs
import Mathlib.Algebra.BigOperators.Group.List.Defs
/-!
# Common vocabulary: python exceptions as values, python slices, flat numpy arrays

Nothing here models `/repo` code; it is the part of python / numpy behaviour the modelled code relies on.
-/
namespace OpenMDAO

/-- Python exceptions raised by the modelled code, as values (class only; message text is not modelled). Serves `npGet` (`data_transfer.py:110-126`). -/
inductive PyErr where
  | KeyError | ValueError | TypeError | RuntimeError | NameError | IndexError | AttributeError
  | ZeroDivisionError | AnalysisError | NotImplementedError | AssertionError | StopIteration
  deriving DecidableEq, Repr

/-- A python `slice(start, stop, step)` with non-negative bounds; `step = none` is python's `None`. Python and numpy, not code of /repo; used at `data_transfer.py:110-126`. -/
structure PySlice where
  start : Nat
  stop : Nat
  step : Option Nat
  deriving DecidableEq, Repr

/-- An index object: either a slice or an integer index array (non-negative entries). Python and numpy, not code of /repo; used at `data_transfer.py:110-126`. -/
inductive Idx where
  | slice (s : PySlice)
  | arr (l : List Nat)
  deriving DecidableEq, Repr

/-- Positions of a vector of length `n` selected by a python slice, in order: every `k` in
`[start, stop)` congruent to `start` modulo the step (python clips slices to the vector). Python and numpy, not code of /repo; used at `data_transfer.py:110-126`. -/
def PySlice.positions (s : PySlice) (n : Nat) : List Nat :=
  (List.range n).filter fun k => s.start ≤ k && k < s.stop && (k - s.start) % (s.step.getD 1) == 0

/-- Positions selected by an index object out of a vector of length `n`. Python and numpy, not code of /repo; used at `data_transfer.py:110-126`. -/
def Idx.positions (i : Idx) (n : Nat) : List Nat :=
  match i with
  | .slice s => s.positions n
  | .arr l => l

variable {α : Type*}

/-- `v[idx]` (numpy): `IndexError` for an integer index outside the array. Python and numpy, not code of /repo; used at `data_transfer.py:110-126`. -/
def npGet (v : List α) (idx : Idx) : Except PyErr (List α) :=
  (idx.positions v.length).mapM fun k =>
    match v[k]? with
    | some x => .ok x
    | none => .error .IndexError

/-- `v[idx] = vals` (numpy): `IndexError` outside the array, `ValueError` if the value cannot be
broadcast to the selection; with repeated positions the last assignment wins. Python and numpy, not code of /repo; used at `data_transfer.py:110-126`. -/
def npAssign (v : List α) (idx : Idx) (vals : List α) : Except PyErr (List α) :=
  let ps := idx.positions v.length
  if ps.any (fun k => decide (v.length ≤ k)) then .error .IndexError
  else if ps.length = vals.length then
    .ok ((ps.zip vals).foldl (fun w p => w.set p.1 p.2) v)
  else match vals with
    | [x] => .ok (ps.foldl (fun w k => w.set k x) v)
    | _ => .error .ValueError

/-- `v[idx] += vals` (numpy, buffered): the sums are computed from the old contents and then assigned,
so a repeated position receives only one of its contributions. Python and numpy, not code of /repo; used at `data_transfer.py:110-126`. -/
def npAddAssign [Add α] (v : List α) (idx : Idx) (vals : List α) : Except PyErr (List α) := do
  let old ← npGet v idx
  if old.length = vals.length then npAssign v idx (List.zipWith (· + ·) old vals)
  else match vals with
    | [x] => npAssign v idx (old.map (· + x))
    | _ => .error .ValueError

/-- `numpy.add.at(v, idx, vals)` (unbuffered): every contribution is added. Python and numpy, not code of /repo; used at `data_transfer.py:110-126`. -/
def npAddAt [Add α] (v : List α) (idx : Idx) (vals : List α) : Except PyErr (List α) :=
  let ps := idx.positions v.length
  if ps.any (fun k => decide (v.length ≤ k)) then .error .IndexError
  else if ps.length = vals.length then
    .ok ((ps.zip vals).foldl (fun w p => w.modify p.1 (· + p.2)) v)
  else match vals with
    | [x] => .ok (ps.foldl (fun w k => w.modify k (· + x)) v)
    | _ => .error .ValueError

end OpenMDAO
