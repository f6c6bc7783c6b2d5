import Verif.Model.ArrayUtil
import Mathlib.Data.List.Dedup
import Mathlib.Data.List.Sort
/-!
# Model of `openmdao/core/data_transfer.py`
-/
namespace OpenMDAO

/-- Derivative / transfer mode, `'fwd'` or `'rev'`. Serves `mkScatter` (`data_transfer.py:61-69`). -/
inductive Mode where
  | fwd | rev
  deriving DecidableEq, Repr

/-- One entry of `DataTransfer.scatters` (`data_transfer.py:73,80-84`): source index object, target index
object and the `src_unique` flag. -/
structure Scatter where
  srcs : Idx
  tgts : Idx
  unique : Bool
  deriving DecidableEq, Repr

/-- `np.unique(srcs).size == srcs.size` for an index array (`data_transfer.py:67`). -/
def srcUnique (l : List Nat) : Bool := decide (l.dedup.length = l.length)

/-- Computation of one scatter from a pair of index arrays (`data_transfer.py:61-69`). -/
def mkScatter (mode : Mode) (c : List Nat × List Nat) : Scatter :=
  let srcs := toSlice c.1
  let tgts := toSlice c.2
  let uniq := match mode, srcs with
    | .rev, .arr l => srcUnique l
    | _, _ => true
  ⟨srcs, tgts, uniq⟩

/-- Merging of a new scatter with the previous one (`data_transfer.py:73-80`): `none` when they cannot be
combined into a larger slice. -/
def tryMerge (old new : Scatter) : Option Scatter :=
  match old.srcs, old.tgts, new.srcs, new.tgts with
  | .slice olds, .slice oldt, .slice srcs, .slice tgts =>
    if olds.stop = srcs.start ∧ oldt.stop = tgts.start ∧ olds.step = srcs.step ∧ oldt.step = tgts.step then
      some ⟨.slice ⟨olds.start, srcs.stop, srcs.step⟩, .slice ⟨oldt.start, tgts.stop, tgts.step⟩, new.unique⟩
    else none
  | _, _, _, _ => none

/-- One iteration of the loop at `data_transfer.py:60-84`. The accumulator holds the scatters in reverse
order, so its head is `scatters[-1]`. -/
def scatterStep (mode : Mode) (acc : List Scatter) (c : List Nat × List Nat) : List Scatter :=
  let new := mkScatter mode c
  match acc with
  | [] => [new]
  | old :: rest =>
    match tryMerge old new with
    | some m => m :: rest
    | none => new :: old :: rest

/-- `keyfunc` (`data_transfer.py:54-57`): first source index (fwd) or first target index (rev). -/
def sortKey (mode : Mode) (c : List Nat × List Nat) : Nat :=
  match mode with
  | .fwd => c.1.headD 0
  | .rev => c.2.headD 0

/-- `keyfunc` fails (`IndexError`) on a connection whose relevant index array is empty
(`data_transfer.py:54-57`). -/
def keyFails (mode : Mode) (c : List Nat × List Nat) : Bool :=
  match mode with
  | .fwd => c.1.isEmpty
  | .rev => c.2.isEmpty

/-- `DataTransfer.__init__` (`data_transfer.py:40-86`): sort by `keyfunc` (python's stable sort; insertion sort is the
stable sort used here, all stable sorts agree), convert to
slices, merge. Indexing `[0]` of an empty array raises `IndexError`. -/
def mkTransfer (mode : Mode) (conns : List (List Nat × List Nat)) : Except PyErr (List Scatter) :=
  if conns.any (keyFails mode) then
    .error .IndexError
  else
    let sorted := conns.insertionSort (fun a b => sortKey mode a ≤ sortKey mode b)
    .ok ((sorted.foldl (scatterStep mode) []).reverse)

variable {α β : Type}

/-- `DataTransfer.transfer(mode='rev')` (`data_transfer.py:110-118`): returns the new source vector; the
target vector is only read. -/
def transferRev [Add α] (scatters : List Scatter) (src tgt : List α) : Except PyErr (List α) :=
  scatters.foldlM (fun v s => do
    let vals ← npGet tgt s.tgts
    if s.unique then npAddAssign v s.srcs vals else npAddAt v s.srcs vals) src

/-- `DataTransfer.transfer(mode='fwd')`, one vector (`data_transfer.py:125-126`). -/
def transferFwdVec (scatters : List Scatter) (src tgt : List α) : Except PyErr (List α) :=
  scatters.foldlM (fun v s => do
    let vals ← npGet src s.srcs
    npAssign v s.tgts vals) tgt

/-- Contents of a vector wrapper as seen by a transfer: real part, imaginary part (only used under complex
step) and pass-by-object values by name. `FileRef` copying (`data_transfer.py:131-132`) is not modelled. -/
structure XferVec (α β : Type) where
  vec : List α
  imag : List α
  objs : String → β

/-- `DataTransfer.transfer(mode='fwd')` (`data_transfer.py:119-134`). -/
def transferFwd (scatters : List Scatter) (byobj : List (String × String)) (inComplexStep deriv : Bool)
    (src tgt : XferVec α β) : Except PyErr (XferVec α β) := do
  let vec ← transferFwdVec scatters src.vec tgt.vec
  let imag ← if inComplexStep then transferFwdVec scatters src.imag tgt.imag else pure tgt.imag
  let objs := if deriv then tgt.objs
    else byobj.foldl (fun o c => fun n => if n = c.1 then src.objs c.2 else o n) tgt.objs
  return ⟨vec, imag, objs⟩

end OpenMDAO
