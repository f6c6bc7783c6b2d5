import Verif.Model.Options
import Mathlib.Data.List.Sort
/-!
# Model of processor allocation in a parallel group

`openmdao/core/parallel_group.py`: `get_req_procs` (93-120) and the allocation part of `_setup_communicators` (122-265, under MPI). A subsystem is its pair of requirements
`(min, max)`, where `max = none` means unbounded, as returned by its own `get_req_procs`. While loops run on fuel; running out of fuel is the explicit outcome `none`.
Not modelled: `comm.Split` itself (a communicator is the list of ranks that gave the same color), warnings, directories, and the recursion into the subsystems.
-/
namespace OpenMDAO

/-- What one subsystem asks for. Serves `reqStep` (`parallel_group.py:104-112`). -/
structure Req where
  min : Nat
  max : Option Nat
  deriving DecidableEq, Repr

/-- One step of the loop over the subsystems in `ParallelGroup.get_req_procs` (`parallel_group.py:104-112`). -/
def reqStep (acc : Nat × Option Nat) (r : Req) : Nat × Option Nat :=
  (if r.min > acc.1 then r.min else acc.1,
   match acc.2, r.max with
   | none, _ => none
   | some _, none => none
   | some a, some b => some (a + b))

/-- `ParallelGroup.get_req_procs` (`parallel_group.py:93-120`). -/
def parReqProcs (subs : List Req) : Nat × Option Nat :=
  let r := subs.foldl reqStep (0, some 0)
  (if r.1 = 0 then 1 else r.1, if r.2 = some 0 then some 1 else r.2)

/-- `assigned_procs[i] < max_req_procs[i]`, with `None` as no bound (`parallel_group.py:177-178`, `226-227`). -/
def belowMax (mx : Option Nat) (n : Nat) : Bool :=
  match mx with
  | none => true
  | some m => decide (n < m)

/-- One pass of the `for` loop of the round robin assignment, left by `break` when the limit is reached (`parallel_group.py:176-182`). -/
def rrPass (limit : Nat) : List (Option Nat) → List Nat → Nat → List Nat × Nat
  | mx :: ms, a :: as, n =>
    if belowMax mx a then
      if n + 1 = limit then ((a + 1) :: as, n + 1)
      else ((a + 1) :: (rrPass limit ms as (n + 1)).1, (rrPass limit ms as (n + 1)).2)
    else (a :: (rrPass limit ms as n).1, (rrPass limit ms as n).2)
  | _, as, n => (as, n)

/-- `while assigned < limit` (`parallel_group.py:175-182`). -/
def rrLoop (limit : Nat) (mxs : List (Option Nat)) : Nat → List Nat × Nat → Option (List Nat × Nat)
  | fuel, st =>
    if st.2 < limit then
      match fuel with
      | 0 => none
      | f + 1 => rrLoop limit mxs f (rrPass limit mxs st.1 st.2)
    else some st

/-- A bucket: number of processes and the subsystems that share them, `(procs, [sub_idx, ..])`. Serves `shortest` (`parallel_group.py:211-213`). -/
abbrev Bucket := Nat × List Nat

/-- Python's `<` on lists of numbers. Serves `pickBucket` (`parallel_group.py:211-215`). -/
def listLt : List Nat → List Nat → Bool
  | [], [] => false
  | [], _ :: _ => true
  | _ :: _, [] => false
  | a :: as, b :: bs => if a = b then listLt as bs else decide (a < b)

/-- Python's `<` on buckets (tuples). Serves `pickBucket` (`parallel_group.py:211-215`). -/
def bucketLt (a b : Bucket) : Bool := if a.1 = b.1 then listLt a.2 b.2 else decide (a.1 < b.1)

/-- First element of `sorted(l)`: the earliest smallest one. Serves `pickBucket` (`parallel_group.py:211-215`). -/
def minBucket : Bucket → List Bucket → Bucket
  | b, [] => b
  | b, c :: cs => minBucket (if bucketLt c b then c else b) cs

/-- Length of the shortest member list, `len(lenlist[0][1])` with `lenlist` sorted by length (`parallel_group.py:211-213`). -/
def shortest : Bucket → List Bucket → Nat
  | b, [] => b.2.length
  | b, c :: cs => shortest (if c.2.length < b.2.length then c else b) cs

/-- The bucket that takes one more subsystem (`parallel_group.py:211-215`); `lenlist[0]` raises `IndexError` when no bucket is big enough. -/
def pickBucket (req : Nat) (buckets : List Bucket) : Except PyErr Bucket :=
  match buckets.filter (fun b => decide (b.1 ≥ req)) with
  | [] => .error .IndexError
  | b :: bs =>
    match (b :: bs).filter (fun c => decide (c.2.length = shortest b bs)) with
    | [] => .error .IndexError
    | c :: cs => .ok (minBucket c cs)

/-- `final[0][1].append(sub_idx)`: the member list is shared with the entry of `buckets` (`parallel_group.py:216`). The member lists of different buckets are different objects; they are
also different as values, since no subsystem is in two of them, so the entry is found by value. -/
def addToBucket (b : Bucket) (i : Nat) (buckets : List Bucket) : List Bucket :=
  buckets.map fun c => if c = b then (c.1, c.2 ++ [i]) else c

/-- One subsystem of the sorted list (`parallel_group.py:194-216`). State: buckets, remaining processes. `first` is `i == 0`. -/
def packStep (first : Bool) (st : List Bucket × Nat) (t : Nat × Nat) : Except PyErr (List Bucket × Nat) :=
  if st.2 ≥ t.1 then .ok (st.1 ++ [(t.1, [t.2])], st.2 - t.1)
  else if first then .error .RuntimeError
  else
    match pickBucket t.1 st.1 with
    | .error e => .error e
    | .ok b => .ok (addToBucket b t.2 st.1, st.2)

/-- The loop over the rest of the sorted list. Serves `pack` (`parallel_group.py:193-216`). -/
def packRest : List Bucket × Nat → List (Nat × Nat) → Except PyErr (List Bucket × Nat)
  | st, [] => .ok st
  | st, t :: ts =>
    match packStep false st t with
    | .error e => .error e
    | .ok st' => packRest st' ts

/-- The loop over the sorted list (`parallel_group.py:193-216`). -/
def pack (size : Nat) : List (Nat × Nat) → Except PyErr (List Bucket × Nat)
  | [] => .ok ([], size)
  | t :: ts =>
    match packStep true ([], size) t with
    | .error e => .error e
    | .ok st => packRest st ts

/-- `sorted([(n,i) ...], reverse=True)` (`parallel_group.py:191-192`): descending by requirement, then by index. -/
def sortedReqs (reqs : List Nat) : List (Nat × Nat) :=
  (reqs.zipIdx).insertionSort fun a b => a.1 > b.1 ∨ (a.1 = b.1 ∧ a.2 ≥ b.2)

/-- Whether subsystem `i` can use more than `n` processes; an index out of range cannot occur. Serves `canGrow` (`parallel_group.py:227-229`). -/
def canUse (mxs : List (Option Nat)) (i n : Nat) : Bool :=
  match mxs[i]? with
  | some mx => belowMax mx n
  | none => false

/-- Whether some member of the bucket can use another process (`parallel_group.py:227-229`). -/
def canGrow (mxs : List (Option Nat)) (b : Bucket) : Bool := b.2.any fun i => canUse mxs i b.1

/-- One pass of the loop that hands out left over processes (`parallel_group.py:224-234`). -/
def growPass (mxs : List (Option Nat)) : List Bucket → Nat → List Bucket × Nat
  | [], r => ([], r)
  | b :: bs, r =>
    if canGrow mxs b then
      if r - 1 = 0 then ((b.1 + 1, b.2) :: bs, r - 1)
      else ((b.1 + 1, b.2) :: (growPass mxs bs (r - 1)).1, (growPass mxs bs (r - 1)).2)
    else
      if r = 0 then (b :: bs, r)
      else (b :: (growPass mxs bs r).1, (growPass mxs bs r).2)

/-- `while remaining > 0` (`parallel_group.py:224-234`). -/
def growLoop (mxs : List (Option Nat)) : Nat → List Bucket × Nat → Option (List Bucket × Nat)
  | fuel, st =>
    if 0 < st.2 then
      match fuel with
      | 0 => none
      | f + 1 => growLoop mxs f (growPass mxs st.1 st.2)
    else some st

/-- `limit` (`parallel_group.py:163-169`). -/
def procLimit (size : Nat) (subs : List Req) : Nat :=
  match (parReqProcs subs).2 with
  | none => size
  | some _ => Nat.min size ((subs.map fun r => r.max.getD 0).sum)

/-- Result of the allocation: the buckets and the number of assigned processes. Serves `parAlloc` (`parallel_group.py:144-236`). -/
structure Alloc where
  buckets : List Bucket
  assigned : Nat
  deriving DecidableEq, Repr

/-- The allocation of `_setup_communicators` (`parallel_group.py:144-236`). `none`: still in a while loop when the fuel is used up. `assert(minproc > 0)` fails with `AssertionError`. Without
any subsystem `requested` is 0, `buckets` is never bound and its use raises `UnboundLocalError`, a `NameError` (`parallel_group.py:170`, `240`). -/
def parAlloc (fuel : Nat) (size : Nat) (subs : List Req) : Option (Except PyErr Alloc) :=
  if subs.any (fun r => decide (r.min = 0)) then some (.error .AssertionError)
  else if (subs.map Req.min).sum = 0 then some (.error .NameError)
  else if size ≥ (subs.map Req.min).sum then
    match rrLoop (procLimit size subs) (subs.map Req.max) fuel (List.replicate subs.length 0, 0) with
    | none => none
    | some st => some (.ok ⟨st.1.zipIdx.map fun p => (p.1, [p.2]), st.2⟩)
  else
    match pack size (sortedReqs (subs.map Req.min)) with
    | .error e => some (.error e)
    | .ok st =>
      match growLoop (subs.map Req.max) fuel st with
      | none => none
      | some st' => some (.ok ⟨st'.1, size - st'.2⟩)

/-- `color` (`parallel_group.py:241-247`); `none` is `MPI.UNDEFINED`. -/
def parColors (size : Nat) (a : Alloc) : List (Option Nat) :=
  (a.buckets.zipIdx.flatMap fun p => List.replicate p.1.1 (some p.2)) ++ (if size > a.assigned then List.replicate (size - a.assigned) none else [])

/-- The subsystems that are local to a process (`parallel_group.py:251-265`): those of the bucket whose number is the color of the process. `color[rank]` raises `IndexError` when the list
is too short. -/
def localSubs (size : Nat) (a : Alloc) (rank : Nat) : Except PyErr (List Nat) :=
  match (parColors size a)[rank]? with
  | none => .error .IndexError
  | some none => .ok []
  | some (some c) => .ok ((a.buckets.zipIdx.filter fun p => decide (p.2 = c)).flatMap fun p => p.1.2)

end OpenMDAO
