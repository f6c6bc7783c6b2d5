import Verif.Model.ParGroup
import Verif.Model.ArrayUtil
/-!
# Model of the set-up of communicators over the whole tree

`get_req_procs` and `_setup_communicators` of `core/system.py` 429-456, `core/component.py` 424-452, `core/group.py` 381-399 and 1342-1363, `core/parallel_group.py` 93-265,
`core/parallel_fd_group.py` 66-129 and `core/problem.py` 2320-2343, under MPI. The set-up is modelled as one process executes it: the argument is the communicator this process is given, the result is
what every component of the tree, in order of declaration, holds afterwards on this process. All processes execute the same function, each with its own rank.

Simplified: `comm.Split(color)` (no key) gives the processes with the same color a communicator of their number, ordered by the old rank. Members of a parallel group are set up in order of declaration
instead of bucket by bucket; the order only decides which of several exceptions is met first. `comm.size` of `MPI.COMM_NULL` raises `MPI.Exception`, which is a `RuntimeError` (mpi4py, not part of the
repository). Not modelled: directories, warnings, what the other processes do once one has raised, and `get_req_procs` of a driver (`driver.py:158-166` passes on that of the root).
-/
namespace OpenMDAO

/-- The communicator offered to a system, as one process sees it: `MPI.COMM_NULL`, or one with a size and the rank of this process. Serves `parSub` (`parallel_group.py:256-265`). -/
inductive PComm where
  | null
  | comm (size rank : Nat)
  deriving DecidableEq, Repr

/-- A tree of systems. A component is the pair its `get_req_procs` returns. Serves `CTree.req` (`system.py:429-437`). -/
inductive CTree where
  | comp (req : Req)
  | group (subs : List CTree)
  | par (subs : List CTree)
  | fd (num : Nat) (subs : List CTree)

/-- What a component holds on this process after the set-up: `_setup_communicators` was never called (`comm` is still `None`, `system.py:124`), it was called with `COMM_NULL`, or the component has a
communicator. Only in the second case are its variables marked `remote` (`component.py:448-452`): in the first nobody calls the function that marks them. -/
inductive Place where
  | unset
  | null
  | on (size rank : Nat)
  deriving DecidableEq, Repr

/-- One step of the loop in `Group.get_req_procs` (`group.py:1353-1360`). -/
def groupReqStep (acc : Req) (r : Req) : Req :=
  ⟨Nat.max acc.min r.min,
   match acc.max with
   | none => none
   | some m => match r.max with
     | none => none
     | some k => some (Nat.max m k)⟩

/-- `Group.get_req_procs` (`group.py:1342-1362`). -/
def groupReq (subs : List Req) : Req := subs.foldl groupReqStep ⟨1, some 1⟩

/-- `ParallelFDGroup.get_req_procs` (`parallel_fd_group.py:117-131`). -/
def fdReq (num : Nat) (r : Req) : Req := ⟨r.min * num, r.max.map (· * num)⟩

mutual
/-- `get_req_procs` of a system: `System` (`system.py:429-437`, overridden by components), `Group`, `ParallelGroup` (`parallel_group.py:93-120`), `ParallelFDGroup`. -/
def CTree.req : CTree → Req
  | .comp r => r
  | .group subs => groupReq (treeReqs subs)
  | .par subs => ⟨(parReqProcs (treeReqs subs)).1, (parReqProcs (treeReqs subs)).2⟩
  | .fd num subs => fdReq num (groupReq (treeReqs subs))
/-- `get_req_procs` of every subsystem. Serves `CTree.req` (`system.py:429-437`). -/
def treeReqs : List CTree → List Req
  | [] => []
  | t :: ts => t.req :: treeReqs ts
end

mutual
/-- The number of components of a tree. Serves `setupTree` (`component.py:424-452`). -/
def CTree.count : CTree → Nat
  | .comp _ => 1
  | .group subs => treeCounts subs
  | .par subs => treeCounts subs
  | .fd _ subs => treeCounts subs
/-- The number of components of some trees. Serves `setupTree` (`component.py:424-452`). -/
def treeCounts : List CTree → Nat
  | [] => 0
  | t :: ts => t.count + treeCounts ts
end

/-- `comm.Split(color)`: the communicator of the processes with the color `c`, and the rank of this process in it. Serves `parSub` (`parallel_group.py:256-265`). -/
def splitComm (colors : List (Option Nat)) (rank : Nat) (c : Option Nat) : PComm := .comm (colors.count c) ((colors.take rank).count c)

/-- The communicator that a member of a parallel group is offered on a process of color `c`: the new one for the members of bucket `c`, `COMM_NULL` for the others (`parallel_group.py:256-265`). -/
def parSub (colors : List (Option Nat)) (rank : Nat) (bs : List Bucket) (c : Nat) (i : Nat) : PComm :=
  match bs[c]? with
  | none => .null
  | some b => if i ∈ b.2 then splitComm colors rank (some c) else .null

/-- `color` of a `ParallelFDGroup` (`parallel_fd_group.py:93-95`). -/
def pfdColors (sizes : List Nat) : List (Option Nat) := sizes.zipIdx.flatMap fun p => List.replicate p.1 (some p.2)

/-- Whether the communicator is too small: `comm.size < minp`, not tested for `COMM_NULL` (`system.py:453`). -/
def tooSmall (minp : Nat) : PComm → Bool
  | .null => false
  | .comm s _ => decide (s < minp)

/-- What is stored for a component: `self.comm = comm`, with the variables marked if that is `COMM_NULL` (`system.py:458`, `component.py:448-452`). -/
def placeOf : PComm → Place
  | .null => .null
  | .comm s k => .on s k

/-- The communicator of a `ParallelFDGroup` on this process (`parallel_fd_group.py:80-104`). -/
def fdComm (num : Nat) (c : PComm) : Except PyErr PComm :=
  if num < 1 then .error .ValueError
  else if num > 1 then
    match c with
    | .null => .error .RuntimeError
    | .comm s k =>
      match evenlyDistribIdxs num s with
      | .error e => .error e
      | .ok p =>
        match (pfdColors p.1)[k]? with
        | none => .error .IndexError
        | some x => .ok (splitComm (pfdColors p.1) k x)
  else .ok c

mutual
/-- `_setup_communicators` of a system on one process. `none`: still in a loop of the allocation when the fuel is used up.
* component: `component.py:424-452`, `system.py:439-458`;
* group: `group.py:393-399`, the check of `System` first, then every subsystem with the same communicator;
* parallel group: `parallel_group.py:134-265`; with `COMM_NULL` it is a serial group; a process without a color returns before its subsystems are set up;
* parallel FD group: `parallel_fd_group.py:77-115`, without the check of `System`. -/
def setupTree (fuel : Nat) : CTree → PComm → Option (Except PyErr (List Place))
  | .comp r, c => if tooSmall r.min c then some (.error .RuntimeError) else some (.ok [placeOf c])
  | .group subs, c =>
    if tooSmall (groupReq (treeReqs subs)).min c then some (.error .RuntimeError) else setupTrees fuel subs (fun _ => c) 0
  | .par subs, .null => setupTrees fuel subs (fun _ => .null) 0
  | .par subs, .comm s k =>
    match parAlloc fuel s (treeReqs subs) with
    | none => none
    | some (.error e) => some (.error e)
    | some (.ok a) =>
      match (parColors s a)[k]? with
      | none => some (.error .IndexError)
      | some none => some (.ok (List.replicate (treeCounts subs) .unset))
      | some (some c) => setupTrees fuel subs (parSub (parColors s a) k a.buckets c) 0
  | .fd num subs, c =>
    match fdComm num c with
    | .error e => some (.error e)
    | .ok c' => setupTrees fuel subs (fun _ => c') 0
/-- The loop over the subsystems; `f i` is the communicator that subsystem `i` is offered. Serves `setupTree` (`component.py:424-452`). -/
def setupTrees (fuel : Nat) : List CTree → (Nat → PComm) → Nat → Option (Except PyErr (List Place))
  | [], _, _ => some (.ok [])
  | t :: ts, f, i =>
    match setupTree fuel t (f i) with
    | none => none
    | some (.error e) => some (.error e)
    | some (.ok p) =>
      match setupTrees fuel ts f (i + 1) with
      | none => none
      | some (.error e) => some (.error e)
      | some (.ok ps) => some (.ok (p ++ ps))
end

/-- The check of `Problem._setup_communicators` (`problem.py:2325-2338`): whether the number of processes is accepted. -/
def problemAccepts (r : Req) (size : Nat) : Bool :=
  match r.max with
  | none => decide (r.min ≤ size)
  | some m => decide (size ≤ m) && decide (r.min ≤ size)

/-- The set-up of a problem of `size` processes on process `rank` (`problem.py:2320-2343`, `driver.py:158-180`). -/
def problemComms (fuel : Nat) (t : CTree) (size rank : Nat) : Option (Except PyErr (List Place)) :=
  if problemAccepts t.req size then setupTree fuel t (.comm size rank) else some (.error .RuntimeError)

end OpenMDAO
