import Verif.Model.Recorder
import Verif.Model.Gather
import Verif.Model.Explicit
/-! # Recording by several processes (`openmdao/recorders/recording_manager.py`)

All processes of the communicator of the recorded system call `startup` and `record_iteration` together.  The
data of all processes is given as a list indexed by their rank in that communicator.  Not modelled: cases
gathered over the communicator of a parallel design of experiments (`_casecomm` is None), and metadata and
derivatives, which need no gathering. -/
namespace OpenMDAO
variable {V : Type}

/-- An attached recorder: its options, and whether it can record in parallel (`_parallel`: `DumpRecorder` and
`InMemoryRecorder` can, dump_recorder.py:54, inmem_recorder.py:40; the others cannot, base_recorder.py:55). -/
structure MRec where
  o : RecOpts
  par : Bool

/-- A process: its rank among all processes (`MPI.COMM_WORLD.rank`), the names of the variables that are local
to it, and its vectors; these hold all variables, those of other processes with values of no meaning. Serves `mgrFilt` (`recording_manager.py:82-114`). -/
structure RProc (V : Type) where
  world : Nat
  locals : List Str
  v : RecVecs V

/-- `[n for n in names if rrank==rowned[n]]`, recording_manager.py:104-107. -/
def ownedBy (rowned : List (Str × Nat)) (rank : Nat) (names : List Str) : Except PyErr (List Str) :=
  if names.all fun n => (rowned.lookup n).isSome then .ok (names.filter fun n => rowned.lookup n == some rank)
  else .error .KeyError

/-- One of the sets `_vars_to_record` of a process, recording_manager.py:116-118: the names that it owns of
those of any of its recorders (`names`: one list for each recorder). -/
def varsToRecord (rowned : List (Str × Nat)) (rank : Nat) (names : List (List Str)) :
    Except PyErr (List Str) :=
  (names.mapM (ownedBy rowned rank)).map fun ls => ls.flatten.dedup

/-- `{p: params[p] for p in pnames}`, recording_manager.py:198-205. -/
def localVars (rowned : List (Str × Nat)) (rank : Nat) (names : List (List Str)) (d : List (Str × V)) :
    Except PyErr (List (Str × V)) :=
  match varsToRecord rowned rank names with
  | .error e => .error e
  | .ok ns => ns.mapM (vecItem d)

/-- `_gather_vars`, recording_manager.py:50-65, of the dictionaries of all processes, as process `rank` gets it:
all but the first get None. -/
def gatherVars (all : List (List (Str × V))) (rank : Nat) : Option (List (Str × V)) :=
  if rank = 0 then
    match all.getLast? with
    | none => none
    | some last => some (all.dropLast.foldl dictUpdate last)
  else none

/-- The dictionary for one of the three vectors that process `rank` hands on, recording_manager.py:198-210.
`nd` holds, for each process, the names at startup for each recorder, and its vector. -/
def vecFor (serial : Bool) (rowned : List (Str × Nat)) (nd : List (List (List Str) × List (Str × V)))
    (rank : Nat) : Except PyErr (Option (List (Str × V))) :=
  match nd.zipIdx.mapM fun e => localVars rowned e.2 e.1.1 e.1.2 with
  | .error e => .error e
  | .ok all =>
    if serial then
      match nd[rank]? with
      | none => .ok none
      | some e => if e.1.any (· ≠ []) then .ok (gatherVars all rank) else .ok (some [])
    else .ok all[rank]?

/-- The names of one vector (`sel`) that the recorders of a process keep at startup, `recorder.startup`. Serves `mgrRecord` (`recording_manager.py:162-232`). -/
def startNames (fnm : Str → Str → Bool) (recs : List MRec) (sel : Filt → List Str) (p : RProc V) :
    List (List Str) := recs.map fun r => sel (recStartup fnm r.o p.v)

/-- The entry of `_filtered` of a recorder after `startup` of the manager, recording_manager.py:82-114: for
parallel recorders it is reduced to the variables that the process owns. -/
def mgrFilt (fnm : Str → Str → Bool) (rowned : List (Str × Nat)) (rank : Nat) (r : MRec) (p : RProc V) :
    Except PyErr Filt :=
  if r.par then
    match ownedBy rowned rank (recStartup fnm r.o p.v).p with
    | .error e => .error e
    | .ok ps =>
      match ownedBy rowned rank (recStartup fnm r.o p.v).u with
      | .error e => .error e
      | .ok us =>
        match ownedBy rowned rank (recStartup fnm r.o p.v).r with
        | .error e => .error e
        | .ok rs => .ok ⟨ps, us, rs⟩
  else .ok (recStartup fnm r.o p.v)

/-- What a recorder writes of a vector, `iteritems(self._filter_vector(vec, …))`, dump_recorder.py:133-151,
inmem_recorder.py:80-93: None is returned by `_filter_vector` as it is, and has no items. -/
def partOf (on : Bool) (d : Option (List (Str × V))) (names : List Str) :
    Except PyErr (Option (List (Str × V))) :=
  if on then
    match d with
    | none => .error .AttributeError
    | some d => (filterVec d names).map some
  else .ok none

/-- `record_iteration` of a recorder with its entry of `_filtered`. Serves `mgrRecord` (`recording_manager.py:162-232`). -/
def recWrite (o : RecOpts) (f : Filt) (p u r : Option (List (Str × V))) : Except PyErr (RecData V) :=
  match partOf o.recP p f.p with
  | .error e => .error e
  | .ok wp =>
    match partOf o.recU u f.u with
    | .error e => .error e
    | .ok wu =>
      match partOf o.recR r f.r with
      | .error e => .error e
      | .ok wr => .ok ⟨wp, wu, wr⟩

/-- The owning ranks that all processes agree on (`root._owning_ranks`, group.py:1637-1670). -/
def ownersOf (procs : List (RProc V)) : List (Str × Nat) := owningRanks (procs.map (·.locals))

/-- `RecordingManager.record_iteration`, recording_manager.py:162-232, with more than one process: what the
`k`-th recorder writes in the process with rank `rank` (`none`: it is not called there). -/
def mgrRecord (fnm : Str → Str → Bool) (recs : List MRec) (procs : List (RProc V)) (rank k : Nat) :
    Except PyErr (Option (RecData V)) :=
  match procs[rank]?, recs[k]? with
  | some p, some r =>
    let nd := fun (sel : Filt → List Str) (vec : RecVecs V → List (Str × V)) =>
      procs.map fun q => (startNames fnm recs sel q, vec q.v)
    let serial := recs.any fun r => !r.par
    match vecFor serial (ownersOf procs) (nd (·.p) (·.params)) rank with
    | .error e => .error e
    | .ok none => .ok none
    | .ok (some ps) =>
      match vecFor serial (ownersOf procs) (nd (·.u) (·.unknowns)) rank with
      | .error e => .error e
      | .ok us =>
        match vecFor serial (ownersOf procs) (nd (·.r) (·.resids)) rank with
        | .error e => .error e
        | .ok rs =>
          if r.par || p.world == 0 then
            match mgrFilt fnm (ownersOf procs) rank r p with
            | .error e => .error e
            | .ok f => (recWrite r.o f (some ps) us rs).map some
          else .ok none
  | _, _ => .error .IndexError

end OpenMDAO
