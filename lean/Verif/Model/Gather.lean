import Verif.Model.Numpy
import Verif.Model.Promotes
/-!
# Model of the gathers over processes (`openmdao/core/system.py:1078-1148`, `openmdao/core/group.py:1637-1670`)

All processes of the communicator run the function together; an `allgather` gives every process the list of the contributions of
all processes, in rank order. The local data of all processes is therefore given as a list indexed by rank.
-/
namespace OpenMDAO

variable {κ α : Type} [DecidableEq κ]

/-- A local Jacobian: `(output, param)` ↦ flat value; an entry that lives on another process has size 0. Serves `needTups` (`system.py:1109-1111`). -/
abbrev LocalJac (κ α : Type) := List (κ × List α)

/-- `need_tups` (`system.py:1109-1111`). -/
def needTups (J : LocalJac κ α) : List κ := (J.filter fun e => e.2.isEmpty).map Prod.fst

/-- `has_tups` (`system.py:1112-1113`). -/
def hasTups (J : LocalJac κ α) : List κ := (J.filter fun e => !e.2.isEmpty).map Prod.fst

/-- `needed_set` (`system.py:1117-1121`); only membership and emptiness matter. -/
def neededSet (Js : List (LocalJac κ α)) : List κ := (Js.map needTups).flatten

/-- Body of the inner loop (`system.py:1132-1137`) on process `iproc` for a tuple contributed by `rank`; the state is `found` and
`owned_vals`. `J[tup]` cannot fail: `rank == iproc` means the tuple comes from `J` itself. -/
def ownStep (needed : List κ) (J : LocalJac κ α) (iproc rank : Nat) (st : List κ × List (κ × List α)) (tup : κ) :
    List κ × List (κ × List α) :=
  if tup ∈ needed ∧ tup ∉ st.1 then
    (tup :: st.1,
      if rank = iproc then
        match J.lookup tup with
        | some v => st.2 ++ [(tup, v)]
        | none => st.2
      else st.2)
  else st

/-- `owned_vals` of process `iproc` (`system.py:1128-1137`). -/
def ownedVals (Js : List (LocalJac κ α)) (iproc : Nat) : List (κ × List α) :=
  (((Js.map hasTups).zipIdx).foldl
    (fun st e => e.1.foldl (ownStep (neededSet Js) (Js.getD iproc []) iproc e.2) st) ([], [])).2

/-- `J[output, param] = value` for the values of one rank (`system.py:1141-1146`). -/
def takeVals (iproc : Nat) (J : LocalJac κ α) (e : List (κ × List α) × Nat) : LocalJac κ α :=
  if e.2 ≠ iproc then e.1.foldl (fun J x => dictSet J x.1 x.2) J else J

/-- `System.get_combined_jac` (`system.py:1078-1148`): the result on process `iproc`. All processes are active. -/
def combinedJac (Js : List (LocalJac κ α)) (iproc : Nat) : LocalJac κ α :=
  if neededSet Js = [] then Js.getD iproc []
  else (((List.range Js.length).map (ownedVals Js)).zipIdx).foldl (takeVals iproc) (Js.getD iproc [])

/-- `if v not in ranks: ranks[v] = rank` (`group.py:1660-1663`). -/
def ownerStep (rank : Nat) (ranks : List (κ × Nat)) (v : κ) : List (κ × Nat) :=
  if v ∈ ranks.map Prod.fst then ranks else ranks ++ [(v, rank)]

/-- `Group._get_owning_ranks` under MPI (`group.py:1644-1663`); `locals` are the gathered lists of variables that are local on each
process. The result is the same on all processes because it is computed from gathered data only. -/
def owningRanks (locals : List (List κ)) : List (κ × Nat) :=
  locals.zipIdx.foldl (fun ranks e => e.1.foldl (ownerStep e.2) ranks) []

end OpenMDAO
