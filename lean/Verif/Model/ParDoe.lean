import Verif.Model.MpiDoe
import Mathlib.Logic.Relation
/-!
# Model of a design study with a fixed distribution over MPI

`openmdao/drivers/predeterminedruns_driver.py`: `_run_par_doe` (495-523), `_get_case_w_nones` (651-678) and the collective calls of `RecordingManager.record_iteration` (`openmdao/recorders/recording_manager.py`, 162-232).
Which case goes to which process is in `Model/Doe` (`distribRunlist`). A collective call is a step that all members of its communicator take together. The communicators are the full one and `_casecomm`, whose members are
the first processes of the groups. The calls within one group (`_gather_vars`, and those of the model itself) are left out.
-/
namespace OpenMDAO

/-- Which recorders the driver has: none, only parallel ones, or only serial ones (`_has_serial_recorders`, `recording_manager.py:85-86`). A mixture is not modelled. -/
inductive RecMode
  | none
  | parallel
  | serial
  deriving DecidableEq

/-- Where a process is: before `next` of the run list, in the `Allreduce` over `_casecomm` (`:671`), in `any_proc_is_true` over the full communicator (`:503`, `:511`), in the `gather` over `_casecomm`
(`recording_manager.py:194`, `:217`); at the end of the study or left with an exception. With the case it holds, `none` being a dummy. -/
inductive FxPhase (C : Type)
  | top
  | atAll (c : Option C)
  | atAny (c : Option C)
  | atGather (c : Option C)
  | done
  | raised
  deriving DecidableEq

/-- The case that a process holds. Serves `FxSt.allreduce` (`:671-677`). -/
def FxPhase.case {C : Type} : FxPhase C → Option C
  | .atAll c | .atAny c | .atGather c => c
  | _ => none

/-- In the `Allreduce` of `_get_case_w_nones`. `predeterminedruns_driver.py:664-678`. -/
def FxPhase.isAll {C : Type} : FxPhase C → Bool
  | .atAll _ => true
  | _ => false

/-- In `any_proc_is_true`. `mpi_wrap.py:108-132`. -/
def FxPhase.isAny {C : Type} : FxPhase C → Bool
  | .atAny _ => true
  | _ => false

/-- In the `gather` of the recording manager. `recording_manager.py:212-220`. -/
def FxPhase.isGather {C : Type} : FxPhase C → Bool
  | .atGather _ => true
  | _ => false

/-- Global state: the cases each process still has, where it is, and what was recorded (with the process that ran the case). Serves `FxSt.next` (`:664-672`). -/
structure FxSt (P C : Type) where
  todo : P → List C
  ph : P → FxPhase C
  records : List (P × C)

section
variable {P C : Type} [DecidableEq P] (lead : P → Bool) (procs : List P) (mode : RecMode) (out : C → P → COut)

/-- A process asks for its next case. A member of `_casecomm` goes on to the `Allreduce`, with `none` if it has no case left (`:664-672`); another process takes its next case, or leaves its loop (`:658-660`). -/
def FxSt.next (s : FxSt P C) (p : P) : FxSt P C :=
  match s.todo p with
  | [] => { s with ph := Function.update s.ph p (if lead p then .atAll none else .done) }
  | c :: r => { s with ph := Function.update s.ph p (if lead p then .atAll (some c) else .atAny (some c)), todo := Function.update s.todo p r }

/-- The `Allreduce` (`:671-677`): all go on with a case or a dummy as long as one has a case, otherwise all leave the loop. -/
def FxSt.allreduce (s : FxSt P C) : FxSt P C :=
  let remain := procs.any fun p => lead p && (s.ph p).case.isSome
  { s with ph := fun p => if lead p then (if remain then .atAny (s.ph p).case else .done) else s.ph p }

/-- The process goes into the `gather` of the recording manager (`recording_manager.py:190-220`): with a dummy always, with a case if there is a serial recorder. -/
def saveWaits (mode : RecMode) (lead : Bool) (c : Option C) : Bool :=
  match mode with
  | .none => false
  | .parallel => lead && c.isNone
  | .serial => lead

/-- `terminate` of a process (`:464-470`). -/
def termOf (p : P) (c : Option C) : Bool :=
  match c with
  | none => false
  | some c => decide (out c p = .fatal)

/-- Where a process is after `any_proc_is_true` gave `flag` (`:500-520`): a process with a case raises if the flag is set, a process with a dummy goes on in any case. -/
def afterAny (p : P) (c : Option C) (flag : Bool) : FxPhase C :=
  if c.isSome && flag then .raised
  else if saveWaits mode (lead p) c then .atGather c else .top

/-- The values that a process hands to parallel recorders itself. `recording_manager.py:227-232`. -/
def ownRecord (p : P) (c : Option C) (flag : Bool) : Option (P × C) :=
  match c with
  | none => none
  | some c => if flag then none else some (p, c)

/-- `any_proc_is_true`, and the way to the next collective call. `mpi_wrap.py:108-132`. -/
def FxSt.anyTrue (s : FxSt P C) : FxSt P C :=
  let flag := procs.any fun p => termOf out p (s.ph p).case
  { s with
    ph := fun p => afterAny lead mode p (s.ph p).case flag
    records := s.records ++ (if mode = .parallel then procs.filterMap fun p => ownRecord p (s.ph p).case flag else []) }

/-- The record of a member of `_casecomm`, no record for a dummy (`recording_manager.py:227-232`). -/
def leadRecord (p : P) (c : Option C) : Option (P × C) :=
  if lead p then c.map fun c => (p, c) else none

/-- The `gather`: rank 0 records the cases of all members (`recording_manager.py:212-232`). In the code only a dummy's part of the call takes place when there is no serial recorder. -/
def FxSt.gather (s : FxSt P C) : FxSt P C :=
  { s with
    ph := fun p => if lead p then .top else s.ph p
    records := s.records ++ procs.filterMap fun p => leadRecord lead p (s.ph p).case }

/-- Steps of the processes. Serves `predeterminedruns_driver.py:495-523`. -/
inductive FxStep : FxSt P C → FxSt P C → Prop
  | next (s : FxSt P C) (p : P) : s.ph p = .top → FxStep s (s.next lead p)
  | allreduce (s : FxSt P C) : (∃ p, lead p = true) → (∀ p, lead p = true → (s.ph p).isAll = true) → FxStep s (s.allreduce lead procs)
  | anyTrue (s : FxSt P C) : (∀ p, (s.ph p).isAny = true) → FxStep s (s.anyTrue lead procs mode out)
  | gather (s : FxSt P C) : (∃ p, lead p = true) → (∀ p, lead p = true → (s.ph p).isGather = true) → FxStep s (s.gather lead procs)

/-- Start of the study. Serves `predeterminedruns_driver.py:495-523`. -/
def FxSt.init (cases : P → List C) : FxSt P C := ⟨cases, fun _ => .top, []⟩

/-- States that a run can reach. Serves `predeterminedruns_driver.py:495-523`. -/
def FxReach (cases : P → List C) (s : FxSt P C) : Prop := Relation.ReflTransGen (FxStep lead procs mode out) (FxSt.init cases) s

end

end OpenMDAO
