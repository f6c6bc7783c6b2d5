import Verif.Model.Concurrent
import Verif.Model.ArrayUtil
import Verif.Model.Promotes
import Mathlib.Data.Fintype.Basic
import Mathlib.Data.Fintype.Card
/-!
# Model of design studies over MPI

`openmdao/drivers/predeterminedruns_driver.py`: the assignment of ranks to groups (`_setup_communicators`, 112-195), the load balanced run (`_distrib_lb_build_runlist`, 693-841, and `_run_lb`, 526-546)
and the run with a fixed distribution (`_get_case_w_nones`, 651-678, `_distrib_build_runlist`, 680-691, and `_run_par_doe`, 495-523).
A case is a value of type `C`. The values that a process finds are represented by the case in which it found them.
-/
namespace OpenMDAO

/-! ## Ranks and groups -/

/-- `_id_map` and `color` with load balancing (`predeterminedruns_driver.py:135-154`): rank 0 is group 0, the other ranks are divided evenly. -/
def lbIdMap (numPar size : Nat) : Except PyErr (List (Nat × Nat) × List Nat) :=
  match evenlyDistribIdxs (numPar - 1) (size - 1) with
  | .error e => .error e
  | .ok (sizes, offsets) =>
    let sizes' := 1 :: sizes
    let offsets' := 0 :: offsets.map (· + 1)
    .ok (sizes'.zip offsets', (sizes'.zipIdx).flatMap fun e => List.replicate e.1 e.2)

/-- `doe_ids` (`:714-718`): for every rank the group it works for. -/
def doeIds (idMap : List (Nat × Nat)) : List (Nat × Nat) :=
  (idMap.zipIdx).foldl (fun d e => (List.range e.1.1).foldl (fun d i => dictSet d (i + e.1.2) e.2) d) []

/-! ## The load balanced run -/

/-- Result of `_try_case` on one process (`:447-472`): no exception, `AnalysisError`, any other exception. -/
inductive COut
  | ok
  | failed
  | fatal
  deriving DecidableEq

/-- `meta['success']` and `meta['msg']`: the message is represented by the process whose traceback it is. Serves `LbInfo` (`:707-709`). -/
structure LbMeta (W : Type) where
  success : Bool
  msg : Option W

/-- `cases[n]` of the master (`:707-709`): messages outstanding, sum of the requests for termination, the values in `p`, `u` and `r` by the process that owns the variables, metadata. -/
structure LbInfo (W C : Type) where
  count : Nat
  term : Nat
  data : W → Option C
  md : LbMeta W

/-- Where the master is: seeding, with the groups still to come; at `comm.recv`; about to send the stop messages; finished. Serves `LbSt.init` (`:701-709`). -/
inductive LbPhase (G : Type)
  | seed (left : List G)
  | loop
  | stop
  | done

/-- Global state. `inbox w`: messages from the master that `w` has not received, `none` being the stop message. `outbox`: messages that the master has not received. `records`: cases handed to the recorders. `evals`: cases that were run, kept for the specification. Serves `LbSt.init` (`:701-709`). -/
structure LbSt (W G C : Type) where
  phase : LbPhase G
  remaining : List C
  sent : Nat
  received : Nat
  more : Bool
  info : G → LbInfo W C
  inbox : W → List (Option C)
  worker : W → WSt C
  outbox : List (W × C)
  records : List (G × LbInfo W C)
  evals : List (W × C)

section
variable {W G C : Type} [Fintype W] [DecidableEq W] [DecidableEq G] (grp : W → G) (out : C → W → COut)

/-- Number of processes of a group, the first entry of `_id_map[doe]`. Serves `LbSt.send` (`:727-736`). -/
def groupSize (g : G) : Nat := (Finset.univ.filter fun w => grp w = g).card

/-- Start of the run (`:701-709`); `order` are the groups but that of the master. -/
def LbSt.init (order : List G) (cases : List C) : LbSt W G C :=
  ⟨.seed order, cases, 0, 0, true, fun _ => ⟨0, 0, fun _ => none, ⟨true, none⟩⟩, fun _ => [], fun _ => .idle, [], [], []⟩

/-- Sends a case to all processes of a group (`:727-736`, `:793-804`). The sends to the processes of one group are a single step here. -/
def LbSt.send (s : LbSt W G C) (g : G) (c : C) : LbSt W G C :=
  { s with
    inbox := fun w => if grp w = g then s.inbox w ++ [some c] else s.inbox w
    sent := s.sent + groupSize grp g
    info := Function.update s.info g { s.info g with count := (s.info g).count + groupSize grp g } }

/-- Metadata after a message from `w` (`:756-765`): a failure that is known is not hidden. -/
def mergeMeta (old : LbMeta W) (w : W) (o : COut) : LbMeta W :=
  if old.success then (if o = .ok then ⟨true, none⟩ else ⟨false, some w⟩) else old

/-- `caseinfo` after a message (`:750-767`). -/
def LbInfo.recv (i : LbInfo W C) (w : W) (c : C) (o : COut) : LbInfo W C :=
  ⟨i.count - 1, i.term + (if o = .fatal then 1 else 0), Function.update i.data w (some c), mergeMeta i.md w o⟩

/-- A complete case without request for termination (`:780-804`): it is recorded, and the group gets the next case if there is one. -/
def LbSt.complete (s : LbSt W G C) (g : G) : LbSt W G C :=
  let s1 := { s with records := s.records ++ [(g, s.info g)] }
  if s.more then
    match s.remaining with
    | [] => { s1 with more := false }
    | c :: rest => ({ s1 with remaining := rest, info := Function.update s.info g { s.info g with term := 0, md := ⟨true, none⟩ } } : LbSt W G C).send grp g c
  else s1

/-- The master after the message `(w, c)` (`:744-809`); `rest` are the other messages. -/
def LbSt.recv (s : LbSt W G C) (w : W) (c : C) (rest : List (W × C)) : LbSt W G C :=
  let i := (s.info (grp w)).recv w c (out c w)
  let s1 := { s with outbox := rest, received := s.received + 1, info := Function.update s.info (grp w) i }
  let s2 := if i.count = 0 then (if i.term > 0 then { s1 with more := false } else s1.complete grp (grp w)) else s1
  { s2 with phase := if s2.received = s2.sent then .stop else .loop }

/-- Steps of the master and of the workers. -/
inductive LbStep : LbSt W G C → LbSt W G C → Prop
  /-- `:721-736` -/
  | seedSend (s : LbSt W G C) (g : G) (left : List G) (c : C) (rest : List C) : s.phase = .seed (g :: left) → s.remaining = c :: rest →
      LbStep s (({ s with phase := .seed left, remaining := rest } : LbSt W G C).send grp g c)
  /-- `:725-726`, `:739` -/
  | seedEmpty (s : LbSt W G C) (g : G) (left : List G) : s.phase = .seed (g :: left) → s.remaining = [] → LbStep s { s with phase := if s.sent > 0 then .loop else .stop }
  /-- `:739` -/
  | seedDone (s : LbSt W G C) : s.phase = .seed [] → LbStep s { s with phase := if s.sent > 0 then .loop else .stop }
  /-- `:744-809`; `comm.recv` takes a message of any source -/
  | recv (s : LbSt W G C) (w : W) (c : C) (l1 l2 : List (W × C)) : s.phase = .loop → s.outbox = l1 ++ (w, c) :: l2 → LbStep s (s.recv grp out w c (l1 ++ l2))
  /-- `:811-817`, in one step -/
  | stop (s : LbSt W G C) : s.phase = .stop → LbStep s { s with phase := .done, inbox := fun w => s.inbox w ++ [none] }
  /-- `:824-831` a worker receives a case and starts it -/
  | take (s : LbSt W G C) (w : W) (c : C) (r : List (Option C)) : s.worker w = .idle → s.inbox w = some c :: r →
      LbStep s { s with worker := Function.update s.worker w (.busy c), inbox := Function.update s.inbox w r, evals := s.evals ++ [(w, c)] }
  /-- `:827-828` -/
  | takeStop (s : LbSt W G C) (w : W) (r : List (Option C)) : s.worker w = .idle → s.inbox w = none :: r →
      LbStep s { s with worker := Function.update s.worker w .stopped, inbox := Function.update s.inbox w r }
  /-- `:833-841` -/
  | reply (s : LbSt W G C) (w : W) (c : C) : s.worker w = .busy c → LbStep s { s with worker := Function.update s.worker w .idle, outbox := s.outbox ++ [(w, c)] }

/-- States that a run can reach. Serves `predeterminedruns_driver.py:693-841`. -/
def LbReach (order : List G) (cases : List C) (s : LbSt W G C) : Prop := Relation.ReflTransGen (LbStep grp out) (LbSt.init order cases) s

/-- The master has left its loop and all workers theirs. Serves `predeterminedruns_driver.py:693-841`. -/
def LbSt.Finished (s : LbSt W G C) : Prop := (match s.phase with | .done => True | _ => False) ∧ ∀ w, s.worker w = .stopped

end

end OpenMDAO
