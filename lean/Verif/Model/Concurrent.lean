import Mathlib.Logic.Function.Basic
import Mathlib.Logic.Relation
/-!
# Model of `openmdao/util/concurrent.py`: load balanced evaluation over MPI

The master is rank 0, the workers are the ranks 1 .. `W` (index `w : Fin W` is rank `w + 1`). One step of the transition system is one step of one
process between two communications. Messages from the master to one worker arrive in the order in which they are sent (MPI does not let messages overtake each
other); messages to the master may be received in any order (`comm.recv(tag=2)` takes any source). A case is a value of type `C` and evaluation never fails to
end; the result `(retval, err)` is computed by `evalCase`. Sends do not wait for the
receiver. `broadcast` is not modelled.
-/
namespace OpenMDAO

/-- `(retval, err)` of one case (`concurrent.py:116-125` in the worker, `:41-50` in the serial branch): `func` returns a value or raises. -/
def evalCase {C V E : Type} (func : C → Except E V) (c : C) : Option V × Option E :=
  match func c with
  | .ok v => (some v, none)
  | .error e => (none, some e)

/-- Serial branch (`concurrent.py:38-51`). -/
def concurrentSerial {C V E : Type} (func : C → Except E V) (cases : List C) : List (Option V × Option E) :=
  cases.foldl (fun results c => results ++ [evalCase func c]) []

/-- Where the master is. `seed i`: about to seed worker `i`; `loop`: at `comm.recv`; `stop k`: about to send the stop message to worker `k`. Serves `CSt.init` (`concurrent.py:55-128`). -/
inductive MPhase
  | seed (i : Nat)
  | loop
  | stop (k : Nat)
  | done
  deriving DecidableEq

/-- A worker: waiting for a message, evaluating a case, or out of its loop. Serves `CSt.init` (`concurrent.py:55-128`). -/
inductive WSt (C : Type)
  | idle
  | busy (c : C)
  | stopped

/-- Global state. `inbox w`: messages sent to `w` and not yet received, `none` being the stop message `(None, None)`; `outbox`: messages sent to the
master and not yet received; `evals`: cases that were evaluated, in the order of the start (kept for the specification). Serves `CSt.init` (`concurrent.py:55-128`). -/
structure CSt (W : Nat) (C R : Type) where
  phase : MPhase
  remaining : List C
  sent : Nat
  received : Nat
  results : List R
  inbox : Fin W → List (Option C)
  worker : Fin W → WSt C
  outbox : List (Fin W × R)
  evals : List C

variable {W : Nat} {C R : Type}

/-- Start of the run. Serves `concurrent.py:55-128`. -/
def CSt.init (W : Nat) (R : Type) (cases : List C) : CSt W C R :=
  ⟨.seed 0, cases, 0, 0, [], fun _ => [], fun _ => .idle, [], []⟩

/-- `comm.send(m, w, tag=1)`. Serves `CSt.seedSend` (`:74-75`). -/
def CSt.send (s : CSt W C R) (w : Fin W) (m : Option C) : CSt W C R :=
  { s with inbox := Function.update s.inbox w (s.inbox w ++ [m]) }

/-- Master: `:74-75` seed worker `i` with the next case. -/
def CSt.seedSend (s : CSt W C R) (w : Fin W) (c : C) (rest : List C) : CSt W C R :=
  { s.send w (some c) with phase := .seed (w.val + 1), remaining := rest, sent := s.sent + 1 }

/-- Master: `:78` `if sent > 0`. -/
def CSt.seedEnd (s : CSt W C R) : CSt W C R := { s with phase := if 0 < s.sent then .loop else .stop 0 }

/-- Master: `:81-86` receive one result. -/
def CSt.recv (s : CSt W C R) (pre post : List (Fin W × R)) (r : R) : CSt W C R :=
  { s with received := s.received + 1, results := s.results ++ [r], outbox := pre ++ post }

/-- Master: `:99-100` send the next case to the worker that finished. -/
def CSt.sendNext (s : CSt W C R) (w : Fin W) (c : C) (rest : List C) : CSt W C R :=
  { s.send w (some c) with remaining := rest, sent := s.sent + 1 }

/-- Master: `:104` tell worker `w` to stop. -/
def CSt.stopSend (s : CSt W C R) (w : Fin W) : CSt W C R := { s.send w none with phase := .stop (w.val + 1) }

/-- Steps of the master (`concurrent.py:55-106`) and of the workers (`:108-128`). -/
inductive CStep (eval : C → R) : CSt W C R → CSt W C R → Prop
  /-- `:68-75` -/
  | seedSend (s) (w : Fin W) (c rest) : s.phase = .seed w.val → s.remaining = c :: rest → CStep eval s (s.seedSend w c rest)
  /-- `:68` end of the range, or `:71-72` no more cases -/
  | seedEnd (s) (i : Nat) : s.phase = .seed i → (¬ i < W ∨ s.remaining = []) → CStep eval s s.seedEnd
  /-- `:81-91` the last awaited result: leave the loop -/
  | recvLast (s) (pre post) (w : Fin W) (r) : s.phase = .loop → s.outbox = pre ++ (w, r) :: post → s.received + 1 = s.sent →
      CStep eval s { s.recv pre post r with phase := .stop 0 }
  /-- `:93-100` send another case -/
  | recvSend (s) (pre post) (w : Fin W) (r) (c rest) : s.phase = .loop → s.outbox = pre ++ (w, r) :: post → s.received + 1 ≠ s.sent →
      s.remaining = c :: rest → CStep eval s ((s.recv pre post r).sendNext w c rest)
  /-- `:93-96` no more cases -/
  | recvNone (s) (pre post) (w : Fin W) (r) : s.phase = .loop → s.outbox = pre ++ (w, r) :: post → s.received + 1 ≠ s.sent →
      s.remaining = [] → CStep eval s (s.recv pre post r)
  /-- `:103-104` -/
  | stopSend (s) (w : Fin W) : s.phase = .stop w.val → CStep eval s (s.stopSend w)
  /-- `:106` -/
  | finish (s) (k : Nat) : s.phase = .stop k → ¬ k < W → CStep eval s { s with phase := .done }
  /-- `:111` worker receives a case -/
  | take (s) (w : Fin W) (c rest) : s.worker w = .idle → s.inbox w = some c :: rest →
      CStep eval s { s with worker := Function.update s.worker w (.busy c), inbox := Function.update s.inbox w rest, evals := s.evals ++ [c] }
  /-- `:111-114` worker receives the stop message -/
  | takeStop (s) (w : Fin W) (rest) : s.worker w = .idle → s.inbox w = none :: rest →
      CStep eval s { s with worker := Function.update s.worker w .stopped, inbox := Function.update s.inbox w rest }
  /-- `:116-128` worker evaluates and sends its result -/
  | reply (s) (w : Fin W) (c) : s.worker w = .busy c →
      CStep eval s { s with worker := Function.update s.worker w .idle, outbox := s.outbox ++ [(w, eval c)] }

/-- States that a run can reach. Serves `concurrent.py:55-128`. -/
def CReach (W : Nat) (eval : C → R) (cases : List C) (s : CSt W C R) : Prop :=
  Relation.ReflTransGen (CStep eval) (CSt.init W R cases) s

end OpenMDAO
