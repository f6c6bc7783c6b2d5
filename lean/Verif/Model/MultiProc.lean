import Verif.Model.Concurrent
/-!
# Model of the multiprocessing design study

`openmdao/drivers/predeterminedruns_driver.py`: `worker` (29-78), `_try_case` (447-472), `_build_case` (548-564) and `_run_lb_multiproc` (566-649). The main process and
`P` worker processes communicate by two first-in-first-out queues. A case is a value of type `C`; `fatal c` tells that running it raises an exception other
than `AnalysisError` (cases that raise `AnalysisError` are recorded as failed and count as not fatal here). The values of a record are not modelled: a record is the case it belongs to.
-/
namespace OpenMDAO

/-- Where the main process is. `drain` is the final loop over `num_active` responses, `join` waits for the workers. Serves `DSt.init` (`:577-603`). -/
inductive DPhase
  | seed (k : Nat)
  | loop
  | stopPut (k : Nat)
  | drain
  | join
  | done
  deriving DecidableEq

/-- Global state. `taskQ`: `none` is 'STOP'. `doneQ`: the case and whether its metadata asks for termination. `term w`: the local variable `terminate` of worker `w`.
`consumed`: cases whose response the main process has taken; `evals`: cases that were run (both kept for the specification). Serves `DSt.init` (`:577-603`). -/
structure DSt (P : Nat) (C : Type) where
  phase : DPhase
  remaining : List C
  numActive : Nat
  taskQ : List (Option C)
  doneQ : List (C × Bool)
  worker : Fin P → WSt C
  term : Fin P → Bool
  records : List C
  consumed : List C
  evals : List C

variable {P : Nat} {C : Type}

/-- Start of the run: the workers are started, nothing is queued (`:577-603`). -/
def DSt.init (P : Nat) (cases : List C) : DSt P C :=
  ⟨.seed 0, cases, 0, [], [], fun _ => .idle, fun _ => false, [], [], []⟩

/-- Take one response and record it unless it asks for termination (`_build_case`, `record_completed_case`). Serves `DStep` (`:605-610`). -/
def DSt.consume (s : DSt P C) (c : C) (isFatal : Bool) (rest : List (C × Bool)) : DSt P C :=
  { s with doneQ := rest, consumed := s.consumed ++ [c], records := if isFatal then s.records else s.records ++ [c] }

/-- Steps of the main process and of the workers. `lb` is the driver's `load_balance` option. -/
inductive DStep (lb : Bool) (fatal : C → Bool) : DSt P C → DSt P C → Prop
  /-- `:605-610` -/
  | seedPut (s) (k : Nat) (c rest) : s.phase = .seed k → k < P → s.remaining = c :: rest →
      DStep lb fatal s { s with phase := .seed (k + 1), remaining := rest, taskQ := s.taskQ ++ [some c], numActive := s.numActive + 1 }
  /-- `:611-612` no more cases while seeding: the main loop is skipped -/
  | seedEmpty (s) (k : Nat) : s.phase = .seed k → k < P → s.remaining = [] → DStep lb fatal s { s with phase := .stopPut 0 }
  /-- `:613` -/
  | seedDone (s) (k : Nat) : s.phase = .seed k → ¬ k < P → DStep lb fatal s { s with phase := .loop }
  /-- `:615` -/
  | loopEnd (s) : s.phase = .loop → s.numActive = 0 → DStep lb fatal s { s with phase := .stopPut 0 }
  /-- `:616-623` a fatal error -/
  | loopFatal (s) (c rest) : s.phase = .loop → s.numActive ≠ 0 → s.doneQ = (c, true) :: rest →
      DStep lb fatal s { s.consume c true rest with phase := .stopPut 0, numActive := s.numActive - 1 }
  /-- `:616-629` record and send another case -/
  | loopNext (s) (c rest c' rest') : s.phase = .loop → s.numActive ≠ 0 → s.doneQ = (c, false) :: rest → s.remaining = c' :: rest' →
      DStep lb fatal s { s.consume c false rest with remaining := rest', taskQ := s.taskQ ++ [some c'], numActive := s.numActive - 1 + 1 }
  /-- `:616-631` record, no more cases -/
  | loopLast (s) (c rest) : s.phase = .loop → s.numActive ≠ 0 → s.doneQ = (c, false) :: rest → s.remaining = [] →
      DStep lb fatal s { s.consume c false rest with phase := .stopPut 0, numActive := s.numActive - 1 }
  /-- `:634-635` -/
  | stopPut (s) (k : Nat) : s.phase = .stopPut k → k < P → DStep lb fatal s { s with phase := .stopPut (k + 1), taskQ := s.taskQ ++ [none] }
  /-- `:637` -/
  | stopEnd (s) (k : Nat) : s.phase = .stopPut k → ¬ k < P → DStep lb fatal s { s with phase := .drain }
  /-- `:637-646` -/
  | drainGet (s) (c f rest) : s.phase = .drain → s.numActive ≠ 0 → s.doneQ = (c, f) :: rest →
      DStep lb fatal s { s.consume c f rest with numActive := s.numActive - 1 }
  /-- `:637` end of the range -/
  | drainEnd (s) : s.phase = .drain → s.numActive = 0 → DStep lb fatal s { s with phase := .join }
  /-- `:648-649` -/
  | joinEnd (s) : s.phase = .join → (∀ w, s.worker w = .stopped) → DStep lb fatal s { s with phase := .done }
  /-- worker `:47` takes a case -/
  | take (s) (w : Fin P) (c rest) : s.worker w = .idle → s.term w = false → s.taskQ = some c :: rest →
      DStep lb fatal s { s with worker := Function.update s.worker w (.busy c), taskQ := rest, evals := s.evals ++ [c] }
  /-- worker `:50-51` after a fatal error takes a case and drops it -/
  | swallow (s) (w : Fin P) (c rest) : s.worker w = .idle → s.term w = true → s.taskQ = some c :: rest →
      DStep lb fatal s { s with taskQ := rest }
  /-- worker `:47` takes 'STOP' -/
  | takeStop (s) (w : Fin P) (rest) : s.worker w = .idle → s.taskQ = none :: rest →
      DStep lb fatal s { s with worker := Function.update s.worker w .stopped, taskQ := rest }
  /-- worker `:53-75` runs the case and puts the response; `terminate` is returned by `_try_case` only without load balancing (`:468-470`) -/
  | reply (s) (w : Fin P) (c) : s.worker w = .busy c →
      DStep lb fatal s { s with worker := Function.update s.worker w .idle, doneQ := s.doneQ ++ [(c, fatal c)], term := Function.update s.term w (fatal c && !lb) }

/-- States that a run can reach. Serves `predeterminedruns_driver.py:566-649`. -/
def DReach (P : Nat) (lb : Bool) (fatal : C → Bool) (cases : List C) (s : DSt P C) : Prop :=
  Relation.ReflTransGen (DStep lb fatal) (DSt.init P cases) s

end OpenMDAO
