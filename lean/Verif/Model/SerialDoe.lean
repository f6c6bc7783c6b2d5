import Verif.Model.Recorder
/-!
# Model of the serial design of experiments and of `InMemoryRecorder`

`openmdao/drivers/predeterminedruns_driver.py` (`add_response`, `get_responses`, `_setup`, `run`, `_run_serial`, `_try_case`, `_prep_case`, `_save_case`) for one process, and `openmdao/recorders/inmem_recorder.py`. The model of the user enters as two functions: `prep` sets the
design variables of a case (`set_desvar` may raise), `solve` is `root.solve_nonlinear`; both change the vectors of the model also if they raise. Messages and times are not modelled. Objects passed by reference are taken to be replaced, not changed in place.
-/
namespace OpenMDAO

variable {V C : Type}

/-- `Accessor.get` (`core/vec_wrapper.py:111-182`, `:207-330`): without units, the value of an array is a view of the vector; a scalar, an array with units and an object passed by reference give a value of their own. -/
inductive VarAccess (V : Type)
  | view
  | copy (conv : V → V)

/-- The vectors of the root: the values stored in them. Serves `handed` (`recording_manager.py:188-190`). -/
structure LiveVecs (V : Type) where
  p : Str → V
  u : Str → V

/-- Names and accessors of the params and unknowns of the root. Serves `handed` (`recording_manager.py:188-190`). -/
structure VecMeta (V : Type) where
  params : List (Str × VarAccess V)
  unknowns : List (Str × VarAccess V)

/-- What a recorder in memory keeps: a value, or a view of the params or unknowns. Serves `handed` (`recording_manager.py:188-190`). -/
inductive Kept (V : Type)
  | now (v : V)
  | viewP (name : Str)
  | viewU (name : Str)

/-- `params[name]`. Serves `handed` (`recording_manager.py:188-190`). -/
def keepP (st : LiveVecs V) (e : Str × VarAccess V) : Str × Kept V :=
  match e.2 with
  | .view => (e.1, .viewP e.1)
  | .copy conv => (e.1, .now (conv (st.p e.1)))

/-- `unknowns[name]`. Serves `handed` (`recording_manager.py:188-190`). -/
def keepU (st : LiveVecs V) (e : Str × VarAccess V) : Str × Kept V :=
  match e.2 with
  | .view => (e.1, .viewU e.1)
  | .copy conv => (e.1, .now (conv (st.u e.1)))

/-- The vectors that are handed to the recorder (`recording_manager.py:188-190`). Residuals are not recorded. -/
def handed (M : VecMeta V) (st : LiveVecs V) : RecVecs (Kept V) := ⟨M.params.map (keepP st), M.unknowns.map (keepU st), []⟩

/-- What looking at a kept value gives while the vectors are in the state `st`. Serves `getResponses` (`:360-374`). -/
def Kept.look (st : LiveVecs V) : Kept V → V
  | .now v => v
  | .viewP n => st.p n
  | .viewU n => st.u n

/-- `add_response` (`predeterminedruns_driver.py:336-354`): the names before the one that raises stay. -/
def addResponse (resp : List Str) : List Str → Except PyErr Unit × List Str
  | [] => (.ok (), resp)
  | n :: ns => if n ∈ resp then (.error .RuntimeError, resp) else addResponse (resp ++ [n]) ns

/-- Options of the recorder of responses (`_setup`, `:391-405`). -/
def respOpts (resp : List Str) : RecOpts := ⟨true, true, false, false, resp, []⟩

/-- How a case ends (`_try_case`, `:445-473`). -/
inductive CaseEnd
  | ok
  | analysis
  | fatal (e : PyErr)

/-- An element of `iters` of the recorder (`inmem_recorder.py:72-95`). -/
structure KeptIter (V : Type) where
  coord : Coord
  success : Nat
  data : RecData (Kept V)

/-- `metadata` of a case (`_prep_case`, `:434-440`). -/
def caseCoord (k : Nat) : Coord := updateMeta (createMeta 0 none "Driver".toList) [k]

/-- `_run_serial` (`:475-495`) with the number of the next case, the vectors, and the iterations recorded so far. The result is what is raised, the vectors, `iter_count` and the iterations. -/
def serialLoop (prep : LiveVecs V → C → Except PyErr Unit × LiveVecs V) (solve : LiveVecs V → CaseEnd × LiveVecs V) (record : Coord → LiveVecs V → Except PyErr (RecData (Kept V))) :
    List C → Nat → LiveVecs V → List (KeptIter V) → Except PyErr Unit × LiveVecs V × Nat × List (KeptIter V)
  | [], k, st, its => (.ok (), st, k, its)
  | c :: cs, k, st, its =>
    match prep st c with
    | (.error e, st1) => (.error e, st1, k, its)
    | (.ok (), st1) =>
      match solve st1 with
      | (.fatal e, st2) => (.error e, st2, k, its)
      | (.ok, st2) =>
        match record (caseCoord k) st2 with
        | .error e => (.error e, st2, k, its)
        | .ok d => serialLoop prep solve record cs (k + 1) st2 (its ++ [⟨caseCoord k, 1, d⟩])
      | (.analysis, st2) =>
        match record (caseCoord k) st2 with
        | .error e => (.error e, st2, k, its)
        | .ok d => serialLoop prep solve record cs (k + 1) st2 (its ++ [⟨caseCoord k, 0, d⟩])

/-- The recorder of responses: `startup` in `setup`, `record_iteration` afterwards. Serves `predeterminedruns_driver.py:336-390`. -/
def respRecord (fnm : Str → Str → Bool) (resp : List Str) (M : VecMeta V) (st0 : LiveVecs V) (c : Coord) (st : LiveVecs V) : Except PyErr (RecData (Kept V)) :=
  recIteration (respOpts resp) [([], recStartup fnm (respOpts resp) (handed M st0))] c (handed M st)

/-- `run` (`:407-426`): the recorder is cleared, `iter_count` is 0. -/
def serialRun (prep : LiveVecs V → C → Except PyErr Unit × LiveVecs V) (solve : LiveVecs V → CaseEnd × LiveVecs V) (record : Coord → LiveVecs V → Except PyErr (RecData (Kept V))) (cases : List C) (st : LiveVecs V)
    (_before : List (KeptIter V)) : Except PyErr Unit × LiveVecs V × Nat × List (KeptIter V) := serialLoop prep solve record cases 0 st []

/-- `get_responses` (`:360-374`) looked at while the vectors are in the state `st`: params, then unknowns. -/
def getResponses (st : LiveVecs V) (its : List (KeptIter V)) : List (List (Str × V) × Nat) :=
  its.map fun i => (((i.data.p.getD []) ++ (i.data.u.getD [])).map fun e => (e.1, e.2.look st), i.success)

end OpenMDAO
