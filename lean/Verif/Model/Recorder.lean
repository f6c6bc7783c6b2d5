import Verif.Model.Paths
import Verif.Model.Numpy
/-!
# Model of recording: iteration coordinates, filters, the CSV and the SQLite recorder

`openmdao/util/record_util.py`, `openmdao/recorders/base_recorder.py`, `csv_recorder.py`, `sqlite_recorder.py`, `sqlite_reader.py`, `case.py`, and the parts of the
nonlinear solvers and drivers that build the coordinates. One process. Time stamps are part of the opaque metadata.
-/
namespace OpenMDAO

/-! ### Iteration coordinates -/

/-- An iteration coordinate: the python list `[rank, name, (i, j), name, (k,), …]`. Serves `formatCoord` (`record_util.py:70-91`). -/
structure Coord where
  rank : Nat
  levels : List (Str × List Nat)
  deriving DecidableEq, Repr

/-- `str(n)` for a non-negative integer. Serves `formatCoord` (`record_util.py:70-91`). -/
def natStr (n : Nat) : Str := Nat.toDigits 10 n

/-- `format_iteration_coordinate` (`record_util.py:70-91`). -/
def formatCoord (c : Coord) : Str :=
  pyJoin ':' ["rank".toList ++ natStr c.rank, pyJoin '|' (c.levels.flatMap fun l => [l.1, pyJoin '-' (l.2.map natStr)])]

/-- `create_local_meta(metadata, name)['coord']` (`record_util.py:8-43`); `none` is the missing metadata of the parent. -/
def createMeta (rank : Nat) (parent : Option Coord) (name : Str) : Coord :=
  let p := parent.getD ⟨rank, []⟩
  ⟨p.rank, p.levels ++ [(if p.levels.length = 1 ∧ name = [] then "root".toList else name, [0])]⟩

/-- `update_local_meta` (`record_util.py:45-68`): the last entry is replaced. -/
def updateMeta (c : Coord) (iter : List Nat) : Coord :=
  ⟨c.rank, c.levels.dropLast ++ (c.levels.getLast?.map fun l => (l.1, iter)).toList⟩

/-- `BaseRecorder._get_pathname` (`base_recorder.py:106-111`): `'.'.join(coord[5::2])`. Entry 5 of the list is the name of the third level. -/
def getPathname (c : Coord) : Str := pyJoin '.' ((c.levels.drop 2).map (·.1))

/-! ### One run of a hierarchy of nonlinear solvers -/

/-- Nonlinear solver of a group. `runOnce n`: the counter, which lives as long as the solver, has the value `n` in this solve (`run_once.py:45`). `newton ls`: the number of line search
evaluations of each iteration. -/
inductive SKind where
  | runOnce (count : Nat)
  | nlgs
  | brent
  | newton (ls : List Nat)
  deriving DecidableEq

/-- One solve of a group: its name, its solver, and for every evaluation of the children the solves of its subgroups (components do not record). Serves `runGroup` (`group.py:716-739`). -/
inductive ETree where
  | group (name : Str) (kind : SKind) (steps : List (List ETree))

/-- Coordinates of the iterations of Newton from iteration `i` on: `(i, 0)` and then the line search `(i, 1)`, `(i, 2)`, … (`newton.py:222`, `backtracking.py:129`). -/
def newtonLabels : Nat → List Nat → List (List Nat × Bool)
  | _, [] => []
  | i, m :: ls => (List.range (m + 1)).map (fun j => ([i, j], true)) ++ newtonLabels (i + 1) ls

/-- For `n` evaluations of the children: the entry that `update_local_meta` puts into the coordinate and whether the solver records the evaluation.
`run_once.py:45-52`, `nl_gauss_seidel.py:107-117,141-150`, `brent.py:145,172-176,210-216`, `newton.py:149-158,201-230`, `backtracking.py:127-136`. -/
def stepLabels (n : Nat) : SKind → List (List Nat × Bool)
  | .runOnce c => [([c], true)]
  | .nlgs => (List.range n).map fun i => ([i + 1], true)
  | .brent => (List.range n).map fun i => ([i], true)
  | .newton ls => ([0, 0], false) :: newtonLabels 1 ls

/-- RunOnce names its level after `system.name`, the others after `system.pathname` (`run_once.py:47`, `nl_gauss_seidel.py:110`, `brent.py:145`, `newton.py:150`,
`backtracking.py:104`). -/
def SKind.usesName : SKind → Bool
  | .runOnce _ => true
  | _ => false

/-- A recorded iteration: its coordinate and, for the specification, the systems from the root to the one that records, each with the fact whether its solver
passes the bare name. Serves `runGroup` (`group.py:716-739`). -/
structure Event where
  coord : Coord
  chain : List (Str × Bool)
  deriving DecidableEq

/-- `system.pathname` for the names on the way from the root, whose own name is empty. Serves `runGroup` (`group.py:716-739`). -/
def pathOf (chain : List (Str × Bool)) : Str := pyJoin '.' (chain.tail.map (·.1))

/-- The name handed to `create_local_meta`. Serves `runGroup` (`group.py:716-739`). -/
def levelName (chain : List (Str × Bool)) (name : Str) (kind : SKind) : Str :=
  if kind.usesName then name else pathOf (chain ++ [(name, kind.usesName)])

mutual
/-- One solve of a group below the systems `chain`, called with the coordinate `parent` (`Group.solve_nonlinear`, `group.py:716-739`). -/
def runGroup (rank : Nat) (parent : Option Coord) (chain : List (Str × Bool)) : ETree → List Event
  | .group name kind steps =>
    runSteps rank (createMeta rank parent (levelName chain name kind)) (chain ++ [(name, kind.usesName)]) (stepLabels steps.length kind) steps
/-- The evaluations of one solve. The children get the coordinate of the evaluation (`Group.children_solve_nonlinear`, `group.py:741-759`); the solver records after them.
An evaluation without label (more evaluations than the solver makes) does not take place. -/
def runSteps (rank : Nat) (c : Coord) (chain : List (Str × Bool)) (labels : List (List Nat × Bool)) : List (List ETree) → List Event
  | [] => []
  | subs :: steps =>
    match labels with
    | [] => []
    | (l, rec) :: labels =>
      (runSubs rank (updateMeta c l) chain subs ++ if rec then [⟨updateMeta c l, chain⟩] else []) ++ runSteps rank c chain labels steps
/-- The subgroups one after another. Serves `runSteps` (`group.py:741-759`). -/
def runSubs (rank : Nat) (c : Coord) (chain : List (Str × Bool)) : List ETree → List Event
  | [] => []
  | t :: ts => runGroup rank (some c) chain t ++ runSubs rank c chain ts
end

/-- A run of the driver: evaluation number `start + k` of the model, recorded by the driver itself or not. `Driver.run_once` (`driver.py:768-788`), `ScipyOptimizer.run`, `_objfunc`
(`scipy_optimizer.py:104-111,246-262`: the initial run number 0 is not recorded by the driver), `PredeterminedRunsDriver._prep_case` (`predeterminedruns_driver.py:438-446`). -/
def driverRun (rank : Nat) (dname : Str) : Nat → List (ETree × Bool) → List Event
  | _, [] => []
  | k, (t, rec) :: ts =>
    (runGroup rank (some (updateMeta (createMeta rank none dname) [k])) [] t ++
      if rec then [⟨updateMeta (createMeta rank none dname) [k], []⟩] else []) ++ driverRun rank dname (k + 1) ts

/-- Runs of a group during finite differencing: `run_model` is called without metadata (`system.py:710-745`, `group.py:716`). -/
def fdRuns (rank : Nat) (chain : List (Str × Bool)) (ts : List ETree) : List Event := ts.flatMap (runGroup rank none chain)

/-! ### Filters -/

/-- Options of a recorder (`base_recorder.py:33-45`). -/
structure RecOpts where
  recP : Bool
  recU : Bool
  recR : Bool
  recD : Bool
  includes : List Str
  excludes : List Str

/-- `any` written as the loop of `_check_path` over the exclude patterns (`base_recorder.py:98-100`): `False` at the first match, `True` at the end. -/
def checkExcl (fnm : Str → Str → Bool) (path : Str) : List Str → Bool
  | [] => true
  | e :: es => if fnm path e then false else checkExcl fnm path es

/-- `BaseRecorder._check_path` (`base_recorder.py:91-104`). `fnm` is `fnmatchcase`. -/
def checkPath (fnm : Str → Str → Bool) (path : Str) (excludes : List Str) : List Str → Bool
  | [] => false
  | i :: is => if fnm path i then checkExcl fnm path excludes else checkPath fnm path excludes is

/-- Entry of `_filtered` for one system. Serves `recStartup` (`base_recorder.py:60-89`). -/
structure Filt where
  p : List Str
  u : List Str
  r : List Str
  deriving DecidableEq

/-- Values of the three vectors of a system. Serves `recStartup` (`base_recorder.py:60-89`). -/
structure RecVecs (V : Type) where
  params : List (Str × V)
  unknowns : List (Str × V)
  resids : List (Str × V)

/-- `BaseRecorder.startup` (`base_recorder.py:60-89`). -/
def recStartup {V : Type} (fnm : Str → Str → Bool) (o : RecOpts) (v : RecVecs V) : Filt :=
  let keep := fun (d : List (Str × V)) => (d.map (·.1)).filter fun n => checkPath fnm n o.excludes o.includes
  { p := if o.recP then keep v.params else []
    u := if o.recU then keep v.unknowns else []
    r := if o.recU then (if o.recR then keep v.unknowns else []) else if o.recR then keep v.resids else [] }

/-- `vecwrapper[n]`. Serves `filterVec` (`base_recorder.py:113-122`). -/
def vecItem {V : Type} (d : List (Str × V)) (n : Str) : Except PyErr (Str × V) :=
  match d.lookup n with
  | none => .error .KeyError
  | some x => .ok (n, x)

/-- `BaseRecorder._filter_vector` (`base_recorder.py:113-122`) once the names are found. -/
def filterVec {V : Type} (d : List (Str × V)) (names : List Str) : Except PyErr (List (Str × V)) :=
  if d.isEmpty then .ok [] else names.mapM (vecItem d)

/-- What is written for one iteration: `none` if the vector is not recorded. Serves `recIteration` (`inmem_recorder.py:72-95`). -/
structure RecData (V : Type) where
  p : Option (List (Str × V))
  u : Option (List (Str × V))
  r : Option (List (Str × V))
  deriving DecidableEq

/-- `if self.options[…]: … = self._filter_vector(…)`. Serves `recIteration` (`inmem_recorder.py:72-95`). -/
def recPart {V : Type} (on : Bool) (d : List (Str × V)) (names : List Str) : Except PyErr (Option (List (Str × V))) :=
  if on then (filterVec d names).map some else .ok none

/-- The common part of `record_iteration` of the recorders (`inmem_recorder.py:72-95`, `sqlite_recorder.py:127-134`, `csv_recorder.py:107-120`): `filtered` is the dict `_filtered`. -/
def recIteration {V : Type} (o : RecOpts) (filtered : List (Str × Filt)) (c : Coord) (v : RecVecs V) : Except PyErr (RecData V) :=
  if o.recP || o.recU || o.recR then
    match filtered.lookup (getPathname c) with
    | none => .error .KeyError
    | some f =>
      match recPart o.recP v.params f.p, recPart o.recU v.unknowns f.u, recPart o.recR v.resids f.r with
      | .ok p, .ok u, .ok r => .ok ⟨p, u, r⟩
      | .error e, _, _ => .error e
      | _, .error e, _ => .error e
      | _, _, .error e => .error e
  else .ok ⟨none, none, none⟩

/-! ### CSV -/

/-- A cell of the file. Serves `csvRow` (`csv_recorder.py:137-146`). -/
inductive Cell (V D : Type) where
  | flag (success : Nat)
  | val (v : V)
  | empty
  | deriv (d : D)
  deriving DecidableEq

/-- State of the recorder: the header row if written, `ncol`, and the data rows. Serves `csvIter` (`csv_recorder.py:87-151`). -/
structure CsvSt (V D : Type) where
  header : Option (List Str)
  ncol : Nat
  rows : List (List (Cell V D))
  deriving DecidableEq

/-- Header (`csv_recorder.py:122-131`). -/
def csvHeader {V : Type} (o : RecOpts) (d : RecData V) : List Str :=
  ["success".toList] ++ (d.p.getD []).map (·.1) ++ (d.u.getD []).map (·.1) ++ (d.r.getD []).map (·.1) ++ if o.recD then ["Derivatives".toList] else []

/-- Data row (`csv_recorder.py:137-146`). -/
def csvRow {V D : Type} (o : RecOpts) (success : Nat) (d : RecData V) : List (Cell V D) :=
  [.flag success] ++ (d.p.getD []).map (fun x => .val x.2) ++ (d.u.getD []).map (fun x => .val x.2) ++ (d.r.getD []).map (fun x => .val x.2) ++ if o.recD then [.empty] else []

/-- `CsvRecorder.record_iteration` (`csv_recorder.py:87-151`) after filtering. -/
def csvIter {V D : Type} (o : RecOpts) (s : CsvSt V D) (success : Nat) (d : RecData V) : CsvSt V D :=
  match s.header with
  | some _ => { s with rows := s.rows ++ [csvRow o success d] }
  | none => ⟨some (csvHeader o d), (csvHeader o d).length, s.rows ++ [csvRow o success d]⟩

/-- `CsvRecorder.record_derivatives` (`csv_recorder.py:153-174`): `row[0] = …` fails if there is no column but the last. -/
def csvDerivs {V D : Type} (s : CsvSt V D) (success : Nat) (d : D) : Except PyErr (CsvSt V D) :=
  match List.replicate (s.ncol - 1) (Cell.empty : Cell V D) with
  | [] => .error .IndexError
  | _ :: row => .ok { s with rows := s.rows ++ [.flag success :: row ++ [.deriv d]] }

/-- Calls that reach a recorder. Serves `csvStep` (`recording_manager.py:234-252`). -/
inductive RecOp (V D : Type) where
  | iter (coord : Coord) (success : Nat) (vecs : RecVecs V)
  | derivs (coord : Coord) (success : Nat) (d : D)

/-- One call; `RecordingManager.record_derivatives` (`recording_manager.py:234-252`) asks the option first. -/
def csvStep {V D : Type} (o : RecOpts) (filtered : List (Str × Filt)) (s : CsvSt V D) : RecOp V D → Except PyErr (CsvSt V D)
  | .iter c success v =>
    match recIteration o filtered c v with
    | .error e => .error e
    | .ok d => .ok (csvIter o s success d)
  | .derivs _ success d => if o.recD then csvDerivs s success d else .ok s

/-- A whole history. Serves `csv_recorder.py:87-174`. -/
def csvRun {V D : Type} (o : RecOpts) (filtered : List (Str × Filt)) (ops : List (RecOp V D)) : Except PyErr (CsvSt V D) :=
  ops.foldlM (csvStep o filtered) ⟨none, 0, []⟩

/-! ### SQLite -/

/-- One table: `SqliteDict` with keys in row order. Serves `sqlStep` (`sqlite_recorder.py:94-161`). -/
abbrev Table (X : Type) := List (Str × X)

/-- `table[key] = value`: sqlitedict runs `REPLACE INTO`, which deletes an existing row and appends a new one. Serves `sqlStep` (`sqlite_recorder.py:94-161`). -/
def Table.replace {X : Type} (t : Table X) (k : Str) (x : X) : Table X := t.filter (fun e => e.1 ≠ k) ++ [(k, x)]

/-- The file. Serves `sqlStep` (`sqlite_recorder.py:94-161`). -/
structure SqlFile (V D : Type) where
  iterations : Table (Nat × RecData V)
  derivs : Table (Nat × D)

/-- `SqliteRecorder.record_iteration`, `record_derivatives` (`sqlite_recorder.py:94-161`). The values are pickled and read back unchanged. -/
def sqlStep {V D : Type} (o : RecOpts) (filtered : List (Str × Filt)) (f : SqlFile V D) : RecOp V D → Except PyErr (SqlFile V D)
  | .iter c success v =>
    match recIteration o filtered c v with
    | .error e => .error e
    | .ok d => .ok { f with iterations := f.iterations.replace (formatCoord c) (success, d) }
  | .derivs c success d => if o.recD then .ok { f with derivs := f.derivs.replace (formatCoord c) (success, d) } else .ok f

/-- A whole history. Serves `sqlite_recorder.py:94-161`. -/
def sqlRun {V D : Type} (o : RecOpts) (filtered : List (Str × Filt)) (ops : List (RecOp V D)) : Except PyErr (SqlFile V D) :=
  ops.foldlM (sqlStep o filtered) ⟨[], []⟩

/-- A `Case` (`case.py:46-53`). `derivs` is the documented attribute, `hiddenDerivs` the attribute `_derivs` that the reader sets. -/
structure CaseObj (V D : Type) where
  success : Nat
  data : RecData V
  derivs : Option D
  hiddenDerivs : Option D
  deriving DecidableEq

/-- `SqliteCaseReader.get_case` with a text (`sqlite_reader.py:61-95`). The data of an iteration have no entry 'Derivatives'. -/
def getCase {V D : Type} (f : SqlFile V D) (key : Str) : Except PyErr (CaseObj V D) :=
  match f.iterations.lookup key with
  | none => .error .KeyError
  | some (s, d) => .ok ⟨s, d, none, (f.derivs.lookup key).map (·.2)⟩

/-- `get_case` with an integer: `self._case_keys[case_id]`, negative numbers counting from the end. `sqlite_reader.py:73-76`. -/
def getCaseAt {V D : Type} (f : SqlFile V D) (i : Int) : Except PyErr (CaseObj V D) :=
  let n := f.iterations.length
  let k := if i < 0 then i + n else i
  if k < 0 then .error .IndexError
  else match f.iterations[k.toNat]? with
    | none => .error .IndexError
    | some e => getCase f e.1

end OpenMDAO
