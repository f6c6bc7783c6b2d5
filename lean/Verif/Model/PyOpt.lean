import Verif.Model.Relevance
import Verif.Model.Totals
import Mathlib.Data.List.Dedup
import Mathlib.Algebra.Order.Ring.Defs
import Mathlib.Data.Fintype.BigOperators
/-!
# Model of `pyOptSparseDriver` (`openmdao/drivers/pyoptsparse_driver.py:128-600`)

The optimizer itself (pyoptsparse) is outside the repository. Python sets are lists without duplicates; their order is not relied upon. Printing, history files and recorders' contents are left out.
-/
namespace OpenMDAO

variable {K : Type}

/-! ## Sparsity from index connections -/

/-- `problem.root.connections`: target, source and `src_indices`, by absolute name. Serves `subParamConns` (`pyoptsparse_driver.py:179-199`). -/
abbrev IdxConns := List (Path × (Path × Option (List Nat)))

/-- The indices of a connection in terms of the entries of the design variable (`pyoptsparse_driver.py:188-199`). -/
def mapDvIdx (dvIdx : Option (List Nat)) (indices : List Nat) : List Nat :=
  match dvIdx with
  | none => indices.dedup
  | some d => (indices.dedup.filter fun i => decide (i ∈ d)).map fun i => d.idxOf i

/-- One connection with indices from the design variable with absolute name `src`. Serves `subParamConns` (`pyoptsparse_driver.py:179-199`). -/
def subConnOf (src : Path) (dvIdx : Option (List Nat)) (c : Path × (Path × Option (List Nat))) : Option (Path × List Nat) :=
  match c.2.2 with
  | some idx => if c.2.1 = src then some (c.1, mapDvIdx dvIdx idx) else none
  | none => none

/-- `sub_param_conns[name]` (`pyoptsparse_driver.py:179-199`). -/
def subParamConns (conns : IdxConns) (src : Path) (dvIdx : Option (List Nat)) : List (Path × List Nat) := conns.filterMap (subConnOf src dvIdx)

/-- `full_param_conns[name]` (`pyoptsparse_driver.py:200-201`): targets connected to the whole variable. -/
def fullParamConns (conns : IdxConns) (src : Path) : List Path := (conns.filter fun c => decide (c.2.1 = src) && c.2.2.isNone).map Prod.fst

/-- `rel_idx` of `_build_sparse` for one constraint and one design variable (`pyoptsparse_driver.py:381-402`); `none` if nothing is recorded in `sub_sparsity`. `rels` is `rel.relevant[name]`, a set of promoted names, in which targets are
looked up by their absolute names. -/
def sparseIdx (sub : List (Path × List Nat)) (full : List Path) (rels : Path → Bool) : Option (List Nat) :=
  if sub.isEmpty then none
  else if full.any rels then none
  else
    let relIdx := ((sub.filter fun e => rels e.1).flatMap Prod.snd).dedup
    if relIdx.isEmpty then none else some relIdx

/-- pyoptsparse's `coo` format with its shape. Serves `declareCoo` (`pyoptsparse_driver.py:404-422`). -/
structure Coo (K : Type) where
  nrow : Nat
  ncol : Nat
  row : List Nat
  col : List Nat
  data : List K

/-- The pattern declared with the constraint (`pyoptsparse_driver.py:404-422`). -/
def declareCoo [One K] (consize ncol : Nat) (relIdx : List Nat) : Coo K :=
  { nrow := consize, ncol := ncol, row := (List.range consize).flatMap fun i => List.replicate relIdx.length i, col := (List.range consize).flatMap fun _ => relIdx,
    data := List.replicate (consize * relIdx.length) 1 }

/-- Conversion of a block of the gradient (`pyoptsparse_driver.py:567-586`). -/
def gradCoo (jac : TMat K) (relIdx : List Nat) : Except PyErr (Coo K) :=
  if jac.m ≠ 0 ∧ relIdx.any (fun j => decide (jac.n ≤ j)) = true then .error .IndexError
  else .ok
    { nrow := jac.m, ncol := jac.n, row := (List.range jac.m).flatMap fun i => List.replicate relIdx.length i, col := (List.range jac.m).flatMap fun _ => relIdx,
      data := (List.range jac.m).flatMap fun i => relIdx.map (jac.a i) }

/-! ## Active set -/

/-- The option `active_tol` of a constraint. Serves `ActTol.get` (`pyoptsparse_driver.py:533-536`). -/
inductive ActTol (K : Type) where
  | float (x : K)
  | int (n : Int)
  | array (l : List K)

/-- `tol` for entry `j` (`pyoptsparse_driver.py:533-536`): anything that is not a float is indexed. -/
def ActTol.get (t : ActTol K) (j : Nat) : Except PyErr K :=
  match t with
  | .float x => .ok x
  | .int _ => .error .TypeError
  | .array l => match l[j]? with
    | some x => .ok x
    | none => .error .IndexError

/-- What pyoptsparse stores for an entry of a constraint: value, lower and upper bound. Serves `pastLower` (`pyoptsparse_driver.py:537-541`). -/
structure ConEntry (K : Type) where
  val : K
  lower : Option K
  upper : Option K

/-- A bound that is `None` is skipped (`pyoptsparse_driver.py:537-541`). -/
def pastLower [Add K] [LT K] [DecidableLT K] (e : ConEntry K) (tol : K) : Bool :=
  match e.lower with
  | none => false
  | some l => decide (l + tol < e.val)

/-- The same for the upper bound. Serves `inactiveStep` (`pyoptsparse_driver.py:532-541`). -/
def pastUpper [Sub K] [LT K] [DecidableLT K] (e : ConEntry K) (tol : K) : Bool :=
  match e.upper with
  | none => false
  | some u => decide (e.val < u - tol)

/-- One entry (`pyoptsparse_driver.py:532-541`). -/
def inactiveStep [Field K] [LinearOrder K] (tols : ActTol K) (acc : List Nat) (je : Nat × ConEntry K) : Except PyErr (List Nat) :=
  match tols.get je.1 with
  | .error e => .error e
  | .ok tol => .ok (acc ++ (if pastLower je.2 tol then [je.1] else []) ++ if pastUpper je.2 tol then [je.1] else [])

/-- `inactive_idx` of one constraint (`pyoptsparse_driver.py:528-544`). -/
def inactiveIdx [Field K] [LinearOrder K] (tols : ActTol K) (con : List (ConEntry K)) : Except PyErr (List Nat) :=
  ((List.range con.length).zip con).foldlM (inactiveStep tols) []

/-- The test in `_calc_gradient_ln_solver` (`problem.py:1693-1697`) whether row `i` of the group `params` is left zero: `voi` is the last name of the loop that allocated the right-hand sides. -/
def skipSolve (inactives : List (String × List Nat)) (fwd : Bool) (params : List String) (i : Nat) : Bool :=
  match params.getLast? with
  | none => false
  | some voi => !fwd && match inactives.lookup voi with
    | none => false
    | some l => decide (i ∈ l)

/-- The rows `i` of the members of a group (`problem.py:1693-1711`): zeros, or the solution of the linear system. -/
def solveOrZero [Zero K] (inactives : List (String × List Nat)) (fwd : Bool) (params : List String) (i : Nat) (sol : String → Nat → K) : String → Nat → K :=
  if skipSolve inactives fwd params i then fun _ _ => 0 else sol

/-- `inactives` for the constraints with an `active_tol` (`pyoptsparse_driver.py:525-544`). -/
def collectInactive [Field K] [LinearOrder K] (acc : List (String × List Nat)) (c : String × ActTol K × List (ConEntry K)) : Except PyErr (List (String × List Nat)) :=
  match inactiveIdx c.2.1 c.2.2 with
  | .error e => .error e
  | .ok [] => .ok acc
  | .ok l => .ok (dictSet acc c.1 l)

/-- The whole loop. Serves `skipSolve` (`problem.py:1693-1697`). -/
def inactives [Field K] [LinearOrder K] (cons : List (String × ActTol K × List (ConEntry K))) : Except PyErr (List (String × List Nat)) := cons.foldlM collectInactive []

/-! ## Callbacks -/

/-- A block of the gradient. Serves `zeroSens` (`pyoptsparse_driver.py:556-565`). -/
inductive SensBlock (K : Type) where
  | dense (m : TMat K)
  | coo (c : Coo K)

/-- `sens_dict`. Serves `zeroSens` (`pyoptsparse_driver.py:556-565`). -/
abbrev SensDict (K : Type) := List (String × List (String × SensBlock K))

/-- Zeros of the right size (`pyoptsparse_driver.py:556-565`); sizes of responses and design variables. -/
def zeroSens [Zero K] (funcs dvs : List (String × Nat)) : SensDict K :=
  funcs.map fun o => (o.1, dvs.map fun d => (d.1, SensBlock.dense ⟨o.2, d.2, fun _ _ => 0⟩))

/-- One entry of `sub_sparsity` (`pyoptsparse_driver.py:567-586`). A block that is already sparse has no `shape`. -/
def sparsifyStep (s : SensDict K) (e : (String × String) × List Nat) : Except PyErr (SensDict K) :=
  match s.lookup e.1.1 with
  | none => .error .KeyError
  | some blocks => match blocks.lookup e.1.2 with
    | none => .error .KeyError
    | some (.coo _) => .error .AttributeError
    | some (.dense m) => match gradCoo m e.2 with
      | .error x => .error x
      | .ok c => .ok (dictSet s e.1.1 (dictSet blocks e.1.2 (.coo c)))

/-- `calc_gradient` with `AnalysisError` replaced by zeros: gradient and `fail` (`pyoptsparse_driver.py:546-565`). -/
def gradOrZeros [Zero K] (grad : Except PyErr (SensDict K)) (funcs dvs : List (String × Nat)) : Except PyErr (SensDict K × Nat) :=
  match grad with
  | .ok s => .ok (s, 0)
  | .error .AnalysisError => .ok (zeroSens funcs dvs, 1)
  | .error e => .error e

/-- `_gradfunc` (`pyoptsparse_driver.py:498-600`): any other exception gives an empty dict and leaves `fail` as it was. -/
def gradCallback [Zero K] (inactives : Except PyErr (List (String × List Nat))) (grad : List (String × List Nat) → Except PyErr (SensDict K)) (funcs dvs : List (String × Nat))
    (subSparsity : List ((String × String) × List Nat)) : SensDict K × Nat :=
  match inactives with
  | .error _ => ([], 0)
  | .ok ina => match gradOrZeros (grad ina) funcs dvs with
    | .error _ => ([], 0)
    | .ok (s, fail) => match subSparsity.foldlM sparsifyStep s with
      | .error _ => ([], fail)
      | .ok s' => (s', fail)

/-- What the function callback uses of the framework; `S` is the state of the model, `V` a design value, `F` the responses. Serves `setDvs` (`pyoptsparse_driver.py:455-456`). -/
structure OptModel (S V F : Type) where
  setDv : String → V → S → Except PyErr S
  solve : S → S × Option PyErr
  vals : S → Except PyErr F
  record : S → Except PyErr Unit

variable {S V F : Type}

/-- The loop over the design variables (`pyoptsparse_driver.py:455-456`); state reached and exception. -/
def setDvs (M : OptModel S V F) (dv : List (String × V)) : List String → S → S × Option PyErr
  | [], s => (s, none)
  | n :: rest, s => match dv.lookup n with
    | none => (s, some .KeyError)
    | some v => match M.setDv n v s with
      | .error e => (s, some e)
      | .ok s' => setDvs M dv rest s'

/-- Responses and recording (`pyoptsparse_driver.py:473-478`). -/
def objValues (M : OptModel S V F) (s : S) : Except PyErr F :=
  match M.vals s with
  | .error e => .error e
  | .ok f => match M.record s with
    | .error e => .error e
    | .ok _ => .ok f

/-- Responses with the flag, or nothing after an exception (`pyoptsparse_driver.py:484-496`). -/
def objResult (M : OptModel S V F) (fail : Nat) (s : S) : S × Option F × Nat :=
  match objValues M s with
  | .error _ => (s, none, 1)
  | .ok f => (s, some f, fail)

/-- `_objfunc` (`pyoptsparse_driver.py:430-496`): state, responses (`none` for the empty dict) and `fail`. -/
def objCallback (M : OptModel S V F) (indep : List String) (dv : List (String × V)) (s : S) : S × Option F × Nat :=
  match setDvs M dv indep s with
  | (s1, some _) => (s1, none, 1)
  | (s1, none) => match M.solve s1 with
    | (s2, none) => objResult M 0 s2
    | (s2, some .AnalysisError) => objResult M 1 s2
    | (s2, some _) => (s2, none, 1)

/-- The end of `run` (`pyoptsparse_driver.py:331-349`): the design variables of the solution are set and the model is run; `inform` is `sol.optInform['value']` if present. -/
def finishRun (M : OptModel S V F) (indep : List String) (dv : List (String × V)) (inform : Option Int) (s : S) : Except PyErr (S × Nat) :=
  match setDvs M dv indep s with
  | (_, some e) => .error e
  | (s1, none) => match M.solve s1 with
    | (_, some e) => .error e
    | (s2, none) => match inform with
      | none => .ok (s2, 0)
      | some k => .ok (s2, if k > 2 then 0 else 1)

/-! ## Constraints handed over -/

/-- What `addConGroup` is given for a constraint (`pyoptsparse_driver.py:221-282`): scaled bounds, and for a linear constraint the blocks of its Jacobian for the relevant design variables. -/
structure ConGroup (κ D K : Type) where
  lower : κ → Option K
  upper : κ → Option K
  linear : Option (List D × (κ → D → K))

/-- Metadata of a constraint: `equals`, or `lower` and `upper`. Serves `conGroup` (`pyoptsparse_driver.py:221-282`). -/
structure PyConMeta (κ K : Type) where
  equals : Option (κ → K)
  lower : κ → Option K
  upper : κ → Option K
  linear : Bool

/-- Equality and inequality constraints (`pyoptsparse_driver.py:221-282`); `wrt` are the relevant design variables and `jac` the gradient at the initial design. -/
def conGroup {κ D : Type} (m : PyConMeta κ K) (wrt : List D) (jac : κ → D → K) : ConGroup κ D K :=
  let lin := if m.linear then some (wrt, jac) else none
  match m.equals with
  | some e => { lower := fun i => some (e i), upper := fun i => some (e i), linear := lin }
  | none => { lower := m.lower, upper := m.upper, linear := lin }

end OpenMDAO
