import Verif.Model.Totals
import Mathlib.Order.Defs.LinearOrder
/-!
# Model of `System.fd_jacobian` (`openmdao/core/system.py:488-797`) and of the process split of `ParallelFDGroup`

Vectors are functions from positions to values (the length is only used through the slices of the variables). The model
(`run_model`) is a parameter. Floating point is an arbitrary rounding function applied after every arithmetic operation; `id` is exact
arithmetic. Not modelled: the complex step branch (lines 697-708), variables that are not local to the process (`p_size == 0` with
a positive declared size), negative indices of interest.
-/
namespace OpenMDAO

/-- Difference form, option `form` (`system.py:709,722,735`). -/
inductive FdForm where
  | forward | backward | central
  deriving DecidableEq, Repr

/-- The vector that holds the perturbed variable (`inputs` at `system.py:625-634`). -/
inductive FdSel where
  | params | unknowns
  deriving DecidableEq, Repr

/-- The three vectors that are passed to the model. Serves `fdDiff` (`system.py:709-754`). -/
structure FdSt (K : Type) where
  p : Nat → K
  u : Nat → K
  r : Nat → K

/-- A perturbed variable after name resolution and option lookup (`system.py:612-658`). `src` is `param_src`. -/
structure FdVar (K : Type) where
  name : String
  sel : FdSel
  start : Nat
  size : Nat
  src : Option String
  fdstep : K
  relative : Bool
  form : FdForm
  deriving DecidableEq

/-- What `fd_jacobian` reads from the system. Serves `fdOpts` (`system.py:643-650`). -/
structure FdEnv (K : Type) where
  /-- rounding after every operation -/
  rnd : K → K
  /-- `run_model` -/
  run : FdSt K → Except PyErr (FdSt K)
  /-- `total_derivs`: the result vector is `unknowns` instead of `resids` -/
  total : Bool
  /-- `self.connections`, without source indices -/
  conns : List (String × String)
  /-- slices (start, size) of the variables in the two vectors -/
  pslices : List (String × (Nat × Nat))
  uslices : List (String × (Nat × Nat))
  toProm : List (String × String)
  states : List String
  /-- options of the system: step size, relative?, form -/
  defaults : K × Bool × FdForm
  /-- metadata of a param that overrides them -/
  overrides : List (String × (Option K × Option Bool × Option FdForm))
  poi : List (String × List Nat)
  qoi : List (String × List Nat)
  /-- `self._num_par_fds`, `self._par_fd_id` -/
  npar : Nat
  parId : Nat

variable {K : Type} [Field K] [LinearOrder K]

/-- Options of one variable (`system.py:643-650`): local settings trump the settings of the system. -/
def fdOpts (E : FdEnv K) (p : String) : K × Bool × FdForm :=
  match E.overrides.lookup p with
  | none => E.defaults
  | some (a, b, c) => (a.getD E.defaults.1, b.getD E.defaults.2.1, c.getD E.defaults.2.2)

/-- Name to use as key into the unknowns for a source (`system.py:621-623`). -/
def fdSrcKey (E : FdEnv K) (src : String) : Except PyErr String :=
  if (E.uslices.lookup src).isSome then .ok src
  else match E.toProm.lookup src with
    | none => .error .KeyError
    | some s => .ok s

/-- Slice lookup, `inputs._dat[param_key]`. Serves `fdVar` (`system.py:616-658`). -/
def fdSlice (sl : List (String × (Nat × Nat))) (key : String) : Except PyErr (Nat × Nat) :=
  match sl.lookup key with
  | none => .error .KeyError
  | some x => .ok x

/-- Build the record of a variable. Serves `fdVar` (`system.py:616-658`). -/
def fdMk (E : FdEnv K) (p : String) (sel : FdSel) (src : Option String) (sl : Except PyErr (Nat × Nat)) : Except PyErr (FdVar K) :=
  match sl with
  | .error e => .error e
  | .ok (start, size) => .ok ⟨p, sel, start, size, src, (fdOpts E p).1, (fdOpts E p).2.1, (fdOpts E p).2.2⟩

/-- Resolution of one name (`system.py:616-658`). -/
def fdVar (E : FdEnv K) (p : String) : Except PyErr (FdVar K) :=
  match E.conns.lookup p with
  | some src =>
    match fdSrcKey E src with
    | .error e => .error e
    | .ok key => fdMk E p .unknowns (some key) (fdSlice E.uslices key)
  | none =>
    if p ∈ E.states then fdMk E p .unknowns none (fdSlice E.uslices p)
    else fdMk E p .params none (fdSlice E.pslices p)

/-- `target_input[idx] += d`. Serves `fdDiff` (`system.py:709-754`). -/
def FdSt.bump (rnd : K → K) (s : FdSt K) (sel : FdSel) (pos : Nat) (d : K) : FdSt K :=
  match sel with
  | .params => { s with p := fun k => if k = pos then rnd (s.p k + d) else s.p k }
  | .unknowns => { s with u := fun k => if k = pos then rnd (s.u k + d) else s.u k }

/-- Value of a position of one of the two vectors. Serves `fdColumn` (`system.py:677-780`). -/
def FdSt.get (s : FdSt K) : FdSel → Nat → K
  | .params => s.p
  | .unknowns => s.u

/-- `resultvec.vec`. Serves `fdDiff` (`system.py:709-754`). -/
def FdSt.res (s : FdSt K) (total : Bool) : Nat → K := if total then s.u else s.r

/-- `resultvec.vec[:] = v`. Serves `fdDiff` (`system.py:709-754`). -/
def FdSt.setRes (s : FdSt K) (total : Bool) (v : Nat → K) : FdSt K := if total then { s with u := v } else { s with r := v }

/-- Step (`system.py:688-693`). -/
def fdStepSize (E : FdEnv K) (v : FdVar K) (x : K) : K :=
  if v.relative then
    if E.rnd (x * v.fdstep) < v.fdstep then v.fdstep else E.rnd (x * v.fdstep)
  else v.fdstep

/-- `resultvec.vec[:] -= base; resultvec.vec[:] *= factor`. Serves `fdDiff` (`system.py:709-754`). -/
def fdScale (E : FdEnv K) (s : FdSt K) (base : Nat → K) (factor : K) : FdSt K :=
  s.setRes E.total (fun k => E.rnd (E.rnd (s.res E.total k - base k) * factor))

/-- One difference (`system.py:709-754`); the result vector holds the difference quotient afterwards. A zero step is a division by
zero. -/
def fdDiff (E : FdEnv K) (v : FdVar K) (cache1 : Nat → K) (pos : Nat) (step : K) (s : FdSt K) : Except PyErr (FdSt K) :=
  match v.form with
  | .forward =>
    match E.run (s.bump E.rnd v.sel pos step) with
    | .error e => .error e
    | .ok s1 =>
      if step = 0 then .error .ZeroDivisionError
      else .ok (fdScale E (s1.bump E.rnd v.sel pos (-step)) cache1 (E.rnd (1 / step)))
  | .backward =>
    match E.run (s.bump E.rnd v.sel pos (-step)) with
    | .error e => .error e
    | .ok s1 =>
      if step = 0 then .error .ZeroDivisionError
      else .ok (fdScale E (s1.bump E.rnd v.sel pos step) cache1 (E.rnd (-1 / step)))
  | .central =>
    match E.run (s.bump E.rnd v.sel pos step) with
    | .error e => .error e
    | .ok s1 =>
      match E.run (((s1.bump E.rnd v.sel pos (-step)).setRes E.total cache1).bump E.rnd v.sel pos (-step)) with
      | .error e => .error e
      | .ok s2 =>
        if step = 0 then .error .ZeroDivisionError
        else .ok ((fdScale E s2 (s1.res E.total) (E.rnd (-(1 / 2) / step))).bump E.rnd v.sel pos step)

/-- `jac`, keyed by (unknown, param). Serves `fdAlloc` (`system.py:661-667`). -/
abbrev FdJac (K : Type) := String → String → Option (TMat K)

/-- Loop state: vectors, Jacobian, number of columns seen so far (`fd_count + 1`) and `fd_cols`. `fd_cols` holds views of columns of
`jac` in the code; a column is written once, so its contents are recorded here. Serves `fdStore` (`system.py:756-764`). -/
structure FdLoop (K : Type) where
  st : FdSt K
  jac : FdJac K
  count : Nat
  cols : List ((String × String × Nat) × List K)

/-- `jac[u, p] = M`. Serves `fdAlloc` (`system.py:661-667`). -/
def FdJac.set (J : FdJac K) (u p : String) (M : TMat K) : FdJac K := fun u' p' => if u' = u ∧ p' = p then some M else J u' p'

/-- Number of rows of an unknown (`system.py:662-665`). -/
def fdUSize (E : FdEnv K) (u : String) : Except PyErr Nat :=
  match E.qoi.lookup u with
  | some l => .ok l.length
  | none => (fdSlice E.uslices u).map (·.2)

/-- Allocation of the blocks of one variable (`system.py:661-667`). -/
def fdAlloc (E : FdEnv K) (p : String) (psize : Nat) (J : FdJac K) (u : String) : Except PyErr (FdJac K) :=
  match fdUSize E u with
  | .error e => .error e
  | .ok m => .ok (J.set u p ⟨m, psize, fun _ _ => 0⟩)

/-- Positions in the result vector of the rows of an unknown (`system.py:757-761`). -/
def fdRows (E : FdEnv K) (u : String) : Except PyErr (List Nat) :=
  match fdSlice E.uslices u with
  | .error e => .error e
  | .ok (s, n) =>
    match E.qoi.lookup u with
    | none => .ok (List.range' s n)
    | some l => if l.any (fun k => decide (n ≤ k)) then .error .IndexError else .ok (l.map (· + s))

/-- Indices of a variable to perturb (`system.py:653-658`). -/
def fdIdxs (E : FdEnv K) (v : FdVar K) : List Nat :=
  match v.src.bind fun s => E.poi.lookup s with
  | some l => l
  | none => List.range v.size

/-- Store one column block (`system.py:756-764`). -/
def fdStore (E : FdEnv K) (p : String) (col : Nat) (L : FdLoop K) (u : String) : Except PyErr (FdLoop K) :=
  match fdRows E u, L.jac u p with
  | .ok rows, some M =>
    match M.setCol 0 M.m col (rows.map (L.st.res E.total)) with
    | .error e => .error e
    | .ok M' => .ok { L with jac := L.jac.set u p M', cols := dictSet L.cols (u, p, col) (rows.map (L.st.res E.total)) }
  | .error e, _ => .error e
  | .ok _, none => .error .KeyError

/-- Identity entries for an unknown that is also the perturbed input (`system.py:769-777`). -/
def fdPass (E : FdEnv K) (v : FdVar K) (col idx : Nat) (L : FdLoop K) (u : String) : Except PyErr (FdLoop K) :=
  if v.src = some u then
    match E.qoi.lookup u with
    | none => .ok { L with jac := L.jac.set u v.name ⟨1, 1, fun _ _ => 1⟩ }
    | some q =>
      if idx ∈ q then
        match L.jac u v.name with
        | none => .error .KeyError
        | some M => .ok { L with jac := L.jac.set u v.name { M with a := fun i j => if i = q.idxOf idx ∧ j = col then 1 else M.a i j } }
      else .ok L
  else .ok L

/-- One column (`system.py:677-780`). -/
def fdColumn (E : FdEnv K) (fdU passU : List String) (cache1 : Nat → K) (v : FdVar K) (L : FdLoop K) (ci : Nat × Nat) :
    Except PyErr (FdLoop K) :=
  if L.count % E.npar = E.parId then
    if v.size ≤ ci.2 then .error .IndexError
    else
      match fdDiff E v cache1 (v.start + ci.2) (fdStepSize E v (L.st.get v.sel (v.start + ci.2))) L.st with
      | .error e => .error e
      | .ok s1 =>
        match fdU.foldlM (fdStore E v.name ci.1) { L with st := s1 } with
        | .error e => .error e
        | .ok L1 =>
          match passU.foldlM (fdPass E v ci.1 ci.2) L1 with
          | .error e => .error e
          | .ok L2 => .ok { L2 with st := L2.st.setRes E.total cache1, count := L2.count + 1 }
  else .ok { L with count := L.count + 1 }

/-- All columns of one variable. `system.py:670-777`. -/
def fdVarLoop (E : FdEnv K) (fdU passU : List String) (cache1 : Nat → K) (L : FdLoop K) (v : FdVar K) : Except PyErr (FdLoop K) :=
  match (fdU ++ passU).foldlM (fdAlloc E v.name (fdIdxs E v).length) L.jac with
  | .error e => .error e
  | .ok J => ((List.range (fdIdxs E v).length).zip (fdIdxs E v)).foldlM (fdColumn E fdU passU cache1 v) { L with jac := J }

/-- The local part of `fd_jacobian`, up to line 780, for variables already resolved. `system.py:598-780`. -/
def fdLocal (E : FdEnv K) (fdU passU : List String) (vars : List (FdVar K)) (s : FdSt K) : Except PyErr (FdLoop K) :=
  vars.foldlM (fdVarLoop E fdU passU (s.res E.total)) ⟨s, fun _ _ => none, 0, []⟩

/-- `fd_jacobian` on one process (`num_par_fds == 1`): resolution of the names, then the loop. (The code resolves each name when it
comes to it; an unresolvable name is reported before anything is run here.). `system.py:488-797`. -/
def fdJacobian (E : FdEnv K) (fdParams fdU passU : List String) (s : FdSt K) : Except PyErr (FdLoop K) :=
  match (fdParams ++ (if E.total then [] else E.states)).mapM (fdVar E) with
  | .error e => .error e
  | .ok vars => fdLocal E fdU passU vars s

/-- One received column (`system.py:789-793`). -/
def fdMergeCol (L : FdLoop K) (kv : (String × String × Nat) × List K) : Except PyErr (FdLoop K) :=
  if (L.cols.lookup kv.1).isSome then .ok L
  else
    match L.jac kv.1.1 kv.1.2.1 with
    | none => .error .KeyError
    | some M =>
      match M.setCol 0 M.m kv.1.2.2 kv.2 with
      | .error e => .error e
      | .ok M' => .ok { L with jac := L.jac.set kv.1.1 kv.1.2.1 M', cols := dictSet L.cols kv.1 kv.2 }

/-- Merge of the columns gathered from the other ranks (`system.py:782-793`), in rank order. -/
def fdMerge (own : FdLoop K) (others : List (List ((String × String × Nat) × List K))) : Except PyErr (FdLoop K) :=
  others.foldlM (fun L cols => cols.foldlM fdMergeCol L) own

/-- Colors of the ranks (`parallel_fd_group.py:86-97`): `par_fd_id` of every rank of the full communicator. -/
def fdColors (npar nranks : Nat) : Except PyErr (List Nat) :=
  match evenlyDistribIdxs npar nranks with
  | .error e => .error e
  | .ok (sizes, _) => .ok ((List.range npar).flatMap fun i => List.replicate (sizes.getD i 0) i)

/-- The whole parallel computation seen from one rank: every rank runs the local part, the columns are gathered, and the rank merges
those of the other ranks. Each rank has its own copy of the vectors and they hold the same values. `system.py:782-793`. -/
def fdParallel (E : FdEnv K) (colors : List Nat) (rank : Nat) (fdU passU : List String) (vars : List (FdVar K)) (s : FdSt K) :
    Except PyErr (FdLoop K) :=
  match colors.mapM (fun c => fdLocal { E with parId := c } fdU passU vars s) with
  | .error e => .error e
  | .ok locals =>
    match locals[rank]? with
    | none => .error .IndexError
    | some own => fdMerge own ((locals.eraseIdx rank).map (·.cols))

end OpenMDAO
