import Verif.Model.CheckPartials
import Verif.Model.FdGroup
import Verif.Model.Mode
/-!
# Model of `Problem.check_total_derivatives` (`openmdao/core/problem.py:2122-2238`)

Which pairs of variables are checked, in which modes the derivatives are computed, and what is returned. `calc_gradient` is a parameter of the
model (it is modelled in `Model/Totals` and `Model/GradFd`), and so is `run_once`. What is written to the stream is not modelled.
-/
namespace OpenMDAO

/-- The values of `mode` handed to `calc_gradient`. Serves `TotProb.jacIf` (`problem.py:2218-2226`). -/
inductive GradKind where
  | fwd | rev | fd
deriving DecidableEq

/-- A Jacobian as returned by `calc_gradient` with `return_format='dict'`. Serves `flatJac` (`openmdao/util/dict_util.py:4-25`). -/
abbrev NestJac := List (Str × List (Str × Mat ℝ))

/-- A Jacobian with pairs as keys. Serves `flatJac` (`openmdao/util/dict_util.py:4-25`). -/
abbrev FlatJac := List ((Str × Str) × Mat ℝ)

/-- `_jac_to_flat_dict` (`openmdao/util/dict_util.py:4-25`). -/
def flatJac (J : NestJac) : FlatJac :=
  (J.flatMap fun r => r.2.map fun e => ((r.1, e.1), e.2)).foldl (fun d e => dictSet d e.1 e.2) []

/-- A problem as far as the check looks at it: the model and its last values are in the state `σ`. Serves `TotProb.desvarItem` (`problem.py:2168-2169`). -/
structure TotProb (σ : Type) where
  /-- `driver.iter_count` -/
  iterCount : σ → Nat
  /-- `Problem.run_once` -/
  runOnce : σ → Except PyErr σ
  /-- `Problem.calc_gradient(indep_list, unknown_list, mode=…, return_format='dict')`; with `use_check=True` for `fd`. Taken to leave the state as it is. -/
  grad : σ → GradKind → List Str → List Str → Except PyErr NestJac
  /-- `driver._desvars`, `driver._objs`, `driver._cons`: the names -/
  desvars : List Str
  objs : List Str
  cons : List Str
  /-- `root._sysdata.to_abs_uname` -/
  toAbsU : List (Str × Str)
  /-- `root._unknowns_dict`: absolute name and `pass_by_obj` -/
  unkPbo : List (Str × Bool)
  /-- the systems of the model -/
  root : FSys
  /-- `root.connections`: target and source, absolute names; the source indices are not used -/
  conns : List (Str × Str)
  /-- `root._params_dict`: absolute name and `pass_by_obj` -/
  parPbo : List (Str × Bool)
  /-- `root._sysdata.to_prom_name` -/
  toProm : List (Str × Str)
  /-- `root.unknowns`: promoted name, absolute name, `pass_by_obj` -/
  unknowns : List (Str × Str × Bool)
  /-- `root.ln_solver.options['single_voi_relevance_reduction']` (false when there is no such option) and `['mode']` -/
  reduce : Bool
  lnMode : DMode
  /-- promoted names and sizes of all variables, for `_mode` -/
  sizes : List (String × Nat)

variable {σ : Type}

/-- `d[k]`. Serves `TotProb.desvarItem` (`problem.py:2168-2169`). -/
def getKey {β : Type} (d : List (Str × β)) (k : Str) : Except PyErr β :=
  match d.lookup k with
  | none => .error .KeyError
  | some v => .ok v

/-- One item of a list comprehension `[g(p) for p in l if not pbo(p)]`. Serves `TotProb.indeps` (`problem.py:2165-2182`). -/
def keepStep (f : Str → Except PyErr (Option Str)) (acc : List Str) (p : Str) : Except PyErr (List Str) :=
  match f p with
  | .error e => .error e
  | .ok none => .ok acc
  | .ok (some n) => .ok (acc ++ [n])

/-- `p` of the design variables unless passed by object (`problem.py:2168-2169`). -/
def TotProb.desvarItem (P : TotProb σ) (p : Str) : Except PyErr (Option Str) :=
  getKey P.toAbsU p >>= fun a => getKey P.unkPbo a >>= fun b => .ok (if b then none else some p)

/-- `to_prom_name` of the source of the param `p`, unless the param is passed by object (`problem.py:2174-2182`). The code makes two lists in turn. -/
def TotProb.sourceItem (P : TotProb σ) (p : Str) : Except PyErr (Option Str) :=
  getKey P.parPbo p >>= fun b =>
    if b then .ok none else getKey P.conns p >>= fun src => getKey P.toProm src >>= fun n => .ok (some n)

/-- `item` of the responses unless passed by object (`problem.py:2189-2190,2195-2196`): `root.unknowns.metadata(item)`. -/
def TotProb.respItem (P : TotProb σ) (u : Str) : Except PyErr (Option Str) :=
  getKey P.unknowns u >>= fun m => .ok (if m.2 then none else some u)

/-- `indep_list` (`problem.py:2165-2182`). -/
def TotProb.indeps (P : TotProb σ) : Except PyErr (List Str) :=
  if P.desvars.length > 0 then P.desvars.foldlM (keepStep P.desvarItem) []
  else groupFdParams [] P.root P.parPbo P.conns >>= fun l => l.foldlM (keepStep P.sourceItem) []

/-- `unknown_list` (`problem.py:2186-2196`). -/
def TotProb.resps (P : TotProb σ) : Except PyErr (List Str) :=
  if P.objs.length > 0 ∨ P.cons.length > 0 then (P.objs ++ P.cons).foldlM (keepStep P.respItem) []
  else groupFdUnknowns [] P.root P.unknowns >>= fun l => l.foldlM (keepStep P.respItem) []

/-- `(fwd, rev)` (`problem.py:2200-2216`). -/
def TotProb.modes (P : TotProb σ) (ind unk : List Str) : Except PyErr (Bool × Bool) :=
  if P.reduce then
    match chooseMode .auto P.lnMode (ind.map fun n => [String.ofList n]) (unk.map fun n => [String.ofList n]) P.sizes with
    | .error e => .error e
    | .ok m => .ok (if m = .fwd then (true, false) else (false, true))
  else .ok (true, true)

/-- `if jac:` for a dict or `None`. Serves `totPair` (`problem.py:2501-2580`). -/
def truthy (j : Option FlatJac) : Option FlatJac :=
  match j with
  | none => none
  | some [] => none
  | some d => some d

/-- `jac[key]` if there is a Jacobian. Serves `totPair` (`problem.py:2501-2580`). -/
def getSub (j : Option FlatJac) (k : Str × Str) : Except PyErr (Option (Mat ℝ)) :=
  match truthy j with
  | none => .ok none
  | some d =>
    match d.lookup k with
    | none => .error .KeyError
    | some M => .ok (some M)

/-- `np.linalg.norm(A - B)` if both are there (`problem.py:2536-2548`). -/
noncomputable def subNorm (A B : Option (Mat ℝ)) : Except PyErr (Option ℝ) :=
  match A with
  | none => .ok none
  | some a =>
    match B with
    | none => .ok none
    | some b =>
      match a.sub? b with
      | .error e => .error e
      | .ok d => .ok (some (frob d))

/-- What is returned for a pair: `magnitude` (`none` for `None`), `abs error`, `rel error` (`none` for not a number). Serves `totPair` (`problem.py:2501-2580`). -/
structure TotData where
  magnitude : List (Option ℝ)
  abs : List ℝ
  rel : List (Option ℝ)

/-- The body of the loop of `_assemble_deriv_data` (`problem.py:2501-2580`) without a second finite difference; either Jacobian may be missing. `none` if
the pair is ignored. -/
noncomputable def totPair (jf jr : Option FlatJac) (fd : FlatJac) (k : Str × Str) : Except PyErr (Option TotData) :=
  match fd.lookup k with
  | none => .ok none
  | some F =>
    getSub jf k >>= fun A => getSub jr k >>= fun B => subNorm A (some F) >>= fun a1 => subNorm B (some F) >>= fun a2 => subNorm A B >>= fun a3 =>
      .ok (some { magnitude := [A.map frob, B.map frob, some (frob F)], abs := [a1, a2, a3].filterMap id,
                  rel := if frob F = 0 then [none, none, none, none] else ([a1, a2, a3].filterMap id).map fun x => some (x / frob F) })

/-- One pair of the loop: `cdata[key] = ldata`. Serves `totAssemble` (`problem.py:2498-2580`). -/
noncomputable def totStep (jf jr : Option FlatJac) (fd : FlatJac) (data : List ((Str × Str) × TotData)) (k : Str × Str) :
    Except PyErr (List ((Str × Str) × TotData)) :=
  match totPair jf jr fd k with
  | .error e => .error e
  | .ok none => .ok data
  | .ok (some x) => .ok (dictSet data k x)

/-- `_assemble_deriv_data` (`problem.py:2498-2580`): the loops over the params and the unknowns. -/
noncomputable def totAssemble (ind unk : List Str) (jf jr : Option FlatJac) (fd : FlatJac) : Except PyErr (List ((Str × Str) × TotData)) :=
  (ind.flatMap fun p => unk.map fun u => (u, p)).foldlM (totStep jf jr fd) []

/-- `calc_gradient` and `_jac_to_flat_dict` if the mode is computed, `None` otherwise (`problem.py:2218-2226`). -/
noncomputable def TotProb.jacIf (P : TotProb σ) (s : σ) (b : Bool) (k : GradKind) (ind unk : List Str) : Except PyErr (Option FlatJac) :=
  if b then
    match P.grad s k ind unk with
    | .error e => .error e
    | .ok J => .ok (some (flatJac J))
  else .ok none

/-- The first lines (`problem.py:2157-2159`): `out_stream.write` of `None` is an `AttributeError`. -/
def TotProb.start (P : TotProb σ) (stream : Bool) (s : σ) : Except PyErr σ :=
  if P.iterCount s < 1 then (if stream then P.runOnce s else .error .AttributeError) else .ok s

/-- `Problem.check_total_derivatives` (`problem.py:2153-2238`); `stream` is false for `out_stream=None`. -/
noncomputable def TotProb.check (P : TotProb σ) (stream : Bool) (s0 : σ) : Except PyErr (List ((Str × Str) × TotData)) :=
  P.start stream s0 >>= fun s => P.indeps >>= fun ind => P.resps >>= fun unk => P.modes ind unk >>= fun m =>
    P.jacIf s m.1 .fwd ind unk >>= fun jf => P.jacIf s m.2 .rev ind unk >>= fun jr =>
      match P.grad s .fd ind unk with
      | .error e => .error e
      | .ok J => totAssemble ind unk jf jr (flatJac J)

end OpenMDAO
