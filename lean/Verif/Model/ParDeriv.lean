import Verif.Model.Totals
/-!
# Model of `Problem._calc_gradient_ln_solver` with groups of variables of interest, relevance reduction, `sparsity` and `inactives`

`openmdao/core/problem.py:1482-1811`, return format 'dict'. `Model/Totals.lean` is the same function without these four features. Names in the two lists are strings (not tuples).
One process: every variable is owned by it, and nothing is broadcast. `mode` has already been resolved (C60). Indices of interest are non-negative. Zeroing and linearizing
(1549-1561) and the final `clear_dparams` have no result and are left out; the linear solver is a parameter that takes and returns one vector for each key. A vector is a function of the
position; its length is not recorded.
-/
namespace OpenMDAO

/-- What the computation reads from the problem. -/
structure PDEnv (K : Type) where
  /-- `root.dumat`: for each key, the slices of the variables in that vector. The key `None` holds all unknowns; the other keys were allocated for the groups of the mode that `setup`
  determined (`group.py:484-497`). -/
  vecs : List (Option String × List (String × (Nat × Nat)))
  /-- `unknowns.metadata(name)['size']` -/
  sizes : List (String × Nat)
  /-- `self._poi_indices` -/
  poi : List (String × List Nat)
  /-- `self._qoi_indices` -/
  qoi : List (String × List Nat)
  dvScale : List (String × K)
  cnScale : List (String × K)
  /-- `relevance.vars_of_interest(mode)` -/
  vois : Mode → List (List String)
  /-- `self._driver_vois` -/
  driverVois : List String
  /-- `isinstance(self.root.ln_solver, LinearGaussSeidel)` -/
  lgs : Bool
  /-- `ln_solver.options['single_voi_relevance_reduction']` -/
  reduce : Bool
  /-- `relevance.relevant` -/
  rel : List (Option String × List String)
  sparsity : Option (List (String × List String))
  /-- `inactives`; `None` and the empty dict behave alike -/
  inactives : List (String × List Nat)
  /-- `root.ln_solver.solve(rhs, root, mode)` -/
  solve : Mode → List (Option String × (Nat → K)) → List (Option String × (Nat → K))

variable {K : Type} [Field K]

/-- `_get_voi_key` (`problem.py:1801-1811`). -/
def voiKey (E : PDEnv K) (voi : String) (grp : List String) : Option String :=
  if E.driverVois.contains voi && E.lgs && (decide (grp.length > 1) || E.reduce) then some voi else none

/-- `voi_sets` (`problem.py:1617-1643`): the sets of which a member is requested, then the requested names that are in no set. -/
def voiSets (E : PDEnv K) (mode : Mode) (inputs : List String) : List (List String) :=
  (E.vois mode).filter (fun g => g.any fun v => inputs.contains v) ++
    (inputs.filter fun v => !(E.vois mode).flatten.contains v).map fun v => [v]

/-- `poi_indices`: indices of the variables that are solved for (`problem.py:1605-1612`). -/
def PDEnv.inIndices (E : PDEnv K) (mode : Mode) : List (String × List Nat) := if mode = .fwd then E.poi else E.qoi
/-- `qoi_indices`. Serves `relVals` (`problem.py:1728-1736`). -/
def PDEnv.outIndices (E : PDEnv K) (mode : Mode) : List (String × List Nat) := if mode = .fwd then E.qoi else E.poi
/-- `in_scale`. Serves `storePD` (`problem.py:1755-1794`). -/
def PDEnv.inScale (E : PDEnv K) (mode : Mode) : List (String × K) := if mode = .fwd then E.dvScale else E.cnScale
/-- `un_scale`. Serves `storePD` (`problem.py:1755-1794`). -/
def PDEnv.unScale (E : PDEnv K) (mode : Mode) : List (String × K) := if mode = .fwd then E.cnScale else E.dvScale

/-- `duvec._get_local_idxs(name, idx_dict)` when the name is in the vector, else `[]` (`problem.py:1663-1666`, `vec_wrapper.py:547-553`). -/
def localIdx (slices : List (String × (Nat × Nat))) (d : List (String × List Nat)) (name : String) : Except PyErr (List Nat) :=
  if (slices.lookup name).isSome then totIdx slices d name else .ok []

/-- The substitute for an empty index list (`problem.py:1668-1673`). -/
def fallbackIdx (sizes : List (String × Nat)) (d : List (String × List Nat)) (name : String) : Except PyErr (List Nat) :=
  match d.lookup name with
  | some l => .ok l
  | none =>
    match sizes.lookup name with
    | none => .error .KeyError
    | some n => .ok (List.range n)

/-- `in_idxs` (`problem.py:1663-1673`). -/
def inIdxs (sizes : List (String × Nat)) (slices : List (String × (Nat × Nat))) (d : List (String × List Nat)) (name : String) : Except PyErr (List Nat) :=
  match localIdx slices d name with
  | .error e => .error e
  | .ok [] => fallbackIdx sizes d name
  | .ok (x :: l) => .ok (x :: l)

/-- State of the loop that allocates the right-hand sides: `voi_idxs` (`rhs` has the same keys in the same order), `old_size` and the last `in_idxs`. Serves `allocStep` (`problem.py:1656-1680`). -/
structure AllocSt where
  idxs : List (Option String × List Nat)
  old : Option Nat
  last : List Nat

/-- One member of a set (`problem.py:1656-1680`). -/
def allocStep (E : PDEnv K) (mode : Mode) (grp : List String) (st : AllocSt) (voi : String) : Except PyErr AllocSt :=
  match E.vecs.lookup (voiKey E voi grp) with
  | none => .error .KeyError
  | some slices =>
    match inIdxs E.sizes slices (E.inIndices mode) voi with
    | .error e => .error e
    | .ok idxs =>
      if st.old.any fun n => decide (n ≠ idxs.length) then .error .RuntimeError
      else .ok ⟨dictSet st.idxs (voiKey E voi grp) idxs, some (st.old.getD idxs.length), idxs⟩

/-- The test at `problem.py:1693`. `voi` is the variable left over from the loops over `params`, the last member of the set. -/
def inactiveAt (E : PDEnv K) (mode : Mode) (grp : List String) (i : Nat) : Bool :=
  decide (mode ≠ .fwd) && (grp.getLast?.any fun voi => (E.inactives.lookup voi).any fun l => l.contains i)

/-- `rhs[vkey][:] = 0; rhs[vkey][voi_idxs[vkey][i]] = -1.0`. All index lists of a set have the same length, so the last case does not occur. Serves `dxMat` (`problem.py:1693-1711`). -/
def rhsAt (idxs : List Nat) (i : Nat) : Nat → K :=
  match idxs[i]? with
  | some q => totRhs q
  | none => fun _ => 0

/-- `dx_mat` (`problem.py:1693-1711`). -/
def dxMat (E : PDEnv K) (mode : Mode) (grp : List String) (st : AllocSt) (i : Nat) : List (Option String × (Nat → K)) :=
  if inactiveAt E mode grp i then st.idxs.map fun e => (e.1, fun _ => 0)
  else E.solve mode (st.idxs.map fun e => (e.1, rhsAt e.2 i))

/-- `is_relevant` (`relevance.py:62-82`). -/
def isRelevantTo (E : PDEnv K) (key : Option String) (item : String) : Bool :=
  match E.rel.lookup key with
  | none => true
  | some l => l.contains item

/-- The sparsity test (`problem.py:1721-1725` and `1571-1573`): is the pair left out? -/
def sparseSkip (E : PDEnv K) (u p : String) : Except PyErr Bool :=
  match E.sparsity with
  | none => .ok false
  | some sp =>
    match sp.lookup u with
    | none => .error .KeyError
    | some l => .ok (!l.contains p)

/-- The solution at the entries of a relevant item (`problem.py:1728-1736`). -/
def relVals (E : PDEnv K) (mode : Mode) (key : Option String) (dx : Nat → K) (item : String) : Except PyErr (Option (List K)) :=
  match E.vecs.lookup key with
  | none => .error .KeyError
  | some slices =>
    match localIdx slices (E.outIndices mode) item with
    | .error e => .error e
    | .ok [] => .ok none
    | .ok (q :: l) => .ok (some ((q :: l).map dx))

/-- Zeros for an irrelevant item (`problem.py:1745-1750`). -/
def zeroVals (E : PDEnv K) (mode : Mode) (item : String) : Except PyErr (Option (List K)) :=
  match (E.outIndices mode).lookup item with
  | some l => .ok (some (List.replicate l.length 0))
  | none =>
    match E.sizes.lookup item with
    | none => .error .KeyError
    | some n => .ok (some (List.replicate n 0))

/-- `dxval` (`problem.py:1727-1750`). -/
def dxVals (E : PDEnv K) (mode : Mode) (key : Option String) (dx : Nat → K) (item : String) : Except PyErr (Option (List K)) :=
  if isRelevantTo E key item then relVals E mode key dx item else zeroVals E mode item

/-- The result: `J[u][p]`, `none` until something is stored. Serves `storePD` (`problem.py:1755-1794`). -/
abbrev PDict (K : Type) := List ((String × String) × Option (TMat K))

/-- `M[:, i] = vals`, on a matrix that is allocated on first use. Serves `storePD` (`problem.py:1755-1794`). -/
def putCol (M : Option (TMat K)) (nin i : Nat) (vals : List K) : Except PyErr (TMat K) :=
  match M with
  | none => TMat.setCol ⟨vals.length, nin, fun _ _ => 0⟩ 0 vals.length i vals
  | some M => M.setCol 0 M.m i vals

/-- `M[i, :] = vals`. Serves `storePD` (`problem.py:1755-1794`). -/
def putRow (M : Option (TMat K)) (nin i : Nat) (vals : List K) : Except PyErr (TMat K) :=
  match M with
  | none => TMat.setRow ⟨nin, vals.length, fun _ _ => 0⟩ i 0 vals.length vals
  | some M => M.setRow i 0 M.n vals

/-- Key of the block: `J[item][param]` in forward mode, `J[param][item]` in reverse mode. Serves `storePD` (`problem.py:1755-1794`). -/
def pdKey (mode : Mode) (param item : String) : String × String := if mode = .fwd then (item, param) else (param, item)

/-- Storing and scaling (`problem.py:1755-1794`). The in-place scaling of the column or row just stored is applied to the values before. -/
def storePD (E : PDEnv K) (mode : Mode) (nin i : Nat) (param item : String) (vals : List K) (J : PDict K) : Except PyErr (PDict K) :=
  match J.lookup (pdKey mode param item) with
  | none => .error .KeyError
  | some M =>
    let v := scaleVals (E.unScale mode) item (scaleVals (E.inScale mode) param vals)
    match (if mode = .fwd then putCol M nin i v else putRow M nin i v) with
    | .error e => .error e
    | .ok M' => .ok (dictSet J (pdKey mode param item) (some M'))

/-- One output (`problem.py:1718-1794`). -/
def itemStep (E : PDEnv K) (mode : Mode) (nin i : Nat) (key : Option String) (param : String) (dx : Nat → K) (J : PDict K) (item : String) :
    Except PyErr (PDict K) :=
  match sparseSkip E (pdKey mode param item).1 (pdKey mode param item).2 with
  | .error e => .error e
  | .ok true => .ok J
  | .ok false =>
    match dxVals E mode key dx item with
    | .error e => .error e
    | .ok none => .ok J
    | .ok (some vals) => storePD E mode nin i param item vals J

/-- `param` and `vkey` for one entry of `dx_mat` (`problem.py:1714-1716`). -/
def dxParam (E : PDEnv K) (grp : List String) (k : Option String) : Except PyErr (Option String × String) :=
  match k with
  | some v => .ok (voiKey E v grp, v)
  | none =>
    match grp with
    | [] => .error .IndexError
    | v :: _ => .ok (none, v)

/-- One entry of `dx_mat` (`problem.py:1713-1794`). -/
def dxStep (E : PDEnv K) (mode : Mode) (grp outputs : List String) (nin i : Nat) (J : PDict K) (e : Option String × (Nat → K)) : Except PyErr (PDict K) :=
  match dxParam E grp e.1 with
  | .error er => .error er
  | .ok kp => outputs.foldlM (itemStep E mode nin i kp.1 kp.2 e.2) J

/-- One pass of the loop over the indices (`problem.py:1687-1794`). -/
def solveStep (E : PDEnv K) (mode : Mode) (grp outputs : List String) (st : AllocSt) (J : PDict K) (i : Nat) : Except PyErr (PDict K) :=
  (dxMat E mode grp st i).foldlM (dxStep E mode grp outputs st.last.length i) J

/-- One set of variables of interest (`problem.py:1649-1794`). -/
def groupStep (E : PDEnv K) (mode : Mode) (outputs : List String) (J : PDict K) (grp : List String) : Except PyErr (PDict K) :=
  match grp.foldlM (allocStep E mode grp) ⟨[], none, []⟩ with
  | .error e => .error e
  | .ok st => (List.range st.last.length).foldlM (solveStep E mode grp outputs st) J

/-- `J[okey][ikey] = None` unless the sparsity leaves the pair out (`problem.py:1574-1581`). -/
def initPair (E : PDEnv K) (u : String) (J : PDict K) (p : String) : Except PyErr (PDict K) :=
  match sparseSkip E u p with
  | .error e => .error e
  | .ok true => .ok J
  | .ok false => .ok (dictSet J (u, p) none)

/-- All parameters of one unknown. `problem.py:1571-1581`. -/
def initRow (E : PDEnv K) (indep : List String) (J : PDict K) (u : String) : Except PyErr (PDict K) := indep.foldlM (initPair E u) J

/-- `_calc_gradient_ln_solver(indep_list, unknown_list, 'dict', mode, dv_scale, cn_scale, sparsity, inactives)`. `problem.py:1482-1799`. -/
def pdTotals (E : PDEnv K) (mode : Mode) (indep unknown : List String) : Except PyErr (PDict K) :=
  match unknown.foldlM (initRow E indep) [] with
  | .error e => .error e
  | .ok J => (voiSets E mode (if mode = .fwd then indep else unknown)).foldlM (groupStep E mode (if mode = .fwd then unknown else indep)) J

end OpenMDAO
