import Verif.Model.Promotes
import Verif.Model.DataTransfer
import Mathlib.Algebra.Field.Defs
import Mathlib.Algebra.BigOperators.Group.Finset.Basic
/-!
# Model of `Problem._calc_gradient_ln_solver` (`openmdao/core/problem.py:1482-1799`)

Serial execution (`nproc == 1`), no `sparsity`, no `inactives`, every variable of interest in its own set (no `parallel_derivs`), so the
voi key is always `None` and every variable is relevant. The linear solver is a parameter. `mode` has already been
resolved to 'fwd' or 'rev' (C60). Indices of interest are non-negative.
-/
namespace OpenMDAO

/-- Result matrix of the 'array' format, a numpy array of shape `(m, n)`. Serves `storeArr` (`problem.py:1778-1794`). -/
structure TMat (K : Type) where
  m : Nat
  n : Nat
  a : Nat → Nat → K

/-- What the computation reads from the problem. Serves `jslices` (`problem.py:1585-1602`). -/
structure TotEnv (K : Type) where
  /-- `root.dumat[None]._dat[name].slice` -/
  slices : List (String × (Nat × Nat))
  /-- `self._poi_indices` -/
  poi : List (String × List Nat)
  /-- `self._qoi_indices` -/
  qoi : List (String × List Nat)
  dvScale : List (String × K)
  cnScale : List (String × K)
  /-- `relevance.vars_of_interest(mode)`, flattened -/
  vois : Mode → List String
  /-- `root.ln_solver.solve(rhs, root, mode)` -/
  solve : Mode → (Nat → K) → Nat → K

variable {K : Type} [Field K]

/-- `dumat._get_local_idxs(name, idx_dict)` (`vec_wrapper.py:527-567`). A name that is not in the vector is a KeyError later on
(`_owning_ranks`), raised here. An empty index list fails in `max(idxs)`. -/
def totIdx (slices : List (String × (Nat × Nat))) (d : List (String × List Nat)) (name : String) : Except PyErr (List Nat) :=
  match slices.lookup name with
  | none => .error .KeyError
  | some (s, e) =>
    match d.lookup name with
    | none => .ok (List.range' s (e - s))
    | some [] => .error .ValueError
    | some (x :: l) =>
      let idxs := (x :: l).map (· + s)
      if idxs.length > e - s || idxs.any (fun k => decide (k ≥ e)) then .error .RuntimeError else .ok idxs

/-- Number of rows or columns reserved for a name (`problem.py:1586-1592`). -/
def totSize (slices : List (String × (Nat × Nat))) (d : List (String × List Nat)) (name : String) : Except PyErr Nat :=
  match d.lookup name with
  | some l => .ok l.length
  | none => match slices.lookup name with
    | none => .error .KeyError
    | some (s, e) => .ok (e - s)

/-- Loop body at `problem.py:1585-1602` / `1580-1587`: state is `(Jslices, running size)`. -/
def jsliceStep (slices : List (String × (Nat × Nat))) (d : List (String × List Nat))
    (st : List (String × (Nat × Nat)) × Nat) (name : String) : Except PyErr (List (String × (Nat × Nat)) × Nat) :=
  match totSize slices d name with
  | .error e => .error e
  | .ok n => .ok (dictSet st.1 name (st.2, st.2 + n), st.2 + n)

/-- `Jslices`, `usize`, `psize`: one dict for both lists of names. `problem.py:1585-1602`. -/
def jslices (E : TotEnv K) (indep unknown : List String) : Except PyErr (List (String × (Nat × Nat)) × Nat × Nat) :=
  match unknown.foldlM (jsliceStep E.slices E.qoi) ([], 0) with
  | .error e => .error e
  | .ok (d, usize) =>
    match indep.foldlM (jsliceStep E.slices E.poi) (d, 0) with
    | .error e => .error e
    | .ok (d', psize) => .ok (d', usize, psize)

/-- `J[r0:r1, c] = vals` in numpy: the slice is clipped to the array; the lengths must agree, or a single value is broadcast. Serves `storeArr` (`problem.py:1778-1794`). -/
def TMat.setCol (J : TMat K) (r0 r1 c : Nat) (vals : List K) : Except PyErr (TMat K) :=
  let n := min r1 J.m - min r0 J.m
  if c ≥ J.n then .error .IndexError
  else if vals.length = n then
    .ok { J with a := fun i j => if j = c ∧ r0 ≤ i ∧ i < r0 + n then vals.getD (i - r0) 0 else J.a i j }
  else match vals with
    | [x] => .ok { J with a := fun i j => if j = c ∧ r0 ≤ i ∧ i < r0 + n then x else J.a i j }
    | _ => .error .ValueError

/-- Transpose of a result matrix. Serves `storeArr` (`problem.py:1778-1794`). -/
def TMat.T (J : TMat K) : TMat K := ⟨J.n, J.m, fun i j => J.a j i⟩

/-- `J[r, c0:c1] = vals`. Serves `storeArr` (`problem.py:1778-1794`). -/
def TMat.setRow (J : TMat K) (r c0 c1 : Nat) (vals : List K) : Except PyErr (TMat K) :=
  (J.T.setCol c0 c1 r vals).map TMat.T

/-- Driver scaling: `if name in scale: … *= scale[name]`. Serves `totVals` (`problem.py:1727-1736`). -/
def scaleVals (scale : List (String × K)) (name : String) (vals : List K) : List K :=
  match scale.lookup name with
  | none => vals
  | some k => vals.map (· * k)

/-- Order in which the inputs of interest are solved for (`problem.py:1617-1643`): the driver's variables of interest that are
requested, then the remaining names. -/
def voiOrder (E : TotEnv K) (mode : Mode) (inputs : List String) : List String :=
  (E.vois mode).filter (fun v => inputs.contains v) ++ inputs.filter (fun v => !(E.vois mode).contains v)

/-- `rhs[:] = 0; rhs[idx] = -1.0`. Serves `solveArr` (`problem.py:1687-1794`). -/
def totRhs (idx : Nat) : Nat → K := fun k => if k = idx then -1 else 0

/-- Values stored for one output item (`problem.py:1727-1736` and the scaling after each assignment). -/
def totVals (E : TotEnv K) (mode : Mode) (x : Nat → K) (param item : String) : Except PyErr (List K) :=
  let qoi := if mode = .fwd then E.qoi else E.poi
  let inScale := if mode = .fwd then E.dvScale else E.cnScale
  let unScale := if mode = .fwd then E.cnScale else E.dvScale
  match totIdx E.slices qoi item with
  | .error e => .error e
  | .ok o => .ok (scaleVals unScale item (scaleVals inScale param (o.map x)))

/-- Storing into the array (`problem.py:1778-1794`), `i` the position within the input variable. -/
def storeArr (E : TotEnv K) (mode : Mode) (js : List (String × (Nat × Nat))) (x : Nat → K) (param : String) (i : Nat)
    (J : TMat K) (item : String) : Except PyErr (TMat K) :=
  match totVals E mode x param item, js.lookup item, js.lookup param with
  | .ok vals, some si, some sp =>
    if vals = [] then .ok J   -- `dxval.size == 0` → `dxval = None` → nothing stored
    else if mode = .fwd then J.setCol si.1 si.2 (sp.1 + i) vals
    else J.setRow (sp.1 + i) si.1 si.2 vals
  | .error e, _, _ => .error e
  | _, _, _ => .error .KeyError

/-- One right-hand side: solve and store for every output (`problem.py:1687-1794`). -/
def solveArr (E : TotEnv K) (mode : Mode) (js : List (String × (Nat × Nat))) (outputs : List String) (param : String)
    (J : TMat K) (ip : Nat × Nat) : Except PyErr (TMat K) :=
  outputs.foldlM (storeArr E mode js (E.solve mode (totRhs ip.2)) param ip.1) J

/-- All right-hand sides of one input of interest. `problem.py:1656-1794`. -/
def voiArr (E : TotEnv K) (mode : Mode) (js : List (String × (Nat × Nat))) (outputs : List String)
    (J : TMat K) (voi : String) : Except PyErr (TMat K) :=
  match totIdx E.slices (if mode = .fwd then E.poi else E.qoi) voi with
  | .error e => .error e
  | .ok idxs => ((List.range idxs.length).zip idxs).foldlM (solveArr E mode js outputs voi) J

/-- `_calc_gradient_ln_solver(…, return_format='array')`. `problem.py:1482-1799`. -/
def totalsArr (E : TotEnv K) (mode : Mode) (indep unknown : List String) : Except PyErr (TMat K) :=
  match jslices E indep unknown with
  | .error e => .error e
  | .ok (js, usize, psize) =>
    let inputs := if mode = .fwd then indep else unknown
    let outputs := if mode = .fwd then unknown else indep
    (voiOrder E mode inputs).foldlM (voiArr E mode js outputs) ⟨usize, psize, fun _ _ => 0⟩

/-- Result of the 'dict' format: `J[unknown][param]`, `none` when nothing was stored. Serves `storeDict` (`problem.py:1755-1775`). -/
abbrev TDict (K : Type) := String → String → Option (TMat K)

/-- Storing into the dict (`problem.py:1755-1775`): allocation on first use, then column or row `i`. -/
def storeDict (E : TotEnv K) (mode : Mode) (x : Nat → K) (param : String) (nin : Nat) (i : Nat) (J : TDict K) (item : String) :
    Except PyErr (TDict K) :=
  match totVals E mode x param item with
  | .error e => .error e
  | .ok vals =>
    if vals = [] then .ok J
    else if mode = .fwd then
      let M := (J item param).getD ⟨vals.length, nin, fun _ _ => 0⟩
      match M.setCol 0 M.m i vals with
      | .error e => .error e
      | .ok M' => .ok (fun u p => if u = item ∧ p = param then some M' else J u p)
    else
      let M := (J param item).getD ⟨nin, vals.length, fun _ _ => 0⟩
      match M.setRow i 0 M.n vals with
      | .error e => .error e
      | .ok M' => .ok (fun u p => if u = param ∧ p = item then some M' else J u p)

/-- `problem.py:1687-1775`. -/
def solveDict (E : TotEnv K) (mode : Mode) (outputs : List String) (param : String) (nin : Nat) (J : TDict K) (ip : Nat × Nat) :
    Except PyErr (TDict K) :=
  outputs.foldlM (storeDict E mode (E.solve mode (totRhs ip.2)) param nin ip.1) J

/-- `problem.py:1656-1775`. -/
def voiDict (E : TotEnv K) (mode : Mode) (outputs : List String) (J : TDict K) (voi : String) : Except PyErr (TDict K) :=
  match totIdx E.slices (if mode = .fwd then E.poi else E.qoi) voi with
  | .error e => .error e
  | .ok idxs => ((List.range idxs.length).zip idxs).foldlM (solveDict E mode outputs voi idxs.length) J

/-- `_calc_gradient_ln_solver(…, return_format='dict')`. `problem.py:1482-1799`. -/
def totalsDict (E : TotEnv K) (mode : Mode) (indep unknown : List String) : Except PyErr (TDict K) :=
  let inputs := if mode = .fwd then indep else unknown
  let outputs := if mode = .fwd then unknown else indep
  (voiOrder E mode inputs).foldlM (voiDict E mode outputs) (fun _ _ => none)

end OpenMDAO
