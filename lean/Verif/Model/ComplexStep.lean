import Verif.Model.Connections
import Verif.Model.Paths
import Mathlib.Analysis.Complex.Basic
/-!
# Model of the complex step linearization of a component

`Component.complex_step_jacobian` (`openmdao/core/component.py:815-949`) with the vector wrappers of `openmdao/core/vec_wrapper_complex_step.py`, as called by `System._sys_linearize` for
`deriv_options['type'] == 'cs'` (`openmdao/core/system.py:937-943`).

Values of variables are their flat entries. The user's code is an arbitrary function from what it reads to the list of assignments `vec['name'] = value` it makes; item assignments into an array count as an
assignment of the resulting array. A component without states is taken to have the default `apply_nonlinear` and a component with states to override it and to assign the residuals only. Real and imaginary parts are exact.
The state after an exception is not modelled.
-/
namespace OpenMDAO

/-- A parameter: the entries stored in the vector, in the units of the source, and the unit conversion. Serves `CsParam.get` (`vec_wrapper.py:215-217,249-254,285-288`). -/
structure CsParam where
  val : List ℝ
  conv : Option (ℝ × ℝ) := none

/-- `_get_arr`, `_get_arr_units` and the variants of other shapes (`vec_wrapper.py:215-217,249-254,285-288`). -/
def CsParam.get (p : CsParam) : List ℝ :=
  match p.conv with
  | none => p.val
  | some (scale, offset) => p.val.map fun v => scale * (v + offset)

/-- The value of an assignment made by the user's code: computed, or the object that reading a variable returned (`unknowns['y'] = params['x']`). Serves `CsComp` (`vec_wrapper.py:994-1011`). -/
inductive CsRhs where
  | calc (l : List ℂ)
  | bare (n : Str)

/-- A value of the dictionary `vals`: an array of its own, or a view of the array `step_val`. Serves `csCopy` (`vec_wrapper_complex_step.py:143-154`). -/
inductive CsVal where
  | own (l : List ℂ)
  | view

/-- What reading a name returns; `none` stands for the `KeyError`. Serves `CsComp` (`vec_wrapper.py:994-1011`). -/
abbrev CsReader := Str → Option (List ℂ)

/-- A component: the names of its states, its code (reading parameters and unknowns), and the `resid_scaler`s (`vec_wrapper.py:994-1011`). -/
structure CsComp where
  states : List Str
  code : CsReader → CsReader → Except PyErr (List (Str × CsRhs))
  scalers : List (Str × ℝ) := []

/-- The vectors of the model, the dictionaries of the two `ComplexStepSrcVecWrapper`s, and the variable being stepped (`true` for a state) with its array. Serves `CsSt.readP` (`vec_wrapper_complex_step.py:22-38`). -/
structure CsSt where
  uvec : List (Str × List ℝ)
  rvec : List (Str × List ℝ)
  csu : List (Str × CsVal)
  csr : List (Str × CsVal)
  step : Option (Bool × Str) := none
  stepVal : List ℂ := []

/-- The entries of a stored value. Serves `CsSt.readU` (`vec_wrapper_complex_step.py:156-172`). -/
def CsVal.read (sv : List ℂ) : CsVal → List ℂ
  | .own l => l
  | .view => sv

/-- `ComplexStepSrcVecWrapper.__init__` (`vec_wrapper_complex_step.py:143-154`): complex copies. -/
def csCopy (vec : List (Str × List ℝ)) : List (Str × CsVal) := vec.map fun kv => (kv.1, .own (kv.2.map fun x : ℝ => (x : ℂ)))

/-- `ComplexStepTgtVecWrapper.__getitem__` (`vec_wrapper_complex_step.py:22-38`). -/
noncomputable def CsSt.readP (st : CsSt) (ps : List (Str × CsParam)) : CsReader := fun n =>
  if st.step = some (false, n) then some st.stepVal else (ps.lookup n).map fun p => p.get.map fun x : ℝ => (x : ℂ)

/-- `ComplexStepSrcVecWrapper.__getitem__` (`vec_wrapper_complex_step.py:156-172`). -/
def CsSt.readU (st : CsSt) : CsReader := fun n =>
  if st.step = some (true, n) then some st.stepVal else (st.csu.lookup n).map (CsVal.read st.stepVal)

/-- The object that is stored by an assignment. Reading the stepped variable returns a view of `step_val` (`reshape`, lines 36 and 170); reading another unknown returns the object stored for it; a view of the storage of
an unstepped parameter is modelled as a copy. Serves `CsSt.assign` (`vec_wrapper_complex_step.py:174-186`). -/
noncomputable def CsSt.bindRhs (st : CsSt) (ps : List (Str × CsParam)) : CsRhs → Except PyErr CsVal
  | .calc l => .ok (.own l)
  | .bare n =>
    if st.step = some (false, n) ∨ st.step = some (true, n) then .ok .view
    else match st.csu.lookup n with
      | some v => .ok v
      | none => match st.readP ps n with
        | some l => .ok (.own l)
        | none => .error .KeyError

/-- `ComplexStepSrcVecWrapper.__setitem__` (`vec_wrapper_complex_step.py:174-186`). -/
noncomputable def CsSt.assign (st : CsSt) (ps : List (Str × CsParam)) (d : List (Str × CsVal)) (a : Str × CsRhs) : Except PyErr (List (Str × CsVal)) :=
  st.bindRhs ps a.2 >>= fun v => .ok (dictSet d a.1 v)

/-- The user's code: `solve_nonlinear` assigns the unknowns, the `apply_nonlinear` of a component with states the residuals. Serves `CsSt.applyNl` (`component.py:554-592`). -/
noncomputable def CsSt.runCode (st : CsSt) (ps : List (Str × CsParam)) (c : CsComp) : Except PyErr CsSt :=
  c.code (st.readP ps) st.readU >>= fun asg =>
    if c.states = [] then asg.foldlM (st.assign ps) st.csu >>= fun d => .ok { st with csu := d }
    else asg.foldlM (st.assign ps) st.csr >>= fun d => .ok { st with csr := d }

/-- Entrywise arithmetic of two vectors of the same layout. Serves `CsSt.applyNl` (`component.py:554-592`). -/
def vecOp (f : ℝ → ℝ → ℝ) (a b : List (Str × List ℝ)) : List (Str × List ℝ) := List.zipWith (fun x y => (x.1, List.zipWith f x.2 y.2)) a b

/-- `apply_nonlinear`: the default implementation (`component.py:554-592`) works on `resids.vec` and `unknowns.vec`, which are the vectors of the model (`vec_wrapper_complex_step.py:18,146`). -/
noncomputable def CsSt.applyNl (st : CsSt) (ps : List (Str × CsParam)) (c : CsComp) : Except PyErr CsSt :=
  if c.states = [] then
    CsSt.runCode { st with rvec := vecOp (fun _ u => -u) st.rvec st.uvec } ps c >>= fun st1 =>
      let r := vecOp (· + ·) st1.rvec st1.uvec
      .ok { st1 with rvec := r, uvec := vecOp (· - ·) st1.uvec r }
  else st.runCode ps c

/-- One turn of `_scale_values` (`vec_wrapper_complex_step.py:311-323`), in place. -/
noncomputable def CsSt.scale (st : CsSt) (ns : Str × ℝ) : Except PyErr CsSt :=
  match st.csr.lookup ns.1 with
  | none => .error .KeyError
  | some (.own l) => .ok { st with csr := dictSet st.csr ns.1 (.own (l.map fun z => z * ((1 / ns.2 : ℝ) : ℂ))) }
  | some .view => .ok { st with stepVal := st.stepVal.map fun z => z * ((1 / ns.2 : ℝ) : ℂ) }

/-- `_sys_apply_nonlinear` (`component.py:535-552`). `_scale_values` on the unknowns (line 611) has nothing to scale (`vec_wrapper.py:1002-1003`). -/
noncomputable def CsSt.sysApply (st : CsSt) (ps : List (Str × CsParam)) (c : CsComp) : Except PyErr CsSt :=
  st.applyNl ps c >>= fun st1 => c.scalers.foldlM CsSt.scale st1

/-- `step_complex` (`vec_wrapper_complex_step.py:124-136`). -/
noncomputable def CsSt.stepComplex (st : CsSt) (i : Nat) (h : ℝ) : CsSt := { st with stepVal := st.stepVal.modify i fun z => z + Complex.I * (h : ℂ) }

/-- `set_complex_var(name)` (`vec_wrapper_complex_step.py:119-122`): a complex copy of the stored entries. -/
def CsSt.setVar (st : CsSt) (isState : Bool) (n : Str) (val : List ℝ) : CsSt := { st with step := some (isState, n), stepVal := val.map fun x : ℝ => (x : ℂ) }

/-- A view that outlives the step keeps the array. Serves `CsSt.clearVar` (`vec_wrapper_complex_step.py:114-117`). -/
def CsVal.freeze (sv : List ℂ) : CsVal → CsVal
  | .own l => .own l
  | .view => .own sv

/-- `set_complex_var(None)` (`vec_wrapper_complex_step.py:114-117`). -/
def CsSt.clearVar (st : CsSt) : CsSt :=
  { st with csu := st.csu.map fun kv => (kv.1, kv.2.freeze st.stepVal), csr := st.csr.map fun kv => (kv.1, kv.2.freeze st.stepVal), step := none, stepVal := [] }

/-- Blocks of the Jacobian, lists of columns. Serves `csSetCol` (`component.py:941-943`). -/
abbrev CsJac := List ((Str × Str) × List (List ℝ))

/-- `col[:] = values` for a column of size `m`: a single value fills the column. Serves `csSetCol` (`component.py:941-943`). -/
def fitCol (m : Nat) (l : List ℝ) : Except PyErr (List ℝ) :=
  if l.length = m then .ok l
  else match l with
    | [x] => .ok (List.replicate m x)
    | _ => .error .ValueError

/-- `jac[u_name, p_name][:, j] = result.imag/fdstep` (`component.py:941-943`). -/
noncomputable def csSetCol (st : CsSt) (c : CsComp) (p : Str) (j : Nat) (h : ℝ) (J : CsJac) (u : Str) : Except PyErr CsJac :=
  match (if c.states = [] then st.csu else st.csr).lookup u, J.lookup (u, p) with
  | some v, some b => match b[j]? with
    | some old => fitCol old.length ((v.read st.stepVal).map fun z => z.im / h) >>= fun col => .ok (dictSet J (u, p) (b.set j col))
    | none => .error .IndexError
  | _, _ => .error .KeyError

/-- One turn of the loop over the entries (`component.py:934-943`): the step is taken back before the results are read. -/
noncomputable def csColumn (c : CsComp) (ps : List (Str × CsParam)) (fdU : List Str) (p : Str) (h : ℝ) (s : CsSt × CsJac) (j : Nat) : Except PyErr (CsSt × CsJac) :=
  (s.1.stepComplex j h).sysApply ps c >>= fun st1 =>
    let st2 := st1.stepComplex j (-h)
    fdU.foldlM (csSetCol st2 c p j h) s.2 >>= fun J => .ok (st2, J)

/-- `np.zeros((u_size, p_size))` for every unknown (`component.py:929-931`). -/
def csAlloc (uvec : List (Str × List ℝ)) (p : Str) (psize : Nat) (J : CsJac) (u : Str) : Except PyErr CsJac :=
  match uvec.lookup u with
  | none => .error .KeyError
  | some v => .ok (dictSet J (u, p) (List.replicate psize (List.replicate v.length 0)))

/-- The stored entries of the variable that is stepped (`component.py:907-913`). -/
def csTarget (c : CsComp) (ps : List (Str × CsParam)) (st : CsSt) (p : Str) : Except PyErr (List ℝ) :=
  if p ∈ c.states then match st.uvec.lookup p with
    | some v => .ok v
    | none => .error .KeyError
  else match ps.lookup p with
    | some q => .ok q.val
    | none => .error .KeyError

/-- One turn of the loop over parameters and states (`component.py:903-947`). -/
noncomputable def csVar (c : CsComp) (ps : List (Str × CsParam)) (fdU : List Str) (steps : List (Str × ℝ)) (h : ℝ) (s : CsSt × CsJac) (p : Str) : Except PyErr (CsSt × CsJac) :=
  csTarget c ps s.1 p >>= fun val =>
    fdU.foldlM (csAlloc s.1.uvec p val.length) s.2 >>= fun J =>
      (List.range val.length).foldlM (csColumn c ps fdU p ((steps.lookup p).getD h)) (s.1.setVar (decide (p ∈ c.states)) p val, J) >>= fun s1 =>
        .ok (s1.1.clearVar, s1.2)

/-- `complex_step_jacobian` (`component.py:815-949`) with the parameters `fdP`, the unknowns `fdU`, the `step_size`s of variables and the `step_size` of the component. Returns the vectors of unknowns and
residuals afterwards and the Jacobian. -/
noncomputable def csJacobian (c : CsComp) (ps : List (Str × CsParam)) (uvec rvec : List (Str × List ℝ)) (fdP fdU : List Str) (steps : List (Str × ℝ)) (h : ℝ) :
    Except PyErr ((List (Str × List ℝ) × List (Str × List ℝ)) × CsJac) :=
  (fdP ++ c.states).foldlM (csVar c ps fdU steps h) (⟨uvec, rvec, csCopy uvec, csCopy rvec, none, []⟩, []) >>= fun s => .ok ((s.1.uvec, s.1.rvec), s.2)

end OpenMDAO
