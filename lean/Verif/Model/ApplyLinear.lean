import Verif.Model.Numpy
import Mathlib.Algebra.BigOperators.Group.Finset.Basic
import Mathlib.Algebra.BigOperators.Ring.Finset
import Mathlib.Data.Finset.Range
/-!
# Model of the Jacobian-vector products of a component (`openmdao/core/system.py:799-1021`)

A derivative vector (`dparams`, `dunknowns`, `dresids`) is an association list from variable names to flat values, in vector
order. One variable of interest is modelled (`voi` only selects which vectors are used). pass_by_obj variables are not in
these vectors.
-/
namespace OpenMDAO

/-- A derivative VecWrapper: name and flat value of every variable. Serves `jacTerm` (`system.py:1010-1011`). -/
abbrev DVec (K : Type) := List (String × List K)

/-- A numpy matrix of shape `(m, n)`; only the entries below the shape are ever looked at. Serves `Mat.dot` (`system.py:997`). -/
structure Mat (K : Type) where
  m : Nat
  n : Nat
  a : Nat → Nat → K

variable {K : Type} [CommRing K]

/-- `J.dot(x)` for a vector `x` (`system.py:997`): ValueError unless the shapes are aligned. -/
def Mat.dot (J : Mat K) (x : List K) : Except PyErr (List K) :=
  if x.length = J.n then
    .ok ((List.range J.m).map fun i => ∑ j ∈ Finset.range J.n, J.a i j * x.getD j 0)
  else .error .ValueError

/-- `J.T`. Serves `jacStepRev` (`system.py:980-990,998-1000`). -/
def Mat.T (J : Mat K) : Mat K := ⟨J.n, J.m, fun i j => J.a j i⟩

/-- `vec += d` for flat arrays (`system.py:997,1000`): equal lengths, or a `d` of length one which numpy broadcasts;
otherwise ValueError. -/
def iadd (v d : List K) : Except PyErr (List K) :=
  if d.length = v.length then .ok (List.zipWith (· + ·) v d)
  else match d with
    | [x] => .ok (v.map (· + x))
    | _ => .error .ValueError

/-- Replace the value of a name that is present (views into the vector are updated in place). Serves `jacTerm` (`system.py:1010-1011`). -/
def DVec.put (d : DVec K) (name : String) (v : List K) : DVec K :=
  match d with
  | [] => []
  | (n, x) :: rest => if name = n then (n, v) :: rest else (n, x) :: DVec.put rest name v

/-- `vec = out._flat(o); vec += J.dot(arg._flat(a))` with the KeyError branch of `system.py:1010-1011` (the entry is skipped
when either name is missing). ValueErrors are re-raised as ValueError (1013-1021). -/
def jacTerm (J : Mat K) (out : DVec K) (o : String) (arg : DVec K) (a : String) : Except PyErr (DVec K) :=
  match out.lookup o, arg.lookup a with
  | some v, some x =>
    match J.dot x with
    | .error e => .error e
    | .ok d =>
      match iadd v d with
      | .error e => .error e
      | .ok w => .ok (out.put o w)
  | _, _ => .ok out

/-- What `_apply_linear_jac` and `_sys_apply_linear` look up about the system. -/
structure LinComp (K : Type) where
  /-- `self._jacobian_cache`, in iteration order: (unknown, param) ↦ J; `none` when there is none -/
  jac : Option (List ((String × String) × Mat K))
  /-- `self.states` -/
  states : List String
  /-- `rel_inputs` after the prefix has been removed (`system.py:826-829`); `[]` when there are none -/
  relInputs : List String
  /-- `dparams.units_cache`: conversion factors of params whose unit differs from the source (`vec_wrapper.py:1249-1258`) -/
  units : List (String × K)
  /-- `dparams.deriv_units` -/
  derivUnits : Bool
  /-- `dresids.scale_cache`, as the factor `1.0/resid_scaler` (`vec_wrapper.py:970-979`) -/
  scales : List (String × K)
  /-- `self.deriv_options['type'] is not 'user'` -/
  forceFd : Bool
  /-- `do_apply[(self.pathname, voi)]` -/
  doApply : Bool
  /-- `gs_outputs[voi]`; `none` when no restriction was given -/
  gsOuts : Option (List String)

/-- Is this Jacobian entry multiplied (`system.py:982-990`)? -/
def LinComp.skips (c : LinComp K) (param : String) : Bool :=
  !(c.states.contains param) && !c.relInputs.isEmpty && !(c.relInputs.contains param)

/-- One iteration of the loop of `_apply_linear_jac`, forward mode (`system.py:980-997`). -/
def jacStepFwd (c : LinComp K) (dp du : DVec K) (dr : DVec K) (e : (String × String) × Mat K) :
    Except PyErr (DVec K) :=
  if c.skips e.1.2 then .ok dr
  else if c.states.contains e.1.2 then jacTerm e.2 dr e.1.1 du e.1.2
  else jacTerm e.2 dr e.1.1 dp e.1.2

/-- One iteration of the loop of `_apply_linear_jac`, reverse mode (`system.py:980-990,998-1000`). -/
def jacStepRev (c : LinComp K) (dr : DVec K) (st : DVec K × DVec K) (e : (String × String) × Mat K) :
    Except PyErr (DVec K × DVec K) :=
  if c.skips e.1.2 then .ok st
  else if c.states.contains e.1.2 then (jacTerm e.2.T st.2 e.1.2 dr e.1.1).map fun du => (st.1, du)
  else (jacTerm e.2.T st.1 e.1.2 dr e.1.1).map fun dp => (dp, st.2)

/-- `System._apply_linear_jac` forward (`system.py:961-1021`). -/
def applyLinearJacFwd (c : LinComp K) (dp du dr : DVec K) : Except PyErr (DVec K) :=
  match c.jac with
  | none => .error .ValueError
  | some jac => jac.foldlM (jacStepFwd c dp du) dr

/-- `System._apply_linear_jac` reverse (`system.py:961-1021`). -/
def applyLinearJacRev (c : LinComp K) (dr : DVec K) (dp du : DVec K) : Except PyErr (DVec K × DVec K) :=
  match c.jac with
  | none => .error .ValueError
  | some jac => jac.foldlM (jacStepRev c dr) (dp, du)

/-- Multiply every variable by the factor a cache gives for it, if any (the cache is a dict, so every variable is scaled at
most once): `_apply_unit_derivatives` and `_scale_derivatives` (`vec_wrapper.py:970-979,1234-1247`). -/
def scaleBy (f : String → Option K) (d : DVec K) : DVec K :=
  d.map fun e => (e.1, match f e.1 with
    | none => e.2
    | some k => e.2.map (· * k))

/-- Factor applied by `dparams._apply_unit_derivatives(rel_inputs)` (`vec_wrapper.py:1234-1247`). -/
def LinComp.unitFactor (c : LinComp K) (name : String) : Option K :=
  if c.derivUnits && (c.relInputs.isEmpty || c.relInputs.contains name) then c.units.lookup name else none

/-- Factor applied by `dresids._scale_derivatives()`. Serves `applyPartFwd` (`system.py:848-863`). -/
def LinComp.residFactor (c : LinComp K) (name : String) : Option K := c.scales.lookup name

/-- Is the implicit `-I` applied to this variable (`system.py:867-869,879-881`)? -/
def LinComp.ident (c : LinComp K) (var : String) : Bool :=
  (match c.gsOuts with | none => true | some g => g.contains var) && !(c.states.contains var)

/-- Set every value to zero. Serves `sysApplyFwd` (`system.py:841-869`). -/
def zeroVec (d : DVec K) : DVec K := d.map fun e => (e.1, e.2.map fun _ => 0)

/-- Loop body of `for var, val in frm.vec_val_iter(): if …: acc._dat[var].val -= val` (`system.py:865-869,877-881`). Both vectors
come from the same unknowns; a missing name would be a KeyError, unequal lengths a ValueError. -/
def subIdentStep (c : LinComp K) (acc : DVec K) (e : String × List K) : Except PyErr (DVec K) :=
  if c.ident e.1 then
    match acc.lookup e.1 with
    | none => .error .KeyError
    | some v =>
      match iadd v (e.2.map fun x => -x) with
      | .error err => .error err
      | .ok w => .ok (acc.put e.1 w)
  else .ok acc

/-- The loop itself. Serves `sysApplyFwd` (`system.py:841-869`). -/
def subIdent (c : LinComp K) (acc frm : DVec K) : Except PyErr (DVec K) := frm.foldlM (subIdentStep c) acc

/-- State after an application: all three vectors may have been changed. Serves `sysApplyFwd` (`system.py:841-869`). -/
structure LinOut (K : Type) where
  dp : DVec K
  du : DVec K
  dr : DVec K

/-- The `do_apply` branch in forward mode (`system.py:848-863`): new `dparams` and `dresids`. `apply_linear` is the default
`_apply_linear_jac`. `dunknowns._scale_derivatives()` does nothing: the scale cache of a 'du' vector is empty
(`vec_wrapper.py:994-1011`). The unit conversion changes `dparams` in place. -/
def applyPartFwd (c : LinComp K) (dp du dr0 : DVec K) : Except PyErr (DVec K × DVec K) :=
  match c.doApply, c.forceFd with
  | false, _ => .ok (dp, dr0)
  | true, true => (applyLinearJacFwd c dp du dr0).map fun d => (dp, d)
  | true, false => (applyLinearJacFwd c (scaleBy c.unitFactor dp) du dr0).map fun d =>
      (scaleBy c.unitFactor dp, scaleBy c.residFactor d)

/-- `System._sys_apply_linear` for one voi, forward mode (`system.py:841-869`). -/
def sysApplyFwd (c : LinComp K) (dp du dr : DVec K) : Except PyErr (LinOut K) :=
  match applyPartFwd c dp du (zeroVec dr) with
  | .error e => .error e
  | .ok (dp1, dr1) => (subIdent c dr1 du).map fun dr2 => ⟨dp1, du, dr2⟩

/-- The `do_apply` branch in reverse mode (`system.py:887-892`); the scaling changes `dresids` in place. -/
def applyPartRev (c : LinComp K) (dr dp0 du1 : DVec K) : Except PyErr (LinOut K) :=
  match c.doApply, c.forceFd with
  | false, _ => .ok ⟨dp0, du1, dr⟩
  | true, true => (applyLinearJacRev c dr dp0 du1).map fun r => ⟨r.1, r.2, dr⟩
  | true, false => (applyLinearJacRev c (scaleBy c.residFactor dr) dp0 du1).map fun r =>
      ⟨scaleBy c.unitFactor r.1, r.2, scaleBy c.residFactor dr⟩

/-- `System._sys_apply_linear` for one voi, reverse mode (`system.py:870-892`). -/
def sysApplyRev (c : LinComp K) (dp du dr : DVec K) : Except PyErr (LinOut K) :=
  match subIdent c (zeroVec du) dr with
  | .error e => .error e
  | .ok du1 => applyPartRev c dr (zeroVec dp) du1

end OpenMDAO
