import Verif.Model.ApplyLinear
import Verif.Model.Promotes
import Mathlib.Analysis.Real.Sqrt
/-!
# Model of `Problem.check_partial_derivatives` for one component

`openmdao/core/problem.py:1973-2118` and `_assemble_deriv_data` (2488-2690). The component supplies derivatives (`deriv_options['type'] == 'user'`); variables passed by object are not in the derivative vectors. The finite differences
(`comp.fd_jacobian` or `comp.complex_step_jacobian`) are an argument. Output to the stream is modelled by the flags that are printed behind the errors.
-/
namespace OpenMDAO

/-- `np.zeros((m, n))`. Serves `ChkComp.allocStep` (`problem.py:2011-2032`). -/
def Mat.zeros {K : Type} [Zero K] (m n : Nat) : Mat K := ⟨m, n, fun _ _ => 0⟩

/-- `M[i, :] = v`. Serves `ChkComp.storeRow` (`problem.py:2054-2057`). -/
def Mat.setRow {K : Type} [Zero K] (M : Mat K) (i : Nat) (v : List K) : Mat K := { M with a := fun r c => if r = i then v.getD c 0 else M.a r c }

/-- `M[:, j] = v`. Serves `storeColumn` (`problem.py:2079-2080`). -/
def Mat.setColumn {K : Type} [Zero K] (M : Mat K) (j : Nat) (v : List K) : Mat K := { M with a := fun r c => if c = j then v.getD r 0 else M.a r c }

/-- A Jacobian as a dict from (unknown, param) to arrays. Serves `ChkComp.allocStep` (`problem.py:2011-2032`). -/
abbrev JDict (K : Type) := List ((String × String) × Mat K)

/-- In-place change of an array of the dict; `KeyError` if it is not there. Serves `ChkComp.storeRow` (`problem.py:2054-2057`). -/
def JDict.modify {K : Type} (d : JDict K) (k : String × String) (f : Mat K → Mat K) : Except PyErr (JDict K) :=
  if (d.lookup k).isSome then .ok (d.map fun e => if e.1 = k then (e.1, f e.2) else e) else .error .KeyError

section
variable {K : Type} [CommRing K]

/-- A component: names and sizes of its derivative vectors, its states, the shapes of `_jacobian_cache`, `apply_linear` in both modes (dparams, dunknowns, dresids), the factors of `_apply_unit_derivatives` and `_scale_derivatives`. Serves `ChkComp.paramList` (`problem.py:1994-1996`). -/
structure ChkComp (K : Type) where
  dp : List (String × Nat)
  du : List (String × Nat)
  states : List String
  shapes : List ((String × String) × List Nat)
  fwd : DVec K → DVec K → DVec K → Except PyErr (DVec K)
  rev : DVec K → DVec K → DVec K → Except PyErr (DVec K × DVec K)
  unitF : String → Option K
  residF : String → Option K

/-- A vector of zeros. Serves `ChkComp.revCell` (`problem.py:2041-2057`). -/
def zerosOf (l : List (String × Nat)) : DVec K := l.map fun e => (e.1, List.replicate e.2 0)

/-- `vec[:] = 0.0` and `vec._dat[name].val[idx] = 1.0`. Serves `ChkComp.revCell` (`problem.py:2041-2057`). -/
def unitAt (l : List (String × Nat)) (name : String) (idx : Nat) : DVec K :=
  let z : DVec K := zerosOf l
  match z.lookup name with
  | none => z
  | some v => z.put name (v.set idx 1)

/-- `param_list` (`problem.py:1994-1996`). -/
def ChkComp.paramList (c : ChkComp K) : List String := c.dp.map Prod.fst ++ c.states

/-- `unkn_list` (`problem.py:1997-1998`). -/
def ChkComp.unknList (c : ChkComp K) : List String := c.du.map Prod.fst

/-- The layout of `dinputs` (`problem.py:2007`). -/
def ChkComp.inputs (c : ChkComp K) (p : String) : List (String × Nat) := if c.states.contains p then c.du else c.dp

/-- `np.size(dinputs[p_name])`, `np.size(dunknowns[u_name])`. Serves `ChkComp.allocStep` (`problem.py:2011-2032`). -/
def sizeIn (l : List (String × Nat)) (n : String) : Except PyErr Nat :=
  match l.lookup n with
  | some s => .ok s
  | none => .error .KeyError

/-- The shape of a user Jacobian (`problem.py:2019-2023`). -/
def userShape : List Nat → Except PyErr (Nat × Nat)
  | [a] => .ok (a, 1)
  | a :: b :: _ => .ok (a, b)
  | [] => .error .IndexError

/-- One turn of the allocation (`problem.py:2011-2032`): the shape of the supplied derivative must fit. -/
def ChkComp.allocStep (c : ChkComp K) (p : String) (m : Nat) (d : JDict K) (u : String) : Except PyErr (JDict K) :=
  match sizeIn c.du u with
  | .error e => .error e
  | .ok n => match c.shapes.lookup (u, p) with
    | some s => match userShape s with
      | .error e => .error e
      | .ok s => if s = (n, m) then .ok (dictSet d (u, p) (Mat.zeros n m)) else .error .ValueError
    | none => .ok (dictSet d (u, p) (Mat.zeros n m))

/-- The loop over the params (`problem.py:2001-2032`); `jac_fwd` and `jac_rev` are allocated alike. -/
def ChkComp.allocParam (c : ChkComp K) (d : JDict K) (p : String) : Except PyErr (JDict K) :=
  match sizeIn (c.inputs p) p with
  | .error e => .error e
  | .ok m => c.unknList.foldlM (c.allocStep p m) d

/-- Serves `ChkComp.jacs` (`problem.py:2001-2080`). -/
def ChkComp.alloc (c : ChkComp K) : Except PyErr (JDict K) := c.paramList.foldlM c.allocParam []

/-- Store a row of the reverse Jacobian (`problem.py:2054-2057`). -/
def ChkComp.storeRow (c : ChkComp K) (u : String) (i : Nat) (dp du : DVec K) (d : JDict K) (p : String) : Except PyErr (JDict K) :=
  match (if c.states.contains p then du else dp).lookup p with
  | none => .error .KeyError
  | some v => d.modify (u, p) fun M => M.setRow i v

/-- Reverse mode for one entry of an unknown (`problem.py:2041-2057`). -/
def ChkComp.revCell (c : ChkComp K) (d : JDict K) (cell : String × Nat) : Except PyErr (JDict K) :=
  match c.rev (zerosOf c.dp) (zerosOf c.du) (scaleBy c.residF (unitAt c.du cell.1 cell.2)) with
  | .error e => .error e
  | .ok (dp, du) => c.paramList.foldlM (c.storeRow cell.1 cell.2 (scaleBy c.unitF dp) du) d

/-- Names with their indices, in the order of the nested loops. Serves `ChkComp.jacs` (`problem.py:2001-2080`). -/
def cellsOf (l : List (String × Nat)) : List (String × Nat) := l.flatMap fun e => (List.range e.2).map fun i : Nat => (e.1, i)

/-- Store a column of the forward Jacobian (`problem.py:2079-2080`). -/
def storeColumn (p : String) (j : Nat) (d : JDict K) (e : String × List K) : Except PyErr (JDict K) := d.modify (e.1, p) fun M => M.setColumn j e.2

/-- Forward mode for one entry of a param or state (`problem.py:2067-2080`). -/
def ChkComp.fwdCell (c : ChkComp K) (d : JDict K) (cell : String × Nat) : Except PyErr (JDict K) :=
  let dp := if c.states.contains cell.1 then zerosOf c.dp else unitAt c.dp cell.1 cell.2
  let du := if c.states.contains cell.1 then unitAt c.du cell.1 cell.2 else zerosOf c.du
  match c.fwd (scaleBy c.unitF dp) du (zerosOf c.du) with
  | .error e => .error e
  | .ok dr => (scaleBy c.residF dr).foldlM (storeColumn cell.1 cell.2) d

/-- The sizes of the params and states, for the loop of the forward mode (`problem.py:2060-2064`). -/
def ChkComp.paramSizes (c : ChkComp K) : List (String × Nat) := c.paramList.map fun p => (p, ((c.inputs p).lookup p).getD 0)

/-- `jac_fwd` and `jac_rev` of a component (`problem.py:2001-2080`). -/
def ChkComp.jacs (c : ChkComp K) : Except PyErr (JDict K × JDict K) :=
  match c.alloc with
  | .error e => .error e
  | .ok d0 => match (cellsOf c.du).foldlM c.revCell d0 with
    | .error e => .error e
    | .ok jr => match (cellsOf c.paramSizes).foldlM c.fwdCell d0 with
      | .error e => .error e
      | .ok jf => .ok (jf, jr)

end

/-- A component that gives its derivatives by `linearize`: `Component.apply_linear` is `_apply_linear_jac` (`component.py:655-688`, `system.py:961-1021`), the shapes are those of the arrays of `_jacobian_cache`, which `_sys_linearize` has made two-dimensional (`system.py:949-956`). -/
def LinComp.chk {K : Type} [CommRing K] (c : LinComp K) (dp du : List (String × Nat)) : ChkComp K where
  dp := dp
  du := du
  states := c.states
  shapes := (c.jac.getD []).map fun e => (e.1, [e.2.m, e.2.n])
  fwd := fun dp du dr => applyLinearJacFwd c dp du dr
  rev := fun dp du dr => applyLinearJacRev c dr dp du
  unitF := c.unitFactor
  residF := c.residFactor

/-! ## `_assemble_deriv_data` -/

/-- `np.linalg.norm` of an array. Serves `asmPair` (`problem.py:2501-2580`). -/
noncomputable def frob (M : Mat ℝ) : ℝ := Real.sqrt (∑ i ∈ Finset.range M.m, ∑ j ∈ Finset.range M.n, M.a i j ^ 2)

/-- `A - B` for arrays of the same shape; other shapes are taken to be a `ValueError` (numpy would stretch a dimension of size one). Serves `asmPair` (`problem.py:2501-2580`). -/
def Mat.sub? (A B : Mat ℝ) : Except PyErr (Mat ℝ) := if A.m = B.m ∧ A.n = B.n then .ok ⟨A.m, A.n, fun i j => A.a i j - B.a i j⟩ else .error .ValueError

/-- `ldata` for one pair: magnitudes, absolute and relative errors (`none` is not a number). Serves `asmPair` (`problem.py:2501-2580`). -/
structure DerivData where
  magnitude : List ℝ
  abs : List ℝ
  rel : List (Option ℝ)

/-- `d[key]`. Serves `asmPair` (`problem.py:2501-2580`). -/
def getJ (d : JDict ℝ) (k : String × String) : Except PyErr (Mat ℝ) :=
  match d.lookup k with
  | some M => .ok M
  | none => .error .KeyError

/-- The body of the loop (`problem.py:2501-2580`) for a component with derivatives in both modes and no second finite difference; `none` if the pair is ignored. -/
noncomputable def asmPair (jf jr fd : JDict ℝ) (k : String × String) : Except PyErr (Option DerivData) :=
  match fd.lookup k with
  | none => .ok none
  | some F =>
    getJ jf k >>= fun A => getJ jr k >>= fun B => A.sub? F >>= fun d1 => B.sub? F >>= fun d2 => A.sub? B >>= fun d3 =>
      .ok (some { magnitude := [frob A, frob B, frob F], abs := [frob d1, frob d2, frob d3],
                  rel := if frob F = 0 then [none, none, none, none] else [some (frob d1 / frob F), some (frob d2 / frob F), some (frob d3 / frob F)] })

/-- One pair of the loop: `cdata[key] = ldata`. Serves `assembleData` (`problem.py:2498-2580`). -/
noncomputable def asmStep (jf jr fd : JDict ℝ) (data : List ((String × String) × DerivData)) (k : String × String) : Except PyErr (List ((String × String) × DerivData)) :=
  match asmPair jf jr fd k with
  | .error e => .error e
  | .ok none => .ok data
  | .ok (some x) => .ok (dictSet data k x)

/-- `data[cname]` (`problem.py:2498-2580`): the loops over the params and the residuals. -/
noncomputable def assembleData (params resids : List String) (jf jr fd : JDict ℝ) : Except PyErr (List ((String × String) × DerivData)) :=
  (params.flatMap fun p => resids.map fun u => (u, p)).foldlM (asmStep jf jr fd) []

/-- The flags `*` behind the three absolute and the three relative errors (`problem.py:2660-2671`). -/
noncomputable def starAbs (tol x : ℝ) : Bool := !decide (x < tol)
/-- The same for relative errors; NaN has no flag (`problem.py:2674-2685`). -/
noncomputable def starRel (tol : ℝ) : Option ℝ → Bool
  | none => false
  | some x => !decide (x < tol)

end OpenMDAO
