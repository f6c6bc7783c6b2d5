import Verif.Model.Connections
import Verif.Model.Paths
import Mathlib.Algebra.QuadraticAlgebra.Defs
import Mathlib.Algebra.BigOperators.Group.List.Basic
/-!
# Model of the execution and the linearization of `ExecComp`

`openmdao/components/exec_comp.py:197-364`. The compiled statements are assignments of polynomial expressions; values are numbers or flat arrays (arrays of higher dimension are their flat form, in which
`array_idx_iter` passes the indices and `jval.flat` gives the entries). Division and the functions of `_expr_dict` are not modelled. The arithmetic is that of a commutative ring: the same statements are executed
over the numbers of the model and over its complex numbers.
-/
namespace OpenMDAO

/-- A number or an array. Serves `upGet` (`exec_comp.py:350-355`). -/
inductive EVal (R : Type) where
  | sc (x : R)
  | arr (l : List R)
  deriving DecidableEq

/-- Right-hand sides. Serves `execAsg` (`exec_comp.py:213`). -/
inductive EExpr (K : Type) where
  | const (k : K)
  | var (n : Str)
  | idx (n : Str) (i : Nat)
  | neg (a : EExpr K)
  | add (a b : EExpr K)
  | sub (a b : EExpr K)
  | mul (a b : EExpr K)
  | sum (a : EExpr K)

/-- Statements: `n = e` and `n[i] = e`. Serves `execAsg` (`exec_comp.py:213`). -/
inductive EAsg (K : Type) where
  | whole (n : Str) (e : EExpr K)
  | entry (n : Str) (i : Nat) (e : EExpr K)

section
variable {K R : Type} [CommRing R]

/-- Numpy's arithmetic on numbers and one-dimensional arrays: equal lengths entry by entry, a number or an array of length one with every entry, otherwise a `ValueError`. Serves `execAsg` (`exec_comp.py:213`). -/
def bcast (f : R → R → R) : EVal R → EVal R → Except PyErr (EVal R)
  | .sc a, .sc b => .ok (.sc (f a b))
  | .sc a, .arr m => .ok (.arr (m.map (f a)))
  | .arr l, .sc b => .ok (.arr (l.map fun x => f x b))
  | .arr l, .arr m =>
    if l.length = m.length then .ok (.arr (List.zipWith f l m))
    else match l, m with
      | [a], m => .ok (.arr (m.map (f a)))
      | l, [b] => .ok (.arr (l.map fun x => f x b))
      | _, _ => .error .ValueError

/-- `-a`. Serves `execAsg` (`exec_comp.py:213`). -/
def negVal : EVal R → EVal R
  | .sc a => .sc (-a)
  | .arr l => .arr (l.map fun x => -x)

/-- `numpy.sum(a)`. Serves `execAsg` (`exec_comp.py:213`). -/
def sumVal : EVal R → EVal R
  | .sc a => .sc a
  | .arr l => .sc l.sum

/-- `a[i]` for an index that is not negative. Serves `execAsg` (`exec_comp.py:213`). -/
def idxVal (i : Nat) : EVal R → Except PyErr (EVal R)
  | .sc _ => .error .TypeError
  | .arr l => match l[i]? with
    | some x => .ok (.sc x)
    | none => .error .IndexError

/-- `_UPDict.__getitem__` (`exec_comp.py:350-355`): first the unknowns, then the parameters. -/
def upGet (ps us : List (Str × EVal R)) (n : Str) : Except PyErr (EVal R) :=
  match us.lookup n with
  | some v => .ok v
  | none => match ps.lookup n with
    | some v => .ok v
    | none => .error .KeyError

/-- Evaluation of a right-hand side; `φ` embeds the constants. Serves `execAsg` (`exec_comp.py:213`). -/
def evalE (φ : K → R) (ps us : List (Str × EVal R)) : EExpr K → Except PyErr (EVal R)
  | .const k => .ok (.sc (φ k))
  | .var n => upGet ps us n
  | .idx n i => upGet ps us n >>= idxVal i
  | .neg a => evalE φ ps us a >>= fun x => .ok (negVal x)
  | .add a b => evalE φ ps us a >>= fun x => evalE φ ps us b >>= fun y => bcast (· + ·) x y
  | .sub a b => evalE φ ps us a >>= fun x => evalE φ ps us b >>= fun y => bcast (· - ·) x y
  | .mul a b => evalE φ ps us a >>= fun x => evalE φ ps us b >>= fun y => bcast (· * ·) x y
  | .sum a => evalE φ ps us a >>= fun x => .ok (sumVal x)

/-- `_set_scalar` and `_set_arr` of the unknowns vector (`openmdao/core/vec_wrapper.py:299-313`): the value is copied into the storage of the variable, which keeps its shape. Numbers are numpy scalars (numbers read
from a vector and everything computed from them); a plain python number raises an `AttributeError` when assigned to an array, which is not modelled. -/
def setVec : EVal R → EVal R → Except PyErr (EVal R)
  | .sc _, .sc x => .ok (.sc x)
  | .sc _, .arr [x] => .ok (.sc x)
  | .sc _, .arr _ => .error .ValueError
  | .arr l, .sc x => .ok (.arr (l.map fun _ => x))
  | .arr l, .arr m =>
    if l.length = m.length then .ok (.arr m)
    else match m with
      | [x] => .ok (.arr (l.map fun _ => x))
      | _ => .error .ValueError

/-- `_TmpDict.__setitem__` (`exec_comp.py:321-322`): the name is bound to the new value. -/
def setTmp : EVal R → EVal R → Except PyErr (EVal R) := fun _ v => .ok v

/-- `a[i] = v` on an array. Serves `execAsg` (`exec_comp.py:213`). -/
def setIdx (i : Nat) : EVal R → EVal R → Except PyErr (EVal R)
  | .sc _, _ => .error .TypeError
  | .arr l, .sc x => if i < l.length then .ok (.arr (l.set i x)) else .error .IndexError
  | .arr l, .arr [x] => if i < l.length then .ok (.arr (l.set i x)) else .error .IndexError
  | .arr _, .arr _ => .error .ValueError

/-- `_UPDict.__setitem__` (`exec_comp.py:357-364`) and item assignment on an unknown. A variable on the left-hand side is an output, so the branch that sets a parameter is not modelled; a name that is no
unknown raises a `KeyError`. -/
def setWith (set : EVal R → EVal R → Except PyErr (EVal R)) (us : List (Str × EVal R)) (n : Str) (v : EVal R) : Except PyErr (List (Str × EVal R)) :=
  match us.lookup n with
  | none => .error .KeyError
  | some old => set old v >>= fun w => .ok (dictSet us n w)

/-- One compiled statement (`exec_comp.py:213`). -/
def execAsg (set : EVal R → EVal R → Except PyErr (EVal R)) (φ : K → R) (ps us : List (Str × EVal R)) : EAsg K → Except PyErr (List (Str × EVal R))
  | .whole n e => evalE φ ps us e >>= fun v => setWith set us n v
  | .entry n i e => evalE φ ps us e >>= fun v => setWith (setIdx i) us n v

/-- `ExecComp.solve_nonlinear` (`exec_comp.py:197-213`), the way of storing an unknown being a parameter. -/
def execRun (set : EVal R → EVal R → Except PyErr (EVal R)) (φ : K → R) (stmts : List (EAsg K)) (ps us : List (Str × EVal R)) : Except PyErr (List (Str × EVal R)) :=
  stmts.foldlM (execAsg set φ ps) us

/-- The entries. Serves `linUnknown` (`exec_comp.py:270-276`). -/
def EVal.flat : EVal R → List R
  | .sc x => [x]
  | .arr l => l

/-- Apply a function to every entry. Serves `setVec` (`openmdao/core/vec_wrapper.py:299-313`). -/
def EVal.map {S : Type} (f : R → S) : EVal R → EVal S
  | .sc x => .sc (f x)
  | .arr l => .arr (l.map f)

/-- `pwrap[param][idx] += step`. Serves `csRun` (`exec_comp.py:259-268`). -/
def stepAt (i : Nat) (d : R) : EVal R → EVal R
  | .sc x => .sc (x + d)
  | .arr l => .arr (l.modify i (· + d))

/-- Apply a function to the values of a dictionary. Serves `csRun` (`exec_comp.py:259-268`). -/
def mapVals {α β : Type} (f : α → β) (d : List (Str × α)) : List (Str × β) := d.map fun kv => (kv.1, f kv.2)

end

section
variable {K : Type} [Field K] [DecidableEq K]

/-- Complex numbers over `K`. Serves `csRun` (`exec_comp.py:259-268`). -/
abbrev Cx (K : Type) [Field K] : Type := QuadraticAlgebra K (-1) 0

/-- `complex(x)`. Serves `csRun` (`exec_comp.py:259-268`). -/
def toCx (x : K) : Cx K := ⟨x, 0⟩

/-- Parameters and unknowns with a complex step in entry `i` of parameter `p`, and the execution (`exec_comp.py:259-268`). -/
def csRun (stmts : List (EAsg K)) (h : K) (ps us : List (Str × EVal K)) (p : Str) (i : Nat) : Except PyErr (List (Str × EVal (Cx K))) :=
  let cps := mapVals (EVal.map toCx) ps
  match cps.lookup p with
  | none => .error .KeyError
  | some v => execRun setTmp toCx stmts (dictSet cps p (stepAt i ⟨0, h⟩ v)) (mapVals (EVal.map toCx) us)

/-- `block[:, i] = col` for a column of the same length. Serves `linUnknown` (`exec_comp.py:270-276`). -/
def setColumn (b : List (List K)) (i : Nat) (c : List K) : Except PyErr (List (List K)) :=
  if b.length = c.length then .ok (List.zipWith (fun row x => row.set i x) b c) else .error .ValueError

/-- One turn of the loop over the unknowns (`exec_comp.py:270-276`); blocks are lists of rows. -/
def linUnknown (h : K) (p : Str) (psize i : Nat) (cus : List (Str × EVal (Cx K))) (J : List ((Str × Str) × List (List K))) (u : Str) :
    Except PyErr (List ((Str × Str) × List (List K))) :=
  match cus.lookup u with
  | none => .error .KeyError
  | some v =>
    let jval := v.flat.map fun z => z.im / h
    let b := (J.lookup (u, p)).getD (List.replicate jval.length (List.replicate psize 0))
    setColumn b i jval >>= fun b' => .ok (dictSet J (u, p) b')

/-- One turn of the loop over the entries of a parameter (`exec_comp.py:258-282`). -/
def linEntry (stmts : List (EAsg K)) (h : K) (ps us : List (Str × EVal K)) (p : Str) (psize : Nat) (J : List ((Str × Str) × List (List K))) (i : Nat) : Except PyErr (List ((Str × Str) × List (List K))) :=
  csRun stmts h ps us p i >>= fun cus => (us.map Prod.fst).foldlM (linUnknown h p psize i cus) J

/-- One turn of the loop over the parameters (`exec_comp.py:243-282`). -/
def linParam (stmts : List (EAsg K)) (h : K) (ps us : List (Str × EVal K)) (J : List ((Str × Str) × List (List K))) (p : Str × EVal K) : Except PyErr (List ((Str × Str) × List (List K))) :=
  (List.range p.2.flat.length).foldlM (linEntry stmts h ps us p.1 p.2.flat.length) J

/-- `ExecComp.linearize` (`exec_comp.py:215-284`) with step size `h`. -/
def execLinearize (stmts : List (EAsg K)) (h : K) (ps us : List (Str × EVal K)) : Except PyErr (List ((Str × Str) × List (List K))) :=
  ps.foldlM (linParam stmts h ps us) []

end

end OpenMDAO
