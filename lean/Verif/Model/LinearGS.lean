import Verif.Model.Numpy
import Mathlib.Algebra.BigOperators.Ring.Finset
import Mathlib.Data.Fintype.BigOperators
import Mathlib.Algebra.Field.Defs
import Mathlib.Order.Defs.LinearOrder
/-!
# Model of the linear Gauss-Seidel solver (`openmdao/solvers/ln_gauss_seidel.py:73-270`)

Level of detail: scalars. `ι` are the scalar unknowns (and residuals) of the group, `π` the connected scalar params of all
components below it. A child of the group (`system._subsystems`) is identified by a number; it is a component or a
subgroup. The three derivative vectors `du`, `dr`, `dp` of one variable of interest are functions on `ι`, `ι`, `π`; the children
work on views of them. Array connections with `src_indices` are `src` on scalars (C03, C04). Unit factors and residual
scaling are folded into the partials (C31 shows how they enter). All children are active and relevant. Names are left out: the
tests `var in gs_outputs` are taken to exclude exactly the outputs of the child during a sweep and nothing in `_norm`, and no child
is an `IndepVarComp` as far as `_norm` in reverse mode is concerned; `Model/GsOutputs` has the names and the `IndepVarComp`, and C168
says when the two agree.
-/
namespace OpenMDAO

/-- The linearised group. Serves `xferFwd` (`ln_gauss_seidel.py:128`). -/
structure LinGroup (ι π K : Type) where
  /-- child of the group that holds the unknown -/
  owner : ι → Nat
  /-- child of the group that holds the param -/
  powner : π → Nat
  /-- unknown the param is connected to -/
  src : π → ι
  /-- partial derivative of a residual with respect to a param (of the same component) -/
  jp : ι → π → K
  /-- partial derivative of a residual with respect to a state (of the same component) -/
  js : ι → ι → K
  /-- unknown is an explicit output, not a state -/
  expl : ι → Bool

/-- Contents of `dumat[voi]`, `drmat[voi]`, `dpmat[voi]`. Serves `GSSolve` (`component.py:690-723`). -/
structure GSState (ι π K : Type) where
  du : ι → K
  dr : ι → K
  dp : π → K

/-- What `sub.solve_linear` does for a child: `sol c r` is the solution it writes for right-hand side `r`; `junk` is whatever it
leaves in the rhs vector and in the params of the child (a subgroup overwrites both while solving). For a component
`component.py:690-723` the solution is `-rhs`. -/
structure GSSolve (ι π K : Type) where
  sol : Nat → (ι → K) → ι → K
  junk : Nat → GSState ι π K → GSState ι π K

variable {ι π K : Type} [Fintype ι] [Fintype π] [DecidableEq ι] [Field K]

/-- `system._transfer_data(sub.name, deriv=True)` (`ln_gauss_seidel.py:128`, `group.py:1528-1566,1607-1635`): the params of child
`c` that are connected to another child. -/
def xferFwd (G : LinGroup ι π K) (c : Nat) (s : GSState ι π K) : GSState ι π K :=
  { s with dp := fun k => if G.powner k = c ∧ G.owner (G.src k) ≠ c then s.du (G.src k) else s.dp k }

/-- The full scatters inside child `c` when it is a group (`group.py:869-871`). A component has no internal connections. -/
def xferInside (G : LinGroup ι π K) (c : Nat) (s : GSState ι π K) : GSState ι π K :=
  { s with dp := fun k => if G.powner k = c ∧ G.owner (G.src k) = c then s.du (G.src k) else s.dp k }

/-- `sub._sys_apply_linear('fwd', …, gs_outputs)` (`ln_gauss_seidel.py:143`): the residuals of child `c` become the products of the
partials with the params and states. `gs_outputs` excludes the outputs of the child (`group.py:339-365`), so the `-du` of
`system.py:865-869` is not applied to them. -/
def subApplyFwd (G : LinGroup ι π K) (c : Nat) (s : GSState ι π K) : GSState ι π K :=
  let s1 := xferInside G c s
  { s1 with dr := fun i =>
      if G.owner i = c then
        (∑ k : π, if G.powner k = c then G.jp i k * s1.dp k else 0) + ∑ j : ι, if G.owner j = c then G.js i j * s1.du j else 0
      else s1.dr i }

/-- One pass of the forward loop (`ln_gauss_seidel.py:123-155`). -/
def gsStepFwd (G : LinGroup ι π K) (S : GSSolve ι π K) (rhs : ι → K) (s : GSState ι π K) (c : Nat) : GSState ι π K :=
  let s1 := subApplyFwd G c (xferFwd G c s)
  let s2 : GSState ι π K := { s1 with dr := fun i => -s1.dr i + rhs i, dp := fun _ => 0 }
  let x := S.sol c (fun i => if G.owner i = c then s2.dr i else 0)
  let t := S.junk c s2
  { du := fun i => if G.owner i = c then x i else s2.du i
    dr := fun i => if G.owner i = c then t.dr i else s2.dr i
    dp := fun k => if G.powner k = c then t.dp k else s2.dp k }

/-- Forward sweep over the children in execution order. Serves `lnSolve` (`ln_gauss_seidel.py:73-236`). -/
def gsSweepFwd (G : LinGroup ι π K) (S : GSSolve ι π K) (rhs : ι → K) (order : List Nat) (s : GSState ι π K) :
    GSState ι π K := order.foldl (gsStepFwd G S rhs) s

/-- `system._transfer_data(sub.name, mode='rev', deriv=True)` (`ln_gauss_seidel.py:174`): the params of other children connected
to outputs of `c` are added to `du`. -/
def xferRev (G : LinGroup ι π K) (c : Nat) (s : GSState ι π K) : GSState ι π K :=
  { s with du := fun j =>
      if G.owner j = c then s.du j + ∑ k : π, if G.src k = j ∧ G.powner k ≠ c then s.dp k else 0 else s.du j }

/-- `sub._sys_apply_linear('rev', …, gs_outputs)` (`ln_gauss_seidel.py:196`) followed by the internal scatters of a subgroup. -/
def subApplyRev (G : LinGroup ι π K) (c : Nat) (s : GSState ι π K) : GSState ι π K :=
  let dp := fun k => if G.powner k = c then ∑ i : ι, (if G.owner i = c then G.jp i k * s.dr i else 0) else s.dp k
  { s with
    dp := dp
    du := fun j => if G.owner j = c then
        (∑ i : ι, if G.owner i = c then G.js i j * s.dr i else 0) +
          ∑ k : π, if G.src k = j ∧ G.powner k = c then dp k else 0
      else s.du j }

/-- One pass of the reverse loop (`ln_gauss_seidel.py:165-197`). -/
def gsStepRev (G : LinGroup ι π K) (S : GSSolve ι π K) (rhs : ι → K) (s : GSState ι π K) (c : Nat) : GSState ι π K :=
  let s1 := xferRev G c { s with du := fun _ => 0 }
  let s2 : GSState ι π K := { s1 with du := fun i => -s1.du i + rhs i }
  let x := S.sol c (fun i => if G.owner i = c then s2.du i else 0)
  let t := S.junk c s2
  subApplyRev G c
    { du := fun i => if G.owner i = c then t.du i else s2.du i
      dr := fun i => if G.owner i = c then x i else s2.dr i
      dp := fun k => if G.powner k = c then t.dp k else s2.dp k }

/-- Reverse sweep: the children in reversed execution order. Serves `lnSolve` (`ln_gauss_seidel.py:73-236`). -/
def gsSweepRev (G : LinGroup ι π K) (S : GSSolve ι π K) (rhs : ι → K) (order : List Nat) (s : GSState ι π K) :
    GSState ι π K := order.reverse.foldl (gsStepRev G S rhs) s

/-- `system._sys_apply_linear('fwd', …, gs_outputs=system.dumat)` on the whole group (`ln_gauss_seidel.py:257`). -/
def groupApplyFwd (G : LinGroup ι π K) (s : GSState ι π K) : GSState ι π K :=
  let dp := fun k => s.du (G.src k)
  { s with
    dp := dp
    dr := fun i => (∑ k : π, if G.powner k = G.owner i then G.jp i k * dp k else 0) +
      (∑ j : ι, if G.owner j = G.owner i then G.js i j * s.du j else 0) - if G.expl i then s.du i else 0 }

/-- The same in reverse mode. Serves `lnNorm` (`ln_gauss_seidel.py:238-270`). -/
def groupApplyRev (G : LinGroup ι π K) (s : GSState ι π K) : GSState ι π K :=
  let dp := fun k => ∑ i : ι, if G.powner k = G.owner i then G.jp i k * s.dr i else 0
  { s with
    dp := dp
    du := fun j => (∑ i : ι, if G.owner j = G.owner i then G.js i j * s.dr i else 0) - (if G.expl j then s.dr j else 0) +
      ∑ k : π, if G.src k = j then dp k else 0 }

/-- Options of the solver (`ln_gauss_seidel.py:37-43`). -/
structure LnOpts (K : Type) where
  atol : K
  rtol : K
  maxiter : Nat

/-- `_norm` (`ln_gauss_seidel.py:238-270`): the state afterwards and the norm; the vector norm is a parameter. -/
def lnNorm (G : LinGroup ι π K) (nrm : (ι → K) → K) (rhs : ι → K) (fwd : Bool) (s : GSState ι π K) :
    GSState ι π K × K :=
  if fwd then
    let t := groupApplyFwd G s
    let v := fun i => t.dr i - rhs i
    ({ t with dr := v }, nrm v)
  else
    let t := groupApplyRev G s
    let v := fun i => t.du i - rhs i
    ({ t with du := v }, nrm v)

/-- Result of `solve`: the solution vector (`none`: `sol_buf` is empty because the loop body never ran), iterations, and whether
the solver reports a failure. Serves `lnSolve` (`ln_gauss_seidel.py:73-236`). -/
structure LnOut (ι K : Type) where
  sol : Option (ι → K)
  iters : Nat
  failed : Bool

/-- Vector that is returned: `dumat` in forward mode, `drmat` in reverse mode (a reference to the live vector, read by the caller
after `solve` returns). Serves `lnSolve` (`ln_gauss_seidel.py:73-236`). -/
def lnSol (fwd : Bool) (s : GSState ι π K) : ι → K := if fwd then s.du else s.dr

/-- The while loop (`ln_gauss_seidel.py:118-213`); `n` is `maxiter - iter_count`, `fnorm0` is 1.0 throughout. Returns the final
state, iteration count and norm. -/
def lnLoop [LinearOrder K] (o : LnOpts K) (sweep : GSState ι π K → GSState ι π K)
    (norm : GSState ι π K → GSState ι π K × K) (iter : Nat) (s : GSState ι π K) (fnorm : K) :
    Nat → GSState ι π K × Nat × K
  | 0 => (s, iter, fnorm)
  | n + 1 =>
    if fnorm > o.atol ∧ fnorm / 1 > o.rtol then
      let s1 := sweep s
      let r := if o.maxiter = 1 then (s1, 0) else norm s1
      lnLoop o sweep norm (iter + 1) r.1 r.2 n
    else (s, iter, fnorm)

/-- `LinearGaussSeidel.solve` (`ln_gauss_seidel.py:73-236`) for one variable of interest, `err_on_maxiter=False`. -/
def lnSolve [LinearOrder K] (G : LinGroup ι π K) (S : GSSolve ι π K) (nrm : (ι → K) → K) (o : LnOpts K) (rhs : ι → K)
    (order : List Nat) (fwd : Bool) (s : GSState ι π K) : LnOut ι K :=
  let s0 : GSState ι π K := { s with du := fun _ => 0, dp := fun _ => 0 }
  let sweep := if fwd then gsSweepFwd G S rhs order else gsSweepRev G S rhs order
  let r := lnLoop o sweep (lnNorm G nrm rhs fwd) 0 s0 1 o.maxiter
  { sol := if r.2.1 = 0 then none else some (lnSol fwd r.1)
    iters := r.2.1
    failed := decide (o.maxiter > 1 ∧ r.2.1 ≥ o.maxiter) }

end OpenMDAO
