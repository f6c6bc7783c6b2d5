import Verif.Model.LinearGS
import Verif.Model.Paths
import Mathlib.Data.Fintype.Basic
/-!
# The names `LinearGaussSeidel` tests (`openmdao/core/group.py:339-365`, `openmdao/solvers/ln_gauss_seidel.py:238-270`)

`Model/LinearGS` leaves names out. In the code the term `-du` of an explicit output (`-1` on the diagonal of the linear system) is
applied by the component that computes the output, and only when the name of the output *in that component* belongs to a set of
names that was made by the group that runs the solver, from the names *in that group* (`system.py:866-870,880-884`,
`indep_var_comp.py:102-108`). The definitions here are those of `Model/LinearGS` with this test, and with the `IndepVarComp`,
which does not zero `du` in reverse mode. Everything else is as there.
-/
namespace OpenMDAO

/-- Names of the unknowns in the vectors at three levels (`system.py:1054-1069`, `component.py:788-813`, `group.py:1672-1694`), and
which unknowns belong to an `IndepVarComp`. For a child that is a component `loc` and `sub` are the same. -/
structure GSNames (ι : Type) where
  /-- in the component that computes the unknown -/
  loc : ι → Str
  /-- in the child of the group that contains the component -/
  sub : ι → Str
  /-- in the group -/
  top : ι → Str
  /-- the component is an `IndepVarComp` -/
  indep : ι → Bool

variable {ι π K : Type} [Fintype ι] [Fintype π] [DecidableEq ι] [Field K]

/-- `x in system.dumat[voi]` (`vec_wrapper.py:445-452`): `x` is a name of the group. -/
def GSNames.inGroup (N : GSNames ι) (x : Str) : Bool := decide (∃ j, N.top j = x)

/-- `x in gs_outputs[mode][sub.name][voi]` (`group.py:352-364`): `x` is a name of the group and not a name of child `c`. Both modes
make the same set; `sub.dumat` has an entry for every variable of interest. -/
def GSNames.gsOut (N : GSNames ι) (G : LinGroup ι π K) (c : Nat) (x : Str) : Bool :=
  N.inGroup x && !decide (∃ j, G.owner j = c ∧ N.sub j = x)

/-- `sub._sys_apply_linear('fwd', …, gs_outputs)` (`ln_gauss_seidel.py:143`, `system.py:841-869`, `indep_var_comp.py:84-108`).
The partials of an `IndepVarComp` are zero. -/
def subApplyFwdN (G : LinGroup ι π K) (N : GSNames ι) (c : Nat) (s : GSState ι π K) : GSState ι π K :=
  let s1 := xferInside G c s
  { s1 with dr := fun i =>
      if G.owner i = c then
        (∑ k : π, if G.powner k = c then G.jp i k * s1.dp k else 0) +
          (∑ j : ι, if G.owner j = c then G.js i j * s1.du j else 0) -
          if G.expl i ∧ N.gsOut G c (N.loc i) then s1.du i else 0
      else s1.dr i }

/-- One pass of the forward loop (`ln_gauss_seidel.py:123-155`). -/
def gsStepFwdN (G : LinGroup ι π K) (N : GSNames ι) (S : GSSolve ι π K) (rhs : ι → K) (s : GSState ι π K) (c : Nat) :
    GSState ι π K :=
  let s1 := subApplyFwdN G N c (xferFwd G c s)
  let s2 : GSState ι π K := { s1 with dr := fun i => -s1.dr i + rhs i, dp := fun _ => 0 }
  let x := S.sol c (fun i => if G.owner i = c then s2.dr i else 0)
  let t := S.junk c s2
  { du := fun i => if G.owner i = c then x i else s2.du i
    dr := fun i => if G.owner i = c then t.dr i else s2.dr i
    dp := fun k => if G.powner k = c then t.dp k else s2.dp k }

/-- Forward sweep over the children in execution order. Serves `lnSolveN` (`ln_gauss_seidel.py:73-236`). -/
def gsSweepFwdN (G : LinGroup ι π K) (N : GSNames ι) (S : GSSolve ι π K) (rhs : ι → K) (order : List Nat)
    (s : GSState ι π K) : GSState ι π K := order.foldl (gsStepFwdN G N S rhs) s

/-- `sub._sys_apply_linear('rev', …, gs_outputs)` (`ln_gauss_seidel.py:196`, `system.py:870-892`): `du` of the child is zeroed
first, except by an `IndepVarComp` (`indep_var_comp.py:88-89`). -/
def subApplyRevN (G : LinGroup ι π K) (N : GSNames ι) (c : Nat) (s : GSState ι π K) : GSState ι π K :=
  let dp := fun k => if G.powner k = c then ∑ i : ι, (if G.owner i = c then G.jp i k * s.dr i else 0) else s.dp k
  { s with
    dp := dp
    du := fun j => if G.owner j = c then
        (if N.indep j then s.du j else ∑ i : ι, if G.owner i = c then G.js i j * s.dr i else 0) -
          (if G.expl j ∧ N.gsOut G c (N.loc j) then s.dr j else 0) +
          ∑ k : π, if G.src k = j ∧ G.powner k = c then dp k else 0
      else s.du j }

/-- One pass of the reverse loop (`ln_gauss_seidel.py:165-197`). -/
def gsStepRevN (G : LinGroup ι π K) (N : GSNames ι) (S : GSSolve ι π K) (rhs : ι → K) (s : GSState ι π K) (c : Nat) :
    GSState ι π K :=
  let s1 := xferRev G c { s with du := fun _ => 0 }
  let s2 : GSState ι π K := { s1 with du := fun i => -s1.du i + rhs i }
  let x := S.sol c (fun i => if G.owner i = c then s2.du i else 0)
  let t := S.junk c s2
  subApplyRevN G N c
    { du := fun i => if G.owner i = c then t.du i else s2.du i
      dr := fun i => if G.owner i = c then x i else s2.dr i
      dp := fun k => if G.powner k = c then t.dp k else s2.dp k }

/-- Reverse sweep: the children in reversed execution order. Serves `lnSolveN` (`ln_gauss_seidel.py:73-236`). -/
def gsSweepRevN (G : LinGroup ι π K) (N : GSNames ι) (S : GSSolve ι π K) (rhs : ι → K) (order : List Nat)
    (s : GSState ι π K) : GSState ι π K := order.reverse.foldl (gsStepRevN G N S rhs) s

/-- `system._sys_apply_linear('fwd', …, gs_outputs=system.dumat)` on the whole group (`ln_gauss_seidel.py:257-258`): the set of names
is the names of the group. -/
def groupApplyFwdN (G : LinGroup ι π K) (N : GSNames ι) (s : GSState ι π K) : GSState ι π K :=
  let dp := fun k => s.du (G.src k)
  { s with
    dp := dp
    dr := fun i => (∑ k : π, if G.powner k = G.owner i then G.jp i k * dp k else 0) +
      (∑ j : ι, if G.owner j = G.owner i then G.js i j * s.du j else 0) -
      if G.expl i ∧ N.inGroup (N.loc i) then s.du i else 0 }

/-- The same in reverse mode; an `IndepVarComp` subtracts from what is in `du`. Serves `lnNormN` (`ln_gauss_seidel.py:238-270`). -/
def groupApplyRevN (G : LinGroup ι π K) (N : GSNames ι) (s : GSState ι π K) : GSState ι π K :=
  let dp := fun k => ∑ i : ι, if G.powner k = G.owner i then G.jp i k * s.dr i else 0
  { s with
    dp := dp
    du := fun j => (if N.indep j then s.du j else ∑ i : ι, if G.owner j = G.owner i then G.js i j * s.dr i else 0) -
      (if G.expl j ∧ N.inGroup (N.loc j) then s.dr j else 0) +
      ∑ k : π, if G.src k = j then dp k else 0 }

/-- `_norm` (`ln_gauss_seidel.py:238-270`). -/
def lnNormN (G : LinGroup ι π K) (N : GSNames ι) (nrm : (ι → K) → K) (rhs : ι → K) (fwd : Bool) (s : GSState ι π K) :
    GSState ι π K × K :=
  if fwd then
    let t := groupApplyFwdN G N s
    let v := fun i => t.dr i - rhs i
    ({ t with dr := v }, nrm v)
  else
    let t := groupApplyRevN G N s
    let v := fun i => t.du i - rhs i
    ({ t with du := v }, nrm v)

/-- `LinearGaussSeidel.solve` (`ln_gauss_seidel.py:73-236`) for one variable of interest, `err_on_maxiter=False`. -/
def lnSolveN [LinearOrder K] (G : LinGroup ι π K) (N : GSNames ι) (S : GSSolve ι π K) (nrm : (ι → K) → K) (o : LnOpts K)
    (rhs : ι → K) (order : List Nat) (fwd : Bool) (s : GSState ι π K) : LnOut ι K :=
  let s0 : GSState ι π K := { s with du := fun _ => 0, dp := fun _ => 0 }
  let sweep := if fwd then gsSweepFwdN G N S rhs order else gsSweepRevN G N S rhs order
  let r := lnLoop o sweep (lnNormN G N nrm rhs fwd) 0 s0 1 o.maxiter
  { sol := if r.2.1 = 0 then none else some (lnSol fwd r.1)
    iters := r.2.1
    failed := decide (o.maxiter > 1 ∧ r.2.1 ≥ o.maxiter) }

end OpenMDAO
