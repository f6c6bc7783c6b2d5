import Verif.Model.Paths
import Verif.Model.FiniteDiff
import Verif.Model.LinearGS
/-!
# Model of a group that is finite differenced as a whole (`deriv_options['type'] = 'fd'`)

`Group._get_fd_params`, `Group._get_fd_unknowns` (`openmdao/core/group.py:593-645`), `System._sys_linearize` and
`fd_jacobian` for such a group (`openmdao/core/system.py:488-798,896-959`, the loop itself is `Model/FiniteDiff`), and `Group.solve_linear`
(`group.py:888-953`) as it is called by `LinearGaussSeidel.solve` with several variables of interest.
-/
namespace OpenMDAO

/-- A system as far as `find_subsystem` looks at it: a component, which is an `IndepVarComp` or not, or a group with its
subsystems by name. Serves `FSys.sub` (`system.py:114`). -/
inductive FSys where
  | comp (ivc : Bool)
  | group (subs : List (Str × FSys))

/-- `s._subsystems[part]`; the dictionary of a component is empty (`system.py:114`). -/
def FSys.sub : FSys → Str → Except PyErr FSys
  | .comp _, _ => .error .KeyError
  | .group subs, part =>
    match subs.lookup part with
    | none => .error .KeyError
    | some s => .ok s

/-- `Group.find_subsystem` (`group.py:165-184`). -/
def FSys.find (s : FSys) (name : Str) : Except PyErr FSys := (pySplit '.' name).foldlM FSys.sub s

/-- `isinstance(s, IndepVarComp)`. Serves `fdParamStep` (`group.py:610-621`). -/
def FSys.isIvc : FSys → Bool
  | .comp ivc => ivc
  | .group _ => false

/-- `name.rsplit('.', 1)[0]`. Serves `fdParamStep` (`group.py:610-621`). -/
def rsplitHead (s : Str) : Str := if '.' ∈ s then ((s.reverse.dropWhile (· ≠ '.')).drop 1).reverse else s

/-- `self.pathname + '.' if self.pathname else ''` (`group.py:606,636`) -/
def myPath (pathname : Str) : Str := if pathname = [] then [] else pathname ++ ['.']

/-- One connection in `_get_fd_params` (`group.py:610-621`). `pbo` is `self.params._dat[·].pbo` by the name of the param relative to the
group. -/
def fdParamStep (pathname : Str) (self : FSys) (pbo : List (Str × Bool)) (acc : List Str) (c : Str × Str) : Except PyErr (List Str) :=
  let mypath := myPath pathname
  if c.1.take mypath.length = mypath then
    let scname := rsplitHead c.2
    if scname.take mypath.length = mypath then
      match self.find (scname.drop mypath.length) with
      | .error e => .error e
      | .ok s => .ok (if s.isIvc then acc ++ [c.1.drop mypath.length] else acc)
    else
      match pbo.lookup (c.1.drop mypath.length) with
      | none => .error .KeyError
      | some b => .ok (if b then acc else acc ++ [c.1.drop mypath.length])
  else .ok acc

/-- `Group._get_fd_params` (`group.py:593-623`), first call. `conns` are all connections of the problem as (target, source), with
absolute names (`group.py:432`); the source indices are not used. -/
def groupFdParams (pathname : Str) (self : FSys) (pbo : List (Str × Bool)) (conns : List (Str × Str)) : Except PyErr (List Str) :=
  conns.foldlM (fdParamStep pathname self pbo) []

/-- One unknown in `_get_fd_unknowns` (`group.py:638-643`): promoted name, absolute name, pass-by-object flag. -/
def fdUnknownStep (pathname : Str) (self : FSys) (acc : List Str) (u : Str × Str × Bool) : Except PyErr (List Str) :=
  match self.find ((rsplitHead u.2.1).drop (myPath pathname).length) with
  | .error e => .error e
  | .ok s => .ok (if !s.isIvc && !u.2.2 then acc ++ [u.1] else acc)

/-- `Group._get_fd_unknowns` (`group.py:625-645`). -/
def groupFdUnknowns (pathname : Str) (self : FSys) (unknowns : List (Str × Str × Bool)) : Except PyErr (List Str) :=
  unknowns.foldlM (fdUnknownStep pathname self) []

variable {ι π K ν : Type} [Fintype ι] [Fintype π] [DecidableEq ι] [DecidableEq ν] [Field K]

/-- Vectors of all variables of interest. Serves `childSolveFwd` (`group.py:930-933`). -/
abbrev VoiState (ν ι π K : Type) := ν → GSState ι π K

/-- What kind of child: a group that is finite differenced, or anything else. Serves `childSolveFwd` (`group.py:930-933`). -/
inductive ChildKind where
  | fd | other
  deriving DecidableEq

/-- `sub.solve_linear(sub.dumat, sub.drmat, vois, mode=mode)`. A finite differenced group writes `-rhs` and returns from inside the loop
over the variables of interest (`group.py:930-933`), so that only the first one is served. Any other child serves all of them
(`component.py:722-723`, `group.py:936-952`); what it writes and leaves behind is `S`. Forward mode: the solution goes to `du`. -/
def childSolveFwd (G : LinGroup ι π K) (kind : Nat → ChildKind) (S : GSSolve ι π K) (vois : List ν) (c : Nat) (st : VoiState ν ι π K) :
    VoiState ν ι π K := fun v =>
  match kind c with
  | .fd =>
    if vois.head? = some v then { st v with du := fun i => if G.owner i = c then -(st v).dr i else (st v).du i } else st v
  | .other =>
    if v ∈ vois then
      let s := st v
      let x := S.sol c (fun i => if G.owner i = c then s.dr i else 0)
      let t := S.junk c s
      { du := fun i => if G.owner i = c then x i else s.du i
        dr := fun i => if G.owner i = c then t.dr i else s.dr i
        dp := fun k => if G.powner k = c then t.dp k else s.dp k }
    else st v

/-- One pass of the forward loop for all variables of interest (`ln_gauss_seidel.py:123-155`): transfers and products for every one of
them, then one call of `solve_linear`. -/
def voiStepFwd (G : LinGroup ι π K) (kind : Nat → ChildKind) (S : GSSolve ι π K) (vois : List ν) (rhs : ν → ι → K)
    (st : VoiState ν ι π K) (c : Nat) : VoiState ν ι π K :=
  childSolveFwd G kind S vois c fun v =>
    if v ∈ vois then
      let s1 := subApplyFwd G c (xferFwd G c (st v))
      { s1 with dr := fun i => -s1.dr i + rhs v i, dp := fun _ => 0 }
    else st v

/-- Forward sweep. Serves `ln_gauss_seidel.py:73-236`. -/
def voiSweepFwd (G : LinGroup ι π K) (kind : Nat → ChildKind) (S : GSSolve ι π K) (vois : List ν) (rhs : ν → ι → K)
    (order : List Nat) (st : VoiState ν ι π K) : VoiState ν ι π K := order.foldl (voiStepFwd G kind S vois rhs) st

/-- `sub.solve_linear` in reverse mode: the solution goes to `dr`. Serves `voiStepRev` (`ln_gauss_seidel.py:165-197`). -/
def childSolveRev (G : LinGroup ι π K) (kind : Nat → ChildKind) (S : GSSolve ι π K) (vois : List ν) (c : Nat) (st : VoiState ν ι π K) :
    VoiState ν ι π K := fun v =>
  match kind c with
  | .fd =>
    if vois.head? = some v then { st v with dr := fun i => if G.owner i = c then -(st v).du i else (st v).dr i } else st v
  | .other =>
    if v ∈ vois then
      let s := st v
      let x := S.sol c (fun i => if G.owner i = c then s.du i else 0)
      let t := S.junk c s
      { du := fun i => if G.owner i = c then t.du i else s.du i
        dr := fun i => if G.owner i = c then x i else s.dr i
        dp := fun k => if G.powner k = c then t.dp k else s.dp k }
    else st v

/-- One pass of the reverse loop for all variables of interest (`ln_gauss_seidel.py:165-197`). -/
def voiStepRev (G : LinGroup ι π K) (kind : Nat → ChildKind) (S : GSSolve ι π K) (vois : List ν) (rhs : ν → ι → K)
    (st : VoiState ν ι π K) (c : Nat) : VoiState ν ι π K := fun v =>
  let st1 : VoiState ν ι π K := fun w =>
    if w ∈ vois then
      let s1 := xferRev G c { st w with du := fun _ => 0 }
      { s1 with du := fun i => -s1.du i + rhs w i }
    else st w
  if v ∈ vois then subApplyRev G c (childSolveRev G kind S vois c st1 v) else childSolveRev G kind S vois c st1 v

/-- Reverse sweep. Serves `ln_gauss_seidel.py:73-236`. -/
def voiSweepRev (G : LinGroup ι π K) (kind : Nat → ChildKind) (S : GSSolve ι π K) (vois : List ν) (rhs : ν → ι → K)
    (order : List Nat) (st : VoiState ν ι π K) : VoiState ν ι π K := order.reverse.foldl (voiStepRev G kind S vois rhs) st

end OpenMDAO
