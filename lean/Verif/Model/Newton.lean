import Verif.Model.Flt
import Verif.Model.Numpy
import Verif.Model.Driver
/-!
# Model of `openmdao/solvers/newton.py`, `openmdao/solvers/backtracking.py` and
`VecWrapper.distance_along_vector_to_limit` (`openmdao/core/vec_wrapper.py`)

The system being solved is a parameter. Printing and recording are not modelled. Loops carry fuel; running out is
the explicit outcome `diverged`.
-/
namespace OpenMDAO

variable {K : Type} [Field K] [LinearOrder K]

/-- Options of Newton (`newton.py:49-62`, `err_on_maxiter` of the base class). -/
structure NewtonOpts (K : Type) where
  atol : K
  rtol : K
  utol : K
  maxiter : Nat
  errOnMaxiter : Bool := false

/-- What Newton sees of the system, `S` being the state of the model. -/
structure NewtonSys (K S : Type) where
  /-- initial `children_solve_nonlinear`, `apply_nonlinear` (`newton.py:158-159`) -/
  init : S → Except PyErr S
  /-- `resids.norm()` -/
  rnorm : S → Flt K
  /-- linearise, linear solve, bounded step, evaluate (`newton.py:183-228`); may raise anywhere -/
  step : S → Except PyErr S
  /-- `np.linalg.norm(unknowns.vec - unknowns_cache)`: new, old -/
  unorm : S → S → Flt K
  /-- optional line search: base state, base norm, current state, current norm -/
  ls : Option (S → Flt K → S → Flt K → Except PyErr (S × Flt K))

/-- Local variables of `solve`; `linSolves` counts the linear solves, `typ` is the derivative type of the system. Serves `newtonBody` (`newton.py:183-242`). -/
structure NewtonState (K S : Type) where
  s : S
  iter : Nat
  norm : Flt K
  unorm : Flt K
  linSolves : Nat
  typ : String

/-- How a Newton solve ends; an exception carries the derivative type left behind. Serves `newtonFinish` (`newton.py:251-268`). -/
inductive NewtonOut (K S : Type) where
  | converged (st : NewtonState K S)
  | failed (st : NewtonState K S)
  | analysisError (st : NewtonState K S)
  | raised (e : PyErr) (typ : String)
  | diverged

variable {S : Type}

/-- The tolerance tests of the loop (`newton.py:180-181`). -/
def newtonUnconverged (o : NewtonOpts K) (norm0 norm unorm : Flt K) : Bool :=
  norm.gt (.fin o.atol) && (norm.div norm0).gt (.fin o.rtol) && unorm.gt (.fin o.utol)

/-- The line search call (`newton.py:239-242`): `f_norm` is replaced, `u_norm` is not. -/
def newtonLS (sys : NewtonSys K S) (base : S) (baseNorm : Flt K) (s : S) : Except PyErr (S × Flt K) :=
  match sys.ls with
  | none => .ok (s, sys.rnorm s)
  | some f => f base baseNorm s (sys.rnorm s)

/-- Body of the loop (`newton.py:183-242`). -/
def newtonBody (sys : NewtonSys K S) (st : NewtonState K S) : Except PyErr (NewtonState K S) :=
  match sys.step st.s with
  | .error e => .error e
  | .ok s' =>
    match newtonLS sys st.s st.norm s' with
    | .error e => .error e
    | .ok (s'', f) =>
      .ok { st with s := s'', iter := st.iter + 1, norm := f, unorm := sys.unorm s' st.s, linSolves := st.linSolves + 1 }

/-- After the loop (`newton.py:251-268`): the derivative type is restored, then the verdict. -/
def newtonFinish (o : NewtonOpts K) (saveTyp : String) (st : NewtonState K S) : NewtonOut K S :=
  if decide (o.maxiter ≤ st.iter) || st.norm.isnan then
    (if o.errOnMaxiter then .analysisError { st with typ := saveTyp } else .failed { st with typ := saveTyp })
  else .converged { st with typ := saveTyp }

/-- The while loop (`newton.py:180-242`). -/
def newtonLoop (o : NewtonOpts K) (sys : NewtonSys K S) (saveTyp : String) (norm0 : Flt K) :
    Nat → NewtonState K S → NewtonOut K S
  | fuel, st =>
    if decide (st.iter < o.maxiter) && newtonUnconverged o norm0 st.norm st.unorm then
      match fuel with
      | 0 => .diverged
      | fuel + 1 =>
        match newtonBody sys st with
        | .error e => .raised e st.typ
        | .ok st' => newtonLoop o sys saveTyp norm0 fuel st'
    else newtonFinish o saveTyp st

/-- State when the loop is entered (`newton.py:149-178`): the derivative type has been set to 'user'. `1.0e99` is
written `.pinf`. -/
def newtonInit (sys : NewtonSys K S) (s : S) : NewtonState K S :=
  { s := s, iter := 0, norm := sys.rnorm s, unorm := .pinf, linSolves := 0, typ := "user" }

/-- `Newton.solve` (`newton.py:118-268`) on a system with derivative type `typ`. -/
def newtonSolve (o : NewtonOpts K) (sys : NewtonSys K S) (typ : String) (fuel : Nat) (s : S) : NewtonOut K S :=
  match sys.init s with
  | .error e => .raised e typ
  | .ok s' => newtonLoop o sys typ (sys.rnorm s') fuel (newtonInit sys s')

/-! ## Backtracking -/

/-- Options of the line search (`backtracking.py:36-46`). -/
structure BTOpts (K : Type) where
  maxiter : Nat
  rho : K
  c : K
  errOnMaxiter : Bool := false

/-- Variables of the line search; `alpha` is `ls_alpha`. Serves `btFinish` (`backtracking.py:145-167`). -/
structure BTState (K S : Type) where
  s : S
  iter : Nat
  alpha : K
  fnorm : Flt K

/-- How a line search ends. Serves `btFinish` (`backtracking.py:145-167`). -/
inductive BTOut (K S : Type) where
  | converged (st : BTState K S)
  | failed (st : BTState K S)
  | analysisError (st : BTState K S)
  | raised (e : PyErr)
  | diverged

/-- `(base_norm - fnorm) < c*ls_alpha*base_norm`. Serves `btLoop` (`backtracking.py:112-139`). -/
def btInsufficient (o : BTOpts K) (baseNorm : Flt K) (st : BTState K S) : Bool :=
  (baseNorm.sub st.fnorm).lt ((Flt.fin (o.c * st.alpha)).mul baseNorm)

/-- After the loop (`backtracking.py:145-167`). -/
def btFinish (o : BTOpts K) (st : BTState K S) : BTOut K S :=
  if decide (o.maxiter ≤ st.iter) || st.fnorm.isnan then
    (if o.errOnMaxiter then .analysisError st else .failed st)
  else .converged st

/-- The loop (`backtracking.py:112-139`); `evalAt a` is the model evaluated at the base point plus the limited step
of length `a` along the Newton direction. -/
def btLoop (o : BTOpts K) (evalAt : K → Except PyErr S) (rnorm : S → Flt K) (baseNorm : Flt K) :
    Nat → BTState K S → BTOut K S
  | fuel, st =>
    if decide (st.iter < o.maxiter) && btInsufficient o baseNorm st then
      match fuel with
      | 0 => .diverged
      | fuel + 1 =>
        match evalAt (st.alpha * o.rho) with
        | .error e => .raised e
        | .ok s' => btLoop o evalAt rnorm baseNorm fuel
            { s := s', iter := st.iter + 1, alpha := st.alpha * o.rho, fnorm := rnorm s' }
    else btFinish o st

/-- `BackTracking.solve` (`backtracking.py:51-167`). -/
def btSolve (o : BTOpts K) (evalAt : K → Except PyErr S) (rnorm : S → Flt K) (alpha0 : K) (baseNorm : Flt K) (fuel : Nat)
    (s : S) (fnorm : Flt K) : BTOut K S :=
  btLoop o evalAt rnorm baseNorm fuel { s := s, iter := 0, alpha := alpha0, fnorm := fnorm }

/-! ## Newton with backtracking -/

/-- What Newton with a `BackTracking` line search sees of the system: `V` are step directions. -/
structure NewtonBTSys (K S V : Type) where
  init : S → Except PyErr S
  rnorm : S → Flt K
  unorm : S → S → Flt K
  /-- linearise and solve for the step (`newton.py:183-191`) -/
  dir : S → Except PyErr V
  /-- `unknowns.vec = base + alpha*result`, `alpha` being limited by the bounds, then evaluate the model
  (`newton.py:204-228`, `backtracking.py:119-134`) -/
  move : S → V → K → Except PyErr S

/-- What `ls.solve` hands back: the final state and norm, or an exception. Serves `NewtonBTSys.toNewton` (`newton.py:183-242`). -/
def BTOut.result {K S : Type} : BTOut K S → Except PyErr (S × Flt K)
  | .converged st => .ok (st.s, st.fnorm)
  | .failed st => .ok (st.s, st.fnorm)
  | .analysisError _ => .error .AnalysisError
  | .raised e => .error e
  | .diverged => .error .StopIteration

/-- The system `newtonSolve` works on when the line search is `BackTracking` (`newton.py:183-242`, `alpha_scalar` is the
`alpha` option of Newton). The direction is still held by `dumat` during the line search; here it is computed again from the
same base state. The fuel given to the line search is its `maxiter`, which suffices (`C27_terminates`). -/
def NewtonBTSys.toNewton {V : Type} (B : NewtonBTSys K S V) (o : BTOpts K) (alpha0 : K) : NewtonSys K S where
  init := B.init
  rnorm := B.rnorm
  unorm := B.unorm
  step := fun s => match B.dir s with
    | .error e => .error e
    | .ok d => B.move s d alpha0
  ls := some fun base baseNorm s fnorm => match B.dir base with
    | .error e => .error e
    | .ok d => (btSolve o (B.move base d) B.rnorm alpha0 baseNorm o.maxiter s fnorm).result

/-! ## Step limit -/

/-- A variable of the unknowns vector as `distance_along_vector_to_limit` sees it: `hasSkipKey` says that its metadata
has a `remote` or `pass_by_obj` entry (whatever its value); `vals` and `du` are its flat values and steps. Only scalars
and 1-D arrays are modelled. Serves `stepLimit` (`vec_wrapper.py:871-968`). -/
structure StepVar (K : Type) where
  hasSkipKey : Bool := false
  lower : Option (NumArr K)
  upper : Option (NumArr K)
  vals : List K
  du : List K

/-- Entry `j` of a bound after broadcasting against the value (a bound array of another size raises in numpy; the
theorems assume matching sizes). Serves `stepLimit` (`vec_wrapper.py:871-968`). -/
def bdEntry (b : NumArr K) (j : Nat) : Option K :=
  match b with
  | .s x => some x
  | .a l => l[j]?

/-- `elif new_val >= 0.0: if new_val < alpha: alpha = new_val`. Serves `limitUpper` (`vec_wrapper.py:904-932`). -/
def limitBy (bound alpha : Flt K) : Flt K :=
  if bound.ge (.fin 0) then (if bound.lt alpha then bound else alpha) else alpha

/-- Upper bound, one element (`vec_wrapper.py:904-932`). -/
def limitUpper (upper : Option K) (val du : K) (alpha : Flt K) : Flt K :=
  match upper with
  | none => alpha
  | some u =>
    if u - val < 0 then (Flt.fin (u - val)).div (.fin du)
    else limitBy ((Flt.fin (u - val)).div (.fin du)) alpha

/-- Lower bound, one element (`vec_wrapper.py:934-962`). -/
def limitLower (lower : Option K) (val du : K) (alpha : Flt K) : Flt K :=
  match lower with
  | none => alpha
  | some l =>
    if 0 < l - val then (Flt.fin (l - val)).div (.fin du)
    else limitBy ((Flt.fin (l - val)).div (.fin du)) alpha

/-- All elements of one variable from element `j` on: upper then lower bound (each element of `alpha` is only changed by
the same element of the variable, so the two loops of the code may be interleaved). Serves `stepLimit` (`vec_wrapper.py:871-968`). -/
def limitVar (lower upper : Option (NumArr K)) : Nat → List K → List K → List (Flt K) → List (Flt K)
  | j, v :: vs, d :: ds, a :: as =>
    limitLower (lower.bind (bdEntry · j)) v d (limitUpper (upper.bind (bdEntry · j)) v d a) ::
      limitVar lower upper (j + 1) vs ds as
  | _, _, _, as => as

/-- `distance_along_vector_to_limit` (`vec_wrapper.py:871-968`): the variables occupy consecutive parts of the vector
(C05). -/
def stepLimit : List (StepVar K) → List (Flt K) → List (Flt K)
  | [], as => as
  | v :: vs, as =>
    (if v.hasSkipKey then as.take v.vals.length else limitVar v.lower v.upper 0 v.vals v.du (as.take v.vals.length)) ++
      stepLimit vs (as.drop v.vals.length)

end OpenMDAO
