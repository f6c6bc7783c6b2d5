import Verif.Model.Flt
import Verif.Model.Numpy
/-!
# Model of `openmdao/solvers/nl_gauss_seidel.py`

The model being solved is a parameter (`NLSys`): running it, its residual norm and the vector operations used by
Aitken relaxation are arbitrary functions; every theorem holds for all of them. Printing and recording are not
modelled. Loops carry fuel; running out of fuel is the explicit outcome `diverged`, so that termination is a
theorem and not an artefact of the model.
-/
namespace OpenMDAO

variable {K : Type} [Field K] [LinearOrder K]

/-- Options of the solver (`nl_gauss_seidel.py:47-60` and `err_on_maxiter` of the base class). -/
structure NLOpts (K : Type) where
  atol : K
  rtol : K
  utol : K
  maxiter : Nat
  useAitken : Bool := false
  alphaMin : K
  alphaMax : K
  errOnMaxiter : Bool := false

/-- What the solver sees of the system: `S` is the state of the model, `D` the type of changes of the unknowns. Serves `NLSys.sweep` (`nl_gauss_seidel.py:115,127`). -/
structure NLSys (K S D : Type) where
  /-- `children_solve_nonlinear` -/
  run : S → Except PyErr S
  /-- `apply_nonlinear` -/
  resid : S → Except PyErr S
  /-- `resids.norm()` -/
  rnorm : S → Flt K
  /-- `unknowns.vec - unknowns_cache` -/
  delta : S → S → D
  /-- `np.linalg.norm` -/
  dnorm : D → Flt K
  /-- `1. - np.dot(d_n - d_n_1, d_n)/np.linalg.norm(d_n - d_n_1, 2)**2` -/
  factor : D → D → Flt K
  /-- `unknowns.vec[:] = unknowns_cache + alpha*delta_u_n`, arguments: cache, current, alpha, delta -/
  relax : S → S → Flt K → D → S

/-- `children_solve_nonlinear` then `apply_nonlinear` (`nl_gauss_seidel.py:115,127` and `146,150`). -/
def NLSys.sweep {K S D : Type} (sys : NLSys K S D) (s : S) : Except PyErr S :=
  match sys.run s with
  | .error e => .error e
  | .ok s0 => sys.resid s0

/-- Local and persistent variables of `solve`; `sweeps` counts the runs of the model and `alphas` lists the
relaxation factors applied (ghost variables). Serves `aitkenRelax` (`nl_gauss_seidel.py:169-187`). -/
structure NLState (K S D : Type) where
  s : S
  iter : Nat
  norm : Flt K
  unorm : Flt K
  alpha : Flt K
  dprev : Option D
  sweeps : Nat
  alphas : List (Flt K)

/-- How a solve ends. Serves `nlFinish` (`nl_gauss_seidel.py:203-218`). -/
inductive NLOut (K S D : Type) where
  /-- `maxiter == 1`: return after the initial run without any check -/
  | quiet (st : NLState K S D)
  /-- message 'Converged in …' -/
  | converged (st : NLState K S D)
  /-- message 'FAILED to converge after …', normal return -/
  | failed (st : NLState K S D)
  /-- `AnalysisError` because of `err_on_maxiter` -/
  | analysisError (st : NLState K S D)
  /-- an exception raised by the model -/
  | raised (e : PyErr)
  /-- out of fuel -/
  | diverged

variable {S D : Type}

/-- The three tolerance tests shared by the loop and the Aitken branch (`nl_gauss_seidel.py:136-138,165-167`):
true if the solver has to go on. -/
def nlUnconverged (o : NLOpts K) (basenorm norm unorm : Flt K) : Bool :=
  norm.gt (.fin o.atol) && (norm.div basenorm).gt (.fin o.rtol) && unorm.gt (.fin o.utol)

/-- The new relaxation factor (`nl_gauss_seidel.py:173-179`). -/
def aitkenAlpha (o : NLOpts K) (sys : NLSys K S D) (alpha : Flt K) (d d1 : D) : Flt K :=
  Flt.pyMax (.fin o.alphaMin) (Flt.pyMin (.fin o.alphaMax) (alpha.mul (sys.factor d d1)))

/-- Relaxed update (`nl_gauss_seidel.py:169-187`). -/
def aitkenRelax (o : NLOpts K) (sys : NLSys K S D) (cache : S) (st : NLState K S D) (d1 : D) : NLState K S D :=
  { st with
    alpha := aitkenAlpha o sys st.alpha (sys.delta st.s cache) d1
    dprev := some (sys.delta st.s cache)
    s := sys.relax cache st.s (aitkenAlpha o sys st.alpha (sys.delta st.s cache) d1) (sys.delta st.s cache)
    alphas := st.alphas ++ [aitkenAlpha o sys st.alpha (sys.delta st.s cache) d1] }

/-- The Aitken branch (`nl_gauss_seidel.py:154-192`), `cache` being the state before the sweep. -/
def aitken (o : NLOpts K) (sys : NLSys K S D) (basenorm : Flt K) (cache : S) (st : NLState K S D) : NLState K S D :=
  match o.useAitken, st.dprev, nlUnconverged o basenorm st.norm st.unorm with
  | false, _, _ => st
  | true, some d1, true => aitkenRelax o sys cache st d1
  | true, some _, false => st
  | true, none, _ => { st with dprev := some (sys.delta st.s cache) }

/-- Body of the while loop (`nl_gauss_seidel.py:141-192`). -/
def nlBody (o : NLOpts K) (sys : NLSys K S D) (basenorm : Flt K) (st : NLState K S D) : Except PyErr (NLState K S D) :=
  match sys.sweep st.s with
  | .error e => .error e
  | .ok s' => .ok (aitken o sys basenorm st.s
      { st with s := s', iter := st.iter + 1, sweeps := st.sweeps + 1, norm := sys.rnorm s',
                unorm := sys.dnorm (sys.delta s' st.s) })

/-- After the loop (`nl_gauss_seidel.py:203-218`). -/
def nlFinish (o : NLOpts K) (st : NLState K S D) : NLOut K S D :=
  if decide (o.maxiter ≤ st.iter) || st.norm.isnan then
    (if o.errOnMaxiter then .analysisError st else .failed st)
  else .converged st

/-- The while loop (`nl_gauss_seidel.py:135-192`). -/
def nlLoop (o : NLOpts K) (sys : NLSys K S D) (basenorm : Flt K) : Nat → NLState K S D → NLOut K S D
  | fuel, st =>
    if decide (st.iter < o.maxiter) && nlUnconverged o basenorm st.norm st.unorm then
      match fuel with
      | 0 => .diverged
      | fuel + 1 =>
        match nlBody o sys basenorm st with
        | .error e => .raised e
        | .ok st' => nlLoop o sys basenorm fuel st'
    else nlFinish o st

/-- `basenorm = normval if normval > atol else 1.0`. Serves `nlSolve` (`nl_gauss_seidel.py:78-218`). -/
def nlBase (o : NLOpts K) (norm : Flt K) : Flt K := if norm.gt (.fin o.atol) then norm else .fin 1

/-- State after the initial run (`nl_gauss_seidel.py:107-130`); with `maxiter == 1` the residuals are not evaluated and the
norm of the state is that of the residuals found, which is not read. `1.0e99` is written `.pinf`, which only matters
against a `utol` of at least 1e99. `alpha`, `dprev` persist on the solver object between solves. -/
def nlInit (sys : NLSys K S D) (alpha : Flt K) (dprev : Option D) (s' : S) : NLState K S D :=
  { s := s', iter := 1, norm := sys.rnorm s', unorm := .pinf, alpha := alpha, dprev := dprev, sweeps := 1, alphas := [] }

/-- `NLGaussSeidel.solve` (`nl_gauss_seidel.py:78-218`). -/
def nlSolve (o : NLOpts K) (sys : NLSys K S D) (fuel : Nat) (alpha : Flt K) (dprev : Option D) (s : S) : NLOut K S D :=
  match sys.run s with
  | .error e => .raised e
  | .ok s0 =>
    if o.maxiter = 1 then .quiet (nlInit sys alpha dprev s0)
    else
      match sys.resid s0 with
      | .error e => .raised e
      | .ok s' => nlLoop o sys (nlBase o (sys.rnorm s')) fuel (nlInit sys alpha dprev s')

end OpenMDAO
