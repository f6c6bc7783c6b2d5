import Verif.Model.Numpy
import Mathlib.Algebra.Order.Field.Basic
import Mathlib.Algebra.Order.Group.Unbundled.Abs
/-!
# Model of the Brent solver

`openmdao/solvers/brent.py:84-220`. The containing system is a state `σ` with an operation that stores a value in the state variable, runs the children and evaluates the residuals (`_eval`, lines 199-220) and returns the residual
of the state variable; it may raise at any time. `scipy.optimize.brentq` is not part of the repository; its C loop (`scipy/optimize/Zeros/brentq.c`, with the tolerance `xtol + rtol |x|`; later versions use half of it) is modelled here over an ordered field. The tolerances are those that reach `brentq` (a zero option leaves the default of scipy, `brent.py:164-167`). Recording, printing and the iteration coordinates are left out.
-/
namespace OpenMDAO

section
variable {K σ : Type} [Field K] [LinearOrder K]

/-- A call of the residual function: the state afterwards and the value or the exception. Serves `brentSolve` (`brent.py:123-208`). -/
abbrev EvalAt (σ K : Type) := σ → K → σ × Except PyErr K

/-- The variables of the loop of `brentq`: previous and current point, the other end of the bracket with their residuals, and the last two steps. Serves `brentSolve` (`brent.py:123-208`). -/
structure BrentVars (K : Type) where
  xpre : K
  fpre : K
  xcur : K
  fcur : K
  xblk : K
  fblk : K
  spre : K
  scur : K

/-- The first statement of the loop: a new bracket if the sign has changed. Serves `brentSolve` (`brent.py:123-208`). -/
def BrentVars.bracket (v : BrentVars K) : BrentVars K :=
  if v.fpre * v.fcur < 0 then { v with xblk := v.xpre, fblk := v.fpre, spre := v.xcur - v.xpre, scur := v.xcur - v.xpre } else v

/-- The second statement: the end with the smaller residual becomes the current point. Serves `brentSolve` (`brent.py:123-208`). -/
def BrentVars.best (v : BrentVars K) : BrentVars K :=
  if |v.fblk| < |v.fcur| then { v with xpre := v.xcur, xcur := v.xblk, xblk := v.xcur, fpre := v.fcur, fcur := v.fblk, fblk := v.fcur } else v

/-- The trial step: the secant through the ends of the bracket, or the extrapolation through three points. Serves `brentSolve` (`brent.py:123-208`). -/
def brentTrial (v : BrentVars K) : K :=
  if v.xpre = v.xblk then -v.fcur * (v.xcur - v.xpre) / (v.fcur - v.fpre)
  else
    let dpre := (v.fpre - v.fcur) / (v.xpre - v.xcur)
    let dblk := (v.fblk - v.fcur) / (v.xblk - v.xcur)
    let stry := -v.fcur * (v.fblk * dblk - v.fpre * dpre) / (dblk * dpre * (v.fblk - v.fpre))
    stry

/-- The choice between the trial step and bisection. Serves `brentSolve` (`brent.py:123-208`). -/
def BrentVars.choose (v : BrentVars K) (tol : K) : BrentVars K :=
  let sbis := (v.xblk - v.xcur) / 2
  if tol < |v.spre| ∧ |v.fcur| < |v.fpre| ∧ 2 * |brentTrial v| < min |v.spre| (3 * |sbis| - tol) then { v with spre := v.scur, scur := brentTrial v } else { v with spre := sbis, scur := sbis }

/-- The next point: at least `tol` away. Serves `brentSolve` (`brent.py:123-208`). -/
def BrentVars.next (v : BrentVars K) (tol : K) : K :=
  if tol < |v.scur| then v.xcur + v.scur else v.xcur + (if 0 < (v.xblk - v.xcur) / 2 then tol else -tol)

/-- The loop; the iterations left are an argument, running out of them is a `RuntimeError`. Serves `brentSolve` (`brent.py:123-208`). -/
def brentLoop (eval : EvalAt σ K) (xtol rtol : K) : Nat → BrentVars K → σ → σ × Except PyErr K
  | 0, _, s => (s, .error .RuntimeError)
  | n + 1, v, s =>
    let w := v.bracket.best
    let tol := xtol + rtol * |w.xcur|
    if w.fcur = 0 ∨ |(w.xblk - w.xcur) / 2| < tol then (s, .ok w.xcur)
    else
      let z := w.choose tol
      let x := z.next tol
      match eval s x with
      | (s1, .error e) => (s1, .error e)
      | (s1, .ok f) => brentLoop eval xtol rtol n { z with xpre := w.xcur, fpre := w.fcur, xcur := x, fcur := f } s1

/-- `brentq(f, a, b)`: both ends are evaluated, then checked. Serves `brentSolve` (`brent.py:123-208`). -/
def brentq (eval : EvalAt σ K) (xtol rtol : K) (maxiter : Nat) (a b : K) (s : σ) : σ × Except PyErr K :=
  match eval s a with
  | (s1, .error e) => (s1, .error e)
  | (s1, .ok fa) => match eval s1 b with
    | (s2, .error e) => (s2, .error e)
    | (s2, .ok fb) =>
      if 0 < fa * fb then (s2, .error .ValueError)
      else if fa = 0 then (s2, .ok a)
      else if fb = 0 then (s2, .ok b)
      else brentLoop eval xtol rtol maxiter ⟨a, fa, b, fb, 0, 0, 0, 0⟩ s2

/-- The options of the solver (`brent.py:46-78`): bounds are numbers or read from the parameters of the system (`brent.py:149-157`). -/
structure BrentOpts (σ K : Type) where
  lower : σ → K
  upper : σ → K
  xtol : K
  rtol : K
  maxiter : Nat
  errOnMaxiter : Bool

/-- `Brent.solve` (`brent.py:123-208`): the bounds are read before the initial run (`init`), every `RuntimeError` of `brentq` or of the residual function counts as a failure to converge (its message is taken not to contain
`different signs`), and the root that is returned is not used. The value tells whether `Converged` is reported. -/
def brentSolve (o : BrentOpts σ K) (init : σ → σ × Except PyErr Unit) (eval : EvalAt σ K) (s : σ) : σ × Except PyErr Bool :=
  let a := o.lower s
  let b := o.upper s
  match init s with
  | (s1, .error e) => (s1, .error e)
  | (s1, .ok _) => match brentq eval o.xtol o.rtol o.maxiter a b s1 with
    | (s2, .ok _) => (s2, .ok true)
    | (s2, .error .RuntimeError) => if o.errOnMaxiter then (s2, .error .AnalysisError) else (s2, .ok false)
    | (s2, .error e) => (s2, .error e)

end

/-- `Brent.setup` (`brent.py:85-121`): the state variable must be named; the variable of a bound is the first parameter of the system with that promoted name at the top. Parameters are pairs of name and `top_promoted_name`; names are
given without surrounding blanks. -/
def brentBound (params : List (String × String)) (opt : String) : Except PyErr (Option String) :=
  if opt = "" then .ok none
  else match params.find? fun p => p.2 = opt with
    | some p => .ok (some p.1)
    | none => .error .ValueError

/-- `Brent.setup`: the state variable must be named, the bounds are looked up (`brent.py:85-121`). -/
def brentSetup (params : List (String × String)) (stateVar varLower varUpper : String) : Except PyErr (Option String × Option String) :=
  if stateVar = "" then .error .ValueError
  else brentBound params varLower >>= fun l => brentBound params varUpper >>= fun u => .ok (l, u)

end OpenMDAO
