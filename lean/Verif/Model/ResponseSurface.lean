import Verif.Model.Numpy
import Verif.Spec.Common
/-!
# Model of the response surface surrogate (`openmdao/surrogate_models/response_surface.py`)

One response column: `betas` is a matrix with one column per response, and both functions treat its columns independently
(`X.dot(betas)`, `jac[i,:] += …`), so a column is modelled as the list of its coefficients.
-/
namespace OpenMDAO

variable {K : Type} [CommRing K]

/-- State of a `ResponseSurface`: `self.trained`, `self.n` (number of inputs) and one column of `self.betas`. Serves `respPredict` (`response_surface.py:57-89`). -/
structure RespSurf (K : Type) where
  trained : Bool
  n : Nat
  betas : List K

/-- The quadratic block of `X` (`response_surface.py:83-86`, also `49-55`): `x[i] * x[i:]` for every `i`, one after the other. The
recursion goes over the suffixes `x[i:]`. -/
def quadTerms : List K → List K
  | [] => []
  | a :: t => (a :: t).map (a * ·) ++ quadTerms t

/-- Number of coefficients, `((n + 1) * (n + 2)) // 2` (`response_surface.py:72`). -/
def numTerms (n : Nat) : Nat := (n + 1) * (n + 2) / 2

/-- The regressor row `X` of `predict` (`response_surface.py:70-86`): a zero array of `numTerms self.n` cells into which the
constant, the inputs and the quadratic block are written from the left. A point with too many entries does not fit:
ValueError (simplified: for `self.n = 0` numpy would broadcast a single entry into an empty slice). -/
def regressors (n : Nat) (x : List K) : Except PyErr (List K) :=
  if x.length ≤ n then
    .ok (1 :: x ++ quadTerms x ++ List.replicate (numTerms n - numTerms x.length) 0)
  else .error .ValueError

/-- `ResponseSurface.predict` (`response_surface.py:57-89`): RuntimeError before training (`surrogate_model.py:16-20`); `X.dot(betas)`
is a ValueError when the lengths differ. -/
def respPredict (s : RespSurf K) (x : List K) : Except PyErr K :=
  if s.trained = false then .error .RuntimeError
  else match regressors s.n x with
    | .error e => .error e
    | .ok X => if X.length = s.betas.length then .ok (dot X s.betas) else .error .ValueError

/-- The loop of `linearize` (`response_surface.py:107-110`). The arguments are the suffixes `x[i:]`, `jac[i:]` and `beta_offset`: the
entry `jac[i]` receives `x[i:].dot(beta_offset[:n-i])` and `x[i] * beta_offset[0]`, the entries behind it receive
`x[i] * beta_offset[1:n-i]`, and `beta_offset` moves on by `n-i`. -/
def linLoop : List K → List K → List K → List K
  | a :: t, j :: js, off =>
    let m := t.length + 1
    let blk := off.take m
    (j + dot (a :: t) blk + a * blk.headD 0) ::
      linLoop t (List.zipWith (fun u b => u + a * b) js blk.tail) (off.drop m)
  | _, js, _ => js

/-- `ResponseSurface.linearize` (`response_surface.py:91-112`): the row of the Jacobian for this response. A point with the wrong
number of entries makes the array operations fail (simplified to ValueError for both directions). There is no check of
`trained`; before training `betas` is one-dimensional and `betas[1:n+1, :]` is an IndexError. -/
def respLinearize (s : RespSurf K) (x : List K) : Except PyErr (List K) :=
  if s.trained = false then .error .IndexError
  else if x.length = s.n then
    .ok (linLoop x ((s.betas.drop 1).take s.n) (s.betas.drop (s.n + 1)))
  else .error .ValueError

end OpenMDAO
