import Verif.Model.ResponseSurface
/-!
# Model of the training of a response surface

`ResponseSurface.train` (`openmdao/surrogate_models/response_surface.py:19-55`): the matrix of regressors, built by assignments to slices of its columns, and the call of `lstsq`. All assignments treat the rows alike, so a row is
built at a time. One response column, as in `ResponseSurface`. `lstsq` is a parameter; its first argument is the number of columns of the matrix. Numbers are exact.
-/
namespace OpenMDAO

variable {K : Type} [CommRing K]

/-- `row[off:off+len(vs)] = vs`, for a slice that fits. Serves `designRow` (`response_surface.py:34-52`). -/
def rowSet (row : List K) (off : Nat) (vs : List K) : List K := row.take off ++ vs ++ row.drop (off + vs.length)

/-- One turn of the loop over the inputs (`response_surface.py:47-52`): `x[i] * x[i:]` goes to `X_offset[:n - i]`, and `X_offset` moves on by `n - i`. The state is the row and the start of `X_offset`. -/
def quadStep (x : List K) (st : List K × Nat) (i : Nat) : List K × Nat :=
  (rowSet st.1 st.2 ((x.drop i).map (x.getD i 0 * ·)), st.2 + (x.length - i))

/-- The row of `X` for one training point (`response_surface.py:34-52`). -/
def designRow (x : List K) : List K :=
  ((List.range x.length).foldl (quadStep x) (rowSet (rowSet (List.replicate (numTerms x.length) 0) 0 [1]) 1 x, x.length + 1)).1

/-- `ResponseSurface.train` (`response_surface.py:19-55`, `surrogate_model.py:11-14`) for `n` inputs and the training points `xs`. `trained` and `n` are set before `lstsq` is called; that raises for a wrong number of responses. -/
def respTrain (lstsq : Nat → List (List K) → List K → List K) (s : RespSurf K) (n : Nat) (xs : List (List K)) (y : List K) : RespSurf K × Except PyErr Unit :=
  if xs.length = y.length then (⟨true, n, lstsq (numTerms n) (xs.map designRow) y⟩, .ok ())
  else (⟨true, n, s.betas⟩, .error .ValueError)

end OpenMDAO
