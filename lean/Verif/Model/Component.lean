import Verif.Model.Numpy
import Mathlib.Algebra.Field.Defs
/-!
# Model of the residual evaluation of explicit components (`openmdao/core/component.py:535-591`)

The user's `solve_nonlinear` is an arbitrary function on the unknowns (the parameters are fixed during the
call, so they are part of the function); it may raise after having changed the unknowns in any way. Following the
comment at `component.py:579-580` it does not write into the residual vector. Floating point is represented by an
arbitrary rounding function applied to the result of every addition and subtraction; `id` gives exact arithmetic.
-/
namespace OpenMDAO

/-- The unknowns of a component: the flat vector and the pass_by_obj values, which live outside of it. Serves `applyNonlinear` (`component.py:554-591`). -/
structure CUnknowns (K β : Type) where
  vec : List K
  objs : List β
  deriving DecidableEq, Repr

/-- Elementwise in-place addition / subtraction with rounding (`component.py:590-591`). Both operands are vectors of
the same VecWrapper layout, so the lengths agree. -/
def rndAdd {K : Type} [Add K] (rnd : K → K) (a b : List K) : List K := List.zipWith (fun x y => rnd (x + y)) a b

/-- A rounded difference. Serves `applyNonlinear` (`component.py:554-591`). -/
def rndSub {K : Type} [Sub K] (rnd : K → K) (a b : List K) : List K := List.zipWith (fun x y => rnd (x - y)) a b

/-- What `_sys_solve_nonlinear` does to the unknowns: `.ok u'` on return; `.error (e, u')` when the user's code raised
with the unknowns left as `u'`. Serves `applyNonlinear` (`component.py:554-591`). -/
abbrev RunComp (K β : Type) := CUnknowns K β → Except (PyErr × CUnknowns K β) (CUnknowns K β)

/-- Result of a residual evaluation: unknowns and residuals afterwards, and the exception if one was raised. Serves `applyNonlinear` (`component.py:554-591`). -/
structure ApplyOut (K β : Type) where
  unknowns : CUnknowns K β
  resids : List K
  err : Option PyErr := none
  deriving DecidableEq

/-- `Component.apply_nonlinear` (`component.py:554-591`), default implementation. `resids` is overwritten by line 583, so
its previous contents are not an argument. -/
def applyNonlinear {K β : Type} [Ring K] (rnd : K → K) (run : RunComp K β) (u : CUnknowns K β) : ApplyOut K β :=
  let r0 := u.vec.map (fun x => -x)
  match run u with
  | .error (e, u1) => ⟨u1, r0, some e⟩
  | .ok u1 =>
    let r1 := rndAdd rnd r0 u1.vec
    ⟨{ u1 with vec := rndSub rnd u1.vec r1 }, r1, none⟩

end OpenMDAO
