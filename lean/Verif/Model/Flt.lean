import Mathlib.Algebra.Order.Field.Basic
/-!
# Floats with NaN and infinities

Nothing here models `/repo` code: this is the part of IEEE arithmetic the solver loops rely on. Finite values are
elements of a linearly ordered field (no rounding, no signed zero, no overflow); NaN and the infinities follow
IEEE 754 and python's comparison operators (every comparison with NaN is false).
-/
namespace OpenMDAO

variable {K : Type} [Field K] [LinearOrder K]

/-- A float: a finite number, an infinity or NaN. Floats of python and numpy, not code of /repo; serves the convergence tests of `nl_gauss_seidel.py:135-138` and `newton.py:180-181`. -/
inductive Flt (K : Type) where
  | nan | pinf | ninf
  | fin (x : K)
  deriving DecidableEq, Repr

namespace Flt

/-- python `x < y`. Not code of /repo. -/
def lt : Flt K → Flt K → Bool
  | .nan, _ => false
  | _, .nan => false
  | .fin x, .fin y => decide (x < y)
  | .fin _, .pinf => true
  | .ninf, .fin _ => true
  | .ninf, .pinf => true
  | _, _ => false

/-- python `x > y`. Not code of /repo. -/
def gt (x y : Flt K) : Bool := y.lt x

/-- python `x >= y`. Not code of /repo. -/
def ge : Flt K → Flt K → Bool
  | .nan, _ => false
  | _, .nan => false
  | .fin x, .fin y => decide (y ≤ x)
  | .pinf, _ => true
  | _, .ninf => true
  | _, _ => false

/-- `math.isnan` / `numpy.isnan`. Not code of /repo; used at `nl_gauss_seidel.py:203`. -/
def isnan : Flt K → Bool
  | .nan => true
  | _ => false

/-- IEEE division. Not code of /repo. -/
def div : Flt K → Flt K → Flt K
  | .nan, _ => .nan
  | _, .nan => .nan
  | .fin x, .fin y => if y = 0 then (if x = 0 then .nan else if 0 < x then .pinf else .ninf) else .fin (x / y)
  | .fin _, _ => .fin 0
  | .pinf, .fin y => if y < 0 then .ninf else .pinf
  | .ninf, .fin y => if y < 0 then .pinf else .ninf
  | _, _ => .nan

/-- IEEE negation. Not code of /repo. -/
def neg : Flt K → Flt K
  | .nan => .nan
  | .pinf => .ninf
  | .ninf => .pinf
  | .fin x => .fin (-x)

/-- IEEE addition. Not code of /repo. -/
def add : Flt K → Flt K → Flt K
  | .nan, _ => .nan
  | _, .nan => .nan
  | .fin x, .fin y => .fin (x + y)
  | .fin _, y => y
  | x, .fin _ => x
  | .pinf, .pinf => .pinf
  | .ninf, .ninf => .ninf
  | _, _ => .nan

/-- IEEE subtraction. Not code of /repo. -/
def sub (x y : Flt K) : Flt K := x.add y.neg

/-- an infinity with the sign of `s`, NaN for `s = 0`. Not code of /repo. -/
def infSign (s : K) : Flt K := if s = 0 then .nan else if 0 < s then .pinf else .ninf

/-- IEEE multiplication. Not code of /repo. -/
def mul : Flt K → Flt K → Flt K
  | .nan, _ => .nan
  | _, .nan => .nan
  | .fin x, .fin y => .fin (x * y)
  | .fin x, .pinf => infSign x
  | .fin x, .ninf => infSign (-x)
  | .pinf, .fin x => infSign x
  | .ninf, .fin x => infSign (-x)
  | .pinf, .pinf => .pinf
  | .ninf, .ninf => .pinf
  | _, _ => .ninf

/-- python `min(x, y)`: `y` if `y < x` else `x`. Not code of /repo; used at `nl_gauss_seidel.py:179`. -/
def pyMin (x y : Flt K) : Flt K := if y.lt x then y else x

/-- python `max(x, y)`: `y` if `y > x` else `x`. Not code of /repo; used at `nl_gauss_seidel.py:178`. -/
def pyMax (x y : Flt K) : Flt K := if y.gt x then y else x

end Flt
end OpenMDAO
