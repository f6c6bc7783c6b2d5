import Verif.Model.Numpy
import Mathlib.Algebra.Order.Field.Basic
/-!
# Model of `MultiFiCoKriging._check_params` (`openmdao/surrogate_models/multifi_cokriging.py:761-817`)

Each argument is an array of one row, written as a list, or missing. Numbers are those of an ordered field, not floating point numbers. What the method has
already stored when it raises an exception is left out, and so are arguments that cannot be made into arrays.
-/
namespace OpenMDAO

section
variable {K : Type} [Field K] [LinearOrder K]

/-- The arguments for one level: `theta`, `theta0`, `thetaL`, `thetaU` (`multifi_cokriging.py:293-302`). -/
structure CkArgs (K : Type) where
  theta : Option (List K)
  theta0 : Option (List K)
  thetaL : Option (List K)
  thetaU : Option (List K)

/-- What is stored for one level: `theta0`, `thetaL`, `thetaU` (`multifi_cokriging.py:790-811`). -/
structure CkStart (K : Type) where
  theta0 : List K
  thetaL : List K
  thetaU : List K
  deriving DecidableEq

/-- `np.any(x <= 0)` (`multifi_cokriging.py:785`, `791`, `813`). -/
def anyNonPos (x : List K) : Bool := x.any fun a => decide (a ≤ 0)

/-- `np.any(u < l)` with broadcasting of a single number; none if the shapes do not fit (`multifi_cokriging.py:813`). -/
def anyLess (u l : List K) : Option Bool :=
  if u.length = l.length then some ((u.zip l).any fun p => decide (p.1 < p.2))
  else match u, l with
    | [a], l => some (l.any fun b => decide (a < b))
    | u, [b] => some (u.any fun a => decide (a < b))
    | _, _ => none

/-- The check of an argument that may be missing and must be positive (`multifi_cokriging.py:783-786`). -/
def posArg : Option (List K) → Bool
  | none => true
  | some x => !anyNonPos x

/-- The check of the length of a bound that may be missing (`multifi_cokriging.py:797-801`, `805-809`). -/
def lenArg (n : Nat) : Option (List K) → Bool
  | none => true
  | some x => x.length == n

/-- The checks of one level (`multifi_cokriging.py:781-815`); `nf` is the number of inputs. -/
def ckCheckLevel (nf : Nat) (A : CkArgs K) : Except PyErr (CkStart K) :=
  if !posArg A.theta then .error .ValueError
  else if !posArg A.theta0 then .error .ValueError
  else
    let t0 := A.theta0.getD (List.replicate nf (1 / 2))
    if !lenArg t0.length A.thetaL then .error .ValueError
    else
      let l := A.thetaL.getD (List.replicate nf (1 / 100000))
      if !lenArg t0.length A.thetaU then .error .ValueError
      else
        let u := A.thetaU.getD (List.replicate nf 50)
        if anyNonPos l || anyLess u l != some false then .error .ValueError
        else .ok ⟨t0, l, u⟩

/-- All levels (`multifi_cokriging.py:781`). -/
def ckCheckLevels (nf : Nat) : List (CkArgs K) → Except PyErr (List (CkStart K))
  | [] => .ok []
  | A :: As => match ckCheckLevel nf A with
    | .error e => .error e
    | .ok r => match ckCheckLevels nf As with
      | .error e => .error e
      | .ok rs => .ok (r :: rs)

end
end OpenMDAO
