import Verif.Model.ApplyLinear
import Verif.Spec.Common
/-! Vocabulary of the statement C31. -/
namespace OpenMDAO

variable {K : Type} [CommRing K]

/-- Names and sizes of a derivative vector. -/
def DVec.layout (d : DVec K) : List (String × Nat) := d.map fun e => (e.1, e.2.length)

/-- Inner product of two derivative vectors of the same layout. -/
def dvDot (a b : DVec K) : K := (List.zipWith (fun x y => dot x.2 y.2) a b).sum

/-- `yᵀ J x` -/
def bil (y : List K) (J : Mat K) (x : List K) : K :=
  ∑ i ∈ Finset.range J.m, ∑ j ∈ Finset.range J.n, y.getD i 0 * J.a i j * x.getD j 0

/-- `yᵀ J x` for the variables with the given names; 0 when one of them is not in its vector. -/
def bilAt (ys : DVec K) (o : String) (J : Mat K) (xs : DVec K) (a : String) : K :=
  match ys.lookup o, xs.lookup a with
  | some y, some x => bil y J x
  | _, _ => 0

/-- Every Jacobian block has the shape (size of the unknown, size of the param or state) whenever both are present. -/
def ShapesMatch (jac : List ((String × String) × Mat K)) (states : List String) (lp lu : List (String × Nat)) : Prop :=
  ∀ e ∈ jac, ∀ m n, lu.lookup e.1.1 = some m →
    (if e.1.2 ∈ states then lu else lp).lookup e.1.2 = some n → e.2.m = m ∧ e.2.n = n

end OpenMDAO
