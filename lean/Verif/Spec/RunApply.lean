import Verif.Model.RunApply
/-! Specification of the residuals of a model. -/
namespace OpenMDAO

/-- What component `i` would get if its params were transferred now: the unknowns of its sources, and the initial values of params without a source. -/
def nowArgs {V : Type} (m : RModel V) (s : RState V) (i : Nat) : Nat → V := fun j => if j ∈ m.src i then s.u j else s.p i j

/-- The residual of component `i` at the present unknowns: new output minus output, or what the component defines. -/
def trueResid {V : Type} [Sub V] (m : RModel V) (s : RState V) (i : Nat) : V :=
  match m.kind i with
  | .explicit f => f (nowArgs m s i) - s.u i
  | .implicit _ R => R (nowArgs m s i) (s.u i)

/-- No component is connected to itself, and all sources are in the tree. -/
def RModel.Plain {V : Type} (m : RModel V) (order : List Nat) : Prop := ∀ i ∈ order, ∀ j ∈ m.src i, j ≠ i ∧ j ∈ order

/-- A solver after which the model has been run at the unknowns it returns: no relaxation, and Newton's method with `solve_subsystems`. -/
def RSolver.Runs {V : Type} : RSolver V → Prop
  | .runOnce => True
  | .nlgs _ _ relax => relax = none
  | .newton _ _ _ sub => sub = true

mutual
/-- All solvers of a tree do. -/
def RTree.Runs {V : Type} : RTree V → Prop
  | .comp _ => True
  | .group sol cs => sol.Runs ∧ runsL cs
/-- The same for a list. -/
def runsL {V : Type} : List (RTree V) → Prop
  | [] => True
  | t :: ts => t.Runs ∧ runsL ts
end

/-- A solver that looks at the residuals. -/
def RSolver.Evaluates {V : Type} : RSolver V → Prop
  | .runOnce => False
  | .nlgs maxiter _ _ => maxiter ≠ 1
  | .newton _ _ _ _ => True

end OpenMDAO
