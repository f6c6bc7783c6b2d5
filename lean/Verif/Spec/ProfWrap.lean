import Verif.Model.ProfWrap
/-!
# Specification: the places of an object in a model
-/
namespace OpenMDAO

/-- 1 if the statement holds, else 0. -/
def oneIf (p : Prop) [Decidable p] : Nat := if p then 1 else 0

/-- In how many places a solver uses the object `o`: itself, or its recording manager if that one has recorders. -/
def ProfSolver.places (o : Nat) (s : ProfSolver) : Nat := oneIf (s.obj = o) + oneIf (s.records = true ∧ s.manager = o)

/-- In how many places of a tree the object `o` stands. -/
def ProfTree.places (o : Nat) : ProfTree → Nat
  | .comp o' => oneIf (o' = o)
  | .group o' ln nl subs => oneIf (o' = o) + ln.places o + nl.places o + (subs.map (ProfTree.places o)).sum

/-- In how many places of a problem the object `o` stands. -/
def profPlaces (o problem : Nat) (driver : ProfSolver) (root : ProfTree) : Nat := oneIf (problem = o) + driver.places o + root.places o

end OpenMDAO
