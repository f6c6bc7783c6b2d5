import Verif.Model.Recorder
/-! # Vocabulary for the statements about recording -/
namespace OpenMDAO

/-- A legal system name contains neither a dot nor a bar and is not empty (`group.py:30,154`). -/
def GoodName (n : Str) : Prop := n ≠ [] ∧ '.' ∉ n ∧ '|' ∉ n

/-- Name of the system that is solved. -/
def ETree.name : ETree → Str
  | .group n _ _ => n

mutual
/-- A subsystem with a legal name, and the same below. -/
def ETree.Ok : ETree → Prop
  | .group n _ steps => GoodName n ∧ StepsOk steps
/-- In every evaluation the subgroups have different legal names. -/
def StepsOk : List (List ETree) → Prop
  | [] => True
  | subs :: steps => (SubsOk subs ∧ (subs.map ETree.name).Nodup) ∧ StepsOk steps
def SubsOk : List ETree → Prop
  | [] => True
  | t :: ts => t.Ok ∧ SubsOk ts
end

/-- The root group has no name. -/
def RootOk : ETree → Prop
  | .group n _ steps => n = [] ∧ StepsOk steps

/-- Coordinates that solvers and drivers build: names without bar, at least one number at every level. -/
def CoordOk (c : Coord) : Prop := ∀ l ∈ c.levels, '|' ∉ l.1 ∧ l.2 ≠ []

/-- Is a variable selected: some include pattern and no exclude pattern. -/
def Selected (fnm : Str → Str → Bool) (o : RecOpts) (n : Str) : Prop :=
  (∃ i ∈ o.includes, fnm n i = true) ∧ ∀ e ∈ o.excludes, fnm n e = false

end OpenMDAO
