import Verif.Model.ProblemVars
/-!
# Specification for C96 and C97
-/
namespace OpenMDAO

variable {K : Type}

/-- Two initial values are the same: type or shape and all entries, none of which is NaN. -/
def InitVal.Same : InitVal K → InitVal K → Prop
  | .arr s d, .arr s' d' => s = s' ∧ d = d' ∧ ∀ x ∈ d, x.isnan = false
  | .obj ty x, .obj ty' x' => ty = ty' ∧ x = x' ∧ x.isnan = false
  | _, _ => False

/-- An array has as many entries as its shape says. -/
def InitVal.WF : InitVal K → Prop
  | .arr s d => d.length = s.prod
  | .obj _ _ => True

/-- Each entry of the table lists the input itself and inputs that have the same list. -/
def Grouped (ii : List (String × List String)) : Prop := ∀ e ∈ ii, e.1 ∈ e.2 ∧ ∀ n ∈ e.2, ∃ l, (n, l) ∈ ii ∧ e.1 ∈ l

/-- The system that contains a variable: the longest proper prefix of its path that is a system. -/
def IsOwner (systems : List Path) (v sys : Path) : Prop :=
  sys ∈ systems ∧ sys ≠ [] ∧ sys <+: v ∧ sys.length < v.length ∧ ∀ sys' ∈ systems, sys' <+: v → sys'.length < v.length → sys'.length ≤ sys.length

/-- The source of the connection runs after its target. -/
def RunsLate (systems : List Path) (c : Path × Path) : Prop :=
  ∃ ts ss, IsOwner systems c.1 ts ∧ IsOwner systems c.2 ss ∧ systems.idxOf ts < systems.idxOf ss

/-- The system that computes the source of the connection has not run when the system with the target runs: it runs later, or it is the same. -/
def NotYetRun (systems : List Path) (c : Path × Path) : Prop :=
  ∃ ts ss, IsOwner systems c.1 ts ∧ IsOwner systems c.2 ss ∧ systems.idxOf ts ≤ systems.idxOf ss

end OpenMDAO
