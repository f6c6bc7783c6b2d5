import Verif.Model.SubProblem
/-! Specification of `SubProblem`: the wrapped problem used on its own. -/
namespace OpenMDAO

variable {S V : Type}

/-- `val` reads the values that can be set; setting one of the names `N` changes that one only. -/
structure SubOps.SetsOne (P : SubOps S V) (N : List String) (val : String → S → V) : Prop where
  same : ∀ {n v s s'}, n ∈ N → P.set n v s = .ok s' → val n s' = v
  other : ∀ {n v s s' k}, n ∈ N → k ∈ N → P.set n v s = .ok s' → k ≠ n → val k s' = val k s

/-- The values are set one after the other. -/
inductive SubOps.AssignAll (P : SubOps S V) (vals : String → V) : List String → S → S → Prop
  | nil {s} : AssignAll P vals [] s s
  | cons {n rest s s' s1} : P.set n (vals n) s = .ok s' → AssignAll P vals rest s' s1 → AssignAll P vals (n :: rest) s s1

/-- A name the user may set: an input that nothing is connected to, or the output of an independent variable component. -/
def SubNames.Settable (N : SubNames) (p : String) : Prop := p ∈ N.dangling ∨ N.unknowns.lookup p = some true

/-- After `setup`, the keys of `root.params` are inputs: no unknown has such a name, and an input that is connected is not dangling. -/
def SubNames.Consistent (N : SubNames) : Prop := ∀ p, p ∈ N.params → (N.unknowns.lookup p) = none

end OpenMDAO
