import Verif.Model.ParCheck
/-!
# Specification: parallel derivatives
-/
namespace OpenMDAO

/-- `g` is a group in `t`, at any depth. -/
inductive PdTree.Below : PdTree → PdTree → Prop
  | sub {n l m subs g} : g ∈ subs → PdTree.Below g (.node n l m subs)
  | deep {n l m subs g t} : t ∈ subs → PdTree.Below g t → PdTree.Below g (.node n l m subs)

/-- A group whose solver is set to the other mode. -/
def PdTree.Against (m : DMode) (g : PdTree) : Prop := g.lgs = true ∧ g.mode ≠ .auto ∧ g.mode ≠ m

/-- The groups of variables of interest that are seeded in a mode. -/
def PdProb.seeds (P : PdProb) (m : DMode) : List (List String) := if m = .fwd then P.pois else P.oois

end OpenMDAO
