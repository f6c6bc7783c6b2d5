import Verif.Model.RunDir
/-!
# Specification: the directory of a component
-/
namespace OpenMDAO

/-- The component number `i` is in the tree, and `ds` are the directories given to the systems from the root down to it. -/
inductive DirTree.At : DirTree → List PathStr → Nat → Prop
  | comp {i d x a r n e w subs} : At (.node i true d x a r n e w subs) [d] i
  | sub {i d x a r n e w subs t ds j} : t ∈ subs → At t ds j → At (.node i false d x a r n e w subs) (d :: ds) j

/-- A directory below another one. -/
def below (p d : PathStr) : PathStr := if d.head? = some '/' then d else osJoin p d

/-- Where to run, given the directories on the way: `start` if there are none, and else the directories one below the other,
the first one below `base`. -/
def dirOf (start base : PathStr) (ds : List PathStr) : PathStr :=
  if ds.filter (· ≠ []) = [] then start else (ds.filter (· ≠ [])).foldl below base

/-- The system number `j` is in the tree. -/
inductive DirTree.Has : DirTree → Nat → Prop
  | top {i c d x a r n e w subs} : Has (.node i c d x a r n e w subs) i
  | sub {i c d x a r n e w subs t j} : t ∈ subs → Has t j → Has (.node i c d x a r n e w subs) j

/-- No system has a directory context yet: it was never set up. And no system is a part of itself. -/
inductive DirTree.New : DirTree → Prop
  | mk {i c d a r n e w subs} : (∀ t ∈ subs, New t) → (∀ t ∈ subs, ¬ t.Has i) → New (.node i c d none a r n e w subs)

/-- No group with a directory of its own has a Newton solver. -/
inductive DirTree.NoNewton : DirTree → Prop
  | mk {i c d x a r n e w subs} : (∀ t ∈ subs, NoNewton t) → (w = true → d = []) → NoNewton (.node i c d x a r n e w subs)

/-- The component `j` is in the tree, and the solver of every group above it runs its subsystems at least once. -/
inductive DirTree.Runs : DirTree → Nat → Prop
  | comp {i d x a r n e w subs} : DirTree.Runs (.node i true d x a r n e w subs) i
  | sub {i d x a r n e w subs t j} : t ∈ subs → 0 < n → DirTree.Runs t j → DirTree.Runs (.node i false d x a r n e w subs) j

end OpenMDAO
