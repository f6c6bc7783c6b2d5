import Verif.Model.SubDir
import Verif.Spec.RunDir
/-!
# Specification: the absolute directory of a component below sub-problems
-/
namespace OpenMDAO

/-- The component number `i` is in the tree, `ds` are the directories given to the systems from the root down to it, `k` of these systems are sub-problems,
and the component takes `a` for its absolute directory. -/
inductive NestTree.At : NestTree → List PathStr → Nat → Nat → PathStr → Prop
  | comp {i d a} : At (.comp i d a) [d] 0 i a
  | group {d b subs t ds k i a} : t ∈ subs → At t ds k i a → At (.group d b subs) (d :: ds) k i a
  | prob {d b pd t ds k i a} : At t ds k i a → At (.prob d b pd t) (d :: ds) (k + 1) i a

/-- The directories that are not empty, one below the other, the first one below `base`. -/
def nestedDir (base : PathStr) (ds : List PathStr) : PathStr := (ds.filter (· ≠ [])).foldl below base

/-- The problem of a sub-problem in the tree has the root `r`, and no other sub-problem is in between. -/
inductive NestTree.HasProb : NestTree → NestTree → Prop
  | prob {d b pd r} : HasProb (.prob d b pd r) r
  | group {d b subs t r} : t ∈ subs → HasProb t r → HasProb (.group d b subs) r

/-- The problem with the root `t` is the one with the root `r`, or has it in it at any depth. -/
inductive NestTree.Root : NestTree → NestTree → Prop
  | top {t} : Root t t
  | sub {t r r'} : t.HasProb r → Root r r' → Root t r'

/-- No problem in the tree has been set up. -/
inductive NestTree.New : NestTree → Prop
  | comp {i d a} : New (.comp i d a)
  | group {d b subs} : (∀ t ∈ subs, New t) → New (.group d b subs)
  | prob {d b r} : New r → New (.prob d b none r)

end OpenMDAO
