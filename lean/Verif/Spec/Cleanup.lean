import Verif.Model.Cleanup
/-!
# Specification: recorders in a model
-/
namespace OpenMDAO

/-- The recorder `r` was added to the solver. `deep` says if solvers inside of it count. -/
inductive RecSolver.Has (deep : Bool) : RecSolver → Nat → Prop
  | own {recs inner r} : r ∈ recs → Has deep (.mk recs inner) r
  | inner {recs inner s r} : deep = true → s ∈ inner → Has deep s r → Has deep (.mk recs inner) r

/-- The recorder `r` was added to a solver of a group in the tree or to the driver of a sub-problem in it. -/
inductive CloseTree.Has (deep : Bool) : CloseTree → Nat → Prop
  | ln {ln nl subs r} : ln.Has deep r → Has deep (.group ln nl subs) r
  | nl {ln nl subs r} : nl.Has deep r → Has deep (.group ln nl subs) r
  | sub {ln nl subs t r} : t ∈ subs → Has deep t r → Has deep (.group ln nl subs) r
  | driver {driver root r} : r ∈ driver → Has deep (.sub driver root) r
  | root {driver root r} : Has deep root r → Has deep (.sub driver root) r

end OpenMDAO
