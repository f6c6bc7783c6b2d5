import Verif.Model.CheckSolvers
import Mathlib.Logic.Relation
/-!
# Specification of the checks of solvers and execution order
-/
namespace OpenMDAO

/-- A list of groups as `subgroups(recurse=True, include_self=True)` returns it for a problem: the root first, every other group after its parent, each path once. States are listed by the groups that contain them. -/
structure GroupTree (root : SGroup) (groups : List SGroup) : Prop where
  first : ∃ rest, groups = root :: rest
  below : ∀ g ∈ groups, root.path <+: g.path
  distinct : (groups.map SGroup.path).Nodup
  parents : ∀ pre g post, groups = pre ++ g :: post → ∀ i, root.path.length ≤ i → i < g.path.length → ∃ a ∈ pre, a.path = g.path.take i
  states : ∀ g ∈ groups, ∀ s, s ∈ g.states ↔ s ∈ root.states ∧ g.path <+: s

/-- The linear solver of a group can solve coupled systems: it makes at least two iterations, or solves directly. -/
inductive CanSolve : LnKind → Prop
  | gs (n : Nat) : 2 ≤ n → CanSolve (.gs n)
  | krylov (n : Nat) : 2 ≤ n → CanSolve (.krylov n)
  | direct : CanSolve .direct

/-- Some group above `g` has a linear solver that iterates, or one that solves directly. -/
def SolvedAbove (groups : List SGroup) (g : SGroup) : Prop := ∃ a ∈ groups, a.path <+: g.path ∧ a.path ≠ g.path ∧ CanSolve a.solver

/-- Two different children of the group depend on each other. -/
def HasFeedback (edges : List (String × String)) : Prop :=
  ∃ a b, a ≠ b ∧ Relation.TransGen (fun x y => (x, y) ∈ edges) a b ∧ Relation.TransGen (fun x y => (x, y) ∈ edges) b a

/-- Some group that contains the state iterates or solves directly, or its component solves for it. -/
def StateSolved (groups : List SGroup) (needs : List String → Option Bool) (s : List String) : Prop :=
  needs s.dropLast = some false ∨ ∃ g ∈ groups, g.path <+: s ∧ CanSolve g.solver

end OpenMDAO
