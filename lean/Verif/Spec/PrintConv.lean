import Verif.Model.PrintConv
/-!
# Specification: which solvers print
-/
namespace OpenMDAO

/-- The object is the solver, or a solver inside it, at any depth: preconditioner, line search, linear solver of a `Newton`. -/
inductive PSolver.Has : PSolver → Nat → Prop
  | plain {i} : PSolver.Has (.plain i) i
  | krylov {i p} : PSolver.Has (.krylov i p) i
  | pre {i p j} : PSolver.Has p j → PSolver.Has (.krylov i p) j
  | newton0 {i ls} : PSolver.Has (.newton0 i ls) i
  | search0 {i j} : PSolver.Has (.newton0 i (some j)) j
  | newton {i ls ln} : PSolver.Has (.newton i ls ln) i
  | search {i j ln} : PSolver.Has (.newton i (some j) ln) j
  | linear {i ls ln j} : PSolver.Has ln j → PSolver.Has (.newton i ls ln) j

/-- No linear solver of a `Newton` has solvers inside it. -/
inductive PSolver.Flat : PSolver → Prop
  | plain {i} : PSolver.Flat (.plain i)
  | krylov {i p} : PSolver.Flat p → PSolver.Flat (.krylov i p)
  | newton0 {i ls} : PSolver.Flat (.newton0 i ls)
  | newton {i ls j} : PSolver.Flat (.newton i ls (.plain j))

/-- The solver is the linear or nonlinear solver of a group `k` levels below this one. -/
inductive PGroup.Owns : PGroup → Nat → PSolver → Prop
  | ln {a b subs} : PGroup.Owns (.node a b subs) 0 a
  | nl {a b subs} : PGroup.Owns (.node a b subs) 0 b
  | sub {a b subs g k s} : g ∈ subs → PGroup.Owns g k s → PGroup.Owns (.node a b subs) (k + 1) s

/-- Levels that are asked for: all, or down to `depth`. -/
def DepthAsked (depth : Option Nat) (k : Nat) : Prop := ∀ d, depth = some d → k ≤ d

end OpenMDAO
