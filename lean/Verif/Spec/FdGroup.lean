import Verif.Model.FdGroup
import Verif.Spec.FiniteDiff
import Verif.Spec.LinearGS
/-! Vocabulary of the statements C129 to C131. -/
namespace OpenMDAO

/-- A name in dot notation. -/
def dotted (l : List Str) : Str := pyJoin '.' l

/-- The parts of a name: not empty, no dots. -/
def GoodParts (l : List Str) : Prop := ∀ p ∈ l, p ≠ [] ∧ '.' ∉ p

/-- `t` is the subsystem of `s` with the given path. -/
inductive FSys.At : FSys → List Str → FSys → Prop
  | here (s : FSys) : FSys.At s [] s
  | sub (subs : List (Str × FSys)) (n : Str) (s : FSys) (l : List Str) (t : FSys) : subs.lookup n = some s → FSys.At s l t →
      FSys.At (.group subs) (n :: l) t

/-- The variable belongs to a component below the group at path `gp`. -/
def BelowGroup (gp : List Str) (name : List Str) : Prop := ∃ comp v, comp ≠ [] ∧ name = gp ++ comp ++ [v]

variable {ι π K : Type} [Fintype ι] [Fintype π] [DecidableEq ι] [Field K]

/-- The linearised model contains child `c` with the Jacobian of its outputs with respect to the params that come from outside:
no states, no partials with respect to params connected inside. -/
structure Outward (G : LinGroup ι π K) (c : Nat) : Prop where
  expl : ∀ i, G.owner i = c → G.expl i = true
  nostate : ∀ i j, G.owner i = c → G.js i j = 0
  outside : ∀ i k, G.owner i = c → G.owner (G.src k) = c → G.jp i k = 0

section
variable {K : Type} [Field K] [LinearOrder K]

/-- The record of a param of the group. -/
def paramVar (E : FdEnv K) (sl : String × (Nat × Nat)) : FdVar K :=
  ⟨sl.1, .params, sl.2.1, sl.2.2, none, (fdOpts E sl.1).1, (fdOpts E sl.1).2.1, (fdOpts E sl.1).2.2⟩

end

/-- The variable of interest is the first of its set, or no child is a finite differenced group. -/
def Served {ν : Type} (kind : Nat → ChildKind) (vois : List ν) (v : ν) : Prop := v ∈ vois ∧ (vois.head? = some v ∨ ∀ c, kind c = .other)

end OpenMDAO
