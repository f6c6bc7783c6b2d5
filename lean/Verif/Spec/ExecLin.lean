import Verif.Model.ExecLin
/-! # Execution of statements without broadcasting into a variable -/
namespace OpenMDAO

/-- The value has the form of the variable it is assigned to: a number for a number, an array for an array of the same length. -/
def SameForm {R : Type} : EVal R → EVal R → Prop
  | .sc _, .sc _ => True
  | .arr l, .arr m => l.length = m.length
  | _, _ => False

instance {R : Type} (a b : EVal R) : Decidable (SameForm a b) := by
  cases a <;> cases b <;> simp only [SameForm] <;> infer_instance

/-- Store a value that has the form of the variable, refuse any other. -/
def setStrict {R : Type} (old new : EVal R) : Except PyErr (EVal R) := if SameForm old new then .ok new else .error .AssertionError

/-- Entry `i` increased by `t`. -/
def bumpVal {R : Type} [Add R] (i : Nat) (t : R) : EVal R → EVal R
  | .sc x => .sc (x + t)
  | .arr l => .arr (l.mapIdx fun j x => if j = i then x + t else x)

/-- The dictionary with entry `i` of `p` increased by `t`. -/
def bumpDict {R : Type} [Add R] (ps : List (Str × EVal R)) (p : Str) (i : Nat) (t : R) : List (Str × EVal R) :=
  ps.map fun kv => if kv.1 = p then (kv.1, bumpVal i t kv.2) else kv

/-- Entry `i` of a value in an elementwise operation: numbers and arrays with one entry have that entry everywhere. -/
def entryAt {R : Type} : EVal R → Nat → Option R
  | .sc x, _ => some x
  | .arr [x], _ => some x
  | .arr l, i => l[i]?

end OpenMDAO
