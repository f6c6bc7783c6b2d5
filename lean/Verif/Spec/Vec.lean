import Verif.Model.Vec
/-! Vocabulary of the statements C05 - C08. -/
namespace OpenMDAO

variable {α β : Type}

/-- variable kept in the flat vector -/
def VarMeta.stored (m : VarMeta α β) : Prop := m.pbo = false ∧ m.remote = false

/-- what `Component._add_variable` guarantees about metadata -/
structure WellDeclared (m : VarMeta α β) : Prop where
  val : m.pbo = false → m.val.length = m.size
  scalar : m.scalar = true → m.pbo = false → m.size = 1

instance (m : VarMeta α β) : Decidable m.stored := by unfold VarMeta.stored; infer_instance

/-- value a variable holds after being assigned `v` (`none`: rejected) -/
def storedAs (md : VarMeta α β) (v : PyVal α β) : Option (PyVal α β) :=
  if md.remote then none
  else if md.pbo then some v
  else if md.scalar then
    match v with
    | .num x | .arr [x] => some (.num x)
    | _ => none
  else
    match v with
    | .arr l =>
      if l.length = md.size then some (.arr l)
      else match l with
        | [x] => some (.arr (List.replicate md.size x))
        | _ => none
    | _ => none

/-- Initial value of a variable as declared. -/
def VarMeta.initial (md : VarMeta α β) : PyVal α β :=
  if md.pbo then md.objVal
  else if md.scalar then
    match md.val with
    | [x] => .num x
    | l => .arr l
  else .arr md.val

/-- Specification of a sequence of assignments: the last accepted assignment to this variable, otherwise
the value it had before. -/
def lastValue (md : VarMeta α β) (cur : PyVal α β) : List (String × PyVal α β) → PyVal α β
  | [] => cur
  | (n, v) :: ops => if n = md.name then lastValue md ((storedAs md v).getD cur) ops else lastValue md cur ops

/-- The ranges are consecutive and cover exactly `[s, n)`. -/
inductive TilesFrom : Nat → List (Nat × Nat) → Nat → Prop
  | nil (s : Nat) : TilesFrom s [] s
  | cons {s e n : Nat} {l : List (Nat × Nat)} : s ≤ e → TilesFrom e l n → TilesFrom s ((s, e) :: l) n

end OpenMDAO
