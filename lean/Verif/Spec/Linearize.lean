import Verif.Model.Linearize
/-! Specification of the linearization of a component. -/
namespace OpenMDAO

/-- A position in a Jacobian dictionary. -/
abbrev JPos := JKey × Nat × Nat

/-- The positions that a list of assignments sets. -/
def written {K : Type} (ws : List (JWrite K)) (q : JPos) : Prop := ∃ w ∈ ws, (w.key, w.row, w.col) = q

/-- The entry of a two-dimensional array. -/
def entry2 {K : Type} (rows : List (List K)) (i j : Nat) : Option K := (rows[i]?).bind fun r => r[j]?

/-- The entry of a Jacobian dictionary at a position. -/
def jacEntry {K : Type} (d : JacDict K) (q : JPos) : Option K :=
  match d.lookup q.1 with
  | some (.arr2 rows) => entry2 rows q.2.1 q.2.2
  | _ => none

/-- Names of params and unknowns of a component are distinct. -/
def JComp.Distinct (c : JComp) : Prop := ((c.params ++ c.unknowns).map JVar.name).Nodup

/-- The literals `'user'` and `'fd'` of a program. -/
def litUser : PyStrObj := ⟨"user", true⟩
def litFd : PyStrObj := ⟨"fd", true⟩

end OpenMDAO
