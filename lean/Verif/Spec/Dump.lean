import Verif.Model.Dump
/-! # What a user expects in the text of a recorder -/
namespace OpenMDAO

/-- The text of some lines. -/
def linesText : List Str → Str
  | [] => []
  | l :: ls => l ++ '\n' :: linesText ls

/-- The entries in the order of their names. -/
def InOrder {X : Type} (d s : List (Str × X)) : Prop := s.Perm d ∧ s.Pairwise fun a b => a.1 ≤ b.1

/-- The lines about one vector: none when it is not recorded, else its title and a line for each variable, in
the order of their names. -/
def PartLines (title : String) (w : Option (List (Str × Str))) (ls : List Str) : Prop :=
  match w with
  | none => ls = []
  | some d => ∃ s, InOrder d s ∧
      ls = title.toList :: s.map fun e => "  ".toList ++ e.1 ++ ": ".toList ++ e.2

/-- The first lines of a record; `rest` belongs to the coordinate. -/
def headLines (ts : Str) (c : Coord) (rest : Str) : List Str :=
  ["Timestamp: ".toList ++ ts, "Iteration Coordinate: ".toList ++ formatCoord c ++ rest]

/-- The line about success, and the one about the error. -/
def statusLines (success : Bool) (msg : Str) : List Str :=
  if success then ["Iteration succeeded: yes".toList]
  else ["Iteration succeeded: no".toList, "Error msg: ".toList ++ msg]

end OpenMDAO
