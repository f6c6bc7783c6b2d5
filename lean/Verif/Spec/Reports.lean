import Verif.Model.Reports
/-!
# Specification of the reports about connections and params (C147 to C150)
-/
namespace OpenMDAO

/-- A variable lies inside a system: it has the path of the system before a point, or the system is the top. -/
def InsideSys (sys v : Str) : Prop := sys = [] ∨ ∃ r, v = sys ++ '.' :: r

/-- Absolute names of variables contain no blank and begin neither with a point nor with a brace. -/
def VarName (n : Str) : Prop := ' ' ∉ n ∧ n.head? ≠ some '.' ∧ n.head? ≠ some '{'

/-- A name in a list for a component: variables of the component are shown from the point on. -/
def Shown (comp name s : Str) : Prop :=
  (comp ≠ [] ∧ ∃ r, name = comp ++ '.' :: r ∧ s = '.' :: r) ∨ ((comp = [] ∨ ¬ ∃ r, name = comp ++ '.' :: r) ∧ s = name)

/-- The lines of a table with two columns, `prev` is the text that stands in the first column above: it is not repeated. -/
def tableLines (w : Nat) : Option Str → List (Str × Str) → List Str
  | _, [] => []
  | prev, (s, t) :: rows =>
    let shown := if prev = some s then [] else s
    (shown ++ List.replicate (w - shown.length) ' ' ++ " -> ".toList ++ t ++ ['\n']) :: tableLines w (some s) rows

/-- The text of a table: the first column is as wide as its longest text. -/
def tableText (rows : List (Str × Str)) : Str := (tableLines ((rows.map fun r => r.1.length).foldr max 0) none rows).flatten

/-- Rows in order: by the first column, then by the second. -/
def RowsSorted (rows : List (Str × Str)) : Prop := rows.Pairwise fun a b => a.1 < b.1 ∨ a.1 = b.1 ∧ a.2 ≤ b.2

open Classical in
/-- The rows of the connections of a system. -/
noncomputable def connRows (P : RProb) (sys comp : Str) : List (Str × Str) :=
  (P.conns.filter fun c => InsideSys sys c.1 ∨ InsideSys sys c.2).map fun c => (srcText P comp c.2, paramText P c.1 (some c.2) comp)

open Classical in
/-- The rows of the unconnected variables of a system. -/
noncomputable def unconnRows (P : RProb) (comp : Str) (params unknowns : List Str) : List (Str × Str) :=
  ((params.filter fun p => ∀ s, (p, s) ∉ P.conns).map fun p => ("{unconnected}  ".toList, paramText P p none comp)) ++
  ((unknowns.filter fun u => ∀ t, (t, u) ∉ P.conns).map fun u => (srcText P comp u, "{unconnected}".toList))

open Classical in
/-- The rows of the connections that a name refers to: each once. -/
noncomputable def varRows (P : RProb) (names : List Str) : List (Str × Str) :=
  (P.conns.filter fun c => c.1 ∈ names ∨ c.2 ∈ names).map fun c => (srcText P [] c.2, paramText P c.1 (some c.2) [])

/-- The connections of the system where units are converted, or one end has units and the other has none. -/
def UnitDiff (P : RProb) (sys : Str) (pd ud : List (Str × RMeta)) (s t : Str) (su tu : Option Str) : Prop :=
  ∃ T S mt ms, (T, S) ∈ P.conns ∧ (T, mt) ∈ pd ∧ (S, ms) ∈ ud ∧ s = nameRelativeTo sys S ∧ t = nameRelativeTo sys T ∧ su = ms.units ∧ tu = mt.units ∧
    (mt.conv = true ∨ ((∃ u, mt.units = some u ∧ u ≠ []) ↔ ¬ ∃ u, ms.units = some u ∧ u ≠ []))

/-- A variable of a component: path, point, name. -/
def VarOf (c v : Str) : Prop := ∃ n, '.' ∉ n ∧ v = c ++ '.' :: n

end OpenMDAO
