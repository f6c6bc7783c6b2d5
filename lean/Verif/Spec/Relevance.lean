import Verif.Model.Relevance
import Mathlib.Logic.Relation
/-! Specification of relevance: how data flows through a model. -/
namespace OpenMDAO

/-- Parameters, unknowns and states of a model, by absolute name. -/
structure ModelVars where
  params : Path → Prop
  unknowns : Path → Prop
  states : Path → Prop

/-- Data flows along connections, and inside a component from every parameter to every unknown. -/
inductive FlowStep (M : ModelVars) (conns : List (Path × Path)) : Path → Path → Prop
  | conn {s t} : (t, s) ∈ conns → FlowStep M conns s t
  | inner {p u} : M.params p → M.unknowns u → compPath p = compPath u → FlowStep M conns p u

/-- In an implicit component the states also influence the other unknowns of the component. -/
inductive CoupStep (M : ModelVars) (conns : List (Path × Path)) : Path → Path → Prop
  | flow {s t} : FlowStep M conns s t → CoupStep M conns s t
  | state {s u} : M.states s → M.unknowns u → compPath s = compPath u → CoupStep M conns s u

/-- `v` lies on a path from `d` to `r`. -/
def OnPath (step : Path → Path → Prop) (d v r : Path) : Prop := Relation.ReflTransGen step d v ∧ Relation.ReflTransGen step v r

/-- A system contains a component or is the component. -/
def Encloses (sys comp : Path) : Prop := sys ≠ [] ∧ sys <+: comp

end OpenMDAO
