import Verif.Model.Assemble
/-! Vocabulary of the statement C54. -/
namespace OpenMDAO

variable {K : Type} [CommRing K]

/-- Product of a matrix over the unknowns with a vector, at row `r`. -/
def mulP (u : List (String × Nat)) (P : Pos → Pos → K) (v : Pos → K) (r : Pos) : K :=
  (u.map fun e => ∑ b ∈ Finset.range e.2, P r (e.1, b) * v (e.1, b)).sum

/-- `r` is a position of the unknowns vector. -/
def InVec (u : List (String × Nat)) (r : Pos) : Prop := ∃ n, (r.1, n) ∈ u ∧ r.2 < n

/-- The components, their names and connections fit the unknowns vector of the group (what setup guarantees). -/
structure AsmWF (u : List (String × Nat)) (comps : List (AsmComp K)) : Prop where
  /-- promoted names of unknowns are unique -/
  uniq : (u.map Prod.fst).Nodup
  outsUniq : (comps.flatMap fun c => c.outs.map Prod.snd).Nodup
  namesUniq : ∀ c ∈ comps, (c.outs.map Prod.fst).Nodup
  /-- the unknowns vector holds exactly the unknowns of the components -/
  cover : ∀ n, n ∈ u.map Prod.fst ↔ ∃ c ∈ comps, n ∈ c.outs.map Prod.snd
  statesOut : ∀ c ∈ comps, ∀ s ∈ c.states, s ∈ c.outs.map Prod.fst
  /-- a param promoted to the name of an unknown is connected to it -/
  implicit : ∀ c ∈ comps, ∀ e ∈ c.ins, e.2.prom ∈ u.map Prod.fst → e.2.conn = some (some e.2.prom)
  sources : ∀ c ∈ comps, ∀ e ∈ c.ins, ∀ s, e.2.conn = some (some s) → s ∈ u.map Prod.fst
  /-- Jacobians are dicts over the unknowns and the params or states of the component -/
  jacKeys : ∀ c ∈ comps, ∀ jac, c.jac = some jac → (jac.map Prod.fst).Nodup ∧
    ∀ e ∈ jac, e.1.1 ∈ c.outs.map Prod.fst ∧ (e.1.2 ∈ c.states ∨ e.1.2 ∈ c.ins.map Prod.fst)

/-- Every Jacobian block has as many rows as its unknown has entries and as many columns as the state or the *source* of the param
has entries. -/
def FullBlocks (u : List (String × Nat)) (comps : List (AsmComp K)) : Prop :=
  ∀ c ∈ comps, ∀ jac, c.jac = some jac → ∀ e ∈ jac, ∀ o i, c.outs.lookup e.1.1 = some o →
    (if e.1.2 ∈ c.states then c.outs.lookup e.1.2 = some i
      else ∃ p, c.ins.lookup e.1.2 = some p ∧ p.conn = some (some i)) →
    (o, e.2.m) ∈ u ∧ (i, e.2.n) ∈ u

/-- Blocks and source indices stay inside the variables they refer to: every row of a block is an entry of its unknown, every column
an entry of the state or, through the source indices, of the source of the param. -/
def BlocksFit (u : List (String × Nat)) (comps : List (AsmComp K)) : Prop :=
  ∀ c ∈ comps, ∀ e ∈ c.jac.getD [],
    (∀ o, c.outs.lookup e.1.1 = some o → ∀ a < e.2.m, InVec u (o, a)) ∧
    (e.1.2 ∈ c.states → ∀ i, c.outs.lookup e.1.2 = some i → ∀ b < e.2.n, InVec u (i, b)) ∧
    (∀ p s, c.ins.lookup e.1.2 = some p → p.conn = some (some s) →
      ∀ b < e.2.n, ∀ k, srcPos p.idxs b = some k → InVec u (s, k))

/-- The conditions under which the assembled matrix is right. -/
structure Assemblable (comps : List (AsmComp K)) : Prop where
  /-- every component has a Jacobian -/
  hasJac : ∀ c ∈ comps, c.jac.isSome
  /-- no source outside of the group, no source indices, no unit conversion -/
  plain : ∀ c ∈ comps, ∀ e ∈ c.ins, e.2.conn ≠ some none ∧ e.2.idxs = none ∧ e.2.unit = 1
  /-- different params of a component have different sources -/
  distinct : ∀ c ∈ comps, ∀ i p i' p' s, c.ins.lookup i = some p → c.ins.lookup i' = some p' →
    p.conn = some (some s) → p'.conn = some (some s) → i = i'
  /-- no param is connected to an unknown of its own component -/
  noLoop : ∀ c ∈ comps, ∀ e ∈ c.ins, ∀ s, e.2.conn = some (some s) → s ∉ c.outs.map Prod.snd
  /-- the partial of every state with respect to itself is given -/
  ownPartial : ∀ c ∈ comps, ∀ jac, c.jac = some jac → ∀ s ∈ c.states, (s, s) ∈ jac.map Prod.fst

end OpenMDAO
