import Verif.Model.CheckTotals
import Verif.Spec.FdGroup
/-! Vocabulary of the statements C160. -/
namespace OpenMDAO

variable {σ : Type}

/-- The variable is one the derivatives are checked with respect to: a design variable whose value is not passed by object; when there are no design
variables, the promoted name of a variable of an `IndepVarComp` that a param not passed by object is connected to. -/
def TotProb.Indep (P : TotProb σ) (n : Str) : Prop :=
  (P.desvars ≠ [] ∧ n ∈ P.desvars ∧ ∃ a, P.toAbsU.lookup n = some a ∧ P.unkPbo.lookup a = some false) ∨
  (P.desvars = [] ∧ ∃ tgt comp v, (tgt, dotted (comp ++ [v])) ∈ P.conns ∧ comp ≠ [] ∧ GoodParts (comp ++ [v]) ∧ P.root.At comp (.comp true) ∧
    P.parPbo.lookup tgt = some false ∧ P.toProm.lookup (dotted (comp ++ [v])) = some n)

/-- The variable is one whose derivatives are checked: an objective or constraint not passed by object; when there are neither, an unknown not passed by
object of a component that is no `IndepVarComp`. -/
def TotProb.Resp (P : TotProb σ) (n : Str) : Prop :=
  ((P.objs ≠ [] ∨ P.cons ≠ []) ∧ (n ∈ P.objs ∨ n ∈ P.cons) ∧ ∃ a, (n, a, false) ∈ P.unknowns) ∨
  (P.objs = [] ∧ P.cons = [] ∧ ∃ comp v, (n, dotted (comp ++ [v]), false) ∈ P.unknowns ∧ comp ≠ [] ∧ GoodParts (comp ++ [v]) ∧ P.root.At comp (.comp false))

/-- A problem after setup: `cp` are the connections and `up` the unknowns with the parts of their absolute names. -/
structure TotProb.Sound (P : TotProb σ) (cp : List (List Str × List Str)) (up : List (Str × List Str × Bool)) : Prop where
  conns : P.conns = cp.map fun c => (dotted c.1, dotted c.2)
  targets : (P.conns.map Prod.fst).Nodup
  connParts : ∀ c ∈ cp, GoodParts c.1 ∧ GoodParts c.2 ∧ 2 ≤ c.1.length ∧ 2 ≤ c.2.length
  sources : ∀ c ∈ cp, ∀ comp v, comp ≠ [] → c.2 = comp ++ [v] → ∃ b, P.root.At comp (.comp b)
  params : ∀ c ∈ P.conns, (P.parPbo.lookup c.1).isSome ∧ (P.toProm.lookup c.2).isSome
  unknowns : P.unknowns = up.map fun u => (u.1, dotted u.2.1, u.2.2)
  names : (P.unknowns.map Prod.fst).Nodup
  unkParts : ∀ u ∈ up, GoodParts u.2.1 ∧ ∃ comp v b, comp ≠ [] ∧ u.2.1 = comp ++ [v] ∧ P.root.At comp (.comp b)
  desvars : ∀ d ∈ P.desvars, ∃ a b, P.toAbsU.lookup d = some a ∧ P.unkPbo.lookup a = some b
  responses : ∀ u, u ∈ P.objs ∨ u ∈ P.cons → u ∈ P.unknowns.map Prod.fst

/-- `J` is a dict of dicts with the derivatives `D` of all of `unk` with respect to all of `ind`. -/
structure IsJac (J : NestJac) (ind unk : List Str) (n m : Str → Nat) (D : Str → Str → Nat → Nat → ℝ) : Prop where
  rows : (J.map Prod.fst).Nodup
  cols : ∀ r ∈ J, (r.2.map Prod.fst).Nodup
  entry : ∀ u ∈ unk, ∃ row, J.lookup u = some row ∧ ∀ p ∈ ind, row.lookup p = some ⟨n u, m p, D u p⟩

/-- In the state `s` the function `calc_gradient` returns derivatives `D` for the variables of the check. -/
def TotProb.Gives (P : TotProb σ) (s : σ) (k : GradKind) (n m : Str → Nat) (D : Str → Str → Nat → Nat → ℝ) : Prop :=
  ∀ ind unk, (∀ p ∈ ind, P.Indep p) → (∀ u ∈ unk, P.Resp u) → ∃ J, P.grad s k ind unk = .ok J ∧ IsJac J ind unk n m D

/-- The check takes place in the state `s`: the last run's, or the model is run first. -/
def TotProb.Starts (P : TotProb σ) (stream : Bool) (s0 s : σ) : Prop :=
  (1 ≤ P.iterCount s0 ∧ s = s0) ∨ (P.iterCount s0 = 0 ∧ stream = true ∧ P.runOnce s0 = .ok s)

/-- The root of the sum of the squared differences. -/
noncomputable def jacDist (n m : Nat) (f g : Nat → Nat → ℝ) : ℝ := Real.sqrt (∑ i ∈ Finset.range n, ∑ j ∈ Finset.range m, (f i j - g i j) ^ 2)

end OpenMDAO
