import Verif.Model.NewtonRel
/-! Vocabulary of the statement C169. -/
namespace OpenMDAO

/-- Pathname of a variable of a component. -/
def varPath (comp : Str) (name : Str) : Str := comp ++ '.' :: name

/-- The params of the group are variables of its components: names without dots, and no component lies inside another one. -/
structure ParamPaths (comps : List Str) (params : List Str) : Prop where
  var : ∀ v ∈ params, ∃ c ∈ comps, ∃ n, '.' ∉ n ∧ v = varPath c n
  nonempty : ∀ c ∈ comps, c ≠ []
  leaf : ∀ a ∈ comps, ∀ b ∈ comps, ∀ m, a ≠ varPath b m

/-- The param is connected to a variable of the group. -/
def InScope (params : List Str) (conns : List (Str × Str)) (srcs : List Str) (v : Str) : Prop :=
  v ∈ params ∧ ∃ s, conns.lookup v = some s ∧ s ∈ srcs

variable {K : Type}

/-- The two vectors have the same variables and agree on those with a property. -/
def AgreeOn (P : String → Prop) (d e : DVec K) : Prop :=
  ∀ n, P n → d.lookup n = e.lookup n

end OpenMDAO
