import Verif.Model.UnitStr
/-!
# Specification of unit strings (C123 - C126)
-/
namespace OpenMDAO

variable {K : Type} [Field K] [DecidableEq K]

/-- The names in a unit expression. -/
def UExpr.names : UExpr K → List Str
  | .num _ => []
  | .var n => [n]
  | .mul a b => a.names ++ b.names
  | .div a b => a.names ++ b.names
  | .pow a _ => a.names

/-- A letter followed by letters and digits. -/
def LetterName (n : Str) : Prop :=
  ∃ c cs, n = c :: cs ∧ c.isAlpha = true ∧ ∀ d ∈ cs, d.isAlphanum = true

/-- A name inside an expression that python parses is itself parsed as a name, and the names of the library are
names to python (no reserved words). -/
structure PyNames (parse : Str → Except PyErr (UExpr K)) (lib : UnitLib K) : Prop where
  inner : ∀ s e, parse s = .ok e → ∀ v ∈ e.names, parse v = .ok (.var v)
  lib : ∀ n u, lib.table.lookup n = some u → parse n = .ok (.var n)

/-- The readings of a name: the unit of the library with that name, otherwise a prefix of one or two letters before
a name that has a reading. -/
inductive UReads (lib : UnitLib K) : Str → PhysUnit K → Prop
  | unit {n u} : lib.table.lookup n = some u → UReads lib n u
  | pre {p b c u} : lib.table.lookup (p ++ b) = none → lib.prefixes.lookup p = some c → p.length ≤ 2 →
      UReads lib b u → u.offset = 0 → UReads lib (p ++ b) ⟨u.factor * c, u.powers, 0⟩

/-- A name that is a unit of the library, or one prefix of one or two letters before a unit of the library without
offset such that no other prefix stands before a readable rest. -/
inductive Settled (lib : UnitLib K) : Str → PhysUnit K → Prop
  | unit {n u} : lib.table.lookup n = some u → Settled lib n u
  | pre {p b c u} : lib.table.lookup (p ++ b) = none → lib.prefixes.lookup p = some c → (p.length = 1 ∨ p.length = 2) →
      lib.table.lookup b = some u → u.offset = 0 →
      (∀ p' b' c' u', p ++ b = p' ++ b' → lib.prefixes.lookup p' = some c' → p'.length ≤ 2 → UReads lib b' u' → p' = p) →
      Settled lib (p ++ b) ⟨u.factor * c, u.powers, 0⟩

/-- The state of the module after the unit strings `h` have been looked up, one after the other. -/
def UnitLib.after (ws : Char → Bool) (undef : PyErr) (parse : Str → Except PyErr (UExpr K)) (lib : UnitLib K)
    (h : List Str) : UnitLib K :=
  h.foldl (fun l s => (findUnit ws undef parse l s).1) lib

/-- Definition by an expression, not by an offset. -/
def UDef.IsExpr : UDef K → Prop
  | .expr _ _ => True
  | .offset _ _ _ _ => False

/-- The numbers written in a unit expression are not zero. -/
def UExpr.NonZero : UExpr K → Prop
  | .num c => c ≠ 0
  | .var _ => True
  | .mul a b => a.NonZero ∧ b.NonZero
  | .div a b => a.NonZero ∧ b.NonZero
  | .pow a _ => a.NonZero

/-- A library whose units have no offset, exponents of `N` base units and one name: their own or that of an equal
unit. -/
def NamedUnits (N : Nat) (lk : Str → Option (PhysUnit K × NumDict K)) : Prop :=
  ∀ n v, lk n = some v → v.1.factor ≠ 0 ∧ v.1.offset = 0 ∧ v.1.powers.length = N ∧
    ∃ n' d', v.2 = [(.name n', 1)] ∧ lk n' = some (v.1, d')

/-- The base quantity of a number with a unit. -/
def baseOf (x : K) (u : PhysUnit K) : K := (x + u.offset) * u.factor

/-- The base quantity of a result. -/
def QVal.base : QVal K → K
  | .num c => c
  | .quantity x u => baseOf x u

/-- The dimensions of a result, none if it is a number. -/
def QVal.dims : QVal K → Option (List Int)
  | .num _ => none
  | .quantity _ u => some u.powers

end OpenMDAO
