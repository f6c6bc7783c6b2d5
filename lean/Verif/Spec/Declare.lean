import Verif.Model.Declare
import Mathlib.Algebra.BigOperators.Group.List.Basic
/-!
# Specification: variable declarations
-/
namespace OpenMDAO

/-- An identifier: an ASCII letter or underscore followed by letters, digits and underscores. -/
def Ident (p : List Char) : Prop :=
  ∃ c t, p = c :: t ∧ (c = '_' ∨ c.isAlpha) ∧ ∀ x ∈ t, x = '_' ∨ x.isAlphanum

/-- A variable name: one or more identifiers joined by colons. -/
def ValidName (s : List Char) : Prop := ∃ (p : List Char) (ps : List (List Char)), (∀ q ∈ p :: ps, Ident q) ∧ s = p ++ ps.flatMap (fun q => ':' :: q)

/-- Arguments that are acceptable for a declaration of this kind: a residual scaler only for states and nonzero, a valid unit, no misspelt bounds, a value or a shape for outputs and states, and no
negative dimension if the value is built from the shape. -/
def ArgsOk (k : DeclKind) (a : DeclArgs) : Prop :=
  (a.residScaler = none ∨ (k = .state ∧ a.residScaler = some false)) ∧ a.unit ≠ some false ∧ a.low = false ∧ a.high = false ∧
    (k ≠ .param → a.val ≠ none ∨ a.shape ≠ none) ∧ (a.val = none → ∀ n, a.shape = some (.int n) → 0 ≤ n)

/-- The name is used by a declared variable. -/
def Declared (c : CompDecl) (name : List Char) : Prop := name ∈ c.params.map Prod.fst ∨ name ∈ c.unknowns.map Prod.fst

/-- The value of a declaration: the given one, else zeros of the given shape (a float for shape 1, an array without dimensions for no shape). -/
def ValueOf (a : DeclArgs) (v : ChkVal) : Prop :=
  a.val = some v ∨ (a.val = none ∧
    ((a.shape = none ∧ v = .array [] true) ∨ (a.shape = some (.int 1) ∧ v = .real) ∨ (∃ n : Nat, n ≠ 1 ∧ a.shape = some (.int n) ∧ v = .array [n] true) ∨
      ∃ l, a.shape = some (.tup l) ∧ v = .array l true))

/-- The stored metadata: floats and floating arrays that are not declared as objects have as many entries as their value, everything else is passed by object and has none. -/
def MetaOf (a : DeclArgs) (m : DeclMeta) : Prop :=
  ValueOf a m.val ∧ m.srcIdx = a.srcIdx ∧
    ((m.val = .real ∧ a.pbo ≠ some true ∧ m.size = 1 ∧ m.pbo = a.pbo ∧ ((∀ n, a.shape = some (.int n) → n ≤ 1) → m.shape = some (.int 1))) ∨
      (∃ l, m.val = .array l true ∧ a.pbo ≠ some true ∧ m.size = l.prod ∧ m.pbo = a.pbo ∧ ((∀ n, a.shape = some (.int n) → n ≤ 1) → m.shape = some (.tup l))) ∨
      (((m.val ≠ .real ∧ ∀ l, m.val ≠ .array l true) ∨ a.pbo = some true) ∧ m.size = 0 ∧ m.pbo = some true)) ∧
    ∀ n : Nat, 1 < n → a.shape = some (.int n) → m.shape = some (.tup [n])
