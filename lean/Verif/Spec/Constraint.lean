import Verif.Model.Paths
import Mathlib.Algebra.Field.Defs
/-!
# Arithmetic expressions of Python

The part of Python's grammar for sums, products, signs, powers, calls and parentheses over names and numbers, as a relation between a text and its value.
-/
namespace OpenMDAO

/-- Levels of the grammar, from `+` and `-` inwards (Python: `arith_expr`, `term`, `factor`, `power`, `atom`). -/
inductive PyLevel where
  | sum | term | factor | power | atom
  deriving DecidableEq

/-- What names, numbers and functions mean, and how `**` is computed. -/
structure PyEnv (K : Type) where
  name : Str → K
  lit : Str → K
  call : Str → List K → K
  pow : K → K → K

/-- Characters of names. -/
def nameChar (c : Char) : Bool := c == '_' || c == ':' || c == '.' || c.isAlphanum

/-- `1.5e-3`: digits and points, then perhaps an exponent. -/
def IsLit (s : Str) : Prop :=
  ∃ m x : Str, s = m ++ x ∧ m ≠ [] ∧ (∀ c ∈ m, c.isDigit = true ∨ c = '.') ∧
    (x = [] ∨ ∃ (e : Char) (sg d : Str), x = e :: (sg ++ d) ∧ (e = 'e' ∨ e = 'E') ∧ (sg = [] ∨ sg = ['+'] ∨ sg = ['-']) ∧ d ≠ [] ∧ ∀ c ∈ d, c.isDigit = true)

/-- A name: it does not begin with a digit, a point or a colon. -/
def IsName (s : Str) : Prop := (∃ c t, s = c :: t ∧ (c == '_' || c.isAlpha) = true) ∧ ∀ c ∈ s, nameChar c = true

mutual
/-- `PyE env l s x`: the text `s` is an expression of level `l` with value `x`. -/
inductive PyE {K : Type} [Field K] (env : PyEnv K) : PyLevel → Str → K → Prop
  | name (s : Str) : IsName s → PyE env .atom s (env.name s)
  | lit (s : Str) : IsLit s → PyE env .atom s (env.lit s)
  | paren (s : Str) (x : K) : PyE env .sum s x → PyE env .atom (['('] ++ s ++ [')']) x
  | call (f s : Str) (xs : List K) : IsName f → PyArgs env s xs → PyE env .atom (f ++ ['('] ++ s ++ [')']) (env.call f xs)
  | pow (a b : Str) (x y : K) : PyE env .atom a x → PyE env .factor b y → PyE env .power (a ++ ['*', '*'] ++ b) (env.pow x y)
  | neg (s : Str) (x : K) : PyE env .factor s x → PyE env .factor (['-'] ++ s) (-x)
  | pos (s : Str) (x : K) : PyE env .factor s x → PyE env .factor (['+'] ++ s) x
  | mul (a b : Str) (x y : K) : PyE env .term a x → PyE env .factor b y → PyE env .term (a ++ ['*'] ++ b) (x * y)
  | div (a b : Str) (x y : K) : PyE env .term a x → PyE env .factor b y → PyE env .term (a ++ ['/'] ++ b) (x / y)
  | add (a b : Str) (x y : K) : PyE env .sum a x → PyE env .term b y → PyE env .sum (a ++ ['+'] ++ b) (x + y)
  | sub (a b : Str) (x y : K) : PyE env .sum a x → PyE env .term b y → PyE env .sum (a ++ ['-'] ++ b) (x - y)
  | term (s : Str) (x : K) : PyE env .term s x → PyE env .sum s x
  | factor (s : Str) (x : K) : PyE env .factor s x → PyE env .term s x
  | power (s : Str) (x : K) : PyE env .power s x → PyE env .factor s x
  | atom (s : Str) (x : K) : PyE env .atom s x → PyE env .power s x
  | before (l : PyLevel) (s : Str) (x : K) : PyE env l s x → PyE env l ([' '] ++ s) x
  | after (l : PyLevel) (s : Str) (x : K) : PyE env l s x → PyE env l (s ++ [' ']) x

/-- Arguments of a call. -/
inductive PyArgs {K : Type} [Field K] (env : PyEnv K) : Str → List K → Prop
  | one (s : Str) (x : K) : PyE env .sum s x → PyArgs env s [x]
  | more (s t : Str) (x : K) (xs : List K) : PyE env .sum s x → PyArgs env t xs → PyArgs env (s ++ [','] ++ t) (x :: xs)
end

end OpenMDAO
