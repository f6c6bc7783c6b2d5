import Verif.Model.ExecComp
/-! # The statements of an `ExecComp` as python reads them

A statement is a list of tokens: names (which may contain colons), numbers, and single other characters, blanks included. -/
namespace OpenMDAO

/-- Tokens of a statement. -/
inductive ETok where
  | name (n : Str)
  | num (ds : Str)
  | sym (c : Char)
  deriving DecidableEq

/-- The characters of a token. -/
def ETok.text : ETok → Str
  | .name n => n
  | .num ds => ds
  | .sym c => [c]

/-- The text of a statement. -/
def tokText (ts : List ETok) : Str := ts.flatMap ETok.text

/-- The first token that is not a blank is an opening parenthesis: the name before it is called. -/
def callNext : List ETok → Bool
  | .sym c :: ts => if c = ' ' then callNext ts else c = '('
  | _ => false

/-- The names that stand for variables: those not called. -/
def varNames : List ETok → List Str
  | [] => []
  | .name n :: ts => if callNext ts then varNames ts else n :: varNames ts
  | _ :: ts => varNames ts

/-- All names. -/
def allNames : List ETok → List Str
  | [] => []
  | .name n :: ts => n :: allNames ts
  | _ :: ts => allNames ts

/-- The list is how the text is divided into tokens: names are words joined by colons and end where no character or piece can be added; numbers are written with digits and points only
(no exponent) and no name follows immediately; other characters are not word characters. -/
def Tokens : List ETok → Prop
  | [] => True
  | .name n :: ts => varNameOk n = true ∧ (match ts with
      | [] => True
      | .sym c :: ts' => c ≠ ':' ∨ (match ts' with
          | .name _ :: _ => False
          | _ => True)
      | _ => False) ∧ Tokens ts
  | .num ds :: ts => ds ≠ [] ∧ (∀ c ∈ ds, c.isDigit = true ∨ c = '.') ∧ (match ts with
      | .name _ :: _ => False
      | _ => True) ∧ Tokens ts
  | .sym c :: ts => isWordChar c = false ∧ Tokens ts

/-- Rename the names of a statement. -/
def renameToks (f : Str → Str) : List ETok → List ETok := List.map fun t => match t with
  | .name n => .name (f n)
  | t => t

end OpenMDAO
