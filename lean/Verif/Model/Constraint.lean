import Verif.Model.FileWrap
import Verif.Model.Declare
/-!
# Model of `ConstraintComp`

`openmdao/components/constraint.py:56-114`: the text of a constraint is turned into the text of an expression. White space is given by `ws`; `isZero s` is `float(s) == 0` (false when `float` raises).
-/
namespace OpenMDAO

/-- `s.strip()`. Serves `parseLoop` (`constraint.py:102-112`). -/
def pyStrip (ws : Char → Bool) (s : Str) : Str := rstrip ws (s.dropWhile ws)

/-- The loop of `_parse_constraint` (`constraint.py:102-112`): left-hand side, comparator, right-hand side. -/
def parseLoop (ws : Char → Bool) (s : Str) : List Str → Except PyErr (Str × Str × Str)
  | [] => .error .ValueError
  | op :: ops =>
    match splitStr op 0 [] s with
    | [a, b] => if op = ['=', '='] then .error .ValueError else .ok (pyStrip ws a, op, pyStrip ws b)
    | _ => parseLoop ws s ops

/-- `_parse_constraint` (`constraint.py:98-114`). -/
def parseConstraint (ws : Char → Bool) (s : Str) : Except PyErr (Str × Str × Str) :=
  parseLoop ws s [['=', '='], ['>', '='], ['<', '='], ['>'], ['<'], ['=']]

/-- `_combined_expr` (`constraint.py:69-95`). -/
def combinedExpr (ws : Char → Bool) (isZero : Str → Bool) (s : Str) : Except PyErr Str :=
  match parseConstraint ws s with
  | .error e => .error e
  | .ok (lhs, op, rhs) =>
    let fs := if (['>'] : Str).isPrefixOf op then (rhs, lhs) else (lhs, rhs)
    if isZero fs.1 then .ok (['-', '('] ++ fs.2 ++ [')'])
    else if isZero fs.2 then .ok fs.1
    else .ok (fs.1 ++ ['-', '('] ++ fs.2 ++ [')'])

/-- The statement handed to `ExecComp` (`constraint.py:65-66`): `'%s = %s' % (out, newexpr)`. -/
def constraintStmt (ws : Char → Bool) (isZero : Str → Bool) (out s : Str) : Except PyErr Str :=
  match combinedExpr ws isZero s with
  | .error e => .error e
  | .ok e => .ok (out ++ [' ', '=', ' '] ++ e)

end OpenMDAO
