import Verif.Model.Declare
import Verif.Model.Recorder
import Verif.Model.FileWrap
import Mathlib.Data.List.Sort
/-!
# Model of the construction of `ExecComp`

`openmdao/components/exec_comp.py`. Statements are character lists over ASCII. Sets are lists without repetition; where the code iterates over a set the order is a parameter.
-/
namespace OpenMDAO

/-- The longest match of `\w*(?::[_a-zA-Z]\w*)*` at the beginning and what is left (`exec_comp.py:17`). -/
def eatName : Str → Str × Str
  | [] => ([], [])
  | c :: s =>
    if isWordChar c then
      let r := eatName s
      (c :: r.1, r.2)
    else if c == ':' then
      match s with
      | [] => ([], [c])
      | d :: s' =>
        if isWordStart d then
          let r := eatName s'
          (c :: d :: r.1, r.2)
        else ([], c :: d :: s')
    else ([], c :: s)

/-- `\(?` at the beginning of a text whose blanks were passed over: whether it matched, and what is left. Serves `findNames` (`exec_comp.py:17,20`). -/
def eatParen : Str → Bool × Str
  | '(' :: s => (true, s)
  | s => (false, s)

/-- `re.findall(var_rgx, s)` with `var_rgx = '([_a-zA-Z]\w*(?::[_a-zA-Z]\w*)*[ ]*\(?)'` (`exec_comp.py:17,20`): every match as the stripped name and whether it ends with a parenthesis. The regular expression
needs no backtracking, its parts being greedy and optional. The first argument bounds the number of steps, the length of the text suffices. -/
def findNames : Nat → Str → List (Str × Bool)
  | 0, _ => []
  | _ + 1, [] => []
  | n + 1, c :: s =>
    if isWordStart c then
      let r := eatName s
      let q := eatParen (r.2.dropWhile (· == ' '))
      (c :: r.1, q.1) :: findNames n q.2
    else findNames n s

/-- `_parse_for_vars` (`exec_comp.py:19-21`); `known` are the keys of `_expr_dict`. -/
def parseForVars (known : List Str) (s : Str) : List Str :=
  (((findNames s.length s).filter fun x => !x.2 && !known.contains x.1).map Prod.fst).dedup

/-- `lhs, _ = expr.split('=', 1)` (`exec_comp.py:127`): the part before the first equals sign, a `ValueError` when there is none. -/
def lhsOf (s : Str) : Except PyErr Str := if s.contains '=' then .ok (pyHead '=' s) else .error .ValueError

/-- `sorted` on strings: by code points. Serves `execInit` (`exec_comp.py:117-158`). -/
def strLe : Str → Str → Bool
  | [], _ => true
  | _ :: _, [] => false
  | a :: s, b :: t => if a.toNat < b.toNat then true else if b.toNat < a.toNat then false else strLe s t

/-- A call of `add_output` or `add_param` (`exec_comp.py:150-158`). -/
structure ExecVar (V : Type) where
  name : Str
  isOut : Bool
  val : V
  units : Option Str
  deriving DecidableEq

/-- `set.update`. Serves `scanExpr` (`exec_comp.py:126-129`). -/
def setUpdate (s t : List Str) : List Str := (s ++ t).dedup

/-- One turn of the loop of `exec_comp.py:126-129`: outputs and all variables so far. -/
def scanExpr (known : List Str) (st : List Str × List Str) (e : Str) : Except PyErr (List Str × List Str) := do
  let lhs ← lhsOf e
  pure (setUpdate st.1 (parseForVars known lhs), setUpdate st.2 (parseForVars known e))

/-- `kwargs.update(inits)` (`exec_comp.py:131-132`). -/
def mergeInits {V : Type} (kwargs : List (Str × V)) (inits : Option (List (Str × V))) : List (Str × V) :=
  (inits.getD []).foldl (fun d kv => dictSet d kv.1 kv.2) kwargs

/-- One turn of the loop of the declarations (`exec_comp.py:150-158`). -/
def execVar {V : Type} (zero : V) (outs : List Str) (kw : List (Str × V)) (units : List (Str × Str)) (v : Str) : ExecVar V :=
  { name := v, isOut := outs.contains v, val := (kw.lookup v).getD zero, units := units.lookup v }

/-- `ExecComp.__init__` up to the declarations (`exec_comp.py:117-158`). `zero` is the default value `0.0`. The declarations themselves (name and shape checks of `Component._add_variable`) are modelled in `Model/Declare`. -/
def execInit {V : Type} (zero : V) (known exprs : List Str) (kwargs : List (Str × V)) (inits : Option (List (Str × V))) (units : List (Str × Str)) : Except PyErr (List (ExecVar V)) := do
  let st ← exprs.foldlM (scanExpr known) ([], [])
  let kw := mergeInits kwargs inits
  if kw.any fun kv => !st.2.contains kv.1 then .error .RuntimeError
  else if units.any fun kv => !st.2.contains kv.1 then .error .RuntimeError
  else pure ((st.2.insertionSort fun a b => strLe a b = true).map (execVar zero st.1 kw units))

/-- `s.replace(':', '%d' % i)`. Serves `validNameLoop` (`exec_comp.py:29-33`). -/
def noColon (i : Nat) (s : Str) : Str := s.flatMap fun c => if c = ':' then natStr i else [c]

/-- The loop of `_valid_name` (`exec_comp.py:29-33`) from a given number on. -/
def validNameLoop (check s : Str) : Nat → Nat → Str
  | 0, i => noColon i s
  | n + 1, i => if hasSub (noColon i s) check then validNameLoop check s n (i + 1) else noColon i s

/-- `' '.join(exprs)`. Serves `validName` (`exec_comp.py:23-33`). -/
def joinExprs (exprs : List Str) : Str := pyJoin ' ' exprs

/-- `_valid_name` (`exec_comp.py:23-33`). The loop is bounded by a number of turns by which it has ended (`validName_fresh` shows that the bound is never what ends it). -/
def validName (s : Str) (exprs : List Str) : Str := validNameLoop (joinExprs exprs) s (10 ^ ((joinExprs exprs).length + 1)) 0

/-- `from_colons` for one variable (`exec_comp.py:166-170`). -/
def fromColons (exprs : List Str) (n : Str) : Str := if n.contains ':' then validName n exprs else n

/-- `self._to_colons` after the loop over the variables (`exec_comp.py:166-172`), the set being passed in some order. -/
def toColons (exprs vars : List Str) : List (Str × Str) := vars.foldl (fun d n => dictSet d (fromColons exprs n) n) []

/-- `s.replace(a, b)` for a text `a` that is not empty: from left to right, `skip` counts the characters of a found `a` still to be passed over. Serves `compileText` (`exec_comp.py:181-182`). -/
def replaceStr (a b : Str) : Nat → Str → Str
  | _, [] => []
  | k + 1, _ :: cs => replaceStr a b k cs
  | 0, c :: cs => if a.isPrefixOf (c :: cs) then b ++ replaceStr a b (a.length - 1) cs else c :: replaceStr a b 0 cs

/-- `_compile_exprs` for one statement (`exec_comp.py:181-182`): the names with colons are replaced one after the other, in the order in which the set is passed. -/
def compileText (exprs order : List Str) (e : Str) : Str := order.foldl (fun t n => replaceStr n (fromColons exprs n) 0 t) e

end OpenMDAO
