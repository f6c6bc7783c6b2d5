import Verif.Model.Units
import Verif.Model.Constraint
import Mathlib.Algebra.Order.Field.Basic
/-!
# Model of unit strings, unit libraries, unit names and arithmetic on quantities (`openmdao/units/units.py`)

`_find_unit` evaluates a unit string with python's `eval`. Python's parser is a parameter `parse`, which gives the
expression of a string or the exception that python raises; the evaluation of expressions of units is modelled.
Numbers are an arbitrary field. Exponents are integer literals (inverse-integer float exponents are not modelled),
tuples (strings with commas) are not modelled.
-/
namespace OpenMDAO

/-- Value of an evaluated unit expression: a number or a unit. Serves `UVal.mul` (`units.py:437-451`). -/
inductive UVal (K : Type) where
  | num (c : K)
  | unit (u : PhysUnit K)
  deriving DecidableEq, Repr

/-- Expressions of unit strings: numbers, names, `*`, `/` and `**` with an integer exponent. Serves `evalStr` (`units.py:627,642,661`). -/
inductive UExpr (K : Type) where
  | num (c : K)
  | var (n : Str)
  | mul (a b : UExpr K)
  | div (a b : UExpr K)
  | pow (a : UExpr K) (n : Int)
  deriving DecidableEq, Repr

variable {K : Type} [Field K] [DecidableEq K]

/-- `a * b` (`units.py:437-451`: `__mul__`, and `__rmul__` which is `__mul__`). -/
def UVal.mul : UVal K → UVal K → Except PyErr (UVal K)
  | .num a, .num b => .ok (.num (a * b))
  | .num a, .unit v => (v.mulNum a).map .unit
  | .unit u, .num b => (u.mulNum b).map .unit
  | .unit u, .unit v => (u.mul v).map .unit

/-- `a / b` (`units.py:453-472`: `__div__`, `__rdiv__`); numbers by true division. -/
def UVal.div : UVal K → UVal K → Except PyErr (UVal K)
  | .num a, .num b => if b = 0 then .error .ZeroDivisionError else .ok (.num (a / b))
  | .num a, .unit v => (PhysUnit.rdivNum a v).map .unit
  | .unit u, .num b => (u.divNum b).map .unit
  | .unit u, .unit v => (u.div v).map .unit

/-- `a ** n` for an integer literal `n` (`units.py:474-479`). -/
def UVal.pow (n : Int) : UVal K → Except PyErr (UVal K)
  | .num a => if a = 0 ∧ n < 0 then .error .ZeroDivisionError else .ok (.num (a ^ n))
  | .unit u => (u.pow n).map .unit

/-- `eval` of an expression; `lk` gives the value of a name and `undef` is the exception for an unknown name. With
`{'__builtins__': None}` it is `NameError` in python 2 and `TypeError` in python 3. Serves `evalStr` (`units.py:627,642,661`). -/
def UExpr.eval (undef : PyErr) (lk : Str → Option (UVal K)) : UExpr K → Except PyErr (UVal K)
  | .num c => .ok (.num c)
  | .var n => match lk n with
    | some v => .ok v
    | none => .error undef
  | .mul a b => do
    let x ← a.eval undef lk
    let y ← b.eval undef lk
    x.mul y
  | .div a b => do
    let x ← a.eval undef lk
    let y ← b.eval undef lk
    x.div y
  | .pow a n => do
    let x ← a.eval undef lk
    x.pow n

/-- The state of the module: `_UNIT_LIB.prefixes`, `_UNIT_LIB.unit_table` and `_UNIT_CACHE` (`units.py:617,
711-747`). -/
structure UnitLib (K : Type) where
  prefixes : List (Str × K)
  table : List (Str × PhysUnit K)
  cache : List (Str × UVal K)

/-- Names known to `eval`: the unit table. Serves `evalStr` (`units.py:627,642,661`). -/
def UnitLib.lk (lib : UnitLib K) (n : Str) : Option (UVal K) := (lib.table.lookup n).map .unit

/-- `eval(s, {'__builtins__': None}, _UNIT_LIB.unit_table)` (`units.py:627,642,661`). -/
def evalStr (undef : PyErr) (parse : Str → Except PyErr (UExpr K)) (lib : UnitLib K) (s : Str) :
    Except PyErr (UVal K) := do
  let e ← parse s
  e.eval undef lib.lk

/-- First character of `[A-Z,a-z]{1}[A-Z,a-z,0-9]*` (`units.py:636`; the commas belong to the class). -/
def isItemStart (c : Char) : Bool := ('A' ≤ c && c ≤ 'Z') || ('a' ≤ c && c ≤ 'z') || c == ','

/-- Further characters of `[A-Z,a-z]{1}[A-Z,a-z,0-9]*`. Serves `itemsFrom` (`units.py:636-639`). -/
def isItemChar (c : Char) : Bool := isItemStart c || ('0' ≤ c && c ≤ '9')

/-- `regex.findall(name)` (`units.py:636-639`), `cur` is the match in progress. -/
def itemsFrom (cur : Str) : Str → List Str
  | [] => if cur = [] then [] else [cur]
  | c :: cs =>
    if cur = [] then
      if isItemStart c then itemsFrom [c] cs else itemsFrom [] cs
    else if isItemChar c then itemsFrom (cur ++ [c]) cs
    else cur :: itemsFrom [] cs

/-- `regex.findall(name)`. Serves `findUnit` (`units.py:619-667`). -/
def unitItems (s : Str) : List Str := itemsFrom [] s

/-- `add_unit(name, unit)` with a unit (`units.py:695-709`): refused with `KeyError` if the name has another factor
or other powers. The printed name is not modelled here. -/
def addUnit (lib : UnitLib K) (name : Str) (u : PhysUnit K) : Except PyErr (UnitLib K) :=
  match lib.table.lookup name with
  | some w =>
    if w.factor ≠ u.factor ∨ w.powers ≠ u.powers then .error .KeyError
    else .ok { lib with table := dictSet lib.table name u }
  | none => .ok { lib with table := dictSet lib.table name u }

/-- `item[0:k] in prefixes and item[k:] in unit_table` (`units.py:645-646,651-652`) with the two values. -/
def prefixSplit (lib : UnitLib K) (k : Nat) (item : Str) : Option (K × PhysUnit K) :=
  match lib.prefixes.lookup (item.take k) with
  | none => none
  | some c => (lib.table.lookup (item.drop k)).map fun u => (c, u)

/-- `add_unit(item, prefix*unit)` (`units.py:647-648,653-654`); the state is returned with the exception. -/
def addPrefixed (lib : UnitLib K) (item : Str) (c : K) (u : PhysUnit K) : UnitLib K × Option PyErr :=
  match u.mulNum c with
  | .error e => (lib, some e)
  | .ok w => match addUnit lib item w with
    | .error e => (lib, some e)
    | .ok lib' => (lib', none)

/-- One pass of the loop over the names of a unit string (`units.py:638-659`). -/
def addItem (undef : PyErr) (parse : Str → Except PyErr (UExpr K)) (lib : UnitLib K) (item : Str) :
    UnitLib K × Option PyErr :=
  match evalStr undef parse lib item with
  | .ok _ => (lib, none)
  | .error _ => match prefixSplit lib 1 item with
    | some cu => addPrefixed lib item cu.1 cu.2
    | none => match prefixSplit lib 2 item with
      | some cu => addPrefixed lib item cu.1 cu.2
      | none => (lib, some .ValueError)

/-- The loop over the names of a unit string (`units.py:638-659`). -/
def addItems (undef : PyErr) (parse : Str → Except PyErr (UExpr K)) (lib : UnitLib K) :
    List Str → UnitLib K × Option PyErr
  | [] => (lib, none)
  | item :: items => match addItem undef parse lib item with
    | (lib', none) => addItems undef parse lib' items
    | (lib', some e) => (lib', some e)

/-- `isinstance(unit, PhysicalUnit)` (`units.py:665-667`). -/
def UVal.asUnit : UVal K → Except PyErr (PhysUnit K)
  | .unit u => .ok u
  | .num _ => .error .TypeError

/-- `_UNIT_CACHE[name] = unit` (`units.py:663`). -/
def UnitLib.store (lib : UnitLib K) (name : Str) (v : UVal K) : UnitLib K :=
  { lib with cache := dictSet lib.cache name v }

/-- `_find_unit` of a string (`units.py:619-667`); `ws` is white space. The state is returned with the result. -/
def findUnit (ws : Char → Bool) (undef : PyErr) (parse : Str → Except PyErr (UExpr K)) (lib : UnitLib K) (s : Str) :
    UnitLib K × Except PyErr (PhysUnit K) :=
  let name := pyStrip ws s
  match lib.cache.lookup name with
  | some v => (lib, v.asUnit)
  | none => match evalStr undef parse lib name with
    | .ok v => (lib.store name v, v.asUnit)
    | .error _ => match addItems undef parse lib (unitItems name) with
      | (lib', some e) => (lib', .error e)
      | (lib', none) => match evalStr undef parse lib' name with
        | .ok v => (lib'.store name v, v.asUnit)
        | .error e => (lib', .error e)

/-! ## Unit libraries -/

/-- A line of the `units` section (`units.py:790-808`): `name: expression, comment` with the expression parsed, or
`name: factor, base, offset, comment`. Parse errors of an expression are not modelled. -/
inductive UDef (K : Type) where
  | expr (name : Str) (e : UExpr K)
  | offset (name : Str) (factor : K) (base : Str) (offset : K)

/-- Name defined by a line. Serves `keyPower` (`units.py:599-606`). -/
def UDef.name : UDef K → Str
  | .expr n _ => n
  | .offset n _ _ _ => n

/-- Names known to `eval` in `add_unit` (`units.py:699-701`): the unit table, then `pi`. -/
def UnitLib.lkPi (pi : K) (lib : UnitLib K) (n : Str) : Option (UVal K) :=
  match lib.table.lookup n with
  | some u => some (.unit u)
  | none => if n = "pi".toList then some (.num pi) else none

/-- `add_unit(name, expression)` (`units.py:695-709`); a number has no `set_name`. -/
def addExpr (undef : PyErr) (pi : K) (lib : UnitLib K) (name : Str) (e : UExpr K) : Except PyErr (UnitLib K) :=
  match e.eval undef (lib.lkPi pi) with
  | .error err => .error err
  | .ok (.num _) => .error .AttributeError
  | .ok (.unit u) => addUnit lib name u

/-- `add_offset_unit(name, base, factor, offset)` (`units.py:675-692`), which finds the base with `_find_unit`. -/
def addOffset (ws : Char → Bool) (undef : PyErr) (parse : Str → Except PyErr (UExpr K)) (lib : UnitLib K) (name : Str)
    (factor : K) (base : Str) (offset : K) : UnitLib K × Option PyErr :=
  match findUnit ws undef parse lib base with
  | (lib', .error e) => (lib', some e)
  | (lib', .ok b) => match addUnit lib' name ⟨b.factor * factor, b.powers, offset⟩ with
    | .error e => (lib', some e)
    | .ok lib'' => (lib'', none)

/-- Definition of one unit. Serves `defPass` (`units.py:790-808`). -/
def addDef (ws : Char → Bool) (undef : PyErr) (parse : Str → Except PyErr (UExpr K)) (pi : K) (lib : UnitLib K) :
    UDef K → UnitLib K × Option PyErr
  | .expr n e => match addExpr undef pi lib n e with
    | .error err => (lib, some err)
    | .ok lib' => (lib', none)
  | .offset n f b o => addOffset ws undef parse lib n f b o

/-- One pass over definitions (`units.py:790-808` and `815-829`): those that raise `NameError` are kept, other
exceptions end the import. -/
def defPass (ws : Char → Bool) (undef : PyErr) (parse : Str → Except PyErr (UExpr K)) (pi : K) :
    UnitLib K → List (UDef K) → Except PyErr (UnitLib K × List (UDef K))
  | lib, [] => .ok (lib, [])
  | lib, d :: ds => match addDef ws undef parse pi lib d with
    | (lib', none) => defPass ws undef parse pi lib' ds
    | (lib', some .NameError) => match defPass ws undef parse pi lib' ds with
      | .error e => .error e
      | .ok (lib'', rest) => .ok (lib'', d :: rest)
    | (_, some e) => .error e

/-- The loop `while last_retry_count != retry_count and retry1` (`units.py:809-833`). `order k` is the order in which
the set of pass `k` is iterated; `last` is `none` for `-1`. Out of fuel is `RuntimeError`. -/
def retryLoop (ws : Char → Bool) (undef : PyErr) (parse : Str → Except PyErr (UExpr K)) (pi : K)
    (order : Nat → List (UDef K) → List (UDef K)) :
    Nat → Option Nat → Nat → UnitLib K → List (UDef K) → Except PyErr (UnitLib K)
  | 0, _, _, _, _ => .error .RuntimeError
  | fuel + 1, last, count, lib, retry =>
    if last ≠ some count ∧ retry ≠ [] then
      match defPass ws undef parse pi lib (order fuel retry) with
      | .error e => .error e
      | .ok (lib', rest) => retryLoop ws undef parse pi order fuel (some count) rest.length lib' rest
    else if retry ≠ [] then .error .ValueError
    else .ok lib

/-- `_update_library` (`units.py:787-833`). -/
def updateLibrary (ws : Char → Bool) (undef : PyErr) (parse : Str → Except PyErr (UExpr K)) (pi : K)
    (order : Nat → List (UDef K) → List (UDef K)) (lib : UnitLib K) (defs : List (UDef K)) :
    Except PyErr (UnitLib K) :=
  match defPass ws undef parse pi lib defs with
  | .error e => .error e
  | .ok (lib', retry) => retryLoop ws undef parse pi order (retry.length + 3) none 0 lib' retry

/-! ## Names of units -/

/-- Key of the `names` of a unit: a unit name, or `str(number)` (`units.py:446,462,468`). -/
inductive UKey (K : Type) where
  | name (n : Str)
  | num (c : K)
  deriving DecidableEq, Repr

/-- `NumberDict` (`units.py:33-95`). -/
abbrev NumDict (K : Type) := List (UKey K × Int)

/-- `sum_dict[k] = sum_dict[k] + v` for each item (`units.py:58-72`), missing entries being 0. -/
def NumDict.addAll (d : NumDict K) (sign : Int) (o : NumDict K) : NumDict K :=
  o.foldl (fun acc kv => dictSet acc kv.1 ((acc.lookup kv.1).getD 0 + sign * kv.2)) d

/-- `names * n` (`units.py:82-86`). -/
def NumDict.scale (d : NumDict K) (n : Int) : NumDict K := d.map fun kv => (kv.1, n * kv.2)

/-- Value of an expression with the names of the unit. Serves `NVal.mul` (`units.py:437-451`). -/
inductive NVal (K : Type) where
  | num (c : K)
  | unit (u : PhysUnit K) (names : NumDict K)
  deriving DecidableEq

/-- `__mul__` with the names (`units.py:437-451`). -/
def NVal.mul : NVal K → NVal K → Except PyErr (NVal K)
  | .num a, .num b => .ok (.num (a * b))
  | .num a, .unit v d => (v.mulNum a).map fun w => .unit w (NumDict.addAll d 1 [(.num a, 1)])
  | .unit u d, .num b => (u.mulNum b).map fun w => .unit w (NumDict.addAll d 1 [(.num b, 1)])
  | .unit u d, .unit v d' => (u.mul v).map fun w => .unit w (NumDict.addAll d 1 d')

/-- `__div__` and `__rdiv__` with the names (`units.py:453-472`). -/
def NVal.div : NVal K → NVal K → Except PyErr (NVal K)
  | .num a, .num b => if b = 0 then .error .ZeroDivisionError else .ok (.num (a / b))
  | .num a, .unit v d => (PhysUnit.rdivNum a v).map fun w => .unit w (NumDict.addAll [(.num a, 1)] (-1) d)
  | .unit u d, .num b => (u.divNum b).map fun w => .unit w (NumDict.addAll d 1 [(.num b, -1)])
  | .unit u d, .unit v d' => (u.div v).map fun w => .unit w (NumDict.addAll d (-1) d')

/-- `__pow__` with the names (`units.py:474-479`). -/
def NVal.pow (n : Int) : NVal K → Except PyErr (NVal K)
  | .num a => if a = 0 ∧ n < 0 then .error .ZeroDivisionError else .ok (.num (a ^ n))
  | .unit u d => (u.pow n).map fun w => .unit w (NumDict.scale d n)

/-- `eval` of an expression with the names of the units. Serves `units.py:627,661`. -/
def UExpr.evalN (undef : PyErr) (lk : Str → Option (PhysUnit K × NumDict K)) : UExpr K → Except PyErr (NVal K)
  | .num c => .ok (.num c)
  | .var n => match lk n with
    | some v => .ok (.unit v.1 v.2)
    | none => .error undef
  | .mul a b => do
    let x ← a.evalN undef lk
    let y ← b.evalN undef lk
    x.mul y
  | .div a b => do
    let x ← a.evalN undef lk
    let y ← b.evalN undef lk
    x.div y
  | .pow a n => do
    let x ← a.evalN undef lk
    x.pow n

/-- The text of a key read by python; `str` of a number is taken to be a non-negative literal. Serves `keyPower` (`units.py:599-606`). -/
def UKey.expr : UKey K → UExpr K
  | .name n => .var n
  | .num c => .num c

/-- `unit` or `unit**power` (`units.py:599-606`). -/
def keyPower (k : UKey K) (n : Int) : UExpr K := if n = 1 then k.expr else .pow k.expr n

/-- The numerator of `name` as python reads it: products associate to the left (`units.py:604-611`). -/
def numExpr (d : NumDict K) : UExpr K :=
  match (d.filter fun kv => 0 < kv.2).map fun kv => keyPower kv.1 kv.2 with
  | [] => .num 1
  | e :: es => es.foldl .mul e

/-- `PhysicalUnit.name` (`units.py:595-612`) as the expression that python reads. -/
def nameExpr (d : NumDict K) : UExpr K :=
  ((d.filter fun kv => kv.2 < 0).map fun kv => keyPower kv.1 (-kv.2)).foldl .div (numExpr d)

/-! ## Arithmetic on quantities -/

/-- Result of a product or quotient of quantities: a number if the dimensions cancel. Serves `quantityMul` (`units.py:178-186`). -/
inductive QVal (K : Type) where
  | num (c : K)
  | quantity (x : K) (u : PhysUnit K)
  deriving DecidableEq, Repr

/-- `PhysicalUnit.is_dimensionless` (`units.py:581-583`). -/
def PhysUnit.isDimensionless (u : PhysUnit K) : Bool := u.powers.all (· == 0)

/-- `PhysicalQuantity.__eq__` (`units.py:149-153`). -/
def quantityEq (x : K) (u : PhysUnit K) (y : K) (v : PhysUnit K) : Except PyErr Bool :=
  match v.conversionFactorTo u with
  | .ok f => .ok (x == y * f)
  | .error .TypeError => .ok false
  | .error e => .error e

/-- `PhysicalQuantity.__lt__` (`units.py:174-176`). -/
def quantityLt [LinearOrder K] (x : K) (u : PhysUnit K) (y : K) (v : PhysUnit K) : Except PyErr Bool := do
  let d ← sumQuantities 1 (-1) x u y v
  return decide (d.1 < 0)

/-- `PhysicalQuantity.__mul__` of two quantities (`units.py:178-186`). -/
def quantityMul (x : K) (u : PhysUnit K) (y : K) (v : PhysUnit K) : Except PyErr (QVal K) := do
  let w ← u.mul v
  return if w.isDimensionless then .num (x * y * w.factor) else .quantity (x * y) w

/-- `PhysicalQuantity.__div__` of two quantities (`units.py:190-198`). -/
def quantityDiv (x : K) (u : PhysUnit K) (y : K) (v : PhysUnit K) : Except PyErr (QVal K) :=
  if y = 0 then .error .ZeroDivisionError
  else do
    let w ← u.div v
    return if w.isDimensionless then .num (x / y * w.factor) else .quantity (x / y) w

/-- `PhysicalQuantity.__pow__` with an integer (`units.py:214-217`). -/
def quantityPow (x : K) (u : PhysUnit K) (n : Int) : Except PyErr (K × PhysUnit K) :=
  if x = 0 ∧ n < 0 then .error .ZeroDivisionError
  else do
    let w ← u.pow n
    return (x ^ n, w)

/-- `PhysicalQuantity.in_base_units` (`units.py:296-321`). The string of base names is resolved to the unit of the
same powers with factor 1; without base names the string is `'1'`, which is not a unit. -/
def inBaseUnits (x : K) (u : PhysUnit K) : Except PyErr (K × PhysUnit K) :=
  if u.isDimensionless then .error .TypeError
  else .ok (x * u.factor, ⟨1, u.powers, 0⟩)

end OpenMDAO
