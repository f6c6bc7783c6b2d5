import Verif.Model.Vec
import Mathlib.Algebra.Field.Basic
/-!
# Model of `openmdao/units/units.py` (`PhysicalUnit`, `PhysicalQuantity` conversions) and of
`Problem._setup_units` (`openmdao/core/problem.py:2345-2394`)

Numbers are an arbitrary field `K` (floating point rounding is not modelled). Unit names (`names`, only used
for printing) are not modelled. Resolution of a unit string (`_find_unit`, which uses `eval`) is a parameter.
-/
namespace OpenMDAO

/-- `PhysicalUnit` (`units.py:380-420`): factor and offset to base units, exponents of the base units. -/
structure PhysUnit (K : Type) where
  factor : K
  powers : List Int
  offset : K
  deriving DecidableEq, Repr

variable {K : Type} [Field K] [DecidableEq K]

/-- `PhysicalUnit.__mul__` with another unit (`units.py:439-446`). -/
def PhysUnit.mul (u v : PhysUnit K) : Except PyErr (PhysUnit K) :=
  if u.offset ≠ 0 ∨ v.offset ≠ 0 then .error .TypeError
  else .ok ⟨u.factor * v.factor, List.zipWith (· + ·) u.powers v.powers, 0⟩

/-- `PhysicalUnit.__mul__` with a number (`units.py:439-441,447-451`). -/
def PhysUnit.mulNum (u : PhysUnit K) (c : K) : Except PyErr (PhysUnit K) :=
  if u.offset ≠ 0 then .error .TypeError
  else .ok ⟨u.factor * c, u.powers, u.offset * c⟩

/-- `PhysicalUnit.__div__` by another unit (`units.py:455-462`); a zero factor raises
`ZeroDivisionError`. -/
def PhysUnit.div (u v : PhysUnit K) : Except PyErr (PhysUnit K) :=
  if u.offset ≠ 0 ∨ v.offset ≠ 0 then .error .TypeError
  else if v.factor = 0 then .error .ZeroDivisionError
  else .ok ⟨u.factor / v.factor, List.zipWith (· - ·) u.powers v.powers, 0⟩

/-- `PhysicalUnit.__div__` by a number (`units.py:455-457,463-465`). -/
def PhysUnit.divNum (u : PhysUnit K) (c : K) : Except PyErr (PhysUnit K) :=
  if u.offset ≠ 0 then .error .TypeError
  else if c = 0 then .error .ZeroDivisionError
  else .ok ⟨u.factor / c, u.powers, 0⟩

/-- `PhysicalUnit.__rdiv__`, number divided by unit (`units.py:469-472`). There is no offset check. -/
def PhysUnit.rdivNum (c : K) (u : PhysUnit K) : Except PyErr (PhysUnit K) :=
  if u.factor = 0 then .error .ZeroDivisionError
  else .ok ⟨c / u.factor, u.powers.map (fun x => -x), 0⟩

/-- `PhysicalUnit.__pow__` with an integer exponent (`units.py:476-481`). Inverse-integer float exponents
(`units.py:482-499`) are not modelled. -/
def PhysUnit.pow (u : PhysUnit K) (n : Int) : Except PyErr (PhysUnit K) :=
  if u.offset ≠ 0 then .error .TypeError
  else if u.factor = 0 ∧ n < 0 then .error .ZeroDivisionError
  else .ok ⟨u.factor ^ n, u.powers.map (fun x => x * n), 0⟩

/-- `PhysicalUnit.conversion_factor_to` (`units.py:501-527`). -/
def PhysUnit.conversionFactorTo (u v : PhysUnit K) : Except PyErr K :=
  if u.powers ≠ v.powers then .error .TypeError
  else if u.offset ≠ v.offset ∧ u.factor ≠ v.factor then .error .TypeError
  else if v.factor = 0 then .error .ZeroDivisionError
  else .ok (u.factor / v.factor)

/-- `PhysicalUnit.conversion_tuple_to` (`units.py:530-569`). -/
def PhysUnit.conversionTupleTo (u v : PhysUnit K) : Except PyErr (K × K) :=
  if u.powers ≠ v.powers then .error .TypeError
  else if v.factor = 0 ∨ u.factor = 0 then .error .ZeroDivisionError
  else .ok (u.factor / v.factor, u.offset - v.offset * v.factor / u.factor)

/-- `PhysicalUnit.is_compatible` (`units.py:572-579`). -/
def PhysUnit.isCompatible (u v : PhysUnit K) : Bool := u.powers == v.powers

/-- `PhysicalQuantity.convert_value` (`units.py:224-227`), also `convert_units` (`units.py:836-857`) once
both unit strings are resolved. -/
def PhysUnit.convert (u v : PhysUnit K) (x : K) : Except PyErr K := do
  let (factor, offset) ← u.conversionTupleTo v
  return (x + offset) * factor

/-- `PhysicalQuantity._sum` with signs (`units.py:151-157`): result expressed in the units of the first
operand. -/
def sumQuantities (s1 s2 : K) (x : K) (u : PhysUnit K) (y : K) (v : PhysUnit K) : Except PyErr (K × PhysUnit K) := do
  let f ← v.conversionFactorTo u
  return (s1 * x + s2 * y * f, u)

/-- One connection in `Problem._setup_units` (`problem.py:2369-2394`): `units` metadata of source and target,
if present. `ok (some c)` stores `unit_conv`; `error none` is the collected setup error for incompatible
units; `error (some e)` an exception that propagates. -/
def unitConvFor (resolve : String → Except PyErr (PhysUnit K)) (srcUnits tgtUnits : Option String) :
    Except (Option PyErr) (Option (K × K)) :=
  match tgtUnits, srcUnits with
  | some tu, some su =>
    match resolve su with
    | .error e => .error (some e)
    | .ok u =>
      match resolve tu with
      | .error e => .error (some e)
      | .ok v =>
        match u.conversionTupleTo v with
        | .error .TypeError => .error none
        | .error e => .error (some e)
        | .ok (scale, offset) =>
          if scale ≠ 1 ∨ offset ≠ 0 then .ok (some (scale, offset)) else .ok none
  | _, _ => .ok none

/-- One entry of `_apply_unit_derivatives` (`vec_wrapper.py:1244-1247`): `self._dat[name].val *= val`. -/
def scaleUnitStep {β : Type} (buf : List K) (a : Acc K β) : Except PyErr (List K) :=
  match a.md.unitConv with
  | none => .ok buf
  | some c => do
    let v ← npGet buf (window a.off a.len)
    npAssign buf (window a.off a.len) (v.map (· * c.1))

/-- `TgtVecWrapper._cache_units` and `_apply_unit_derivatives` without a restriction to relevant inputs
(`vec_wrapper.py:1234-1258`): every derivative parameter with a unit conversion is multiplied by the scale. -/
def applyUnitDerivatives {β : Type} (w : VecW K β) (m : Mem K β) : Except PyErr (Mem K β) :=
  if w.derivUnits then do
    let buf ← w.dat.foldlM scaleUnitStep m.buf
    return { m with buf := buf }
  else .ok m

end OpenMDAO
