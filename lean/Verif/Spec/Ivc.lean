import Verif.Model.Ivc
import Verif.Spec.Declare
/-!
# Specification: the arguments of `IndepVarComp`
-/
namespace OpenMDAO

/-- What an element asks for: a name, and its value with further arguments. -/
inductive IvcItem.Says : IvcItem → List Char → DeclArgs → Prop
  | pair {n v} : Says (.pair n v) n { val := some v }
  | triple {n v kw} : Says (.triple n v kw) n { kw with val := some v }

/-- The name in an element. -/
def IvcItem.name : IvcItem → Option (List Char)
  | .pair n _ => some n
  | .triple n _ _ => some n
  | _ => none

/-- The element alone is in order: a tuple of two or three with a valid name and acceptable arguments. -/
def IvcItem.Good (it : IvcItem) : Prop := ∃ n a, it.Says n a ∧ ValidName n ∧ ArgsOk .output a

end OpenMDAO
