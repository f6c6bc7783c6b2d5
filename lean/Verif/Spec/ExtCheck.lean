import Verif.Model.ExtCheck
import Verif.Spec.External
/-!
# Specification: what keeps an external code from being started
-/
namespace OpenMDAO

/-- The program is there and so are its input files. -/
def ExtOps.Ready {S : Type} (O : ExtOps S) (prog : String) (inputs : List String) (s : S) : Prop :=
  O.found prog s = true ∧ O.AllExist inputs s

/-- A word with nothing but white space in it. -/
def BlankWord (w : String) : Prop := ∀ c ∈ w.toList, c.isWhitespace = true

end OpenMDAO
