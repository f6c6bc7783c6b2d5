import Verif.Model.ByObj
/-! Vocabulary of the statement C163. -/
namespace OpenMDAO

variable {κ α : Type} [DecidableEq κ]

/-- Variable `x` is local on process `p`. -/
def BoHolds (locals : List (List κ)) (x : κ) (p : Nat) : Prop := ∃ T, locals[p]? = some T ∧ x ∈ T

/-- Process `q` is the one process `p` has to get the value of `src` from: itself if it has the variable, otherwise the lowest one that has. -/
def BoFrom (locals : List (List κ)) (src : κ) (p q : Nat) : Prop :=
  BoHolds locals src q ∧ (BoHolds locals src p → q = p) ∧ (¬ BoHolds locals src p → ∀ r < q, ¬ BoHolds locals src r)

/-- A connection for which process `p` needs a message from process `q`. -/
def BoNeeds (locals : List (List κ)) (conns : List (κ × κ)) (p q : Nat) (c : κ × κ) : Prop :=
  c ∈ conns ∧ BoHolds locals c.1 p ∧ ¬ BoHolds locals c.2 p ∧ BoFrom locals c.2 p q

end OpenMDAO
