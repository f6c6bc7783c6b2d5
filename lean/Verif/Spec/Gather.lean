import Verif.Model.Numpy
/-! Vocabulary of the statement C59. -/
namespace OpenMDAO

variable {κ α : Type} [DecidableEq κ]

/-- Process `r` holds a nonempty value `v` for entry `k`. -/
def Holds (Js : List (List (κ × List α))) (r : Nat) (k : κ) (v : List α) : Prop :=
  ∃ J, Js[r]? = some J ∧ J.lookup k = some v ∧ v ≠ []

/-- `r` is the lowest-ranked process that holds entry `k`, with value `v`. -/
def LowestHolder (Js : List (List (κ × List α))) (r : Nat) (k : κ) (v : List α) : Prop :=
  Holds Js r k v ∧ ∀ r' < r, ∀ w, ¬ Holds Js r' k w

/-- Some process lists the entry without having its value. -/
def Needed (Js : List (List (κ × List α))) (k : κ) : Prop := ∃ J ∈ Js, J.lookup k = some []

end OpenMDAO
