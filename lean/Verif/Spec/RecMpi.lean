import Verif.Model.RecMpi
import Verif.Spec.Recorder
/-! # What recording by several processes should write -/
namespace OpenMDAO
variable {V : Type}

/-- Process `i` is the first that the variable is local to. -/
def OwnsVar (procs : List (RProc V)) (n : Str) (i : Nat) : Prop :=
  (∃ p, procs[i]? = some p ∧ n ∈ p.locals) ∧ ∀ j p, j < i → procs[j]? = some p → n ∉ p.locals

/-- The value of a variable is the one that its owner has. -/
def HasValue (procs : List (RProc V)) (vec : RecVecs V → List (Str × V)) (n : Str) (x : V) : Prop :=
  ∃ i p, OwnsVar procs n i ∧ procs[i]? = some p ∧ (n, x) ∈ vec p.v

/-- All processes know the same variables, residuals have the names of the unknowns, and every variable is local
to some process. -/
structure GoodComm (procs : List (RProc V)) (pn un : List Str) : Prop where
  params : ∀ p ∈ procs, p.v.params.map (·.1) = pn
  unknowns : ∀ p ∈ procs, p.v.unknowns.map (·.1) = un
  resids : ∀ p ∈ procs, p.v.resids.map (·.1) = un
  pnodup : pn.Nodup
  unodup : un.Nodup
  somewhere : ∀ n ∈ pn ++ un, ∃ p ∈ procs, n ∈ p.locals

/-- A vector that is switched off is not written; of one that is switched on exactly the variables with
`keep` are, each once, with the values of their owners. -/
def WritesOwned (procs : List (RProc V)) (vec : RecVecs V → List (Str × V)) (keep : Str → Prop) (on : Bool)
    (w : Option (List (Str × V))) : Prop :=
  (on = false → w = none) ∧
  (on = true → ∃ l, w = some l ∧ (∀ n x, (n, x) ∈ l ↔ HasValue procs vec n x ∧ keep n) ∧ (l.map (·.1)).Nodup)

end OpenMDAO
