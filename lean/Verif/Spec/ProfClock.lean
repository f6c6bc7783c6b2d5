import Verif.Model.ProfClock
/-!
# Specification: the time under profile
-/
namespace OpenMDAO

/-- The time during which profiling is on: between one call and the next one, or the exit, profiling is on if and only if the former is `start`. -/
def timeOn {K : Type} [AddGroup K] (exit : K) : List (Bool × K) → K
  | [] => 0
  | (on, t) :: rest => (if on then (match rest with | [] => exit | e :: _ => e.2) - t else 0) + timeOn exit rest

end OpenMDAO
