import Verif.Spec.ProfClock
import Mathlib.Algebra.Group.Basic
import Mathlib.Algebra.Group.Int.Defs
import Mathlib.Algebra.Order.Group.Defs
import Mathlib.Tactic.Abel
/-!
# C186: the total of a profile
-/
namespace OpenMDAO

/-- The time of the next call, or of the exit. -/
def nextTime {K : Type} (exit : K) (rest : List (Bool × K)) : K := (rest.head?.map Prod.snd).getD exit

theorem timeOn_cons {K : Type} [AddGroup K] (exit : K) (on : Bool) (t : K) (rest : List (Bool × K)) :
    timeOn exit ((on, t) :: rest) = (if on then nextTime exit rest - t else 0) + timeOn exit rest := by
  cases rest <;> rfl

theorem clock_fold {K : Type} [AddCommGroup K] (exit : K) (calls : List (Bool × K)) : ∀ c : ProfClock K,
    ((calls.foldl ProfClock.call c).stop exit).total = c.total + (match c.began with | none => 0 | some b => nextTime exit calls - b) + timeOn exit calls := by
  induction calls with
  | nil =>
    rintro ⟨began, total⟩
    cases began <;> simp [ProfClock.stop, nextTime, timeOn]
  | cons e calls ih =>
    obtain ⟨on, t⟩ := e
    rintro ⟨began, total⟩
    rw [List.foldl_cons, ih, timeOn_cons]
    cases on <;> cases began <;> simp [ProfClock.call, ProfClock.start, ProfClock.stop, nextTime] <;> abel

/-- **C186.** Whatever the user calls, the total in the file is the time during which profiling was on. -/
theorem C186_total {K : Type} [AddCommGroup K] (calls : List (Bool × K)) (exit : K) : profTotal calls exit = timeOn exit calls := by
  unfold profTotal
  rw [clock_fold]
  simp

/-- **C186 (bounds).** With a clock that does not go back, the total is not negative and at most the time from the first call to the exit. -/
theorem C186_bounds {K : Type} [AddCommGroup K] [PartialOrder K] [IsOrderedAddMonoid K] (t : K) (on : Bool) (calls : List (Bool × K)) (exit : K)
    (hmono : (((on, t) :: calls).map Prod.snd ++ [exit]).IsChain (· ≤ ·)) :
    0 ≤ profTotal ((on, t) :: calls) exit ∧ profTotal ((on, t) :: calls) exit ≤ exit - t := by
  rw [C186_total]
  induction calls generalizing t on with
  | nil =>
    have h : t ≤ exit := by simpa using hmono
    rw [timeOn_cons]
    cases on <;> simp [nextTime, timeOn, h]
  | cons e calls ih =>
    obtain ⟨on', t'⟩ := e
    simp only [List.map_cons, List.cons_append, List.isChain_cons_cons] at hmono
    obtain ⟨h0, h1⟩ := ih t' on' (by simpa using hmono.2)
    have h : t ≤ t' := hmono.1
    rw [timeOn_cons]
    cases on
    · simp only [Bool.false_eq_true, if_false, zero_add]
      exact ⟨h0, h1.trans (sub_le_sub_left h exit)⟩
    · simp only [if_true, nextTime, List.head?_cons, Option.map_some, Option.getD_some]
      refine ⟨add_nonneg (sub_nonneg.2 h) h0, ?_⟩
      calc t' - t + timeOn exit ((on', t') :: calls) ≤ t' - t + (exit - t') := add_le_add_right h1 _
        _ = exit - t := by abel

/-- Profiling is started twice, stopped twice, and started again before the exit. -/
example : profTotal [(true, 1), (true, 3), (false, 6), (false, 8), (true, 10)] (14 : Int) = 9 := by decide

example : (([(true, 1), (true, 3), (false, 6), (false, 8), (true, 10)] : List (Bool × Int)).map Prod.snd ++ [14]).IsChain (· ≤ ·) := by decide

end OpenMDAO
