import Mathlib.Algebra.Group.Defs
/-!
# Model of `start` and `stop` of the profiler (`openmdao/util/profile.py:182-200`)

With the total written at exit (`:227-246`). The clock is given by the times at which the functions are called.
-/
namespace OpenMDAO

/-- `_profile_start` and `_profile_total` (`profile.py:43-45`). -/
structure ProfClock (K : Type) where
  began : Option K
  total : K

/-- `start` at a time (`profile.py:182-190`): nothing changes if profiling is on. -/
def ProfClock.start {K : Type} (c : ProfClock K) (now : K) : ProfClock K :=
  match c.began with
  | some _ => c
  | none => { c with began := some now }

/-- `stop` at a time (`profile.py:192-200`): nothing changes if profiling is off. -/
def ProfClock.stop {K : Type} [AddGroup K] (c : ProfClock K) (now : K) : ProfClock K :=
  match c.began with
  | none => c
  | some b => ⟨none, c.total + (now - b)⟩

/-- One call of the user: `start` if the flag is set, else `stop` (`profile.py:182-200`). -/
def ProfClock.call {K : Type} [AddGroup K] (c : ProfClock K) (e : Bool × K) : ProfClock K := if e.1 then c.start e.2 else c.stop e.2

/-- The total in the file, after the calls of the user and the `stop` at exit (`profile.py:227-246`). -/
def profTotal {K : Type} [AddGroup K] (calls : List (Bool × K)) (exit : K) : K :=
  ((calls.foldl ProfClock.call ⟨none, 0⟩).stop exit).total

end OpenMDAO
