import Verif.Model.Profile
/-!
# Specification for C145 and C146: what was called, and for how long
-/
namespace OpenMDAO

section
variable {K : Type}

/-- Name, overhead, elapsed time and inner calls of a call. -/
def PCall.ovr : PCall K → K
  | .mk _ o _ _ _ => o
def PCall.t : PCall K → K
  | .mk _ _ t _ _ => t

mutual
/-- No call ends with an exception. -/
def PCall.Quiet : PCall K → Prop
  | .mk _ _ _ r cs => r = false ∧ PCall.QuietL cs
def PCall.QuietL : List (PCall K) → Prop
  | [] => True
  | c :: cs => PCall.Quiet c ∧ PCall.QuietL cs
end

mutual
/-- All calls of an execution, each with the names of the functions that are running, its own last; `f` is how names are shown. -/
def callsIn (f : Str → Str) (running : List Str) : PCall K → List (List Str × PCall K)
  | .mk name o t r cs => (running ++ [f name], .mk name o t r cs) :: callsInL f (running ++ [f name]) cs
def callsInL (f : Str → Str) (running : List Str) : List (PCall K) → List (List Str × PCall K)
  | [] => []
  | c :: cs => callsIn f running c ++ callsInL f running cs
end

variable [AddCommGroup K]

mutual
/-- The overheads of all calls inside a call, at any depth. -/
def PCall.inner : PCall K → K
  | .mk _ _ _ _ cs => PCall.innerL cs
def PCall.innerL : List (PCall K) → K
  | [] => 0
  | c :: cs => c.ovr + PCall.inner c + PCall.innerL cs
end

/-- The time of a call without the overheads inside. -/
def PCall.net (c : PCall K) : K := c.t - c.inner

/-- A process that was profiled: rank as it is shown, the calls, the total time. -/
structure ProfRun (K : Type) where
  rank : Option Str
  calls : List (PCall K)
  total : K

/-- With several files the rank is shown behind each name. -/
def ProfRun.shown (several : Bool) (r : ProfRun K) (name : Str) : Str :=
  if several then name ++ r.rank.getD [] else name

/-- All calls of all processes. -/
def profCalls (runs : List (ProfRun K)) : List (List Str × PCall K) :=
  runs.flatMap fun r => callsInL (r.shown (decide (1 < runs.length))) [] r.calls

/-- The raw file of a process. -/
def ProfRun.file (r : ProfRun K) : PFile K := ⟨r.rank, (runCalls r.calls ([], [])).2, r.total⟩

/-- Sum of `g` over the calls whose path has a property. -/
def sumOn (E : List (List Str × PCall K)) (P : List Str → Prop) [DecidablePred P] (g : PCall K → K) : K := ((E.filter fun e => P e.1).map fun e => g e.2).sum

/-- Number of the calls whose path has a property. -/
def callsWith (E : List (List Str × PCall K)) (P : List Str → Prop) [DecidablePred P] : Nat := (E.filter fun e => P e.1).length

/-- The function of a path: its last name. -/
def funcOf (p : List Str) : Str := (p.getLast?).getD []

/-- The method of a function is the text behind the last point of its name. -/
def IsMethod (m name : Str) : Prop := '.' ∉ m ∧ (name = m ∨ ∃ pre, name = pre ++ '.' :: m)

end
end OpenMDAO
