import Verif.Model.SolverBase
/-! # What a user expects of the messages of solvers -/
namespace OpenMDAO

/-- All components of the system come to their end. -/
inductive Ends : RunSys → Prop
  | comp : Ends (.comp none)
  | group (f : Frame) (subs : List RunSys) (h : ∀ s ∈ subs, Ends s) : Ends (.group f subs)

/-- The run of a system stops in a component that raises `e`; `fs` are the solvers of the groups around that
component, the innermost one first.  All components that run before it come to their end. -/
inductive StopsIn : RunSys → Raised → List Frame → Prop
  | comp (e : Raised) : StopsIn (.comp (some e)) e []
  | group (f : Frame) (before : List RunSys) (s : RunSys) (behind : List RunSys) (e : Raised)
      (fs : List Frame) (hb : ∀ b ∈ before, Ends b) (hs : StopsIn s e fs) :
      StopsIn (.group f (before ++ s :: behind)) e (fs ++ [f])

/-- Some element is infinite or not a number. -/
def WrapVal.bad : WrapVal → Bool
  | .arr fs => fs.any not
  | .num f => !f

/-- The names of the numeric variables with an element that is not finite, in the order of the vector. -/
def badNames (vs : List WrapVar) : List Str := (vs.filter fun v => !v.pbo && v.val.bad).map (·.name)

/-- The sentence about one of the vectors; nothing when all is finite. -/
def sentence (what : String) (names : List Str) : Str :=
  if names = [] then []
  else ("\nThe following " ++ what ++ " are nonfinite: ").toList ++ reprNames names

/-- What a user should read about the state of a solver behind the message of the error. -/
def report (f : Frame) : Str :=
  sentence "unknowns" (badNames f.unknowns) ++ sentence "resids" (badNames f.resids) ++
    sentence "params" (badNames f.params)

/-- No numeric variable of the solver lives in another process. -/
def Frame.Local (f : Frame) : Prop :=
  ∀ v ∈ f.unknowns ++ f.resids ++ f.params, v.pbo = false → ∃ fs, v.val = .arr fs

end OpenMDAO
