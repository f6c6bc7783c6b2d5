import Verif.Model.External
/-!
# Model of `ExternalCode.check_setup` (`openmdao/components/external_code.py:104-129`) and of the steps of `solve_nonlinear` before the process is started

The operating system is `ExtOps` of `Model/External`. The text of the report is kept as a list of its parts.
-/
namespace OpenMDAO

/-- `options['command']`: a string or a list of strings (`external_code.py:189-192` has both). -/
inductive ExtCmd where
  | str (s : String)
  | list (ws : List String)
  deriving DecidableEq, Repr

/-- What a loop over `options['command']` gives, and what `[0]` takes the first of: for a string its characters. Serves `extCheck` (`external_code.py:114-118`). -/
def ExtCmd.items : ExtCmd → List String
  | .str s => s.toList.map String.singleton
  | .list ws => ws

/-- `not c.strip()`. Only the white space of ASCII, unlike Python. Serves `extCheck` (`external_code.py:114`). -/
def isBlank (w : String) : Bool := w.toList.all Char.isWhitespace

/-- The parts of the report (`external_code.py:116`, `122-123`, `128-129`). -/
inductive ExtReport where
  | empty
  | notFound (prog : String)
  | missing (files : List String)
  deriving DecidableEq, Repr

/-- The report on the command (`external_code.py:113-123`). The last case of an empty list is never reached. -/
def extCheckCmd {S : Type} (O : ExtOps S) (cmd : ExtCmd) (s : S) : List ExtReport :=
  if (cmd.items.filter fun c => !isBlank c) = [] then [.empty]
  else match cmd.items with
    | prog :: _ => if O.found prog s then [] else [.notFound prog]
    | [] => []

/-- `check_setup` (`external_code.py:104-129`). -/
def extCheck {S : Type} (O : ExtOps S) (cmd : ExtCmd) (inputs : List String) (s : S) : List ExtReport :=
  extCheckCmd O cmd s ++ (if missingFiles O inputs s = [] then [] else [.missing (missingFiles O inputs s)])

/-- `program_to_execute` of `_execute_local`, none if the command is empty (`external_code.py:137`, `189-192`). -/
def ExtCmd.program : ExtCmd → Option String
  | .str s => if s = "" then none else some s
  | .list [] => none
  | .list (w :: _) => some w

/-- `solve_nonlinear` up to the start of the process: the exception, or none if the process is started (`external_code.py:137-150`, `188-199`). -/
def extBefore {S : Type} (O : ExtOps S) (cmd : ExtCmd) (inputs : List String) (failHard : Bool) (s : S) : Option PyErr :=
  match cmd.program with
  | none => some .ValueError
  | some prog =>
    if missingFiles O inputs s ≠ [] then some (if failHard then .RuntimeError else .AnalysisError)
    else if O.found prog s then none
    else some .ValueError

end OpenMDAO
