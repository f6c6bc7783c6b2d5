import Verif.Model.Recorder
import Mathlib.Data.List.Sort
/-! # The recorder that writes text (`openmdao/recorders/dump_recorder.py`)

Values are given by the text that `str` makes of them. -/
namespace OpenMDAO

/-- `sorted(iteritems(d))`: names are different, so they alone decide. Serves `partText` (`dump_recorder.py:133-151`). -/
def byName {X : Type} (d : List (Str × X)) : List (Str × X) := d.insertionSort fun a b => a.1 ≤ b.1

/-- `_write_success_info`, openmdao/recorders/dump_recorder.py:156-163.  The conditional expression binds weaker
than `%`: what is written for a failed iteration is `'no'` alone, without the words before it and the end of the
line. -/
def successText (success : Bool) (msg : Str) : Str :=
  (if success then "Iteration succeeded: ".toList ++ "yes".toList ++ ['\n'] else "no".toList) ++
    (if !success then "Error msg: ".toList ++ msg ++ ['\n'] else [])

/-- `write("  {0}: {1}\n".format(name, str(val)))`. Serves `partText` (`dump_recorder.py:133-151`). -/
def varText (e : Str × Str) : Str := "  ".toList ++ e.1 ++ ": ".toList ++ e.2 ++ ['\n']

/-- One of the parts of `record_iteration`, dump_recorder.py:133-151: nothing when it is switched off. -/
def partText (title : Str) : Option (List (Str × Str)) → Str
  | none => []
  | some d => title ++ ['\n'] ++ (byName d).flatMap varText

/-- `record_iteration`, dump_recorder.py:102-154, once the vectors are filtered: `ts` is the time stamp.
Simplified: a name that is missing in a vector raises before anything is written. -/
def dumpText (ts : Str) (c : Coord) (success : Bool) (msg : Str) (d : RecData Str) : Str :=
  "Timestamp: ".toList ++ ts ++ ['\n'] ++
    ("Iteration Coordinate: ".toList ++ formatCoord c ++ ['\n'] ++
      (successText success msg ++ (partText "Params:".toList d.p ++
        (partText "Unknowns:".toList d.u ++ partText "Resids:".toList d.r))))

/-- `record_iteration` with its filters. `dump_recorder.py:102-151`. -/
def dumpIter (o : RecOpts) (filtered : List (Str × Filt)) (ts : Str) (c : Coord) (success : Bool) (msg : Str)
    (v : RecVecs Str) : Except PyErr Str :=
  (recIteration o filtered c v).map (dumpText ts c success msg)

/-- A line of `record_derivatives`. Serves `derivsText` (`dump_recorder.py:186-192`). -/
def derivText (of : Str) (e : Str × Str) : Str :=
  "  ".toList ++ of ++ " wrt ".toList ++ e.1 ++ ": ".toList ++ e.2 ++ ['\n']

/-- What `record_derivatives` is given: a dictionary of dictionaries, or an array (its text). Serves `derivsText` (`dump_recorder.py:186-192`). -/
inductive DumpDerivs where
  | dict (d : List (Str × List (Str × Str)))
  | arr (text : Str)

/-- The lines about derivatives, dump_recorder.py:186-192. -/
def derivsText : DumpDerivs → Str
  | .dict d => (byName d).flatMap fun e => (byName e.2).flatMap (derivText e.1)
  | .arr t => "  ".toList ++ t ++ " \n".toList

/-- `record_derivatives`, dump_recorder.py:165-195. -/
def dumpDerivs (ts : Str) (c : Coord) (success : Bool) (msg : Str) (d : DumpDerivs) : Str :=
  "Timestamp: ".toList ++ ts ++ ['\n'] ++
    ("Iteration Coordinate: ".toList ++ formatCoord c ++ "/Derivs\n".toList ++
      (successText success msg ++ ("Derivatives:\n".toList ++ derivsText d)))

/-- `parts[-2] += s`. Serves `dumpFile` (`dump_recorder.py:66-73`). -/
def addToLastButOne (s : Str) : List Str → List Str
  | [] => []
  | [p] => [p]
  | [p, q] => [p ++ s, q]
  | p :: q :: r :: ps => p :: addToLastButOne s (q :: r :: ps)

/-- The file that process `rank` opens, dump_recorder.py:66-73, with several processes. -/
def dumpFile (out : Str) (rank : Nat) : Str :=
  if '.' ∈ out then pyJoin '.' (addToLastButOne ('_' :: natStr rank) (pySplit '.' out))
  else out ++ natStr rank

end OpenMDAO
