import Verif.Model.Promotes
import Mathlib.Logic.Function.Basic
/-!
# Model of `SubProblem` (`openmdao/components/subproblem.py`)

The wrapped problem is abstract: setting a value by name, running, reading unknowns and residuals, each of which may raise. `_reraise` keeps the class of an exception, so exceptions are passed on unchanged here; communicators, directories and cleanup are left out.
-/
namespace OpenMDAO

variable {S V : Type}

/-- What the component uses of the wrapped problem: `prob[name] = value`, `run()`, `root.unknowns[name]` and `root.resids[name]`. Serves `subSetParams` (`subproblem.py:256-257`). -/
structure SubOps (S V : Type) where
  set : String → V → S → Except PyErr S
  run : S → S × Option PyErr
  unknown : String → S → Except PyErr V
  resid : String → S → Except PyErr V

/-- What the wrapped problem knows about names after its `setup`: keys of `_dangling`, of `root.params` and of `root.unknowns` with `_canset_`. Serves `subCheckParam` (`subproblem.py:162-166`). -/
structure SubNames where
  dangling : List String
  params : List String
  unknowns : List (String × Bool)

/-- The check after the setup of the wrapped problem (`subproblem.py:162-166`). -/
def subCheckParam (N : SubNames) (p : String) : Except PyErr Unit :=
  if p ∈ N.dangling ∨ (N.unknowns.lookup p).isSome then .ok () else .error .RuntimeError

/-- One parameter in `_setup_variables` (`subproblem.py:189-201`), collecting `_unknowns_as_params`. -/
def subParamStep (N : SubNames) (acc : List String) (p : String) : Except PyErr (List String) :=
  if p ∈ N.params then .ok acc
  else if p ∈ N.dangling then .ok acc
  else match N.unknowns.lookup p with
    | none => .error .KeyError
    | some canset => if canset then .ok (acc ++ [p]) else .error .TypeError

/-- One unknown (`subproblem.py:215-217`). -/
def subUnknownStep (N : SubNames) (u : String) : Except PyErr Unit :=
  match N.unknowns.lookup u with
  | none => .error .KeyError
  | some _ => .ok ()

/-- Both steps of the setup: `_setup_communicators` (`subproblem.py:162-166`) and `_setup_variables` (`subproblem.py:168-232`); `_unknowns_as_params`. -/
def subSetup (N : SubNames) (prms unks : List String) : Except PyErr (List String) := do
  prms.forM (subCheckParam N)
  let asP ← prms.foldlM (subParamStep N) []
  unks.forM (subUnknownStep N)
  return asP

/-- Values of the component by name. Serves `subPull` (`subproblem.py:262-264`). -/
structure SubVals (V : Type) where
  params : String → V
  unknowns : String → V
  resids : String → V

/-- `for name in self._prob_params: prob[name] = params[name]` (`subproblem.py:256-257`, `298-299`); state reached and exception. -/
def subSetParams (P : SubOps S V) (vals : String → V) : List String → S → S × Option PyErr
  | [], s => (s, none)
  | n :: rest, s => match P.set n (vals n) s with
    | .error e => (s, some e)
    | .ok s' => subSetParams P vals rest s'

/-- The unknowns and their residuals are copied back (`subproblem.py:262-264`). -/
def subPull (P : SubOps S V) (s : S) : List String → SubVals V → SubVals V × Option PyErr
  | [], w => (w, none)
  | n :: rest, w => match P.unknown n s with
    | .error e => (w, some e)
    | .ok v => match P.resid n s with
      | .error e => ({ w with unknowns := Function.update w.unknowns n v }, some e)
      | .ok r => subPull P s rest { w with unknowns := Function.update w.unknowns n v, resids := Function.update w.resids n r }

/-- Parameters that are unknowns of the wrapped problem are updated (`subproblem.py:267-268`). -/
def subBack (P : SubOps S V) (s : S) : List String → SubVals V → SubVals V × Option PyErr
  | [], w => (w, none)
  | n :: rest, w => match P.unknown n s with
    | .error e => (w, some e)
    | .ok v => subBack P s rest { w with params := Function.update w.params n v }

/-- The part of `solve_nonlinear` after the run (`subproblem.py:262-268`). -/
def subCollect (P : SubOps S V) (unks asP : List String) (s : S) (w : SubVals V) : SubVals V × Option PyErr :=
  match subPull P s unks w with
  | (w1, some e) => (w1, some e)
  | (w1, none) => subBack P s asP w1

/-- `SubProblem.solve_nonlinear` (`subproblem.py:234-270`): state of the wrapped problem, values of the component and exception. -/
def subSolve (P : SubOps S V) (prms unks asP : List String) (s : S) (w : SubVals V) : S × SubVals V × Option PyErr :=
  match subSetParams P w.params prms s with
  | (s1, some e) => (s1, w, some e)
  | (s1, none) => match P.run s1 with
    | (s2, some e) => (s2, w, some e)
    | (s2, none) => (s2, subCollect P unks asP s2 w)

/-- The inner loop of `_jac_to_flat_dict`. Serves `jacToFlat` (`dict_util.py:4-25`). -/
def flatRow {B : Type} (acc : List ((String × String) × B)) (o : String × List (String × B)) : List ((String × String) × B) :=
  o.2.foldl (fun a e => dictSet a (o.1, e.1) e.2) acc

/-- `_jac_to_flat_dict` (`dict_util.py:4-25`). -/
def jacToFlat {B : Type} (jac : List (String × List (String × B))) : List ((String × String) × B) := jac.foldl flatRow []

/-- `linearize` (`subproblem.py:272-307`): `grad` is the problem's `calc_gradient` for all params and unknowns. -/
def subLinearize {B : Type} (P : SubOps S V) (prms : List String) (grad : S → Except PyErr (List (String × List (String × B)))) (s : S) (w : SubVals V) : Except PyErr (List ((String × String) × B)) :=
  match subSetParams P w.params prms s with
  | (_, some e) => .error e
  | (s1, none) => match grad s1 with
    | .error e => .error e
    | .ok J => .ok (jacToFlat J)

end OpenMDAO
