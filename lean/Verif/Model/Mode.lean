import Verif.Model.Numpy
import Mathlib.Data.List.Dedup
/-!
# Model of the choice of the derivative mode (`openmdao/core/problem.py:1187-1236`)
-/
namespace OpenMDAO

/-- Values of the `mode` argument and of `root.ln_solver.options['mode']`. Serves `chooseMode` (`problem.py:1187-1236`). -/
inductive DMode where
  | fwd | rev | auto
deriving DecidableEq

/-- `set.update` over the entries of `unknown_list` / `indep_list` (`problem.py:1195-1206`): an entry is a name or a tuple of names,
given here as the list of its names. A set is a list without duplicates; only membership matters. -/
def nameSet (entries : List (List String)) : List String := entries.flatten.dedup

/-- Loop state: `uset`, `pset`, `self._u_length`, `self._p_length`. Serves `modeStep` (`problem.py:1210-1218`). -/
structure ModeAcc where
  uset : List String
  pset : List String
  ulen : Nat
  plen : Nat
deriving DecidableEq

/-- Body of the loop over all variables (`problem.py:1210-1218`): `(promoted name, size)`. -/
def modeStep (st : ModeAcc) (v : String × Nat) : ModeAcc :=
  let st1 := if v.1 ∈ st.uset then { st with ulen := st.ulen + v.2, uset := st.uset.erase v.1 } else st
  if v.1 ∈ st1.pset then { st1 with plen := st1.plen + v.2, pset := st1.pset.erase v.1 } else st1

/-- `Problem._mode` (`problem.py:1187-1236`). `vars` are the unknowns and then the params of the root, with promoted names. -/
def chooseMode (mode lnMode : DMode) (indeps unknowns : List (List String)) (vars : List (String × Nat)) :
    Except PyErr DMode :=
  let st := vars.foldl modeStep ⟨nameSet unknowns, nameSet indeps, 0, 0⟩
  if st.uset ≠ [] then .error .RuntimeError
  else if st.pset ≠ [] then .error .RuntimeError
  else
    let calculated := if st.plen > st.ulen then DMode.rev else DMode.fwd
    .ok (if mode = .auto then (if lnMode = .auto then calculated else lnMode) else mode)

end OpenMDAO
