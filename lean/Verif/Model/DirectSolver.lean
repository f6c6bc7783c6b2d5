import Verif.Model.Numpy
import Mathlib.Data.Matrix.Mul
/-!
# Model of the direct linear solver

`openmdao/solvers/ln_direct.py:58-138` with the flag `_jacobian_changed` of the system (`openmdao/core/system.py:194,958`). The assembly of the matrix is modelled in `Model/Assemble`: here it is the Jacobian of the
last linearization, transposed in reverse mode. `numpy.linalg.solve` and `scipy.linalg.lu_factor`/`lu_solve` are parameters; a factorization is represented by the matrix it was made of.
-/
namespace OpenMDAO

variable {K : Type} [Field K] {n : Nat}

/-- Attributes of the solver (`ln_direct.py:57-59`). `rev` stands for the mode. -/
structure DirectState (K : Type) (n : Nat) where
  jac : Option (Matrix (Fin n) (Fin n) K)
  lup : Option (Matrix (Fin n) (Fin n) K)
  mode : Option Bool

/-- What the solver sees of the system: the Jacobian of the last linearization and `_jacobian_changed`. Serves `relinearize` (`core/system.py:896-959`). -/
structure DirectSys (K : Type) (n : Nat) where
  cur : Matrix (Fin n) (Fin n) K
  changed : Bool

/-- `System._sys_linearize` (`core/system.py:896-959`): a new Jacobian, and the flag is set. -/
def relinearize (J : Matrix (Fin n) (Fin n) K) (_ : DirectSys K n) : DirectSys K n := ⟨J, true⟩

/-- `Group.assemble_jacobian` (`core/group.py:980-1088`): in reverse mode the transpose. -/
def assembled (rev : Bool) (J : Matrix (Fin n) (Fin n) K) : Matrix (Fin n) (Fin n) K := if rev then J.transpose else J

/-- Lines 115-128: assemble and factorize if the Jacobian changed. (The matrix allocated by `setup`, lines 118-120, is replaced at once.) -/
def refresh (lu rev : Bool) (d : DirectState K n) (s : DirectSys K n) : DirectState K n × DirectSys K n :=
  if s.changed then
    let A := assembled rev s.cur
    (⟨some A, if lu then some A else d.lup, some rev⟩, { s with changed := false })
  else (d, s)

/-- The numerical libraries. Without a matrix or factorization both raise. Serves lines 115-133. -/
structure Numerics (K : Type) (n : Nat) where
  npSolve : Matrix (Fin n) (Fin n) K → (Fin n → K) → Except PyErr (Fin n → K)
  luSolve : Matrix (Fin n) (Fin n) K → (Fin n → K) → Except PyErr (Fin n → K)

/-- Lines 130-133. -/
def backSolve (N : Numerics K n) (lu : Bool) (d : DirectState K n) (rhs : Fin n → K) : Except PyErr (Fin n → K) :=
  if lu then
    match d.lup with
    | none => .error .TypeError
    | some A => N.luSolve A rhs
  else
    match d.jac with
    | none => .error .TypeError
    | some A => N.npSolve A rhs

/-- The loop over the quantities of interest (lines 112-136). -/
def directLoop {V : Type} (N : Numerics K n) (lu rev : Bool) : List (V × (Fin n → K)) → DirectState K n → DirectSys K n → Except PyErr (List (V × (Fin n → K))) × DirectState K n × DirectSys K n
  | [], d, s => (.ok [], d, s)
  | (v, rhs) :: rest, d, s =>
    let ds := refresh lu rev d s
    match backSolve N lu ds.1 rhs with
    | .error e => (.error e, ds.1, ds.2)
    | .ok x =>
      match directLoop N lu rev rest ds.1 ds.2 with
      | (.error e, d', s') => (.error e, d', s')
      | (.ok xs, d', s') => (.ok ((v, x) :: xs), d', s')

/-- `DirectSolver.solve` (lines 83-138). -/
def directSolve {V : Type} (N : Numerics K n) (lu rev : Bool) (rhs : List (V × (Fin n → K))) (d : DirectState K n) (s : DirectSys K n) :
    Except PyErr (List (V × (Fin n → K))) × DirectState K n × DirectSys K n :=
  directLoop N lu rev rhs { d with mode := some (d.mode.getD rev) } s

/-- A sequence of solves in one mode, whatever they return. Serves lines 83-138. -/
def directSolves {V : Type} (N : Numerics K n) (lu rev : Bool) (l : List (List (V × (Fin n → K)))) (d : DirectState K n) (s : DirectSys K n) : DirectState K n × DirectSys K n :=
  l.foldl (fun st rhs => (directSolve N lu rev rhs st.1 st.2).2) (d, s)

end OpenMDAO
