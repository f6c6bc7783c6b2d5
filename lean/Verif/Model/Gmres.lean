import Verif.Model.LinearGS
/-!
# Model of `ScipyGMRES` (`openmdao/solvers/scipy_gmres.py:92-230`), `MultLinearSolver.mult` (`solver_base.py:259-303`) and `Group.solve_linear` (`group.py:887-959`)

Vectors and the linear operator are those of `Verif.Model.LinearGS`, one state per variable of interest. `scipy.sparse.linalg.gmres` is outside the repository: it is a parameter, a program that may ask for products with the operator and with the
preconditioner in any order and finally returns a vector and `info`. `rel_inputs` is `None`. Printing is left out.
-/
namespace OpenMDAO

variable {ι π K V : Type} [Fintype ι] [Fintype π] [DecidableEq ι] [Field K]

/-- A run of `scipy.sparse.linalg.gmres`: calls of `A.matvec`, of `M.matvec`, and the result `(x, info)`. Serves `gmresLoop` (`scipy_gmres.py:117-180`). -/
inductive Krylov (W : Type) where
  | done (x : W) (info : Int)
  | matvec (v : W) (k : W → Krylov W)
  | psolve (v : W) (k : W → Krylov W)

/-- `MultLinearSolver.mult` (`solver_base.py:264-299`): set the incoming vector, clear the result and the params, apply; the state afterwards and the result vector. -/
def multLin (G : LinGroup ι π K) (fwd : Bool) (arg : ι → K) (s : GSState ι π K) : (ι → K) × GSState ι π K :=
  if fwd then
    let t := groupApplyFwd G { s with du := arg, dr := fun _ => 0, dp := fun _ => 0 }
    (t.dr, t)
  else
    let t := groupApplyRev G { s with dr := arg, du := fun _ => 0, dp := fun _ => 0 }
    (t.du, t)

/-- `solver.solve` for one right-hand side: result and state afterwards. Serves `solveLinearOne` (`group.py:936-959`). -/
abbrev LinSolver (ι π K : Type) := (ι → K) → GSState ι π K → Except PyErr (ι → K) × GSState ι π K

/-- The solution vector (`dumat` forward, `drmat` reverse) is overwritten (`group.py:958-959`). -/
def putSol (fwd : Bool) (x : ι → K) (s : GSState ι π K) : GSState ι π K := if fwd then { s with du := x } else { s with dr := x }

/-- `Group.solve_linear` for one variable of interest of a group with `deriv_options['type'] == 'user'` (`group.py:936-959`): a right-hand side below 1e-15 is not solved for. -/
def solveLinearOne [LinearOrder K] (nrm : (ι → K) → K) (tiny : K) (fwd : Bool) (P : LinSolver ι π K) (s : GSState ι π K) : Except PyErr Unit × GSState ι π K :=
  let rhs := if fwd then s.dr else s.du
  if nrm rhs < tiny then (.ok (), putSol fwd (fun _ => 0) s)
  else match P rhs s with
    | (.error e, t) => (.error e, t)
    | (.ok x, t) => (.ok (), putSol fwd x t)

/-- `_precon` (`scipy_gmres.py:182-232`): the argument goes to the right-hand side, params are cleared, the solution vector is returned. -/
def preconLin [LinearOrder K] (nrm : (ι → K) → K) (tiny : K) (fwd : Bool) (P : LinSolver ι π K) (arg : ι → K) (s : GSState ι π K) : Except PyErr (ι → K) × GSState ι π K :=
  let s1 : GSState ι π K := if fwd then { s with dr := arg, dp := fun _ => 0 } else { s with du := arg, dp := fun _ => 0 }
  match solveLinearOne nrm tiny fwd P s1 with
  | (.error e, t) => (.error e, t)
  | (.ok _, t) => (.ok (lnSol fwd t), t)

/-- The run of `gmres` with the callbacks of the solver. Without a preconditioner `M` is the identity. Serves `gmresLoop` (`scipy_gmres.py:117-180`). -/
def runKrylov [LinearOrder K] (G : LinGroup ι π K) (nrm : (ι → K) → K) (tiny : K) (fwd : Bool) (P : Option (LinSolver ι π K)) : Krylov (ι → K) → GSState ι π K → Except PyErr ((ι → K) × Int) × GSState ι π K
  | .done x info, s => (.ok (x, info), s)
  | .matvec v k, s => runKrylov G nrm tiny fwd P (k (multLin G fwd v s).1) (multLin G fwd v s).2
  | .psolve v k, s => match P with
    | none => runKrylov G nrm tiny fwd P (k v) s
    | some P' => match preconLin nrm tiny fwd P' v s with
      | (.error e, t) => (.error e, t)
      | (.ok w, t) => runKrylov G nrm tiny fwd P (k w) t

/-- The loop of `ScipyGMRES.solve` over the right-hand sides (`scipy_gmres.py:117-180`); `prog` is `gmres` with the options of the solver. -/
def gmresLoop [LinearOrder K] [DecidableEq V] (G : LinGroup ι π K) (nrm : (ι → K) → K) (tiny : K) (fwd : Bool) (P : Option (LinSolver ι π K)) (prog : (ι → K) → Krylov (ι → K)) (errOnMax : Bool) :
    List (V × (ι → K)) → (V → GSState ι π K) → Except PyErr (List (V × (ι → K) × Bool)) × (V → GSState ι π K)
  | [], st => (.ok [], st)
  | (voi, rhs) :: rest, st => match runKrylov G nrm tiny fwd P (prog rhs) (st voi) with
    | (.error e, t) => (.error e, Function.update st voi t)
    | (.ok (x, info), t) =>
      if 0 < info ∧ errOnMax = true then (.error .AnalysisError, Function.update st voi t)
      else if info < 0 then (.error .RuntimeError, Function.update st voi t)
      else match gmresLoop G nrm tiny fwd P prog errOnMax rest (Function.update st voi t) with
        | (.error e, st2) => (.error e, st2)
        | (.ok l, st2) => (.ok ((voi, x, decide (0 < info)) :: l), st2)

/-- `LinearGaussSeidel` as a solver; without iterations `sol_buf` is empty and `solve_linear` fails with `KeyError`. What it leaves in the vectors is a parameter. `ln_gauss_seidel.py:73-236`, `group.py:956-959`. -/
def lnAsSolver [LinearOrder K] (G : LinGroup ι π K) (S : GSSolve ι π K) (nrm : (ι → K) → K) (o : LnOpts K) (order : List Nat) (fwd : Bool) (after : (ι → K) → GSState ι π K → GSState ι π K) : LinSolver ι π K := fun rhs s =>
  (match (lnSolve G S nrm o rhs order fwd s).sol with
    | none => .error .KeyError
    | some x => .ok x, after rhs s)

/-! ## `Group.solve_linear` for several variables of interest -/

/-- Store the solutions (`group.py:958-959`). -/
def storeSol [DecidableEq V] (out : List (V × (ι → K))) (sol : V → ι → K) (voi : V) : Except PyErr (V → ι → K) :=
  match out.lookup voi with
  | none => .error .KeyError
  | some x => .ok (Function.update sol voi x)

/-- `Group.solve_linear` (`group.py:921-959`): `user` is `deriv_options['type'] is 'user'`. In a group that is finite-differenced the `return` is inside the loop over the variables of interest. -/
def groupSolveLinear [LinearOrder K] [DecidableEq V] (user : Bool) (nrm : (ι → K) → K) (tiny : K) (solver : List (V × (ι → K)) → Except PyErr (List (V × (ι → K)))) (vois : List V) (rhs sol : V → ι → K) : Except PyErr (V → ι → K) :=
  if user then
    let buf := vois.filter fun v => !decide (nrm (rhs v) < tiny)
    let sol1 := (vois.filter fun v => decide (nrm (rhs v) < tiny)).foldl (fun s v => Function.update s v fun _ => 0) sol
    if buf.isEmpty then .ok sol1
    else match solver (buf.map fun v => (v, rhs v)) with
      | .error e => .error e
      | .ok out => buf.foldlM (storeSol out) sol1
  else match vois with
    | [] => .ok sol
    | v :: _ => .ok (Function.update sol v fun i => - rhs v i)

end OpenMDAO
