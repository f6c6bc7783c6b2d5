import Verif.Model.Paths
/-! # What solvers say: floating point errors and printed norms (`openmdao/solvers/solver_base.py`)

Names are strings of characters.  Numbers of vectors are not needed: of each element it is only asked
whether it is finite (`numpy.isfinite`). -/
namespace OpenMDAO

/-- What the accessor `_dat[var].val` of a vector holds, openmdao/core/vec_wrapper.py:66-91: a flat array
(`arr`; one flag per element, true when it is finite), or a python number (`num`).  A number is what a scalar
parameter of a component that runs in another process (`remote`) keeps, since no slice is laid over it
(vec_wrapper.py:1108-1111, 1193-1201); unknowns and residuals of such components are empty arrays
(vec_wrapper.py:838-841).  Not modelled: parameters of such components with more than one dimension. -/
inductive WrapVal where
  | arr (finite : List Bool)
  | num (finite : Bool)
  deriving DecidableEq, Repr

/-- A variable of one of the vectors that the solver was given: its name, whether its metadata says
`pass_by_obj`, and its value. Serves `nonfinite` (`solver_base.py:32-49`). -/
structure WrapVar where
  name : Str
  pbo : Bool
  val : WrapVal
  deriving DecidableEq, Repr

/-- The exceptions that pass through a solver.  `fpe msg seen` is a `FloatingPointError` with its message, and
whether it has the attribute `seen`; `other` is any other exception (a number stands for its class, and its
message), which the wrapper does not catch. Serves `errorWrap` (`solver_base.py:18-64`). -/
inductive Raised where
  | fpe (msg : Str) (seen : Bool)
  | other (cls : Nat) (msg : Str)
  deriving DecidableEq, Repr

/-- `all(np.isfinite(val))`, openmdao/solvers/solver_base.py:36, 42, 48: python's `all` needs something to
iterate over; for a number it raises `TypeError` (none). -/
def allFinite : WrapVal → Option Bool
  | .arr fs => some (fs.all id)
  | .num _ => none

/-- One of the three loops that collect names, solver_base.py:32-49: variables by object are passed over. -/
def nonfinite : List WrapVar → Option (List Str)
  | [] => some []
  | v :: vs =>
    if v.pbo then nonfinite vs
    else match allFinite v.val with
      | none => none
      | some true => nonfinite vs
      | some false => (nonfinite vs).map (v.name :: ·)

/-- What python prints for a name within a list (`repr`), for names without quotes and backslashes. Serves `addNames` (`solver_base.py:51-57`). -/
def quoted (n : Str) : Str := '\'' :: n ++ ['\'']

/-- The names of a list behind commas. Serves `addNames` (`solver_base.py:51-57`). -/
def quotedRest : List Str → Str
  | [] => []
  | n :: ns => ", ".toList ++ quoted n ++ quotedRest ns

/-- `'%s' % names` for a list of names. Serves `addNames` (`solver_base.py:51-57`). -/
def reprNames : List Str → Str
  | [] => "[]".toList
  | n :: ns => '[' :: quoted n ++ quotedRest ns ++ [']']

/-- `if x: msg += '\nThe following … are nonfinite: %s' % x`, solver_base.py:51-57. -/
def addNames (msg : Str) (what : Str) (names : List Str) : Str :=
  if names = [] then msg
  else msg ++ "\nThe following ".toList ++ what ++ " are nonfinite: ".toList ++ reprNames names

/-- A nonlinear solver at work on its system: whether its method `solve` is decorated (`RunOnce`,
`NLGaussSeidel` and `Newton` are, run_once.py:26, nl_gauss_seidel.py:77, newton.py:117; `Brent` and solvers of
users are not), and the three vectors as they are when an exception comes out of it. -/
structure Frame where
  wrapped : Bool
  unknowns : List WrapVar
  resids : List WrapVar
  params : List WrapVar
  deriving DecidableEq, Repr

/-- The class number of `TypeError` among the other exceptions. Serves `errorWrap` (`solver_base.py:18-64`). -/
def typeErrorCls : Nat := 0

/-- The message of python 2.7 and 3 for `all` of something that is not iterable. Serves `errorWrap` (`solver_base.py:18-64`). -/
def notIterable : Str := "'numpy.bool_' object is not iterable".toList

/-- The wrapper made by `error_wrap_nl`, solver_base.py:18-64, of what came out of the solver (`none`: it came
to its end).  The class of the new error is `FloatingPointError`. -/
def errorWrap (f : Frame) : Option Raised → Option Raised
  | none => none
  | some (.other c m) => some (.other c m)
  | some (.fpe m true) => some (.fpe m true)
  | some (.fpe m false) =>
    match nonfinite f.unknowns with
    | none => some (.other typeErrorCls notIterable)
    | some us =>
      match nonfinite f.resids with
      | none => some (.other typeErrorCls notIterable)
      | some rs =>
        match nonfinite f.params with
        | none => some (.other typeErrorCls notIterable)
        | some ps =>
          some (.fpe (addNames (addNames (addNames m "unknowns".toList us) "resids".toList rs)
            "params".toList ps) true)

/-- What a solver lets out, with and without the decorator. Serves `runSys` (`openmdao/core/group.py:733-781`). -/
def frameOut (f : Frame) (r : Option Raised) : Option Raised :=
  if f.wrapped then errorWrap f r else r

/-- Systems while they run: a component, with what its `solve_nonlinear` raises, and a group, with its solver
and its subsystems in the order they run in.  Simplified: one sweep over the subsystems; solvers that iterate
make several, and the exception comes out of the last one. Serves `runSys` (`openmdao/core/group.py:733-781`). -/
inductive RunSys where
  | comp (r : Option Raised)
  | group (f : Frame) (subs : List RunSys)

mutual
/-- `solve_nonlinear` of a system: of a component its own, of a group its solver around
`children_solve_nonlinear`, openmdao/core/group.py:733-781, run_once.py:26-54. -/
def runSys : RunSys → Option Raised
  | .comp r => r
  | .group f subs => frameOut f (runSysSubs subs)
/-- `children_solve_nonlinear`: the subsystems one after the other, until one raises. Serves `runSys` (`openmdao/core/group.py:733-781`). -/
def runSysSubs : List RunSys → Option Raised
  | [] => none
  | s :: ss => match runSys s with
    | some e => some e
    | none => runSysSubs ss
end

/-! ## Printed norms -/

/-- The name that a system is printed under, solver_base.py:135-139. -/
def normName (pathname : Str) : Str :=
  if pathname = [] then "root".toList else "root.".toList ++ pathname

/-- Blanks in front, solver_base.py:142-150: three for each dot of the name and for each extra level, and two
for each level of preconditioning. -/
def normIndent (pathname : Str) (indent precon : Nat) : Nat :=
  3 * ((normName pathname).count '.' + indent) + 2 * precon

/-- The line that `print_norm` prints, solver_base.py:135-166.  `iter` and `body` are the texts of the
iteration number and of what follows the bar: the message, or the two numbers; `unorm` is the text of `u_norm`
when it is given and not zero. -/
def normLine (pathname : Str) (indent precon : Nat) (solver solverString iter body : Str)
    (unorm : Option Str) : Str :=
  List.replicate (normIndent pathname indent precon) ' ' ++ '[' :: (normName pathname ++
    ("] ".toList ++ solver ++ ": ".toList ++
      (if precon > 0 then "PRECON:".toList ++ solverString else solverString) ++ "   ".toList ++ iter ++
      " | ".toList ++ body ++ (match unorm with
        | none => []
        | some u => " (".toList ++ u ++ ")".toList)))

end OpenMDAO
