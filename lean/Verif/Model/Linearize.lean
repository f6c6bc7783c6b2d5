import Verif.Model.Options
import Verif.Model.Promotes
/-!
# Model of the linearization of a component and of its cached Jacobian

`System._sys_linearize` (`core/system.py:896-959`) for a component and `Component.alloc_jacobian` (`core/component.py:951-992`). `self._jacobian_cache` is one object: what `alloc_jacobian` returns is the cached
dictionary itself, so writing into it changes the cache. `None` and `{}` differ.

A user's `linearize` is one of two programs: it builds a dictionary of its own, or it calls `alloc_jacobian`, sets entries `J[u, p][i, j] = v` in some order and returns that dictionary. What it writes depends on the point
at which it is called. Not modelled: slices in the assignments, the deprecated name `jacobian`, negative indices, finite differences themselves (a function of the point, `Model/FiniteDiff`) and sub-systems.
-/
namespace OpenMDAO

/-- Values in a Jacobian dictionary: a number, an array of one or of two dimensions, or an array without dimension. Serves `jac2d` (`system.py:949-956`). -/
inductive JVal (K : Type) where
  | num (v : K)
  | arr0 (v : K)
  | arr1 (l : List K)
  | arr2 (rows : List (List K))
  deriving DecidableEq, Repr

/-- Key of a Jacobian: unknown and param (or state). Serves `normEntry` (`system.py:951-956`). -/
abbrev JKey := String × String

/-- A Jacobian dictionary. Serves `freshJac` (`component.py:966-990`). -/
abbrev JacDict (K : Type) := List (JKey × JVal K)

/-- What `alloc_jacobian` looks at in the metadata of a variable. Serves `JVar.used` (`component.py:974`). -/
structure JVar where
  name : String
  size : Nat
  pbo : Bool
  remote : Bool
  state : Bool
  deriving DecidableEq, Repr

/-- A component, as far as the allocation is concerned. Serves `freshJac` (`component.py:966-990`). -/
structure JComp where
  params : List JVar
  unknowns : List JVar
  deriving DecidableEq, Repr

/-- Neither passed by object nor remote (`component.py:974`, `979`). -/
def JVar.used (v : JVar) : Bool := !v.pbo && !v.remote

/-- `np.zeros((m, n))`. Serves `freshJac` (`component.py:966-990`). -/
def jzeros {K : Type} [Zero K] (m n : Nat) : JVal K := .arr2 (List.replicate m (List.replicate n 0))

/-- The allocation itself (`component.py:966-990`). The keys are set by `dictSet`, so a repeated key keeps its place. -/
def freshJac {K : Type} [Zero K] (c : JComp) : JacDict K :=
  (c.unknowns.filter JVar.used).foldl (fun jac u =>
    ((c.unknowns.filter JVar.used).filter JVar.state).foldl (fun jac s => dictSet jac (u.name, s.name) (jzeros u.size s.size))
      ((c.params.filter JVar.used).foldl (fun jac p => dictSet jac (u.name, p.name) (jzeros u.size p.size)) jac)) []

/-- `alloc_jacobian` (`component.py:951-992`): the cache if there is one that is not empty, a new dictionary otherwise. In both cases the result is the object in the cache. -/
def allocJac {K : Type} [Zero K] (c : JComp) (cache : Option (JacDict K)) : JacDict K :=
  match cache with
  | some (e :: es) => e :: es
  | _ => freshJac c

/-- `J[key][i, j] = v`. Serves `sysLinearize` (`system.py:917-959`). -/
structure JWrite (K : Type) where
  key : JKey
  row : Nat
  col : Nat
  val : K

/-- Setting an entry of an array. Serves `sysLinearize` (`system.py:917-959`). -/
def setEntry {K : Type} (J : JVal K) (i j : Nat) (v : K) : Except PyErr (JVal K) :=
  match J with
  | .arr2 rows =>
    match rows[i]? with
    | none => .error .IndexError
    | some r => if j < r.length then .ok (.arr2 (rows.set i (r.set j v))) else .error .IndexError
  | .num _ => .error .TypeError
  | _ => .error .IndexError

/-- One assignment. Serves `sysLinearize` (`system.py:917-959`). -/
def writeJac {K : Type} (jac : JacDict K) (w : JWrite K) : Except PyErr (JacDict K) :=
  match jac.lookup w.key with
  | none => .error .KeyError
  | some J =>
    match setEntry J w.row w.col w.val with
    | .error e => .error e
    | .ok J' => .ok (dictSet jac w.key J')

/-- A user's `linearize`. Serves `sysLinearize` (`system.py:917-959`). -/
inductive LinFn (P K : Type) where
  | own (f : P → Except PyErr (Option (JacDict K)))
  | alloc (writes : P → List (JWrite K))

/-- Calling `linearize`: the cache afterwards, and what is returned. The second program changes the cached object. Serves `sysLinearize` (`system.py:917-959`). -/
def callLinearize {P K : Type} [Zero K] (c : JComp) (lin : LinFn P K) (x : P) (cache : Option (JacDict K)) : Except PyErr (Option (JacDict K) × Option (JacDict K)) :=
  match lin with
  | .own f => match f x with
    | .error e => .error e
    | .ok r => .ok (cache, r)
  | .alloc w => match (w x).foldlM writeJac (allocJac c cache) with
    | .error e => .error e
    | .ok jac => .ok (some jac, some jac)

/-- A string option: its text, and whether the object is the interned one, as literals in the source are. Serves `isNotUser` (`system.py:929`). -/
structure PyStrObj where
  text : String
  interned : Bool
  deriving DecidableEq, Repr

/-- `self.deriv_options['type'] is not 'user'` (`system.py:929`): a comparison of objects. -/
def isNotUser (t : PyStrObj) : Bool := !(decide (t.text = "user") && t.interned)

/-- Each entry is made a two-dimensional array (`system.py:949-956`): a number becomes 1 by 1, a one-dimensional array a column. `shape[0]` of an array without dimension raises `IndexError`. -/
def jac2d {K : Type} : JVal K → Except PyErr (JVal K)
  | .num v => .ok (.arr2 [[v]])
  | .arr0 _ => .error .IndexError
  | .arr1 l => .ok (.arr2 (l.map fun v => [v]))
  | .arr2 rows => .ok (.arr2 rows)

/-- One entry of the loop of `system.py:951-956`. -/
def normEntry {K : Type} (e : JKey × JVal K) : Except PyErr (JKey × JVal K) :=
  match jac2d e.2 with
  | .error err => .error err
  | .ok v => .ok (e.1, v)

/-- The loop of `system.py:949-956`; nothing is done for `None`. -/
def normJac {K : Type} (jac : Option (JacDict K)) : Except PyErr (Option (JacDict K)) :=
  match jac with
  | none => .ok none
  | some d => match d.mapM normEntry with
    | .error e => .error e
    | .ok d' => .ok (some d')

/-- How the derivatives of a component are to be found: `deriv_options['type']` and `deriv_options['linearize']`. Serves `sysLinearize` (`system.py:917-959`). -/
structure LinOpts where
  type : PyStrObj
  linearize : Bool

/-- `_sys_linearize` of a component (`system.py:917-959`): the new value of `_jacobian_cache`. `fd` stands for `fd_jacobian` or `complex_step_jacobian`, which make a new dictionary (`system.py:937-943`). -/
def sysLinearize {P K : Type} [Zero K] (c : JComp) (o : LinOpts) (fd : P → Except PyErr (JacDict K)) (lin : LinFn P K) (x : P) (cache : Option (JacDict K)) : Except PyErr (Option (JacDict K)) :=
  if isNotUser o.type then
    match fd x with
    | .error e => .error e
    | .ok d =>
      if o.linearize then
        match callLinearize c lin x (some d) with
        | .error e => .error e
        | .ok r => normJac r.1
      else normJac (some d)
  else
    match callLinearize c lin x cache with
    | .error e => .error e
    | .ok r => normJac r.2

/-- Linearizations at several points, one after the other. The cache of a new component is `{}` (`component.py:80`). -/
def linearizeAll {P K : Type} [Zero K] (c : JComp) (o : LinOpts) (fd : P → Except PyErr (JacDict K)) (lin : LinFn P K) (xs : List P) : Except PyErr (Option (JacDict K)) :=
  xs.foldlM (fun cache x => sysLinearize c o fd lin x cache) (some [])

end OpenMDAO
