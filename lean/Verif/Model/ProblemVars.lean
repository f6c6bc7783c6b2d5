import Verif.Model.Connections
import Verif.Model.Flt
/-!
# Model of `Problem.__getitem__`, `Problem.__setitem__`, `_check_input_diffs` and `_get_ubc_vars` (`openmdao/core/problem.py:54-87,151-178,291-360,401-437`, `system.py:245-271`)

Arrays are lists; python objects live in a heap and a param that is not connected holds a reference to one (`vec_wrapper.py:93-96,1207-1226`: such params are passed by object). One process; sub-problems and file variables are left out.
-/
namespace OpenMDAO

/-- The systems below the root with the params vectors of the components: name of the param and address of the object it refers to. The params vector of a group is keyed by dotted names, so it has no entry for a plain one. Serves `PTree.recGet` (`system.py:245-253`). -/
inductive PTree where
  | comp (params : List (String × Nat))
  | group (subs : List (String × PTree))

/-- `System._rec_get_param` (`system.py:245-253`): descend along the path. A component has an empty `_subsystems`. -/
def PTree.recGet : PTree → Path → Except PyErr Nat
  | .comp ps, [x] => match ps.lookup x with
    | some a => .ok a
    | none => .error .KeyError
  | .group subs, s :: y :: rest => match subs.lookup s with
    | some t => t.recGet (y :: rest)
    | none => .error .KeyError
  | _, _ => .error .KeyError

/-- `System._rec_set_param` (`system.py:266-271`) and `Accessor._set_pbo` (`vec_wrapper.py:299-313`): the reference is replaced. -/
def PTree.recSet : PTree → Path → Nat → Except PyErr PTree
  | .comp ps, [x], a => match ps.lookup x with
    | some _ => .ok (.comp (dictSet ps x a))
    | none => .error .KeyError
  | .group subs, s :: y :: rest, a => match subs.lookup s with
    | some t => match t.recSet (y :: rest) a with
      | .ok t' => .ok (.group (dictSet subs s t'))
      | .error e => .error e
    | none => .error .KeyError
  | _, _, _ => .error .KeyError

/-- State of a problem after setup. Serves `ProbSt.get` (`problem.py:54-70`). -/
structure ProbSt (K : Type) where
  /-- objects of the program -/
  heap : List (List K)
  /-- `root.unknowns` by promoted name -/
  unknowns : List (String × List K)
  /-- `root.params`: params of connections between the children of the root, by absolute name -/
  rootParams : List (String × List K)
  /-- promoted name to absolute names -/
  toAbsP : List (String × List String)
  /-- `_probdata.dangling`; the value is a python set -/
  dangling : List (String × List String)
  tree : PTree

variable {K : Type}

/-- `_get_root_var` (`problem.py:54-70`): the value of a variable. `dangling[name][0]` indexes a set. -/
def ProbSt.get (split : String → Path) (st : ProbSt K) (name : String) : Except PyErr (List K) :=
  match st.unknowns.lookup name with
  | some v => .ok v
  | none => match st.rootParams.lookup name with
    | some v => .ok v
    | none => match st.toAbsP.lookup name with
      | some (p :: _) => match st.tree.recGet (split p) with
        | .ok a => match st.heap[a]? with
          | some v => .ok v
          | none => .error .AttributeError
        | .error e => .error e
      | some [] => .error .IndexError
      | none => match st.dangling.lookup name with
        | some _ => .error .TypeError
        | none => .error .KeyError

/-- `Accessor._set_arr` (`vec_wrapper.py:299-301`): `self.val[:] = value.flat` copies; one entry is broadcast. -/
def assignArr (old new : List K) : Except PyErr (List K) :=
  if new.length = old.length then .ok new
  else match new with
    | [x] => .ok (old.map fun _ => x)
    | _ => .error .ValueError

/-- One param of the loop of `_set_root_var` (`problem.py:80-85`). -/
def setParamStep (split : String → Path) (a : Nat) (t : PTree) (p : String) : Except PyErr PTree := t.recSet (split p) a

/-- `_set_root_var` (`problem.py:72-87`) with the object at address `a`. -/
def ProbSt.set (split : String → Path) (st : ProbSt K) (name : String) (a : Nat) : Except PyErr (ProbSt K) :=
  match st.unknowns.lookup name with
  | some old => match st.heap[a]? with
    | none => .error .AttributeError
    | some v => match assignArr old v with
      | .ok w => .ok { st with unknowns := dictSet st.unknowns name w }
      | .error e => .error e
  | none => match st.dangling.lookup name with
    | some ps => match ps.foldlM (setParamStep split a) st.tree with
      | .ok t => .ok { st with tree := t }
      | .error e => .error e
    | none => .error .KeyError

/-! ## `_check_input_diffs` -/

/-- Initial value of a param: an array, or another object (its type and a float). Serves `InitVal.differs` (`problem.py:316-326`). -/
inductive InitVal (K : Type) where
  | arr (shape : List Nat) (data : List (Flt K))
  | obj (ty : String) (x : Flt K)

/-- python `x == y` for floats: NaN is not equal to itself. Serves `InitVal.differs` (`problem.py:316-326`). -/
def Flt.eq [DecidableEq K] : Flt K → Flt K → Bool
  | .nan, _ => false
  | _, .nan => false
  | x, y => decide (x = y)

/-- The comparison of an initial value with that of the target (`problem.py:316-326`), `true` if they differ. -/
def InitVal.differs [DecidableEq K] (tgt v : InitVal K) : Bool :=
  match tgt, v with
  | .arr s d, .arr s' d' => !(decide (s' = s) && (List.zipWith Flt.eq d' d).all id)
  | .arr _ _, .obj _ _ => true
  | .obj _ _, .arr _ _ => true
  | .obj ty x, .obj ty' x' => decide (ty ≠ ty') || !(Flt.eq x' x)

/-- Units of the other inputs that differ from those of the target, without `None` (`problem.py:303-314,333-337`), as positions are compared with `tgt_idx`, which never differs from itself. -/
def unitsDiff (units : String → Option String) (tgt : String) (l : List String) : Bool :=
  l.any fun n => decide (units n ≠ units tgt) && (units n).isSome

/-- Kinds of messages of `_check_input_diffs`. Serves `diffStep` (`problem.py:295-364`). -/
inductive DiffErr where
  | units (tgt : String)
  | vals (tgt : String)
  deriving DecidableEq

/-- One entry of `_input_inputs` (`problem.py:295-364`). -/
def diffStep [DecidableEq K] (units : String → Option String) (val : String → InitVal K) (e : String × List String) : List DiffErr :=
  (if unitsDiff units e.1 e.2 then [DiffErr.units e.1] else []) ++
    if e.2.any (fun n => (val e.1).differs (val n)) then [DiffErr.vals e.1] else []

/-- The first loop of `_check_input_diffs`. The checks of step sizes and forms are left out. `problem.py:290-364`. -/
def checkInputDiffs [DecidableEq K] (units : String → Option String) (val : String → InitVal K) (inputInputs : List (String × List String)) : List DiffErr :=
  inputInputs.flatMap (diffStep units val)

/-! ## `_get_ubc_vars` -/

/-- The longest proper prefix that names a system (`problem.py:415-422`): `range(len(parts)-1, 0, -1)`. -/
def ownerIdx (order : List (Path × Nat)) (parts : Path) : Nat → Except PyErr (Path × Nat)
  | 0 => .error .RuntimeError
  | i + 1 => match order.lookup (parts.take (i + 1)) with
    | some k => .ok (parts.take (i + 1), k)
    | none => ownerIdx order parts i

/-- One connection (`problem.py:412-435`): appended to the list if the source runs after the target. -/
def ubcStep (order : List (Path × Nat)) (st : List Path × List Path) (c : Path × Path) : Except PyErr (List Path × List Path) :=
  match ownerIdx order c.1 (c.1.length - 1) with
  | .error e => .error e
  | .ok (tsys, ti) => match ownerIdx order c.2 (c.2.length - 1) with
    | .error e => .error e
    | .ok (_, si) => if si > ti then .ok (st.1 ++ [c.1], if tsys ∈ st.2 then st.2 else st.2 ++ [tsys]) else .ok st

/-- `_get_ubc_vars` (`problem.py:401-437`): `systems` in the order of `root.subsystems(recurse=True)`; a later entry of the dict comprehension replaces an earlier one. -/
def getUbcVars (systems : List Path) (conns : List (Path × Path)) : Except PyErr (List Path × List Path) :=
  let order := (systems.zipIdx).foldl (fun d e => dictSet d e.1 e.2) []
  conns.foldlM (ubcStep order) ([], [])

end OpenMDAO
