import Verif.Model.Declare
/-!
# Model of the connection checks of setup

`openmdao/core/_checks.py` and the preceding loop in `Problem.setup` (`core/problem.py:502-531`). Metadata are those of `Verif.Model.Declare`; a source has in addition its `distrib_size` if
it is distributed. Error messages are reduced to their kind and the variables concerned. Absolute names are paths.
-/
namespace OpenMDAO

/-- Metadata of a source: `distrib_size` is only there for distributed variables. Serves `srcTotal` (`_checks.py:136-140`). -/
structure SrcMeta where
  md : DeclMeta
  distrib : Option Nat
  deriving DecidableEq

/-- One message. Serves `shapeErrs` (`_checks.py:113-134`). -/
inductive ChkErr where
  | count (tgt : Path)
  | distribSize (tgt : Path)
  | shape (tgt : Path)
  | tooLarge (tgt : Path)
  | negative (tgt : Path)
  | multiSource (file : Nat)
  | unconnectedFile (tgt : Path)
  deriving DecidableEq

/-- numpy `val[np.array(idxs)]` along the first axis: shape of the result. An empty list becomes an array of floats, which is no index. Serves `pullShape` (`problem.py:508-523`). -/
def takeRows (v : ChkVal) (is : List Int) : Except PyErr ChkVal :=
  match v with
  | .array (d :: ds) f =>
    if is = [] then .error .IndexError
    else if is.all fun i => decide (-(d : Int) ≤ i) && decide (i < d) then .ok (.array (is.length :: ds) f) else .error .IndexError
  | .array [] _ => .error .IndexError
  | _ => .error .TypeError

/-- Size, shape and value of a target without shape are pulled from the source (`problem.py:508-523`). -/
def pullShape (s t : DeclMeta) (idxs : Option (List Int)) : Except PyErr DeclMeta :=
  if t.shape = some (.tup []) then
    match idxs with
    | some is => do
      let v ← takeRows s.val is
      return { t with shape := some (.tup [is.length]), size := is.length, val := v }
    | none => .ok { t with shape := s.shape, size := s.size, val := s.val }
  else .ok t

/-- The loop body `problem.py:502-531`: nothing happens for targets passed by object. -/
def prepTarget (s t : DeclMeta) (idxs : Option (List Int)) : Except PyErr DeclMeta :=
  if t.pbo = some true then .ok t
  else do
    let t' ← pullShape s t idxs
    return match idxs with
      | some is => { t' with srcIdx := some is }
      | none => t'

/-- `type(a) == type(b)` for values that are no file references. Serves `checkTypes` (`_checks.py:76-98`). -/
def sameType : ChkVal → ChkVal → Bool
  | .real, .real => true
  | .array _ _, .array _ _ => true
  | .other a, .other b => a == b
  | _, _ => false

/-- `FileRef.validate` (`core/fileref.py:50-71`). -/
def validateFile (s t : ChkVal) : Except PyErr Unit :=
  match t, s with
  | .file _ bt, .file _ bs => if (bt.isSome || bs.isSome) && (bt.getD false != bs.getD false) then .error .ValueError else .ok ()
  | .file _ _, _ => .error .TypeError
  | _, _ => .error .AttributeError

/-- `isinstance(val, FileRef)`. Serves `checkTypes` (`_checks.py:76-98`). -/
def ChkVal.isFile : ChkVal → Bool
  | .file _ _ => true
  | _ => false

/-- `_check_types_match` (`_checks.py:76-98`). -/
def checkTypes (s t : DeclMeta) : Except PyErr Unit :=
  if s.val.isFile || t.val.isFile then validateFile s.val t.val
  else if sameType s.val t.val then .ok ()
  else
    match t.srcIdx with
    | some [_] => if t.val = .real then .ok () else .error .TypeError
    | _ => .error .TypeError

/-- `ssize` (`_checks.py:136-140`). -/
def srcTotal (s : SrcMeta) : Except PyErr Nat :=
  if s.md.srcIdx.isSome then
    match s.distrib with
    | some n => .ok n
    | none => .error .KeyError
  else .ok s.md.size

/-- The first part of `__check_shapes_match` (`_checks.py:113-134`). -/
def shapeErrs (tgt : Path) (s : SrcMeta) (t : DeclMeta) : Except PyErr (List ChkErr) :=
  if s.md.shape ≠ t.shape then
    match t.srcIdx with
    | some is => .ok (if is.length ≠ t.size then [.count tgt] else [])
    | none =>
      if s.md.srcIdx.isSome then
        match s.distrib with
        | some n => .ok (if t.size ≠ n then [.distribSize tgt] else [])
        | none => .error .KeyError
      else .ok [.shape tgt]
  else .ok []

/-- The second part (`_checks.py:136-152`): `max` and `min` of an empty sequence raise `ValueError`. -/
def indexErrs (tgt : Path) (s : SrcMeta) (t : DeclMeta) : Except PyErr (List ChkErr) :=
  match t.srcIdx with
  | none => .ok []
  | some [] => do
    let _ ← srcTotal s
    .error .ValueError
  | some (i :: is) => do
    let n ← srcTotal s
    return (if (n : Int) ≤ is.foldl max i then [.tooLarge tgt] else []) ++ (if is.foldl min i < 0 then [.negative tgt] else [])

/-- `_check_shapes_match` (`_checks.py:99-106`). A source without shape: `__check_val_and_shape_match` (156-162); building its message fails with `NameError`. -/
def checkShapes (tgt : Path) (s : SrcMeta) (t : DeclMeta) : Except PyErr (List ChkErr) :=
  match s.md.shape, t.shape with
  | some _, some _ => do
    let a ← shapeErrs tgt s t
    let b ← indexErrs tgt s t
    return a ++ b
  | none, some sh =>
    match s.md.val with
    | .array l _ => if some (PyShape.tup l) ≠ some sh then .error .NameError else .ok []
    | _ => .error .AttributeError
  | _, none => .ok []

/-- One connection of `check_connections` (`_checks.py:32-36`); the source's `pass_by_obj` key is tested twice, the target's never. -/
def checkConn (tgt : Path) (s : SrcMeta) (t : DeclMeta) : Except PyErr (List ChkErr) := do
  checkTypes s.md t
  if s.md.pbo = none then checkShapes tgt s t else return []

/-- The first loop of `check_connections` (`_checks.py:31-36`). -/
def checkStep (params : List (Path × DeclMeta)) (unknowns : List (Path × SrcMeta)) (errs : List ChkErr) (c : Path × Path) : Except PyErr (List ChkErr) :=
  match params.lookup c.1, unknowns.lookup c.2 with
  | some t, some s => do
    let e ← checkConn c.1 s t
    return errs ++ e
  | _, _ => .error .KeyError

/-- What is known of one file: parameters that refer to it, with whether they are connected, and the sources of those that are. Serves `fileStep` (`_checks.py:44-53`). -/
structure FileUse where
  ins : List (Path × Bool)
  outs : List Path
  deriving DecidableEq

/-- `outs.add(...)`: the second component is a function of the first. Serves `fileStep` (`_checks.py:44-53`). -/
def setAdd (l : List Path) (x : Path) : List Path := if x ∈ l then l else l ++ [x]

/-- One parameter in the second loop (`_checks.py:44-53`). -/
def fileStep (conns : List (Path × Path)) (unknowns : List (Path × SrcMeta)) (d : List (Nat × FileUse)) (p : Path × DeclMeta) : Except PyErr (List (Nat × FileUse)) :=
  match p.2.val with
  | .file f _ =>
    let u := (d.lookup f).getD ⟨[], []⟩
    match conns.lookup p.1 with
    | some s =>
      match unknowns.lookup s with
      | some m => if m.md.val.isFile then .ok (dictSet d f ⟨u.ins ++ [(p.1, true)], setAdd u.outs s⟩) else .error .AttributeError
      | none => .error .KeyError
    | none => .ok (dictSet d f ⟨u.ins ++ [(p.1, false)], u.outs⟩)
  | _ => .ok d

/-- Messages about one file (`_checks.py:55-72`). -/
def fileErrs (e : Nat × FileUse) : List ChkErr :=
  (if 1 < e.2.outs.length then [.multiSource e.1] else []) ++
    e.2.ins.flatMap fun i => if !i.2 && !e.2.outs.isEmpty then [.unconnectedFile i.1] else []

/-- `check_connections` (`_checks.py:7-74`). -/
def checkConnections (conns : List (Path × Path)) (params : List (Path × DeclMeta)) (unknowns : List (Path × SrcMeta)) : Except PyErr (List ChkErr) := do
  let a ← conns.foldlM (checkStep params unknowns) []
  let d ← params.foldlM (fileStep conns unknowns) []
  return a ++ d.flatMap fileErrs
