import Verif.Model.Numpy
import Mathlib.Data.Rat.Defs
import Mathlib.Algebra.Order.Ring.Rat
/-!
# Model of `openmdao/util/options.py` (`OptionsDictionary`) and of `DerivOptionsDict`
(`openmdao/core/system.py:33-59,139-175`)

Option values are python scalars; other objects are opaque with a type tag and an identity. Description texts,
`read_only` and warnings are not modelled. Python 3 comparison semantics (`TypeError` when comparing values
without an order).
-/
namespace OpenMDAO

/-- Python values that are used as option values. `nan` is `float('nan')`. Serves `Decl` (`options.py:63-71`). -/
inductive OptVal where
  | none
  | bool (b : Bool)
  | int (i : Int)
  | float (q : ℚ)
  | nan
  | str (s : String)
  | obj (type : String) (id : Nat)
  deriving DecidableEq

/-- `type(value)`. Serves `checkOpt` (`options.py:175-219`). -/
def OptVal.pyType : OptVal → String
  | .none => "NoneType"
  | .bool _ => "bool"
  | .int _ => "int"
  | .float _ => "float"
  | .nan => "float"
  | .str _ => "str"
  | .obj t _ => t

/-- numeric value for comparisons (python bools are numbers). Serves `checkOpt` (`options.py:175-219`). -/
def OptVal.num? : OptVal → Option ℚ
  | .bool b => some (if b then 1 else 0)
  | .int i => some i
  | .float q => some q
  | _ => Option.none

/-- python `a == b`. Serves `checkOpt` (`options.py:175-219`). -/
def OptVal.pyEq (a b : OptVal) : Bool :=
  match a.num?, b.num? with
  | some x, some y => x == y
  | _, _ => match a, b with
    | .none, .none => true
    | .str s, .str t => s == t
    | .obj t i, .obj t' j => t == t' && i == j
    | _, _ => false

/-- python `a < b`: NaN compares false with every number. Serves `checkOpt` (`options.py:175-219`). -/
def OptVal.pyLt (a b : OptVal) : Except PyErr Bool :=
  match a, b with
  | .str s, .str t => .ok (s < t)
  | .nan, .nan => .ok false
  | .nan, b => if b.num?.isSome then .ok false else .error .TypeError
  | a, .nan => if a.num?.isSome then .ok false else .error .TypeError
  | a, b => match a.num?, b.num? with
    | some x, some y => .ok (x < y)
    | _, _ => .error .TypeError

/-- The declared constraints of an option (`options.py:63-71`). -/
structure Decl where
  lower : Option OptVal := none
  upper : Option OptVal := none
  values : Option (List OptVal) := none
  lockOnSetup : Bool := false

/-- The entry stored per option (`options.py:63-71`). -/
structure Opt where
  val : OptVal
  decl : Decl
  changed : Bool

/-- plain `OptionsDictionary` or the subclass `DerivOptionsDict`. Serves `OptDict` (`solvers/newton.py:177,252`). -/
inductive DictKind where
  | plain | deriv
  deriving DecidableEq

/-- An `OptionsDictionary` instance; `instLocked` is the instance attribute `locked` if it was ever assigned
on the instance (Newton does, `solvers/newton.py:177,252`), shadowing the class attribute. -/
structure OptDict where
  kind : DictKind
  options : List (String × Opt)
  depr : List (String × String)
  instLocked : Option Bool

/-- `self._options[name]`. Serves `OptDict.addOption` (`options.py:37-77`). -/
def OptDict.find (d : OptDict) (name : String) : Option Opt := d.options.lookup name

/-- in-place update of an existing key of `_options`. Serves `OptDict.setPlain` (`options.py:123-137`). -/
def OptDict.update (d : OptDict) (name : String) (f : Opt → Opt) : OptDict :=
  { d with options := d.options.map fun p => if p.1 = name then (p.1, f p.2) else p }

/-- `_check` (`options.py:175-219`), with `opt['val']` and the declaration of `opt`. -/
def checkOpt (locked : Bool) (value cur : OptVal) (c : Decl) : Except PyErr Unit :=
  if locked && c.lockOnSetup then .error .RuntimeError
  else match c.values with
    | some vs => if vs.any (fun x => value.pyEq x) then .ok () else .error .ValueError
    | none =>
      if value.pyType ≠ cur.pyType then .error .ValueError
      else do
        match c.lower with
        | some l => if ← value.pyLt l then throw .ValueError
        | none => pure ()
        match c.upper with
        | some u => if ← u.pyLt value then throw .ValueError
        | none => pure ()

/-- `add_option` (`options.py:37-77`). -/
def OptDict.addOption (locked : Bool) (name : String) (value : OptVal) (c : Decl) (d : OptDict) :
    Except PyErr OptVal × OptDict :=
  match d.find name with
  | some _ => (.error .ValueError, d)
  | none =>
    match checkOpt locked value value c with
    | .error e => (.error e, d)
    | .ok _ => (.ok .none, { d with options := d.options ++ [(name, ⟨value, c, false⟩)] })

/-- `remove_option` (`options.py:79-91`). -/
def OptDict.removeOption (name : String) (d : OptDict) : Except PyErr OptVal × OptDict :=
  (.ok .none, { d with options := d.options.filter fun p => p.1 ≠ name })

/-- `_add_deprecation` (`options.py:93-107`); a later entry for the same old name overrides. -/
def OptDict.addDeprecation (old new : String) (d : OptDict) : Except PyErr OptVal × OptDict :=
  match d.find new with
  | none => (.error .NameError, d)
  | some _ => (.ok .none, { d with depr := (old, new) :: d.depr })

/-- `__getitem__` (`options.py:109-118`). -/
def OptDict.getItem (name : String) (d : OptDict) : Except PyErr OptVal :=
  match d.find name with
  | some o => .ok o.val
  | none =>
    match d.depr.lookup name with
    | none => .error .KeyError
    | some new =>
      match d.find new with
      | some o => .ok o.val
      | none => .error .KeyError

/-- `__contains__` (`options.py:120-121`). -/
def OptDict.contains (name : String) (d : OptDict) : Bool :=
  (d.find name).isSome || (d.depr.lookup name).isSome

/-- `get` (`options.py:146-161`). Note the lookup of the *old* name in the deprecated branch. -/
def OptDict.get (name : String) (dflt : OptVal) (d : OptDict) : Except PyErr OptVal :=
  match d.find name with
  | some o => .ok o.val
  | none =>
    match d.depr.lookup name with
    | some _ =>
      match d.find name with
      | some o => .ok o.val
      | none => .error .KeyError
    | none => .ok dflt

/-- `OptionsDictionary.__setitem__` (`options.py:123-137`). -/
def OptDict.setPlain (locked : Bool) (name : String) (value : OptVal) (d : OptDict) :
    Except PyErr OptVal × OptDict :=
  let target : Option String :=
    match d.find name with
    | some _ => some name
    | none => d.depr.lookup name
  match target with
  | none => (.error .KeyError, d)
  | some n =>
    match d.find n with
    | none => (.error .KeyError, d)
    | some o =>
      match checkOpt locked value o.val o.decl with
      | .error e => (.error e, d)
      | .ok _ => (.ok .none, d.update n fun o => { o with val := value, changed := true })

/-- `DEFAULT_STEP_SIZE_FD`, `DEFAULT_STEP_SIZE_CS` (`system.py:29-30`). -/
def stepFD : ℚ := 1 / 10 ^ 6
/-- Serves `OptDict.defaultStep` (`system.py:43-51`). -/
def stepCS : ℚ := 1 / 10 ^ 30

/-- The reaction of `DerivOptionsDict.__setitem__` to a new type (`system.py:43-51` and `53-59`): `key` is
`'step_size'` or `'check_step_size'`. -/
def OptDict.defaultStep (key : String) (value : OptVal) (d : OptDict) : Except PyErr OptVal × OptDict :=
  match d.find key with
  | none => (.error .KeyError, d)
  | some o =>
    if o.changed then (.ok .none, d)
    else if value.pyEq (.str "fd") then (.ok .none, d.update key fun o => { o with val := .float stepFD })
    else if value.pyEq (.str "cs") then (.ok .none, d.update key fun o => { o with val := .float stepCS })
    else (.ok .none, d)

/-- `__setitem__` by class (`options.py:123-137`, `system.py:37-59`). -/
def OptDict.setItem (locked : Bool) (name : String) (value : OptVal) (d : OptDict) :
    Except PyErr OptVal × OptDict :=
  match d.setPlain locked name value with
  | (.error e, d') => (.error e, d')
  | (.ok r, d') =>
    match d.kind with
    | .plain => (.ok r, d')
    | .deriv =>
      if name = "type" then d'.defaultStep "step_size" value
      else if name = "check_type" then d'.defaultStep "check_step_size" value
      else (.ok r, d')

/-- Operations on one dictionary. Serves `OptDict.step` (`options.py:37-225`). -/
inductive DOp where
  | addOption (name : String) (value : OptVal) (c : Decl)
  | remove (name : String)
  | addDeprecation (old new : String)
  | setItem (name : String) (value : OptVal)
  | getItem (name : String)
  | get (name : String) (dflt : OptVal)
  | contains (name : String)

/-- One operation; `locked` is the value of `self.locked` at that time. Serves `options.py:37-225`. -/
def OptDict.step (locked : Bool) (op : DOp) (d : OptDict) : Except PyErr OptVal × OptDict :=
  match op with
  | .addOption n v c => d.addOption locked n v c
  | .remove n => d.removeOption n
  | .addDeprecation o n => d.addDeprecation o n
  | .setItem n v => d.setItem locked n v
  | .getItem n => (d.getItem n, d)
  | .get n x => (d.get n x, d)
  | .contains n => (.ok (.bool (d.contains n)), d)

/-- Dictionary after a sequence of operations, each at some lock state; exceptions are caught by the user. Serves `options.py:37-225`. -/
def OptDict.run (ops : List (Bool × DOp)) (d : OptDict) : OptDict :=
  ops.foldl (fun d p => (d.step p.1 p.2).2) d

/-- All option dictionaries of a process and the class attribute `OptionsDictionary.locked`. Serves `options.py:22-35`. -/
structure OptWorld where
  classLocked : Bool
  dicts : List OptDict

/-- Operations of a whole program: creating a dictionary (`options.py:24-35` resets the class attribute),
`Problem.setup` locking (`problem.py:670`), assigning the instance attribute `locked`, and dictionary
operations. -/
inductive WOp where
  | create (kind : DictKind)
  | setup
  | setInstLocked (i : Nat) (b : Bool)
  | on (i : Nat) (op : DOp)

/-- `self.locked` for dictionary `d`: the instance attribute shadows the class attribute. Serves `options.py:22-35`. -/
def OptWorld.locked (w : OptWorld) (d : OptDict) : Bool := d.instLocked.getD w.classLocked

/-- One program step (operations on a dictionary that does not exist do nothing). Serves `options.py:22-225`. -/
def OptWorld.step (w : OptWorld) : WOp → OptWorld
  | .create k => { classLocked := false, dicts := w.dicts ++ [⟨k, [], [], none⟩] }
  | .setup => { w with classLocked := true }
  | .setInstLocked i b => { w with dicts := w.dicts.modify i fun d => { d with instLocked := some b } }
  | .on i op => { w with dicts := w.dicts.modify i fun d => (d.step (w.locked d) op).2 }

/-- A whole program. Serves `options.py:22-225`. -/
def OptWorld.run (ops : List WOp) (w : OptWorld) : OptWorld := ops.foldl OptWorld.step w

/-- `deriv_options` as declared in `System.__init__` (`system.py:139-178`). -/
def derivOptions : OptDict where
  kind := .deriv
  options := [
    ("type", ⟨.str "user", { values := some [.str "user", .str "fd", .str "cs"], lockOnSetup := true }, false⟩),
    ("form", ⟨.str "forward", { values := some [.str "forward", .str "backward", .str "central"] }, false⟩),
    ("step_size", ⟨.float stepFD, { lower := some (.float 0) }, false⟩),
    ("step_calc", ⟨.str "absolute", { values := some [.str "absolute", .str "relative"] }, false⟩),
    ("check_type", ⟨.str "fd", { values := some [.str "fd", .str "cs"], lockOnSetup := true }, false⟩),
    ("check_form", ⟨.str "forward", { values := some [.str "forward", .str "backward", .str "central"] }, false⟩),
    ("check_step_size", ⟨.float stepFD, { lower := some (.float 0) }, false⟩),
    ("check_step_calc", ⟨.str "absolute", { values := some [.str "absolute", .str "relative"] }, false⟩),
    ("linearize", ⟨.bool false, {}, false⟩)]
  depr := [("force_fd", "type"), ("step_type", "step_calc")]
  instLocked := none

end OpenMDAO
