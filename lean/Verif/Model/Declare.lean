import Verif.Model.Promotes
/-!
# Model of variable declarations on components

`openmdao/core/component.py:85-310`. A component is reduced to the two dictionaries of declared variables, the flag set by setup, the flag that the component has states, and the list of names for which
`check_setup` warns that they are passed by object. Variable names are character lists.
-/
namespace OpenMDAO

/-- `[_a-zA-Z]`. Serves `varNameOk` (`component.py:28-30,307-308`). -/
def isWordStart (c : Char) : Bool := c == '_' || ('a' ≤ c && c ≤ 'z') || ('A' ≤ c && c ≤ 'Z')

/-- `[_a-zA-Z0-9]`. Serves `varNameOk` (`component.py:28-30,307-308`). -/
def isWordChar (c : Char) : Bool := isWordStart c || ('0' ≤ c && c ≤ '9')

/-- What is left after the greedy match of `(\:[_a-zA-Z][_a-zA-Z0-9]*)*`. The state says whether the rest begins inside a piece (further word characters are eaten first) or behind one. Serves `varNameOk` (`component.py:28-30,307-308`). -/
def eatPieces : List Char → List Char
  | [] => []
  | c :: s =>
    if isWordChar c then eatPieces s
    else if c == ':' then
      match s with
      | [] => [c]
      | d :: s' => if isWordStart d then eatPieces s' else c :: d :: s'
    else c :: s

/-- `namecheck_rgx.match(name)` with `match.group() == name` (`component.py:28-30,307-308`): after the first character the longest match is taken; nothing may be left. The nested repetition
`([_a-zA-Z][_a-zA-Z0-9]*)+` matches the same texts as a single piece. -/
def varNameOk : List Char → Bool
  | [] => false
  | c :: s => isWordStart c && (eatPieces s).isEmpty

/-- Values of variables: python float, numpy array (shape, and whether the type of its entries is floating), file reference (absolute path, `binary` metadata), anything else (numbered by its type). Serves `isDifferentiable` (`util/type_util.py:27-46`). -/
inductive ChkVal where
  | real
  | array (shape : List Nat) (isFloat : Bool)
  | file (path : Nat) (binary : Option Bool)
  | other (ty : Nat)
  deriving DecidableEq

/-- The `shape` metadata: an int or a tuple. Serves `initialVal` (`component.py:90-97`). -/
inductive PyShape where
  | int (n : Int)
  | tup (l : List Nat)
  deriving DecidableEq

/-- `is_differentiable` (`util/type_util.py:27-46`). -/
def isDifferentiable : ChkVal → Bool
  | .real => true
  | .array _ f => f
  | _ => false

/-- Keyword arguments of a declaration that the code looks at; all others are only stored. `unit` says whether `PhysicalQuantity(1.0, unit)` succeeds, `residScaler` whether the value is zero. Serves `buildMeta` (`component.py:144-163`). -/
structure DeclArgs where
  val : Option ChkVal := none
  shape : Option PyShape := none
  pbo : Option Bool := none
  srcIdx : Option (List Int) := none
  residScaler : Option Bool := none
  unit : Option Bool := none
  low : Bool := false
  high : Bool := false
  deriving DecidableEq

/-- Metadata of a variable. Serves `buildMeta` (`component.py:144-163`). -/
structure DeclMeta where
  val : ChkVal
  shape : Option PyShape
  size : Nat
  pbo : Option Bool
  srcIdx : Option (List Int)
  state : Bool
  deriving DecidableEq

/-- The declared variables of a component. Serves `checkVarname` (`component.py:297-310`). -/
structure CompDecl where
  post : Bool
  params : List (List Char × DeclMeta)
  unknowns : List (List Char × DeclMeta)
  runApply : Bool
  pboWarns : List (List Char)
  deriving DecidableEq

/-- `_get_initial_val` (`component.py:90-97`). `np.zeros(None)` is an array without dimensions, negative sizes are an error. -/
def initialVal (val : Option ChkVal) (shape : Option PyShape) : Except PyErr ChkVal :=
  match val, shape with
  | some v, _ => .ok v
  | none, none => .ok (.array [] true)
  | none, some (.int n) => if n = 1 then .ok .real else if n < 0 then .error .ValueError else .ok (.array [n.toNat] true)
  | none, some (.tup l) => .ok (.array l true)

/-- `_check_varname` (`component.py:297-310`). -/
def checkVarname (c : CompDecl) (name : List Char) : Except PyErr Unit :=
  if c.post then .error .RuntimeError
  else if (c.params.lookup name).isSome || (c.unknowns.lookup name).isSome then .error .RuntimeError
  else if varNameOk name then .ok () else .error .NameError

/-- Size and shape of a differentiable value (`component.py:148-154`). -/
def valSize : ChkVal → Nat × PyShape
  | .array l _ => (l.foldl (· * ·) 1, .tup l)
  | _ => (1, .int 1)

/-- `shape > 1` given as an int becomes a tuple (`component.py:162-163`). -/
def fixShape (arg : Option PyShape) (s : Option PyShape) : Option PyShape :=
  match arg with
  | some (.int n) => if 1 < n then some (.tup [n.toNat]) else s
  | _ => s

/-- Metadata built from the value (`component.py:144-163`) and whether a warning is noted. -/
def buildMeta (a : DeclArgs) (v : ChkVal) : DeclMeta × Bool :=
  if isDifferentiable v && a.pbo ≠ some true then
    (⟨v, fixShape a.shape (some (valSize v).2), (valSize v).1, a.pbo, a.srcIdx, false⟩, false)
  else (⟨v, fixShape a.shape a.shape, 0, some true, a.srcIdx, false⟩, a.pbo ≠ some true)

/-- `_add_variable` (`component.py:108-176`): the list of warnings is changed before the last two checks. -/
def addVariable (c : CompDecl) (name : List Char) (a : DeclArgs) : CompDecl × Except PyErr DeclMeta :=
  match checkVarname c name with
  | .error e => (c, .error e)
  | .ok () =>
    if a.unit = some false then (c, .error .RuntimeError)
    else
      match initialVal a.val a.shape with
      | .error e => (c, .error e)
      | .ok v =>
        let b := buildMeta a v
        let c' := if b.2 then { c with pboWarns := c.pboWarns ++ [name] } else c
        if a.low || a.high then (c', .error .TypeError) else (c', .ok b.1)

/-- Which method declares the variable. Serves `preCheck` (`component.py:189-192,208-214,229-239`). -/
inductive DeclKind where
  | param
  | output
  | state
  deriving DecidableEq

/-- The checks before `_add_variable` (`component.py:189-192,208-214,229-239`; `_check_val` 99-106). -/
def preCheck (k : DeclKind) (a : DeclArgs) : Except PyErr Unit :=
  match k with
  | .param => if a.residScaler.isSome then .error .ValueError else .ok ()
  | .output => if a.residScaler.isSome then .error .ValueError else if a.val = none ∧ a.shape = none then .error .ValueError else .ok ()
  | .state => if a.residScaler = some true then .error .ValueError else if a.val = none ∧ a.shape = none then .error .ValueError else .ok ()

/-- Storing the metadata (`component.py:194,215,240-242`). -/
def storeMeta (c : CompDecl) (k : DeclKind) (name : List Char) (m : DeclMeta) : CompDecl :=
  match k with
  | .param => { c with params := dictSet c.params name m }
  | .output => { c with unknowns := dictSet c.unknowns name m }
  | .state => { c with unknowns := dictSet c.unknowns name { m with state := true }, runApply := true }

/-- `add_param`, `add_output`, `add_state` (`component.py:178-242`). -/
def declare (c : CompDecl) (k : DeclKind) (name : List Char) (a : DeclArgs) : CompDecl × Except PyErr Unit :=
  match preCheck k a with
  | .error e => (c, .error e)
  | .ok () =>
    match addVariable c name a with
    | (c', .error e) => (c', .error e)
    | (c', .ok m) => (storeMeta c' k name m, .ok ())

/-- A component with no declarations. `component.py:60-84`. -/
def emptyDecl : CompDecl := ⟨false, [], [], false, []⟩

/-- The variable `set_var_indices` works on and whether it is a parameter (`component.py:268-270`). -/
def findVar (c : CompDecl) (name : List Char) : Except PyErr (Bool × DeclMeta) :=
  match c.params.lookup name with
  | some m => .ok (true, m)
  | none =>
    match c.unknowns.lookup name with
    | some m => .ok (false, m)
    | none => .error .KeyError

/-- Shape of the new value (`component.py:281-286`): an empty tuple counts as no shape. -/
def distribShape (val shape : Option (List Nat)) (n : Nat) : List Nat :=
  match val, shape with
  | some s, _ => s
  | none, some (d :: s) => d :: s
  | none, _ => [n]

/-- `set_var_indices` (`component.py:244-295`), called in `setup_distrib`: `val` is an array given by its shape (`_NotSet` → `none`). -/
def setVarIndices (c : CompDecl) (name : List Char) (val shape : Option (List Nat)) (idx : Option (List Int)) : Except PyErr CompDecl :=
  match findVar c name with
  | .error e => .error e
  | .ok (isParam, m) =>
    match idx with
    | none => .error .ValueError
    | some is =>
      match m.val with
      | .array _ f =>
        let ns := distribShape val shape is.length
        if ns.foldl (· * ·) 1 ≠ is.length then .error .ValueError
        else
          let m' : DeclMeta := { m with val := .array ns f, shape := some (.tup ns), size := ns.foldl (· * ·) 1, srcIdx := some is }
          .ok (if isParam then { c with params := dictSet c.params name m' } else { c with unknowns := dictSet c.unknowns name m' })
      | _ => .error .ValueError
