import Verif.Model.Numpy
/-! # Promotion of variable names (`openmdao/core/group.py`, `openmdao/core/system.py`, `openmdao/core/component.py`)

A dotted name is the list of its path elements: names of systems (`Group.add`, group.py:154) and variables
(`Component._check_varname`, component.py:307) are checked on declaration and never contain a dot, so joining with dots loses
nothing. -/
namespace OpenMDAO

/-- A dotted name. Serves `Sys` (`openmdao/core/system.py:389`). -/
abbrev Path := List String

/-- A system tree. `promotes` is `_prom_regex` (openmdao/core/system.py:389): one full-match test per glob pattern (the
translation of globs to regular expressions is external, every predicate is allowed). A component has the names of its
parameters and unknowns in declaration order. -/
inductive Sys where
  | comp (name : String) (promotes : List (Path → Bool)) (params unknowns : List String)
  | group (name : String) (promotes : List (Path → Bool)) (subs : List Sys)

/-- `system.name`. Serves `promotedName` (`openmdao/core/group.py:367-379`). -/
def Sys.name : Sys → String
  | .comp n _ _ _ => n
  | .group n _ _ => n

/-- `system._prom_regex`. Serves `isPromoted` (`openmdao/core/system.py:215-243`). -/
def Sys.promotes : Sys → List (Path → Bool)
  | .comp _ p _ _ => p
  | .group _ p _ => p

/-- The name dictionaries of `_SysData` (openmdao/core/system.py:64-75): `toPromP`, `toPromU` map absolute to promoted
names, `toAbsU` maps promoted names of unknowns to the absolute name, `toAbsP` promoted names of parameters to all absolute
names. -/
structure SysData where
  toPromP : List (Path × Path) := []
  toPromU : List (Path × Path) := []
  toAbsP : List (Path × List Path) := []
  toAbsU : List (Path × Path) := []

/-- `d[key] = value` for an (ordered) dict. Serves `addParams` (`openmdao/core/group.py:313-317`). -/
def dictSet {α β : Type} [DecidableEq α] (d : List (α × β)) (k : α) (v : β) : List (α × β) :=
  match d with
  | [] => [(k, v)]
  | (a, b) :: d => if a = k then (a, v) :: d else (a, b) :: dictSet d k v

/-- `d.setdefault(key, []).append(value)`. Serves `addParams` (`openmdao/core/group.py:313-317`). -/
def dictAppend {α β : Type} [DecidableEq α] (d : List (α × List β)) (k : α) (v : β) : List (α × List β) :=
  match d with
  | [] => [(k, [v])]
  | (a, b) :: d => if a = k then (a, b ++ [v]) :: d else (a, b) :: dictAppend d k v

/-- `System._promoted`, openmdao/core/system.py:215-243. -/
def isPromoted (sub : Sys) (d : SysData) (name : Path) : Bool :=
  sub.promotes.any fun pat => pat name && ((d.toAbsP.lookup name).isSome || (d.toAbsU.lookup name).isSome)

/-- `Group._promoted_name`, openmdao/core/group.py:367-379. Subsystem names are not empty (`Group.add`). -/
def promotedName (sub : Sys) (d : SysData) (name : Path) : Path :=
  if isPromoted sub d name then name else sub.name :: name

/-- The loop over `subparams`, openmdao/core/group.py:313-317. -/
def addParams (sub : Sys) (d : SysData) (acc : SysData) : SysData :=
  d.toPromP.foldl (fun acc p =>
    let prom := promotedName sub d p.2
    { acc with toAbsP := dictAppend acc.toAbsP prom p.1, toPromP := dictSet acc.toPromP p.1 prom }) acc

/-- One iteration of the loop over `subunknowns`, openmdao/core/group.py:319-329. -/
def addUnknown (sub : Sys) (d : SysData) (acc : SysData) (u : Path × Path) : Except PyErr SysData :=
  let prom := promotedName sub d u.2
  if (acc.toAbsU.lookup prom).isSome then .error .RuntimeError
  else .ok { acc with toAbsU := dictSet acc.toAbsU prom u.1, toPromU := dictSet acc.toPromU u.1 prom }

/-- `System._check_promotes`, openmdao/core/system.py:308-334: every pattern matches the promoted name of some variable of
the system. -/
def checkPromotes (sub : Sys) (d : SysData) : Except PyErr Unit :=
  if sub.promotes.all fun pat => d.toPromP.any (fun p => pat p.2) || d.toPromU.any (fun p => pat p.2) then .ok ()
  else .error .RuntimeError

/-- One iteration of the loop over the subsystems, openmdao/core/group.py:311-335. -/
def addSub (sub : Sys) (d : SysData) (acc : SysData) : Except PyErr SysData := do
  let acc ← d.toPromU.foldlM (addUnknown sub d) (addParams sub d acc)
  checkPromotes sub d
  return acc

mutual
/-- `Component._setup_variables`, openmdao/core/component.py:359-422 (distributed components not modelled), and
`Group._setup_variables`, openmdao/core/group.py:284-337. `path` is the absolute path of the system (its elements),
see `System._init_sys_data`, openmdao/core/system.py:391-396. -/
def setupVariables (path : Path) : Sys → Except PyErr SysData
  | .comp _ _ ps us => .ok
      { toPromP := ps.map fun x => (path ++ [x], [x]), toPromU := us.map fun x => (path ++ [x], [x]),
        toAbsP := ps.map fun x => ([x], [path ++ [x]]), toAbsU := us.map fun x => ([x], path ++ [x]) }
  | .group _ _ subs => setupSubs path subs {}
/-- The loop over the subsystems, openmdao/core/group.py:311-335. -/
def setupSubs (path : Path) : List Sys → SysData → Except PyErr SysData
  | [], acc => .ok acc
  | sub :: subs, acc => do
    let d ← setupVariables (path ++ [sub.name]) sub
    let acc ← addSub sub d acc
    setupSubs path subs acc
end

end OpenMDAO
