import Verif.Model.Numpy
/-!
# Model of the creation of directories at setup

`System._setup_dir` (`openmdao/core/system.py:471-486`), `Component._setup_communicators` and `_fileref_setup` (`openmdao/core/component.py:437-466`) and
`Group._setup_communicators` (`openmdao/core/group.py:393-399`). A path is the list of its parts, without `.` and `..`; links and permissions are left out, and
all systems are active. Of the state at an exception only the exception is kept.
-/
namespace OpenMDAO

/-- A path as given by the user: absolute or not, and its parts (`system.py:476-479`, `fileref.py:46-49`). The empty relative path is no directory. -/
structure UserPath where
  abs : Bool
  parts : List String
  deriving DecidableEq

/-- What is at a path. Serves `MakeFs` (`system.py:485`). -/
inductive FKind where
  | file
  | dir
  deriving DecidableEq, Repr

/-- The file system: what is at each absolute path. Serves `osMakedirs` (`system.py:485`). -/
abbrev MakeFs := List String → Option FKind

/-- `RuntimeError` of `_fileref_setup`, `OSError` of `os.makedirs` (`component.py:461`, `system.py:486`). -/
inductive SetupDirErr where
  | RuntimeError
  | OSError
  deriving DecidableEq, Repr

/-- The absolute directory and the absolute path of a file (`system.py:474-482`, `fileref.py:44-49`). -/
def UserPath.below (parent : List String) (p : UserPath) : List String := if p.abs then p.parts else parent ++ p.parts

/-- `os.makedirs` of a path where nothing is (`system.py:486`): fails if a directory on the way is a file, makes all that are missing. -/
def osMakedirs (fs : MakeFs) (p : List String) : Except SetupDirErr MakeFs :=
  if p.inits.any fun q => fs q = some .file then .error .OSError
  else .ok fun q => if q <+: p ∧ fs q = none then some .dir else fs q

/-- `if self.create_dirs and not os.path.exists(absdir)` (`system.py:484-486`). -/
def ensureDir (create : Bool) (fs : MakeFs) (p : List String) : Except SetupDirErr MakeFs :=
  if create && (fs p).isNone then osMakedirs fs p else .ok fs

/-- `_fileref_setup` of a file in the system with the absolute directory `d` (`component.py:454-466`). -/
def filerefSetup (create : Bool) (d : List String) (fs : MakeFs) (f : UserPath) : Except SetupDirErr MakeFs :=
  if (fs (f.below d).dropLast).isSome then .ok fs
  else if create then osMakedirs fs (f.below d).dropLast
  else .error .RuntimeError

/-- The loop over the variables that are `FileRef`s (`component.py:440-446`). -/
def filerefSetups (create : Bool) (d : List String) (fs : MakeFs) : List UserPath → Except SetupDirErr MakeFs
  | [] => .ok fs
  | f :: r => match filerefSetup create d fs f with
    | .error e => .error e
    | .ok fs1 => filerefSetups create d fs1 r

/-- A system: `directory`, `create_dirs`, its `FileRef`s (of a component) and its subsystems (of a group) (`system.py:127-130`). -/
inductive MakeTree where
  | node (dir : UserPath) (create : Bool) (files : List UserPath) (subs : List MakeTree)

mutual
/-- `_setup_communicators` of a system below the directory `parent` (`component.py:437-446`, `group.py:393-399`, `system.py:471-486`). -/
def makeSetup (fs : MakeFs) (parent : List String) : MakeTree → Except SetupDirErr MakeFs
  | .node d c files subs => match ensureDir c fs (d.below parent) with
    | .error e => .error e
    | .ok fs1 => match filerefSetups c (d.below parent) fs1 files with
      | .error e => .error e
      | .ok fs2 => makeSetups fs2 (d.below parent) subs

/-- The subsystems (`group.py:396-399`). -/
def makeSetups (fs : MakeFs) (parent : List String) : List MakeTree → Except SetupDirErr MakeFs
  | [] => .ok fs
  | t :: ts => match makeSetup fs parent t with
    | .error e => .error e
    | .ok fs1 => makeSetups fs1 parent ts
end

end OpenMDAO
