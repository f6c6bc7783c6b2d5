import Mathlib.Data.List.Basic
import Mathlib.Logic.Function.Basic
/-!
# Model of `build_directory`

`openmdao/util/file_util.py:13-57`. A path is the list of names from the root of the file system; `.` and `..` are no names, there are no links,
and every write is allowed. Names and contents are numbers. Warnings are left out.
-/
namespace OpenMDAO

/-- Exceptions: an absolute key, and anything the operating system refuses. Serves `mkdirStep` (`file_util.py:41-55`). -/
inductive BuildErr where
  | RuntimeError
  | OSError
  deriving DecidableEq

/-- What is at a path. Serves `FileSys` (`file_util.py:40-55`). -/
inductive FsEntry where
  | dir
  | file (content : Nat)
  deriving DecidableEq

/-- The file system (`file_util.py:40-55`). -/
abbrev FileSys := List Nat → Option FsEntry

/-- The nested dict, in the order in which it yields its items: each item has a key (is it absolute, its names), and a content or a dict
(`file_util.py:21-24`, `38`). -/
inductive BTree where
  | nil
  | file (abs : Bool) (key : List Nat) (content : Nat) (rest : BTree)
  | dir (abs : Bool) (key : List Nat) (sub : BTree) (rest : BTree)

/-- One step of `os.makedirs` (`file_util.py:44`, `53`): a directory is made if nothing is there. -/
def mkdirStep (st : FileSys × Option BuildErr) (q : List Nat) : FileSys × Option BuildErr :=
  match st.2, st.1 q with
  | some e, _ => (st.1, some e)
  | none, some .dir => st
  | none, some (.file _) => (st.1, some .OSError)
  | none, none => (Function.update st.1 q (some .dir), none)

/-- `os.makedirs`, for a path that is no directory yet (`file_util.py:44`, `53`). -/
def makeDirs (fs : FileSys) (p : List Nat) : FileSys × Option BuildErr := p.inits.foldl mkdirStep (fs, none)

/-- The directory of a key, made if nothing is there, and entered (`file_util.py:43-45`). -/
def enterDir (fs : FileSys) (p : List Nat) : FileSys × Option BuildErr :=
  match fs p with
  | none => makeDirs fs p
  | some .dir => (fs, none)
  | some (.file _) => (fs, some .OSError)

/-- `open(key, 'w')` and `write` (`file_util.py:54-55`). -/
def putFile (fs : FileSys) (p : List Nat) (c : Nat) : FileSys × Option BuildErr :=
  match fs p with
  | some .dir => (fs, some .OSError)
  | _ => (Function.update fs p (some (.file c)), none)

/-- A file (`file_util.py:47-55`). With a key of one name the directory is there already. -/
def writeFile (force : Bool) (fs : FileSys) (p : List Nat) (c : Nat) : FileSys × Option BuildErr :=
  if (fs p).isSome ∧ force = false then (fs, none)
  else
    match fs p.dropLast with
    | some .dir => putFile fs p c
    | _ =>
      match makeDirs fs p.dropLast with
      | (fs', some e) => (fs', some e)
      | (fs', none) => putFile fs' p c

/-- `build_directory(dct, force, topdir)` (`file_util.py:34-57`): the file system afterwards, and the exception if there is one. -/
def buildDir (force : Bool) (top : List Nat) : BTree → FileSys → FileSys × Option BuildErr
  | .nil, fs => (fs, none)
  | .file abs key c rest, fs =>
    if fs top ≠ some .dir then (fs, some .OSError)
    else if abs then (fs, some .RuntimeError)
    else
      match writeFile force fs (top ++ key) c with
      | (fs', some e) => (fs', some e)
      | (fs', none) => buildDir force top rest fs'
  | .dir abs key sub rest, fs =>
    if fs top ≠ some .dir then (fs, some .OSError)
    else if abs then (fs, some .RuntimeError)
    else
      match enterDir fs (top ++ key) with
      | (fs', some e) => (fs', some e)
      | (fs', none) =>
        match buildDir force (top ++ key) sub fs' with
        | (fs2, some e) => (fs2, some e)
        | (fs2, none) => buildDir force top rest fs2

end OpenMDAO
