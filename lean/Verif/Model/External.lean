import Verif.Model.Numpy
import Mathlib.Algebra.Order.Floor.Defs
import Mathlib.Algebra.Order.Floor.Ring
import Mathlib.Logic.Function.Basic
/-!
# Model of file variables, external codes and file searches

`openmdao/core/fileref.py`, `openmdao/components/external_code.py`, `openmdao/util/shell_proc.py` and the searches of `openmdao/util/file_util.py`.
Simplified: a file system is a function from canonical paths to contents (no hard links), contents are characters, and the operating system's part of running a command is a parameter. Only POSIX.
-/
namespace OpenMDAO

/-! ## FileRef -/

/-- Exceptions of data passing between file variables; `IOError` stands for a failed `open`. Serves `FileRef.validate` (`fileref.py:50-71`). -/
inductive FileErr where
  | TypeError | ValueError | IOError
  deriving DecidableEq, Repr

/-- Files: `real` is what the operating system makes of a path (`.`, `..`, symbolic links), `data` the contents by canonical path. Serves `copyFile` (`fileref.py:92-93`). -/
structure Disk where
  real : List Char → List Char
  data : List Char → Option (List Char)
  canRead : List Char → Bool
  canWrite : List Char → Bool

/-- A `FileRef` (`fileref.py:24-27`); `binary` is the entry of `meta`. -/
structure FileRef where
  fname : List Char
  parent : List Char
  binary : Option Bool
  deriving DecidableEq, Repr

/-- `os.path.join(a, b)` on POSIX. Serves `FileRef.abspath` (`fileref.py:43-48`). -/
def osJoin (a b : List Char) : List Char :=
  if b.head? = some '/' then b
  else if a = [] ∨ a.getLast? = some '/' then a ++ b
  else a ++ '/' :: b

/-- `_abspath` (`fileref.py:43-48`); `parent_dir` is set. -/
def FileRef.abspath (f : FileRef) : List Char := if f.fname.head? = some '/' then f.fname else osJoin f.parent f.fname

/-- `bool(meta.get('binary'))`. Serves `FileRef.validate` (`fileref.py:50-71`). -/
def boolMeta (b : Option Bool) : Bool := b.getD false

/-- `validate` (`fileref.py:50-71`); `none` is a source that is not a `FileRef`. -/
def FileRef.validate (tgt : FileRef) : Option FileRef → Except FileErr FileRef
  | none => .error .TypeError
  | some src =>
    if (tgt.binary.isSome || src.binary.isSome) && decide (boolMeta tgt.binary ≠ boolMeta src.binary) then .error .ValueError
    else .ok src

/-- Universal newlines: what python 3 reads from a file in text mode. Serves `readAs` (`fileref.py:37-41`). -/
def universalNl : List Char → List Char
  | [] => []
  | '\r' :: '\n' :: r => '\n' :: universalNl r
  | c :: r => (if c = '\r' then '\n' else c) :: universalNl r

/-- What reading a file returns: `open` adds `b` to the mode for binary files (`fileref.py:37-41`). -/
def readAs (py3 : Bool) (binary : Option Bool) (c : List Char) : List Char := if py3 && !boolMeta binary then universalNl c else c

/-- `with src.open("r") as src, self.open("w") as dst: shutil.copyfileobj(src, dst)` (`fileref.py:92-93`). Opening for writing empties the file before the source is read. -/
def copyFile (py3 : Bool) (D : Disk) (tgt src : FileRef) : Disk × Option FileErr :=
  let s := D.real src.abspath
  let t := D.real tgt.abspath
  if (D.data s).isNone || !D.canRead s then (D, some .IOError)
  else if !D.canWrite t then (D, some .IOError)
  else
    let d1 := Function.update D.data t (some [])
    let c := (d1 s).getD []
    ({ D with data := Function.update d1 t (some (readAs py3 src.binary c)) }, none)

/-- `_assign_to` (`fileref.py:80-93`), with `_same_file` (`fileref.py:73-78`). -/
def FileRef.assignTo (py3 : Bool) (D : Disk) (tgt : FileRef) (src : Option FileRef) : Disk × Option FileErr :=
  match tgt.validate src with
  | .error e => (D, some e)
  | .ok src => if tgt.abspath = src.abspath then (D, none) else copyFile py3 D tgt src

/-! ## ExternalCode -/

/-- How the external command ended: exit code, stopped after the timeout, or an exception of `Popen`. Serves `extAfter` (`external_code.py:154-176`). -/
inductive ExecRes where
  | code (n : Int)
  | timedOut
  | raised (e : PyErr)
  deriving DecidableEq, Repr

/-- What `ExternalCode` uses of the operating system: `os.path.exists`, `find_executable` and `ShellProc(...).wait(...)`. Serves `missingFiles` (`external_code.py:181-183`). -/
structure ExtOps (S : Type) where
  fileExists : String → S → Bool
  found : String → S → Bool
  exec : List String → S → S × ExecRes

/-- The options (`external_code.py:83-96`). -/
structure ExtOpts where
  command : List String
  inputs : List String
  outputs : List String
  failHard : Bool

/-- `err_class` (`external_code.py:140-143`). -/
def ExtOpts.errClass (o : ExtOpts) : PyErr := if o.failHard then .RuntimeError else .AnalysisError

/-- `_check_for_files` (`external_code.py:181-183`). -/
def missingFiles {S : Type} (O : ExtOps S) (files : List String) (s : S) : List String := files.filter fun p => !O.fileExists p s

/-- The part after `_execute_local` (`external_code.py:154-176`); the local variable `return_code` and the exception. -/
def extAfter {S : Type} (O : ExtOps S) (o : ExtOpts) (s : S) : ExecRes → Option Int × Option PyErr
  | .raised e => (none, some e)
  | .timedOut => (none, some .AnalysisError)
  | .code n =>
    if n ≠ 0 then (some n, some o.errClass)
    else if missingFiles O o.outputs s ≠ [] then (some n, some o.errClass)
    else (some n, none)

/-- The `try` block (`external_code.py:147-176`) with `_execute_local` (`192-220`). -/
def extBody {S : Type} (O : ExtOps S) (o : ExtOpts) (prog : String) (s : S) : S × Option Int × Option PyErr :=
  if missingFiles O o.inputs s ≠ [] then (s, none, some o.errClass)
  else if !O.found prog s then (s, none, some .ValueError)
  else match O.exec o.command s with
    | (s', r) => (s', extAfter O o s' r)

/-- `solve_nonlinear` (`external_code.py:131-179`): state, attribute `return_code` and exception. -/
def extSolve {S : Type} (O : ExtOps S) (o : ExtOpts) (s : S) : S × Int × Option PyErr :=
  match o.command with
  | [] => (s, -12345678, some .ValueError)
  | prog :: _ => match extBody O o prog s with
    | (s', rc, e) => (s', rc.getD (-999999), e)

/-! ## ShellProc.wait -/

section Wait
variable {K : Type} [Field K] [LinearOrder K] [FloorRing K]

/-- Result of `wait` and the time at which it was known. Serves `waitLoop` (`shell_proc.py:142-148`). -/
inductive WaitRes (K : Type) where
  | code (c : Int) (t : K)
  | timedOut (t : K)
  deriving DecidableEq

/-- The poll delay that is used (`shell_proc.py:135-138`). -/
def pollDelay (pd T : K) : K := if pd ≤ 0 then min 10 (max (1 / 10) (T / 100)) else pd

/-- `Popen.poll()` at time `t` for a command that ends at time `d` with code `c`; `none` never ends. Serves `waitLoop` (`shell_proc.py:142-148`). -/
def pollAt (proc : Option (K × Int)) (t : K) : Option Int :=
  match proc with
  | none => none
  | some (d, c) => if d ≤ t then some c else none

/-- The loop of `wait` (`shell_proc.py:142-148`) from time `t` with `n` polls left; `none` when it has not ended after `fuel` rounds. Simplified: sleeping takes exactly the time asked for, everything else none. -/
def waitLoop (proc : Option (K × Int)) (p T : K) : Nat → K → Int → Option (WaitRes K)
  | 0, _, _ => none
  | fuel + 1, t, n => match pollAt proc t with
    | some c => some (.code c t)
    | none => if 0 < T ∧ n - 1 < 0 then some (.timedOut t) else waitLoop proc p T fuel (t + p) (n - 1)

/-- `wait` (`shell_proc.py:119-157`) of a command started at time 0; `timeout` is not negative. -/
def shellWait (proc : Option (K × Int)) (pd T : K) (fuel : Nat) : Option (WaitRes K) :=
  let p := pollDelay pd T
  waitLoop proc p T fuel p (⌊T / p⌋ + 1)

end Wait

/-! ## find_files and find_up -/

/-- A directory: names of its files, and its subdirectories. Serves `walkTree` (`file_util.py:180-186`). -/
inductive FTree where
  | mk (files : List String) (dirs : List (String × FTree))

/-- A pattern argument together with its `exclude` argument (`file_util.py:100-126`); globs are predicates. -/
def nameFilter (match_ exclude : Option (String → Bool)) (name : String) : Bool :=
  (match match_ with | none => decide (name ≠ "") | some m => m name) && (match exclude with | none => true | some x => !x name)

mutual
/-- `os.walk` with pruned directory lists in `_file_gen` (`file_util.py:180-186`): directories below the start, and file name. -/
def walkTree (fmatch dmatch : String → Bool) (pre : List String) : FTree → List (List String × String)
  | .mk files dirs => (files.filter fmatch).map (fun f => (pre, f)) ++ walkDirs fmatch dmatch pre dirs
/-- The subdirectories that are not pruned, in order. Serves `walkTree` (`file_util.py:180-186`). -/
def walkDirs (fmatch dmatch : String → Bool) (pre : List String) : List (String × FTree) → List (List String × String)
  | [] => []
  | (d, t) :: rest => (if dmatch d then walkTree fmatch dmatch (pre ++ [d]) t else []) ++ walkDirs fmatch dmatch pre rest
end

/-- `_file_gen` (`file_util.py:163-188`) for one start directory, `none` if it does not exist. -/
def fileGen (fmatch dmatch : String → Bool) (start : String × Option FTree) : List (List String × String) :=
  if !dmatch start.1 then []
  else match start.2 with
    | none => []
    | some t => walkTree fmatch dmatch [start.1] t

/-- `find_files` (`file_util.py:62-132`). -/
def findFiles (match_ exclude dirmatch direxclude : Option (String → Bool)) (starts : List (String × Option FTree)) : List (List String × String) :=
  starts.flatMap (fileGen (nameFilter match_ exclude) (nameFilter dirmatch direxclude))

/-- The loop of `find_up` (`file_util.py:153-161`) on a path given by its components from last to first; `hit` says whether the name exists in a directory. The root `/` is checked, the empty relative path is not. -/
def findUpLoop (isAbs : Bool) (hit : List String → Bool) : List String → Option (List String)
  | [] => if isAbs then (if hit [] then some [] else none) else none
  | c :: rest => if hit (c :: rest) then some (c :: rest) else findUpLoop isAbs hit rest

/-- `find_up` (`file_util.py:135-161`); the directory in which the name was found. The start is a normalised path other than the empty one, or the current directory, which is absolute. -/
def findUp (isAbs : Bool) (hit pathExists : List String → Bool) (path : List String) : Option (List String) :=
  if pathExists path then findUpLoop isAbs hit path else none

end OpenMDAO
