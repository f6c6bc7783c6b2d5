import Verif.Model.Numpy
import Mathlib.Data.List.Dedup
/-! # Dotted path names (`openmdao/util/string_util.py`) and execution order (`openmdao/core/group.py`)

Strings that are split or sliced are lists of characters. -/
namespace OpenMDAO

/-- A python string. Serves `commonParts` (`openmdao/util/string_util.py:24-28`). -/
abbrev Str := List Char

/-- python `s.split(c)` for a one-character separator (always at least one part). Serves `getCommonAncestor` (`openmdao/util/string_util.py:8-34`). -/
def pySplit (c : Char) : Str → List Str
  | [] => [[]]
  | x :: xs => if x = c then [] :: pySplit c xs else
    match pySplit c xs with
    | [] => [[x]]
    | p :: ps => (x :: p) :: ps

/-- python `c.join(parts)` for a one-character separator. Serves `getCommonAncestor` (`openmdao/util/string_util.py:8-34`). -/
def pyJoin (c : Char) : List Str → Str
  | [] => []
  | [p] => p
  | p :: q :: ps => p ++ c :: pyJoin c (q :: ps)

/-- python `s.split(c, 1)[0]`: everything before the first separator. Serves `nearestChild` (`openmdao/util/string_util.py:36-54`). -/
def pyHead (c : Char) : Str → Str
  | [] => []
  | x :: xs => if x = c then [] else x :: pyHead c xs

/-- The loop of `get_common_ancestor`, openmdao/util/string_util.py:24-28. -/
def commonParts : List Str → List Str → List Str
  | p :: ps, q :: qs => if p = q then p :: commonParts ps qs else []
  | _, _ => []

/-- `get_common_ancestor`, openmdao/util/string_util.py:8-34. -/
def getCommonAncestor (name1 name2 : Str) : Str :=
  let cp := commonParts (pySplit '.' name1) (pySplit '.' name2)
  if cp = [] then [] else pyJoin '.' cp

/-- `start = len(parent)+1 if parent else 0`, openmdao/util/string_util.py:53 and 73. -/
def pathStart (parent : Str) : Nat := if parent = [] then 0 else parent.length + 1

/-- `nearest_child`, openmdao/util/string_util.py:36-54. -/
def nearestChild (parent child : Str) : Str := pyHead '.' (child.drop (pathStart parent))

/-- `name_relative_to`, openmdao/util/string_util.py:56-74; the same slicing is done by
`_SysData._scoped_abs_name`, openmdao/core/system.py:78-92. -/
def nameRelativeTo (parent child : Str) : Str := child.drop (pathStart parent)

/-- The attributes of a `Group` that concern execution order (openmdao/core/group.py:80-86): the subsystems by name in
execution order, the local ones, and `_order_set`. `σ` stands for the subsystem objects. -/
structure GroupOrder (σ : Type) where
  subs : List (String × σ)
  locals : List String
  orderSet : Bool

/-- `Group.set_order`, openmdao/core/group.py:1090-1132. The group after the call and, on error, the exception. -/
def setOrder {σ : Type} (g : GroupOrder σ) (new : List String) : Except PyErr Unit × GroupOrder σ :=
  if ¬ ((∀ n ∈ g.subs.map Prod.fst, n ∈ new) ∧ (∀ n ∈ new, n ∈ g.subs.map Prod.fst)) then (.error .ValueError, g)
  else if new.dedup.length < new.length then (.error .ValueError, g)
  else
    (.ok (), { subs := new.filterMap (fun n => (g.subs.lookup n).map (n, ·)),
               locals := g.locals.filter (· ∈ new), orderSet := true })

/-- The order in which `Group.children_solve_nonlinear` runs the subsystems, openmdao/core/group.py:752-759, and
`Group.list_order`, openmdao/core/group.py:1134-1141. -/
def runOrder {σ : Type} (g : GroupOrder σ) : List (String × σ) := g.subs

/-- `Group.subsystems(local=True)`, openmdao/core/group.py:232. -/
def localOrder {σ : Type} (g : GroupOrder σ) : List String := g.locals

/-- `Group._setup_communicators`, openmdao/core/group.py:394-399, in a run where every subsystem is active. -/
def setupComm {σ : Type} (g : GroupOrder σ) : GroupOrder σ := { g with locals := g.subs.map (·.1) }

/-- `Group.add`, openmdao/core/group.py:120-162, as far as order is concerned: refused once an order was set or when the
name is taken. (The checks for attribute clashes and illegal names are not modelled.) -/
def groupAdd {σ : Type} (g : GroupOrder σ) (name : String) (s : σ) : Except PyErr Unit × GroupOrder σ :=
  if g.orderSet then (.error .RuntimeError, g)
  else if name ∈ g.subs.map Prod.fst then (.error .RuntimeError, g)
  else (.ok (), { g with subs := g.subs ++ [(name, s)] })

end OpenMDAO
