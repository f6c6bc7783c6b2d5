import Verif.Model.Numpy
/-!
# Model of `Group.subsystems`, `subgroups` and `components`

`openmdao/core/group.py:205-259`. A system is a tree; the iterator is the list of what it yields.
-/
namespace OpenMDAO

/-- A system: its name, whether it is a `Group`, whether it is among the local subsystems of its group, and its subsystems in execution
order (`group.py:80-86`, `394-399`). That `_local_subsystems` has the order of `_subsystems` is taken; `Model/Paths` has the case
where it has not. -/
inductive SysTree where
  | node (name : String) (grp loc : Bool) (subs : List SysTree)

/-- Serves `subsysLoop` (`group.py:205-239`). -/
def SysTree.name : SysTree → String
  | .node n _ _ _ => n

/-- `isinstance(s, Group)` (`group.py:237`). -/
def SysTree.grp : SysTree → Bool
  | .node _ g _ _ => g

/-- Is it in `_local_subsystems` of its group (`group.py:232`). -/
def SysTree.loc : SysTree → Bool
  | .node _ _ l _ => l

/-- `_subsystems` (`group.py:232`). -/
def SysTree.subs : SysTree → List SysTree
  | .node _ _ _ s => s

mutual
/-- `Group.subsystems(local, recurse, typ)` without `include_self` (`group.py:232-239`); `typ` is a test. The subsystems of a component
are an empty list (`system.py:340-366`). -/
def subsystems (typ : SysTree → Bool) (loc rec : Bool) : SysTree → List SysTree
  | .node _ g _ subs => if g then subsysLoop typ loc rec subs else []

/-- The loop over `subs` (`group.py:234-239`). -/
def subsysLoop (typ : SysTree → Bool) (loc rec : Bool) : List SysTree → List SysTree
  | [] => []
  | s :: ss =>
    (if loc && !s.loc then []
      else (if typ s then [s] else []) ++ (if rec && s.grp then subsystems typ loc rec s else [])) ++
    subsysLoop typ loc rec ss
end

/-- `Group.subsystems` with `include_self` (`group.py:229-239`). -/
def subsystemsSelf (typ : SysTree → Bool) (loc rec self : Bool) (t : SysTree) : List SysTree :=
  (if self && typ t then [t] else []) ++ subsystems typ loc rec t

/-- `Group.subgroups` (`group.py:240-248`). -/
def subgroups (loc rec self : Bool) (t : SysTree) : List SysTree := subsystemsSelf SysTree.grp loc rec self t

/-- `Group.components` (`group.py:250-258`). -/
def subcomponents (loc rec self : Bool) (t : SysTree) : List SysTree := subsystemsSelf (fun s => !s.grp) loc rec self t

end OpenMDAO
