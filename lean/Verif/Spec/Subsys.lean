import Verif.Model.Subsys
/-!
# Specification: the systems below a group, each with its place

The place of a system is the list of positions on the way down to it. Places are ordered like words in a dictionary: a group comes
before what is in it, and what is in an earlier subsystem before what is in a later one.
-/
namespace OpenMDAO

/-- `s` is at place `a` below `t`: directly, or deeper when `rec`; with `loc` all systems on the way are local. -/
inductive SysTree.Below (loc rec : Bool) : SysTree → List Nat → SysTree → Prop
  | child {t s : SysTree} {k : Nat} : t.grp = true → t.subs[k]? = some s → (loc = true → s.loc = true) → Below loc rec t [k] s
  | deep {t s r : SysTree} {k : Nat} {a : List Nat} : rec = true → t.grp = true → t.subs[k]? = some s → (loc = true → s.loc = true) →
      Below loc rec s a r → Below loc rec t (k :: a) r

/-- The names on the way down to the system at a place. -/
inductive SysTree.PathTo : SysTree → List Nat → List String → Prop
  | nil {t : SysTree} : PathTo t [] []
  | cons {t s : SysTree} {k : Nat} {a : List Nat} {p : List String} : t.subs[k]? = some s → PathTo s a p →
      PathTo t (k :: a) (s.name :: p)

/-- Subsystems of one group have different names (`Group.add` refuses a name that is taken), at every level. -/
inductive SysTree.DistinctNames : SysTree → Prop
  | mk {t : SysTree} : (t.subs.map SysTree.name).Nodup → (∀ s ∈ t.subs, DistinctNames s) → DistinctNames t

end OpenMDAO
