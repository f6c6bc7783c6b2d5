import Verif.Model.Declare
/-!
# Model of the arguments of `IndepVarComp`

`openmdao/components/indep_var_comp.py:13-47`. Names are strings. Declarations are those of `Model/Declare`.
-/
namespace OpenMDAO

/-- An element of the iterable: a tuple of two, a tuple of three, a tuple of any other length, and anything that is no tuple, of which only
its truth value matters. Serves `ivcItem` (`indep_var_comp.py:27-36`). -/
inductive IvcItem where
  | pair (name : List Char) (val : ChkVal)
  | triple (name : List Char) (val : ChkVal) (kw : DeclArgs)
  | tuple (len : Nat)
  | other (truthy : Bool)
  deriving DecidableEq

/-- The first argument: a string, an iterable, or anything else (`indep_var_comp.py:19-25`, `44`). -/
inductive IvcArg where
  | str (name : List Char)
  | items (l : List IvcItem)
  | other
  deriving DecidableEq

/-- What is then declared (`indep_var_comp.py:25-42`): `n`, `v`, `kw` keep the values of the element before when `badtup` is set to something
that counts as false; at the first element they are not bound. -/
def ivcItem (last : Option (List Char × DeclArgs)) : IvcItem → Except PyErr (List Char × DeclArgs)
  | .pair n v => .ok (n, { val := some v })
  | .triple n v kw => .ok (n, { kw with val := some v })
  | .tuple len => if len = 0 then (match last with | some d => .ok d | none => .error .NameError) else .error .ValueError
  | .other t => if t then .error .ValueError else (match last with | some d => .ok d | none => .error .NameError)

/-- The loop (`indep_var_comp.py:25-43`). -/
def ivcLoop (c : CompDecl) (last : Option (List Char × DeclArgs)) : List IvcItem → Except PyErr CompDecl
  | [] => .ok c
  | it :: l =>
    match ivcItem last it with
    | .error e => .error e
    | .ok d =>
      match declare c .output d.1 d.2 with
      | (_, .error e) => .error e
      | (c', .ok ()) => ivcLoop c' (some d) l

/-- `IndepVarComp(name, val, **kwargs)` (`indep_var_comp.py:13-47`): the keywords are used for a single name only. -/
def ivcInit (arg : IvcArg) (val : Option ChkVal) (kw : DeclArgs) (promotes : Bool) : Except PyErr CompDecl :=
  if promotes then .error .ValueError
  else
    match arg with
    | .str n =>
      match val with
      | none => .error .ValueError
      | some v =>
        match declare emptyDecl .output n { kw with val := some v } with
        | (_, .error e) => .error e
        | (c, .ok ()) => .ok c
    | .items l => ivcLoop emptyDecl none l
    | .other => .error .ValueError

end OpenMDAO
