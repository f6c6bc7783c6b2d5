import Verif.Model.ApplyLinear
import Verif.Model.Paths
/-!
# The inputs that count in the linear solve of a Newton solver below the root
(`openmdao/solvers/newton.py:74-100`, `openmdao/core/system.py:826-829`)

A `Newton` solver of a group other than the root computes at setup which params of the group are connected to a source in the
group. The list goes down with every application of the operator (`newton.py:189-191`, `group.py:954`, `solver_base.py:294-295`,
`group.py:879-881`); a component takes its own names out of it and leaves the other params out of the product. Values of the
others are left-overs of linear solves of groups further up: `clear_dparams` of the group does not reach them, because the vectors
they live in belong to the groups above (`vec_wrapper.py:1118-1121`, `group.py:961-978`).
-/
namespace OpenMDAO

/-- `Newton.setup` (`newton.py:92-99`) for a group with the given pathname: `params` are the keys of `sub._params_dict`, `conns` is
`sub.connections` (source of every connected target; `src_indices` left out), `srcs` the pathnames of the variables of
`sub.dumat[None]`. The set is a list here. `none` for the root. -/
def newtonRel (name path : Str) (params : List Str) (conns : List (Str × Str)) (srcs : List Str) : Option (List Str) :=
  if name = [] then none
  else some (params.filter fun v =>
    match conns.lookup v with
    | none => false
    | some s => path.isPrefixOf s && srcs.contains s)

/-- `[name_relative_to(self.pathname, var) for var in rel_inputs if var.startswith(self.pathname)]` under `if rel_inputs:`
(`system.py:826-829`). The result is only ever tested as `if rel_inputs` and `in rel_inputs`; `[]` stands for `None` and for the empty
set as well. -/
def compRel (path : Str) (rel : Option (List Str)) : List Str :=
  ((rel.getD []).filter path.isPrefixOf).map (nameRelativeTo path)

variable {K : Type} [CommRing K]

/-- `_sys_apply_linear('fwd', …, rel_inputs)` of a component in the operator of Newton's linear solve (`system.py:799-894`). -/
def newtonApply (c : LinComp K) (path : Str) (rel : Option (List Str)) (dp du dr : DVec K) : Except PyErr (LinOut K) :=
  sysApplyFwd { c with relInputs := (compRel path rel).map String.ofList } dp du dr

/-- The same for a child group that is finite-differenced: `Group._sys_apply_linear` does not hand `rel_inputs` on
(`group.py:873-875`). -/
def newtonApplyFd (c : LinComp K) (dp du dr : DVec K) : Except PyErr (LinOut K) :=
  sysApplyFwd { c with relInputs := [], forceFd := true } dp du dr

end OpenMDAO
