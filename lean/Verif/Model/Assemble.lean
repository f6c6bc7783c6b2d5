import Verif.Model.ApplyLinear
/-!
# Model of the Jacobian assembly for the direct solver (`openmdao/core/group.py:980-1088`, `openmdao/solvers/ln_direct.py`)

A position in the unknowns vector of the group is a variable (promoted name in the group) with an offset; the slices of different
variables are disjoint (C05). A matrix over the unknowns is a function of two positions. `u` is the layout of the
unknowns vector: promoted name and size of every variable.
-/
namespace OpenMDAO

/-- Position in the unknowns vector. Serves `asmEntry` (`group.py:1049-1086`). -/
abbrev Pos := String × Nat

/-- What is known about one param of a component. -/
structure AsmInput (K : Type) where
  /-- `sys_prom_name[i_var_abs]` -/
  prom : String
  /-- `conn.get(i_var_abs)`: `none` when it is not connected, `some none` when the source is outside of the group (`self.connections` is
  the dict of the whole problem, `group.py:432`), otherwise the promoted name of the source in the group -/
  conn : Option (Option String)
  /-- `src_indices` of the connection; `none` when the whole source is transferred -/
  idxs : Option (List Nat)
  /-- factor from the unit of the source to the unit of the param -/
  unit : K

/-- A component below the group. Serves `asmCol` (`group.py:1056-1072`). -/
structure AsmComp (K : Type) where
  /-- unknowns of the component: own name ↦ promoted name in the group -/
  outs : List (String × String)
  /-- `sub.states` -/
  states : List String
  ins : List (String × AsmInput K)
  /-- `sub._jacobian_cache` in iteration order; `none` when `apply_linear` is overridden -/
  jac : Option (List ((String × String) × Mat K))

variable {K : Type} [CommRing K]

/-- Column variable of a Jacobian entry (`group.py:1056-1072`): KeyError when the source has no name in this group, no column
(`continue`) when the param is not connected. -/
def asmCol (u : List (String × Nat)) (c : AsmComp K) (i_var : String) : Except PyErr (Option String) :=
  if i_var ∈ c.states then
    match c.outs.lookup i_var with
    | some i => .ok (some i)
    | none => .error .KeyError
  else match c.ins.lookup i_var with
    | none => .error .KeyError
    | some p =>
      if p.prom ∈ u.map Prod.fst then .ok (some p.prom)
      else match p.conn with
        | none => .ok none
        | some none => .error .KeyError
        | some (some s) => .ok (some s)

/-- The matrix after `partials[o_start:o_end, i_start:i_end] = J`, with numpy broadcasting of a dimension of size 1. Serves `asmEntry` (`group.py:1049-1086`). -/
def setBlk (P : Pos → Pos → K) (o i : String) (J : Mat K) : Pos → Pos → K := fun r q =>
  if r.1 = o ∧ q.1 = i then J.a (if J.m = 1 then 0 else r.2) (if J.n = 1 then 0 else q.2) else P r q

/-- The same with the shape check of numpy: ValueError unless every dimension matches or is 1. Serves `asmEntry` (`group.py:1049-1086`). -/
def setBlock (u : List (String × Nat)) (P : Pos → Pos → K) (o i : String) (J : Mat K) : Except PyErr (Pos → Pos → K) :=
  match u.lookup o, u.lookup i with
  | some no, some ni =>
    if (J.m = no ∨ J.m = 1) ∧ (J.n = ni ∨ J.n = 1) then .ok (setBlk P o i J) else .error .ValueError
  | _, _ => .error .KeyError

/-- Body of the loop over the Jacobian entries of a component (`group.py:1049-1086`). The index cache only saves the slices. -/
def asmEntry (fwd : Bool) (u : List (String × Nat)) (c : AsmComp K) (P : Pos → Pos → K) (e : (String × String) × Mat K) :
    Except PyErr (Pos → Pos → K) :=
  match asmCol u c e.1.2, c.outs.lookup e.1.1 with
  | .error x, _ => .error x
  | .ok _, none => .error .KeyError
  | .ok none, some _ => .ok P
  | .ok (some i), some o => if fwd then setBlock u P o i e.2 else setBlock u P i o e.2.T

/-- One component (`group.py:1035-1086`): RuntimeError when it has no Jacobian. -/
def asmComp (fwd : Bool) (u : List (String × Nat)) (P : Pos → Pos → K) (c : AsmComp K) : Except PyErr (Pos → Pos → K) :=
  match c.jac with
  | none => .error .RuntimeError
  | some jac => jac.foldlM (asmEntry fwd u c) P

/-- `-np.eye(n_edge)`. Serves `assembleJac` (`group.py:1028-1086`). -/
def negEye : Pos → Pos → K := fun r q => if r = q then -1 else 0

/-- `Group.assemble_jacobian(mode, method='assemble')` (`group.py:1028-1086`). -/
def assembleJac (fwd : Bool) (u : List (String × Nat)) (comps : List (AsmComp K)) : Except PyErr (Pos → Pos → K) :=
  comps.foldlM (asmComp fwd u) negEye

/-- Position of the source that entry `b` of a param receives. Serves `freeArg` (`group.py:869-871`). -/
def srcPos (idxs : Option (List Nat)) (b : Nat) : Option Nat :=
  match idxs with
  | none => some b
  | some l => l[b]?

/-- Value of the state or param `i_var` of a component in the matrix-free product: the scatter of `v` into `dparams`
(`group.py:869-871`) and the unit conversion (`system.py:848`); params with no source in the group are zero
(`clear_dparams`). -/
def freeArg (c : AsmComp K) (v : Pos → K) (i_var : String) (b : Nat) : K :=
  if i_var ∈ c.states then
    match c.outs.lookup i_var with
    | some i => v (i, b)
    | none => 0
  else match c.ins.lookup i_var with
    | none => 0
    | some p => match p.conn with
      | some (some s) => match srcPos p.idxs b with
        | some k => v (s, k) * p.unit
        | none => 0
      | _ => 0

/-- Row of the matrix-free product for entry `a` of unknown `o_var` (`system.py:841-869,961-1021`, proved of the code model in
`C31_forward_value`): Jacobian products, and `-v` for explicit outputs. -/
def freeRow (c : AsmComp K) (v : Pos → K) (o_var prom : String) (a : Nat) : K :=
  ((c.jac.getD []).map fun e => if e.1.1 = o_var then ∑ b ∈ Finset.range e.2.n, e.2.a a b * freeArg c v e.1.2 b else 0).sum
    - if o_var ∈ c.states then 0 else v (prom, a)

/-- `self.mult` in forward mode (`solver_base.py:264-299`): every unknown belongs to one component. -/
def matFree (comps : List (AsmComp K)) (v : Pos → K) (r : Pos) : K :=
  (comps.map fun c => (c.outs.map fun o => if o.2 = r.1 then freeRow c v o.1 o.2 r.2 else 0).sum).sum

/-- What a Jacobian entry sends back from the residual `w` to entry `b` of its param or state (`system.py:998-1000`). -/
def revTerm (c : AsmComp K) (w : Pos → K) (e : (String × String) × Mat K) (b : Nat) : K :=
  match c.outs.lookup e.1.1 with
  | none => 0
  | some o => ∑ a ∈ Finset.range e.2.m, e.2.a a b * w (o, a)

/-- Contribution of a Jacobian entry to position `q` in reverse mode, including the reverse scatter of `dparams`. Serves the reverse mode of `group.py:1028-1086` and `system.py:998-1000`. -/
def revAt (c : AsmComp K) (w : Pos → K) (q : Pos) (e : (String × String) × Mat K) : K :=
  if e.1.2 ∈ c.states then
    if c.outs.lookup e.1.2 = some q.1 then revTerm c w e q.2 else 0
  else match c.ins.lookup e.1.2 with
    | none => 0
    | some p =>
      if p.conn = some (some q.1) then
        ∑ b ∈ Finset.range e.2.n, if srcPos p.idxs b = some q.2 then revTerm c w e b * p.unit else 0
      else 0

/-- `self.mult` in reverse mode. `solver_base.py:264-299`. -/
def matFreeRev (comps : List (AsmComp K)) (w : Pos → K) (q : Pos) : K :=
  (comps.map fun c => ((c.jac.getD []).map (revAt c w q)).sum
    - (c.outs.map fun o => if o.2 = q.1 ∧ o.1 ∉ c.states then w q else 0).sum).sum

/-- `method='MVP'` (`group.py:1017-1026`): column `q` is the product with the unit vector of `q`. -/
def mvpJac (mult : (Pos → K) → Pos → K) : Pos → Pos → K := fun r q => mult (fun p => if p = q then 1 else 0) r

end OpenMDAO
