import Verif.Model.DataTransfer
import Verif.Model.Paths
import Verif.Model.Promotes
/-!
# Model of the index computation for data transfers of a group

`openmdao/core/group.py:1364-1466` (`_get_global_idxs`, any number of processes) and `group.py:1468-1635` (`_setup_data_transfer`, `_transfer_data`, one process), together with the layout of the
vectors the indices refer to (`core/vec_wrapper.py:811-826,1088-1111,1186-1203` and the two `_get_flattened_sizes`, `vec_wrapper.py:858-869,1223-1232`).
-/
namespace OpenMDAO

/-- What `_get_global_idxs` reads of an accessor: `remote`, `meta['src_indices']` if present, `meta['size']`. Serves `argIdxs` (`group.py:1420-1423`). -/
structure XAcc where
  remote : Bool
  srcIdx : Option (List Int)
  size : Nat
  deriving DecidableEq

/-- `sizes[r, i]` of a (rank x variable) table. All rows have the same length and `i` is the number of a variable, so the default is never used. Serves `rankStart` (`group.py:1435`). -/
def szAt (sz : List (List Nat)) (r i : Nat) : Nat := (sz.getD r []).getD i 0

/-- `np.sum(u_sizes[:irank, ivar])` (`group.py:1435`). -/
def rankStart (sz : List (List Nat)) (r i : Nat) : Nat := ((List.range r).map fun q => szAt sz q i).sum

/-- `np.sum(sizes[:r]) + np.sum(sizes[r, :i])` (`group.py:1447-1448,1459,1462-1463`). -/
def varOffset (sz : List (List Nat)) (r i : Nat) : Nat := ((sz.take r).map List.sum).sum + ((sz.getD r []).take i).sum

/-- One rank of the loop at `group.py:1435-1451`: the entries of `arg_idxs` that lie on `irank` are converted. -/
def placeRank (sz : List (List Nat)) (i : Nat) (args : List Int) (new : List (Option Int)) (r : Nat) : List (Option Int) :=
  let start : Int := rankStart sz r i
  let stop : Int := start + szAt sz r i
  List.zipWith (fun a n => if start ≤ a ∧ a < stop then some (a + (-start + varOffset sz r i)) else n) args new

/-- `new_indices` (`group.py:1434-1453`): entries that lie on no rank keep whatever `np.empty` contained (`none`). -/
def placeAll (sz : List (List Nat)) (nproc i : Nat) (args : List Int) : List (Option Int) :=
  (List.range nproc).foldl (placeRank sz i args) (args.map fun _ => none)

/-- `make_idx_array(0, n)` (`vec_wrapper.py:653-672`). -/
def idxArange (n : Nat) : List Int := (List.range n).map Int.ofNat

/-- `arg_idxs` (`group.py:1420-1423`). -/
def argIdxs (p : XAcc) : List Int :=
  match p.srcIdx with
  | some l => l
  | none => idxArange p.size

/-- `_get_global_idxs` (`group.py:1364-1466`) on process `iproc` of `nproc`: `uown`, `pown` are the owning ranks of the two variables, `i` and `j` their columns in the tables of sizes. -/
def getGlobalIdxs (nproc iproc : Nat) (mode : Mode) (u p : XAcc) (uown pown i j : Nat) (usz psz : List (List Nat)) :
    List (Option Int) × List Nat :=
  let rev := mode = .rev
  let pdist := p.srcIdx.isSome
  let udist := u.srcIdx.isSome
  if (¬ rev ∧ p.remote) ∨ (rev ∧ ¬ pdist ∧ u.remote) ∨ (rev ∧ udist ∧ ¬ pdist ∧ iproc ≠ pown) then ([], [])
  else
    let args := argIdxs p
    if udist || pdist then
      let prank := if rev ∧ p.remote then pown else iproc
      if pdist ∧ prank ≠ iproc then ([], [])
      else (placeAll usz nproc i args, (List.range args.length).map fun k => varOffset psz prank j + k)
    else
      let urank := if rev then iproc else uown
      let prank := if rev then pown else iproc
      (args.map fun a => some (a + varOffset usz urank i), (List.range args.length).map fun k => varOffset psz prank j + k)

/-! ## Vectors and transfers of a group in one process -/

/-- An unknown of the group, in the order of `unknowns._dat`, with its relevance for the variable of interest. Vectors are keyed by promoted names in the code, here by absolute path names;
within a group the two correspond one to one. Serves `XGroup` (`group.py:1530-1539`). -/
structure GUnk where
  path : Str
  size : Nat
  pbo : Bool
  rel : Bool
  deriving DecidableEq

/-- A parameter the group is responsible for (`pathname in my_params`), in the order of `params_dict`, with declared metadata. Serves `XGroup` (`group.py:1530-1539`). -/
structure GPar where
  path : Str
  size : Nat
  pbo : Bool
  rel : Bool
  srcIdx : Option (List Int)
  deriving DecidableEq

/-- The group: path name, unknowns, parameters, `connections` (parameter, source) restricted to `my_params` (`group.py:1530-1539`). -/
structure XGroup where
  path : Str
  us : List GUnk
  ps : List GPar
  conns : List (Str × Str)

/-- An entry of a vector: the accessor's slice (`none` for pass-by-object) and size. Serves `uSlot` (`vec_wrapper.py:815-827`). -/
structure XSlot where
  path : Str
  slice : Option (Nat × Nat)
  size : Nat
  deriving DecidableEq

/-- One unknown in `SrcVecWrapper.setup` (`vec_wrapper.py:815-827`). -/
def uSlot (st : Nat × List XSlot) (u : GUnk) : Nat × List XSlot :=
  if u.rel then
    if u.pbo then (st.1, st.2 ++ [⟨u.path, none, u.size⟩])
    else (st.1 + u.size, st.2 ++ [⟨u.path, some (st.1, st.1 + u.size), u.size⟩])
  else st

/-- Vector of unknowns: its size and entries. Serves `XGroup.xferDict` (`group.py:1528-1566`). -/
def XGroup.uVec (g : XGroup) : Nat × List XSlot := g.us.foldl uSlot (0, [])

/-- Serves `pSlot` (`vec_wrapper.py:1088-1111`). -/
def XGroup.unk (g : XGroup) (path : Str) : Option GUnk := g.us.find? fun u => u.path == path
/-- Serves `connXfer` (`group.py:1541-1566`). -/
def XGroup.par (g : XGroup) (path : Str) : Option GPar := g.ps.find? fun p => p.path == path

/-- `meta['size']` of a parameter after `_setup_var_meta` (`vec_wrapper.py:1190-1191`). Sources with `src_indices` exist only with several processes. -/
def pSize (p : GPar) (u : GUnk) : Nat := if p.srcIdx.isSome then p.size else u.size

/-- `acc.pbo` of a parameter (`vec_wrapper.py:69,1193-1196`). -/
def pPbo (p : GPar) (u : GUnk) : Bool := p.pbo || u.pbo

/-- One parameter in `TgtVecWrapper.setup` (`vec_wrapper.py:1088-1111`): the size counts whether or not the parameter is passed by object. -/
def pSlot (g : XGroup) (st : Nat × List XSlot) (p : GPar) : Except PyErr (Nat × List XSlot) :=
  if p.rel then
    match g.conns.lookup p.path with
    | none => .error .RuntimeError
    | some s =>
      match g.unk s with
      | none => .error .KeyError
      | some u =>
        .ok (st.1 + pSize p u, st.2 ++ [⟨p.path, if pPbo p u then none else some (st.1, st.1 + pSize p u), pSize p u⟩])
  else .ok st

/-- Vector of parameters: its size and entries. Serves `XGroup.xferDict` (`group.py:1528-1566`). -/
def XGroup.pVec (g : XGroup) : Except PyErr (Nat × List XSlot) := g.ps.foldlM (pSlot g) (0, [])

/-- `_get_flattened_sizes` (`vec_wrapper.py:858-869,1223-1232`): names and sizes of the entries that are not passed by object. -/
def flatSizes (l : List XSlot) : List (Str × Nat) := (l.filter fun s => s.slice.isSome).map fun s => (s.path, s.size)

/-- Column of a variable in the table of sizes (`vec_unames`, `vec_pnames`, `group.py:1494-1507`). -/
def colOf (sizes : List (Str × Nat)) (path : Str) : Except PyErr Nat :=
  match sizes.findIdx? (fun s => s.1 == path) with
  | some i => .ok i
  | none => .error .KeyError

/-- An index array with uninitialised or negative entries has no defined meaning; it is reported as an error here. Serves `connIdxs` (`group.py:1555-1566`). -/
def natIdxs (l : List (Option Int)) : Except PyErr (List Nat) :=
  l.mapM fun a =>
    match a with
    | some (.ofNat n) => .ok n
    | _ => .error .IndexError

/-- A value of `xfer_dict` (`group.py:1528,1549-1553`): index pairs and pass-by-object pairs (parameter, source). -/
structure XferLists where
  vecs : List (List Nat × List Nat)
  objs : List (Str × Str)
  deriving DecidableEq

/-- `xfer_dict.setdefault(key, …)` followed by the appends of one connection. Serves `connXfer` (`group.py:1541-1566`). -/
def addXfer (d : List ((Str × Mode) × XferLists)) (key : Str × Mode) (vecs : List (List Nat × List Nat)) (objs : List (Str × Str)) :
    List ((Str × Mode) × XferLists) :=
  let cur := (d.lookup key).getD ⟨[], []⟩
  dictSet d key ⟨cur.vecs ++ vecs, cur.objs ++ objs⟩

/-- Index pair of one vector connection (`group.py:1555-1566`) on one process. -/
def connIdxs (uvec pvec : List XSlot) (mode : Mode) (u : GUnk) (p : GPar) : Except PyErr (List Nat × List Nat) := do
  let usz := flatSizes uvec
  let psz := flatSizes pvec
  let i ← colOf usz u.path
  let j ← colOf psz p.path
  let r := getGlobalIdxs 1 0 mode ⟨false, none, u.size⟩ ⟨false, p.srcIdx, pSize p u⟩ 0 0 i j [usz.map Prod.snd] [psz.map Prod.snd]
  let s ← natIdxs r.1
  return (s, r.2)

/-- The two directions of one connection (`group.py:1541-1566`), keyed by the subsystem of the parameter (fwd) and of the source (rev). -/
def connXfer (g : XGroup) (uvec pvec : List XSlot) (d : List ((Str × Mode) × XferLists)) (c : Str × Str) :
    Except PyErr (List ((Str × Mode) × XferLists)) :=
  match g.unk c.2, g.par c.1 with
  | some u, some p =>
    if u.rel && p.rel then
      if u.pbo then
        .ok (addXfer (addXfer d (nearestChild g.path c.1, .fwd) [] [(c.1, c.2)]) (nearestChild g.path c.2, .rev) [] [])
      else do
        let f ← connIdxs uvec pvec .fwd u p
        let d1 := addXfer d (nearestChild g.path c.1, .fwd) [f] []
        let r ← connIdxs uvec pvec .rev u p
        return addXfer d1 (nearestChild g.path c.2, .rev) [r] []
    else .ok d
  | _, _ => .error .KeyError

/-- `xfer_dict` of `_setup_data_transfer` (`group.py:1528-1566`). -/
def XGroup.xferDict (g : XGroup) : Except PyErr (List ((Str × Mode) × XferLists)) := do
  let pv ← g.pVec
  g.conns.foldlM (connXfer g g.uVec.2 pv.2) []

/-- All lists of one direction, in the order of the dictionary (`group.py:1579-1591`). -/
def fullLists (d : List ((Str × Mode) × XferLists)) (mode : Mode) : XferLists :=
  let l := d.filter fun e => decide (e.1.2 = mode)
  ⟨l.flatMap fun e => e.2.vecs, l.flatMap fun e => e.2.objs⟩

/-- `_data_xfer[(target, mode, voi)]` (`group.py:1579-1605`): `''` is the full transfer; a subsystem has one if it has something to move. -/
def XGroup.xferLists (g : XGroup) (target : Str) (mode : Mode) : Except PyErr (Option XferLists) := do
  let d ← g.xferDict
  if target = [] then return some (fullLists d mode)
  else
    match d.lookup (target, mode) with
    | some x => return if x.vecs.isEmpty && x.objs.isEmpty then none else some x
    | none => return none

/-- `_transfer_data(target, 'fwd')` on the flat vectors (`group.py:1607-1635`). -/
def XGroup.transferFwd {α : Type} (g : XGroup) (target : Str) (u p : List α) : Except PyErr (List α) := do
  match ← g.xferLists target .fwd with
  | none => return p
  | some x =>
    let sc ← mkTransfer .fwd x.vecs
    transferFwdVec sc u p

/-- `_transfer_data(target, 'rev', deriv=True)` on the flat vectors. `group.py:1607-1635`. -/
def XGroup.transferRev {α : Type} [Add α] (g : XGroup) (target : Str) (u p : List α) : Except PyErr (List α) := do
  match ← g.xferLists target .rev with
  | none => return u
  | some x =>
    let sc ← mkTransfer .rev x.vecs
    OpenMDAO.transferRev sc u p

end OpenMDAO
