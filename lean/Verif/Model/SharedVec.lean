import Verif.Model.Promotes
/-!
# Model of the storage shared by derivative vectors

`System._get_shared_vec_info` (`core/system.py:1212-1247`), `Driver._of_interest` (`core/driver.py:201-222`), the part of `SrcVecWrapper.setup` and `TgtVecWrapper.setup` that places variables in a
shared array (`core/vec_wrapper.py:811-847,1087-1140,1183-1203`) and the calls in `core/group.py:442-458,578-587` and `core/system.py:1064-1076`. Only positions and lengths are modelled.
-/
namespace OpenMDAO

/-- Metadata of one variable, as far as storage is concerned: absolute and top-level promoted name, size, `pass_by_obj`, `remote`; for a parameter also the size and `pass_by_obj` of its source and
whether one of both has `src_indices`. Serves `sharedMetas` (`core/system.py:1217-1223`). -/
structure DerMeta where
  path : Path
  top : Path
  size : Nat
  pbo : Bool
  remote : Bool
  srcSize : Nat
  srcPbo : Bool
  srcIdx : Bool

/-- `metas` (`core/system.py:1217-1223`): without pass-by-object variables, for parameters only owned ones. -/
def sharedMetas (owned : Option (List Path)) (vdict : List DerMeta) : List DerMeta :=
  match owned with
  | none => vdict.filter fun m => !m.pbo
  | some ps => vdict.filter fun m => decide (m.path ∈ ps) && !m.pbo

/-- `sum(m['size'] for m in metas if m['top_promoted_name'] in rel_voi)`. Serves `sharedVoi` (`core/system.py:1238-1241`). -/
def relSize (rel : List Path) (metas : List DerMeta) : Nat := ((metas.filter fun m => decide (m.top ∈ rel)).map DerMeta.size).sum

/-- `relevant`, keyed by the variable of interest, `None` included. Serves `sharedVoi` (`core/system.py:1238-1241`). -/
abbrev RelDict := List (Option Path × List Path)

/-- State of the loops: `vec_size` and `offsets`. Serves `sharedVoi` (`core/system.py:1238-1241`). -/
structure ShSt where
  size : Nat
  offsets : List (Option Path × Nat)
  deriving DecidableEq

/-- The inner loop body (`core/system.py:1238-1241`). -/
def sharedVoi (relevant : RelDict) (metas : List DerMeta) (st : ShSt) (voi : Path) : Except PyErr ShSt :=
  match relevant.lookup (some voi) with
  | some rel => .ok ⟨st.size + relSize rel metas, dictSet st.offsets (some voi) st.size⟩
  | none => .error .KeyError

/-- The outer loop body (`core/system.py:1235-1244`): the state holds `max_size` and `offsets`. -/
def sharedGroup (relevant : RelDict) (metas : List DerMeta) (st : ShSt) (vois : List Path) : Except PyErr ShSt := do
  let r ← vois.foldlM (sharedVoi relevant metas) ⟨0, st.offsets⟩
  return ⟨if st.size < r.size then r.size else st.size, r.offsets⟩

/-- `_get_shared_vec_info` (`core/system.py:1212-1247`): size of the shared array and offset of every variable of interest. -/
def sharedVecInfo (topLinGs : Bool) (relevant : RelDict) (groups : List (List Path)) (owned : Option (List Path)) (vdict : List DerMeta) :
    Except PyErr ShSt :=
  if topLinGs then groups.foldlM (sharedGroup relevant (sharedMetas owned vdict)) ⟨((sharedMetas owned vdict).map DerMeta.size).sum, [(none, 0)]⟩
  else .ok ⟨((sharedMetas owned vdict).map DerMeta.size).sum, [(none, 0)]⟩

/-- `relevance.is_relevant` (`core/relevance.py:62-82`). -/
def isRel (relevant : RelDict) (voi : Option Path) (top : Path) : Bool :=
  match relevant.lookup voi with
  | some r => decide (top ∈ r)
  | none => true

/-- A variable with the slice its accessor got. Serves `srcSlice` (`core/vec_wrapper.py:815-827`). -/
structure Slc where
  path : Path
  start : Nat
  stop : Nat

/-- One variable in `SrcVecWrapper.setup` (`core/vec_wrapper.py:815-827`): variables that are not stored get no slice. -/
def srcSlice (relevant : RelDict) (voi : Option Path) (st : Nat × List Slc) (m : DerMeta) : Nat × List Slc :=
  if isRel relevant voi m.top && (!m.pbo && !m.remote) then (st.1 + m.size, st.2 ++ [⟨m.path, st.1, st.1 + m.size⟩]) else st

/-- `meta['size']` after `_setup_var_meta` (`core/vec_wrapper.py:1190-1191`). -/
def tgtSize (m : DerMeta) : Nat := if m.srcIdx then m.size else m.srcSize

/-- One variable in `TgtVecWrapper.setup` (`core/vec_wrapper.py:1088-1111`) together with `_setup_var_meta` and the constructor of `Accessor` (`vec_wrapper.py:69,84-87`): a pass-by-object parameter
has no slice, but its size is counted. Being pass-by-object is inherited from the source. -/
def tgtSlice (relevant : RelDict) (voi : Option Path) (owned : List Path) (st : Nat × List Slc) (m : DerMeta) : Nat × List Slc :=
  if isRel relevant voi m.top && decide (m.path ∈ owned) then
    (if m.remote then st.1 else st.1 + tgtSize m,
      if m.remote || m.pbo || m.srcPbo then st.2 else st.2 ++ [⟨m.path, st.1, st.1 + tgtSize m⟩])
  else st

/-- A range of cells of the shared array that a variable of some vector occupies. Serves `srcVector` (`core/group.py:576-583`). -/
structure Cells where
  path : Path
  off : Nat
  len : Nat
  deriving DecidableEq

/-- numpy: `shared[offset:][:vec_size][start:end]` as a range of an array of `total` cells; slices out of range are cut off silently. Serves `srcVector` (`core/group.py:576-583`). -/
def mapCells (total offset size : Nat) (s : Slc) : Cells :=
  let base := min offset total
  let len := min size (total - base)
  ⟨s.path, base + min s.start len, min s.stop len - min s.start len⟩

/-- The derivative vector of unknowns or residuals for `voi` in the shared array (`core/group.py:576-583`). -/
def srcVector (total offset : Nat) (relevant : RelDict) (voi : Option Path) (vdict : List DerMeta) : List Cells :=
  let r := vdict.foldl (srcSlice relevant voi) (0, [])
  r.2.map (mapCells total offset r.1)

/-- The derivative vector of parameters for `voi` (`core/group.py:584-587`, `core/system.py:1073-1076`). -/
def tgtVector (total offset : Nat) (relevant : RelDict) (voi : Option Path) (owned : List Path) (vdict : List DerMeta) : List Cells :=
  let r := vdict.foldl (tgtSlice relevant voi owned) (0, [])
  r.2.map (mapCells total offset r.1)

/-- One name in the second loop of `_of_interest` (`core/driver.py:210-214`): `vois[i]` and `remaining`. -/
def oiName (set : List Path) (st : List Path × List Path) (v : Path) : Except PyErr (List Path × List Path) :=
  if v ∈ set then
    if v ∈ st.2 then .ok (st.1 ++ [v], st.2.filter (· ≠ v)) else .error .KeyError
  else .ok st

/-- One set of the second loop: appends `vois[i]`. Serves `ofInterest` (`core/driver.py:201-222`). -/
def oiSet (vois : List Path) (st : List (List Path) × List Path) (set : List Path) : Except PyErr (List (List Path) × List Path) := do
  let r ← vois.foldlM (oiName set) ([], st.2)
  return (st.1 ++ [r.1], r.2)

/-- `Driver._of_interest` (`core/driver.py:201-222`); `remaining` is a set, kept as the list of its members. -/
def ofInterest (sets : List (List Path)) (vois : List Path) : Except PyErr (List (List Path)) := do
  let r ← sets.foldlM (oiSet vois) ([], vois)
  return r.1.filter (fun g => !g.isEmpty) ++ (vois.filter fun v => decide (v ∈ r.2)).map fun v => [v]
