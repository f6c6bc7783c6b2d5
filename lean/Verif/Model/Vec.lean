import Verif.Model.Numpy
/-!
# Model of `openmdao/core/vec_wrapper.py`: accessors, source vectors, views

Numpy views are modelled as `(off, len)` windows into one base buffer, pass-by-object wrappers
(`_ByObjWrapper`, `vec_wrapper.py:15-27`) as addresses into a heap, so aliasing between vectors is explicit.
Shapes are modelled only as "scalar" (`shape == 1`) or "array"; array values are stored flattened (numpy's
row-major `flat`/`reshape` is a bijection and is not modelled). The complex-step variants of the accessor
functions are not modelled.
-/
namespace OpenMDAO

/-- A value handed to / returned by a vector: python float, (flattened) numpy array, or arbitrary object. Serves `VarMeta` (`vec_wrapper.py:69,70,127,136,815-827`). -/
inductive PyVal (α β : Type) where
  | num (x : α)
  | arr (l : List α)
  | obj (b : β)
  deriving DecidableEq, Repr

/-- The part of a variable's metadata dict the vector code uses (`vec_wrapper.py:69,70,127,136,815-827`). -/
structure VarMeta (α β : Type) where
  /-- promoted name under which the vector stores it -/
  name : String
  size : Nat
  /-- `meta['shape'] == 1` -/
  scalar : Bool
  /-- `meta.get('pass_by_obj')` -/
  pbo : Bool
  /-- `meta.get('remote')` -/
  remote : Bool
  /-- `relevance.is_relevant(voi, top_promoted_name)` -/
  relevant : Bool
  /-- flattened `meta['val']` for vector variables -/
  val : List α
  /-- `meta['val']` for pass-by-object variables -/
  objVal : PyVal α β
  /-- `meta.get('unit_conv')` -/
  unitConv : Option (α × α)

/-- An `Accessor` (`vec_wrapper.py:29-91`). `off,len` is the numpy view held in `self.val` for vector
variables, `addr` the object wrapper held there for pass-by-object variables. -/
structure Acc (α β : Type) where
  name : String
  slice : Option (Nat × Nat)
  off : Nat
  len : Nat
  addr : Nat
  md : VarMeta α β

/-- A `VecWrapper`: its flat vector (`self.vec`, window `off,len` of the base buffer), its ordered dict
`_dat`, and `deriv_units`. Serves `srcSetup` (`vec_wrapper.py:773-856`). -/
structure VecW (α β : Type) where
  off : Nat
  len : Nat
  dat : List (Acc α β)
  derivUnits : Bool

/-- Memory shared by all vectors that are views of each other. Serves `srcSetup` (`vec_wrapper.py:773-856`). -/
structure Mem (α β : Type) where
  buf : List α
  heap : List (PyVal α β)

variable {α β : Type}

/-- numpy view window as an index object. Serves `initVar` (`vec_wrapper.py:849-856`). -/
def window (off len : Nat) : Idx := .slice ⟨off, off + len, none⟩

/-- State of the first loop of `SrcVecWrapper.setup` (`vec_wrapper.py:812-827`): `vec_size`, `_dat`, and
the object wrappers created so far. -/
structure SetupSt (α β : Type) where
  size : Nat
  dat : List (Acc α β)
  heap : List (PyVal α β)

/-- One iteration of the first loop of `SrcVecWrapper.setup` (`vec_wrapper.py:815-827`) together with the
part of `Accessor.__init__` it runs (`vec_wrapper.py:69-88`). `_dat` is a dict; promoted names of a group's
unknowns are distinct, so insertion is modelled as append. -/
def addVar (st : SetupSt α β) (m : VarMeta α β) : SetupSt α β :=
  if m.relevant then
    if !m.pbo && !m.remote then
      ⟨st.size + m.size,
        st.dat ++ [⟨m.name, some (st.size, st.size + m.size), 0, 0, st.heap.length, m⟩], st.heap⟩
    else
      ⟨st.size, st.dat ++ [⟨m.name, none, 0, 0, st.heap.length, m⟩],
        if m.pbo then st.heap ++ [m.objVal] else st.heap⟩
  else st

/-- "map slices to the array" (`vec_wrapper.py:838-848`): `acc.val = self.vec[start:end]`, an empty array
for remote variables. -/
def mapSlice (a : Acc α β) : Acc α β :=
  if a.md.pbo then a
  else if a.md.remote then { a with off := 0, len := 0 }
  else match a.slice with
    | some (s, e) => { a with off := s, len := e - s }
    | none => a

/-- Initialisation from metadata (`vec_wrapper.py:849-856`), only for the unknowns vector
(`store_byobjs`): `acc.val[0] = meta['val']` for scalars, `acc.val[:] = meta['val'].flat` otherwise. -/
def initVar (storeByobjs : Bool) (buf : List α) (a : Acc α β) : Except PyErr (List α) :=
  if a.md.pbo || a.md.remote || !storeByobjs then .ok buf
  else if a.md.scalar then
    match a.md.val with
    | [x] => if 0 < a.len then npAssign buf (.arr [a.off]) [x] else .error .IndexError
    | _ => .error .ValueError
  else npAssign buf (window a.off a.len) a.md.val

/-- `SrcVecWrapper.setup` (`vec_wrapper.py:773-856`) without a shared vector. -/
def srcSetup [Zero α] (metas : List (VarMeta α β)) (storeByobjs : Bool) :
    Except PyErr (VecW α β × Mem α β) := do
  let st := metas.foldl addVar ⟨0, [], []⟩
  let dat := st.dat.map mapSlice
  let buf ← dat.foldlM (initVar storeByobjs) (List.replicate st.size 0)
  return (⟨0, st.size, dat, false⟩, ⟨buf, st.heap⟩)

/-- dict lookup `self._dat[name]`. Serves `VecW.get` (`vec_wrapper.py:408-421`). -/
def VecW.find (w : VecW α β) (name : String) : Option (Acc α β) := w.dat.find? (fun a => a.name == name)

/-- Unit conversion on read: `vec = val + offset; vec *= scale` / `scale*(val[0] + offset)`
(`vec_wrapper.py:208-213,249-254,285-288`). -/
def convUnits [Add α] [Mul α] (c : α × α) (x : α) : α := (x + c.2) * c.1

/-- The getter selected by `Accessor._setup_get_funct` (`vec_wrapper.py:111-182`) and the getters
(`vec_wrapper.py:204-288`). `derivUnits` switches off conversion for vector variables (line 144), a zero
scale switches it off for pass-by-object ones (`if scale:`, line 131). -/
def Acc.get [Add α] [Mul α] [Zero α] [DecidableEq α] (a : Acc α β) (derivUnits : Bool) (m : Mem α β) :
    Except PyErr (PyVal α β) :=
  if a.md.remote then .error .RuntimeError
  else if a.md.pbo then
    match m.heap[a.addr]? with
    | none => .error .IndexError
    | some v =>
      match a.md.unitConv with
      | none => .ok v
      | some c =>
        if c.1 = 0 then .ok v
        else match v with
          | .num x => .ok (.num (convUnits c x))
          | .arr l => .ok (.arr (l.map (convUnits c)))
          | .obj _ => .error .TypeError
  else do
    let v ← npGet m.buf (window a.off a.len)
    let v := match a.md.unitConv, derivUnits with
      | some c, false => v.map (convUnits c)
      | _, _ => v
    if a.md.scalar then
      match v with
      | x :: _ => .ok (.num x)
      | [] => .error .IndexError
    else .ok (.arr v)

/-- The setter selected by `Accessor._setup_set_funct` (`vec_wrapper.py:184-201`) and the setters
(`vec_wrapper.py:299-328`). A python float has no attribute `flat`; assigning an array to `val[0]` works
only for one-element arrays. -/
def Acc.set (a : Acc α β) (m : Mem α β) (v : PyVal α β) : Except PyErr (Mem α β) :=
  if a.md.remote then .error .RuntimeError
  else if a.md.pbo then
    if a.addr < m.heap.length then .ok { m with heap := m.heap.set a.addr v } else .error .IndexError
  else if a.md.scalar then
    match v with
    | .num x | .arr [x] =>
      if 0 < a.len then do
        let b ← npAssign m.buf (.arr [a.off]) [x]
        return { m with buf := b }
      else .error .IndexError
    | .arr _ => .error .ValueError
    | .obj _ => .error .TypeError
  else
    match v with
    | .arr l => do
      let b ← npAssign m.buf (window a.off a.len) l
      return { m with buf := b }
    | .num _ | .obj _ => .error .AttributeError

/-- `VecWrapper.__getitem__` (`vec_wrapper.py:408-421`): missing names raise `KeyError`. -/
def VecW.get [Add α] [Mul α] [Zero α] [DecidableEq α] (w : VecW α β) (m : Mem α β) (name : String) :
    Except PyErr (PyVal α β) :=
  match w.find name with
  | none => .error .KeyError
  | some a => a.get w.derivUnits m

/-- `VecWrapper.__setitem__` (`vec_wrapper.py:423-435`). -/
def VecW.set (w : VecW α β) (m : Mem α β) (name : String) (v : PyVal α β) : Except PyErr (Mem α β) :=
  match w.find name with
  | none => .error .KeyError
  | some a => a.set m v

/-- State of the loop of `VecWrapper.get_view` (`vec_wrapper.py:601-651`): `(start, end)` once a vector
variable was seen, `view_size`, and the new `_dat`. -/
structure ViewSt (α β : Type) where
  range : Option (Nat × Nat)
  size : Nat
  dat : List (Acc α β)

/-- One iteration of the loop of `VecWrapper.get_view` (`vec_wrapper.py:611-639`). -/
def viewStep (w : VecW α β) (st : ViewSt α β) (nm : String × String) : Except PyErr (ViewSt α β) :=
  match w.find nm.1 with
  | none => .ok st
  | some a =>
    if a.md.pbo || a.md.remote then
      .ok ⟨st.range, st.size, st.dat ++ [{ a with name := nm.2, slice := none }]⟩
    else
      match a.slice with
      | none => .error .TypeError      -- unpacking `None`
      | some (pstart, pend) =>
        let acc := { a with name := nm.2, slice := some (st.size, st.size + a.md.size) }
        match st.range with
        | none => .ok ⟨some (pstart, pend), st.size + a.md.size, st.dat ++ [acc]⟩
        | some (start, end_) =>
          if pstart = end_ then .ok ⟨some (start, pend), st.size + a.md.size, st.dat ++ [acc]⟩
          else .error .AssertionError

/-- `VecWrapper.get_view` (`vec_wrapper.py:580-651`). `varmap` is ordered. -/
def VecW.getView (w : VecW α β) (varmap : List (String × String)) : Except PyErr (VecW α β) := do
  let st ← varmap.foldlM (viewStep w) ⟨none, 0, []⟩
  match st.range with
  | none => return ⟨w.off, 0, st.dat, false⟩
  | some (s, e) => return ⟨w.off + s, e - s, st.dat, false⟩

end OpenMDAO
