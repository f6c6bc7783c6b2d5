import Verif.Model.Explicit
/-!
# Specification for C143 and C144: explicit connections and shapes that are taken from the source
-/
namespace OpenMDAO

/-- `h` is the group `g` or lies below it. -/
inductive InTree : CGroup → CGroup → Prop
  | self (g) : InTree g g
  | sub (toU toP src subs) (s h : CGroup) : s ∈ subs → InTree s h → InTree (.mk toU toP src subs) h

/-- In the group there is a connection from the name `s` to the name `t` with indices `i`. -/
def ConnDeclared (h : CGroup) (s t : String) (i : SrcIdx) : Prop :=
  match h with
  | .mk _ _ src _ => ∃ srcs, (t, srcs) ∈ src ∧ (s, i) ∈ srcs

/-- In the group the name `t` stands for the absolute params `l`. -/
def ParamsOf (h : CGroup) (t : String) (l : List String) : Prop :=
  match h with
  | .mk _ toP _ _ => toP.lookup t = some l

/-- In the group the name `s` stands for the absolute unknown `u`. -/
def UnknownOf (h : CGroup) (s u : String) : Prop :=
  match h with
  | .mk toU _ _ _ => toU.lookup s = some u

/-- In the group there is no unknown of that name. -/
def NoUnknown (h : CGroup) (s : String) : Prop := ∀ u, ¬ UnknownOf h s u

/-- The absolute variable `a` is meant by the name `s`, as a source: the unknown of that name, or, if there is none, a param of that name. -/
def SourceOf (h : CGroup) (s a : String) : Prop := UnknownOf h s a ∨ (NoUnknown h s ∧ ∃ l, ParamsOf h s l ∧ a ∈ l)

/-- There is something of that name in the group. -/
def NameExists (h : CGroup) (s : String) : Prop := (∃ u, UnknownOf h s u) ∨ ∃ l, ParamsOf h s l

/-- `t` is an absolute param of a group. -/
def HasParam (g : CGroup) (t : String) : Prop := ∃ h, InTree g h ∧ ∃ n l, ParamsOf h n l ∧ t ∈ l

/-- Different subgroups have no param in common, at no level. (Absolute names begin with the path of the group.) -/
inductive SubsApart : CGroup → Prop
  | mk (toU toP src subs) : subs.Pairwise (fun a b => ∀ t, HasParam a t → ¬ HasParam b t) → (∀ s ∈ subs, SubsApart s) → SubsApart (.mk toU toP src subs)

/-- The source `a` with indices `i` is listed for the target `t`. -/
def Listed (d : ConnDict) (t a : String) (i : SrcIdx) : Prop := ∃ l, d.lookup t = some l ∧ (a, i) ∈ l

/-- What `connect` calls say about a target: source and indices of every call that names it, in the order of the calls. -/
def callsFor (t : String) (calls : List (String × List String × SrcIdx)) : List (String × SrcIdx) :=
  calls.flatMap fun c => (c.2.1.filter (· = t)).map fun _ => (c.1, c.2.2)

/-- A call with indices that are integers, or without indices. -/
def GoodCall (c : ConnCall) (r : String × List String × SrcIdx) : Prop :=
  r.1 = c.source ∧ r.2.1 = c.targets ∧ ((c.idxs = .none ∧ r.2.2 = none) ∨ ∃ l, c.idxs = .ints l ∧ r.2.2 = some l)

variable {K : Type}

/-- What the metadata of a param is after the setup: `m` before, `m'` afterwards. A param that is passed by object stays as it is. Otherwise the indices of the connection are kept in the metadata; a given shape stays with its size and value; a missing one is that of the source, or the number of indices, and then the value consists of the entries with these indices, provided that the source is an array of one dimension. -/
structure FromSource (unknowns : List (String × AMeta K)) (s : String) (i : SrcIdx) (m m' : AMeta K) : Prop where
  pbo : m'.pbo = m.pbo
  byObj : m.pbo = true → m' = m
  idxs : m.pbo = false → m'.srcIdx = if i = none then m.srcIdx else i
  given : m.pbo = false → m.shape ≠ some [] → m'.shape = m.shape ∧ m'.size = m.size ∧ m'.val = m.val
  missing : m.pbo = false → m.shape = some [] → ∃ ms, unknowns.lookup s = some ms ∧ (i = none → m'.shape = ms.shape ∧ m'.size = ms.size ∧ m'.val = ms.val) ∧
    ∀ l, i = some l → m'.shape = some [l.length] ∧ m'.size = l.length ∧
      ∀ n data, ms.val = .arr [n] data → data.length = n → ∃ data', m'.val = .arr [l.length] data' ∧ data'.length = l.length ∧ ∀ (k j : Nat), l[k]? = some j → j < n ∧ data'[k]? = data[j]?

/-- The indices are indices of the first dimension of the value. -/
def Selectable (v : AVal K) (l : List Nat) : Prop := ∃ n rest data, v = .arr (n :: rest) data ∧ ∀ k ∈ l, k < n

/-- A param, the metadata of which may be missing, cannot take its shape from the source. -/
def CannotTake (unknowns : List (String × AMeta K)) (s : String) (i : SrcIdx) (m : Option (AMeta K)) : Prop :=
  m = none ∨ ∃ m', m = some m' ∧ m'.pbo = false ∧ m'.shape = some [] ∧ (unknowns.lookup s = none ∨ ∃ ms l, unknowns.lookup s = some ms ∧ i = some l ∧ ¬ Selectable ms.val l)

end OpenMDAO
