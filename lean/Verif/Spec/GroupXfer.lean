import Verif.Model.GroupXfer
import Mathlib.Algebra.Group.Defs
/-!
# Specification for the transfer indices of a group

A distributed vector is the concatenation of the local vectors of the processes, each the concatenation of the local parts of the variables. A cell is named by (process, variable, position in the
local part).
-/
namespace OpenMDAO

/-- Cells of a distributed vector in order, from the table of local sizes. -/
def vecCells (sz : List (List Nat)) : List (Nat × Nat × Nat) :=
  (List.range sz.length).flatMap fun r => (List.range (sz.getD r []).length).flatMap fun i => (List.range (szAt sz r i)).map fun k => (r, i, k)

/-- Cells of one distributed variable in order: its part on the first process, on the second, … -/
def varCells (sz : List (List Nat)) (i : Nat) : List (Nat × Nat × Nat) :=
  (List.range sz.length).flatMap fun r => (List.range (szAt sz r i)).map fun k => (r, i, k)

/-- `i` is the number of a variable in every row. -/
def HasCol (sz : List (List Nat)) (i : Nat) : Prop := ∀ row ∈ sz, i < row.length

/-- Groups as they come out of a checked setup: names are distinct, every connection joins an unknown and a parameter of the group, every parameter has one. Vector connections: the parameter is not
declared pass-by-object, sizes are positive, `src_indices` has one entry per entry of the parameter, all of them inside the source. Connections with a pass-by-object source have no `src_indices`
and size zero (the size such variables are declared with). -/
structure XGroupOk (g : XGroup) : Prop where
  unames : (g.us.map GUnk.path).Nodup
  pnames : (g.ps.map GPar.path).Nodup
  cnames : (g.conns.map Prod.fst).Nodup
  src : ∀ c ∈ g.conns, ∃ u ∈ g.us, u.path = c.2
  tgt : ∀ c ∈ g.conns, ∃ p ∈ g.ps, p.path = c.1
  all : ∀ p ∈ g.ps, ∃ s, (p.path, s) ∈ g.conns
  vec : ∀ p ∈ g.ps, ∀ u ∈ g.us, (p.path, u.path) ∈ g.conns → u.pbo = false → p.pbo = false ∧ 0 < u.size ∧
    ∀ l, p.srcIdx = some l → l ≠ [] ∧ p.size = l.length ∧ ∀ a ∈ l, 0 ≤ a ∧ a < u.size
  obj : ∀ p ∈ g.ps, ∀ u ∈ g.us, (p.path, u.path) ∈ g.conns → u.pbo = true → p.srcIdx = none ∧ u.size = 0

/-- Value of a variable as read through its accessor: the entries of its slice. -/
def slotVals {α : Type} (slots : List XSlot) (path : Str) (v : List α) : Option (List α) :=
  match slots.find? fun s => s.path == path with
  | some s => s.slice.map fun ab => (v.drop ab.1).take (ab.2 - ab.1)
  | none => none

/-- The entries of the source value a parameter is to receive. -/
def picked {α : Type} (srcIdx : Option (List Int)) (src : List α) : List (Option α) :=
  match srcIdx with
  | none => src.map some
  | some l => l.map fun a => src[a.toNat]?

/-- What a parameter with value `vals` contributes in reverse to entry `n` of its source: the sum of its entries that were taken from entry `n`. -/
def contrib {α : Type} [AddCommMonoid α] (srcIdx : Option (List Int)) (n : Nat) (vals : List α) : α :=
  match srcIdx with
  | none => vals.getD n 0
  | some l => (((l.zip vals).filter fun e => decide (e.1 = (n : Int))).map Prod.snd).sum

/-- Contribution of one connection (parameter, source) to entry `n` of its source; irrelevant parameters contribute nothing. -/
def connContrib {α : Type} [AddCommMonoid α] (g : XGroup) (slots : List XSlot) (pvals : List α) (n : Nat) (c : Str × Str) : α :=
  match g.ps.find? fun p => p.path == c.1 with
  | some p => if p.rel then contrib p.srcIdx n ((slotVals slots c.1 pvals).getD []) else 0
  | none => 0

end OpenMDAO
