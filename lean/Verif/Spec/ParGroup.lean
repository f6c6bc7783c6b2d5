import Verif.Model.ParGroup
/-! Specification of processor allocation. -/
namespace OpenMDAO

/-- The ranks of the communicator on which subsystem `i` is local. -/
def ranksOf (size : Nat) (a : Alloc) (i : Nat) : List Nat :=
  (List.range size).filter fun r => match localSubs size a r with
    | .ok l => decide (i ∈ l)
    | .error _ => false

/-- The number of processes subsystem `i` runs on. -/
def procsOf (size : Nat) (a : Alloc) (i : Nat) : Nat := (ranksOf size a i).length

/-- Every subsystem gets the processes it needs at least. -/
def MinMet (size : Nat) (subs : List Req) (a : Alloc) : Prop := ∀ (i : Nat) (r : Req), subs[i]? = some r → r.min ≤ procsOf size a i

/-- What the members of a bucket could use at most; meaningful when none of them is unbounded. -/
def bucketCap (subs : List Req) (b : Bucket) : Nat :=
  b.2.foldr (fun i m => Nat.max ((subs[i]?.bind Req.max).getD 0) m) b.1

/-- Number of processes a subsystem has after `k` full rounds. -/
def capAt (k : Nat) : Option Nat → Nat
  | none => k
  | some m => Nat.min m k

end OpenMDAO
