import Verif.Model.Comms
/-! Specification of the set-up of communicators over the tree. -/
namespace OpenMDAO

mutual
/-- The requirements of the components of a tree, in order of declaration. -/
def CTree.comps : CTree → List Req
  | .comp r => [r]
  | .group subs => treeComps subs
  | .par subs => treeComps subs
  | .fd _ subs => treeComps subs
/-- The components of some trees. -/
def treeComps : List CTree → List Req
  | [] => []
  | t :: ts => t.comps ++ treeComps ts
end

mutual
/-- Only one finite difference is done at a time: every parallel FD group has `num_par_fds = 1`. -/
def CTree.FdFree : CTree → Prop
  | .comp _ => True
  | .group subs => TreesFdFree subs
  | .par subs => TreesFdFree subs
  | .fd num subs => num = 1 ∧ TreesFdFree subs
/-- For some trees. -/
def TreesFdFree : List CTree → Prop
  | [] => True
  | t :: ts => t.FdFree ∧ TreesFdFree ts
end

mutual
/-- No parallel group is empty. -/
def CTree.ParNonempty : CTree → Prop
  | .comp _ => True
  | .group subs => TreesParNonempty subs
  | .par subs => subs ≠ [] ∧ TreesParNonempty subs
  | .fd _ subs => TreesParNonempty subs
/-- For some trees. -/
def TreesParNonempty : List CTree → Prop
  | [] => True
  | t :: ts => t.ParNonempty ∧ TreesParNonempty ts
end

mutual
/-- Every parallel group has a component that can use any number of processes. -/
def CTree.ParUnbounded : CTree → Prop
  | .comp _ => True
  | .group subs => TreesParUnbounded subs
  | .par subs => (∃ r ∈ treeComps subs, r.max = none) ∧ TreesParUnbounded subs
  | .fd _ subs => TreesParUnbounded subs
/-- For some trees. -/
def TreesParUnbounded : List CTree → Prop
  | [] => True
  | t :: ts => t.ParUnbounded ∧ TreesParUnbounded ts
end

mutual
/-- There is no parallel group, and every parallel FD group has a legal number of parts. -/
def CTree.NoPar : CTree → Prop
  | .comp _ => True
  | .group subs => TreesNoPar subs
  | .par _ => False
  | .fd num subs => 1 ≤ num ∧ TreesNoPar subs
/-- For some trees. -/
def TreesNoPar : List CTree → Prop
  | [] => True
  | t :: ts => t.NoPar ∧ TreesNoPar ts
end

/-- A component runs on this process. -/
def Place.Runs (p : Place) : Prop := ∃ n j : Nat, p = .on n j

/-- Its variables are part of the vectors of this process: they are not marked as remote. -/
def Place.VarsLocal (p : Place) : Prop := p ≠ .null

/-- The results of the set-up on all processes: `ps k` is what the components hold on process `k`. -/
def SetupOk (fuel : Nat) (t : CTree) (size : Nat) (ps : Nat → List Place) : Prop :=
  ∀ k : Nat, k < size → problemComms fuel t size k = some (.ok (ps k))

end OpenMDAO
