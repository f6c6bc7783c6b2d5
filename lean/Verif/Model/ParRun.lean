import Verif.Model.RunApply
/-!
# Model of the run of a ParallelGroup

`ParallelGroup.children_solve_nonlinear` and `ParallelGroup.apply_nonlinear` (`openmdao/core/parallel_group.py:50-91`), beside those of `Group` (`group.py:741-820`), in a tree that has groups of both kinds. Components, states, solvers
and the transfer of data to one subsystem are those of `RunApply`. A solver sees only the vectors of its own group. The marks `_run_apply` of the components are given. Residuals are scaled (`vec_wrapper.py:981-992`) by a function of
each component.

Not modelled: the distribution of the subsystems over processes (all subsystems are local, in any order), and what `RunApply` leaves out, apart from the scaling of residuals.
-/
namespace OpenMDAO

/-- The tree of systems; `par` is true of a `ParallelGroup`. Serves `ParTree.comps` (`group.py:205-231`). -/
inductive ParTree (V : Type) where
  | comp (i : Nat)
  | group (par : Bool) (sol : RSolver V) (cs : List (ParTree V))

mutual
/-- The components of a tree (`group.py:205-231`). -/
def ParTree.comps {V : Type} : ParTree V → List Nat
  | .comp i => [i]
  | .group _ _ cs => compsP cs
/-- The same for a list of subsystems. Serves `ParTree.comps` (`group.py:205-231`). -/
def compsP {V : Type} : List (ParTree V) → List Nat
  | [] => []
  | t :: ts => t.comps ++ compsP ts
end

/-- Is the system a component (`isinstance(sub, Component)`)? Serves `transferP` (`group.py:1607-1635`). -/
def ParTree.isComp {V : Type} : ParTree V → Bool
  | .comp _ => true
  | .group _ _ _ => false

/-- `_transfer_data(sub.name)` (`group.py:1607-1635`), as `transferTo`. -/
def transferP {V : Type} (m : RModel V) (G : List Nat) (sub : ParTree V) (s : RState V) : RState V :=
  { s with p := fun i j => if i ∈ sub.comps ∧ j ∈ m.src i ∧ j ∈ G ∧ (sub.isComp = true ∨ j ∉ sub.comps) then s.u j else s.p i j }

/-- `_transfer_data()`, the full scatter of a group (`group.py:1600-1605`): the transfers to all subsystems together, from the same unknowns. -/
def scatterAll {V : Type} (m : RModel V) (G : List Nat) (cs : List (ParTree V)) (s : RState V) : RState V := cs.foldl (fun s t => transferP m G t s) s

/-- What a group sees of the vectors: its own part (`group.py:540-580`); the rest is put to zero. Serves `RSolver.within` (`group.py:739`). -/
def viewIn {V : Type} [Zero V] (G : List Nat) (s : RState V) : RState V :=
  ⟨fun i => if i ∈ G then s.u i else 0, fun i => if i ∈ G then s.r i else 0, fun i => if i ∈ G then s.p i else fun _ => 0⟩

/-- The part of the unknowns that the group sees. Serves `RSolver.within` (`group.py:739`). -/
def unkIn {V : Type} [Zero V] (G : List Nat) (u : Nat → V) : Nat → V := fun i => if i ∈ G then u i else 0

/-- A solver is called with the vectors of its group (`group.py:739`). -/
def RSolver.within {V : Type} [Zero V] (G : List Nat) : RSolver V → RSolver V
  | .runOnce => .runOnce
  | .nlgs n more relax => .nlgs n (fun a b c => more (viewIn G a) (viewIn G b) (viewIn G c)) (relax.map fun f a b => f (unkIn G a) (unkIn G b))
  | .newton n more step sub => .newton n (fun a b c => more (viewIn G a) (viewIn G b) (viewIn G c)) (fun s => step (viewIn G s)) sub

/-- `resids._scale_values()` of one component (`vec_wrapper.py:981-992`). -/
def scaleR {V : Type} (sc : Nat → V → V) (i : Nat) (s : RState V) : RState V := { s with r := Function.update s.r i (sc i (s.r i)) }

/-- `if not sub._run_apply: continue` (`group.py:810-811`); groups have `_run_apply = True` (`group.py:89`). -/
def ParTree.skipped {V : Type} (run : Nat → Bool) : ParTree V → Bool
  | .comp i => !run i
  | .group _ _ _ => false

/-- What `_sys_apply_nonlinear` of a component does after `apply_nonlinear` (`component.py:552`, `group.py:815-818`); groups are called directly. -/
def scaleSub {V : Type} (sc : Nat → V → V) : ParTree V → RState V → RState V
  | .comp i, s => scaleR sc i s
  | .group _ _ _, s => s

mutual
/-- `apply_nonlinear` of a system. A component that is called by a `Group` is called through `_sys_apply_nonlinear`, which scales its residuals (`component.py:535-552`, `group.py:782-818`); a `ParallelGroup` calls `apply_nonlinear`
itself (`parallel_group.py:73-77`). -/
def applyP {V : Type} [AddCommGroup V] (m : RModel V) (run : Nat → Bool) (sc : Nat → V → V) : ParTree V → RState V → RState V
  | .comp i, s => applyComp m i s
  | .group false _ cs, s => applySer m run sc (compsP cs) cs s
  | .group true _ cs, s => applyPar m run sc cs (scatterAll m (compsP cs) cs s)
/-- The loop of `Group.apply_nonlinear` (`group.py:804-818`). -/
def applySer {V : Type} [AddCommGroup V] (m : RModel V) (run : Nat → Bool) (sc : Nat → V → V) (G : List Nat) : List (ParTree V) → RState V → RState V
  | [], s => s
  | t :: ts, s => applySer m run sc G ts (if t.skipped run then s else scaleSub sc t (applyP m run sc t (transferP m G t s)))
/-- The loop of `ParallelGroup.apply_nonlinear` (`parallel_group.py:71-77`), which does not look at `_run_apply`. -/
def applyPar {V : Type} [AddCommGroup V] (m : RModel V) (run : Nat → Bool) (sc : Nat → V → V) : List (ParTree V) → RState V → RState V
  | [], s => s
  | t :: ts, s => applyPar m run sc ts (applyP m run sc t s)
end

mutual
/-- `solve_nonlinear` of a system (`group.py:716-739`, `component.py:593-610`); unknowns are never scaled (`vec_wrapper.py:1002-1003`). -/
def solveP {V : Type} [AddCommGroup V] (m : RModel V) (run : Nat → Bool) (sc : Nat → V → V) : ParTree V → RState V → RState V
  | .comp i, s => runComp m i s
  | .group false sol cs, s =>
    runSolver (compsP cs) (fun s => sweepSer m run sc (compsP cs) cs s) (fun s => applyP m run sc (.group false sol cs) s) (sol.within (compsP cs)) s
  | .group true sol cs, s =>
    runSolver (compsP cs) (fun s => sweepPar m run sc cs (scatterAll m (compsP cs) cs s)) (fun s => applyP m run sc (.group true sol cs) s) (sol.within (compsP cs)) s
/-- The loop of `Group.children_solve_nonlinear` (`group.py:750-759`). -/
def sweepSer {V : Type} [AddCommGroup V] (m : RModel V) (run : Nat → Bool) (sc : Nat → V → V) (G : List Nat) : List (ParTree V) → RState V → RState V
  | [], s => s
  | t :: ts, s => sweepSer m run sc G ts (solveP m run sc t (transferP m G t s))
/-- The loop of `ParallelGroup.children_solve_nonlinear` (`parallel_group.py:85-91`). -/
def sweepPar {V : Type} [AddCommGroup V] (m : RModel V) (run : Nat → Bool) (sc : Nat → V → V) : List (ParTree V) → RState V → RState V
  | [], s => s
  | t :: ts, s => sweepPar m run sc ts (solveP m run sc t s)
end

/-- `children_solve_nonlinear` of a group (`group.py:741-759`, `parallel_group.py:79-91`). -/
def childrenP {V : Type} [AddCommGroup V] (m : RModel V) (run : Nat → Bool) (sc : Nat → V → V) (par : Bool) (cs : List (ParTree V)) (s : RState V) : RState V :=
  if par then sweepPar m run sc cs (scatterAll m (compsP cs) cs s) else sweepSer m run sc (compsP cs) cs s

end OpenMDAO
