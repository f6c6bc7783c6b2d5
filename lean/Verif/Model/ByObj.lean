import Verif.Model.Gather
import Mathlib.Logic.Relation
import Mathlib.Logic.Function.Basic
/-!
# Model of the transfer of pass-by-object variables between processes (`openmdao/core/petsc_impl.py:447-487`)

Every process of the communicator runs the same code on its own data; here the code of one process is unrolled into the list of communications and assignments it makes, and the processes run these lists concurrently, in any interleaving. A send of
`mpi4py` (standard mode) may return at once, when the library buffers the message, or wait for the receive; which of the two happens depends on the message and is given by the parameter `eager`. Messages with the same sender, receiver and tag do
not overtake each other. The target vector is not the source vector. Assigning to a `FileRef` copies the file (`_assign_to`); here it is an assignment like any other. The vector part of the transfer (PETSc's scatter) is left out.
-/
namespace OpenMDAO

variable {κ α : Type} [DecidableEq κ]

/-- What one process does. `raise` is the `KeyError` of `owning_ranks[src]`: the process does not go on. Serves `boSends` (`petsc_impl.py:451-461`). -/
inductive BoAct (κ α : Type) where
  | send (dst tag : Nat) (v : α)
  | barrier
  | recv (src tag : Nat) (tgt : κ)
  | copy (tgt : κ) (v : α)
  | raise

/-- A message under way. Serves `petsc_impl.py:447-485`. -/
structure BoMsg (α : Type) where
  src : Nat
  dst : Nat
  tag : Nat
  val : α

/-- The sends for one connection `(tgt, src)` with number `itag` on process `p` (`petsc_impl.py:451-461`): the owner of the source sends to the processes that have the target but not the source. -/
def boSends (locals : List (List κ)) (srcv : κ → α) (p : Nat) (c : (κ × κ) × Nat) : List (BoAct κ α) :=
  match (owningRanks locals).lookup c.1.2 with
  | none => [.raise]
  | some r => if p = r then (locals.zipIdx.filter fun l => decide (l.2 ≠ p ∧ c.1.2 ∉ l.1 ∧ c.1.1 ∈ l.1)).map fun l => .send l.2 c.2 (srcv c.1.2) else []

/-- The assignment for one connection on process `p` (`petsc_impl.py:469-487`). -/
def boRecvs (locals : List (List κ)) (srcv : κ → α) (p : Nat) (c : (κ × κ) × Nat) : List (BoAct κ α) :=
  if c.1.1 ∈ locals.getD p [] then
    if c.1.2 ∈ locals.getD p [] then [.copy c.1.1 (srcv c.1.2)]
    else match (owningRanks locals).lookup c.1.2 with
      | none => [.raise]
      | some r => [.recv r c.2 c.1.1]
  else []

/-- The whole of the code for pass-by-object variables on process `p` (`petsc_impl.py:447-487`): all sends, the barrier, all assignments. `locals` is `all_locals`, `conns` is `byobj_conns`. -/
def boProg (locals : List (List κ)) (conns : List (κ × κ)) (srcv : κ → α) (p : Nat) : List (BoAct κ α) :=
  if conns.isEmpty then [] else conns.zipIdx.flatMap (boSends locals srcv p) ++ .barrier :: conns.zipIdx.flatMap (boRecvs locals srcv p)

/-- The communicator: what each process has still to do, the messages under way in the order they were sent, and the target vector of each process. Serves `petsc_impl.py:447-485`. -/
structure BoState (κ α : Type) where
  prog : Nat → List (BoAct κ α)
  net : List (BoMsg α)
  tgtv : Nat → κ → α

/-- The state when all `n` processes enter `transfer`; `srcv p` is the source vector of process `p`. Serves `petsc_impl.py:447-485`. -/
def boStart (locals : List (List κ)) (conns : List (κ × κ)) (srcv : Nat → κ → α) (tgtv : Nat → κ → α) : BoState κ α :=
  { prog := fun p => boProg locals conns (srcv p) p, net := [], tgtv := tgtv }

/-- One step of the communicator of `n` processes. Serves `petsc_impl.py:447-485`. -/
inductive BoStep (eager : α → Bool) (n : Nat) : BoState κ α → BoState κ α → Prop
  /-- A send whose message is buffered returns at once. -/
  | post (s : BoState κ α) (p dst tag : Nat) (v : α) (rest : List (BoAct κ α)) (hp : p < n) (h : s.prog p = .send dst tag v :: rest) (he : eager v = true) :
      BoStep eager n s { s with prog := Function.update s.prog p rest, net := s.net ++ [⟨p, dst, tag, v⟩] }
  /-- A send meets the receive that is waiting for it. -/
  | meet (s : BoState κ α) (p q tag : Nat) (v : α) (tgt : κ) (rest rest' : List (BoAct κ α)) (hp : p < n) (hq : q < n) (hne : p ≠ q) (h : s.prog p = .send q tag v :: rest) (h' : s.prog q = .recv p tag tgt :: rest')
      (hno : ∀ m ∈ s.net, ¬ (m.src = p ∧ m.dst = q ∧ m.tag = tag)) :
      BoStep eager n s { s with prog := Function.update (Function.update s.prog p rest) q rest', tgtv := Function.update s.tgtv q (Function.update (s.tgtv q) tgt v) }
  /-- All processes have come to the barrier. -/
  | barrier (s : BoState κ α) (rest : Nat → List (BoAct κ α)) (h : ∀ p < n, s.prog p = .barrier :: rest p) :
      BoStep eager n s { s with prog := fun p => if p < n then rest p else s.prog p }
  /-- A receive takes the first message from its source with its tag. -/
  | recv (s : BoState κ α) (q p tag : Nat) (v : α) (tgt : κ) (rest : List (BoAct κ α)) (pre post : List (BoMsg α)) (hq : q < n) (h : s.prog q = .recv p tag tgt :: rest) (hn : s.net = pre ++ ⟨p, q, tag, v⟩ :: post)
      (hno : ∀ m ∈ pre, ¬ (m.src = p ∧ m.dst = q ∧ m.tag = tag)) :
      BoStep eager n s { s with prog := Function.update s.prog q rest, net := pre ++ post, tgtv := Function.update s.tgtv q (Function.update (s.tgtv q) tgt v) }
  /-- The source is local. -/
  | copy (s : BoState κ α) (p : Nat) (tgt : κ) (v : α) (rest : List (BoAct κ α)) (hp : p < n) (h : s.prog p = .copy tgt v :: rest) :
      BoStep eager n s { s with prog := Function.update s.prog p rest, tgtv := Function.update s.tgtv p (Function.update (s.tgtv p) tgt v) }

/-- A run of the communicator: any number of steps. Serves `petsc_impl.py:447-485`. -/
def BoRun (eager : α → Bool) (n : Nat) : BoState κ α → BoState κ α → Prop := Relation.ReflTransGen (BoStep eager n)

/-- All processes have returned from `transfer`. Serves `petsc_impl.py:447-485`. -/
def BoState.Done (n : Nat) (s : BoState κ α) : Prop := ∀ p < n, s.prog p = []

end OpenMDAO
