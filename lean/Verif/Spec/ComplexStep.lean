import Verif.Model.ComplexStep
/-!
# Specification for the complex step linearization

What the user's code of a component reads, and the value of an unknown or of a residual, when one entry of one parameter or state is displaced by a complex number.
-/
namespace OpenMDAO

/-- A displacement: of a state (`true`) or of a parameter, its name, the entry, by how much. -/
structure Displ where
  isState : Bool
  name : Str
  entry : Nat
  by' : ℂ

/-- Stored entries with the displacement, if this is the displaced variable. -/
noncomputable def Displ.apply (d : Displ) (isState : Bool) (n : Str) (val : List ℝ) : List ℂ :=
  if d.isState = isState ∧ d.name = n then (val.map fun x : ℝ => (x : ℂ)).modify d.entry fun z => z + d.by' else val.map fun x : ℝ => (x : ℂ)

/-- Unit conversion of what is stored to what is read. -/
noncomputable def convert (conv : Option (ℝ × ℝ)) (l : List ℂ) : List ℂ :=
  match conv with
  | none => l
  | some (scale, offset) => l.map fun z => (scale : ℂ) * (z + (offset : ℂ))

/-- Reading parameters. -/
noncomputable def paramsAt (ps : List (Str × CsParam)) (d : Displ) : CsReader := fun n => (ps.lookup n).map fun q => convert q.conv (d.apply false n q.val)

/-- Reading unknowns. -/
noncomputable def unknownsAt (uvec : List (Str × List ℝ)) (d : Displ) : CsReader := fun n => (uvec.lookup n).map fun v => d.apply true n v

/-- Entry `r` of what the code assigns to `u`, divided by the residual scaler if there is one, is `z`. -/
def AssignsAt (c : CsComp) (ps : List (Str × CsParam)) (uvec : List (Str × List ℝ)) (d : Displ) (u : Str) (r : Nat) (z : ℂ) : Prop :=
  ∃ asg l w, c.code (paramsAt ps d) (unknownsAt uvec d) = .ok asg ∧ asg.reverse.lookup u = some (.calc l) ∧ l[r]? = some w ∧
    z = match c.scalers.lookup u with
      | none => w
      | some s => w / (s : ℂ)

/-- A reader of variables with these sizes. -/
def Shaped (rd : CsReader) (size : Str → Option Nat) : Prop := ∀ n, (rd n).map List.length = size n

/-- The sizes of parameters and unknowns. -/
def paramSize (ps : List (Str × CsParam)) : Str → Option Nat := fun n => (ps.lookup n).map fun q => q.val.length
def unknownSize (uvec : List (Str × List ℝ)) : Str → Option Nat := fun n => (uvec.lookup n).map List.length

/-- A component whose code returns normally on all values, computes everything it assigns (no assignment hands on the object read from another variable), and assigns all of `fdU` with the right number of entries. A component
without states does not read its unknowns. -/
structure WellBehaved (c : CsComp) (ps : List (Str × CsParam)) (uvec : List (Str × List ℝ)) (fdU : List Str) : Prop where
  runs : ∀ rp ru, Shaped rp (paramSize ps) → Shaped ru (unknownSize uvec) → ∃ asg, c.code rp ru = .ok asg ∧ (∀ a ∈ asg, ∃ l, a.2 = .calc l) ∧
    ∀ u ∈ fdU, ∃ l, asg.reverse.lookup u = some (.calc l) ∧ unknownSize uvec u = some l.length
  explicit : c.states = [] → ∀ rp ru ru', c.code rp ru = c.code rp ru'

/-- What `setup` guarantees about the vectors: residuals are laid out as the unknowns, parameters and states that are stepped exist under different names, and residual scalers are nonzero and belong to states. -/
structure SetUp (c : CsComp) (ps : List (Str × CsParam)) (uvec rvec : List (Str × List ℝ)) (fdP : List Str) : Prop where
  layout : rvec.map (fun kv => (kv.1, kv.2.length)) = uvec.map fun kv => (kv.1, kv.2.length)
  params : ∀ p ∈ fdP, (paramSize ps p).isSome ∧ p ∉ c.states
  states : ∀ s ∈ c.states, (unknownSize uvec s).isSome
  scalers : ∀ ns ∈ c.scalers, ns.1 ∈ c.states ∧ ns.2 ≠ 0
  nodup : (c.scalers.map Prod.fst).Nodup

end OpenMDAO
