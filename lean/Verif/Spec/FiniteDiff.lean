import Verif.Model.FiniteDiff
import Mathlib.Algebra.Order.Field.Basic
/-! Vocabulary of the statements C35 and C36. -/
namespace OpenMDAO

variable {K : Type} [Field K] [LinearOrder K]

/-- Two states agree on the inputs of the model: `inP`, `inU` say which positions of the parameters and of the unknowns are inputs. -/
def AgreeIn (inP inU : Nat → Prop) (s t : FdSt K) : Prop := (∀ k, inP k → s.p k = t.p k) ∧ ∀ k, inU k → s.u k = t.u k

/-- What a run of the model does: the result vector becomes a function `G` of the inputs, and the inputs are left alone. Everything
else (parameters and outputs that are not inputs, the other vectors) may change. -/
structure FdModel (E : FdEnv K) (inP inU : Nat → Prop) (G : FdSt K → Nat → K) : Prop where
  runs : ∀ s, ∃ s', E.run s = .ok s' ∧ s'.res E.total = G s ∧ AgreeIn inP inU s' s
  reads : ∀ s t, AgreeIn inP inU s t → G s = G t

/-- Change one input by `d`. -/
def FdSt.shift (s : FdSt K) (sel : FdSel) (pos : Nat) (d : K) : FdSt K := s.bump id sel pos d

/-- The textbook difference quotients of `G` at `s` in direction of one input, with step `h`; `base` is the value at `s`. -/
def diffQuot (form : FdForm) (G : FdSt K → Nat → K) (s : FdSt K) (base : Nat → K) (sel : FdSel) (pos : Nat) (h : K) (k : Nat) : K :=
  match form with
  | .forward => (G (s.shift sel pos h) k - base k) / h
  | .backward => (base k - G (s.shift sel pos (-h)) k) / h
  | .central => (G (s.shift sel pos h) k - G (s.shift sel pos (-h)) k) / (2 * h)

/-- The step documented for a variable: relative steps are the value times the step size, but not less than the step size. -/
def stepFor (v : FdVar K) (x : K) : K := if v.relative then max (x * v.fdstep) v.fdstep else v.fdstep

/-- Rows requested for an unknown: all of its positions or the ones selected by `qoi_indices`. -/
def rowsOf (E : FdEnv K) (u : String) : List Nat :=
  match E.uslices.lookup u, E.qoi.lookup u with
  | some (s, n), none => List.range' s n
  | some (s, _), some l => l.map (· + s)
  | none, _ => []

/-- `G` is affine with Jacobian `D`: changing one input by `d` changes entry `k` by `d * D k input`. -/
def AffineIn (G : FdSt K → Nat → K) (D : Nat → FdSel → Nat → K) : Prop :=
  ∀ s sel pos d k, G (s.shift sel pos d) k = G s k + d * D k sel pos

/-- Assumptions on a request: exact arithmetic, a model in the sense above, valid indices, perturbed entries that are inputs of the
model, positive step sizes, requested unknowns that exist and (for total derivatives) are computed by the model. -/
structure FdOk (E : FdEnv K) (inP inU : Nat → Prop) (G : FdSt K → Nat → K) (fdU passU : List String) (vars : List (FdVar K)) : Prop where
  exact : E.rnd = id
  model : FdModel E inP inU G
  names : (vars.map (·.name)).Nodup
  vars : ∀ v ∈ vars, 0 < v.fdstep ∧ ∀ i ∈ fdIdxs E v, i < v.size ∧
    match v.sel with
    | .params => inP (v.start + i)
    | .unknowns => inU (v.start + i)
  rows : ∀ u ∈ fdU, ∃ s n, E.uslices.lookup u = some (s, n) ∧ (∀ l, E.qoi.lookup u = some l → ∀ k ∈ l, k < n) ∧
    (E.total = true → ∀ k ∈ rowsOf E u, ¬ inU k)
  pass : ∀ u ∈ passU, u ∉ fdU ∧ ∃ s n, E.uslices.lookup u = some (s, n)

end OpenMDAO
