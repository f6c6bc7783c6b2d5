import Verif.Model.GradFd
import Verif.Spec.FiniteDiff
/-! Vocabulary of the statement C116. -/
namespace OpenMDAO

variable {K : Type} [Field K] [LinearOrder K]

/-- Positions selected for a variable: all of its entries, or the declared indices. A slice is (start, size). -/
def gradSel (slices : List (String × (Nat × Nat))) (d : List (String × List Nat)) (x : String) : List Nat :=
  match slices.lookup x, d.lookup x with
  | some (s, n), none => List.range' s n
  | some (s, _), some l => l.map (· + s)
  | none, _ => []

/-- Rows (columns) of the array format: every selected entry of every variable, in the order of the list of names. -/
def entries (slices : List (String × (Nat × Nat))) (d : List (String × List Nat)) (names : List String) : List (String × Nat) :=
  names.flatMap fun x => (gradSel slices d x).map fun o => (x, o)

/-- Scale factor of a name, 1 when none is given. -/
def scaleOf (scale : List (String × K)) (x : String) : K := (scale.lookup x).getD 1

/-- The names of the problem are consistent and the request is meaningful: exact arithmetic; a model whose run computes the unknowns `F` from its inputs; every independent variable is
an unknown that is connected to some target and is an input of the model; every requested unknown is computed by the model. -/
structure GradOk (G : GradEnv K) (inP inU : Nat → Prop) (F : FdSt K → Nat → K) (indep unknown : List String) : Prop where
  exact : G.fd.rnd = id
  total : G.fd.total = true
  serial : G.fd.npar = 1 ∧ G.fd.parId = 0
  model : FdModel G.fd inP inU F
  /-- every target has one source, and no target is a source -/
  targets : (G.fd.conns.map (·.1)).Nodup ∧ ∀ c ∈ G.fd.conns, ∀ c' ∈ G.fd.conns, c.1 ≠ c'.2
  /-- params have promoted names; the promoted name of a param is the full name of a target only if it is not promoted -/
  params : ∀ key ∈ G.fd.pslices.map (·.1), ∃ p, G.fd.toProm.lookup key = some p ∧ ∀ c ∈ G.fd.conns, p = c.1 → key = p
  /-- positive step sizes -/
  steps : 0 < G.fd.defaults.1 ∧ ∀ p a b c, G.fd.overrides.lookup p = some (some a, b, c) → 0 < a
  indep : ∀ x ∈ indep, ∃ s n a, G.fd.uslices.lookup x = some (s, n) ∧ G.toAbsU.lookup x = some a ∧ (∃ c ∈ G.fd.conns, c.2 = a) ∧
    (a = x ∨ (G.fd.uslices.lookup a = none ∧ G.fd.toProm.lookup a = some x)) ∧
    (∀ l, G.fd.poi.lookup x = some l → ∀ k ∈ l, k < n) ∧ ∀ q ∈ gradSel G.fd.uslices G.fd.poi x, inU q
  unknown : ∀ u ∈ unknown, ∃ s n, G.fd.uslices.lookup u = some (s, n) ∧ (∀ l, G.fd.qoi.lookup u = some l → ∀ k ∈ l, k < n) ∧
    ∀ o ∈ gradSel G.fd.uslices G.fd.qoi u, ¬ inU o

/-- `v` is the variable, with its options, through which `x` is perturbed: a target of `x`. (`C35_options` says what the options are.) -/
def PerturbedBy (G : GradEnv K) (x : String) (v : FdVar K) : Prop :=
  ∃ a, G.toAbsU.lookup x = some a ∧ (v.name, a) ∈ G.fd.conns ∧ fdVar G.fd v.name = .ok v ∧ v.src = some x

/-- The scaled difference quotient of unknown `o`, an entry of the variable `u`, with respect to `q`, an entry of `x`. -/
def gradEntry (G : GradEnv K) (F : FdSt K → Nat → K) (s : FdSt K) (v : FdVar K) (u x : String) (o q : Nat) : K :=
  diffQuot v.form F s s.u .unknowns q (stepFor v (s.u q)) o * scaleOf G.dvScale x * scaleOf G.cnScale u

/-- The derivative of `u` with respect to `x` is wanted: no sparsity is given, or it lists `x` for `u`. -/
def Wanted (sparsity : Option (List (String × List String))) (u x : String) : Prop :=
  ∀ m, sparsity = some m → ∃ l, m.lookup u = some l ∧ x ∈ l

end OpenMDAO
