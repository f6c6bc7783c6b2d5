import Verif.Model.Brent
/-! # Specification of the Brent solver -/
namespace OpenMDAO

section
variable {K σ : Type} [Field K] [LinearOrder K]

/-- A system whose residual is a function `f` of the value in the state variable, which is read back by `val`; runs may raise. -/
def Residual (eval : EvalAt σ K) (val : σ → K) (f : K → K) : Prop := ∀ s x s1 r, eval s x = (s1, .ok r) → val s1 = x ∧ r = f x

/-- What the tolerances promise about a point of an interval: the residual vanishes there, or it has the other sign at a point of the interval nearer than twice the tolerance (which is relative to one of the two points). -/
def Found (f : K → K) (xtol rtol lo hi x : K) : Prop :=
  (lo ≤ x ∧ x ≤ hi) ∧ (f x = 0 ∨ ∃ y z, (z = x ∨ z = y) ∧ (lo ≤ y ∧ y ≤ hi) ∧ f x * f y < 0 ∧ |x - y| < 2 * (xtol + rtol * |z|))

/-- The evaluations leave a trace of the last exception raised. -/
def Traced (eval : EvalAt σ K) (log : σ → Option PyErr) : Prop := ∀ s x, (∀ e, (eval s x).2 = .error e → log (eval s x).1 = some e) ∧ (∀ r, (eval s x).2 = .ok r → log (eval s x).1 = log s)

end

end OpenMDAO
