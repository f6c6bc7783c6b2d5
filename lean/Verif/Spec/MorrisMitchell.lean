import Verif.Model.MorrisMitchell
/-! Vocabulary of the statements C161. -/
namespace OpenMDAO
open scoped ENNReal

/-- Sample `i` of a design: its bucket numbers, one for each column. -/
def lhcPoint (doe : Lhc) (i : Nat) : List Nat := doe.map fun c => c[i]?.getD 0

/-- The distance of two points in the `p`-norm. -/
noncomputable def pointDist (p : ℝ) (x y : List Nat) : ℝ≥0∞ :=
  ((x.zip y).map fun e => (((max e.1 e.2 - min e.1 e.2 : Nat)) : ℝ≥0∞) ^ p).sum ^ (1 / p)

/-- The criterion of Morris and Mitchell: the `q`-norm of the inverse distances of all pairs of samples. -/
noncomputable def mmCriterion (p : ℝ) (q : Nat) (doe : Lhc) (n : Nat) : ℝ≥0∞ :=
  (∑ i ∈ Finset.range n, ∑ j ∈ Finset.range i, (pointDist p (lhcPoint doe i) (lhcPoint doe j)) ^ (-(q : ℝ))) ^ (1 / (q : ℝ))

/-- No two samples are the same point. -/
def SamplesDiffer (doe : Lhc) (n : Nat) : Prop := ∀ i < n, ∀ j < n, lhcPoint doe i = lhcPoint doe j → i = j

/-- Every column has `n` entries. -/
def LhcShape (doe : Lhc) (n : Nat) : Prop := ∀ c ∈ doe, c.length = n

end OpenMDAO
