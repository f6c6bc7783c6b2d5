import Verif.Model.Doe
import Verif.Model.Promotes
import Mathlib.Analysis.SpecialFunctions.Pow.NNReal
/-!
# Model of the Morris-Mitchell criterion (`openmdao/drivers/latinhypercube_driver.py:188-218`)

`_LHC_Individual.mmphi`, with real numbers from zero to infinity: `0.0 ** (-q)` is infinite (with a warning of numpy). The values are exact; the code
computes with double floats.
-/
namespace OpenMDAO
open scoped ENNReal

/-- `np.linalg.norm(arr[i] - arr[:i], ord=p, axis=1)[j]` (`latinhypercube_driver.py:200`) for a number `p` (not `inf`). The array is rectangular, as
`_rand_latin_hypercube` makes it. -/
noncomputable def rowNorm (p : ℝ) (doe : Lhc) (i j : Nat) : ℝ≥0∞ :=
  (doe.map fun c => ((Int.natAbs (((c[i]?.getD 0 : Nat) : Int) - ((c[j]?.getD 0 : Nat) : Int)) : Nat) : ℝ≥0∞) ^ p).sum ^ (1 / p)

/-- `distdict[nrmj] += 1` or `= 1` (`latinhypercube_driver.py:202-206`). -/
noncomputable def countDist (d : List (ℝ≥0∞ × Nat)) (x : ℝ≥0∞) : List (ℝ≥0∞ × Nat) :=
  match d.lookup x with
  | some c => dictSet d x (c + 1)
  | none => dictSet d x 1

/-- `distdict` (`latinhypercube_driver.py:198-206`); the number of rows is the length of a column. -/
noncomputable def distDict (p : ℝ) (doe : Lhc) : List (ℝ≥0∞ × Nat) :=
  ((List.range' 1 ((doe.headD []).length - 1)).flatMap fun i => (List.range i).map fun j => rowNorm p doe i j).foldl countDist []

/-- `_LHC_Individual.mmphi` (`latinhypercube_driver.py:188-218`): `sum(J * (distinct_d ** (-self.q))) ** (1.0 / self.q)`. The result is kept in
`self.phi`; the design of an individual does not change. -/
noncomputable def mmphi (p : ℝ) (q : Nat) (doe : Lhc) : ℝ≥0∞ :=
  ((distDict p doe).map fun e => (e.2 : ℝ≥0∞) * e.1 ^ (-(q : ℝ))).sum ^ (1 / (q : ℝ))

end OpenMDAO
