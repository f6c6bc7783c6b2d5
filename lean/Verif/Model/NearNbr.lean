import Verif.Model.Numpy
import Mathlib.Data.Real.Basic
import Mathlib.Analysis.Real.Sqrt
import Mathlib.Data.Finset.Lattice.Fold
import Mathlib.Algebra.BigOperators.Group.Finset.Basic
import Mathlib.Data.Fintype.BigOperators
/-!
# Model of the nearest-neighbour interpolators

`openmdao/surrogate_models/nn_interpolators/nn_base.py`, `weighted_interpolator.py`, `linear_interpolator.py`, `rbf_interpolator.py`. Numbers are real numbers, training data have `N + 1` points, `d` independent and `e` dependent
dimensions, and one point is predicted at a time (every row of several points is computed alone). The search tree of scipy is a function `q` from points to the indices of the neighbours in order of their distance; the
distances it returns are the Euclidean ones.
-/
namespace OpenMDAO

/-- Training data as given to the constructor. Serves `colRange` (`nn_base.py:31-37`). -/
structure NNData (N d e : Nat) where
  X : Fin (N + 1) → Fin d → ℝ
  Y : Fin (N + 1) → Fin e → ℝ

/-- `np.amin(…, axis=0)` of one column. Serves `colRange` (`nn_base.py:31-37`). -/
noncomputable def colMin {N : Nat} (v : Fin (N + 1) → ℝ) : ℝ := Finset.univ.inf' Finset.univ_nonempty v

/-- `np.amax(…, axis=0)` of one column. Serves `colRange` (`nn_base.py:31-37`). -/
noncomputable def colMax {N : Nat} (v : Fin (N + 1) → ℝ) : ℝ := Finset.univ.sup' Finset.univ_nonempty v

/-- Range of a column, 1 where it is zero (`nn_base.py:31-37`). -/
noncomputable def colRange {N : Nat} (v : Fin (N + 1) → ℝ) : ℝ := if colMax v - colMin v = 0 then 1 else colMax v - colMin v

namespace NNData
variable {N d e : Nat}

/-- `_tpm`, `_tpr`, `_tvm`, `_tvr` (`nn_base.py:30-37`). -/
noncomputable def tpm (D : NNData N d e) (k : Fin d) : ℝ := colMin fun i => D.X i k
/-- `_tpr` (`nn_base.py:31,36`). -/
noncomputable def tpr (D : NNData N d e) (k : Fin d) : ℝ := colRange fun i => D.X i k
/-- `_tvm` (`nn_base.py:32`). -/
noncomputable def tvm (D : NNData N d e) (j : Fin e) : ℝ := colMin fun i => D.Y i j
/-- `_tvr` (`nn_base.py:33,37`). -/
noncomputable def tvr (D : NNData N d e) (j : Fin e) : ℝ := colRange fun i => D.Y i j

/-- `normalized_pts = (prediction_points - self._tpm) / self._tpr`. `weighted_interpolator.py:27-65`. -/
noncomputable def norm (D : NNData N d e) (x : Fin d → ℝ) (k : Fin d) : ℝ := (x k - D.tpm k) / D.tpr k

/-- `_tp` (`nn_base.py:40`). -/
noncomputable def tp (D : NNData N d e) (i : Fin (N + 1)) : Fin d → ℝ := D.norm (D.X i)

/-- `_tv` (`nn_base.py:41`). -/
noncomputable def tv (D : NNData N d e) (i : Fin (N + 1)) (j : Fin e) : ℝ := (D.Y i j - D.tvm j) / D.tvr j

end NNData

/-- Euclidean distance. Serves `weightedAt` (`weighted_interpolator.py:27-65`). -/
noncomputable def eudist {d : Nat} (x y : Fin d → ℝ) : ℝ := Real.sqrt (∑ k, (x k - y k) ^ 2)

/-- The result of a query: the neighbours but the last, and the last, farthest one. Serves `Nbrs.all` (`weighted_interpolator.py:27-65`). -/
structure Nbrs (N : Nat) where
  near : List (Fin (N + 1))
  far : Fin (N + 1)

/-- All neighbours in order of their distance. Serves `weighted_interpolator.py:27-65`. -/
def Nbrs.all {N : Nat} (b : Nbrs N) : List (Fin (N + 1)) := b.near ++ [b.far]

/-! ## Weighted neighbours -/

section
variable {N d e : Nat}

/-- `dist_eff`, by default the number of dimensions plus one (`weighted_interpolator.py:34-36`); natural numbers only. -/
def distEff (d p : Nat) : Nat := if p = 0 then d + 1 else p

open Classical in
/-- `_get_weights` (`weighted_interpolator.py:10-25`), one row: where a distance is zero the weight is infinite, the row is then 1 at the zero distances and 0 elsewhere. -/
noncomputable def nnWeight (p : Nat) (dist : Fin (N + 1) → ℝ) (all : List (Fin (N + 1))) (l : Fin (N + 1)) : ℝ :=
  if ∃ m ∈ all, dist m = 0 then (if dist l = 0 then 1 else 0) else 1 / dist l ^ p

/-- `WeightedInterpolator.__call__` (`weighted_interpolator.py:27-65`) for neighbours `all` of the point. The error for too few training points is not modelled. -/
noncomputable def weightedAt (D : NNData N d e) (p : Nat) (all : List (Fin (N + 1))) (x : Fin d → ℝ) (j : Fin e) : ℝ :=
  let w := nnWeight (distEff d p) (fun l => eudist (D.norm x) (D.tp l)) all
  (all.map fun l => D.tv l j * w l).sum / (all.map w).sum * D.tvr j + D.tvm j

/-- `WeightedInterpolator.__call__` with the query. `weighted_interpolator.py:27-65`. -/
noncomputable def weightedPredict (D : NNData N d e) (q : (Fin d → ℝ) → Nbrs N) (p : Nat) (x : Fin d → ℝ) (j : Fin e) : ℝ := weightedAt D p (q (D.norm x)).all x j

open Classical in
/-- The computation of `WeightedInterpolator.gradient` (`weighted_interpolator.py:95-110`) from distances and neighbours, entry of output `j` and input `k`; `none` is not-a-number, which results from a zero distance
(an infinite weight divided by an infinite sum). -/
noncomputable def weightedGradOf (D : NNData N d e) (p : Nat) (dist : Fin (N + 1) → ℝ) (all : List (Fin (N + 1))) (x : Fin d → ℝ) (j : Fin e) (k : Fin d) : Option ℝ :=
  if ∃ m ∈ all, dist m = 0 then none
  else
    let p := distEff d p
    let w := fun l => 1 / dist l ^ p
    let dw := fun l => -(p : ℝ) * (1 / dist l ^ (p + 2)) * (D.norm x k - D.tp l k)
    let ws := (all.map w).sum
    some ((ws * (all.map fun l => dw l * D.tv l j).sum - (all.map fun l => w l * D.tv l j).sum * (all.map dw).sum) / ws ^ 2 * (D.tvr j / D.tpr k))

/-- The cache of the last prediction: normalised point, distances, neighbours (`nn_base.py:53`, `weighted_interpolator.py:63`). -/
structure NNCache (N d : Nat) where
  pt : Fin d → ℝ
  dist : Fin (N + 1) → ℝ
  nbrs : Nbrs N

/-- `self._pt_cache = (normalized_pts, ndist, nloc)`. Serves `cachedQuery` (`weighted_interpolator.py:84-88`). -/
noncomputable def cacheOf (D : NNData N d e) (q : (Fin d → ℝ) → Nbrs N) (x : Fin d → ℝ) : NNCache N d :=
  { pt := D.norm x, dist := fun l => eudist (D.norm x) (D.tp l), nbrs := q (D.norm x) }

/-- Distances and neighbours used by `gradient`: those of the cache if its point is close (`weighted_interpolator.py:84-88`, `rbf_interpolator.py:324-328`); `close` is `np.allclose`. -/
noncomputable def cachedQuery (D : NNData N d e) (q : (Fin d → ℝ) → Nbrs N) (close : (Fin d → ℝ) → (Fin d → ℝ) → Bool) (c : Option (NNCache N d)) (x : Fin d → ℝ) : NNCache N d :=
  match c with
  | some c => if close c.pt (D.norm x) then c else cacheOf D q x
  | none => cacheOf D q x

/-- `WeightedInterpolator.gradient`. `weighted_interpolator.py:67-110`. -/
noncomputable def weightedGrad (D : NNData N d e) (q : (Fin d → ℝ) → Nbrs N) (close : (Fin d → ℝ) → (Fin d → ℝ) → Bool) (c : Option (NNCache N d)) (p : Nat) (x : Fin d → ℝ) (j : Fin e) (k : Fin d) : Option ℝ :=
  let r := cachedQuery D q close c x
  weightedGradOf D p r.dist r.nbrs.all x j k

end

/-! ## Radial basis functions -/

/-- `np.polyval`. Serves `rbfTrain` (`rbf_interpolator.py:268-287`). -/
def npPolyval (l : List ℝ) (t : ℝ) : ℝ := l.foldl (fun acc c => acc * t + c) 0

/-- A basis function of the form `(1 - t) ** pow / den * polyval(poly, t)`. Serves `rbfForm` (`rbf_interpolator.py:11-131`). -/
structure RbfForm where
  pow : Nat
  den : ℝ
  poly : List ℝ

/-- Serves `rbfTrain` (`rbf_interpolator.py:268-287`). -/
noncomputable def RbfForm.val (f : RbfForm) (t : ℝ) : ℝ := (1 - t) ^ f.pow / f.den * npPolyval f.poly t

/-- The table of `_find_R` (`rbf_interpolator.py:11-131`) without `comp == -3`; `dims` is `self._indep_dims + 1`. A missing case leaves `cb_poly` unassigned: `UnboundLocalError`, a `NameError`. -/
noncomputable def rbfForm (comp : Int) (dims : Nat) : Except PyErr RbfForm :=
  if comp = -1 then .ok ⟨5, 1, [5, 72, 48, 40, 8]⟩
  else if comp = -2 then .ok ⟨6, 1, [5, 30, 72, 82, 36, 6]⟩
  else if dims ≤ 2 then
    match comp with
    | 0 => .ok ⟨1, 1, [1]⟩
    | 1 => .ok ⟨3, 12, [3, 1]⟩
    | 2 => .ok ⟨5, 840, [24, 15, 3]⟩
    | 3 => .ok ⟨7, 151200, [315, 285, 105, 15]⟩
    | 4 => .ok ⟨9, 51891840, [5760, 6795, 3555, 945, 105]⟩
    | _ => .error .NameError
  else if dims ≤ 4 then
    match comp with
    | 0 => .ok ⟨1, 1, [-1, 1]⟩
    | 1 => .ok ⟨4, 20, [4, 1]⟩
    | 2 => .ok ⟨6, 1680, [35, 18, 3]⟩
    | 3 => .ok ⟨8, 332640, [480, 375, 120, 15]⟩
    | 4 => .ok ⟨10, 121080960, [9009, 9450, 4410, 1050, 105]⟩
    | _ => .error .NameError
  else if dims ≤ 6 then
    match comp with
    | 0 => .ok ⟨2, 1, [-1, 1]⟩
    | 1 => .ok ⟨5, 30, [5, 1]⟩
    | 2 => .ok ⟨7, 3024, [48, 21, 3]⟩
    | 3 => .ok ⟨9, 665280, [693, 477, 135, 15]⟩
    | 4 => .ok ⟨11, 259459200, [13440, 12705, 5355, 1155, 105]⟩
    | _ => .error .NameError
  else
    match comp with
    | 0 => .ok ⟨2, 1, [1, -2, 1]⟩
    | 1 => .ok ⟨6, 42, [6, 1]⟩
    | 2 => .ok ⟨8, 5040, [63, 24, 3]⟩
    | 3 => .ok ⟨10, 1235520, [960, 591, 150, 15]⟩
    | 4 => .ok ⟨12, 518918400, [19305, 16620, 6390, 1260, 105]⟩
    | _ => .error .NameError

/-- The table of `_find_dR` (`rbf_interpolator.py:140-252`) without `comp == -3`; a constant factor `frnt = 1.` is the power 0. -/
noncomputable def rbfDForm (comp : Int) (dims : Nat) : Except PyErr RbfForm :=
  if comp = -1 then .ok ⟨4, 1, [-45, -556, -120, -144, 0]⟩
  else if comp = -2 then .ok ⟨5, 1, [-55, -275, -528, -440, -88, 0]⟩
  else if dims ≤ 2 then
    match comp with
    | 0 => .ok ⟨0, 1, [-1]⟩
    | 1 => .ok ⟨0, 1, [1, -2, 1, 0]⟩
    | 2 => .ok ⟨4, -20, [4, 1, 0]⟩
    | 3 => .ok ⟨6, -1680, [35, 18, 3, 0]⟩
    | 4 => .ok ⟨8, -22176, [32, 25, 8, 1, 0]⟩
    | _ => .error .NameError
  else if dims ≤ 4 then
    match comp with
    | 0 => .ok ⟨0, 1, [2, -2]⟩
    | 1 => .ok ⟨0, 1, [1, -3, 3, -1, 0]⟩
    | 2 => .ok ⟨5, -30, [5, 1, 0]⟩
    | 3 => .ok ⟨7, -1008, [16, 7, 1, 0]⟩
    | 4 => .ok ⟨9, -221760, [231, 159, 45, 5, 0]⟩
    | _ => .error .NameError
  else if dims ≤ 6 then
    match comp with
    | 0 => .ok ⟨0, 1, [-3, 6, -3]⟩
    | 1 => .ok ⟨0, 1, [-1, 4, -6, 4, -1, 0]⟩
    | 2 => .ok ⟨6, -42, [6, 1, 0]⟩
    | 3 => .ok ⟨8, -1680, [21, 8, 1, 0]⟩
    | 4 => .ok ⟨10, -411840, [320, 197, 50, 5, 0]⟩
    | _ => .error .NameError
  else
    match comp with
    | 0 => .ok ⟨0, 1, [4, -12, 12, -4]⟩
    | 1 => .ok ⟨0, 1, [1, -5, 10, -10, 5, -1, 0]⟩
    | 2 => .ok ⟨7, -56, [7, 1, 0]⟩
    | 3 => .ok ⟨9, -7920, [80, 27, 3, 0]⟩
    | 4 => .ok ⟨11, -720720, [429, 239, 55, 5, 0]⟩
    | _ => .error .NameError

/-- The basis function of `_find_R`: `Cf * Cb`. Serves `rbfTrain` (`rbf_interpolator.py:268-287`). -/
noncomputable def rbfFun (comp : Int) (dims : Nat) : Except PyErr (ℝ → ℝ) :=
  if comp = -3 then .ok fun t => Real.sqrt (t ^ 2 + 1) * npPolyval [1] t
  else
    match rbfForm comp dims with
    | .error e => .error e
    | .ok f => .ok f.val

/-- `dRp` of `_find_dR`: `frnt * polyval(dRp_poly, T)`; with `comp == -3` the factor at `T == 0` is not-a-number in numpy, 0 here. Serves `rbfTrain` (`rbf_interpolator.py:268-287`). -/
noncomputable def rbfDFun (comp : Int) (dims : Nat) : Except PyErr (ℝ → ℝ) :=
  if comp = -3 then .ok fun t => t / Real.sqrt (t * t * 1) * npPolyval [1] t
  else
    match rbfDForm comp dims with
    | .error e => .error e
    | .ok f => .ok f.val

section
variable {N d e : Nat}

/-- A trained `RBFInterpolator`: data, query for `n` neighbours, basis function and its derivative, weights. Serves `Rbf.T` (`rbf_interpolator.py:281, 307`). -/
structure Rbf (N d e : Nat) where
  D : NNData N d e
  q : (Fin d → ℝ) → Nbrs N
  R : ℝ → ℝ
  dR : ℝ → ℝ
  W : Fin (N + 1) → Fin e → ℝ

/-- `Tp` (`rbf_interpolator.py:281, 307`): distance over the distance of the farthest neighbour, at a normalised point. -/
noncomputable def Rbf.T (r : Rbf N d e) (b : Nbrs N) (z : Fin d → ℝ) (l : Fin (N + 1)) : ℝ := eudist z (r.D.tp l) / eudist z (r.D.tp b.far)

open Classical in
/-- A row of `_find_R` (`rbf_interpolator.py:134-135`): zero but at the neighbours other than the last. -/
noncomputable def Rbf.row (r : Rbf N d e) (z : Fin d → ℝ) (l : Fin (N + 1)) : ℝ := if l ∈ (r.q z).near then r.R (r.T (r.q z) z l) else 0

/-- `RBFInterpolator.__init__` (`rbf_interpolator.py:268-287`); `solve A B` is `spsolve`. -/
noncomputable def rbfTrain (solve : (Fin (N + 1) → Fin (N + 1) → ℝ) → (Fin (N + 1) → Fin e → ℝ) → Fin (N + 1) → Fin e → ℝ) (D : NNData N d e) (q : Nat → (Fin d → ℝ) → Nbrs N) (n : Nat) (comp : Int) : Except PyErr (Rbf N d e) :=
  if N + 1 < n then .error .ValueError
  else
    match rbfFun comp (d + 1), rbfDFun comp (d + 1) with
    | .error e, _ => .error e
    | _, .error e => .error e
    | .ok R, .ok dR =>
      let r : Rbf N d e := { D := D, q := q n, R := R, dR := dR, W := fun _ _ => 0 }
      .ok { r with W := solve (fun i => r.row (D.tp i)) D.tv }

/-- `RBFInterpolator.__call__` (`rbf_interpolator.py:289-314`), real points. -/
noncomputable def Rbf.predict (r : Rbf N d e) (x : Fin d → ℝ) (j : Fin e) : ℝ := (∑ l, r.row (r.D.norm x) l * r.W l j) * r.D.tvr j + r.D.tvm j

open Classical in
/-- `_find_dR` (`rbf_interpolator.py:254-266`) and the scaling of `gradient` (lines 331-332), from the given distances and neighbours. -/
noncomputable def Rbf.gradOf (r : Rbf N d e) (dist : Fin (N + 1) → ℝ) (b : Nbrs N) (x : Fin d → ℝ) (j : Fin e) (k : Fin d) : ℝ :=
  let t0 := fun l => dist l / dist b.far
  let t := fun l => if t0 l = 0 then t0 l + 1e-11 else t0 l
  let dtx := fun l => (r.D.norm x k - r.D.tp l k - t l ^ 2 * (r.D.norm x k - r.D.tp b.far k)) / (dist b.far ^ 2 * t l)
  (b.near.map fun l => r.dR (t0 l) * dtx l * r.W l j).sum * (r.D.tvr j / r.D.tpr k)

/-- `RBFInterpolator.gradient` (`rbf_interpolator.py:316-334`). -/
noncomputable def Rbf.gradient (r : Rbf N d e) (close : (Fin d → ℝ) → (Fin d → ℝ) → Bool) (c : Option (NNCache N d)) (x : Fin d → ℝ) (j : Fin e) (k : Fin d) : ℝ :=
  let s := cachedQuery r.D r.q close c x
  r.gradOf s.dist s.nbrs x j k

end

/-! ## Hyperplanes -/

section
variable {N d e : Nat}

/-- `nvect` of `_find_hyperplane` (`linear_interpolator.py:26-37`): differences of consecutive neighbours, last column the values of output `j`. -/
noncomputable def nvect (D : NNData N d e) (loc : Fin (d + 1) → Fin (N + 1)) (j : Fin e) (i : Fin d) (c : Fin (d + 1)) : ℝ :=
  Fin.lastCases (D.tv (loc i.succ) j - D.tv (loc i.castSucc) j) (fun k => D.tp (loc i.succ) k - D.tp (loc i.castSucc) k) c

/-- `pc` of `_find_hyperplane` (`linear_interpolator.py:47`): the nearest neighbour with its value, times the normal. -/
noncomputable def planeConst (D : NNData N d e) (loc : Fin (d + 1) → Fin (N + 1)) (j : Fin e) (v : Fin (d + 1) → ℝ) : ℝ :=
  (∑ k : Fin d, D.tp (loc 0) k * v k.castSucc) + D.tv (loc 0) j * v (Fin.last d)

/-- `LinearInterpolator.__call__` (`linear_interpolator.py:51-87`); `null M` is the last row of `V` in the singular value decomposition of `M`. `none` if the last entry of the normal is zero: the replacement of
lines 75-76 is not modelled. -/
noncomputable def linearPredict (null : (Fin d → Fin (d + 1) → ℝ) → Fin (d + 1) → ℝ) (D : NNData N d e) (q : (Fin d → ℝ) → Fin (d + 1) → Fin (N + 1)) (x : Fin d → ℝ) (j : Fin e) : Option ℝ :=
  let loc := q (D.norm x)
  let v := null (nvect D loc j)
  if v (Fin.last d) = 0 then none
  else some (((∑ k : Fin d, D.norm x k * v k.castSucc) - planeConst D loc j v) / -(v (Fin.last d)) * D.tvr j + D.tvm j)

/-- `LinearInterpolator.gradient` (`linear_interpolator.py:89-115`), neighbours given by the query, entries by output and input. A zero gradient if the last entry of all normals is zero (`np.any(…) == 0`); `none` entries where
only some are (division by zero). `squeeze().T` of the `1 x d x e` array is assigned to a `1 x e x d` array: with `d = 1` and more than one output the shapes do not fit. -/
noncomputable def linearGrad (null : (Fin d → Fin (d + 1) → ℝ) → Fin (d + 1) → ℝ) (D : NNData N d e) (q : (Fin d → ℝ) → Fin (d + 1) → Fin (N + 1)) (x : Fin d → ℝ) : Except PyErr (Fin e → Fin d → Option ℝ) :=
  let loc := q (D.norm x)
  let v := fun j => null (nvect D loc j)
  open Classical in
  if ∀ j, v j (Fin.last d) = 0 then .ok fun _ _ => some 0
  else if d = 1 ∧ 1 < e then .error .ValueError
  else .ok fun j k => if v j (Fin.last d) = 0 then none else some (-(v j k.castSucc) / v j (Fin.last d) * (D.tvr j / D.tpr k))

end

end OpenMDAO
