import Verif.Model.Numpy
import Mathlib.Data.Real.Basic
import Mathlib.Analysis.SpecialFunctions.Pow.Real
import Mathlib.Analysis.SpecialFunctions.Log.Base
import Mathlib.Analysis.SpecialFunctions.Exp
import Mathlib.Analysis.Real.Sqrt
import Mathlib.Data.Fin.Tuple.Basic
import Mathlib.Data.Fintype.BigOperators
import Mathlib.LinearAlgebra.Matrix.NonsingularInverse
import Mathlib.LinearAlgebra.Matrix.DotProduct
/-!
# Model of multi-fidelity co-kriging

`openmdao/surrogate_models/multifi_cokriging.py`. Numbers are real numbers, one point is predicted at a time. `linalg.cholesky`, `linalg.qr` and the optimizer `minimize` are functions of a library record; theorems that need
more about them say so. `NUGGET` is a number `nug`. Of the attributes of the object those are modelled that `predict` and a later `fit` read (`y_best`, `rlf_value`, `_nfev`, `_err` are left out); after an exception the object
is not modelled.
-/
namespace OpenMDAO
set_option linter.unusedSectionVars false

/-- The exceptions: `exception` is a plain `Exception`, `linAlg` is `LinAlgError`. Serves `multifi_cokriging.py:322-526`. -/
inductive CkErr where
  | exception
  | linAlg
  | py (e : PyErr)
deriving DecidableEq, Repr

/-- Training data of one level: `X[i]` and `y[i]` (a column, lines 722-729). Serves `CkFitted` (`multifi_cokriging.py:322-526`). -/
structure CkLevel (d : Nat) where
  n : Nat
  X : Fin n → Fin d → ℝ
  y : Fin n → ℝ

/-- A regression model: number of functions and their values at a point. A callable of the user is one that works row by row, as the two built in ones do. -/
structure CkRegr (d : Nat) where
  p : Nat
  f : (Fin d → ℝ) → Fin p → ℝ

/-- `constant_regression` (lines 47-55). -/
def constantRegr (d : Nat) : CkRegr d := ⟨1, fun _ _ => 1⟩

/-- `linear_regression` (lines 57-65): a one, then the inputs. -/
def linearRegr (d : Nat) : CkRegr d := ⟨d + 1, fun x => Fin.cons 1 x⟩

section
variable {d : Nat}

/-- The parameters `theta` of `squared_exponential_correlation`, one per input (lines 104-109): one number stands for all inputs, another length is refused. Serves `ckObj` (`multifi_cokriging.py:322-526`). -/
def ckTheta (d : Nat) (t : List ℝ) : Except CkErr (Fin d → ℝ) :=
  if t.length = 1 then .ok fun _ => t.getD 0 0
  else if h : t.length = d then .ok fun k => t.get (k.cast h.symm)
  else .error (.py .ValueError)

/-- `squared_exponential_correlation` of one row of distances (lines 104-109). Serves `ckObj` (`multifi_cokriging.py:322-526`). -/
noncomputable def ckCorr (theta dx : Fin d → ℝ) : ℝ := Real.exp (-∑ k, theta k * dx k ^ 2)

/-- One row of `l1_cross_distances(X, Y)` (lines 146-163). Serves `ckObj` (`multifi_cokriging.py:322-526`). -/
def ckDist (x y : Fin d → ℝ) (k : Fin d) : ℝ := |x k - y k|

/-- `squareform(self.corr(theta, D))` where `D` are the distances of the pairs of different samples (lines 131-144, 316): symmetric with zeros on the diagonal, the pair is taken in the order of the samples. Serves `ckObj` (`multifi_cokriging.py:322-526`). -/
noncomputable def ckSquare {n : Nat} (X : Fin n → Fin d → ℝ) (theta : Fin d → ℝ) : Matrix (Fin n) (Fin n) ℝ :=
  Matrix.of fun i j => if i < j then ckCorr theta (ckDist (X i) (X j)) else if j < i then ckCorr theta (ckDist (X j) (X i)) else 0

/-- `_build_R` (lines 306-319). Serves `ckObj` (`multifi_cokriging.py:322-526`). -/
noncomputable def ckR (nug : ℝ) {n : Nat} (X : Fin n → Fin d → ℝ) (theta : Fin d → ℝ) : Matrix (Fin n) (Fin n) ℝ :=
  (1 + nug) • (1 : Matrix (Fin n) (Fin n) ℝ) + ckSquare X theta

/-- What a successful call of `rlf` stores for its level (lines 519-524). `m` is the number of columns of the regression matrix. Serves `CkFitted` (`multifi_cokriging.py:322-526`). -/
structure CkPar (n m : Nat) where
  C : Matrix (Fin n) (Fin n) ℝ
  G : Matrix (Fin m) (Fin m) ℝ
  beta : Fin m → ℝ
  sigma2 : ℝ

/-- A level with its regression matrix `F` (lines 388-399). The first `q` columns are the functions `g` (`rho_regr`; none at the lowest level) times the values of the level below, the last `p` are the functions `f` (`regr`). Serves `CkFitted` (`multifi_cokriging.py:322-526`). -/
structure CkDesign (d : Nat) where
  lvl : CkLevel d
  q : Nat
  p : Nat
  g : (Fin d → ℝ) → Fin q → ℝ
  f : (Fin d → ℝ) → Fin p → ℝ
  F : Matrix (Fin lvl.n) (Fin (q + p)) ℝ

/-- A value of the likelihood: `none` is minus infinity, the logarithm of a zero variance. Serves `multifi_cokriging.py:322-526`. -/
abbrev CkVal := Option ℝ

/-- scipy. `chol` is `linalg.cholesky(·, lower=True)` (`none` where it raises `LinAlgError`), `qr` is the economic `linalg.qr`. `opt` is `minimize` for one level with the starting point and the bounds of that level: the points at which it calls
its function, in order, and the point it returns. Serves `multifi_cokriging.py:322-526`. -/
structure CkLib where
  chol : {n : Nat} → Matrix (Fin n) (Fin n) ℝ → Option (Matrix (Fin n) (Fin n) ℝ)
  qr : {n m : Nat} → Matrix (Fin n) (Fin m) ℝ → Matrix (Fin n) (Fin m) ℝ × Matrix (Fin m) (Fin m) ℝ
  opt : Nat → (List ℝ → Except CkErr CkVal) → List (List ℝ) × List ℝ

/-- The triangle that `solve_triangular` reads. Serves `multifi_cokriging.py:322-526`. -/
def ckTri {n : Nat} (lower : Bool) (A : Matrix (Fin n) (Fin n) ℝ) : Matrix (Fin n) (Fin n) ℝ :=
  Matrix.of fun i j => if lower then (if j ≤ i then A i j else 0) else (if i ≤ j then A i j else 0)

open Classical in
/-- `solve_triangular(A, ·, lower=…)` as a matrix; a zero on the diagonal is a `LinAlgError`. Serves `multifi_cokriging.py:322-526`. -/
noncomputable def ckSolve {n : Nat} (lower : Bool) (A : Matrix (Fin n) (Fin n) ℝ) : Except CkErr (Matrix (Fin n) (Fin n) ℝ) :=
  if ∀ i, A i i ≠ 0 then .ok (ckTri lower A)⁻¹ else .error .linAlg

/-- `rlf` (lines 440-526) at the parameters `theta`: what is stored (`none` if the Cholesky decomposition fails) and the value. Serves `ckObj` (`multifi_cokriging.py:322-526`). -/
noncomputable def ckRlf (lib : CkLib) (nug : ℝ) (D : CkDesign d) (theta : Fin d → ℝ) : Except CkErr (Option (CkPar D.lvl.n (D.q + D.p)) × CkVal) :=
  match lib.chol (ckR nug D.lvl.X theta) with
  | none => .ok (none, some 1e20)
  | some C =>
    match ckSolve true C with
    | .error e => .error e
    | .ok S =>
      let Ft := S * D.F
      let Yt := S.mulVec D.lvl.y
      let QG := lib.qr Ft
      match ckSolve false QG.2 with
      | .error e => .error e
      | .ok T =>
        let beta := T.mulVec (QG.1.transpose.mulVec Yt)
        let err := Yt - Ft.mulVec beta
        let dof : ℝ := (D.lvl.n : ℝ) - D.p - D.q
        let sigma2 := (err ⬝ᵥ err) / dof
        let detR := ∏ i, C i i ^ (2 / (D.lvl.n : ℝ))
        .ok (some ⟨C, QG.2, beta, sigma2⟩, if 0 < sigma2 then some (dof * Real.logb 10 sigma2 + D.lvl.n * Real.logb 10 detR) else none)

/-- A level after `fit`. Serves `multifi_cokriging.py:322-526`. -/
structure CkFitted (d : Nat) where
  D : CkDesign d
  theta : Fin d → ℝ
  par : Option (CkPar D.lvl.n (D.q + D.p))

/-- `10.**x` (lines 564-565,588). Serves `ckObj` (`multifi_cokriging.py:322-526`). -/
noncomputable def ckPow (x : List ℝ) : List ℝ := x.map fun v => (10 : ℝ) ^ v

/-- `rlf_transform` (lines 564-565) with what it stores. Serves `ckObj` (`multifi_cokriging.py:322-526`). -/
noncomputable def ckEval (lib : CkLib) (nug : ℝ) (D : CkDesign d) (x : List ℝ) : Except CkErr (Option (CkPar D.lvl.n (D.q + D.p)) × CkVal) :=
  match ckTheta d (ckPow x) with
  | .error e => .error e
  | .ok th => ckRlf lib nug D th

/-- The function that the optimizer sees. Serves `multifi_cokriging.py:322-526`. -/
noncomputable def ckObj (lib : CkLib) (nug : ℝ) (D : CkDesign d) (x : List ℝ) : Except CkErr CkVal :=
  match ckEval lib nug D x with
  | .error e => .error e
  | .ok r => .ok r.2

/-- What is stored after one more call of `rlf`: a failed Cholesky decomposition leaves the attributes as they were (lines 490-493). Serves `ckRun` (`multifi_cokriging.py:322-526`). -/
def ckKeep {n m : Nat} (old new : Option (CkPar n m)) : Option (CkPar n m) :=
  match new with
  | some p => some p
  | none => old

/-- The calls that the optimizer makes, in order. Serves `multifi_cokriging.py:322-526`. -/
noncomputable def ckRun (lib : CkLib) (nug : ℝ) (D : CkDesign d) : List (List ℝ) → Option (CkPar D.lvl.n (D.q + D.p)) → Except CkErr (Option (CkPar D.lvl.n (D.q + D.p)))
  | [], st => .ok st
  | x :: xs, st =>
    match ckEval lib nug D x with
    | .error e => .error e
    | .ok r => ckRun lib nug D xs (ckKeep st r.1)

/-- Lines 420-435, one level: with parameters given `rlf` is called once; otherwise they are what the optimizer returns (`_max_rlf`, lines 529-594), and the other attributes are those of its last call. A value that is infinite is refused. The parameters are
also returned as a list, to be kept. -/
noncomputable def ckFitLevel (lib : CkLib) (nug : ℝ) (i : Nat) (given : Option (List ℝ)) (D : CkDesign d) : Except CkErr (List ℝ × CkFitted d) :=
  match given with
  | some t =>
    match ckTheta d t with
    | .error e => .error e
    | .ok th =>
      match ckRlf lib nug D th with
      | .error e => .error e
      | .ok r => if r.2 = none then .error .exception else .ok (t, ⟨D, th, r.1⟩)
  | none =>
    let sol := lib.opt i (ckObj lib nug D)
    match ckRun lib nug D sol.1 none with
    | .error e => .error e
    | .ok par =>
      match ckObj lib nug D sol.2 with
      | .error e => .error e
      | .ok v =>
        if v = none then .error .exception
        else
          match ckTheta d (ckPow sol.2) with
          | .error e => .error e
          | .ok th => .ok (ckPow sol.2, ⟨D, th, par⟩)

/-- `self.y[lvl-1][-n_samples[lvl]:]` where there are enough of them. -/
def ckLast (prev : CkLevel d) (n : Nat) (h : n ≤ prev.n) (k : Fin n) : ℝ := prev.y ⟨prev.n - n + k, by omega⟩

/-- The regression matrix of a level (lines 388-399): `low` are the values of the level below at the samples (nothing at the lowest level, where `q = 0`). -/
def ckDesign (regr rho : CkRegr d) (l : CkLevel d) : Option (Fin l.n → ℝ) → CkDesign d
  | none => ⟨l, 0, regr.p, fun _ a => a.elim0, regr.f, Matrix.of fun k => Fin.append (fun a : Fin 0 => a.elim0) (regr.f (l.X k))⟩
  | some low => ⟨l, rho.p, regr.p, rho.f, regr.f, Matrix.of fun k => Fin.append (fun a => rho.f (l.X k) a * low k) (regr.f (l.X k))⟩

open Classical in
/-- Lines 380-412, one level: one sample only has no distances (`np.min` of nothing is a `ValueError`); two equal samples are refused; more samples than the level below has cannot be multiplied (`ValueError`); too few samples are refused, where with a
single level the message itself fails as it reads `n_samples[i]` and there is no `i` (line 412, `one`). -/
noncomputable def ckCheck (regr rho : CkRegr d) (one : Bool) (prev : Option (CkLevel d)) (l : CkLevel d) : Except CkErr (CkDesign d) :=
  if l.n < 2 then .error (.py .ValueError)
  else if ∃ i j : Fin l.n, i < j ∧ ∑ k, ckDist (l.X i) (l.X j) k = 0 then .error .exception
  else
    match prev with
    | none => if regr.p ≥ l.n then .error (if one then .py .NameError else .exception) else .ok (ckDesign regr rho l none)
    | some pl =>
      if h : l.n ≤ pl.n then
        if regr.p + rho.p ≥ l.n then .error .exception else .ok (ckDesign regr rho l (some (ckLast pl l.n h)))
      else .error (.py .ValueError)

/-- The loop of lines 380-412. -/
noncomputable def ckDesigns (regr rho : CkRegr d) (one : Bool) : Option (CkLevel d) → List (CkLevel d) → Except CkErr (List (CkDesign d))
  | _, [] => .ok []
  | prev, l :: ls =>
    match ckCheck regr rho one prev l with
    | .error e => .error e
    | .ok D =>
      match ckDesigns regr rho one (some l) ls with
      | .error e => .error e
      | .ok Ds => .ok (D :: Ds)

/-- The loop of lines 420-435. -/
noncomputable def ckFits (lib : CkLib) (nug : ℝ) : Nat → List (Option (List ℝ)) → List (CkDesign d) → Except CkErr (List (List ℝ × CkFitted d))
  | i, t :: ts, D :: Ds =>
    match ckFitLevel lib nug i t D with
    | .error e => .error e
    | .ok r =>
      match ckFits lib nug (i + 1) ts Ds with
      | .error e => .error e
      | .ok rs => .ok (r :: rs)
  | _, _, _ => .ok []

/-- The argument `theta`: not a list (nothing, a number or an array), or a list by level. Serves `multifi_cokriging.py:322-526`. -/
inductive CkTheta where
  | all (t : Option (List ℝ))
  | levels (l : List (Option (List ℝ)))

/-- `self.theta = nlevel*[self.theta]` or the check of the length (lines 733-736). -/
def CkTheta.expand (nlevel : Nat) : CkTheta → Except CkErr (List (Option (List ℝ)))
  | .all t => .ok (List.replicate nlevel t)
  | .levels l => if l.length = nlevel then .ok l else .error (.py .ValueError)

/-- `np.any(self.theta[i] <= 0)` (lines 783-786). -/
def ckPositive (t : Option (List ℝ)) : Prop := ∀ l, t = some l → ∀ v ∈ l, 0 < v

/-- A `MultiFiCoKriging`: its arguments (`theta` is overwritten by `fit`) and the levels after the last `fit`. -/
structure CkModel (d : Nat) where
  regr : CkRegr d
  rho : CkRegr d
  theta : CkTheta
  fitted : List (CkFitted d)

open Classical in
/-- `fit` (lines 322-437): checks of the parameters (lines 346-350; of `theta0`, `thetaL` and `thetaU` they belong to the optimizer), the regression matrices, the levels. The levels go from the lowest fidelity to the highest. -/
noncomputable def ckFit (lib : CkLib) (nug : ℝ) (M : CkModel d) (levels : List (CkLevel d)) : Except CkErr (CkModel d) :=
  if levels = [] then .error (.py .IndexError)
  else
    match M.theta.expand levels.length with
    | .error e => .error e
    | .ok ts =>
      if ∃ t ∈ ts, ¬ ckPositive t then .error (.py .ValueError)
      else
        match ckDesigns M.regr M.rho (levels.length = 1) none levels with
        | .error e => .error e
        | .ok Ds =>
          match ckFits lib nug 0 ts Ds with
          | .error e => .error e
          | .ok rs => .ok { M with theta := .levels (rs.map fun r => some r.1), fitted := rs.map fun r => r.2 }

/-- The row of a point `x` in the regression matrix, `low` is the prediction of the level below (lines 633, 667). -/
def CkFitted.row (L : CkFitted d) (low : ℝ) (x : Fin d → ℝ) : Fin (L.D.q + L.D.p) → ℝ := Fin.append (fun a => L.D.g x a * low) (L.D.f x)

/-- `r_`: the correlations of a point with the samples (lines 644, 666). -/
noncomputable def CkFitted.r (L : CkFitted d) (x : Fin d → ℝ) (k : Fin L.D.lvl.n) : ℝ := ckCorr L.theta (ckDist x (L.D.lvl.X k))

/-- Mean and mean squared error at the lowest level (lines 627-658). Attributes that no call of `rlf` has set are the number 0, for which `solve_triangular` raises `ValueError`. -/
noncomputable def CkFitted.low (L : CkFitted d) (x : Fin d → ℝ) : Except CkErr (ℝ × ℝ) :=
  match L.par with
  | none => .error (.py .ValueError)
  | some P =>
    match ckSolve true P.C with
    | .error e => .error e
    | .ok S =>
      match ckSolve false P.C.transpose with
      | .error e => .error e
      | .ok St =>
        let f := L.row 0 x
        let Ft := S * L.D.F
        let yt := S.mulVec L.D.lvl.y
        let gamma := St.mulVec (yt - Ft.mulVec P.beta)
        let rt := S.mulVec (L.r x)
        match ckSolve true P.G.transpose with
        | .error e => .error e
        | .ok SG =>
          let u := SG.mulVec (f - Ft.transpose.mulVec rt)
          .ok (f ⬝ᵥ P.beta + L.r x ⬝ᵥ gamma, P.sigma2 * (1 - rt ⬝ᵥ rt + u ⬝ᵥ u))

/-- Mean and mean squared error at a level above the lowest, from those of the level below (lines 660-690). -/
noncomputable def CkFitted.up (L : CkFitted d) (x : Fin d → ℝ) (below : ℝ × ℝ) : Except CkErr (ℝ × ℝ) :=
  match L.par with
  | none => .error (.py .ValueError)
  | some P =>
    match ckSolve true P.C with
    | .error e => .error e
    | .ok S =>
      let f := L.row below.1 x
      let Ft := S * L.D.F
      let yt := S.mulVec L.D.lvl.y
      let rt := S.mulVec (L.r x)
      let res := yt - Ft.mulVec P.beta
      match ckSolve true P.G.transpose with
      | .error e => .error e
      | .ok SG =>
        let u := SG.mulVec (f - Ft.transpose.mulVec rt)
        let g := L.D.g x
        let inv := (P.G.transpose * P.G)⁻¹
        let rho2 := ∑ a, ∑ b, g a * (P.sigma2 * inv (Fin.castAdd _ a) (Fin.castAdd _ b) + P.beta (Fin.castAdd _ a) * P.beta (Fin.castAdd _ b)) * g b
        .ok (f ⬝ᵥ P.beta + rt ⬝ᵥ res,
          rho2 * below.2 + (res ⬝ᵥ res) / (2 * ((L.D.lvl.n : ℝ) - L.D.p - L.D.q)) * (1 - rt ⬝ᵥ rt) + P.sigma2 * (u ⬝ᵥ u))

/-- The loop of lines 661-690. -/
noncomputable def ckUp (x : Fin d → ℝ) : List (CkFitted d) → ℝ × ℝ → Except CkErr (ℝ × ℝ)
  | [], r => .ok r
  | L :: Ls, r =>
    match L.up x r with
    | .error e => .error e
    | .ok r' => ckUp x Ls r'

/-- `predict` (lines 597-701), at one point: mean and mean squared error of the highest level (the mean and the standard deviation of the data are 0 and 1, lines 375-378). Before `fit` the attributes do not exist. -/
noncomputable def ckPredict (M : CkModel d) (x : Fin d → ℝ) : Except CkErr (ℝ × ℝ) :=
  match M.fitted with
  | [] => .error (.py .AttributeError)
  | L :: Ls =>
    match L.low x with
    | .error e => .error e
    | .ok r => ckUp x Ls r

/-- `MultiFiCoKrigingSurrogate.train_multifi` (lines 843-859): the caller lists the levels from the highest fidelity to the lowest. (Training data of a single level may also be given without the list.) -/
noncomputable def ckTrain (lib : CkLib) (nug : ℝ) (M : CkModel d) (levels : List (CkLevel d)) : Except CkErr (CkModel d) := ckFit lib nug M levels.reverse

/-- `MultiFiCoKrigingSurrogate.predict` (lines 836-841). -/
noncomputable def ckSurrogate (M : CkModel d) (x : Fin d → ℝ) : Except CkErr (ℝ × ℝ) :=
  match ckPredict M x with
  | .error e => .error e
  | .ok r => .ok (r.1, Real.sqrt |r.2|)

/-- `FloatMultiFiCoKrigingSurrogate.predict` (lines 881-883): what the base class returns is a tuple, which has no `mu`. -/
noncomputable def ckFloat (M : CkModel d) (x : Fin d → ℝ) : Except CkErr ℝ :=
  match ckSurrogate M x with
  | .error e => .error e
  | .ok _ => .error (.py .AttributeError)

/-- The loop of `_check_list_structure` (lines 720-729) from level `i` on: rows and columns of `X[i]` with the size of `y[i]`; `prev` are the columns of `X[i-1]`. -/
def ckShapeLoop : Nat → Nat → List ((Nat × Nat) × Nat) → Except PyErr Unit
  | _, _, [] => .ok ()
  | i, prev, s :: ss =>
    if 1 < i ∧ s.1.2 ≠ prev then .error .ValueError
    else if s.1.1 ≠ s.2 then .error .ValueError
    else ckShapeLoop (i + 1) s.1.2 ss

/-- `_check_list_structure` (lines 702-731) for lists: shapes of `X` and sizes of `y`. -/
def ckShapes (X : List (Nat × Nat)) (y : List Nat) : Except PyErr Unit :=
  if X.length ≠ y.length then .error .ValueError
  else
    match ckShapeLoop 0 0 (X.zip y) with
    | .error e => .error e
    | .ok _ => if X = [] then .error .IndexError else .ok ()

end
end OpenMDAO
