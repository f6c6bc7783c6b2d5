import Verif.Lemmas.CkExact
import Mathlib.Data.Matrix.Block
import Mathlib.Logic.Equiv.Fin.Basic
import Mathlib.Analysis.Complex.ExponentialBounds
import Mathlib.Tactic.FinCases
import Mathlib.Tactic.NormNum
import Mathlib.Tactic.Linarith
import Mathlib.Data.List.Pairwise
import Mathlib.Data.List.Chain
/-!
# C132 to C138: multi-fidelity co-kriging
-/
namespace OpenMDAO
set_option linter.unusedSectionVars false
open Matrix

section
variable {n m d q p : Nat}

theorem r_sample (nug : ℝ) (L : CkFitted d) (k j : Fin L.D.lvl.n) : L.r (L.D.lvl.X k) j = ckR nug L.D.lvl.X L.theta k j - if k = j then nug else 0 := by
  rw [R_entry, CkFitted.r, corr_kern]
  ring

theorem sample_dot {nug : ℝ} {L : CkFitted d} {P : CkPar L.D.lvl.n (L.D.q + L.D.p)} (h : Trained nug L P) (k : Fin L.D.lvl.n) (v : Fin L.D.lvl.n → ℝ) :
    L.r (L.D.lvl.X k) ⬝ᵥ (ckR nug L.D.lvl.X L.theta)⁻¹.mulVec v = v k - nug * (ckR nug L.D.lvl.X L.theta)⁻¹.mulVec v k := by
  have e : ∀ w : Fin L.D.lvl.n → ℝ, L.r (L.D.lvl.X k) ⬝ᵥ w = (ckR nug L.D.lvl.X L.theta).mulVec w k - nug * w k := by
    intro w
    simp only [dotProduct, Matrix.mulVec, r_sample nug, sub_mul, Finset.sum_sub_distrib, ite_mul, zero_mul, Finset.sum_ite_eq, Finset.mem_univ, if_true]
  rw [e, Matrix.mulVec_mulVec, Matrix.mul_nonsing_inv _ (chol_unit h.chol), Matrix.one_mulVec]

theorem sum_back (y u v : ℝ) : y = u + v + (y - (u + v)) := by ring

theorem data_eq {nug : ℝ} {L : CkFitted d} {P : CkPar L.D.lvl.n (L.D.q + L.D.p)} (h : Trained nug L P) (j : Fin L.D.lvl.n) :
    (ckR nug L.D.lvl.X L.theta).mulVec ((ckR nug L.D.lvl.X L.theta)⁻¹.mulVec (L.D.lvl.y - L.D.F.mulVec P.beta)) j = L.D.lvl.y j - L.D.F.mulVec P.beta j := by
  rw [Matrix.mulVec_mulVec, Matrix.mul_nonsing_inv _ (chol_unit h.chol), Matrix.one_mulVec]
  rfl

theorem sample_inv {L : CkFitted d} {P : CkPar L.D.lvl.n (L.D.q + L.D.p)} (h : Trained 0 L P) (k : Fin L.D.lvl.n) :
    L.D.F.transpose.mulVec ((ckR 0 L.D.lvl.X L.theta)⁻¹.mulVec (L.r (L.D.lvl.X k))) = L.D.F k := by
  have e : L.r (L.D.lvl.X k) = (ckR 0 L.D.lvl.X L.theta).mulVec (Pi.single k 1) := by
    ext j
    rw [r_sample 0, Matrix.mulVec_single_one]
    have := congrFun (congrFun (R_symm 0 L.D.lvl.X L.theta) j) k
    rw [Matrix.transpose_apply] at this
    simp [this, Matrix.col]
  rw [e, Matrix.mulVec_mulVec (Pi.single k 1) (ckR 0 L.D.lvl.X L.theta)⁻¹, Matrix.nonsing_inv_mul _ (chol_unit h.chol), Matrix.one_mulVec, Matrix.mulVec_single_one]
  rfl

theorem F_first {nug : ℝ} {regr rho : CkRegr d} {l : CkLevel d} {L : CkFitted d} (h : LevelOf nug regr rho none l L) (k : Fin L.D.lvl.n) (b : ℝ) : L.D.F k = L.row b (L.D.lvl.X k) := by
  obtain ⟨D, th, par⟩ := L
  obtain rfl : D = _ := h.first rfl
  ext j
  simp only [ckDesign, CkFitted.row]
  congr 1

/-- The value of the level below at a sample. -/
theorem F_next {nug : ℝ} {regr rho : CkRegr d} {pl l : CkLevel d} {L : CkFitted d} (h : LevelOf nug regr rho (some pl) l L) :
    ∃ (hn : l.n ≤ pl.n) (hl : L.D.lvl = l), ∀ k : Fin l.n, L.D.F (k.cast (by rw [hl])) = L.row (ckLast pl l.n hn k) (l.X k) := by
  obtain ⟨D, th, par⟩ := L
  obtain ⟨hn, e⟩ := h.next pl rfl
  obtain rfl : D = _ := e
  exact ⟨hn, rfl, fun k => rfl⟩

/-- Without nugget a level gives back its data where the level below does. -/
theorem up_sample {regr rho : CkRegr d} {pl l : CkLevel d} {L : CkFitted d} (h : LevelOf 0 regr rho (some pl) l L) (k : Fin l.n) {b r : ℝ × ℝ} (hn : l.n ≤ pl.n) (hb : b = (ckLast pl l.n hn k, 0))
    (hr : L.up (l.X k) b = .ok r) : r = (l.y k, 0) := by
  obtain ⟨hn', hl, hF⟩ := F_next h
  cases hp : L.par with
  | none => simp [CkFitted.up, hp] at hr
  | some P =>
    have ht := h.trained P hp
    subst hl
    rw [up_eq ht] at hr
    cases hr
    have hrow : L.row b.1 (L.D.lvl.X k) = L.D.F k := by
      have := hF k
      simp only [Fin.cast_eq_self] at this
      rw [this, hb]
    rw [sample_dot ht, sample_dot ht, sample_inv ht, hrow, sub_self]
    have e0 : (0 : Fin (L.D.q + L.D.p) → ℝ) ⬝ᵥ (P.G.transpose * P.G)⁻¹.mulVec 0 = 0 := by simp
    have e1 : L.r (L.D.lvl.X k) k = 1 := by rw [CkFitted.r, corr_kern, kern_self]
    have e2 : L.D.F k ⬝ᵥ P.beta = L.D.F.mulVec P.beta k := rfl
    rw [e0, e1, e2, hb]
    simp

theorem low_sample {regr rho : CkRegr d} {l : CkLevel d} {L : CkFitted d} (h : LevelOf 0 regr rho none l L) (k : Fin l.n) {r : ℝ × ℝ} (hr : L.low (l.X k) = .ok r) : r = (l.y k, 0) := by
  have hl : L.D.lvl = l := by rw [h.first rfl]; rfl
  cases hp : L.par with
  | none => simp [CkFitted.low, hp] at hr
  | some P =>
    have ht := h.trained P hp
    subst hl
    rw [low_eq ht] at hr
    cases hr
    rw [sample_dot ht, sample_dot ht, sample_inv ht, ← F_first h k 0, sub_self]
    have e0 : (0 : Fin (L.D.q + L.D.p) → ℝ) ⬝ᵥ (P.G.transpose * P.G)⁻¹.mulVec 0 = 0 := by simp
    have e1 : L.r (L.D.lvl.X k) k = 1 := by rw [CkFitted.r, corr_kern, kern_self]
    have e2 : L.D.F k ⬝ᵥ P.beta = L.D.F.mulVec P.beta k := rfl
    rw [e0, e1, e2]
    simp

theorem nested_refl (l : CkLevel d) : CkNested l l := ⟨le_refl _, fun k => by congr 1; apply Fin.ext; simp⟩

theorem nested_trans {a b c : CkLevel d} (h1 : CkNested a b) (h2 : CkNested b c) : CkNested a c := by
  obtain ⟨h1, e1⟩ := h1
  obtain ⟨h2, e2⟩ := h2
  refine ⟨h1.trans h2, fun k => ?_⟩
  rw [← e1 k, ← e2]
  congr 1
  apply Fin.ext
  simp only
  omega

/-- The last of the levels. -/
theorem upto_sample {regr rho : CkRegr d} (top : CkLevel d) (k : Fin top.n) : ∀ (ls : List (CkLevel d)) (pl : CkLevel d) (Ls : List (CkFitted d)) (b r : ℝ × ℝ), FittedOf 0 regr rho (some pl) ls Ls →
    (∀ l ∈ pl :: ls, CkNested top l) → (∀ h : top.n ≤ pl.n, b = (pl.y ⟨pl.n - top.n + k, by omega⟩, 0)) → ckUp (top.X k) Ls b = .ok r → ((pl :: ls).getLast (by simp)) = top → r = (top.y k, 0) := by
  intro ls
  induction ls with
  | nil =>
    intro pl Ls b r hf _ hb hr hlast
    simp only [FittedOf] at hf
    subst hf
    simp only [ckUp] at hr
    cases hr
    simp only [List.getLast_singleton] at hlast
    subst hlast
    rw [hb (le_refl _)]
    congr 2
    apply Fin.ext
    simp
  | cons l ls ih =>
    intro pl Ls b r hf hnest hb hr hlast
    obtain ⟨L, Ls', rfl, hL, hf'⟩ := hf
    simp only [ckUp] at hr
    split at hr
    · cases hr
    rename_i r' hr'
    obtain ⟨h1, e1⟩ := hnest pl (by simp)
    obtain ⟨h2, e2⟩ := hnest l (by simp)
    obtain ⟨hn, _, _⟩ := F_next hL
    refine ih l Ls' r' r hf' (fun q hq => hnest q (by simp at hq ⊢; tauto)) (fun h => ?_) hr (by simpa using hlast)
    rw [← e2 k] at hr'
    refine up_sample hL ⟨l.n - top.n + k, by omega⟩ hn ?_ hr'
    rw [hb h1]
    simp only [ckLast]
    congr 2
    apply Fin.ext
    simp only
    omega

/-- C132: trained with given correlation parameters on nested samples and without nugget, the surrogate gives back the observed value of the highest fidelity at every sample of it, with an error estimate of zero. The full claim also covers the nugget of `10 eps`
(`C132_form` says what it changes) and parameters found by the optimizer (refuted below). -/
theorem C132_interpolates_partial (lib : CkLib) (hl : lib.Exact) (M M' : CkModel d) (top : CkLevel d) (rest : List (CkLevel d)) (hg : M.theta.Given) (hn : (top :: rest).IsChain CkNested)
    (h : ckTrain lib 0 M (top :: rest) = .ok M') (k : Fin top.n) (r : ℝ × ℝ) (hp : ckSurrogate M' (top.X k) = .ok r) : r = (top.y k, 0) := by
  obtain ⟨hne, hf, _⟩ := fit_given hl hg h
  have hnest : ∀ l ∈ (top :: rest).reverse, CkNested top l := by
    intro l hl'
    rw [List.mem_reverse] at hl'
    rcases List.mem_cons.mp hl' with rfl | hr
    · exact nested_refl _
    · have : Trans (CkNested (d := d)) CkNested CkNested := ⟨nested_trans⟩
      exact List.rel_of_pairwise_cons (List.isChain_iff_pairwise.mp hn) hr
  have hlast : ((top :: rest).reverse).getLast hne = top := by
    rw [List.getLast_reverse]
    rfl
  unfold ckSurrogate at hp
  split at hp
  · cases hp
  rename_i q hq
  cases hp
  have key : q = (top.y k, 0) := by
    unfold ckPredict at hq
    generalize (top :: rest).reverse = ls at *
    cases ls with
    | nil => exact absurd rfl hne
    | cons l ls =>
      obtain ⟨L, Ls, e, hL, hf'⟩ := hf
      rw [e] at hq
      simp only at hq
      split at hq
      · cases hq
      rename_i b hb
      obtain ⟨h2, e2⟩ := hnest l (by simp)
      refine upto_sample top k ls l Ls b q hf' hnest (fun h => ?_) hq hlast
      rw [← e2 k] at hb
      exact low_sample hL _ hb
  rw [key]
  simp

theorem up_append (x : Fin d → ℝ) : ∀ (Ls : List (CkFitted d)) (L : CkFitted d) (b r : ℝ × ℝ), ckUp x (Ls ++ [L]) b = .ok r → ∃ s, ckUp x Ls b = .ok s ∧ L.up x s = .ok r := by
  intro Ls
  induction Ls with
  | nil =>
    intro L b r h
    simp only [List.nil_append, ckUp] at h ⊢
    split at h
    · cases h
    · rename_i r' hr'
      exact ⟨b, rfl, by rw [hr']; exact h⟩
  | cons A Ls ih =>
    intro L b r h
    simp only [List.cons_append, ckUp] at h ⊢
    split at h
    · cases h
    · exact ih L _ r h

theorem predict_append (M : CkModel d) {Ls : List (CkFitted d)} (hne : Ls ≠ []) {L : CkFitted d} (hM : M.fitted = Ls ++ [L]) {x : Fin d → ℝ} {r : ℝ × ℝ} (h : ckPredict M x = .ok r) :
    ∃ s, ckPredict { M with fitted := Ls } x = .ok s ∧ L.up x s = .ok r := by
  cases Ls with
  | nil => exact absurd rfl hne
  | cons A Ls =>
    unfold ckPredict at h ⊢
    rw [hM] at h
    simp only [List.cons_append] at h ⊢
    split at h
    · cases h
    · exact up_append x Ls L _ r h

theorem fitted_snoc {nug : ℝ} {regr rho : CkRegr d} : ∀ (ls : List (CkLevel d)) (prev : Option (CkLevel d)) (l top : CkLevel d) (Ls : List (CkFitted d)), FittedOf nug regr rho prev (ls ++ [l, top]) Ls →
    ∃ Ls' L, Ls = Ls' ++ [L] ∧ LevelOf nug regr rho (some l) top L ∧ FittedOf nug regr rho prev (ls ++ [l]) Ls' := by
  intro ls
  induction ls with
  | nil =>
    intro prev l top Ls h
    obtain ⟨A, Ls', rfl, hA, B, Ls'', rfl, hB, rfl⟩ := h
    exact ⟨[A], B, rfl, hB, A, [], rfl, hA, rfl⟩
  | cons a ls ih =>
    intro prev l top Ls h
    obtain ⟨A, Ls', rfl, hA, h'⟩ := h
    obtain ⟨Ls'', L, rfl, hL, h''⟩ := ih (some a) l top Ls' h'
    exact ⟨A :: Ls'', L, rfl, hL, A, Ls'', rfl, hA, h''⟩

theorem row_dot (L : CkFitted d) (b : ℝ) (x : Fin d → ℝ) (beta : Fin (L.D.q + L.D.p) → ℝ) :
    L.row b x ⬝ᵥ beta = (∑ a, L.D.g x a * beta (Fin.castAdd _ a)) * b + ∑ c, L.D.f x c * beta (Fin.natAdd _ c) := by
  simp only [dotProduct, CkFitted.row, Fin.sum_univ_add, Fin.append_left, Fin.append_right, Finset.sum_mul]
  congr 1
  exact Finset.sum_congr rfl fun a _ => by ring

theorem R_mulVec (nug : ℝ) (X : Fin n → Fin d → ℝ) (theta : Fin d → ℝ) (w : Fin n → ℝ) (j : Fin n) :
    (ckR nug X theta).mulVec w j = ∑ i, w i * ckCorr theta (ckDist (X j) (X i)) + nug * w j := by
  have : ∀ i, ((if j = i then nug else 0) + kern theta (X j) (X i)) * w i = w i * ckCorr theta (ckDist (X j) (X i)) + if j = i then nug * w i else 0 := by
    intro i
    rw [corr_kern]
    split <;> ring
  simp only [Matrix.mulVec, dotProduct, R_entry, this, Finset.sum_add_distrib, Finset.sum_ite_eq, Finset.mem_univ, if_true]

/-- C132, with the nugget: the prediction is a multiple (by a combination of the functions `rho_regr`) of the prediction of the levels below, plus a combination of the functions `regr`, plus a combination of the correlations with the samples; and with the same
coefficients the observed values are the same expression, with the values observed at the level below, plus the nugget times the coefficient of the sample. So at a sample the prediction is off by that and by the multiple of the error of the levels below. -/
theorem C132_form_partial (lib : CkLib) (hl : lib.Exact) (nug : ℝ) (hnug : 0 < nug) (M M' : CkModel d) (top next : CkLevel d) (rest : List (CkLevel d)) (hg : M.theta.Given) (h : ckTrain lib nug M (top :: next :: rest) = .ok M') :
    ∃ (hn : top.n ≤ next.n) (theta : Fin d → ℝ) (a : Fin M.rho.p → ℝ) (c : Fin M.regr.p → ℝ) (w : Fin top.n → ℝ),
      (∀ x r, ckPredict M' x = .ok r → ∃ s, ckPredict { M' with fitted := M'.fitted.dropLast } x = .ok s ∧
        r.1 = (∑ i, M.rho.f x i * a i) * s.1 + ∑ i, M.regr.f x i * c i + ∑ i, w i * ckCorr theta (ckDist x (top.X i))) ∧
      (∀ j, top.y j = (∑ i, M.rho.f (top.X j) i * a i) * next.y ⟨next.n - top.n + j, by omega⟩ + ∑ i, M.regr.f (top.X j) i * c i + ∑ i, w i * ckCorr theta (ckDist (top.X j) (top.X i)) + nug * w j) ∧
      ∀ j r, ckPredict M' (top.X j) = .ok r → ∃ s, ckPredict { M' with fitted := M'.fitted.dropLast } (top.X j) = .ok s ∧
        r.1 - top.y j = (∑ i, M.rho.f (top.X j) i * a i) * (s.1 - next.y ⟨next.n - top.n + j, by omega⟩) - nug * w j := by
  obtain ⟨hne, hf, _⟩ := fit_given hl hg h
  have e : (top :: next :: rest).reverse = rest.reverse ++ [next, top] := by simp
  rw [e] at hf
  obtain ⟨Ls, L, hLs, hL, hf'⟩ := fitted_snoc _ _ _ _ _ hf
  have hLne : Ls ≠ [] := by
    rintro rfl
    cases hr : rest.reverse with
    | nil =>
      rw [hr] at hf'
      obtain ⟨_, _, e, _⟩ := hf'
      cases e
    | cons =>
      rw [hr] at hf'
      obtain ⟨_, _, e, _⟩ := hf'
      cases e
  have hd : M'.fitted.dropLast = Ls := by rw [hLs, List.dropLast_concat]
  rw [hd]
  obtain ⟨D, theta, par⟩ := L
  obtain ⟨hn, hD⟩ := hL.next next rfl
  obtain rfl : D = _ := hD
  obtain ⟨P, hP⟩ := Option.ne_none_iff_exists'.mp (hL.some hnug)
  have ht := hL.trained P hP
  obtain ⟨w, hw⟩ : ∃ w : Fin top.n → ℝ, w = (ckR nug top.X theta)⁻¹.mulVec ((ckDesign M.regr M.rho top (some (ckLast next top.n hn))).lvl.y - (ckDesign M.regr M.rho top (some (ckLast next top.n hn))).F.mulVec P.beta) := ⟨_, rfl⟩
  have main : (∀ x r, ckPredict M' x = .ok r → ∃ s, ckPredict { M' with fitted := Ls } x = .ok s ∧
        r.1 = (∑ i, M.rho.f x i * P.beta (Fin.castAdd _ i)) * s.1 + ∑ i, M.regr.f x i * P.beta (Fin.natAdd _ i) +
          ∑ i, w i * ckCorr theta (ckDist x (top.X i))) ∧
      (∀ j, top.y j = (∑ i, M.rho.f (top.X j) i * P.beta (Fin.castAdd _ i)) * next.y ⟨next.n - top.n + j, by omega⟩ + ∑ i, M.regr.f (top.X j) i * P.beta (Fin.natAdd _ i) +
          ∑ i, w i * ckCorr theta (ckDist (top.X j) (top.X i)) +
          nug * w j) := by
    refine ⟨fun x r hr => ?_, fun j => ?_⟩
    · obtain ⟨s, hs, hu⟩ := predict_append M' hLne hLs hr
      rw [up_eq ht] at hu
      cases hu
      refine ⟨s, hs, ?_⟩
      simp only
      rw [row_dot, dotProduct_comm (CkFitted.r _ x), hw]
      rfl
    · rw [add_assoc _ (∑ i, _ * ckCorr _ _), ← R_mulVec]
      have hw' : (ckR nug top.X theta).mulVec w j = top.y j - (ckDesign M.regr M.rho top (some (ckLast next top.n hn))).F.mulVec P.beta j := by
        rw [hw]
        exact data_eq ht j
      rw [hw']
      have := row_dot (⟨ckDesign M.regr M.rho top (some (ckLast next top.n hn)), theta, par⟩ : CkFitted d) (ckLast next top.n hn j) (top.X j) P.beta
      have e2 : (ckDesign M.regr M.rho top (some (ckLast next top.n hn))).F.mulVec P.beta j = CkFitted.row (⟨ckDesign M.regr M.rho top (some (ckLast next top.n hn)), theta, par⟩ : CkFitted d) (ckLast next top.n hn j) (top.X j) ⬝ᵥ P.beta := rfl
      rw [e2, this]
      exact sum_back (top.y j) _ _
  refine ⟨hn, theta, _, _, _, main.1, main.2, fun j r hr => ?_⟩
  obtain ⟨s, hs, e⟩ := main.1 _ _ hr
  refine ⟨s, hs, ?_⟩
  rw [e]
  have := main.2 j
  linarith

/-- The best linear unbiased predictor. -/
theorem blup {R : Matrix (Fin n) (Fin n) ℝ} {F : Matrix (Fin n) (Fin m) ℝ} {N : Matrix (Fin m) (Fin m) ℝ} (hR : R.transpose = R) (hu : IsUnit R.det) (hN : N = F.transpose * R⁻¹ * F) (hNu : IsUnit N.det)
    (hq : ∀ v : Fin n → ℝ, 0 ≤ v ⬝ᵥ R.mulVec v) (r : Fin n → ℝ) (f : Fin m → ℝ) (y : Fin n → ℝ) :
    ∃ w : Fin n → ℝ, F.transpose.mulVec w = f ∧
      f ⬝ᵥ N⁻¹.mulVec (F.transpose.mulVec (R⁻¹.mulVec y)) + r ⬝ᵥ R⁻¹.mulVec (y - F.mulVec (N⁻¹.mulVec (F.transpose.mulVec (R⁻¹.mulVec y)))) = w ⬝ᵥ y ∧
      1 - r ⬝ᵥ R⁻¹.mulVec r + (f - F.transpose.mulVec (R⁻¹.mulVec r)) ⬝ᵥ N⁻¹.mulVec (f - F.transpose.mulVec (R⁻¹.mulVec r)) = errVar R r w ∧
      ∀ w', F.transpose.mulVec w' = f → errVar R r w ≤ errVar R r w' := by
  have hRi : R⁻¹.transpose = R⁻¹ := by rw [Matrix.transpose_nonsing_inv, hR]
  have hNs : N.transpose = N := by
    rw [hN, Matrix.transpose_mul, Matrix.transpose_mul, hRi, Matrix.transpose_transpose, Matrix.mul_assoc]
  have hNi : N⁻¹.transpose = N⁻¹ := by rw [Matrix.transpose_nonsing_inv, hNs]
  have sym : ∀ {k : Nat} {A : Matrix (Fin k) (Fin k) ℝ}, A.transpose = A → ∀ a b : Fin k → ℝ, a ⬝ᵥ A.mulVec b = A.mulVec a ⬝ᵥ b := by
    intro k A hA a b
    rw [Matrix.dotProduct_mulVec, ← Matrix.mulVec_transpose, hA]
  have tr : ∀ (a : Fin m → ℝ) (b : Fin n → ℝ), a ⬝ᵥ F.transpose.mulVec b = F.mulVec a ⬝ᵥ b := by
    intro a b
    rw [Matrix.dotProduct_mulVec, Matrix.vecMul_transpose]
  obtain ⟨s, hs⟩ : ∃ s, s = R⁻¹.mulVec r := ⟨_, rfl⟩
  obtain ⟨v, hv⟩ : ∃ v, v = f - F.transpose.mulVec s := ⟨_, rfl⟩
  obtain ⟨z, hz⟩ : ∃ z, z = N⁻¹.mulVec v := ⟨_, rfl⟩
  obtain ⟨w, hw⟩ : ∃ w, w = s + R⁻¹.mulVec (F.mulVec z) := ⟨_, rfl⟩
  have hRs : R.mulVec s = r := by rw [hs, Matrix.mulVec_mulVec, Matrix.mul_nonsing_inv _ hu, Matrix.one_mulVec]
  have hFF : F.transpose.mulVec (R⁻¹.mulVec (F.mulVec z)) = v := by
    rw [Matrix.mulVec_mulVec, Matrix.mulVec_mulVec, ← hN, hz, Matrix.mulVec_mulVec, Matrix.mul_nonsing_inv _ hNu, Matrix.one_mulVec]
  have h1 : F.transpose.mulVec w = f := by
    rw [hw, Matrix.mulVec_add, hFF, hv]
    abel
  have hRw : R.mulVec w = r + F.mulVec z := by
    rw [hw, Matrix.mulVec_add, hRs, Matrix.mulVec_mulVec, Matrix.mul_nonsing_inv _ hu, Matrix.one_mulVec]
  rw [← hs, ← hv, ← hz]
  have hwr : w ⬝ᵥ r = r ⬝ᵥ s + F.transpose.mulVec s ⬝ᵥ z := by
    rw [hw, add_dotProduct, dotProduct_comm s r, dotProduct_comm _ r, sym hRi, ← hs, dotProduct_comm (F.transpose.mulVec s) z, tr, dotProduct_comm s]
  have hev : errVar R r w = 1 - r ⬝ᵥ s + v ⬝ᵥ z := by
    have e : w ⬝ᵥ F.mulVec z = f ⬝ᵥ z := by rw [dotProduct_comm, ← tr, h1, dotProduct_comm]
    rw [errVar, hRw, dotProduct_add, e, hwr, hv, sub_dotProduct]
    ring
  refine ⟨w, h1, ?_, hev.symm, fun w' h' => ?_⟩
  · obtain ⟨b, hb⟩ : ∃ b, b = N⁻¹.mulVec (F.transpose.mulVec (R⁻¹.mulVec y)) := ⟨_, rfl⟩
    have e1 : R⁻¹.mulVec (F.mulVec z) ⬝ᵥ y = v ⬝ᵥ b := by
      rw [← sym hRi, ← tr, hz, ← sym hNi, ← hb]
    rw [← hb, hw, add_dotProduct, e1, hv, sub_dotProduct, Matrix.mulVec_sub, dotProduct_sub, sym hRi, ← hs, sym hRi, ← hs, dotProduct_comm (F.transpose.mulVec s) b, tr, dotProduct_comm s (F.mulVec b)]
    ring
  · have e : errVar R r w' = errVar R r w + (w' - w) ⬝ᵥ R.mulVec (w' - w) := by
      have c1 : w' ⬝ᵥ R.mulVec w = w' ⬝ᵥ r + f ⬝ᵥ z := by
        rw [hRw, dotProduct_add, dotProduct_comm w' (F.mulVec z), ← tr, h', dotProduct_comm z]
      have c2 : w ⬝ᵥ R.mulVec w = w ⬝ᵥ r + f ⬝ᵥ z := by
        rw [hRw, dotProduct_add, dotProduct_comm w (F.mulVec z), ← tr, h1, dotProduct_comm z]
      have c3 : w ⬝ᵥ R.mulVec w' = w' ⬝ᵥ R.mulVec w := by rw [sym hR, dotProduct_comm]
      rw [errVar, errVar, Matrix.mulVec_sub, sub_dotProduct, dotProduct_sub, dotProduct_sub, c3, c1, c2]
      ring
    rw [e]
    linarith [hq (w' - w)]

theorem R_quad_nonneg {nug : ℝ} {L : CkFitted d} {P : CkPar L.D.lvl.n (L.D.q + L.D.p)} (h : Trained nug L P) (v : Fin L.D.lvl.n → ℝ) : 0 ≤ v ⬝ᵥ (ckR nug L.D.lvl.X L.theta).mulVec v := by
  have e := dot_mul P.C.transpose v v
  rw [Matrix.transpose_transpose, h.chol.prod] at e
  rw [← e]
  exact Finset.sum_nonneg fun i _ => mul_self_nonneg _

theorem gram_unit {nug : ℝ} {L : CkFitted d} {P : CkPar L.D.lvl.n (L.D.q + L.D.p)} (h : Trained nug L P) : IsUnit (P.G.transpose * P.G).det := by
  rw [Matrix.det_mul, Matrix.det_transpose]
  exact h.unit.mul h.unit

theorem gram_nonneg {nug : ℝ} {L : CkFitted d} {P : CkPar L.D.lvl.n (L.D.q + L.D.p)} (_h : Trained nug L P) (v : Fin (L.D.q + L.D.p) → ℝ) : 0 ≤ v ⬝ᵥ (P.G.transpose * P.G)⁻¹.mulVec v := by
  have e := dot_mul P.G.transpose⁻¹ v v
  rw [Matrix.transpose_nonsing_inv, Matrix.transpose_transpose, ← Matrix.mul_inv_rev] at e
  rw [← e]
  exact Finset.sum_nonneg fun i _ => mul_self_nonneg _

theorem one_sub_nonneg {nug : ℝ} (hnug : 0 ≤ nug) {L : CkFitted d} {P : CkPar L.D.lvl.n (L.D.q + L.D.p)} (h : Trained nug L P) (ht : ∀ k, 0 < L.theta k) (x : Fin d → ℝ) :
    0 ≤ 1 - L.r x ⬝ᵥ (ckR nug L.D.lvl.X L.theta)⁻¹.mulVec (L.r x) := by
  have e := errVar_ge nug L.D.lvl.X (fun k => (ht k).le) x ((ckR nug L.D.lvl.X L.theta)⁻¹.mulVec (L.r x))
  have e2 : (fun k => ckCorr L.theta (ckDist x (L.D.lvl.X k))) = L.r x := rfl
  rw [e2, errVar, Matrix.mulVec_mulVec, Matrix.mul_nonsing_inv _ (chol_unit h.chol), Matrix.one_mulVec, dotProduct_comm _ (L.r x)] at e
  have e3 : 0 ≤ (ckR nug L.D.lvl.X L.theta)⁻¹.mulVec (L.r x) ⬝ᵥ (ckR nug L.D.lvl.X L.theta)⁻¹.mulVec (L.r x) := Finset.sum_nonneg fun i _ => mul_self_nonneg _
  nlinarith [mul_nonneg hnug e3]

theorem low_nonneg {nug : ℝ} (hnug : 0 ≤ nug) {L : CkFitted d} {P : CkPar L.D.lvl.n (L.D.q + L.D.p)} (h : Trained nug L P) (ht : ∀ k, 0 < L.theta k) {x : Fin d → ℝ} {r : ℝ × ℝ} (hr : L.low x = .ok r) : 0 ≤ r.2 := by
  rw [low_eq h] at hr
  cases hr
  exact mul_nonneg h.spos.le (add_nonneg (one_sub_nonneg hnug h ht x) (gram_nonneg h _))

theorem up_nonneg {nug : ℝ} (hnug : 0 ≤ nug) {L : CkFitted d} {P : CkPar L.D.lvl.n (L.D.q + L.D.p)} (h : Trained nug L P) (ht : ∀ k, 0 < L.theta k) {x : Fin d → ℝ} {b r : ℝ × ℝ} (hb : 0 ≤ b.2) (hr : L.up x b = .ok r) :
    0 ≤ r.2 := by
  rw [up_eq h] at hr
  cases hr
  have hrho : 0 ≤ ∑ a, ∑ c, L.D.g x a * (P.sigma2 * (P.G.transpose * P.G)⁻¹ (Fin.castAdd L.D.p a) (Fin.castAdd L.D.p c) + P.beta (Fin.castAdd _ a) * P.beta (Fin.castAdd _ c)) * L.D.g x c := by
    have g1 := gram_nonneg h (Fin.append (L.D.g x) fun _ => 0)
    have e1 : (Fin.append (L.D.g x) fun _ => 0) ⬝ᵥ (P.G.transpose * P.G)⁻¹.mulVec (Fin.append (L.D.g x) fun _ => 0) = ∑ a, ∑ c, L.D.g x a * (P.G.transpose * P.G)⁻¹ (Fin.castAdd L.D.p a) (Fin.castAdd L.D.p c) * L.D.g x c := by
      simp only [dotProduct, Matrix.mulVec, Fin.sum_univ_add, Fin.append_left, Fin.append_right, mul_zero, zero_mul, Finset.sum_const_zero, add_zero, Finset.mul_sum, mul_assoc]
    have e2 : ∑ a, ∑ c, L.D.g x a * (P.sigma2 * (P.G.transpose * P.G)⁻¹ (Fin.castAdd L.D.p a) (Fin.castAdd L.D.p c) + P.beta (Fin.castAdd _ a) * P.beta (Fin.castAdd _ c)) * L.D.g x c =
        P.sigma2 * (∑ a, ∑ c, L.D.g x a * (P.G.transpose * P.G)⁻¹ (Fin.castAdd L.D.p a) (Fin.castAdd L.D.p c) * L.D.g x c) + (∑ a, L.D.g x a * P.beta (Fin.castAdd L.D.p a)) ^ 2 := by
      rw [sq, Finset.sum_mul_sum, Finset.mul_sum, ← Finset.sum_add_distrib]
      refine Finset.sum_congr rfl fun a _ => ?_
      rw [Finset.mul_sum, ← Finset.sum_add_distrib]
      exact Finset.sum_congr rfl fun c _ => by ring
    rw [e2]
    rw [e1] at g1
    exact add_nonneg (mul_nonneg h.spos.le g1) (sq_nonneg _)
  exact add_nonneg (add_nonneg (mul_nonneg hrho hb) (mul_nonneg (half_pos h.spos).le (one_sub_nonneg hnug h ht x))) (mul_nonneg h.spos.le (gram_nonneg h _))

theorem upto_nonneg {nug : ℝ} (hnug : 0 ≤ nug) {regr rho : CkRegr d} (x : Fin d → ℝ) : ∀ (ls : List (CkLevel d)) (prev : Option (CkLevel d)) (Ls : List (CkFitted d)) (b r : ℝ × ℝ), FittedOf nug regr rho prev ls Ls → 0 ≤ b.2 → ckUp x Ls b = .ok r → 0 ≤ r.2 := by
  intro ls
  induction ls with
  | nil =>
    intro prev Ls b r hf hb hr
    simp only [FittedOf] at hf
    subst hf
    simp only [ckUp] at hr
    cases hr
    exact hb
  | cons l ls ih =>
    intro prev Ls b r hf hb hr
    obtain ⟨L, Ls', rfl, hL, hf'⟩ := hf
    simp only [ckUp] at hr
    split at hr
    · cases hr
    rename_i r' hr'
    refine ih (some l) Ls' r' r hf' ?_ hr
    cases hp : L.par with
    | none => simp [CkFitted.up, hp] at hr'
    | some P => exact up_nonneg hnug (hL.trained P hp) hL.theta hb hr'

/-- C133: with given correlation parameters the estimated mean squared error is never negative, at any point and for any number of levels; so taking its absolute value before the square root changes nothing. -/
theorem C133_nonneg_partial (lib : CkLib) (hl : lib.Exact) (nug : ℝ) (hnug : 0 ≤ nug) (M M' : CkModel d) (levels : List (CkLevel d)) (hg : M.theta.Given) (h : ckTrain lib nug M levels = .ok M') (x : Fin d → ℝ) :
    (∀ r, ckPredict M' x = .ok r → 0 ≤ r.2) ∧ ∀ r, ckSurrogate M' x = .ok r → ckPredict M' x = .ok (r.1, r.2 ^ 2) := by
  obtain ⟨hne, hf, _⟩ := fit_given hl hg h
  have key : ∀ r, ckPredict M' x = .ok r → 0 ≤ r.2 := by
    intro r hr
    generalize levels.reverse = ls at *
    cases ls with
    | nil => exact absurd rfl hne
    | cons l ls =>
      obtain ⟨L, Ls, e, hL, hf'⟩ := hf
      unfold ckPredict at hr
      rw [e] at hr
      simp only at hr
      split at hr
      · cases hr
      rename_i b hb
      refine upto_nonneg hnug x ls _ Ls b r hf' ?_ hr
      cases hp : L.par with
      | none => simp [CkFitted.low, hp] at hb
      | some P => exact low_nonneg hnug (hL.trained P hp) hL.theta hb
  refine ⟨key, fun r hr => ?_⟩
  unfold ckSurrogate at hr
  split at hr
  · cases hr
  rename_i q hq
  cases hr
  have := key q hq
  rw [hq]
  simp [abs_of_nonneg this, Real.sq_sqrt this]

theorem upto_total {nug : ℝ} (hnug : 0 < nug) {regr rho : CkRegr d} (x : Fin d → ℝ) : ∀ (ls : List (CkLevel d)) (prev : Option (CkLevel d)) (Ls : List (CkFitted d)) (b : ℝ × ℝ), FittedOf nug regr rho prev ls Ls → ∃ r, ckUp x Ls b = .ok r := by
  intro ls
  induction ls with
  | nil =>
    intro prev Ls b hf
    simp only [FittedOf] at hf
    subst hf
    exact ⟨b, rfl⟩
  | cons l ls ih =>
    intro prev Ls b hf
    obtain ⟨L, Ls', rfl, hL, hf'⟩ := hf
    obtain ⟨P, hP⟩ := Option.ne_none_iff_exists'.mp (hL.some hnug)
    simp only [ckUp, up_eq (hL.trained P hP)]
    exact ih _ _ _ hf'

/-- C133: with a positive nugget a surrogate that was trained with given parameters predicts at every point. -/
theorem C133_total_partial (lib : CkLib) (hl : lib.Exact) (nug : ℝ) (hnug : 0 < nug) (M M' : CkModel d) (levels : List (CkLevel d)) (hg : M.theta.Given) (h : ckTrain lib nug M levels = .ok M') (x : Fin d → ℝ) :
    ∃ r, ckSurrogate M' x = .ok r := by
  obtain ⟨hne, hf, _⟩ := fit_given hl hg h
  generalize levels.reverse = ls at *
  cases ls with
  | nil => exact absurd rfl hne
  | cons l ls =>
    obtain ⟨L, Ls, e, hL, hf'⟩ := hf
    obtain ⟨P, hP⟩ := Option.ne_none_iff_exists'.mp (hL.some hnug)
    obtain ⟨r, hr⟩ := upto_total hnug x ls _ Ls (_, _) hf'
    refine ⟨(r.1, Real.sqrt |r.2|), ?_⟩
    unfold ckSurrogate ckPredict
    rw [e]
    simp only [low_eq (hL.trained P hP)]
    rw [hr]

/-- C134: with one level of fidelity and given parameters the prediction is the best linear unbiased one: a linear combination of the observed values that reproduces the functions of the regression, and no other such combination has an error of smaller variance;
the estimated mean squared error is that variance times one positive number for all points, the variance of the process. -/
theorem C134_blup_partial (lib : CkLib) (hl : lib.Exact) (nug : ℝ) (hnug : 0 < nug) (M M' : CkModel d) (l : CkLevel d) (hg : M.theta.Given) (h : ckTrain lib nug M [l] = .ok M') :
    ∃ (sigma2 : ℝ) (theta : Fin d → ℝ), 0 < sigma2 ∧ (∀ k, 0 < theta k) ∧ ∀ x r, ckPredict M' x = .ok r → ∃ w : Fin l.n → ℝ, Unbiased M.regr l.X x w ∧ r.1 = ∑ k, w k * l.y k ∧
      r.2 = sigma2 * errVar (ckR nug l.X theta) (fun k => ckCorr theta (ckDist x (l.X k))) w ∧
      ∀ w', Unbiased M.regr l.X x w' → errVar (ckR nug l.X theta) (fun k => ckCorr theta (ckDist x (l.X k))) w ≤ errVar (ckR nug l.X theta) (fun k => ckCorr theta (ckDist x (l.X k))) w' := by
  obtain ⟨hne, hf, _⟩ := fit_given hl hg h
  obtain ⟨L, Ls, e, hL, hf'⟩ := hf
  simp only [FittedOf] at hf'
  subst hf'
  obtain ⟨D, theta, par⟩ := L
  obtain rfl : D = _ := hL.first rfl
  obtain ⟨P, hP⟩ := Option.ne_none_iff_exists'.mp (hL.some hnug)
  have ht := hL.trained P hP
  refine ⟨P.sigma2, theta, ht.spos, hL.theta, fun x r hr => ?_⟩
  unfold ckPredict at hr
  rw [e] at hr
  simp only [low_eq ht, ckUp] at hr
  cases hr
  obtain ⟨w, h1, h2, h3, h4⟩ := blup (R_symm nug l.X theta) (chol_unit ht.chol) ht.gram (gram_unit ht) (R_quad_nonneg ht) (CkFitted.r ⟨_, theta, par⟩ x) (CkFitted.row ⟨ckDesign M.regr M.rho l none, theta, par⟩ 0 x) l.y
  have hub : ∀ w : Fin l.n → ℝ, (ckDesign M.regr M.rho l none).F.transpose.mulVec w = CkFitted.row ⟨ckDesign M.regr M.rho l none, theta, par⟩ 0 x ↔ Unbiased M.regr l.X x w := by
    intro w
    have hc : ∀ b : Fin M.regr.p, (ckDesign M.regr M.rho l none).F.transpose.mulVec w (Fin.natAdd 0 b) = ∑ k, w k * M.regr.f (l.X k) b := by
      intro b
      show (∑ k : Fin l.n, (ckDesign M.regr M.rho l none).F.transpose (Fin.natAdd 0 b) k * w k) = _
      refine Finset.sum_congr rfl fun k _ => ?_
      have : (ckDesign M.regr M.rho l none).F.transpose (Fin.natAdd 0 b) k = M.regr.f (l.X k) b := Fin.append_right (fun a : Fin 0 => (a.elim0 : ℝ)) (M.regr.f (l.X k)) b
      rw [this, mul_comm]
    have hr : ∀ b : Fin M.regr.p, CkFitted.row ⟨ckDesign M.regr M.rho l none, theta, par⟩ 0 x (Fin.natAdd 0 b) = M.regr.f x b := fun b => Fin.append_right _ _ _
    constructor
    · intro hw b
      rw [← hc b, hw, hr b]
    · intro hw
      funext b
      refine Fin.addCases (fun a => a.elim0) (fun b => ?_) b
      exact (hc b).trans ((hw b).trans (hr b).symm)
  refine ⟨w, (hub w).mp h1, ?_, ?_, fun w' hw' => h4 w' ((hub w').mpr hw')⟩
  · simp only
    rw [ht.beta]
    exact h2
  · exact congrArg _ h3

theorem app_right {a b : Nat} (u : Fin a → ℝ) (v f : Fin b → ℝ) : ∑ i, f i * Fin.append u v (Fin.natAdd a i) = ∑ i, f i * v i := by
  simp only [Fin.append_right]

theorem app_both {a b : Nat} (u g : Fin a → ℝ) (v f : Fin b → ℝ) (z : ℝ) : (∑ i, g i * Fin.append u v (Fin.castAdd b i)) * z + ∑ i, f i * Fin.append u v (Fin.natAdd a i) = (∑ i, g i * u i) * z + ∑ i, f i * v i := by
  simp only [Fin.append_right, Fin.append_left]

theorem app_zero {a b : Nat} {u : Fin a → ℝ} {v : Fin b → ℝ} (h : Fin.append u v = 0) : u = 0 ∧ v = 0 := by
  constructor
  · funext i
    have := congrFun h (Fin.castAdd b i)
    rwa [Fin.append_left] at this
  · funext i
    have := congrFun h (Fin.natAdd a i)
    rwa [Fin.append_right] at this

theorem adequate_iff (regr rho : CkRegr d) (l : CkLevel d) (low : Option (Fin l.n → ℝ)) :
    Adequate (ckDesign regr rho l low).F (ckDesign regr rho l low).lvl.y ↔
      (∀ a c, (∀ k, combination regr rho l low a c k = 0) → (low.isSome → a = 0) ∧ c = 0) ∧ ∀ a c, ∃ k, combination regr rho l low a c k ≠ l.y k := by
  cases low with
  | none =>
    have hF : ∀ (v : Fin (0 + regr.p) → ℝ) (k : Fin l.n), (ckDesign regr rho l none).F.mulVec v k = ∑ i, regr.f (l.X k) i * v (Fin.natAdd 0 i) := by
      intro v k
      have := row_dot (⟨ckDesign regr rho l none, fun _ => 0, none⟩ : CkFitted d) 0 (l.X k) v
      rw [mul_zero, zero_add] at this
      refine Eq.trans ?_ this
      refine congrArg (· ⬝ᵥ v) ?_
      show Fin.append (fun a : Fin 0 => (a.elim0 : ℝ)) (regr.f (l.X k)) = Fin.append _ (regr.f (l.X k))
      congr 1
      funext a
      exact a.elim0
    constructor
    · rintro ⟨h1, h2⟩
      refine ⟨fun a c h => ⟨fun e => (by cases e), ?_⟩, fun a c => ?_⟩
      · have := h1 (Fin.append (fun a : Fin 0 => (a.elim0 : ℝ)) c) (by
          funext k
          refine (hF _ k).trans ?_
          exact (app_right _ _ _).trans (h k))
        exact (app_zero this).2
      · by_contra hc
        push Not at hc
        refine h2 (Fin.append (fun a : Fin 0 => (a.elim0 : ℝ)) c) ?_
        funext k
        refine (hF _ k).trans ?_
        exact (app_right _ _ _).trans (hc k)
    · rintro ⟨h1, h2⟩
      refine ⟨fun v hv => ?_, fun v hv => ?_⟩
      · have := (h1 0 (fun i => v (Fin.natAdd 0 i)) (fun k => (hF v k).symm.trans (congrFun hv k))).2
        funext j
        refine Fin.addCases (fun a => a.elim0) (fun i => ?_) j
        exact congrFun this i
      · obtain ⟨k, hk⟩ := h2 0 (fun i => v (Fin.natAdd 0 i))
        exact hk ((hF v k).symm.trans (congrFun hv k))
  | some low =>
    have hF : ∀ (v : Fin (rho.p + regr.p) → ℝ) (k : Fin l.n), (ckDesign regr rho l (some low)).F.mulVec v k =
        (∑ i, rho.f (l.X k) i * v (Fin.castAdd _ i)) * low k + ∑ i, regr.f (l.X k) i * v (Fin.natAdd _ i) :=
      fun v k => row_dot (⟨ckDesign regr rho l (some low), fun _ => 0, none⟩ : CkFitted d) (low k) (l.X k) v
    constructor
    · rintro ⟨h1, h2⟩
      refine ⟨fun a c h => ?_, fun a c => ?_⟩
      · have := h1 (Fin.append a c) (by
          funext k
          refine (hF _ k).trans ?_
          exact (app_both _ _ _ _ _).trans (h k))
        exact ⟨fun _ => (app_zero this).1, (app_zero this).2⟩
      · by_contra hc
        push Not at hc
        refine h2 (Fin.append a c) ?_
        funext k
        refine (hF _ k).trans ?_
        exact (app_both _ _ _ _ _).trans (hc k)
    · rintro ⟨h1, h2⟩
      refine ⟨fun v hv => ?_, fun v hv => ?_⟩
      · obtain ⟨ha, hc⟩ := h1 (fun i => v (Fin.castAdd _ i)) (fun i => v (Fin.natAdd _ i)) (fun k => (hF v k).symm.trans (congrFun hv k))
        funext j
        exact Fin.addCases (fun i => congrFun (ha rfl) i) (fun i => congrFun hc i) j
      · obtain ⟨k, hk⟩ := h2 (fun i => v (Fin.castAdd _ i)) (fun i => v (Fin.natAdd _ i))
        exact hk ((hF v k).symm.trans (congrFun hv k))

theorem distinct_iff {l : CkLevel d} : (¬ ∃ i j : Fin l.n, i < j ∧ ∑ k, ckDist (l.X i) (l.X j) k = 0) ↔ ∀ i j, i ≠ j → l.X i ≠ l.X j := by
  have hz : ∀ x y : Fin d → ℝ, ∑ k, ckDist x y k = 0 ↔ x = y := by
    intro x y
    rw [Finset.sum_eq_zero_iff_of_nonneg fun k _ => abs_nonneg _]
    constructor
    · intro h
      funext k
      exact sub_eq_zero.mp (abs_eq_zero.mp (h k (Finset.mem_univ k)))
    · rintro rfl k _
      simp [ckDist]
  simp only [hz]
  constructor
  · intro h i j hij e
    rcases lt_or_gt_of_ne hij with hlt | hlt
    · exact h ⟨i, j, hlt, e⟩
    · exact h ⟨j, i, hlt, e.symm⟩
  · rintro h ⟨i, j, hij, e⟩
    exact h i j hij.ne e

theorem check_none_iff (regr rho : CkRegr d) (one : Bool) (l : CkLevel d) : (∃ D, ckCheck regr rho one none l = .ok D) ↔ 2 ≤ l.n ∧ (∀ i j, i ≠ j → l.X i ≠ l.X j) ∧ regr.p < l.n := by
  rw [← distinct_iff]
  unfold ckCheck
  constructor
  · rintro ⟨D, h⟩
    split at h
    · cases h
    split at h
    · cases h
    simp only at h
    split at h
    · cases h
    exact ⟨by omega, by assumption, by omega⟩
  · rintro ⟨h1, h2, h3⟩
    rw [if_neg (by omega), if_neg h2]
    simp only
    rw [if_neg (by omega)]
    exact ⟨_, rfl⟩

theorem check_some_iff (regr rho : CkRegr d) (one : Bool) (pl l : CkLevel d) : (∃ D, ckCheck regr rho one (some pl) l = .ok D) ↔ 2 ≤ l.n ∧ (∀ i j, i ≠ j → l.X i ≠ l.X j) ∧ l.n ≤ pl.n ∧ regr.p + rho.p < l.n := by
  rw [← distinct_iff]
  unfold ckCheck
  constructor
  · rintro ⟨D, h⟩
    split at h
    · cases h
    split at h
    · cases h
    simp only at h
    split at h
    · split at h
      · cases h
      exact ⟨by omega, by assumption, by assumption, by omega⟩
    · cases h
  · rintro ⟨h1, h2, h3, h4⟩
    rw [if_neg (by omega), if_neg h2]
    simp only
    rw [dif_pos h3, if_neg (by omega)]
    exact ⟨_, rfl⟩

theorem fitLevel_iff {lib : CkLib} (hl : lib.Exact) {nug : ℝ} (hn : 0 < nug) (i : Nat) {t : List ℝ} (ht : (t.length = 1 ∨ t.length = d) ∧ ∀ v ∈ t, 0 < v) {D : CkDesign d} (hs : D.q + D.p < D.lvl.n) :
    (∃ r, ckFitLevel lib nug i (some t) D = .ok r) ↔ Adequate D.F D.lvl.y := by
  constructor
  · rintro ⟨r, h⟩
    obtain ⟨_, f2, _, f4, f5⟩ := fitLevel_given hl ht.2 hs h
    obtain ⟨P, hP⟩ := Option.ne_none_iff_exists'.mp (f5 hn)
    have := trained_adequate (f4 P hP)
    rwa [f2] at this
  · intro ha
    obtain ⟨th, hth⟩ : ∃ th, ckTheta d t = .ok th := by
      unfold ckTheta
      split
      · exact ⟨_, rfl⟩
      · rename_i h1
        rw [dif_pos (ht.1.resolve_left h1)]
        exact ⟨_, rfl⟩
    obtain ⟨P, v, hr⟩ := rlf_ok hl hn (theta_pos hth ht.2) hs ha
    refine ⟨(t, ⟨D, th, some P⟩), ?_⟩
    unfold ckFitLevel
    simp only [hth, hr]
    rw [if_neg (by simp)]

theorem levels_iff {lib : CkLib} (hl : lib.Exact) {nug : ℝ} (hn : 0 < nug) (regr rho : CkRegr d) (one : Bool) : ∀ (ls : List (CkLevel d)) (prev : Option (CkLevel d)) (i : Nat) (ts : List (List ℝ)), ts.length = ls.length →
    (∀ t ∈ ts, (t.length = 1 ∨ t.length = d) ∧ ∀ v ∈ t, 0 < v) →
    ((∃ Ds, ckDesigns regr rho one prev ls = .ok Ds ∧ ∃ rs, ckFits lib nug i (ts.map some) Ds = .ok rs) ↔ LevelsOk regr rho prev ls) := by
  intro ls
  induction ls with
  | nil =>
    intro prev i ts hlen _
    cases ts with
    | nil => exact ⟨fun _ => by cases prev <;> trivial, fun _ => ⟨[], rfl, [], rfl⟩⟩
    | cons => simp at hlen
  | cons l ls ih =>
    intro prev i ts hlen hts
    cases ts with
    | nil => simp at hlen
    | cons t ts =>
      have ih' := ih (some l) (i + 1) ts (by simpa using hlen) (fun t ht => hts t (by simp [ht]))
      have step : (∃ Ds, ckDesigns regr rho one prev (l :: ls) = .ok Ds ∧ ∃ rs, ckFits lib nug i ((t :: ts).map some) Ds = .ok rs) ↔ (∃ D, ckCheck regr rho one prev l = .ok D ∧ Adequate D.F D.lvl.y) ∧ LevelsOk regr rho (some l) ls := by
        rw [← ih']
        constructor
        · rintro ⟨Ds, h1, rs, h2⟩
          simp only [ckDesigns] at h1
          split at h1
          · cases h1
          rename_i D hD
          split at h1
          · cases h1
          rename_i Ds' hDs
          cases h1
          simp only [List.map_cons, ckFits] at h2
          split at h2
          · cases h2
          rename_i r hr
          split at h2
          · cases h2
          rename_i rs' hrs
          exact ⟨⟨D, hD, (fitLevel_iff hl hn i (hts t (by simp)) (check_ok hD).2.2).mp ⟨r, hr⟩⟩, Ds', hDs, rs', hrs⟩
        · rintro ⟨⟨D, hD, ha⟩, Ds', hDs, rs', hrs⟩
          obtain ⟨r, hr⟩ := (fitLevel_iff hl hn i (hts t (by simp)) (check_ok hD).2.2).mpr ha
          refine ⟨D :: Ds', by simp only [ckDesigns, hD, hDs], r :: rs', by simp only [List.map_cons, ckFits, hr, hrs]⟩
      rw [step]
      cases prev with
      | none =>
        simp only [LevelsOk]
        refine and_congr_left fun _ => ⟨?_, ?_⟩
        · rintro ⟨D, hD, ha⟩
          obtain ⟨c1, c2, c3⟩ := (check_none_iff regr rho one l).mp ⟨D, hD⟩
          obtain rfl := (check_ok hD).1 rfl
          obtain ⟨a1, a2⟩ := (adequate_iff regr rho l none).mp ha
          exact ⟨c1, c2, by simpa using c3, a1, a2⟩
        · intro h
          obtain ⟨D, hD⟩ := (check_none_iff regr rho one l).mpr ⟨h.two, h.distinct, by simpa using h.size⟩
          refine ⟨D, hD, ?_⟩
          obtain rfl := (check_ok hD).1 rfl
          exact (adequate_iff regr rho l none).mpr ⟨h.determined, h.notExact⟩
      | some pl =>
        simp only [LevelsOk]
        refine and_congr_left fun _ => ⟨?_, ?_⟩
        · rintro ⟨D, hD, ha⟩
          obtain ⟨c1, c2, c3, c4⟩ := (check_some_iff regr rho one pl l).mp ⟨D, hD⟩
          obtain ⟨hn', rfl⟩ := (check_ok hD).2.1 pl rfl
          obtain ⟨a1, a2⟩ := (adequate_iff regr rho l _).mp ha
          exact ⟨c3, c1, c2, by simpa using c4, a1, a2⟩
        · rintro ⟨hle, h⟩
          obtain ⟨D, hD⟩ := (check_some_iff regr rho one pl l).mpr ⟨h.two, h.distinct, hle, by simpa using h.size⟩
          refine ⟨D, hD, ?_⟩
          obtain ⟨hn', rfl⟩ := (check_ok hD).2.1 pl rfl
          exact (adequate_iff regr rho l _).mpr ⟨h.determined, h.notExact⟩

theorem expand_len {th : CkTheta} {n : Nat} {ts : List (Option (List ℝ))} (h : th.expand n = .ok ts) : ts.length = n := by
  cases th with
  | all t =>
    simp only [CkTheta.expand] at h
    cases h
    simp
  | levels l =>
    simp only [CkTheta.expand] at h
    split at h
    · cases h
      assumption
    · cases h

/-- C136: with given parameters and a positive nugget training succeeds exactly for data that satisfy `LevelsOk`; nothing else about the data matters, in particular not the Cholesky decomposition. -/
theorem C136_trains_iff (lib : CkLib) (hl : lib.Exact) (nug : ℝ) (hnug : 0 < nug) (M : CkModel d) (levels : List (CkLevel d)) (hv : M.theta.Valid d levels.length) :
    (∃ M', ckTrain lib nug M levels = .ok M') ↔ levels ≠ [] ∧ LevelsOk M.regr M.rho none levels.reverse := by
  obtain ⟨ts, hts, hok⟩ := hv
  have hlen : ts.length = levels.reverse.length := by simpa using expand_len hts
  rw [← levels_iff hl hnug M.regr M.rho (decide (levels.reverse.length = 1)) levels.reverse none 0 ts hlen hok]
  unfold ckTrain ckFit
  have hexp : M.theta.expand levels.reverse.length = .ok (ts.map some) := by rw [List.length_reverse]; exact hts
  have hpos : ¬ ∃ t ∈ ts.map some, ¬ ckPositive t := by
    rintro ⟨t, ht, hn⟩
    obtain ⟨u, hu, rfl⟩ := List.mem_map.mp ht
    exact hn fun l hl v hv => (hok u hu).2 v (by cases hl; exact hv)
  by_cases hne : levels = []
  · subst hne
    simp
  · rw [if_neg (by simpa using hne)]
    simp only [hexp]
    rw [if_neg hpos]
    constructor
    · rintro ⟨M', h⟩
      split at h
      · cases h
      rename_i Ds hDs
      split at h
      · cases h
      rename_i rs hrs
      exact ⟨hne, Ds, hDs, rs, hrs⟩
    · rintro ⟨_, Ds, hDs, rs, hrs⟩
      simp only [hDs, hrs]
      exact ⟨_, rfl⟩

theorem designs_len {regr rho : CkRegr d} {one : Bool} {levels : List (CkLevel d)} {prev : Option (CkLevel d)} {Ds : List (CkDesign d)} (h : ckDesigns regr rho one prev levels = .ok Ds) : Ds.length = levels.length := by
  induction levels generalizing prev Ds with
  | nil => simp only [ckDesigns] at h; cases h; rfl
  | cons l ls ih =>
    simp only [ckDesigns] at h
    split at h
    · cases h
    split at h
    · cases h
    rename_i Ds' hD'
    cases h
    simp only [List.length_cons, Nat.add_right_cancel_iff]
    exact ih hD'

theorem fit_ok {lib : CkLib} {nug : ℝ} {M M' : CkModel d} {levels : List (CkLevel d)} (h : ckFit lib nug M levels = .ok M') :
    ∃ rs : List (List ℝ × CkFitted d), rs.length = levels.length ∧ M' = ⟨M.regr, M.rho, .levels (rs.map fun r => some r.1), rs.map fun r => r.2⟩ := by
  unfold ckFit at h
  split at h
  · cases h
  split at h
  · cases h
  rename_i ts hts
  split at h
  · cases h
  split at h
  · cases h
  rename_i Ds hDs
  split at h
  · cases h
  rename_i rs hrs
  cases h
  refine ⟨rs, ?_, rfl⟩
  have h1 := designs_len hDs
  have h2 : ∀ (i : Nat) (ts : List (Option (List ℝ))) (Ds : List (CkDesign d)) (rs : List (List ℝ × CkFitted d)), ts.length = Ds.length → ckFits lib nug i ts Ds = .ok rs → rs.length = Ds.length := by
    intro i ts
    induction ts generalizing i with
    | nil =>
      intro Ds rs hl h
      cases Ds with
      | nil => simp only [ckFits] at h; cases h; rfl
      | cons => simp at hl
    | cons t ts ih =>
      intro Ds rs hl h
      cases Ds with
      | nil => simp at hl
      | cons D Ds =>
        simp only [ckFits] at h
        split at h
        · cases h
        split at h
        · cases h
        rename_i rs' hrs'
        cases h
        simp only [List.length_cons, Nat.add_right_cancel_iff]
        exact ih _ Ds rs' (by simpa using hl) hrs'
  rw [h2 0 ts Ds rs (by rw [h1, expand_len hts]) hrs, h1]

theorem rlf_opt (lib : CkLib) (nug : ℝ) (opt' : Nat → (List ℝ → Except CkErr CkVal) → List (List ℝ) × List ℝ) (D : CkDesign d) (theta : Fin d → ℝ) : ckRlf { lib with opt := opt' } nug D theta = ckRlf lib nug D theta := rfl

theorem fitLevel_opt (lib : CkLib) (nug : ℝ) (opt' : Nat → (List ℝ → Except CkErr CkVal) → List (List ℝ) × List ℝ) (i : Nat) (t : List ℝ) (D : CkDesign d) : ckFitLevel { lib with opt := opt' } nug i (some t) D = ckFitLevel lib nug i (some t) D := by
  unfold ckFitLevel
  simp only [rlf_opt]

theorem fits_opt (lib : CkLib) (nug : ℝ) (opt' : Nat → (List ℝ → Except CkErr CkVal) → List (List ℝ) × List ℝ) (ts : List (List ℝ)) : ∀ (i : Nat) (Ds : List (CkDesign d)), ckFits { lib with opt := opt' } nug i (ts.map some) Ds = ckFits lib nug i (ts.map some) Ds := by
  induction ts with
  | nil => intro i Ds; simp only [List.map_nil, ckFits]
  | cons t ts ih =>
    intro i Ds
    cases Ds with
    | nil => simp only [List.map_cons, ckFits]
    | cons D Ds => simp only [List.map_cons, ckFits, ih, fitLevel_opt]

theorem fits_kept (lib : CkLib) (nug : ℝ) (ts : List (List ℝ)) : ∀ (i : Nat) (Ds : List (CkDesign d)) (rs : List (List ℝ × CkFitted d)), ts.length = Ds.length → ckFits lib nug i (ts.map some) Ds = .ok rs → rs.map (fun r => r.1) = ts := by
  induction ts with
  | nil =>
    intro i Ds rs _ h
    simp only [List.map_nil, ckFits] at h
    cases h
    rfl
  | cons t ts ih =>
    intro i Ds rs hl h
    cases Ds with
    | nil => simp at hl
    | cons D Ds =>
      simp only [List.map_cons, ckFits] at h
      split at h
      · cases h
      rename_i r hr
      split at h
      · cases h
      rename_i rs' hrs'
      cases h
      simp only [List.map_cons, List.cons.injEq]
      refine ⟨?_, ih _ _ _ (by simpa using hl) hrs'⟩
      unfold ckFitLevel at hr
      simp only at hr
      split at hr
      · cases hr
      split at hr
      · cases hr
      split at hr
      · cases hr
      cases hr
      rfl

/-- C137: once a surrogate has been trained its correlation parameters stay: another training never consults the optimizer. -/
theorem C137_frozen (lib : CkLib) (nug : ℝ) (M M1 : CkModel d) (levels levels' : List (CkLevel d)) (h : ckTrain lib nug M levels = .ok M1) (opt' : Nat → (List ℝ → Except CkErr CkVal) → List (List ℝ) × List ℝ) :
    ckTrain { lib with opt := opt' } nug M1 levels' = ckTrain lib nug M1 levels' ∧ ∀ M2, ckTrain lib nug M1 levels' = .ok M2 → M2.theta = M1.theta := by
  obtain ⟨rs, hrs, rfl⟩ := fit_ok h
  have he : ∀ n ts, CkTheta.expand n (.levels (rs.map fun r => some r.1)) = .ok ts → ts = (rs.map fun r => r.1).map some := by
    intro n ts hts
    simp only [CkTheta.expand] at hts
    split at hts
    · cases hts
      simp
    · cases hts
  constructor
  · unfold ckTrain ckFit
    simp only
    split
    · rfl
    cases hx : CkTheta.expand levels'.reverse.length (.levels (rs.map fun r => some r.1)) with
    | error e => rfl
    | ok ts =>
      simp only
      split
      · rfl
      rw [he _ _ hx]
      simp only [fits_opt]
  · intro M2 h2
    unfold ckTrain ckFit at h2
    simp only at h2
    split at h2
    · cases h2
    split at h2
    · cases h2
    rename_i ts hts
    split at h2
    · cases h2
    split at h2
    · cases h2
    rename_i Ds hDs
    split at h2
    · cases h2
    rename_i rs' hrs'
    cases h2
    have hl := expand_len hts
    rw [← designs_len hDs] at hl
    rw [he _ _ hts] at hrs' hl
    have := fits_kept lib nug _ 0 Ds rs' (by simpa using hl) hrs'
    show CkTheta.levels _ = CkTheta.levels _
    rw [show (rs'.map fun r => some r.1) = (rs'.map fun r => r.1).map some by simp, this]
    simp

/-- C137: and it can be trained again with the same number of levels only. -/
theorem C137_levels (lib : CkLib) (nug : ℝ) (M M1 : CkModel d) (levels levels' : List (CkLevel d)) (h : ckTrain lib nug M levels = .ok M1) (hne : levels' ≠ []) (hlen : levels'.length ≠ levels.length) : ckTrain lib nug M1 levels' = .error (.py .ValueError) := by
  obtain ⟨rs, hrs, rfl⟩ := fit_ok h
  unfold ckTrain ckFit
  rw [if_neg (by simpa using hne)]
  simp only [CkTheta.expand]
  rw [if_neg (by simp at hrs ⊢; omega)]

/-- C137: with parameters given from the start, training again is the same as training a new surrogate. -/
theorem C137_retrain_partial (lib : CkLib) (hl : lib.Exact) (nug : ℝ) (M M1 : CkModel d) (levels levels' : List (CkLevel d)) (hg : M.theta.Given) (h : ckTrain lib nug M levels = .ok M1) (hlen : levels'.length = levels.length) :
    ckTrain lib nug M1 levels' = ckTrain lib nug M levels' := by
  obtain ⟨_, _, h3, h4, ts, h5, h6⟩ := fit_given hl hg h
  have he : M1.theta.expand levels'.reverse.length = M.theta.expand levels'.reverse.length := by
    rw [h6]
    have : levels'.reverse.length = levels.reverse.length := by simpa using hlen
    rw [this, h5]
    simp only [CkTheta.expand]
    rw [if_pos (expand_len h5)]
  unfold ckTrain ckFit
  rw [he, h3, h4]
/-- Two samples of one input. -/
def twoSamples (a b : ℝ) : CkLevel 1 := ⟨2, fun k _ => (k.val : ℝ), ![a, b]⟩

/-- Three samples of one input. -/
def threeSamples (a b c : ℝ) : CkLevel 1 := ⟨3, fun k _ => (k.val : ℝ), ![a, b, c]⟩

theorem const_zero (c : Fin 1 → ℝ) (h : ∑ i, 1 * c i = 0) : c = 0 := by
  funext i
  rw [Subsingleton.elim i 0]
  simpa using h

theorem const_both (v c : Fin 1 → ℝ) (h0 : (∑ i, 1 * v i) * 0 + ∑ i, 1 * c i = 0) (h1 : (∑ i, 1 * v i) * 1 + ∑ i, 1 * c i = 0) : v = 0 ∧ c = 0 := by
  simp only [Fin.sum_univ_one, one_mul, mul_zero, mul_one, zero_add] at h0 h1
  constructor <;> funext i <;> rw [Subsingleton.elim i 0]
  · simpa [h0] using h1
  · simpa using h0

theorem two_ok {a b : ℝ} (h : a ≠ b) : LevelOk (constantRegr 1) (constantRegr 1) (twoSamples a b) none where
  two := le_rfl
  distinct := by
    intro i j hij e
    exact hij (Fin.ext (Nat.cast_injective (R := ℝ) (congrFun e 0)))
  size := by simp [constantRegr, twoSamples]
  determined := by
    intro v c hc
    refine ⟨fun e => (by cases e), ?_⟩
    exact const_zero c (hc (0 : Fin 2))
  notExact := by
    intro v c
    by_contra hc
    push Not at hc
    have h0 := hc (0 : Fin 2)
    have h1 := hc (1 : Fin 2)
    exact h (h0.symm.trans h1)

theorem three_ok : LevelsOk (constantRegr 1) (constantRegr 1) none [threeSamples 0 1 0, threeSamples 0 0 1] := by
  have hd : ∀ a b c, ∀ i j : Fin (threeSamples a b c).n, i ≠ j → (threeSamples a b c).X i ≠ (threeSamples a b c).X j := by
    intro a b c i j hij e
    exact hij (Fin.ext (Nat.cast_injective (R := ℝ) (congrFun e 0)))
  refine ⟨⟨by decide, hd _ _ _, by simp [constantRegr, threeSamples], ?_, ?_⟩, ⟨le_rfl, ⟨by decide, hd _ _ _, by simp [constantRegr, threeSamples], ?_, ?_⟩⟩, trivial⟩
  · intro v c hc
    refine ⟨fun e => (by cases e), ?_⟩
    exact const_zero c (hc (0 : Fin 3))
  · intro v c
    by_contra hc
    push Not at hc
    have h0 := hc (0 : Fin 3)
    have h1 := hc (1 : Fin 3)
    have : (0 : ℝ) = 1 := h0.symm.trans h1
    norm_num at this
  · intro v c hc
    have h0 := hc (0 : Fin 3)
    have h1 := hc (1 : Fin 3)
    exact (const_both v c h0 h1).imp (fun h _ => h) id
  · intro v c
    by_contra hc
    push Not at hc
    have h0 := hc (0 : Fin 3)
    have h2 := hc (2 : Fin 3)
    have : (0 : ℝ) = 1 := h0.symm.trans h2
    norm_num at this

/-- Parameters for every level. -/
theorem one_valid (n : Nat) : (CkTheta.all (some [1])).Valid 1 n := ⟨List.replicate n [1], by simp [CkTheta.expand], by simp⟩

/-- C136, C132 to C134, C137: there are libraries and data that satisfy all assumptions, with one level and with two levels whose samples are nested. -/
example : ∃ lib : CkLib, lib.Exact ∧ (∃ M', ckTrain lib (1/10) ⟨constantRegr 1, constantRegr 1, .all (some [1]), []⟩ [twoSamples 0 1] = .ok M') ∧
    (∃ M', ckTrain lib (1/10) ⟨constantRegr 1, constantRegr 1, .all (some [1]), []⟩ [threeSamples 0 0 1, threeSamples 0 1 0] = .ok M') ∧ CkNested (threeSamples 0 0 1) (threeSamples 0 1 0) ∧ (CkTheta.all (some [1])).Given := by
  refine ⟨exactLib fun _ _ => ([], []), exactLib_exact _, ?_, ?_, ⟨le_rfl, fun k => ?_⟩, rfl⟩
  · exact (C136_trains_iff _ (exactLib_exact _) _ (by norm_num) _ _ (one_valid 1)).mpr ⟨by simp, two_ok (by norm_num), trivial⟩
  · exact (C136_trains_iff _ (exactLib_exact _) _ (by norm_num) _ _ (one_valid 2)).mpr ⟨by simp, three_ok⟩
  · funext i
    show (((threeSamples 0 1 0).n - (threeSamples 0 0 1).n + k.val : Nat) : ℝ) = (k.val : ℝ)
    simp [threeSamples]

theorem two_posdef {theta : Fin 1 → ℝ} (ht : 0 < theta 0) (a b : ℝ) : SymPosDef (ckR 0 (twoSamples a b).X theta) := by
  refine ⟨R_symm _ _ _, fun v hv => ?_⟩
  rw [R_quad]
  have he : kern theta ((twoSamples a b).X (0 : Fin 2)) ((twoSamples a b).X (1 : Fin 2)) = Real.exp (-theta 0) := by simp [kern, twoSamples]
  have hlt : Real.exp (-theta 0) < 1 := Real.exp_lt_one_iff.mpr (by linarith)
  have hpos := Real.exp_pos (-theta 0)
  have hsum : ∑ i, ∑ j, v i * v j * kern theta ((twoSamples a b).X i) ((twoSamples a b).X j) = v (0 : Fin 2) * v (0 : Fin 2) + 2 * (v (0 : Fin 2) * v (1 : Fin 2)) * Real.exp (-theta 0) + v (1 : Fin 2) * v (1 : Fin 2) := by
    rw [show (∑ i, ∑ j, v i * v j * kern theta ((twoSamples a b).X i) ((twoSamples a b).X j)) = ∑ i : Fin 2, ∑ j : Fin 2, v i * v j * kern theta ((twoSamples a b).X i) ((twoSamples a b).X j) from rfl]
    simp only [Fin.sum_univ_two, kern_self]
    rw [kern_comm theta ((twoSamples a b).X (1 : Fin 2)) ((twoSamples a b).X (0 : Fin 2)), he]
    ring
  rw [hsum, zero_mul, zero_add]
  have hne : v (0 : Fin 2) ≠ 0 ∨ v (1 : Fin 2) ≠ 0 := by
    by_contra h
    push Not at h
    refine hv (funext fun i => ?_)
    have : ∀ i : Fin 2, v i = 0 := fun i => by fin_cases i; exacts [h.1, h.2]
    exact this i
  have hz : 0 < v (0 : Fin 2) ^ 2 + v (1 : Fin 2) ^ 2 := by
    rcases hne with h | h <;> positivity
  nlinarith [sq_nonneg (v (0 : Fin 2) + v (1 : Fin 2)), sq_nonneg (v (0 : Fin 2) - v (1 : Fin 2))]

theorem two_adequate {a b : ℝ} (h : a ≠ b) : Adequate (ckDesign (constantRegr 1) (constantRegr 1) (twoSamples a b) none).F (twoSamples a b).y :=
  (adequate_iff _ _ _ none).mpr ⟨(two_ok h).determined, (two_ok h).notExact⟩

theorem pow_one_list : ckPow [1] = [10] := by simp [ckPow]

theorem pow_zero_list : ckPow [0] = [1] := by simp [ckPow]

theorem theta_one (v : ℝ) : ckTheta 1 [v] = .ok fun _ => v := by simp [ckTheta]

/-- The optimizer of `C132_optimizer_refuted`: it tries the parameters 1 and 10 and returns the first. -/
def tryTwo : Nat → (List ℝ → Except CkErr CkVal) → List (List ℝ) × List ℝ := fun _ _ => ([[0], [1]], [0])

/-- The design of the two samples. -/
noncomputable abbrev twoDesign (a b : ℝ) : CkDesign 1 := ckDesign (constantRegr 1) (constantRegr 1) (twoSamples a b) none

theorem two_check (a b : ℝ) (one : Bool) : ckCheck (constantRegr 1) (constantRegr 1) one none (twoSamples a b) = .ok (twoDesign a b) := by
  obtain ⟨D, hD⟩ := (check_none_iff (constantRegr 1) (constantRegr 1) one (twoSamples a b)).mpr ⟨le_rfl, fun i j hij e => hij (Fin.ext (Nat.cast_injective (R := ℝ) (congrFun e 0))), by simp [constantRegr, twoSamples]⟩
  rw [hD, (check_ok hD).1 rfl]

theorem two_train (lib : CkLib) (nug a b : ℝ) (r : List ℝ × CkFitted 1) (h : ckFitLevel lib nug 0 none (twoDesign a b) = .ok r) :
    ckTrain lib nug ⟨constantRegr 1, constantRegr 1, .all none, []⟩ [twoSamples a b] = .ok ⟨constantRegr 1, constantRegr 1, .levels [some r.1], [r.2]⟩ := by
  unfold ckTrain ckFit
  rw [if_neg (by simp)]
  simp only [List.reverse_cons, List.reverse_nil, List.nil_append, List.length_singleton, CkTheta.expand, List.replicate_one]
  rw [if_neg]
  · simp only [ckDesigns, two_check, ckFits, h, List.map_cons, List.map_nil]
  · rintro ⟨t, ht, hn⟩
    rw [List.mem_singleton] at ht
    exact hn fun l hl => by rw [ht] at hl; cases hl

theorem two_fit {a b : ℝ} (hab : a ≠ b) : ∃ P, Trained 0 (⟨twoDesign a b, fun _ => 10, some P⟩ : CkFitted 1) P ∧ ckFitLevel (exactLib tryTwo) 0 0 none (twoDesign a b) = .ok ([1], ⟨twoDesign a b, fun _ => 1, some P⟩) := by
  have hs : (twoDesign a b).q + (twoDesign a b).p < (twoDesign a b).lvl.n := by simp [twoDesign, ckDesign, constantRegr, twoSamples]
  obtain ⟨P1, v1, h1⟩ := rlf_ok_of (exactLib_exact tryTwo) (two_posdef (theta := fun _ => 1) (by norm_num) a b) hs (two_adequate hab)
  obtain ⟨P2, v2, h2⟩ := rlf_ok_of (exactLib_exact tryTwo) (two_posdef (theta := fun _ => 10) (by norm_num) a b) hs (two_adequate hab)
  refine ⟨P2, rlf_trained (exactLib_exact tryTwo) hs rfl h2, ?_⟩
  have e1 : ckEval (exactLib tryTwo) 0 (twoDesign a b) [0] = .ok (some P1, some v1) := by
    unfold ckEval
    rw [pow_zero_list, theta_one]
    exact h1
  have e2 : ckEval (exactLib tryTwo) 0 (twoDesign a b) [1] = .ok (some P2, some v2) := by
    unfold ckEval
    rw [pow_one_list, theta_one]
    exact h2
  unfold ckFitLevel
  simp only [show (exactLib tryTwo).opt 0 (ckObj (exactLib tryTwo) 0 (twoDesign a b)) = ([[0], [1]], [0]) from rfl, ckRun, e1, e2, ckKeep, ckObj, pow_zero_list, theta_one]
  rw [if_neg (by simp)]

theorem two_solve {w0 w1 b e : ℝ} (h0 : w0 + w1 = 0) (h1 : w0 + e * w1 = 0 - b) (h2 : e * w0 + w1 = 1 - b) (he : e < 1) : b = 1 / 2 ∧ w1 = 1 / (2 * (1 - e)) := by
  have hw : w0 = -w1 := by linarith
  subst hw
  have hb : b = 1 / 2 := by nlinarith
  refine ⟨hb, ?_⟩
  rw [eq_div_iff (by nlinarith)]
  nlinarith

theorem two_F (a b : ℝ) (k : Fin 2) (j : Fin (0 + 1)) : (twoDesign a b).F k j = 1 :=
  Fin.addCases (motive := fun j => (twoDesign a b).F k j = 1) (fun i => i.elim0) (fun i => Fin.append_right (fun a : Fin 0 => (a.elim0 : ℝ)) (fun _ : Fin 1 => (1 : ℝ)) i) j

theorem two_row (a b nug : ℝ) (t : Fin 1 → ℝ) (P : Option (CkPar (twoDesign a b).lvl.n ((twoDesign a b).q + (twoDesign a b).p))) (x : Fin 1 → ℝ) (j : Fin (0 + 1)) : (⟨twoDesign a b, t, P⟩ : CkFitted 1).row nug x j = 1 :=
  Fin.addCases (motive := fun j => (⟨twoDesign a b, t, P⟩ : CkFitted 1).row nug x j = 1) (fun i => i.elim0) (fun i => Fin.append_right (fun a : Fin 0 => (a.elim0 : ℝ) * nug) (fun _ : Fin 1 => (1 : ℝ)) i) j

theorem ones_dot (u v : Fin (0 + 1) → ℝ) (h : ∀ j, u j = 1) : u ⬝ᵥ v = v 0 := by
  simp [dotProduct, h]

theorem ones_dot2 (u v : Fin 2 → ℝ) (h : ∀ j, u j = 1) : u ⬝ᵥ v = v 0 + v 1 := by
  simp [dotProduct, h]

theorem two_mean (e w : Fin 2 → ℝ) : e ⬝ᵥ w = e 0 * w 0 + e 1 * w 1 := by simp [dotProduct]

theorem two_kern (t : ℝ) : kern (d := 1) (fun _ => t) ((twoSamples 0 1).X (0 : Fin 2)) ((twoSamples 0 1).X (1 : Fin 2)) = Real.exp (-t) := by
  simp [kern, twoSamples]

theorem two_R (t : ℝ) : ckR (n := 2) (d := 1) 0 (fun k _ => (k.val : ℝ)) (fun _ => t) 0 0 = 1 ∧ ckR (n := 2) (d := 1) 0 (fun k _ => (k.val : ℝ)) (fun _ => t) 1 1 = 1 ∧
    ckR (n := 2) (d := 1) 0 (fun k _ => (k.val : ℝ)) (fun _ => t) 0 1 = Real.exp (-t) ∧ ckR (n := 2) (d := 1) 0 (fun k _ => (k.val : ℝ)) (fun _ => t) 1 0 = Real.exp (-t) := by
  simp [R_entry, kern]

/-- C132 is false when the parameters are left to the optimizer: the surrogate keeps the parameters that the optimizer returned but the other attributes of its last call, and does not pass through the samples. -/
theorem C132_optimizer_refuted : ¬ ∀ (lib : CkLib), lib.Exact → ∀ (M M' : CkModel 1) (l : CkLevel 1), ckTrain lib 0 M [l] = .ok M' → ∀ (k : Fin l.n) (m s : ℝ), ckSurrogate M' (l.X k) = .ok (m, s) → |m - l.y k| < 1 / 10 := by
  intro h
  obtain ⟨P, hP, hf⟩ := two_fit (a := 0) (b := 1) (by norm_num)
  have ht := two_train _ 0 0 1 _ hf
  obtain ⟨s, hs⟩ := low_mixed (ta := fun _ => 1) hP ((twoSamples 0 1).X (1 : Fin 2))
  have hp := h _ (exactLib_exact tryTwo) _ _ (twoSamples 0 1) ht (1 : Fin 2) _ _ (by
    unfold ckSurrogate ckPredict
    simp only [hs, ckUp]
    rfl)
  clear hs ht h hf
  have hn := normal_eq hP
  have hd := data_eq hP
  simp only at hn hd
  generalize ((ckR 0 (twoDesign 0 1).lvl.X fun _ => 10)⁻¹.mulVec ((twoDesign 0 1).lvl.y - (twoDesign 0 1).F.mulVec P.beta)) = w at hn hd hp
  obtain ⟨C, G, beta, sigma2⟩ := P
  simp only at hn hd hp
  have hb : ∀ k : Fin 2, (twoDesign 0 1).F.mulVec beta k = beta (0 : Fin (0 + 1)) := fun k => ones_dot _ _ (two_F 0 1 k)
  have n0 : w (0 : Fin 2) + w (1 : Fin 2) = 0 := (ones_dot2 _ w fun k => two_F 0 1 k 0).symm.trans (congrFun hn (0 : Fin (0 + 1)))
  have k0 : ckR 0 (twoDesign 0 1).lvl.X (fun _ => 10) (0 : Fin 2) (0 : Fin 2) = 1 := (two_R 10).1
  have k1 : ckR 0 (twoDesign 0 1).lvl.X (fun _ => 10) (1 : Fin 2) (1 : Fin 2) = 1 := (two_R 10).2.1
  have k2 : ckR 0 (twoDesign 0 1).lvl.X (fun _ => 10) (0 : Fin 2) (1 : Fin 2) = Real.exp (-10) := (two_R 10).2.2.1
  have k3 : ckR 0 (twoDesign 0 1).lvl.X (fun _ => 10) (1 : Fin 2) (0 : Fin 2) = Real.exp (-10) := (two_R 10).2.2.2
  have d0 := hd (0 : Fin 2)
  have d1 := hd (1 : Fin 2)
  rw [hb] at d0 d1
  have d0' := (two_mean _ w).symm.trans d0
  have d1' := (two_mean _ w).symm.trans d1
  rw [k0, k2, one_mul] at d0'
  rw [k3, k1, one_mul] at d1'
  have e10 : Real.exp (-10) ≤ 1 / 11 := by
    rw [Real.exp_neg, inv_eq_one_div]
    have := Real.add_one_le_exp (10 : ℝ)
    exact one_div_le_one_div_of_le (by norm_num) (by linarith)
  have e1 : 1 / 3 < Real.exp (-1) := by
    rw [Real.exp_neg, inv_eq_one_div]
    have := Real.exp_one_lt_d9
    exact one_div_lt_one_div_of_lt (Real.exp_pos 1) (by linarith)
  have e10p := Real.exp_pos (-10)
  obtain ⟨hb0, hw1⟩ := two_solve n0 d0' d1' (by linarith)
  have r0 : (⟨twoDesign 0 1, fun _ => 1, some ⟨C, G, beta, sigma2⟩⟩ : CkFitted 1).r ((twoSamples 0 1).X (1 : Fin 2)) (0 : Fin 2) = Real.exp (-1) := by
    exact ((corr_kern _ _ _).trans (kern_comm _ _ _)).trans (two_kern 1)
  have r1 : (⟨twoDesign 0 1, fun _ => 1, some ⟨C, G, beta, sigma2⟩⟩ : CkFitted 1).r ((twoSamples 0 1).X (1 : Fin 2)) (1 : Fin 2) = 1 := by
    exact (corr_kern _ _ _).trans (kern_self _ _)
  have f := ones_dot ((⟨twoDesign 0 1, fun _ => 1, some ⟨C, G, beta, sigma2⟩⟩ : CkFitted 1).row 0 ((twoSamples 0 1).X (1 : Fin 2))) beta (two_row 0 1 0 _ _ _)
  have g := two_mean ((⟨twoDesign 0 1, fun _ => 1, some ⟨C, G, beta, sigma2⟩⟩ : CkFitted 1).r ((twoSamples 0 1).X (1 : Fin 2))) w
  rw [r0, r1] at g
  have hm : |beta (0 : Fin (0 + 1)) + (Real.exp (-1) * w (0 : Fin 2) + 1 * w (1 : Fin 2)) - 1| < 1 / 10 := by
    rw [← f, ← g]
    exact hp
  have hw0 : w (0 : Fin 2) = -w (1 : Fin 2) := by linarith
  rw [hb0, hw0, abs_lt] at hm
  have hle : w (1 : Fin 2) ≤ 11 / 20 := by
    rw [hw1, div_le_iff₀ (by linarith)]
    linarith
  have hpos : 0 < w (1 : Fin 2) := by
    rw [hw1]
    exact div_pos one_pos (by linarith)
  nlinarith [hm.1]

theorem rlf_value {lib : CkLib} {nug : ℝ} {D : CkDesign d} {theta : Fin d → ℝ} {P : CkPar D.lvl.n (D.q + D.p)} {v : ℝ} (h : ckRlf lib nug D theta = .ok (some P, some v)) :
    lib.chol (ckR nug D.lvl.X theta) = some P.C ∧ v = ((D.lvl.n : ℝ) - D.p - D.q) * Real.logb 10 P.sigma2 + D.lvl.n * Real.logb 10 (∏ i, P.C i i ^ (2 / (D.lvl.n : ℝ))) := by
  unfold ckRlf at h
  split at h
  · cases h
  rename_i C hC
  split at h
  · cases h
  simp only at h
  split at h
  · cases h
  simp only [Except.ok.injEq, Prod.mk.injEq, Option.some.injEq] at h
  obtain ⟨h1, h2⟩ := h
  split at h2
  · simp only [Option.some.injEq] at h2
    rw [← h2, ← h1]
    exact ⟨hC, rfl⟩
  · cases h2

theorem two_diff {w0 w1 a b c e beta : ℝ} (h0 : w0 + w1 = 0) (h1 : c * w0 + e * w1 = a - beta) (h2 : e * w0 + c * w1 = b - beta) (he : e < c) : (a - beta) * w0 + (b - beta) * w1 = (b - a) ^ 2 / (2 * (c - e)) := by
  have hw : w0 = -w1 := by linarith
  subst hw
  have h3 : 2 * (c - e) * w1 = b - a := by linarith
  rw [eq_div_iff (by linarith)]
  calc ((a - beta) * -w1 + (b - beta) * w1) * (2 * (c - e)) = (b - a) * (2 * (c - e) * w1) := by ring
    _ = (b - a) ^ 2 := by rw [h3]; ring

theorem two_Rn (nug t : ℝ) : ckR (n := 2) (d := 1) nug (fun k _ => (k.val : ℝ)) (fun _ => t) 0 0 = nug + 1 ∧ ckR (n := 2) (d := 1) nug (fun k _ => (k.val : ℝ)) (fun _ => t) 1 1 = nug + 1 ∧
    ckR (n := 2) (d := 1) nug (fun k _ => (k.val : ℝ)) (fun _ => t) 0 1 = Real.exp (-t) ∧ ckR (n := 2) (d := 1) nug (fun k _ => (k.val : ℝ)) (fun _ => t) 1 0 = Real.exp (-t) := by
  simp [R_entry, kern]

theorem two_sigma {a b nug t : ℝ} (hn : 0 ≤ nug) (ht : 0 < t) {P : CkPar (twoDesign a b).lvl.n ((twoDesign a b).q + (twoDesign a b).p)} {o} (hP : Trained nug (⟨twoDesign a b, fun _ => t, o⟩ : CkFitted 1) P) :
    P.sigma2 = (b - a) ^ 2 / (2 * (nug + 1 - Real.exp (-t))) := by
  have hm := normal_eq hP
  have hd := data_eq hP
  have hs := hP.sigma
  simp only at hm hd hs
  have hdof : (((twoDesign a b).lvl.n : ℝ) - (twoDesign a b).p - (twoDesign a b).q) = 1 := by
    show ((2 : Nat) : ℝ) - ((1 : Nat) : ℝ) - ((0 : Nat) : ℝ) = 1
    norm_num
  rw [hdof, div_one] at hs
  generalize ((ckR nug (twoDesign a b).lvl.X fun _ => t)⁻¹.mulVec ((twoDesign a b).lvl.y - (twoDesign a b).F.mulVec P.beta)) = w at hm hd hs
  obtain ⟨C, G, beta, sigma2⟩ := P
  simp only at hm hd hs ⊢
  have hb : ∀ k : Fin 2, (twoDesign a b).F.mulVec beta k = beta (0 : Fin (0 + 1)) := fun k => ones_dot _ _ (two_F a b k)
  have n0 : w (0 : Fin 2) + w (1 : Fin 2) = 0 := (ones_dot2 _ w fun k => two_F a b k 0).symm.trans (congrFun hm (0 : Fin (0 + 1)))
  have k0 : ckR nug (twoDesign a b).lvl.X (fun _ => t) (0 : Fin 2) (0 : Fin 2) = nug + 1 := (two_Rn nug t).1
  have k1 : ckR nug (twoDesign a b).lvl.X (fun _ => t) (1 : Fin 2) (1 : Fin 2) = nug + 1 := (two_Rn nug t).2.1
  have k2 : ckR nug (twoDesign a b).lvl.X (fun _ => t) (0 : Fin 2) (1 : Fin 2) = Real.exp (-t) := (two_Rn nug t).2.2.1
  have k3 : ckR nug (twoDesign a b).lvl.X (fun _ => t) (1 : Fin 2) (0 : Fin 2) = Real.exp (-t) := (two_Rn nug t).2.2.2
  have d0 := hd (0 : Fin 2)
  have d1 := hd (1 : Fin 2)
  rw [hb] at d0 d1
  have d0' := (two_mean _ w).symm.trans d0
  have d1' := (two_mean _ w).symm.trans d1
  rw [k0, k2] at d0'
  rw [k3, k1] at d1'
  have hlt : Real.exp (-t) < 1 := Real.exp_lt_one_iff.mpr (by linarith)
  have key := two_diff n0 d0' d1' (by linarith)
  rw [hs]
  refine (two_mean _ w).trans (Eq.trans ?_ key)
  show ((twoDesign a b).lvl.y (0 : Fin 2) - (twoDesign a b).F.mulVec beta (0 : Fin 2)) * _ + ((twoDesign a b).lvl.y (1 : Fin 2) - (twoDesign a b).F.mulVec beta (1 : Fin 2)) * _ = _
  rw [hb, hb]

open Classical in
/-- An optimizer that stops at its starting point 1 if the value there is `v` and goes on to 10 otherwise. -/
noncomputable def stopAt (v : ℝ) : Nat → (List ℝ → Except CkErr CkVal) → List (List ℝ) × List ℝ := fun _ f => if f [0] = .ok (some v) then ([[0]], [0]) else ([[0], [1]], [1])

/-- C137 is false when the parameters are left to the optimizer: a surrogate that has been trained before is another one than a new surrogate trained with the same data. -/
theorem C137_history_refuted : ¬ ∀ (lib : CkLib), lib.Exact → ∀ (nug : ℝ) (M M1 M2 M3 : CkModel 1) (l l' : CkLevel 1), ckTrain lib nug M [l] = .ok M1 → ckTrain lib nug M1 [l'] = .ok M2 → ckTrain lib nug M [l'] = .ok M3 → M2.theta = M3.theta := by
  intro h
  have hs : ∀ b : ℝ, (twoDesign 0 b).q + (twoDesign 0 b).p < (twoDesign 0 b).lvl.n := by intro b; simp [twoDesign, ckDesign, constantRegr, twoSamples]
  have hx := exactLib_exact tryTwo
  have rlf : ∀ b : ℝ, b ≠ 0 → ∀ t : ℝ, 0 < t → ∃ P v, ckRlf (exactLib tryTwo) (1 / 10) (twoDesign 0 b) (fun _ => t) = .ok (some P, some v) :=
    fun b hb t ht => rlf_ok hx (by norm_num) (fun _ => ht) (hs b) (two_adequate (Ne.symm hb))
  obtain ⟨P1, v1, h1⟩ := rlf 1 (by norm_num) 1 (by norm_num)
  obtain ⟨P2, v2, h2⟩ := rlf 2 (by norm_num) 1 (by norm_num)
  obtain ⟨P3, v3, h3⟩ := rlf 2 (by norm_num) 10 (by norm_num)
  have hne : v2 ≠ v1 := by
    obtain ⟨c1, e1⟩ := rlf_value h1
    obtain ⟨c2, e2⟩ := rlf_value h2
    have s1 := two_sigma (by norm_num) (by norm_num) (rlf_trained hx (hs 1) rfl h1)
    have s2 := two_sigma (by norm_num) (by norm_num) (rlf_trained hx (hs 2) rfl h2)
    have hc : P1.C = P2.C := Option.some.inj (c1.symm.trans c2)
    have hdof : ∀ b, (((twoDesign 0 b).lvl.n : ℝ) - (twoDesign 0 b).p - (twoDesign 0 b).q) = 1 := by
      intro b
      show ((2 : Nat) : ℝ) - ((1 : Nat) : ℝ) - ((0 : Nat) : ℝ) = 1
      norm_num
    rw [hdof, one_mul] at e1 e2
    rw [e1, e2, ← hc, s1, s2]
    intro he
    have hlt : Real.exp (-1) < 1 := Real.exp_lt_one_iff.mpr (by norm_num)
    have he' : Real.logb 10 ((2 - 0) ^ 2 / (2 * (1 / 10 + 1 - Real.exp (-1)))) = Real.logb 10 ((1 - 0) ^ 2 / (2 * (1 / 10 + 1 - Real.exp (-1)))) := add_right_cancel he
    have hd : 0 < 2 * (1 / 10 + 1 - Real.exp (-1)) := by linarith
    have := Real.logb_injOn_pos (b := 10) (by norm_num) (Set.mem_Ioi.mpr (by positivity)) (Set.mem_Ioi.mpr (by positivity)) he'
    rw [div_left_inj' hd.ne'] at this
    norm_num at this
  have ev : ∀ (opt : Nat → (List ℝ → Except CkErr CkVal) → List (List ℝ) × List ℝ) (b x t v : ℝ) (P), ckPow [x] = [t] → ckRlf (exactLib tryTwo) (1 / 10) (twoDesign 0 b) (fun _ => t) = .ok (some P, some v) → ckEval (exactLib opt) (1 / 10) (twoDesign 0 b) [x] = .ok (some P, some v) := by
    intro opt b x t v P hp hr
    unfold ckEval
    rw [hp, theta_one]
    exact hr
  have e1 := ev (stopAt v1) 1 0 1 v1 P1 pow_zero_list h1
  have e2 := ev (stopAt v1) 2 0 1 v2 P2 pow_zero_list h2
  have e3 := ev (stopAt v1) 2 1 10 v3 P3 pow_one_list h3
  have o1 : ckObj (exactLib (stopAt v1)) (1 / 10) (twoDesign 0 1) [0] = .ok (some v1) := by
    unfold ckObj
    rw [e1]
  have o2 : ckObj (exactLib (stopAt v1)) (1 / 10) (twoDesign 0 2) [0] = .ok (some v2) := by
    unfold ckObj
    rw [e2]
  have o3 : ckObj (exactLib (stopAt v1)) (1 / 10) (twoDesign 0 2) [1] = .ok (some v3) := by
    unfold ckObj
    rw [e3]
  have s1 : (exactLib (stopAt v1)).opt 0 (ckObj (exactLib (stopAt v1)) (1 / 10) (twoDesign 0 1)) = ([[0]], [0]) := if_pos o1
  have s2 : (exactLib (stopAt v1)).opt 0 (ckObj (exactLib (stopAt v1)) (1 / 10) (twoDesign 0 2)) = ([[0], [1]], [1]) := if_neg fun hc => by
    rw [o2] at hc
    simp only [Except.ok.injEq, Option.some.injEq] at hc
    exact hne hc
  have f1 : ckFitLevel (exactLib (stopAt v1)) (1 / 10) 0 none (twoDesign 0 1) = .ok ([1], ⟨twoDesign 0 1, fun _ => 1, some P1⟩) := by
    unfold ckFitLevel
    simp only [s1, ckRun, e1, ckKeep, o1, pow_zero_list, theta_one]
    rw [if_neg (by simp)]
  have f2 : ckFitLevel (exactLib (stopAt v1)) (1 / 10) 0 none (twoDesign 0 2) = .ok ([10], ⟨twoDesign 0 2, fun _ => 10, some P3⟩) := by
    unfold ckFitLevel
    simp only [s2, ckRun, e2, e3, ckKeep, o3, pow_one_list, theta_one]
    rw [if_neg (by simp)]
  have t1 := two_train _ _ _ _ _ f1
  have t3 := two_train _ _ _ _ _ f2
  obtain ⟨M2, t2⟩ := (C136_trains_iff _ (exactLib_exact (stopAt v1)) (1 / 10) (by norm_num) ⟨constantRegr 1, constantRegr 1, .levels [some [1]], [⟨twoDesign 0 1, fun _ => 1, some P1⟩]⟩ [twoSamples 0 2] ⟨[[1]], rfl, by simp⟩).mpr ⟨by simp, two_ok (by norm_num), trivial⟩
  have k2 := (C137_frozen _ _ _ _ _ _ t1 tryTwo).2 M2 t2
  have := h _ (exactLib_exact (stopAt v1)) (1 / 10) _ _ _ _ _ _ t1 t2 t3
  rw [k2] at this
  simp only [CkTheta.levels.injEq, List.cons.injEq, Option.some.injEq, and_true] at this
  norm_num at this

theorem rescale_core {K : Matrix (Fin n) (Fin n) ℝ} {F : Matrix (Fin n) (Fin m) ℝ} {T S : Matrix (Fin m) (Fin m) ℝ} (hTS : T * S = 1) {y y' : Fin n → ℝ} {e beta beta' : Fin m → ℝ} {a b : ℝ} (he : F.mulVec e = fun _ => 1)
    (hN : IsUnit (F.transpose * K * F).det) (hb : beta = (F.transpose * K * F)⁻¹.mulVec (F.transpose.mulVec (K.mulVec y))) (hb' : beta' = ((F * T).transpose * K * (F * T))⁻¹.mulVec ((F * T).transpose.mulVec (K.mulVec y'))) (hy : y' = a • y + b • fun _ => 1) :
    beta' = S.mulVec (a • beta + b • e) ∧ ((F * T).transpose * K * (F * T))⁻¹ = S * (F.transpose * K * F)⁻¹ * S.transpose := by
  have hST : S * T = 1 := mul_eq_one_comm.mp hTS
  have hi : T⁻¹ = S := Matrix.inv_eq_right_inv hTS
  have hit : T.transpose⁻¹ = S.transpose := by rw [← Matrix.transpose_nonsing_inv, hi]
  have hinv : ((F * T).transpose * K * (F * T))⁻¹ = S * (F.transpose * K * F)⁻¹ * S.transpose := by
    rw [show (F * T).transpose * K * (F * T) = T.transpose * (F.transpose * K * F) * T by simp only [Matrix.transpose_mul, Matrix.mul_assoc], Matrix.mul_inv_rev, Matrix.mul_inv_rev, hi, hit, Matrix.mul_assoc S]
  refine ⟨?_, hinv⟩
  have hStTt : S.transpose * T.transpose = 1 := by rw [← Matrix.transpose_mul, hTS, Matrix.transpose_one]
  have hk : F.transpose.mulVec (K.mulVec (F.mulVec e)) = (F.transpose * K * F).mulVec e := by
    simp only [Matrix.mulVec_mulVec, Matrix.mul_assoc]
  rw [hb', hinv, hy, ← he, Matrix.transpose_mul, ← Matrix.mulVec_mulVec _ T.transpose, Matrix.mulVec_mulVec, Matrix.mul_assoc _ S.transpose, hStTt, Matrix.mul_one, ← Matrix.mulVec_mulVec, Matrix.mulVec_add, Matrix.mulVec_add, Matrix.mulVec_smul, Matrix.mulVec_smul,
    Matrix.mulVec_smul, Matrix.mulVec_smul, hk, Matrix.mulVec_add, Matrix.mulVec_smul, Matrix.mulVec_smul, ← hb, Matrix.mulVec_mulVec e, Matrix.nonsing_inv_mul _ hN, Matrix.one_mulVec]

/-- The change of the columns of the regression matrix when the outputs change their units. -/
noncomputable def ckT (a b : ℝ) (Mx : Matrix (Fin p) (Fin q) ℝ) : Matrix (Fin (q + p)) (Fin (q + p)) ℝ :=
  (Matrix.fromBlocks (a • (1 : Matrix (Fin q) (Fin q) ℝ)) 0 (b • Mx) (1 : Matrix (Fin p) (Fin p) ℝ)).submatrix finSumFinEquiv.symm finSumFinEquiv.symm

theorem ckT_inv {a : ℝ} (ha : a ≠ 0) (b : ℝ) (Mx : Matrix (Fin p) (Fin q) ℝ) : ckT a b Mx * ckT a⁻¹ (-(b * a⁻¹)) Mx = 1 := by
  unfold ckT
  rw [Matrix.submatrix_mul_equiv, Matrix.fromBlocks_multiply]
  simp only [Matrix.mul_smul, Matrix.mul_one, Matrix.one_mul, Matrix.mul_zero, Matrix.zero_mul, add_zero, zero_add, smul_smul, smul_zero]
  rw [inv_mul_cancel₀ ha, one_smul, mul_comm a⁻¹ b, ← add_smul, add_neg_cancel, zero_smul, Matrix.fromBlocks_one, Matrix.submatrix_one_equiv]

theorem append_elim (u : Fin q → ℝ) (v : Fin p → ℝ) : Fin.append u v = Sum.elim u v ∘ finSumFinEquiv.symm := by
  funext i
  refine Fin.addCases (fun j => ?_) (fun j => ?_) i <;> simp

theorem ckT_row (a b : ℝ) (Mx : Matrix (Fin p) (Fin q) ℝ) (u : Fin q → ℝ) (v : Fin p → ℝ) : (ckT a b Mx).transpose.mulVec (Fin.append u v) = Fin.append (a • u + b • Mx.transpose.mulVec v) v := by
  rw [append_elim, append_elim]
  unfold ckT
  rw [Matrix.transpose_submatrix, Matrix.submatrix_mulVec_equiv, Matrix.fromBlocks_transpose]
  congr 1
  rw [Function.comp_assoc]
  simp [Matrix.fromBlocks_mulVec, Matrix.smul_mulVec, Function.comp_def]

theorem ckT_col (a b : ℝ) (Mx : Matrix (Fin p) (Fin q) ℝ) (u : Fin q → ℝ) : (ckT a b Mx).transpose.mulVec (Fin.append u (0 : Fin p → ℝ)) = a • Fin.append u (0 : Fin p → ℝ) := by
  rw [ckT_row, Matrix.mulVec_zero, smul_zero, add_zero]
  funext i
  refine Fin.addCases (fun j => ?_) (fun j => ?_) i <;> simp

/-- What two trainings in different units have in common. -/
structure Rescaled (a b : ℝ) (K : Matrix (Fin n) (Fin n) ℝ) (F F' : Matrix (Fin n) (Fin (q + p)) ℝ) (y y' : Fin n → ℝ) (T S N N' : Matrix (Fin (q + p)) (Fin (q + p)) ℝ) (e beta beta' : Fin (q + p) → ℝ) (s s' : ℝ) : Prop where
  mul : T * S = 1
  cols : F' = F * T
  coef : beta' = S.mulVec (a • beta + b • e)
  inv : N'⁻¹ = S * N⁻¹ * S.transpose
  res : y' - F'.mulVec beta' = a • (y - F.mulVec beta)
  sigma : s' = a ^ 2 * s

theorem design_cols {X : Fin n → Fin d → ℝ} {g : (Fin d → ℝ) → Fin q → ℝ} {f : (Fin d → ℝ) → Fin p → ℝ} {F F' : Matrix (Fin n) (Fin (q + p)) ℝ} {a b : ℝ} {low : Fin n → ℝ} {Mx : Matrix (Fin p) (Fin q) ℝ} (hM : ∀ x, g x = Mx.transpose.mulVec (f x))
    (hF : ∀ k, F k = Fin.append (fun i => g (X k) i * low k) (f (X k))) (hF' : ∀ k, F' k = Fin.append (fun i => g (X k) i * (a * low k + b)) (f (X k))) : F' = F * ckT a b Mx := by
  ext k j
  have h1 : (F * ckT a b Mx) k j = (ckT a b Mx).transpose.mulVec (F k) j := by
    simp only [Matrix.mul_apply, Matrix.mulVec, dotProduct, Matrix.transpose_apply]
    exact Finset.sum_congr rfl fun i _ => mul_comm _ _
  rw [h1, hF, ckT_row, ← hM, hF']
  congr 2
  funext i
  simp only [Pi.add_apply, Pi.smul_apply, smul_eq_mul]
  ring

theorem rescaled {nug : ℝ} {X : Fin n → Fin d → ℝ} {y y' : Fin n → ℝ} {g : (Fin d → ℝ) → Fin q → ℝ} {f : (Fin d → ℝ) → Fin p → ℝ} {F F' : Matrix (Fin n) (Fin (q + p)) ℝ} {theta : Fin d → ℝ} {o o'} {P P' : CkPar n (q + p)}
    (h : Trained nug (⟨⟨⟨n, X, y⟩, q, p, g, f, F⟩, theta, o⟩ : CkFitted d) P) (h' : Trained nug (⟨⟨⟨n, X, y'⟩, q, p, g, f, F'⟩, theta, o'⟩ : CkFitted d) P') {a b : ℝ} (ha : a ≠ 0) {Mx : Matrix (Fin p) (Fin q) ℝ} {c : Fin p → ℝ}
    (hcol : F' = F * ckT a b Mx) (he : F.mulVec (Fin.append (0 : Fin q → ℝ) c) = fun _ => 1) (hy : ∀ k, y' k = a * y k + b) :
    Rescaled a b (ckR nug X theta)⁻¹ F F' y y' (ckT a b Mx) (ckT a⁻¹ (-(b * a⁻¹)) Mx) (P.G.transpose * P.G) (P'.G.transpose * P'.G) (Fin.append (0 : Fin q → ℝ) c) P.beta P'.beta P.sigma2 P'.sigma2 := by
  have hT := ckT_inv ha b Mx
  have gram : P.G.transpose * P.G = F.transpose * (ckR nug X theta)⁻¹ * F := h.gram
  have gram' : P'.G.transpose * P'.G = F'.transpose * (ckR nug X theta)⁻¹ * F' := h'.gram
  have hb : P.beta = (P.G.transpose * P.G)⁻¹.mulVec (F.transpose.mulVec ((ckR nug X theta)⁻¹.mulVec y)) := h.beta
  have hb' : P'.beta = (P'.G.transpose * P'.G)⁻¹.mulVec (F'.transpose.mulVec ((ckR nug X theta)⁻¹.mulVec y')) := h'.beta
  have hy' : y' = a • y + b • fun _ => 1 := by
    funext k
    simp [hy]
  have hu : IsUnit (P.G.transpose * P.G).det := by
    rw [Matrix.det_mul, Matrix.det_transpose]
    exact h.unit.mul h.unit
  rw [gram] at hb hu
  rw [gram', hcol] at hb'
  obtain ⟨c1, c2⟩ := rescale_core hT he hu hb hb' hy'
  have hres : y' - F'.mulVec P'.beta = a • (y - F.mulVec P.beta) := by
    rw [c1, hcol, Matrix.mulVec_mulVec, Matrix.mul_assoc, hT, Matrix.mul_one, Matrix.mulVec_add, Matrix.mulVec_smul, Matrix.mulVec_smul, he, hy', smul_sub]
    abel
  refine ⟨hT, hcol, c1, ?_, hres, ?_⟩
  · rw [gram, gram', hcol]
    exact c2
  · have s := h.sigma
    have s' := h'.sigma
    simp only at s s'
    rw [s', s, hres, Matrix.mulVec_smul, dotProduct_smul, smul_dotProduct, smul_eq_mul, smul_eq_mul]
    ring

theorem rescale_mean {a b : ℝ} {K : Matrix (Fin n) (Fin n) ℝ} {F F' : Matrix (Fin n) (Fin (q + p)) ℝ} {y y' : Fin n → ℝ} {T S N N' : Matrix (Fin (q + p)) (Fin (q + p)) ℝ} {e beta beta' : Fin (q + p) → ℝ} {s s' : ℝ} (h : Rescaled a b K F F' y y' T S N N' e beta beta' s s')
    (row row' : Fin (q + p) → ℝ) (r : Fin n → ℝ) (hrow : row' = T.transpose.mulVec row) (he : row ⬝ᵥ e = 1) :
    row' ⬝ᵥ beta' + r ⬝ᵥ K.mulVec (y' - F'.mulVec beta') = a * (row ⬝ᵥ beta + r ⬝ᵥ K.mulVec (y - F.mulVec beta)) + b := by
  have h1 : row' ⬝ᵥ beta' = row ⬝ᵥ (a • beta + b • e) := by
    rw [hrow, h.coef, Matrix.mulVec_transpose, ← Matrix.dotProduct_mulVec, Matrix.mulVec_mulVec, h.mul, Matrix.one_mulVec]
  rw [h1, h.res, Matrix.mulVec_smul, dotProduct_add, dotProduct_smul, dotProduct_smul, dotProduct_smul, he]
  simp only [smul_eq_mul]
  ring

theorem rescale_quad {a b : ℝ} {K : Matrix (Fin n) (Fin n) ℝ} {F F' : Matrix (Fin n) (Fin (q + p)) ℝ} {y y' : Fin n → ℝ} {T S N N' : Matrix (Fin (q + p)) (Fin (q + p)) ℝ} {e beta beta' : Fin (q + p) → ℝ} {s s' : ℝ} (h : Rescaled a b K F F' y y' T S N N' e beta beta' s s')
    (row row' : Fin (q + p) → ℝ) (r : Fin n → ℝ) (hrow : row' = T.transpose.mulVec row) :
    (row' - F'.transpose.mulVec (K.mulVec r)) ⬝ᵥ N'⁻¹.mulVec (row' - F'.transpose.mulVec (K.mulVec r)) = (row - F.transpose.mulVec (K.mulVec r)) ⬝ᵥ N⁻¹.mulVec (row - F.transpose.mulVec (K.mulVec r)) := by
  have h1 : row' - F'.transpose.mulVec (K.mulVec r) = T.transpose.mulVec (row - F.transpose.mulVec (K.mulVec r)) := by
    rw [hrow, h.cols, Matrix.transpose_mul, ← Matrix.mulVec_mulVec _ T.transpose, ← Matrix.mulVec_sub]
  have h2 : S.transpose * T.transpose = 1 := by rw [← Matrix.transpose_mul, h.mul, Matrix.transpose_one]
  rw [h1]
  generalize row - F.transpose.mulVec (K.mulVec r) = v
  rw [h.inv, Matrix.mulVec_mulVec, Matrix.mul_assoc (S * N⁻¹), h2, Matrix.mul_one, Matrix.mulVec_transpose, ← Matrix.dotProduct_mulVec, Matrix.mulVec_mulVec, ← Matrix.mul_assoc, h.mul, Matrix.one_mul]

/-- The factor by which the error of the level below is multiplied. -/
theorem rho_form (N : Matrix (Fin (q + p)) (Fin (q + p)) ℝ) (beta : Fin (q + p) → ℝ) (s : ℝ) (u : Fin q → ℝ) :
    ∑ a, ∑ c, u a * (s * N (Fin.castAdd p a) (Fin.castAdd p c) + beta (Fin.castAdd p a) * beta (Fin.castAdd p c)) * u c = s * (Fin.append u (0 : Fin p → ℝ) ⬝ᵥ N.mulVec (Fin.append u (0 : Fin p → ℝ))) + (Fin.append u (0 : Fin p → ℝ) ⬝ᵥ beta) ^ 2 := by
  have e1 : Fin.append u (0 : Fin p → ℝ) ⬝ᵥ N.mulVec (Fin.append u (0 : Fin p → ℝ)) = ∑ a, ∑ c, u a * N (Fin.castAdd p a) (Fin.castAdd p c) * u c := by
    simp only [dotProduct, Matrix.mulVec, Fin.sum_univ_add, Fin.append_left, Fin.append_right, Pi.zero_apply, mul_zero, zero_mul, Finset.sum_const_zero, add_zero, Finset.mul_sum, mul_assoc]
  have e2 : Fin.append u (0 : Fin p → ℝ) ⬝ᵥ beta = ∑ a, u a * beta (Fin.castAdd p a) := by
    simp only [dotProduct, Fin.sum_univ_add, Fin.append_left, Fin.append_right, Pi.zero_apply, zero_mul, Finset.sum_const_zero, add_zero]
  rw [e1, e2, sq, Finset.sum_mul_sum, Finset.mul_sum, ← Finset.sum_add_distrib]
  refine Finset.sum_congr rfl fun a _ => ?_
  rw [Finset.mul_sum, ← Finset.sum_add_distrib]
  exact Finset.sum_congr rfl fun c _ => by ring

theorem rescale_rho {a b : ℝ} (ha : a ≠ 0) {Mx : Matrix (Fin p) (Fin q) ℝ} {c : Fin p → ℝ} {K : Matrix (Fin n) (Fin n) ℝ} {F F' : Matrix (Fin n) (Fin (q + p)) ℝ} {y y' : Fin n → ℝ} {N N' : Matrix (Fin (q + p)) (Fin (q + p)) ℝ} {beta beta' : Fin (q + p) → ℝ} {s s' : ℝ}
    (h : Rescaled a b K F F' y y' (ckT a b Mx) (ckT a⁻¹ (-(b * a⁻¹)) Mx) N N' (Fin.append (0 : Fin q → ℝ) c) beta beta' s s') (u : Fin q → ℝ) :
    ∑ i, ∑ j, u i * (s' * N'⁻¹ (Fin.castAdd p i) (Fin.castAdd p j) + beta' (Fin.castAdd p i) * beta' (Fin.castAdd p j)) * u j = ∑ i, ∑ j, u i * (s * N⁻¹ (Fin.castAdd p i) (Fin.castAdd p j) + beta (Fin.castAdd p i) * beta (Fin.castAdd p j)) * u j := by
  have hS := ckT_col a⁻¹ (-(b * a⁻¹)) Mx u
  have h0 : Fin.append u (0 : Fin p → ℝ) ⬝ᵥ Fin.append (0 : Fin q → ℝ) c = 0 := by
    simp only [dotProduct, Fin.sum_univ_add, Fin.append_left, Fin.append_right, Pi.zero_apply, zero_mul, mul_zero, Finset.sum_const_zero, add_zero]
  have h1 : ∀ v, Fin.append u (0 : Fin p → ℝ) ⬝ᵥ (ckT a⁻¹ (-(b * a⁻¹)) Mx).mulVec v = a⁻¹ * (Fin.append u (0 : Fin p → ℝ) ⬝ᵥ v) := by
    intro v
    rw [Matrix.dotProduct_mulVec, ← Matrix.mulVec_transpose, hS, smul_dotProduct, smul_eq_mul]
  rw [rho_form, rho_form, h.coef, h1, dotProduct_add, dotProduct_smul, dotProduct_smul, h0, h.inv, ← Matrix.mulVec_mulVec, hS, ← Matrix.mulVec_mulVec, h1, Matrix.mulVec_smul, dotProduct_smul, h.sigma]
  simp only [smul_eq_mul]
  field_simp
  ring

theorem rescale_ring (a r z s t k : ℝ) : r * (a ^ 2 * z) + a ^ 2 * s / 2 * t + a ^ 2 * s * k = a ^ 2 * (r * z + s / 2 * t + s * k) := by ring

theorem row_dot_const {f : (Fin d → ℝ) → Fin p → ℝ} {c : Fin p → ℝ} (u : Fin q → ℝ) (x : Fin d → ℝ) (hc : ∑ i, f x i * c i = 1) : Fin.append u (f x) ⬝ᵥ Fin.append (0 : Fin q → ℝ) c = 1 := by
  simp only [dotProduct, Fin.sum_univ_add, Fin.append_left, Fin.append_right, Pi.zero_apply, mul_zero, Finset.sum_const_zero, zero_add, hc]

theorem row_rescale {g : (Fin d → ℝ) → Fin q → ℝ} {f : (Fin d → ℝ) → Fin p → ℝ} {Mx : Matrix (Fin p) (Fin q) ℝ} (a b z : ℝ) (x : Fin d → ℝ) (hM : g x = Mx.transpose.mulVec (f x)) :
    Fin.append (fun i => g x i * (a * z + b)) (f x) = (ckT a b Mx).transpose.mulVec (Fin.append (fun i => g x i * z) (f x)) := by
  rw [ckT_row, ← hM]
  congr 1
  funext i
  simp only [Pi.add_apply, Pi.smul_apply, smul_eq_mul]
  ring

theorem up_rescale {nug : ℝ} {X : Fin n → Fin d → ℝ} {y y' : Fin n → ℝ} {g : (Fin d → ℝ) → Fin q → ℝ} {f : (Fin d → ℝ) → Fin p → ℝ} {F F' : Matrix (Fin n) (Fin (q + p)) ℝ} {theta : Fin d → ℝ} {o o'} {P P' : CkPar n (q + p)}
    (h : Trained nug (⟨⟨⟨n, X, y⟩, q, p, g, f, F⟩, theta, o⟩ : CkFitted d) P) (h' : Trained nug (⟨⟨⟨n, X, y'⟩, q, p, g, f, F'⟩, theta, o'⟩ : CkFitted d) P') {a b : ℝ} (ha : a ≠ 0) {Mx : Matrix (Fin p) (Fin q) ℝ} {c : Fin p → ℝ} {low : Fin n → ℝ}
    (hc : ∀ x, ∑ i, f x i * c i = 1) (hM : ∀ x, g x = Mx.transpose.mulVec (f x)) (hF : ∀ k, F k = Fin.append (fun i => g (X k) i * low k) (f (X k))) (hF' : ∀ k, F' k = Fin.append (fun i => g (X k) i * (a * low k + b)) (f (X k))) (hy : ∀ k, y' k = a * y k + b)
    (x : Fin d → ℝ) (z : ℝ × ℝ) :
    ∃ r : ℝ × ℝ, (⟨⟨⟨n, X, y⟩, q, p, g, f, F⟩, theta, o⟩ : CkFitted d).up x z = .ok r ∧ (⟨⟨⟨n, X, y'⟩, q, p, g, f, F'⟩, theta, o'⟩ : CkFitted d).up x (a * z.1 + b, a ^ 2 * z.2) = .ok (a * r.1 + b, a ^ 2 * r.2) := by
  have he : F.mulVec (Fin.append (0 : Fin q → ℝ) c) = fun _ => 1 := by
    funext k
    show F k ⬝ᵥ _ = 1
    rw [hF]
    exact row_dot_const _ _ (hc _)
  have hr := rescaled h h' ha (design_cols hM hF hF') he hy
  refine ⟨_, up_eq h x z, ?_⟩
  rw [up_eq h' x]
  have m := rescale_mean hr (Fin.append (fun i => g x i * z.1) (f x)) (Fin.append (fun i => g x i * (a * z.1 + b)) (f x)) (fun k => ckCorr theta (ckDist x (X k))) (row_rescale a b z.1 x (hM x)) (row_dot_const _ _ (hc x))
  have k := rescale_quad hr (Fin.append (fun i => g x i * z.1) (f x)) (Fin.append (fun i => g x i * (a * z.1 + b)) (f x)) (fun k => ckCorr theta (ckDist x (X k))) (row_rescale a b z.1 x (hM x))
  have rho := rescale_rho ha hr (g x)
  have s := hr.sigma
  refine congrArg Except.ok (Prod.ext ?_ ?_)
  · exact m
  · simp only [CkFitted.row] at k rho ⊢
    refine Eq.trans (congrArg₂ (· + ·) (congrArg₂ (· + ·) (congrArg (· * (a ^ 2 * z.2)) rho) rfl) (congrArg (P'.sigma2 * ·) k)) ?_
    rw [s]
    exact rescale_ring _ _ _ _ _ _

theorem low_rescale {nug : ℝ} {X : Fin n → Fin d → ℝ} {y y' : Fin n → ℝ} {g : (Fin d → ℝ) → Fin 0 → ℝ} {f : (Fin d → ℝ) → Fin p → ℝ} {F : Matrix (Fin n) (Fin (0 + p)) ℝ} {theta : Fin d → ℝ} {o o'} {P P' : CkPar n (0 + p)}
    (h : Trained nug (⟨⟨⟨n, X, y⟩, 0, p, g, f, F⟩, theta, o⟩ : CkFitted d) P) (h' : Trained nug (⟨⟨⟨n, X, y'⟩, 0, p, g, f, F⟩, theta, o'⟩ : CkFitted d) P') {a b : ℝ} (ha : a ≠ 0) {c : Fin p → ℝ}
    (hc : ∀ x, ∑ i, f x i * c i = 1) (hF : ∀ k, F k = Fin.append (fun i : Fin 0 => (i.elim0 : ℝ)) (f (X k))) (hy : ∀ k, y' k = a * y k + b) (x : Fin d → ℝ) :
    ∃ r : ℝ × ℝ, (⟨⟨⟨n, X, y⟩, 0, p, g, f, F⟩, theta, o⟩ : CkFitted d).low x = .ok r ∧ (⟨⟨⟨n, X, y'⟩, 0, p, g, f, F⟩, theta, o'⟩ : CkFitted d).low x = .ok (a * r.1 + b, a ^ 2 * r.2) := by
  have he : F.mulVec (Fin.append (0 : Fin 0 → ℝ) c) = fun _ => 1 := by
    funext k
    show F k ⬝ᵥ _ = 1
    rw [hF]
    exact row_dot_const _ _ (hc _)
  have hM : ∀ x, g x = (0 : Matrix (Fin p) (Fin 0) ℝ).transpose.mulVec (f x) := fun x => funext fun i => i.elim0
  have e0 : ∀ (u v : Fin 0 → ℝ), u = v := fun u v => funext fun i => i.elim0
  have hcol : F = F * ckT a b (0 : Matrix (Fin p) (Fin 0) ℝ) := design_cols (g := g) (low := 0) hM (fun k => by rw [hF, e0 (fun i : Fin 0 => (i.elim0 : ℝ))]) (fun k => by rw [hF, e0 (fun i : Fin 0 => (i.elim0 : ℝ))])
  have hr := rescaled h h' ha hcol he hy
  have hrow : Fin.append (fun i => g x i * 0) (f x) = (ckT a b (0 : Matrix (Fin p) (Fin 0) ℝ)).transpose.mulVec (Fin.append (fun i => g x i * 0) (f x)) := by
    rw [← row_rescale a b 0 x (hM x), e0 (fun i => g x i * 0)]
  refine ⟨_, low_eq h x, ?_⟩
  rw [low_eq h' x]
  have m := rescale_mean hr (Fin.append (fun i => g x i * 0) (f x)) (Fin.append (fun i => g x i * 0) (f x)) (fun k => ckCorr theta (ckDist x (X k))) hrow (row_dot_const _ _ (hc x))
  have k := rescale_quad hr (Fin.append (fun i => g x i * 0) (f x)) (Fin.append (fun i => g x i * 0) (f x)) (fun k => ckCorr theta (ckDist x (X k))) hrow
  have s := hr.sigma
  refine congrArg Except.ok (Prod.ext ?_ ?_)
  · exact m
  · simp only [CkFitted.row] at k ⊢
    refine Eq.trans (congrArg (fun v => P'.sigma2 * (1 - _ + v)) k) ?_
    rw [s]
    exact mul_assoc _ _ _

theorem comb_rescale {regr rho : CkRegr d} {Mx : Matrix (Fin regr.p) (Fin rho.p) ℝ} (hM : ∀ x, rho.f x = Mx.transpose.mulVec (regr.f x)) (l : CkLevel d) (low : Fin l.n → ℝ) (a b : ℝ) (u : Fin rho.p → ℝ) (c : Fin regr.p → ℝ) (k : Fin l.n) :
    combination regr rho (l.rescale a b) (some fun k => a * low k + b) u c k = combination regr rho l (some low) (a • u) (c + b • Mx.mulVec u) k := by
  have h1 : ∑ i, rho.f (l.X k) i * u i = ∑ i, regr.f (l.X k) i * Mx.mulVec u i := by
    show rho.f (l.X k) ⬝ᵥ u = regr.f (l.X k) ⬝ᵥ Mx.mulVec u
    rw [hM, Matrix.mulVec_transpose, ← Matrix.dotProduct_mulVec]
  show (∑ i, rho.f (l.X k) i * u i) * (a * low k + b) + ∑ i, regr.f (l.X k) i * c i = (∑ i, rho.f (l.X k) i * (a • u) i) * low k + ∑ i, regr.f (l.X k) i * (c + b • Mx.mulVec u) i
  simp only [Pi.add_apply, Pi.smul_apply, smul_eq_mul, mul_add, Finset.sum_add_distrib]
  have h2 : ∑ i, rho.f (l.X k) i * (a * u i) = a * ∑ i, rho.f (l.X k) i * u i := by
    rw [Finset.mul_sum]
    exact Finset.sum_congr rfl fun i _ => by ring
  have h3 : ∑ i, regr.f (l.X k) i * (b * Mx.mulVec u i) = b * ∑ i, regr.f (l.X k) i * Mx.mulVec u i := by
    rw [Finset.mul_sum]
    exact Finset.sum_congr rfl fun i _ => by ring
  rw [h2, h3, ← h1]
  ring

theorem comb_lin (f c e : Fin m → ℝ) (a b t y : ℝ) (ha : a ≠ 0) (he : ∑ i, f i * e i = 1) (h : t * a + ∑ i, f i * c i = a * y + b) : t + ∑ i, f i * (a⁻¹ • (c - b • e)) i = y := by
  have : ∑ i, f i * (a⁻¹ • (c - b • e)) i = a⁻¹ * (∑ i, f i * c i - b * ∑ i, f i * e i) := by
    rw [Finset.mul_sum, ← Finset.sum_sub_distrib, Finset.mul_sum]
    exact Finset.sum_congr rfl fun i _ => by simp only [Pi.smul_apply, Pi.sub_apply, smul_eq_mul]; ring
  rw [this, he]
  field_simp
  linarith

theorem levelOk_none {regr rho : CkRegr d} {a b : ℝ} (ha : a ≠ 0) {e : Fin regr.p → ℝ} (he : ∀ x, ∑ i, regr.f x i * e i = 1) {l : CkLevel d} (h : LevelOk regr rho l none) : LevelOk regr rho (l.rescale a b) none where
  two := h.two
  distinct := h.distinct
  size := h.size
  determined := h.determined
  notExact := by
    intro u c
    obtain ⟨k, hk⟩ := h.notExact u (a⁻¹ • (c - b • e))
    refine ⟨k, fun hc => hk ?_⟩
    have := comb_lin (regr.f (l.X k)) c e a b 0 (l.y k) ha (he _) (by rw [zero_mul, zero_add]; exact hc)
    rw [zero_add] at this
    exact this

theorem levelOk_some {regr rho : CkRegr d} {a b : ℝ} (ha : a ≠ 0) {e : Fin regr.p → ℝ} (he : ∀ x, ∑ i, regr.f x i * e i = 1) {Mx : Matrix (Fin regr.p) (Fin rho.p) ℝ} (hM : ∀ x, rho.f x = Mx.transpose.mulVec (regr.f x)) {l : CkLevel d} {low : Fin l.n → ℝ}
    (h : LevelOk regr rho l (some low)) : LevelOk regr rho (l.rescale a b) (some fun k => a * low k + b) where
  two := h.two
  distinct := h.distinct
  size := h.size
  determined := by
    intro u c hc
    obtain ⟨h1, h2⟩ := h.determined (a • u) (c + b • Mx.mulVec u) fun k => (comb_rescale hM l low a b u c k).symm.trans (hc k)
    have hu : u = 0 := (smul_eq_zero.mp (h1 rfl)).resolve_left ha
    refine ⟨fun _ => hu, ?_⟩
    rwa [hu, Matrix.mulVec_zero, smul_zero, add_zero] at h2
  notExact := by
    intro u c
    obtain ⟨k, hk⟩ := h.notExact u (a⁻¹ • (c + b • Mx.mulVec u - b • e))
    refine ⟨k, fun hc => hk ?_⟩
    have h1 := (comb_rescale hM l low a b u c k).symm.trans hc
    refine comb_lin (regr.f (l.X k)) (c + b • Mx.mulVec u) e a b ((∑ i, rho.f (l.X k) i * u i) * low k) (l.y k) ha (he _) (Eq.trans ?_ h1)
    show _ = (∑ i, rho.f (l.X k) i * (a • u) i) * low k + _
    congr 1
    simp only [Pi.smul_apply, smul_eq_mul, Finset.sum_mul]
    exact Finset.sum_congr rfl fun i _ => by ring

theorem levelsOk_rescale {regr rho : CkRegr d} {a b : ℝ} (ha : a ≠ 0) {e : Fin regr.p → ℝ} (he : ∀ x, ∑ i, regr.f x i * e i = 1) {Mx : Matrix (Fin regr.p) (Fin rho.p) ℝ} (hM : ∀ x, rho.f x = Mx.transpose.mulVec (regr.f x)) :
    ∀ (ls : List (CkLevel d)) (prev : Option (CkLevel d)), LevelsOk regr rho prev ls → LevelsOk regr rho (prev.map (CkLevel.rescale a b)) (ls.map (CkLevel.rescale a b)) := by
  intro ls
  induction ls with
  | nil => intro prev _; cases prev <;> trivial
  | cons l ls ih =>
    intro prev h
    cases prev with
    | none => exact ⟨levelOk_none ha he h.1, ih (some l) h.2⟩
    | some pl =>
      obtain ⟨⟨hle, hl⟩, hr⟩ := h
      exact ⟨⟨hle, levelOk_some ha he hM hl⟩, ih (some l) hr⟩

theorem up_cons {L : CkFitted d} {Ls : List (CkFitted d)} {x : Fin d → ℝ} {z r : ℝ × ℝ} (h : L.up x z = .ok r) : ckUp x (L :: Ls) z = ckUp x Ls r := by
  simp only [ckUp, h]

theorem predict_cons {M : CkModel d} {L : CkFitted d} {Ls : List (CkFitted d)} {x : Fin d → ℝ} {r : ℝ × ℝ} (hM : M.fitted = L :: Ls) (h : L.low x = .ok r) : ckPredict M x = ckUp x Ls r := by
  unfold ckPredict
  rw [hM]
  simp only [h]

theorem ups_rescale {lib : CkLib} (hl : lib.Exact) {nug : ℝ} (hn : 0 < nug) {regr rho : CkRegr d} {a b : ℝ} (ha : a ≠ 0) {e : Fin regr.p → ℝ} (he : ∀ x, ∑ i, regr.f x i * e i = 1) {Mx : Matrix (Fin regr.p) (Fin rho.p) ℝ} (hM : ∀ x, rho.f x = Mx.transpose.mulVec (regr.f x)) (one one' : Bool) (x : Fin d → ℝ) :
    ∀ (ls : List (CkLevel d)) (pl : CkLevel d) (i : Nat) (ts : List (List ℝ)) (Ds Ds' : List (CkDesign d)) (rs rs' : List (List ℝ × CkFitted d)) (z : ℝ × ℝ), (∀ t ∈ ts, ∀ v ∈ t, 0 < v) → ts.length = ls.length →
    ckDesigns regr rho one (some pl) ls = .ok Ds → ckDesigns regr rho one' (some (pl.rescale a b)) (ls.map (CkLevel.rescale a b)) = .ok Ds' → ckFits lib nug i (ts.map some) Ds = .ok rs → ckFits lib nug i (ts.map some) Ds' = .ok rs' →
    ∃ r : ℝ × ℝ, ckUp x (rs.map fun r => r.2) z = .ok r ∧ ckUp x (rs'.map fun r => r.2) (a * z.1 + b, a ^ 2 * z.2) = .ok (a * r.1 + b, a ^ 2 * r.2) := by
  intro ls
  induction ls with
  | nil =>
    intro pl i ts Ds Ds' rs rs' z _ hlen hD hD' hr hr'
    obtain rfl := List.length_eq_zero_iff.mp hlen
    simp only [ckDesigns, List.map_nil] at hD hD'
    cases hD
    cases hD'
    simp only [List.map_nil, ckFits] at hr hr'
    cases hr
    cases hr'
    exact ⟨z, rfl, rfl⟩
  | cons l ls ih =>
    intro pl i ts Ds Ds' rs rs' z hpos hlen hD hD' hr hr'
    cases ts with
    | nil => simp at hlen
    | cons t ts =>
      simp only [ckDesigns, List.map_cons] at hD hD'
      split at hD
      · cases hD
      rename_i D hD1
      split at hD
      · cases hD
      rename_i Ds1 hDs1
      cases hD
      split at hD'
      · cases hD'
      rename_i D' hD1'
      split at hD'
      · cases hD'
      rename_i Ds1' hDs1'
      cases hD'
      simp only [List.map_cons, ckFits] at hr hr'
      split at hr
      · cases hr
      rename_i w hw
      split at hr
      · cases hr
      rename_i ws hws
      cases hr
      split at hr'
      · cases hr'
      rename_i w' hw'
      split at hr'
      · cases hr'
      rename_i ws' hws'
      cases hr'
      obtain ⟨-, c1, s1⟩ := check_ok hD1
      obtain ⟨-, c2, s2⟩ := check_ok hD1'
      obtain ⟨hle, rfl⟩ := c1 pl rfl
      obtain ⟨hle', rfl⟩ := c2 _ rfl
      obtain ⟨t1, ⟨D1, th1, p1⟩⟩ := w
      obtain ⟨t2, ⟨D2, th2, p2⟩⟩ := w'
      obtain ⟨rfl, f2, f3, f4, f5⟩ := fitLevel_given hl (hpos t (by simp)) s1 hw
      obtain ⟨rfl, g2, g3, g4, g5⟩ := fitLevel_given hl (hpos _ (by simp)) s2 hw'
      simp only at f2 f3 f4 f5 g2 g3 g4 g5
      subst f2
      subst g2
      obtain rfl : th1 = th2 := Except.ok.inj (f3.symm.trans g3)
      obtain ⟨P, hP⟩ := Option.ne_none_iff_exists'.mp (f5 hn)
      obtain ⟨P', hP'⟩ := Option.ne_none_iff_exists'.mp (g5 hn)
      obtain ⟨r, u1, u2⟩ := up_rescale (n := l.n) (q := rho.p) (p := regr.p) (X := l.X) (y := l.y) (g := rho.f) (f := regr.f) (low := ckLast pl l.n hle) (f4 P hP) (g4 P' hP') ha he hM (fun k => rfl) (fun k => rfl) (fun k => rfl) x z
      obtain ⟨r', v1, v2⟩ := ih l (i + 1) ts Ds1 Ds1' ws ws' r (fun t ht => hpos t (by simp [ht])) (by simpa using hlen) hDs1 hDs1' hws hws'
      refine ⟨r', ?_, ?_⟩
      · exact (up_cons u1).trans v1
      · exact (up_cons u2).trans v2

theorem fit_parts {lib : CkLib} {nug : ℝ} {M M' : CkModel d} {levels : List (CkLevel d)} {ts : List (List ℝ)} (ht : M.theta.expand levels.length = .ok (ts.map some)) (h : ckFit lib nug M levels = .ok M') :
    (∀ t ∈ ts, ∀ v ∈ t, 0 < v) ∧ ∃ Ds rs, ckDesigns M.regr M.rho (levels.length = 1) none levels = .ok Ds ∧ ckFits lib nug 0 (ts.map some) Ds = .ok rs ∧ M'.fitted = rs.map fun r => r.2 := by
  unfold ckFit at h
  split at h
  · cases h
  simp only [ht] at h
  split at h
  · cases h
  rename_i hpos
  push Not at hpos
  split at h
  · cases h
  rename_i Ds hDs
  split at h
  · cases h
  rename_i rs hrs
  cases h
  exact ⟨fun t htm v hv => hpos (some t) (List.mem_map.mpr ⟨t, htm, rfl⟩) t rfl v hv, Ds, rs, hDs, hrs, rfl⟩

/-- C135: training in other units of the outputs succeeds as well and gives the same predictions in those units. -/
theorem C135_rescale_partial (lib : CkLib) (hl : lib.Exact) (nug : ℝ) (hn : 0 < nug) (M M1 : CkModel d) (levels : List (CkLevel d)) (hv : M.theta.Valid d levels.length) (a b : ℝ) (ha : a ≠ 0)
    (hc : ∃ e : Fin M.regr.p → ℝ, ∀ x, ∑ i, M.regr.f x i * e i = 1) (hr : ∀ j, ∃ c : Fin M.regr.p → ℝ, ∀ x, M.rho.f x j = ∑ i, M.regr.f x i * c i) (h1 : ckTrain lib nug M levels = .ok M1) :
    ∃ M2, ckTrain lib nug M (levels.map (CkLevel.rescale a b)) = .ok M2 ∧ ∀ x, ∃ m s, ckSurrogate M1 x = .ok (m, s) ∧ ckSurrogate M2 x = .ok (a * m + b, |a| * s) := by
  obtain ⟨e, he⟩ := hc
  choose c hc using hr
  have hM : ∀ x, M.rho.f x = (Matrix.of fun i j => c j i : Matrix (Fin M.regr.p) (Fin M.rho.p) ℝ).transpose.mulVec (M.regr.f x) := by
    intro x
    funext j
    rw [hc]
    simp only [Matrix.mulVec, dotProduct, Matrix.transpose_apply, Matrix.of_apply]
    exact Finset.sum_congr rfl fun i _ => mul_comm _ _
  obtain ⟨hne, hok⟩ := (C136_trains_iff lib hl nug hn M levels hv).mp ⟨M1, h1⟩
  have hok' : LevelsOk M.regr M.rho none (levels.map (CkLevel.rescale a b)).reverse := by
    rw [← List.map_reverse]
    exact levelsOk_rescale ha he hM levels.reverse none hok
  obtain ⟨M2, h2⟩ := (C136_trains_iff lib hl nug hn M (levels.map (CkLevel.rescale a b)) (by rw [List.length_map]; exact hv)).mpr ⟨by simpa using hne, hok'⟩
  refine ⟨M2, h2, fun x => ?_⟩
  obtain ⟨ts, hts, -⟩ := hv
  obtain ⟨hpos, Ds, rs, d1, d2, d3⟩ := fit_parts (levels := levels.reverse) (by rw [List.length_reverse]; exact hts) h1
  obtain ⟨-, Ds', rs', d1', d2', d3'⟩ := fit_parts (levels := (levels.map (CkLevel.rescale a b)).reverse) (by rw [List.length_reverse, List.length_map]; exact hts) h2
  have hlen := expand_len hts
  rw [← List.map_reverse] at d1'
  have key : ∃ r : ℝ × ℝ, ckPredict M1 x = .ok r ∧ ckPredict M2 x = .ok (a * r.1 + b, a ^ 2 * r.2) := by
    cases hlv : levels.reverse with
    | nil => exact absurd (List.reverse_eq_nil_iff.mp hlv) hne
    | cons l ls =>
      rw [hlv] at d1 d1'
      cases ts with
      | nil =>
        have := congrArg List.length hlv
        simp at this hlen
        omega
      | cons t ts =>
        simp only [ckDesigns, List.map_cons] at d1 d1'
        split at d1
        · cases d1
        rename_i D hD1
        split at d1
        · cases d1
        rename_i Ds1 hDs1
        cases d1
        split at d1'
        · cases d1'
        rename_i D' hD1'
        split at d1'
        · cases d1'
        rename_i Ds1' hDs1'
        cases d1'
        simp only [List.map_cons, ckFits] at d2 d2'
        split at d2
        · cases d2
        rename_i w hw
        split at d2
        · cases d2
        rename_i ws hws
        cases d2
        split at d2'
        · cases d2'
        rename_i w' hw'
        split at d2'
        · cases d2'
        rename_i ws' hws'
        cases d2'
        obtain ⟨c1, -, s1⟩ := check_ok hD1
        obtain ⟨c2, -, s2⟩ := check_ok hD1'
        obtain rfl := c1 rfl
        obtain rfl := c2 rfl
        obtain ⟨t1, ⟨D1, th1, p1⟩⟩ := w
        obtain ⟨t2, ⟨D2, th2, p2⟩⟩ := w'
        obtain ⟨rfl, f2, f3, f4, f5⟩ := fitLevel_given hl (hpos t (by simp)) s1 hw
        obtain ⟨rfl, g2, g3, g4, g5⟩ := fitLevel_given hl (hpos _ (by simp)) s2 hw'
        simp only at f2 f3 f4 f5 g2 g3 g4 g5
        subst f2
        subst g2
        obtain rfl : th1 = th2 := Except.ok.inj (f3.symm.trans g3)
        obtain ⟨P, hP⟩ := Option.ne_none_iff_exists'.mp (f5 hn)
        obtain ⟨P', hP'⟩ := Option.ne_none_iff_exists'.mp (g5 hn)
        obtain ⟨r, u1, u2⟩ := low_rescale (n := l.n) (p := M.regr.p) (X := l.X) (y := l.y) (f := M.regr.f) (f4 P hP) (g4 P' hP') ha he (fun k => rfl) (fun k => rfl) x
        have hl' : ts.length = ls.length := by
          have := congrArg List.length hlv
          simp at this hlen
          omega
        obtain ⟨r', v1, v2⟩ := ups_rescale hl hn ha he hM _ _ x ls l 1 ts Ds1 Ds1' ws ws' r (fun t ht => hpos t (by simp [ht])) hl' hDs1 hDs1' hws hws'
        refine ⟨r', ?_, ?_⟩
        · exact (predict_cons d3 u1).trans v1
        · exact (predict_cons d3' u2).trans v2
  obtain ⟨r, p1, p2⟩ := key
  refine ⟨r.1, Real.sqrt |r.2|, ?_, ?_⟩
  · unfold ckSurrogate
    rw [p1]
  · unfold ckSurrogate
    rw [p2]
    simp only [abs_mul, abs_pow, Except.ok.injEq, Prod.mk.injEq, true_and]
    rw [Real.sqrt_mul (by positivity), Real.sqrt_sq (abs_nonneg a)]

theorem shapeLoop_ok (ss : List ((Nat × Nat) × Nat)) : ∀ (i prev : Nat), 1 < i → (ckShapeLoop i prev ss = .ok () ↔ ∀ s ∈ ss, s.1.1 = s.2 ∧ s.1.2 = prev) := by
  induction ss with
  | nil => intro i prev _; simp [ckShapeLoop]
  | cons s ss ih =>
    intro i prev hi
    unfold ckShapeLoop
    by_cases h1 : s.1.2 = prev
    · rw [if_neg (by simp [h1])]
      by_cases h2 : s.1.1 = s.2
      · rw [if_neg (by simp [h2]), ih _ _ (by omega), h1]
        simp [h1, h2]
      · rw [if_pos h2]
        simp [h2]
    · rw [if_pos ⟨hi, h1⟩]
      simp [h1]

/-- C138: training data are accepted exactly if there is at least one level, every level has as many outputs as samples, and all levels except the lowest have the same number of inputs. -/
theorem C138_shapes_partial (X : List (Nat × Nat)) (y : List Nat) : ckShapes X y = .ok () ↔ X ≠ [] ∧ X.map (fun s => s.1) = y ∧ ∃ c, ∀ s ∈ X.drop 1, s.2 = c := by
  have hzip : ∀ (X : List (Nat × Nat)) (y : List Nat), X.length = y.length → ((∀ s ∈ X.zip y, s.1.1 = s.2) ↔ X.map (fun s => s.1) = y) := by
    intro X
    induction X with
    | nil => intro y h; cases y <;> simp at h ⊢
    | cons a X ih =>
      intro y h
      cases y with
      | nil => simp at h
      | cons b y =>
        simp only [List.zip_cons_cons, List.forall_mem_cons, List.map_cons, List.cons.injEq]
        rw [ih y (by simpa using h)]
  have hcol : ∀ (c : Nat) (X : List (Nat × Nat)) (y : List Nat), X.length = y.length → ((∀ s ∈ X.zip y, s.1.1 = s.2 ∧ s.1.2 = c) ↔ X.map (fun s => s.1) = y ∧ ∀ s ∈ X, s.2 = c) := by
    intro c X y h
    rw [← hzip X y h]
    constructor
    · intro hs
      refine ⟨fun s h => (hs s h).1, fun s hsX => ?_⟩
      obtain ⟨i, hi, rfl⟩ := List.getElem_of_mem hsX
      have hm : (X[i], y[i]'(by omega)) ∈ X.zip y := by
        rw [List.mem_iff_getElem]
        exact ⟨i, by simp; omega, by simp⟩
      exact (hs _ hm).2
    · rintro ⟨h1, h2⟩ s hs
      exact ⟨h1 s hs, h2 s.1 (List.of_mem_zip (show (s.1, s.2) ∈ X.zip y from hs)).1⟩
  unfold ckShapes
  by_cases hl : X.length = y.length
  · rw [if_neg (by simp [hl])]
    match X, y, hl with
    | [], [], _ => simp [ckShapeLoop]
    | [a], [b], _ =>
      by_cases h : a.1 = b <;> simp [ckShapeLoop, h]
    | a :: a' :: X, b :: b' :: y, hl =>
      have hl' : X.length = y.length := by simpa using hl
      by_cases h : a.1 = b
      · by_cases h' : a'.1 = b'
        · have e : ckShapeLoop 0 0 ((a :: a' :: X).zip (b :: b' :: y)) = ckShapeLoop 2 a'.2 (X.zip y) := by
            simp [ckShapeLoop, h, h']
          have key := (shapeLoop_ok (X.zip y) 2 a'.2 (by omega)).trans (hcol a'.2 X y hl')
          have hgoal : (((a :: a' :: X).map fun s => s.1) = b :: b' :: y ∧ ∃ c, ∀ s ∈ (a :: a' :: X).drop 1, s.2 = c) ↔ X.map (fun s => s.1) = y ∧ ∀ s ∈ X, s.2 = a'.2 := by
            simp only [List.map_cons, h, h', List.cons.injEq, true_and, List.drop_succ_cons, List.drop_zero, List.forall_mem_cons]
            refine and_congr_right fun _ => ⟨?_, fun h => ⟨a'.2, rfl, h⟩⟩
            rintro ⟨c, rfl, h⟩
            exact h
          rw [hgoal, ← key, e]
          cases ckShapeLoop 2 a'.2 (X.zip y) <;> simp
        · have e : ckShapeLoop 0 0 ((a :: a' :: X).zip (b :: b' :: y)) = .error .ValueError := by
            simp [ckShapeLoop, h, h']
          rw [e]
          simp [h']
      · have e : ckShapeLoop 0 0 ((a :: a' :: X).zip (b :: b' :: y)) = .error .ValueError := by
          simp [ckShapeLoop, h]
        rw [e]
        simp [h]
  · rw [if_pos hl]
    simp only [reduceCtorEq, false_iff, not_and]
    intro _ h
    exact absurd (by rw [← h, List.length_map]) hl

/-- C138 is false of the lowest level: two levels with different numbers of inputs are accepted. -/
theorem C138_lowest_refuted : ¬ ∀ (X : List (Nat × Nat)) (y : List Nat), ckShapes X y = .ok () → ∀ s ∈ X, ∀ s' ∈ X, s.2 = s'.2 := by
  intro h
  have := h [(3, 1), (3, 2)] [3, 3] rfl (3, 1) (by simp) (3, 2) (by simp)
  simp at this

example : ckShapes [(3, 1), (3, 2), (2, 2)] [3, 3, 2] = .ok () ∧ ckShapes [(3, 1), (3, 2), (2, 1)] [3, 3, 2] = .error .ValueError ∧ ckShapes [(3, 1)] [2] = .error .ValueError := ⟨rfl, rfl, rfl⟩

/-- The surrogate for floats never predicts anything. -/
theorem finding_float (M : CkModel d) (x : Fin d → ℝ) : ∃ e, ckFloat M x = .error e := by
  unfold ckFloat
  split
  · exact ⟨_, rfl⟩
  · exact ⟨_, rfl⟩

/-- C132: the assumptions of `C132_interpolates_partial` can be met, without a nugget. -/
example : ∃ M', ckTrain (exactLib tryTwo) 0 ⟨constantRegr 1, constantRegr 1, .all (some [1]), []⟩ [twoSamples 0 1] = .ok M' := by
  have hs : (twoDesign 0 1).q + (twoDesign 0 1).p < (twoDesign 0 1).lvl.n := by simp [twoDesign, ckDesign, constantRegr, twoSamples]
  obtain ⟨P, v, h⟩ := rlf_ok_of (exactLib_exact tryTwo) (two_posdef (theta := fun _ => 1) (by norm_num) 0 1) hs (two_adequate (by norm_num))
  have hf : ckFitLevel (exactLib tryTwo) 0 0 (some [1]) (twoDesign 0 1) = .ok ([1], ⟨twoDesign 0 1, fun _ => 1, some P⟩) := by
    unfold ckFitLevel
    simp only [theta_one, h]
    rw [if_neg (by simp)]
  unfold ckTrain ckFit
  rw [if_neg (by simp)]
  simp only [List.reverse_cons, List.reverse_nil, List.nil_append, List.length_singleton, CkTheta.expand, List.replicate_one]
  rw [if_neg]
  · simp only [ckDesigns, two_check, ckFits, hf]
    exact ⟨_, rfl⟩
  · rintro ⟨t, ht, hn⟩
    rw [List.mem_singleton] at ht
    refine hn fun l hl v hv => ?_
    rw [ht] at hl
    cases hl
    rw [List.mem_singleton.mp hv]
    norm_num

/-- C135: the built in regressions contain the constants, and a constant or linear `rho_regr` is contained in a linear `regr`. -/
example (d : Nat) : (∃ e : Fin (constantRegr d).p → ℝ, ∀ x, ∑ i, (constantRegr d).f x i * e i = 1) ∧ (∀ j, ∃ c : Fin (constantRegr d).p → ℝ, ∀ x, (constantRegr d).f x j = ∑ i, (constantRegr d).f x i * c i) ∧
    (∃ e : Fin (linearRegr d).p → ℝ, ∀ x, ∑ i, (linearRegr d).f x i * e i = 1) ∧ ∀ j, ∃ c : Fin (linearRegr d).p → ℝ, ∀ x, (linearRegr d).f x j = ∑ i, (linearRegr d).f x i * c i := by
  have key : ∀ (r : CkRegr d) (j : Fin r.p) (x : Fin d → ℝ), r.f x j = ∑ i, r.f x i * (Pi.single j 1 : Fin r.p → ℝ) i := by
    intro r j x
    rw [Finset.sum_eq_single j (fun i _ hi => by rw [Pi.single_eq_of_ne hi, mul_zero]) (fun h => absurd (Finset.mem_univ j) h), Pi.single_eq_same, mul_one]
  refine ⟨⟨Pi.single (0 : Fin 1) 1, fun x => (key (constantRegr d) (0 : Fin 1) x).symm.trans rfl⟩, fun j => ⟨_, key _ j⟩, ⟨Pi.single (0 : Fin (d + 1)) 1, fun x => (key (linearRegr d) (0 : Fin (d + 1)) x).symm.trans ?_⟩, fun j => ⟨_, key _ j⟩⟩
  exact Fin.cons_zero (α := fun _ => ℝ) 1 x
end
/-! ## Findings: failed decompositions, a failing message -/

/-- A finding: with correlation parameters given, a failed Cholesky decomposition is no error; the level is left without the attributes that `predict` needs. -/
theorem finding_cholesky_passes (lib : CkLib) (nug : ℝ) (i : Nat) (t : List ℝ) (th : Fin d → ℝ) (D : CkDesign d) (ht : ckTheta d t = .ok th) (hc : lib.chol (ckR nug D.lvl.X th) = none) :
    ckFitLevel lib nug i (some t) D = .ok (t, ⟨D, th, none⟩) := by
  simp only [ckFitLevel, ht, ckRlf, hc]
  simp

/-- A finding: a call of the optimizer with a failed decomposition leaves the attributes of the call before. -/
theorem finding_cholesky_kept (lib : CkLib) (nug : ℝ) (D : CkDesign d) (xs : List (List ℝ)) (x : List ℝ) (v : CkVal) (hx : ckEval lib nug D x = .ok (none, v)) :
    ∀ st st', ckRun lib nug D xs st = .ok st' → ckRun lib nug D (xs ++ [x]) st = .ok st' := by
  induction xs with
  | nil =>
    intro st st' h
    simp only [ckRun, List.nil_append, hx, ckKeep] at h ⊢
    exact h
  | cons a xs ih =>
    intro st st' h
    simp only [ckRun, List.cons_append] at h ⊢
    cases ha : ckEval lib nug D a with
    | error e => rw [ha] at h; cases h
    | ok r => rw [ha] at h; exact ih _ _ h

/-- A finding: with a single level and too few samples the message of the error fails itself. -/
theorem finding_too_few_message (regr rho : CkRegr d) (l : CkLevel d) (hn : 2 ≤ l.n) (hd : ¬ ∃ i j : Fin l.n, i < j ∧ ∑ k, ckDist (l.X i) (l.X j) k = 0) (hp : l.n ≤ regr.p) :
    ckCheck regr rho true none l = .error (.py .NameError) ∧ ckCheck regr rho false none l = .error .exception := by
  have h1 : ¬ l.n < 2 := by omega
  simp only [ckCheck, if_neg h1, if_neg hd, if_pos (show regr.p ≥ l.n from hp)]
  simp

end OpenMDAO
