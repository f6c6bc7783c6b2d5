import Mathlib.LinearAlgebra.Matrix.Block
import Mathlib.LinearAlgebra.Matrix.Nondegenerate
import Mathlib.LinearAlgebra.Matrix.NonsingularInverse
import Mathlib.Logic.Relation
/-! Solutions of a linear system restricted to the variables between two variables. -/
namespace OpenMDAO
set_option linter.unusedSectionVars false
open Matrix

variable {K : Type} [Field K] {V : Type} [Fintype V] [DecidableEq V]

/-- The solution vanishes outside a set that is closed under dependence and contains the support of the right hand side. -/
theorem solution_support (A : Matrix V V K) (hA : A.det ≠ 0) (P : V → Prop) [DecidablePred P] (hP : ∀ w v, P v → A w v ≠ 0 → P w) (b u : V → K)
    (hb : ∀ v, ¬ P v → b v = 0) (hu : A *ᵥ u = b) : ∀ v, ¬ P v → u v = 0 := by
  have hz : ∀ i, ¬ P i → ∀ j, P j → A i j = 0 := by
    intro i hi j hj
    by_contra hne
    exact hi (hP i j hj hne)
  have hdet := A.twoBlockTriangular_det P hz
  have hdet2 : (toSquareBlockProp A fun i => ¬ P i).det ≠ 0 := by
    intro h0; rw [h0, mul_zero] at hdet; exact hA hdet
  have hv : (toSquareBlockProp A fun i => ¬ P i) *ᵥ (fun v : {v // ¬ P v} => u v) = 0 := by
    funext i
    have h1 : ∑ j : {v // P v}, A i j * u j = 0 := Finset.sum_eq_zero fun j _ => by rw [hz i i.2 j j.2, zero_mul]
    have h2 := Fintype.sum_subtype_add_sum_subtype P (fun j => A i j * u j)
    rw [h1, zero_add] at h2
    have h3 : (A *ᵥ u) i = 0 := by rw [hu, hb i i.2]
    change ∑ j : {v // ¬ P v}, A i j * u j = 0
    rw [h2]; exact h3
  have := Matrix.eq_zero_of_mulVec_eq_zero hdet2 hv
  intro v hv'
  exact congrFun this ⟨v, hv'⟩

/-- One variable depends directly on another. -/
def Dep (A : Matrix V V K) (a b : V) : Prop := A b a ≠ 0

/-- Restricting the system to a set that contains everything between `d` and `r` does not change the derivative of `r` with respect to `d`. -/
theorem reduced_solution (A : Matrix V V K) (rel : V → Prop) [DecidablePred rel] (d r : V) (hrel : ∀ v, Relation.ReflTransGen (Dep A) d v → Relation.ReflTransGen (Dep A) v r → rel v)
    (hd : rel d) (hr : rel r) (hA : A.det ≠ 0) (hR : (toSquareBlockProp A rel).det ≠ 0) (c : K) (u : V → K) (hu : A *ᵥ u = Pi.single d c)
    (x : {v // rel v} → K) (hx : (toSquareBlockProp A rel) *ᵥ x = Pi.single ⟨d, hd⟩ c) : x ⟨r, hr⟩ = u r := by
  classical
  set P : V → Prop := fun v => Relation.ReflTransGen (Dep A) d v with hPdef
  set Q : V → Prop := fun v => Relation.ReflTransGen (Dep A) v r with hQdef
  have hPc : ∀ w v, P v → A w v ≠ 0 → P w := fun w v h1 h2 => h1.tail h2
  have hQc : ∀ w v, Q v → Aᵀ w v ≠ 0 → Q w := fun w v h1 h2 => Relation.ReflTransGen.head h2 h1
  -- the adjoint solution
  have hdT : Aᵀ.det ≠ 0 := by rwa [det_transpose]
  obtain ⟨l, hl⟩ : ∃ l : V → K, Aᵀ *ᵥ l = Pi.single r 1 := by
    refine ⟨(Aᵀ)⁻¹ *ᵥ Pi.single r 1, ?_⟩
    rw [mulVec_mulVec, mul_nonsing_inv _ (by rw [isUnit_iff_ne_zero]; exact hdT), one_mulVec]
  have hlQ := solution_support Aᵀ hdT Q hQc _ l (fun v hv => by
    rw [Pi.single_apply, if_neg]; rintro rfl; exact hv Relation.ReflTransGen.refl) hl
  -- pairing with the adjoint solution
  have hpair : ∀ y : V → K, y r = ∑ w, l w * (A *ᵥ y) w := by
    intro y
    have h1 : ∑ w, l w * (A *ᵥ y) w = ∑ v, (Aᵀ *ᵥ l) v * y v := by
      simp only [mulVec, dotProduct, transpose_apply, Finset.mul_sum, Finset.sum_mul]
      rw [Finset.sum_comm]
      refine Finset.sum_congr rfl fun v _ => Finset.sum_congr rfl fun w _ => by ring
    rw [h1, hl]
    simp [Pi.single_apply]
  -- support of the reduced solution
  have hxP := solution_support (toSquareBlockProp A rel) hR (fun v => P v.1) (fun w v h1 h2 => hPc w v h1 (by simpa [toSquareBlockProp] using h2)) _ x (fun v hv => by
    rw [Pi.single_apply, if_neg]; rintro rfl; exact hv Relation.ReflTransGen.refl) hx
  set y : V → K := fun v => if h : rel v then x ⟨v, h⟩ else 0 with hy
  have hyr : y r = x ⟨r, hr⟩ := by simp [hy, hr]
  rw [← hyr, hpair y, hpair u, hu]
  refine Finset.sum_congr rfl fun w _ => ?_
  by_cases hq : Q w
  · congr 1
    by_cases hw : rel w
    · have h1 : (A *ᵥ y) w = ((toSquareBlockProp A rel) *ᵥ x) ⟨w, hw⟩ := by
        simp only [mulVec, dotProduct, toSquareBlockProp]
        rw [← Fintype.sum_subtype_add_sum_subtype rel (fun j => A w j * y j)]
        have h0 : ∑ j : {v // ¬ rel v}, A w j * y j = 0 := Finset.sum_eq_zero fun j _ => by simp [hy, j.2]
        rw [h0, add_zero]
        refine Finset.sum_congr rfl fun j _ => by simp [hy, j.2]
      rw [h1, hx]
      simp [Pi.single_apply, Subtype.ext_iff]
    · have hnP : ¬ P w := fun h => hw (hrel w h hq)
      have h0 : (A *ᵥ y) w = 0 := by
        simp only [mulVec, dotProduct]
        refine Finset.sum_eq_zero fun v _ => ?_
        by_cases hv : rel v
        · by_cases hpv : P v
          · have : A w v = 0 := by by_contra hne; exact hnP (hPc w v hpv hne)
            rw [this, zero_mul]
          · have := hxP ⟨v, hv⟩ hpv
            simp [hy, hv, this]
        · simp [hy, hv]
      rw [h0, Pi.single_apply, if_neg]
      rintro rfl
      exact hnP Relation.ReflTransGen.refl
  · rw [hlQ w hq, zero_mul, zero_mul]

/-- Without a path there is no derivative. -/
theorem no_path_zero (A : Matrix V V K) (d r : V) (hno : ¬ Relation.ReflTransGen (Dep A) d r) (hA : A.det ≠ 0) (c : K) (u : V → K) (hu : A *ᵥ u = Pi.single d c) : u r = 0 := by
  classical
  exact solution_support A hA (fun v => Relation.ReflTransGen (Dep A) d v) (fun w v h1 h2 => h1.tail h2) _ u (fun v hv => by
    rw [Pi.single_apply, if_neg]; rintro rfl; exact hv Relation.ReflTransGen.refl) hu r hno

end OpenMDAO
