import Verif.Spec.Gmres
import Verif.Lemmas.LinearGS
/-! Helper lemmas for C91 to C94. -/
namespace OpenMDAO
set_option linter.unusedSectionVars false

variable {ι π K V : Type} [Fintype ι] [Fintype π] [DecidableEq ι] [Field K]

theorem gsStepFwd_congr (G : LinGroup ι π K) (S : GSSolve ι π K) (rhs : ι → K) (s t : GSState ι π K) (c : Nat) (h : s.du = t.du) :
    (gsStepFwd G S rhs s c).du = (gsStepFwd G S rhs t c).du := by
  have key : ∀ i, G.owner i = c → (subApplyFwd G c (xferFwd G c s)).dr i = (subApplyFwd G c (xferFwd G c t)).dr i := by
    intro i hi
    simp only [subApplyFwd, xferInside, xferFwd, hi, if_true, h]
    congr 1
    refine Finset.sum_congr rfl fun k _ => ?_
    by_cases hk : G.powner k = c
    · by_cases hs : G.owner (G.src k) = c <;> simp [hk, hs]
    · simp [hk]
  have key2 : (fun i => if G.owner i = c then -(subApplyFwd G c (xferFwd G c s)).dr i + rhs i else 0) =
      fun i => if G.owner i = c then -(subApplyFwd G c (xferFwd G c t)).dr i + rhs i else 0 := by
    funext i
    by_cases hi : G.owner i = c
    · simp [hi, key i hi]
    · simp [hi]
  funext j
  by_cases hj : G.owner j = c
  · simp only [gsStepFwd, hj, if_true, key2]
  · rw [gsStepFwd_other G S rhs s c j hj, gsStepFwd_other G S rhs t c j hj, h]

theorem gsSweepFwd_congr (G : LinGroup ι π K) (S : GSSolve ι π K) (rhs : ι → K) (order : List Nat) (s t : GSState ι π K) (h : s.du = t.du) :
    (gsSweepFwd G S rhs order s).du = (gsSweepFwd G S rhs order t).du := by
  unfold gsSweepFwd
  induction order generalizing s t with
  | nil => exact h
  | cons c l ih => exact ih _ _ (gsStepFwd_congr G S rhs s t c h)

theorem gsStepRev_congr (G : LinGroup ι π K) (S : GSSolve ι π K) (rhs : ι → K) (s t : GSState ι π K) (c : Nat) (h : s.dp = t.dp) :
    (gsStepRev G S rhs s c).dp = (gsStepRev G S rhs t c).dp ∧ ∀ i, (G.owner i = c ∨ s.dr i = t.dr i) →
      (gsStepRev G S rhs s c).dr i = (gsStepRev G S rhs t c).dr i := by
  have hdr : ∀ i, (G.owner i = c ∨ s.dr i = t.dr i) → (gsStepRev G S rhs s c).dr i = (gsStepRev G S rhs t c).dr i := by
    intro i hi
    by_cases hc : G.owner i = c
    · simp only [gsStepRev, subApplyRev, xferRev, hc, if_true, h]
    · simp only [gsStepRev, subApplyRev, xferRev, hc, if_false]
      exact hi.resolve_left hc
  refine ⟨?_, hdr⟩
  funext k
  by_cases hk : G.powner k = c
  · have e : ∀ u : GSState ι π K, (gsStepRev G S rhs u c).dp k = ∑ i : ι, if G.owner i = c then G.jp i k * (gsStepRev G S rhs u c).dr i else 0 := by
      intro u
      simp only [gsStepRev, subApplyRev, hk, if_true]
    rw [e, e]
    refine Finset.sum_congr rfl fun i _ => ?_
    by_cases hc : G.owner i = c
    · rw [hdr i (Or.inl hc)]
    · simp [hc]
  · simp only [gsStepRev, subApplyRev, xferRev, hk, if_false, h]

theorem gsFoldRev_congr (G : LinGroup ι π K) (S : GSSolve ι π K) (rhs : ι → K) (l : List Nat) (s t : GSState ι π K) (h : s.dp = t.dp) :
    (l.foldl (gsStepRev G S rhs) s).dp = (l.foldl (gsStepRev G S rhs) t).dp ∧ ∀ i, (G.owner i ∈ l ∨ s.dr i = t.dr i) →
      (l.foldl (gsStepRev G S rhs) s).dr i = (l.foldl (gsStepRev G S rhs) t).dr i := by
  induction l generalizing s t with
  | nil => exact ⟨h, fun i hi => hi.resolve_left (by simp)⟩
  | cons c l ih =>
    obtain ⟨h1, h2⟩ := gsStepRev_congr G S rhs s t c h
    obtain ⟨h3, h4⟩ := ih _ _ h1
    refine ⟨h3, fun i hi => h4 i ?_⟩
    rcases hi with hi | hi
    · rcases List.mem_cons.1 hi with hc | hc
      · exact Or.inr (h2 i (Or.inl hc))
      · exact Or.inl hc
    · exact Or.inr (h2 i (Or.inr hi))

/-- Two runs of the loop from related states. -/
theorem lnLoop_rel [LinearOrder K] (o : LnOpts K) (sweep : GSState ι π K → GSState ι π K) (norm : GSState ι π K → GSState ι π K × K) (R R' : GSState ι π K → GSState ι π K → Prop)
    (hR : ∀ s t, R' s t → R s t) (hs : ∀ s t, R s t → R' (sweep s) (sweep t)) (hn : ∀ s t, R' s t → R' (norm s).1 (norm t).1 ∧ (norm s).2 = (norm t).2) :
    ∀ (n iter : Nat) (s t : GSState ι π K) (f : K), R s t → (iter = 0 ∨ R' s t) →
      (lnLoop o sweep norm iter s f n).2 = (lnLoop o sweep norm iter t f n).2 ∧
        ((lnLoop o sweep norm iter s f n).2.1 = 0 ∨ R' (lnLoop o sweep norm iter s f n).1 (lnLoop o sweep norm iter t f n).1) := by
  intro n
  induction n with
  | zero => intro iter s t f _ h; exact ⟨rfl, h⟩
  | succ n ih =>
    intro iter s t f h h0
    simp only [lnLoop]
    by_cases hc : f > o.atol ∧ f / 1 > o.rtol
    · rw [if_pos hc, if_pos hc]
      have h1 := hs s t h
      by_cases hm : o.maxiter = 1
      · rw [if_pos hm, if_pos hm]
        exact ih _ _ _ _ (hR _ _ h1) (Or.inr h1)
      · rw [if_neg hm, if_neg hm]
        obtain ⟨h2, h3⟩ := hn _ _ h1
        rw [h3]
        exact ih _ _ _ _ (hR _ _ h2) (Or.inr h2)
    · rw [if_neg hc, if_neg hc]
      exact ⟨rfl, h0⟩

theorem multLin_eq (G : LinGroup ι π K) (hw : G.WF) (fwd : Bool) (v : ι → K) (s : GSState ι π K) : (multLin G fwd v s).1 = G.mul fwd v := by
  cases fwd with
  | true =>
    funext i
    simp only [multLin, if_true, LinGroup.mul]
    rw [groupApplyFwd_dr G hw]
  | false =>
    funext i
    simp only [multLin, Bool.false_eq_true, if_false, LinGroup.mul]
    rw [groupApplyRev_du G hw]

theorem lnSol_putSol (fwd : Bool) (x : ι → K) (s : GSState ι π K) : lnSol fwd (putSol fwd x s) = x := by
  cases fwd <;> rfl

theorem preconLin_eq [LinearOrder K] (nrm : (ι → K) → K) (tiny : K) (fwd : Bool) (P : LinSolver ι π K) (f : (ι → K) → Except PyErr (ι → K)) (hP : P.Is f) (v : ι → K) (s : GSState ι π K) :
    (preconLin nrm tiny fwd P v s).1 = preconOf nrm tiny f v := by
  have key : ∀ u : GSState ι π K, (if fwd then u.dr else u.du) = v →
      (match solveLinearOne nrm tiny fwd P u with | (.error e, t) => (Except.error e, t) | (.ok _, t) => (.ok (lnSol fwd t), t)).1 = preconOf nrm tiny f v := by
    intro u hu
    unfold solveLinearOne preconOf
    simp only [hu]
    by_cases h : nrm v < tiny
    · simp only [h, if_true, lnSol_putSol]
    · simp only [h, if_false]
      have := hP v u
      rcases hr : P v u with ⟨e | x, t⟩
      · rw [hr] at this; simp only [← this]
      · rw [hr] at this; simp only [← this, lnSol_putSol]
  unfold preconLin
  cases fwd
  · exact key _ rfl
  · exact key _ rfl

end OpenMDAO
