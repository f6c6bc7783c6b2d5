import Verif.Spec.CkParams
import Mathlib.Data.List.Forall2
import Mathlib.Tactic.Linarith
/-!
# C183: correlation parameters that co-kriging accepts
-/
namespace OpenMDAO
set_option linter.unusedSectionVars false

section
variable {K : Type} [Field K] [LinearOrder K]

theorem anyNonPos_iff (x : List K) : anyNonPos x = false ↔ ∀ a ∈ x, 0 < a := by simp [anyNonPos]

theorem forall2_bounds : ∀ (l u : List K), l.length = u.length →
    (List.Forall₂ (fun l u => 0 < l ∧ l ≤ u) l u ↔ (∀ a ∈ l, 0 < a) ∧ ((u.zip l).any fun p => decide (p.1 < p.2)) = false)
  | [], [], _ => by simp
  | [], _ :: _, h => by simp at h
  | _ :: _, [], h => by simp at h
  | a :: l, b :: u, h => by
    have ih := forall2_bounds l u (by simpa using h)
    rw [List.forall₂_cons, ih]
    simp only [List.mem_cons, forall_eq_or_imp, List.zip_cons_cons, List.any_cons, Bool.or_eq_false_iff, decide_eq_false_iff_not, not_lt]
    tauto

theorem posArg_iff (x : Option (List K)) : posArg x = true ↔ ∀ t, x = some t → ∀ a ∈ t, 0 < a := by
  cases x with
  | none => simp [posArg]
  | some t => simp [posArg, anyNonPos_iff]

theorem lenArg_iff (n : Nat) (x : Option (List K)) : lenArg n x = true ↔ ∀ t, x = some t → t.length = n := by
  cases x <;> simp [lenArg]

/-- What the checks of one level amount to. -/
theorem ckCheckLevel_ok (nf : Nat) (A : CkArgs K) (r : CkStart K) : ckCheckLevel nf A = .ok r ↔
    posArg A.theta = true ∧ posArg A.theta0 = true ∧ lenArg r.theta0.length A.thetaL = true ∧ lenArg r.theta0.length A.thetaU = true ∧
    anyNonPos r.thetaL = false ∧ anyLess r.thetaU r.thetaL = some false ∧
    r = ⟨A.theta0.getD (List.replicate nf (1 / 2)), A.thetaL.getD (List.replicate nf (1 / 100000)), A.thetaU.getD (List.replicate nf 50)⟩ := by
  unfold ckCheckLevel
  constructor
  · intro h
    split at h
    · cases h
    rename_i h1
    split at h
    · cases h
    rename_i h2
    dsimp only at h
    split at h
    · cases h
    rename_i h3
    split at h
    · cases h
    rename_i h4
    split at h
    · cases h
    rename_i h5
    injection h with h
    subst h
    simp only [Bool.or_eq_true, not_or, Bool.not_eq_true, bne_eq_false_iff_eq] at h5
    exact ⟨by simpa using h1, by simpa using h2, by simpa using h3, by simpa using h4, h5.1, h5.2, rfl⟩
  · rintro ⟨h1, h2, h3, h4, h5, h6, rfl⟩
    dsimp only at h3 h4 h5 h6
    simp only [h1, h2, h3, h4, h5, h6, Bool.not_true, Bool.false_eq_true, if_false, bne_self_eq_false, Bool.or_false]

theorem getD_uses (x : Option (List K)) (d r : List K) : r = x.getD d ↔ x = some r ∨ x = none ∧ r = d := by
  cases x with
  | none => simp
  | some t => simp [eq_comm]

theorem anyLess_single {u l : List K} (h : u.length = 1 ∨ l.length = 1) : anyLess u l = some false ↔ ∀ a ∈ l, ∀ b ∈ u, a ≤ b := by
  rcases h with h | h
  · obtain ⟨b, rfl⟩ := List.length_eq_one_iff.1 h
    unfold anyLess
    split
    · rename_i h'
      obtain ⟨a, rfl⟩ := List.length_eq_one_iff.1 h'.symm
      simp
    · simp
  · obtain ⟨a, rfl⟩ := List.length_eq_one_iff.1 h
    match u with
    | [] => simp [anyLess]
    | [b] => simp [anyLess]
    | b :: c :: u => simp [anyLess]

/-- **C183 (one start value).** One start value stands for all inputs. It is accepted exactly if it is positive, `theta`, where given, is positive, bounds that are
given are single too, and every lower bound is positive and at most every upper one. -/
theorem C183_single [IsStrictOrderedRing K] (nf : Nat) (A : CkArgs K) (t : K) (hA : A.theta0 = some [t]) (r : CkStart K) :
    ckCheckLevel nf A = .ok r ↔ (∀ t, A.theta = some t → ∀ a ∈ t, 0 < a) ∧ A.Uses nf r ∧ 0 < t ∧ (∀ l, A.thetaL = some l → l.length = 1) ∧
      (∀ u, A.thetaU = some u → u.length = 1) ∧ (∀ l ∈ r.thetaL, 0 < l) ∧ ∀ l ∈ r.thetaL, ∀ u ∈ r.thetaU, l ≤ u := by
  rw [ckCheckLevel_ok, posArg_iff, posArg_iff, lenArg_iff, lenArg_iff, anyNonPos_iff]
  have huse : A.Uses nf r ↔
      r = ⟨A.theta0.getD (List.replicate nf (1 / 2)), A.thetaL.getD (List.replicate nf (1 / 100000)), A.thetaU.getD (List.replicate nf 50)⟩ := by
    obtain ⟨a, b, c⟩ := r
    unfold CkArgs.Uses
    rw [← getD_uses, ← getD_uses, ← getD_uses, CkStart.mk.injEq]
  rw [← huse]
  have key : A.Uses nf r → r.theta0 = [t] ∧ ((∀ l, A.thetaL = some l → l.length = 1) → (∀ u, A.thetaU = some u → u.length = 1) →
      (anyLess r.thetaU r.thetaL = some false ↔ ∀ l ∈ r.thetaL, ∀ u ∈ r.thetaU, l ≤ u)) := by
    rintro ⟨h0, hl, hu⟩
    refine ⟨?_, fun kl ku => ?_⟩
    · rcases h0 with h0 | ⟨h0, _⟩
      · rw [hA] at h0; injection h0 with h0; exact h0.symm
      · rw [hA] at h0; cases h0
    · rcases hl with hl | ⟨_, hl⟩
      · exact anyLess_single (.inr (kl _ hl))
      · rcases hu with hu | ⟨_, hu⟩
        · exact anyLess_single (.inl (ku _ hu))
        · rw [hl, hu]
          have hle : (1 / 100000 : K) ≤ 50 := by
            rw [div_le_iff₀ (by norm_num)]
            norm_num
          constructor
          · intro _ a ha b hb
            rw [List.eq_of_mem_replicate ha, List.eq_of_mem_replicate hb]
            exact hle
          · intro _
            unfold anyLess
            rw [if_pos (by simp)]
            congr 1
            rw [List.any_eq_false]
            rintro ⟨b, a⟩ hp
            have hb := List.eq_of_mem_replicate (List.of_mem_zip hp).1
            have ha := List.eq_of_mem_replicate (List.of_mem_zip hp).2
            simp only [decide_eq_true_eq, not_lt]
            rw [ha, hb]
            exact hle
  constructor
  · rintro ⟨h1, h2, h3, h4, h5, h6, h7⟩
    obtain ⟨e, k⟩ := key h7
    rw [e] at h3 h4
    exact ⟨h1, h7, h2 _ hA t (List.mem_singleton.2 rfl), h3, h4, h5, (k h3 h4).1 h6⟩
  · rintro ⟨h1, h7, h2, h3, h4, h5, h6⟩
    obtain ⟨e, k⟩ := key h7
    rw [e]
    refine ⟨h1, fun t' ht a ha => ?_, h3, h4, h5, (k h3 h4).2 h6, h7⟩
    rw [hA] at ht
    injection ht with ht
    subst ht
    rw [List.mem_singleton.1 ha]
    exact h2

variable [IsStrictOrderedRing K]

/-- **C183 (what is accepted).** One level. Unless start values for another number of inputs are given without both bounds: the parameters are accepted exactly if
`theta`, where given, is positive and the values to be used are sound. -/
theorem C183_accepted_partial (nf : Nat) (A : CkArgs K) (hA : A.Fits nf) (r : CkStart K) :
    ckCheckLevel nf A = .ok r ↔ (∀ t, A.theta = some t → ∀ a ∈ t, 0 < a) ∧ A.Uses nf r ∧ r.Sound := by
  rw [ckCheckLevel_ok, posArg_iff, posArg_iff, lenArg_iff, lenArg_iff, anyNonPos_iff]
  have huse : A.Uses nf r ↔
      r = ⟨A.theta0.getD (List.replicate nf (1 / 2)), A.thetaL.getD (List.replicate nf (1 / 100000)), A.thetaU.getD (List.replicate nf 50)⟩ := by
    obtain ⟨a, b, c⟩ := r
    unfold CkArgs.Uses
    rw [← getD_uses, ← getD_uses, ← getD_uses, CkStart.mk.injEq]
  rw [← huse]
  have hless : r.thetaU.length = r.thetaL.length → (anyLess r.thetaU r.thetaL = some false ↔ ((r.thetaU.zip r.thetaL).any fun p => decide (p.1 < p.2)) = false) := by
    intro h
    unfold anyLess
    rw [if_pos h]
    simp
  have hlen : A.Uses nf r → (∀ t, A.thetaL = some t → t.length = r.theta0.length) → (∀ t, A.thetaU = some t → t.length = r.theta0.length) →
      r.thetaL.length = r.theta0.length ∧ r.thetaU.length = r.theta0.length := by
    rintro ⟨h0, hl, hu⟩ kl ku
    have h0' : (A.thetaL = none ∨ A.thetaU = none) → r.theta0.length = nf := by
      intro hn
      rcases hA with ⟨l, u, el, eu⟩ | hA
      · rw [el, eu] at hn
        simp at hn
      · rcases h0 with h0 | ⟨_, h0⟩
        · exact hA _ h0
        · rw [h0, List.length_replicate]
    constructor
    · rcases hl with hl | ⟨hl, e⟩
      · exact kl _ hl
      · rw [e, List.length_replicate, h0' (.inl hl)]
    · rcases hu with hu | ⟨hu, e⟩
      · exact ku _ hu
      · rw [e, List.length_replicate, h0' (.inr hu)]
  constructor
  · rintro ⟨h1, h2, h3, h4, h5, h6, h7⟩
    obtain ⟨e1, e2⟩ := hlen h7 h3 h4
    refine ⟨h1, h7, ?_, e1, e2, (forall2_bounds _ _ (e1.trans e2.symm)).2 ⟨h5, (hless (e2.trans e1.symm)).1 h6⟩⟩
    rcases h7.1 with h | ⟨_, h⟩
    · exact h2 _ h
    · intro a ha
      rw [h] at ha
      rw [List.eq_of_mem_replicate ha]
      positivity
  · rintro ⟨h1, h7, h0, e1, e2, hf⟩
    obtain ⟨h5, h6⟩ := (forall2_bounds _ _ (e1.trans e2.symm)).1 hf
    refine ⟨h1, ?_, ?_, ?_, h5, (hless (e2.trans e1.symm)).2 h6, h7⟩
    · intro t ht
      rcases h7.1 with h | ⟨h, _⟩
      · rw [h] at ht; injection ht with ht; subst ht; exact h0
      · rw [h] at ht; cases ht
    · intro t ht
      rcases h7.2.1 with h | ⟨h, _⟩
      · rw [h] at ht; injection ht with ht; subst ht; exact e1
      · rw [h] at ht; cases ht
    · intro t ht
      rcases h7.2.2 with h | ⟨h, _⟩
      · rw [h] at ht; injection ht with ht; subst ht; exact e2
      · rw [h] at ht; cases ht

omit [IsStrictOrderedRing K] in
/-- **C183 (refusals).** Everything that is not accepted is a `ValueError`, at one level or several. -/
theorem C183_refused (nf : Nat) (As : List (CkArgs K)) (e : PyErr) (h : ckCheckLevels nf As = .error e) : e = .ValueError := by
  induction As with
  | nil => cases h
  | cons A As ih =>
    unfold ckCheckLevels at h
    split at h
    · rename_i e' he
      injection h with h
      subst h
      unfold ckCheckLevel at he
      dsimp only at he
      repeat' split at he
      all_goals first | (injection he with he; exact he.symm) | cases he
    · split at h
      · rename_i e' he
        injection h with h
        exact ih (h ▸ he)
      · cases h

omit [IsStrictOrderedRing K] in
/-- **C183 (levels).** The parameters are accepted exactly if those of each level are; each level uses its own. -/
theorem C183_levels (nf : Nat) (As : List (CkArgs K)) (rs : List (CkStart K)) :
    ckCheckLevels nf As = .ok rs ↔ List.Forall₂ (fun A r => ckCheckLevel nf A = .ok r) As rs := by
  induction As generalizing rs with
  | nil => simp [ckCheckLevels, eq_comm]
  | cons A As ih =>
    unfold ckCheckLevels
    cases h1 : ckCheckLevel nf A with
    | error e => cases rs <;> simp [h1]
    | ok r =>
      cases h2 : ckCheckLevels nf As with
      | error e =>
        cases rs with
        | nil => simp
        | cons r' rs =>
          have := (ih rs).not.1 (by rw [h2]; simp)
          simp [this]
      | ok rs' =>
        cases rs with
        | nil => simp
        | cons r' rs =>
          rw [List.forall₂_cons, ← ih rs, h1, h2]
          simp

end

/-- **Refutation: as many bounds as start values.** With two inputs, three start values are accepted with two bounds of each kind. The third has no bounds;
`_max_rlf` looks for them. -/
theorem C183_length_refuted : ∃ (A : CkArgs ℚ) (r : CkStart ℚ), ckCheckLevel 2 A = .ok r ∧ r.theta0.length = 3 ∧ r.thetaL.length = 2 ∧ r.thetaU.length = 2 :=
  ⟨⟨none, some [1, 1, 1], none, none⟩, ⟨[1, 1, 1], [1 / 100000, 1 / 100000], [50, 50]⟩, by decide +kernel, rfl, rfl, rfl⟩

/-- A start value outside of its bounds is accepted. -/
theorem finding_start_outside : ∃ (A : CkArgs ℚ) (r : CkStart ℚ), A.Fits 1 ∧ ckCheckLevel 1 A = .ok r ∧ r.theta0 = [100] ∧ r.thetaU = [50] :=
  ⟨⟨none, some [100], none, none⟩, ⟨[100], [1 / 100000], [50]⟩, .inr (by simp), by decide +kernel, rfl, rfl⟩

/-- Parameters that are accepted, and parameters that are refused. -/
example : ckCheckLevel 2 (⟨none, some [1, 2], some [1 / 10, 1 / 10], none⟩ : CkArgs ℚ) = .ok ⟨[1, 2], [1 / 10, 1 / 10], [50, 50]⟩ ∧
    ckCheckLevel 2 (⟨none, some [1, 2], some [1 / 10, 60], none⟩ : CkArgs ℚ) = .error .ValueError ∧
    ckCheckLevel 2 (⟨some [0], none, none, none⟩ : CkArgs ℚ) = .error .ValueError := by decide +kernel

example : (⟨none, some [1, 2], some [1 / 10, 1 / 10], none⟩ : CkArgs ℚ).Fits 2 := .inr (by simp)

/-- One start value, with a bound that is given and one that is filled in. -/
example : ckCheckLevel 2 (⟨none, some [1], some [1 / 10], none⟩ : CkArgs ℚ) = .ok ⟨[1], [1 / 10], [50, 50]⟩ ∧
    ckCheckLevel 2 (⟨none, some [1], none, some [20]⟩ : CkArgs ℚ) = .ok ⟨[1], [1 / 100000, 1 / 100000], [20]⟩ ∧
    ckCheckLevel 2 (⟨none, some [1], some [60], none⟩ : CkArgs ℚ) = .error .ValueError := by decide +kernel

end OpenMDAO
