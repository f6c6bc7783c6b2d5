import Verif.Spec.RunApply
import Mathlib.Tactic.Abel
import Mathlib.Algebra.Group.Int.Defs
/-! Theorems about the residuals that nonlinear solvers look at (C167). -/
namespace OpenMDAO
set_option linter.unusedSectionVars false

variable {V : Type} [AddCommGroup V] {m : RModel V} {order : List Nat}

/-! ## What a part of the tree may change -/

/-- Only the unknowns and params of `T` change, the params only where their source is in `G`, the residuals only of components that are evaluated. -/
structure RFrame (m : RModel V) (order T G : List Nat) (s s' : RState V) : Prop where
  u : ∀ i, i ∉ T → s'.u i = s.u i
  p : ∀ i j, i ∉ T ∨ j ∉ m.src i ∨ j ∉ G → s'.p i j = s.p i j
  r : ∀ i, i ∉ T ∨ runApply m order i = false → s'.r i = s.r i

theorem RFrame.refl (T G : List Nat) (s : RState V) : RFrame m order T G s s := ⟨fun _ _ => rfl, fun _ _ _ => rfl, fun _ _ => rfl⟩

theorem RFrame.trans {T G : List Nat} {a b c : RState V} (h1 : RFrame m order T G a b) (h2 : RFrame m order T G b c) : RFrame m order T G a c :=
  ⟨fun i h => (h2.u i h).trans (h1.u i h), fun i j h => (h2.p i j h).trans (h1.p i j h), fun i h => (h2.r i h).trans (h1.r i h)⟩

theorem RFrame.mono {T G T' G' : List Nat} {a b : RState V} (h : RFrame m order T G a b) (hT : ∀ i ∈ T, i ∈ T') (hG : ∀ i ∈ G, i ∈ G') : RFrame m order T' G' a b := by
  refine ⟨fun i hi => h.u i (fun x => hi (hT i x)), fun i j hi => h.p i j ?_, fun i hi => h.r i ?_⟩
  · rcases hi with hi | hi | hi
    · exact Or.inl (fun x => hi (hT i x))
    · exact Or.inr (Or.inl hi)
    · exact Or.inr (Or.inr (fun x => hi (hG j x)))
  · exact hi.imp (fun hi x => hi (hT i x)) id

theorem transferTo_frame (G : List Nat) (t : RTree V) (s : RState V) : RFrame m order t.comps G s (transferTo m G t s) := by
  refine ⟨fun _ _ => rfl, fun i j h => ?_, fun _ _ => rfl⟩
  simp only [transferTo]
  rw [if_neg]
  rintro ⟨h1, h2, h3, -⟩
  tauto

theorem runComp_frame (i : Nat) (G : List Nat) (s : RState V) : RFrame m order [i] G s (runComp m i s) := by
  refine ⟨fun k h => ?_, fun _ _ _ => rfl, fun _ _ => rfl⟩
  simp only [runComp]
  rw [Function.update_of_ne (by simpa using h)]

theorem applyComp_u (i : Nat) (s : RState V) : (applyComp m i s).u = s.u ∧ (applyComp m i s).p = s.p := by
  unfold applyComp
  cases hk : m.kind i with
  | implicit g R => exact ⟨rfl, rfl⟩
  | explicit f =>
    refine ⟨?_, rfl⟩
    simp only [runComp, hk, Function.update_self]
    funext k
    by_cases h : k = i
    · subst h
      rw [Function.update_self]
      abel
    · rw [Function.update_of_ne h, Function.update_of_ne h]

theorem applyComp_r (i : Nat) (s : RState V) : (applyComp m i s).r = Function.update s.r i (match m.kind i with
    | .explicit f => f (s.p i) - s.u i
    | .implicit _ R => R (s.p i) (s.u i)) := by
  unfold applyComp
  cases hk : m.kind i with
  | implicit g R => rfl
  | explicit f =>
    simp only [runComp, hk, Function.update_self, Function.update_idem]
    congr 1
    abel

theorem applyComp_frame (i : Nat) (G : List Nat) (hr : runApply m order i = true) (s : RState V) : RFrame m order [i] G s (applyComp m i s) := by
  obtain ⟨h1, h2⟩ := applyComp_u (m := m) i s
  refine ⟨fun k _ => by rw [h1], fun k j _ => by rw [h2], fun k h => ?_⟩
  rw [applyComp_r, Function.update_of_ne]
  rintro rfl
  rcases h with h | h
  · simp at h
  · rw [hr] at h; cases h

theorem setIn_frame (G : List Nat) (v : Nat → V) (s : RState V) : RFrame m order G G s (setIn G v s) :=
  ⟨fun i h => by simp only [setIn, if_neg h], fun _ _ _ => rfl, fun _ _ => rfl⟩

theorem nlgsLoop_rel {G : List Nat} {sweep apply : RState V → RState V} (hs : ∀ s, RFrame m order G G s (sweep s)) (ha : ∀ s, RFrame m order G G s (apply s))
    (more : RState V → RState V → RState V → Bool) (relax : Option ((Nat → V) → (Nat → V) → Nat → V)) (base : RState V) :
    ∀ (n : Nat) (prev s : RState V), RFrame m order G G s (rNlgsLoop G sweep apply more relax base n prev s)
  | 0, _, s => RFrame.refl _ _ s
  | n + 1, prev, s => by
    unfold rNlgsLoop
    by_cases hm : more base prev s = true
    · rw [if_pos hm]
      refine RFrame.trans ?_ (nlgsLoop_rel hs ha more relax base n s _)
      cases relax with
      | none => exact (hs s).trans (ha _)
      | some f => exact ((hs s).trans (ha _)).trans (setIn_frame G _ _)
    · rw [if_neg hm]
      exact RFrame.refl _ _ s

theorem newtonLoop_rel {G : List Nat} {sweep apply : RState V → RState V} (hs : ∀ s, RFrame m order G G s (sweep s)) (ha : ∀ s, RFrame m order G G s (apply s))
    (more : RState V → RState V → RState V → Bool) (step : RState V → Nat → V) (sub : Bool) (base : RState V) :
    ∀ (n : Nat) (prev s : RState V), RFrame m order G G s (rNewtonLoop G sweep apply more step sub base n prev s)
  | 0, _, s => RFrame.refl _ _ s
  | n + 1, prev, s => by
    unfold rNewtonLoop
    by_cases hm : more base prev s = true
    · rw [if_pos hm]
      refine RFrame.trans ?_ (newtonLoop_rel hs ha more step sub base n s _)
      refine (setIn_frame G (step s) s).trans ?_
      cases sub with
      | false => exact ha _
      | true => exact (hs _).trans (ha _)
    · rw [if_neg hm]
      exact RFrame.refl _ _ s

theorem runSolver_frame {G : List Nat} {sweep apply : RState V → RState V} (hs : ∀ s, RFrame m order G G s (sweep s)) (ha : ∀ s, RFrame m order G G s (apply s)) (sol : RSolver V) (s : RState V) :
    RFrame m order G G s (runSolver G sweep apply sol s) := by
  cases sol with
  | runOnce => exact hs s
  | nlgs k more relax =>
    simp only [runSolver]
    split
    · exact hs s
    · exact ((hs s).trans (ha _)).trans (nlgsLoop_rel hs ha more relax _ _ _ _)
  | newton k more step sub => exact ((hs s).trans (ha _)).trans (newtonLoop_rel hs ha more step sub _ _ _ _)

/-- A solver that runs the model at the unknowns it returns: its last action is a run of the children, followed by an evaluation of the residuals if it looks at them. -/
theorem runSolver_last {G : List Nat} {sweep apply : RState V → RState V} (hs : ∀ s, RFrame m order G G s (sweep s)) (ha : ∀ s, RFrame m order G G s (apply s)) (sol : RSolver V) (hr : sol.Runs) (s : RState V) :
    ∃ s0, RFrame m order G G s s0 ∧ (runSolver G sweep apply sol s = apply (sweep s0) ∨ (runSolver G sweep apply sol s = sweep s0 ∧ ¬ sol.Evaluates)) := by
  cases sol with
  | runOnce => exact ⟨s, RFrame.refl _ _ s, Or.inr ⟨rfl, fun h => h⟩⟩
  | nlgs k more relax =>
    have hr' : relax = none := hr
    subst hr'
    simp only [runSolver]
    by_cases hk : k = 1
    · rw [if_pos hk]
      exact ⟨s, RFrame.refl _ _ s, Or.inr ⟨rfl, fun h => h hk⟩⟩
    · rw [if_neg hk]
      have key : ∀ (n : Nat) (base prev s' : RState V), (∃ s0, RFrame m order G G s s0 ∧ s' = apply (sweep s0)) →
          ∃ s0, RFrame m order G G s s0 ∧ rNlgsLoop G sweep apply more none base n prev s' = apply (sweep s0) := by
        intro n
        induction n with
        | zero => intro base prev s' h; exact h
        | succ n ih =>
          intro base prev s' h
          unfold rNlgsLoop
          by_cases hm : more base prev s' = true
          · rw [if_pos hm]
            apply ih
            obtain ⟨s0, h0, rfl⟩ := h
            exact ⟨_, (h0.trans (hs s0)).trans (ha _), rfl⟩
          · rw [if_neg hm]; exact h
      obtain ⟨s0, h0, h1⟩ := key (k - 1) (apply (sweep s)) (apply (sweep s)) (apply (sweep s)) ⟨s, RFrame.refl _ _ s, rfl⟩
      exact ⟨s0, h0, Or.inl h1⟩
  | newton k more step sub =>
    have hr' : sub = true := hr
    subst hr'
    have key : ∀ (n : Nat) (base prev s' : RState V), (∃ s0, RFrame m order G G s s0 ∧ s' = apply (sweep s0)) →
        ∃ s0, RFrame m order G G s s0 ∧ rNewtonLoop G sweep apply more step true base n prev s' = apply (sweep s0) := by
      intro n
      induction n with
      | zero => intro base prev s' h; exact h
      | succ n ih =>
        intro base prev s' h
        unfold rNewtonLoop
        by_cases hm : more base prev s' = true
        · rw [if_pos hm]
          apply ih
          obtain ⟨s0, h0, rfl⟩ := h
          exact ⟨_, ((h0.trans (hs s0)).trans (ha _)).trans (setIn_frame G _ _), rfl⟩
        · rw [if_neg hm]; exact h
    obtain ⟨s0, h0, h1⟩ := key k (apply (sweep s)) (apply (sweep s)) (apply (sweep s)) ⟨s, RFrame.refl _ _ s, rfl⟩
    exact ⟨s0, h0, Or.inl h1⟩

/-! ## Evaluation of residuals -/

mutual
theorem applyTree_frame : ∀ (t : RTree V), (t.isComp = true → t.comps.any (runApply m order) = true) → ∀ s, RFrame m order t.comps t.comps s (applyTree m order t s) ∧ (applyTree m order t s).u = s.u
  | .comp i, h, s => by
    have hr : runApply m order i = true := by simpa [RTree.isComp, RTree.comps] using h
    exact ⟨applyComp_frame i _ hr s, (applyComp_u i s).1⟩
  | .group _ cs, _, s => applyList_frame (compsL cs) cs (fun _ h => h) s
theorem applyList_frame (G : List Nat) : ∀ (ts : List (RTree V)), (∀ i ∈ compsL ts, i ∈ G) → ∀ s, RFrame m order (compsL ts) G s (applyList m order G ts s) ∧ (applyList m order G ts s).u = s.u
  | [], _, s => ⟨RFrame.refl _ _ s, rfl⟩
  | t :: ts, hG, s => by
    unfold applyList
    have hG1 : ∀ i ∈ t.comps, i ∈ G := fun i hi => hG i (by simp only [compsL]; exact List.mem_append_left _ hi)
    have hG2 : ∀ i ∈ compsL ts, i ∈ G := fun i hi => hG i (by simp only [compsL]; exact List.mem_append_right _ hi)
    have m1 : ∀ i ∈ t.comps, i ∈ compsL (t :: ts) := fun i hi => by simp only [compsL]; exact List.mem_append_left _ hi
    have m2 : ∀ i ∈ compsL ts, i ∈ compsL (t :: ts) := fun i hi => by simp only [compsL]; exact List.mem_append_right _ hi
    by_cases hc : (t.isComp && !(t.comps.any (runApply m order))) = true
    · rw [if_pos hc]
      obtain ⟨h1, h2⟩ := applyList_frame G ts hG2 s
      exact ⟨h1.mono m2 (fun _ h => h), h2⟩
    · rw [if_neg hc]
      obtain ⟨h1, h2⟩ := applyTree_frame t (by intro h; rw [h] at hc; simpa using hc) (transferTo m G t s)
      obtain ⟨h3, h4⟩ := applyList_frame G ts hG2 (applyTree m order t (transferTo m G t s))
      refine ⟨?_, by rw [h4, h2]; rfl⟩
      exact (((transferTo_frame G t s).mono m1 (fun _ h => h)).trans (h1.mono m1 hG1)).trans (h3.mono m2 (fun _ h => h))
end

mutual
theorem solveTree_frame : ∀ (t : RTree V) (s : RState V), RFrame m order t.comps t.comps s (solveTree m order t s)
  | .comp i, s => runComp_frame i _ s
  | .group sol cs, s => by
    simp only [solveTree, RTree.comps]
    exact runSolver_frame (fun s => sweepList_frame (compsL cs) cs (fun _ h => h) s) (fun s => (applyList_frame (compsL cs) cs (fun _ h => h) s).1) sol s
theorem sweepList_frame (G : List Nat) : ∀ (ts : List (RTree V)), (∀ i ∈ compsL ts, i ∈ G) → ∀ s, RFrame m order (compsL ts) G s (sweepList m order G ts s)
  | [], _, s => RFrame.refl _ _ s
  | t :: ts, hG, s => by
    unfold sweepList
    have hG1 : ∀ i ∈ t.comps, i ∈ G := fun i hi => hG i (by simp only [compsL]; exact List.mem_append_left _ hi)
    have hG2 : ∀ i ∈ compsL ts, i ∈ G := fun i hi => hG i (by simp only [compsL]; exact List.mem_append_right _ hi)
    have m1 : ∀ i ∈ t.comps, i ∈ compsL (t :: ts) := fun i hi => by simp only [compsL]; exact List.mem_append_left _ hi
    have m2 : ∀ i ∈ compsL ts, i ∈ compsL (t :: ts) := fun i hi => by simp only [compsL]; exact List.mem_append_right _ hi
    exact (((transferTo_frame G t s).mono m1 (fun _ h => h)).trans ((solveTree_frame t _).mono m1 hG1)).trans ((sweepList_frame G ts hG2 _).mono m2 (fun _ h => h))
end

/-! ## Residuals of the components that are evaluated -/

theorem nowArgs_frame {T G : List Nat} {s s' : RState V} (h : RFrame m order T G s s') (i : Nat) (hu : ∀ j ∈ m.src i, s'.u j = s.u j) : nowArgs m s' i = nowArgs m s i := by
  funext j
  unfold nowArgs
  by_cases hj : j ∈ m.src i
  · rw [if_pos hj, if_pos hj, hu j hj]
  · rw [if_neg hj, if_neg hj, h.p i j (Or.inr (Or.inl hj))]

theorem trueResid_frame {T G : List Nat} {s s' : RState V} (h : RFrame m order T G s s') (i : Nat) (hu : s'.u = s.u) : trueResid m s' i = trueResid m s i := by
  unfold trueResid
  rw [nowArgs_frame h i (fun j _ => by rw [hu]), hu]

/-- The params of `T` with a source outside are up to date. -/
def Fresh (m : RModel V) (T G : List Nat) (s : RState V) : Prop := ∀ i ∈ T, ∀ j ∈ m.src i, j ∉ G → s.p i j = s.u j

theorem Fresh.transfer {G : List Nat} {t : RTree V} {s : RState V} (h : Fresh m t.comps G s) : Fresh m t.comps t.comps (transferTo m G t s) := by
  intro i hi j hj hn
  simp only [transferTo]
  by_cases hG : j ∈ G
  · rw [if_pos ⟨hi, hj, hG, Or.inr hn⟩]
  · rw [if_neg (fun hh => hG hh.2.2.1)]
    exact h i hi j hj hG

theorem args_now {i : Nat} {s : RState V} (hself : ∀ j ∈ m.src i, j ≠ i) (h : Fresh m [i] [i] s) : s.p i = nowArgs m s i := by
  funext j
  unfold nowArgs
  by_cases hj : j ∈ m.src i
  · rw [if_pos hj]
    exact h i (by simp) j hj (by simpa using hself j hj)
  · rw [if_neg hj]

mutual
theorem applyTree_resid : ∀ (t : RTree V) (s : RState V), (t.comps).Nodup → (∀ i ∈ t.comps, ∀ j ∈ m.src i, j ≠ i) → Fresh m t.comps t.comps s →
    ∀ i ∈ t.comps, runApply m order i = true → (applyTree m order t s).r i = trueResid m s i
  | .comp k, s, _, hself, hf, i, hi, _ => by
    have : i = k := by simpa [RTree.comps] using hi
    subst this
    simp only [applyTree]
    rw [applyComp_r, Function.update_self, args_now (hself i (by simp [RTree.comps])) hf]
    rfl
  | .group _ cs, s, hn, hself, hf, i, hi, hr => applyList_resid (compsL cs) cs s hn (fun _ h => h) hself hf i hi hr
theorem applyList_resid (G : List Nat) : ∀ (ts : List (RTree V)) (s : RState V), (compsL ts).Nodup → (∀ i ∈ compsL ts, i ∈ G) → (∀ i ∈ compsL ts, ∀ j ∈ m.src i, j ≠ i) → Fresh m (compsL ts) G s →
    ∀ i ∈ compsL ts, runApply m order i = true → (applyList m order G ts s).r i = trueResid m s i
  | [], s, _, _, _, _, i, hi, _ => by simp [compsL] at hi
  | t :: ts, s, hn, hG, hself, hf, i, hi, hr => by
    unfold applyList
    have m1 : ∀ i ∈ t.comps, i ∈ compsL (t :: ts) := fun i hi => by simp only [compsL]; exact List.mem_append_left _ hi
    have m2 : ∀ i ∈ compsL ts, i ∈ compsL (t :: ts) := fun i hi => by simp only [compsL]; exact List.mem_append_right _ hi
    have hG1 : ∀ i ∈ t.comps, i ∈ G := fun i hi => hG i (m1 i hi)
    have hG2 : ∀ i ∈ compsL ts, i ∈ G := fun i hi => hG i (m2 i hi)
    simp only [compsL] at hn hi
    obtain ⟨n1, n2, n3⟩ := List.nodup_append.mp hn
    have hdis : ∀ i ∈ compsL ts, i ∉ t.comps := fun i hi hi' => n3 i hi' i hi rfl
    by_cases hc : (t.isComp && !(t.comps.any (runApply m order))) = true
    · rw [if_pos hc]
      rcases List.mem_append.mp hi with hi | hi
      · exfalso
        rw [Bool.and_eq_true, Bool.not_eq_true', List.any_eq_false] at hc
        exact hc.2 i hi hr
      · exact applyList_resid G ts s n2 hG2 (fun i h => hself i (m2 i h)) (fun i h => hf i (m2 i h)) i hi hr
    · rw [if_neg hc]
      have hc' : t.isComp = true → t.comps.any (runApply m order) = true := by intro h; rw [h] at hc; simpa using hc
      have f1 : RFrame m order t.comps G s (transferTo m G t s) := transferTo_frame G t s
      obtain ⟨f2, u2⟩ := applyTree_frame (m := m) (order := order) t hc' (transferTo m G t s)
      have f12 := f1.trans (f2.mono (fun _ h => h) hG1)
      have u12 : (applyTree m order t (transferTo m G t s)).u = s.u := u2
      rcases List.mem_append.mp hi with hi | hi
      · have h3 := (applyList_frame (m := m) (order := order) G ts hG2 (applyTree m order t (transferTo m G t s))).1
        rw [h3.r i (Or.inl (fun h => hdis i h hi))]
        rw [applyTree_resid t _ n1 (fun i h => hself i (m1 i h)) (Fresh.transfer (fun i h => hf i (m1 i h))) i hi hr]
        exact trueResid_frame f1 i rfl
      · rw [applyList_resid G ts _ n2 hG2 (fun i h => hself i (m2 i h)) ?_ i hi hr]
        · exact trueResid_frame f12 i u12
        · intro k hk j hj hjG
          rw [f12.p k j (Or.inl (hdis k hk)), u12]
          exact hf k (m2 k hk) j hj hjG
end

/-! ## The components that are not evaluated -/

theorem skip_spec {i : Nat} (h : runApply m order i = false) : (∃ f, m.kind i = .explicit f) ∧ ∀ j ∈ m.src i, order.idxOf j ≤ order.idxOf i := by
  unfold runApply at h
  rw [Bool.or_eq_false_iff, List.any_eq_false] at h
  constructor
  · cases hk : m.kind i with
    | explicit f => exact ⟨f, rfl⟩
    | implicit g R => rw [hk] at h; cases h.1
  · intro j hj
    have := h.2 j hj
    simpa using this

theorem resid_kept {T G : List Nat} {s s' : RState V} (h : RFrame m order T G s s') {i : Nat} (hi : i ∉ T) (hj : ∀ j ∈ m.src i, j ∉ T) : trueResid m s' i = trueResid m s i := by
  unfold trueResid
  rw [nowArgs_frame h i (fun j hj' => h.u j (hj j hj')), h.u i hi]

mutual
theorem solveTree_skip : ∀ (t : RTree V) (s : RState V), t.Runs → (t.comps).Pairwise (fun a b => order.idxOf a < order.idxOf b) → (∀ i ∈ t.comps, ∀ j ∈ m.src i, j ≠ i) → Fresh m t.comps t.comps s →
    ∀ i ∈ t.comps, runApply m order i = false → trueResid m (solveTree m order t s) i = 0
  | .comp k, s, _, _, hself, hf, i, hi, hr => by
    have : i = k := by simpa [RTree.comps] using hi
    subst this
    obtain ⟨⟨f, hk⟩, -⟩ := skip_spec hr
    have hs := hself i (by simp [RTree.comps])
    have fr : RFrame m order [i] [i] s (runComp m i s) := runComp_frame i _ s
    simp only [solveTree, trueResid, hk]
    rw [nowArgs_frame fr i (fun j hj => fr.u j (by simpa using hs j hj)), ← args_now hs hf]
    simp only [runComp, hk, Function.update_self, sub_self]
  | .group sol cs, s, hruns, hp, hself, hf, i, hi, hr => by
    obtain ⟨h1, h2⟩ := hruns
    simp only [solveTree]
    have fa : ∀ s, RFrame m order (compsL cs) (compsL cs) s (applyList m order (compsL cs) cs s) := fun s => (applyList_frame (compsL cs) cs (fun _ h => h) s).1
    obtain ⟨s0, g1, g2⟩ := runSolver_last (m := m) (order := order) (fun s => sweepList_frame (compsL cs) cs (fun _ h => h) s) fa sol h1 s
    have hf0 : Fresh m (compsL cs) (compsL cs) s0 := by
      intro k hk j hj hn
      rw [g1.p k j (Or.inr (Or.inr hn)), g1.u j hn]
      exact hf k hk j hj hn
    have key := sweepList_skip (compsL cs) cs s0 h2 hp (fun _ h => h) hself hf0 i hi hr
    rcases g2 with g2 | ⟨g2, -⟩
    · rw [g2]
      rw [trueResid_frame (fa _) i (applyList_frame (compsL cs) cs (fun _ h => h) _).2]
      exact key
    · rw [g2]; exact key
theorem sweepList_skip (G : List Nat) : ∀ (ts : List (RTree V)) (s : RState V), runsL ts → (compsL ts).Pairwise (fun a b => order.idxOf a < order.idxOf b) → (∀ i ∈ compsL ts, i ∈ G) →
    (∀ i ∈ compsL ts, ∀ j ∈ m.src i, j ≠ i) → Fresh m (compsL ts) G s → ∀ i ∈ compsL ts, runApply m order i = false → trueResid m (sweepList m order G ts s) i = 0
  | [], s, _, _, _, _, _, i, hi, _ => by simp [compsL] at hi
  | t :: ts, s, hruns, hp, hG, hself, hf, i, hi, hr => by
    unfold sweepList
    obtain ⟨h1, h2⟩ := hruns
    have m1 : ∀ i ∈ t.comps, i ∈ compsL (t :: ts) := fun i hi => by simp only [compsL]; exact List.mem_append_left _ hi
    have m2 : ∀ i ∈ compsL ts, i ∈ compsL (t :: ts) := fun i hi => by simp only [compsL]; exact List.mem_append_right _ hi
    have hG1 : ∀ i ∈ t.comps, i ∈ G := fun i hi => hG i (m1 i hi)
    have hG2 : ∀ i ∈ compsL ts, i ∈ G := fun i hi => hG i (m2 i hi)
    simp only [compsL] at hp hi
    obtain ⟨p1, p2, p3⟩ := List.pairwise_append.mp hp
    have hdis : ∀ i ∈ compsL ts, i ∉ t.comps := fun i hi hi' => absurd (p3 i hi' i hi) (lt_irrefl _)
    have f1 : RFrame m order t.comps G s (transferTo m G t s) := transferTo_frame G t s
    have f2 := solveTree_frame (m := m) (order := order) t (transferTo m G t s)
    have f12 := f1.trans (f2.mono (fun _ h => h) hG1)
    rcases List.mem_append.mp hi with hi | hi
    · have f3 := sweepList_frame (m := m) (order := order) G ts hG2 (solveTree m order t (transferTo m G t s))
      rw [resid_kept f3 (fun h => hdis i h hi)]
      · exact solveTree_skip t _ h1 p1 (fun i h => hself i (m1 i h)) (Fresh.transfer (fun i h => hf i (m1 i h))) i hi hr
      · intro j hj hj'
        have a := p3 i hi j hj'
        have b := (skip_spec hr).2 j hj
        omega
    · apply sweepList_skip G ts _ h2 p2 hG2 (fun i h => hself i (m2 i h)) ?_ i hi hr
      intro k hk j hj hjG
      rw [f12.p k j (Or.inl (hdis k hk)), f12.u j (fun h => hjG (hG1 j h))]
      exact hf k (m2 k hk) j hj hjG
end

theorem idxOf_pairwise (l : List Nat) (h : l.Nodup) : l.Pairwise (fun a b => l.idxOf a < l.idxOf b) := by
  rw [List.pairwise_iff_getElem]
  intro i j hi hj hij
  rw [h.idxOf_getElem i hi, h.idxOf_getElem j hj]
  exact hij

/-! ## C167 -/

/-- C167 (partial). After a nonlinear solver of the problem's root that looks at residuals has returned, the residual vector holds the residual of every component at the present unknowns. Needs: no component is connected to
itself, no Aitken relaxation and `solve_subsystems` for Newton, anywhere in the tree; the residuals of components that are not evaluated are zero before, as they are in a new vector (see `C167_history_partial`). -/
theorem C167_residuals_partial (m : RModel V) (sol : RSolver V) (cs : List (RTree V)) (hn : (compsL cs).Nodup) (hp : m.Plain (compsL cs)) (hr : RTree.Runs (.group sol cs)) (he : sol.Evaluates) (s : RState V)
    (h0 : ∀ i, runApply m (compsL cs) i = false → s.r i = 0) :
    ∀ i ∈ compsL cs, (solveTree m (compsL cs) (.group sol cs) s).r i = trueResid m (solveTree m (compsL cs) (.group sol cs) s) i := by
  intro i hi
  have hfr : ∀ s, Fresh m (compsL cs) (compsL cs) s := fun s i hi j hj hn => absurd (hp i hi j hj).2 hn
  have hself : ∀ i ∈ compsL cs, ∀ j ∈ m.src i, j ≠ i := fun i hi j hj => (hp i hi j hj).1
  cases hra : runApply m (compsL cs) i with
  | false =>
    have := (solveTree_frame (m := m) (order := compsL cs) (.group sol cs) s).r i (Or.inr hra)
    rw [this, h0 i hra]
    exact (solveTree_skip (m := m) (order := compsL cs) (.group sol cs) s hr (idxOf_pairwise _ hn) hself (hfr s) i hi hra).symm
  | true =>
    simp only [solveTree]
    have fa : ∀ s, RFrame m (compsL cs) (compsL cs) (compsL cs) s (applyList m (compsL cs) (compsL cs) cs s) := fun s => (applyList_frame (compsL cs) cs (fun _ h => h) s).1
    obtain ⟨s0, g1, g2⟩ := runSolver_last (m := m) (order := compsL cs) (fun s => sweepList_frame (compsL cs) cs (fun _ h => h) s) fa sol hr.1 s
    rcases g2 with g2 | ⟨-, g2⟩
    · rw [g2, applyList_resid (compsL cs) cs _ hn (fun _ h => h) hself (hfr _) i hi hra]
      exact (trueResid_frame (fa _) i (applyList_frame (compsL cs) cs (fun _ h => h) _).2).symm
    · exact absurd he g2

/-- A sequence of runs of the problem; before each one the driver sets unknowns. -/
def runsOf (m : RModel V) (sol : RSolver V) (cs : List (RTree V)) (sets : List ((Nat → V) → Nat → V)) (s : RState V) : RState V :=
  sets.foldl (fun s f => solveTree m (compsL cs) (.group sol cs) { s with u := f s.u }) s

/-- C167 (partial). The same for every sequence of runs of a problem that starts with residuals of zero: after the last run, the residuals are zero if and only if all components agree with their inputs. Missing: see
`C167_self_refuted`, `C167_newton_refuted` and `C167_aitken_refuted`. -/
theorem C167_history_partial (m : RModel V) (sol : RSolver V) (cs : List (RTree V)) (hn : (compsL cs).Nodup) (hp : m.Plain (compsL cs)) (hr : RTree.Runs (.group sol cs)) (he : sol.Evaluates)
    (sets : List ((Nat → V) → Nat → V)) (f : (Nat → V) → Nat → V) (u0 : Nat → V) (p0 : Nat → Nat → V) :
    let s := runsOf m sol cs (sets ++ [f]) ⟨u0, fun _ => 0, p0⟩
    (∀ i ∈ compsL cs, s.r i = trueResid m s i) ∧ ((∀ i ∈ compsL cs, s.r i = 0) ↔ ∀ i ∈ compsL cs, trueResid m s i = 0) := by
  intro s
  have inv : ∀ (l : List ((Nat → V) → Nat → V)) (s : RState V), (∀ i, runApply m (compsL cs) i = false → s.r i = 0) → ∀ i, runApply m (compsL cs) i = false → (runsOf m sol cs l s).r i = 0 := by
    intro l
    induction l with
    | nil => intro s h; exact h
    | cons g l ih =>
      intro s h
      unfold runsOf
      rw [List.foldl_cons]
      apply ih
      intro i hi
      rw [(solveTree_frame (m := m) (order := compsL cs) (.group sol cs) _).r i (Or.inr hi)]
      exact h i hi
  have key : ∀ i ∈ compsL cs, s.r i = trueResid m s i := by
    have e : s = solveTree m (compsL cs) (.group sol cs) { runsOf m sol cs sets ⟨u0, fun _ => 0, p0⟩ with u := f (runsOf m sol cs sets ⟨u0, fun _ => 0, p0⟩).u } := by
      simp only [s, runsOf, List.foldl_append, List.foldl_cons, List.foldl_nil]
    rw [e]
    exact C167_residuals_partial m sol cs hn hp hr he _ (inv sets _ (fun _ _ => rfl))
  refine ⟨key, ?_⟩
  constructor
  · intro h i hi
    rw [← key i hi]; exact h i hi
  · intro h i hi
    rw [key i hi]; exact h i hi

/-- C167 (partial). `Problem.run_once` evaluates the residuals after the run (`problem.py:1163-1182`), so there they hold for solvers that do not look at residuals as well. -/
theorem C167_run_once_partial (m : RModel V) (sol : RSolver V) (cs : List (RTree V)) (hn : (compsL cs).Nodup) (hp : m.Plain (compsL cs)) (hr : RTree.Runs (.group sol cs)) (s : RState V)
    (h0 : ∀ i, runApply m (compsL cs) i = false → s.r i = 0) :
    ∀ i ∈ compsL cs, (problemRunOnce m sol cs s).r i = trueResid m (problemRunOnce m sol cs s) i := by
  intro i hi
  have hfr : ∀ s, Fresh m (compsL cs) (compsL cs) s := fun s i hi j hj hn => absurd (hp i hi j hj).2 hn
  have hself : ∀ i ∈ compsL cs, ∀ j ∈ m.src i, j ≠ i := fun i hi j hj => (hp i hi j hj).1
  obtain ⟨fa, ua⟩ := applyTree_frame (m := m) (order := compsL cs) (.group sol cs) (fun h => by cases h) (solveTree m (compsL cs) (.group sol cs) s)
  unfold problemRunOnce
  rw [trueResid_frame fa i ua]
  cases hra : runApply m (compsL cs) i with
  | false =>
    rw [fa.r i (Or.inr hra), (solveTree_frame (m := m) (order := compsL cs) (.group sol cs) s).r i (Or.inr hra), h0 i hra]
    exact (solveTree_skip (m := m) (order := compsL cs) (.group sol cs) s hr (idxOf_pairwise _ hn) hself (hfr s) i hi hra).symm
  | true => exact applyTree_resid (m := m) (order := compsL cs) (.group sol cs) _ hn hself (hfr _) i hi hra

/-- C167. The evaluation of residuals itself changes no unknown. -/
theorem C167_apply_keeps (m : RModel V) (order : List Nat) (sol : RSolver V) (cs : List (RTree V)) (s : RState V) : (applyTree m order (.group sol cs) s).u = s.u :=
  (applyTree_frame (m := m) (order := order) (.group sol cs) (fun h => by cases h) s).2

/-! ## Samples and what is false -/

/-- The residual of the first component is not zero. -/
def rMore (_ _ s : RState Int) : Bool := decide (s.r 0 ≠ 0)

/-- An implicit component 0 (`x = p2 + 2`), then `y = x * x` and `z = 3 - y`, which is a param of the first. -/
def rSample : RModel Int where
  src := fun i => if i = 0 then [2] else if i = 1 then [0] else if i = 2 then [1] else []
  kind := fun i => if i = 0 then .implicit (fun p _ => p 2 + 2) (fun p x => x - p 2 - 2) else if i = 1 then .explicit (fun p => p 0 * p 0) else .explicit (fun p => 3 - p 1)

/-- A group with Newton's method inside one with Gauss-Seidel. -/
def rTreeSample : List (RTree Int) := [.group (.newton 4 rMore (fun s i => s.u i + 1) true) [.comp 0, .comp 1], .comp 2]

/-- The hypotheses of `C167_residuals_partial` are met; component 0 is evaluated, the others are not. -/
example : (compsL rTreeSample).Nodup ∧ rSample.Plain (compsL rTreeSample) ∧ RTree.Runs (.group (.nlgs 5 rMore none) rTreeSample) ∧ (RSolver.nlgs 5 rMore none).Evaluates ∧
    (compsL rTreeSample).map (runApply rSample (compsL rTreeSample)) = [true, false, false] := by
  refine ⟨by decide, ?_, ⟨rfl, ⟨⟨rfl, trivial, trivial, trivial⟩, trivial, trivial⟩⟩, by simp [RSolver.Evaluates], by decide⟩
  unfold RModel.Plain
  decide

/-- A residual that is not zero after two iterations, in the right place: `x = 1`, `y = 1`, `z = 2` and `x - z - 2 = -3`. -/
example : (let s := solveTree rSample [0, 1, 2] (.group (.nlgs 2 rMore none) [.comp 0, .comp 1, .comp 2]) ⟨fun _ => 0, fun _ => 0, fun _ _ => 0⟩; [s.u 0, s.u 1, s.u 2, s.r 0, s.r 1, s.r 2]) = [1, 1, 2, -3, 0, 0] := by
  decide

/-- An explicit component whose param is connected to its own output: `y = y + 1`. -/
def rSelf : RModel Int where
  src := fun _ => [0]
  kind := fun _ => .explicit fun p => p 0 + 1

/-- C167 is false of the code: a component that is connected to itself is not marked, since its source does not run later. Gauss-Seidel stops with a residual of zero, although the output differs from what the component
computes. -/
theorem C167_self_refuted : (let s := solveTree rSelf [0] (.group (.nlgs 10 rMore none) [.comp 0]) ⟨fun _ => 0, fun _ => 0, fun _ _ => 0⟩; (s.u 0, s.r 0, trueResid rSelf s 0)) = (1, 0, 1) := by
  decide

/-- `Problem.run` does not evaluate the residuals: with `RunOnce` for the root they are the initial zeros, although the cycle is not solved; after `run_once` they are right. -/
theorem finding_C167_run : (let s := solveTree rSample [0, 1, 2] (.group .runOnce [.comp 0, .comp 1, .comp 2]) ⟨fun _ => 0, fun _ => 0, fun _ _ => 0⟩; (s.r 0, trueResid rSample s 0)) = (0, 1) ∧
    (problemRunOnce rSample .runOnce [.comp 0, .comp 1, .comp 2] ⟨fun _ => 0, fun _ => 0, fun _ _ => 0⟩).r 0 = 1 := by
  decide

/-- A state `x` with `x = 2`, and `y = x * x`. -/
def rSquare : RModel Int where
  src := fun i => if i = 1 then [0] else []
  kind := fun i => if i = 0 then .implicit (fun _ x => x) (fun _ x => x - 2) else .explicit fun p => p 0 * p 0

/-- The step of Newton's method for `rSquare`: `dx = -r0`, `dy = 2 x dx - r1`. -/
def rSquareStep (s : RState Int) : Nat → Int := fun i => if i = 0 then s.u 0 - s.r 0 else if i = 1 then s.u 1 + (2 * s.u 0 * (-s.r 0) + s.r 1) else s.u i

/-- C167 is false of the code: Newton's method with `solve_subsystems` set to false does not run the explicit component, and its residual is not evaluated either. From `x = 0` the method finds `x = 2` in one step and stops with
residuals of zero; but `y` is 0 and not 4. -/
theorem C167_newton_refuted : (let s := solveTree rSquare [0, 1] (.group (.newton 10 rMore rSquareStep false) [.comp 0, .comp 1]) ⟨fun _ => 0, fun _ => 0, fun _ _ => 0⟩;
    (s.u 0, s.u 1, s.r 0, s.r 1, trueResid rSquare s 1)) = (2, 0, 0, 0, 4) := by
  decide

/-- `y0 = 2 - y1 / 2` and `y1 = y0 * y0`. -/
def rCycle : RModel Int where
  src := fun i => if i = 0 then [1] else [0]
  kind := fun i => if i = 0 then .explicit (fun p => 2 - p 1 / 2) else .explicit fun p => p 0 * p 0

/-- Relaxation with the factor 1/2, which is what Aitken's formula gives when the change is the opposite of the one before. -/
def rHalf (old new : Nat → Int) : Nat → Int := fun i => old i + (new i - old i) / 2

/-- C167 is false of the code: a group that uses Aitken's relaxation and stops at the limit of iterations returns relaxed unknowns. The group above it, a Gauss-Seidel solver without relaxation, evaluates the residual of `y0`
only, which happens to be zero, and has converged; but `y1 = 2` and `y0 = 1`. -/
theorem C167_aitken_refuted : (let s := solveTree rCycle [0, 1] (.group (.nlgs 10 rMore none) [.group (.nlgs 2 rMore (some rHalf)) [.comp 0, .comp 1]]) ⟨fun i => if i = 1 then 4 else 0, fun _ => 0, fun _ _ => 0⟩;
    (s.u 0, s.u 1, s.r 0, s.r 1, trueResid rCycle s 1)) = (1, 2, 0, 0, -1) := by
  decide

end OpenMDAO
