import Verif.Model.ParRun
import Verif.Spec.ParRun
import Verif.Props.RunApply
import Mathlib.Data.List.Perm.Basic
/-!
# The run of a ParallelGroup
-/
namespace OpenMDAO

set_option linter.unusedSectionVars false

variable {V : Type} [AddCommGroup V] {m : RModel V} {run : Nat → Bool} {sc : Nat → V → V}

theorem SameOn.symm {G : List Nat} {s s' : RState V} (h : SameOn G s s') : SameOn G s' s := fun i hi => ⟨(h i hi).1.symm, (h i hi).2.1.symm, (h i hi).2.2.symm⟩
theorem SameOn.refl (G : List Nat) (s : RState V) : SameOn G s s := fun _ _ => ⟨rfl, rfl, rfl⟩
theorem SameOn.trans {G : List Nat} {a b c : RState V} (h : SameOn G a b) (h' : SameOn G b c) : SameOn G a c :=
  fun i hi => ⟨(h i hi).1.trans (h' i hi).1, (h i hi).2.1.trans (h' i hi).2.1, (h i hi).2.2.trans (h' i hi).2.2⟩
theorem SameOff.refl (G : List Nat) (s : RState V) : SameOff G s s := fun _ _ => ⟨rfl, rfl, rfl⟩
theorem SameOff.trans {G : List Nat} {a b c : RState V} (h : SameOff G a b) (h' : SameOff G b c) : SameOff G a c :=
  fun i hi => ⟨(h i hi).1.trans (h' i hi).1, (h i hi).2.1.trans (h' i hi).2.1, (h i hi).2.2.trans (h' i hi).2.2⟩

theorem same_all {G : List Nat} {s s' : RState V} (h : SameOn G s s') (h' : SameOff G s s') : s = s' := by
  obtain ⟨u, r, p⟩ := s
  obtain ⟨u', r', p'⟩ := s'
  have : ∀ i, u i = u' i ∧ r i = r' i ∧ p i = p' i := fun i => by
    by_cases hi : i ∈ G
    · exact h i hi
    · exact h' i hi
  rw [show u = u' from funext fun i => (this i).1, show r = r' from funext fun i => (this i).2.1, show p = p' from funext fun i => (this i).2.2]

/-- A step that reads and writes only the components `T`. -/
def LocalTo (T : List Nat) (f : RState V → RState V) : Prop := (∀ s, SameOff T (f s) s) ∧ ∀ s s', SameOn T s s' → SameOn T (f s) (f s')

theorem LocalTo.mono {T G : List Nat} {f : RState V → RState V} (h : LocalTo T f) (hT : ∀ i ∈ T, i ∈ G) : LocalTo G f := by
  refine ⟨fun s i hi => h.1 s i fun h' => hi (hT i h'), fun s s' hs i hi => ?_⟩
  by_cases hi' : i ∈ T
  · exact h.2 s s' (fun j hj => hs j (hT j hj)) i hi'
  · have a := h.1 s i hi'
    have b := h.1 s' i hi'
    have c := hs i hi
    exact ⟨by rw [a.1, b.1, c.1], by rw [a.2.1, b.2.1, c.2.1], by rw [a.2.2, b.2.2, c.2.2]⟩

theorem LocalTo.comp {T : List Nat} {f g : RState V → RState V} (hf : LocalTo T f) (hg : LocalTo T g) : LocalTo T (fun s => f (g s)) :=
  ⟨fun s => (hf.1 (g s)).trans (hg.1 s), fun s s' h => hf.2 _ _ (hg.2 s s' h)⟩

theorem LocalTo.id (T : List Nat) : LocalTo T (fun s : RState V => s) := ⟨fun s => SameOff.refl T s, fun _ _ h => h⟩

theorem LocalTo.ite {T : List Nat} {f g : RState V → RState V} (b : Bool) (hf : LocalTo T f) (hg : LocalTo T g) : LocalTo T (fun s => if b then f s else g s) := by
  cases b
  · exact hg
  · exact hf

theorem transferP_local (G : List Nat) (t : ParTree V) (ht : ∀ i ∈ t.comps, i ∈ G) : LocalTo G (transferP m G t) := by
  refine ⟨fun s i hi => ⟨rfl, rfl, funext fun j => ?_⟩, fun s s' h i hi => ⟨(h i hi).1, (h i hi).2.1, funext fun j => ?_⟩⟩
  · simp only [transferP]
    rw [if_neg (fun h => hi (ht i h.1))]
  · simp only [transferP]
    by_cases hc : i ∈ t.comps ∧ j ∈ m.src i ∧ j ∈ G ∧ (t.isComp = true ∨ j ∉ t.comps)
    · rw [if_pos hc, if_pos hc]; exact (h j hc.2.2.1).1
    · rw [if_neg hc, if_neg hc, (h i hi).2.2]

theorem runComp_local (i : Nat) : LocalTo [i] (runComp m i) := by
  refine ⟨fun s k hk => ⟨?_, rfl, rfl⟩, fun s s' h k hk => ?_⟩
  · simp only [runComp]
    exact Function.update_of_ne (by simpa using hk) _ _
  · obtain rfl : k = i := by simpa using hk
    have := h k hk
    refine ⟨?_, this.2.1, this.2.2⟩
    simp only [runComp, Function.update_self, this.1, this.2.2]

theorem applyComp_local (i : Nat) : LocalTo [i] (applyComp m i) := by
  refine ⟨fun s k hk => ?_, fun s s' h k hk => ?_⟩
  · have hu := applyComp_u (m := m) i s
    refine ⟨by rw [hu.1], ?_, by rw [hu.2]⟩
    rw [applyComp_r]
    exact Function.update_of_ne (by simpa using hk) _ _
  · obtain rfl : k = i := by simpa using hk
    have hk := h k hk
    have hu := applyComp_u (m := m) k s
    have hu' := applyComp_u (m := m) k s'
    refine ⟨by rw [hu.1, hu'.1]; exact hk.1, ?_, by rw [hu.2, hu'.2]; exact hk.2.2⟩
    rw [applyComp_r, applyComp_r, Function.update_self, Function.update_self, hk.1, hk.2.2]

theorem scaleR_local (i : Nat) : LocalTo [i] (scaleR (V := V) sc i) := by
  refine ⟨fun s k hk => ⟨rfl, ?_, rfl⟩, fun s s' h k hk => ?_⟩
  · simp only [scaleR]
    exact Function.update_of_ne (by simpa using hk) _ _
  · obtain rfl : k = i := by simpa using hk
    have := h k hk
    refine ⟨this.1, ?_, this.2.2⟩
    simp only [scaleR, Function.update_self, this.2.1]

theorem viewIn_same {G : List Nat} {s s' : RState V} (h : SameOn G s s') : viewIn G s = viewIn G s' := by
  unfold viewIn
  congr 1 <;> funext i <;> by_cases hi : i ∈ G <;> simp only [hi, if_true, if_false]
  · exact (h i hi).1
  · exact (h i hi).2.1
  · exact (h i hi).2.2

theorem unkIn_same {G : List Nat} {s s' : RState V} (h : SameOn G s s') : unkIn G s.u = unkIn G s'.u := by
  unfold unkIn
  funext i
  by_cases hi : i ∈ G <;> simp only [hi, if_true, if_false]
  exact (h i hi).1

theorem setIn_same {G : List Nat} {v v' : Nat → V} {s s' : RState V} (hv : v = v') (h : SameOn G s s') : SameOn G (setIn G v s) (setIn G v' s') := by
  subst hv
  intro i hi
  refine ⟨?_, (h i hi).2.1, (h i hi).2.2⟩
  simp only [setIn, hi, if_true]

theorem setIn_off (G : List Nat) (v : Nat → V) (s : RState V) : SameOff G (setIn G v s) s := fun i hi => ⟨by simp only [setIn, hi, if_false], rfl, rfl⟩

/-- The loop of a solver around one iteration `it`. -/
def itLoop (more : RState V → RState V → RState V → Bool) (it : RState V → RState V) (base : RState V) : Nat → RState V → RState V → RState V
  | 0, _, s => s
  | n + 1, prev, s => if more base prev s then itLoop more it base n s (it s) else s

/-- One iteration of NLGaussSeidel. -/
def nlgsIt (G : List Nat) (sweep apply : RState V → RState V) (relax : Option ((Nat → V) → (Nat → V) → Nat → V)) (s : RState V) : RState V :=
  match relax with
  | none => apply (sweep s)
  | some f => setIn G (f s.u (apply (sweep s)).u) (apply (sweep s))

/-- One iteration of Newton. -/
def newtonIt (G : List Nat) (sweep apply : RState V → RState V) (step : RState V → Nat → V) (sub : Bool) (s : RState V) : RState V :=
  apply (if sub then sweep (setIn G (step s) s) else setIn G (step s) s)

theorem nlgs_it (G : List Nat) (sweep apply : RState V → RState V) (more : RState V → RState V → RState V → Bool) (relax : Option ((Nat → V) → (Nat → V) → Nat → V)) (base : RState V) (n : Nat) :
    ∀ prev s, rNlgsLoop G sweep apply more relax base n prev s = itLoop more (nlgsIt G sweep apply relax) base n prev s := by
  induction n with
  | zero => intro prev s; rfl
  | succ n ih =>
    intro prev s
    simp only [rNlgsLoop, itLoop]
    split
    · rw [ih]; cases relax <;> rfl
    · rfl

theorem newton_it (G : List Nat) (sweep apply : RState V → RState V) (more : RState V → RState V → RState V → Bool) (step : RState V → Nat → V) (sub : Bool) (base : RState V) (n : Nat) :
    ∀ prev s, rNewtonLoop G sweep apply more step sub base n prev s = itLoop more (newtonIt G sweep apply step sub) base n prev s := by
  induction n with
  | zero => intro prev s; rfl
  | succ n ih =>
    intro prev s
    simp only [rNewtonLoop, itLoop]
    split
    · rw [ih]; rfl
    · rfl

theorem itLoop_off {G : List Nat} {more : RState V → RState V → RState V → Bool} {it : RState V → RState V} (hi : LocalTo G it) (base : RState V) (n : Nat) :
    ∀ prev s, SameOff G (itLoop more it base n prev s) s := by
  induction n with
  | zero => intro prev s; exact SameOff.refl G s
  | succ n ih =>
    intro prev s
    simp only [itLoop]
    split
    · exact (ih s (it s)).trans (hi.1 s)
    · exact SameOff.refl G s

theorem itLoop_on {G : List Nat} {more : RState V → RState V → RState V → Bool} {it : RState V → RState V} (hi : LocalTo G it)
    (hm : ∀ a a' b b' c c', SameOn G a a' → SameOn G b b' → SameOn G c c' → more a b c = more a' b' c') {base base' : RState V} (hb : SameOn G base base') (n : Nat) :
    ∀ prev prev' s s', SameOn G prev prev' → SameOn G s s' → SameOn G (itLoop more it base n prev s) (itLoop more it base' n prev' s') := by
  induction n with
  | zero => intro prev prev' s s' _ h; exact h
  | succ n ih =>
    intro prev prev' s s' hp h
    simp only [itLoop]
    rw [hm base base' prev prev' s s' hb hp h]
    split
    · exact ih s s' _ _ h (hi.2 s s' h)
    · exact h

theorem nlgsIt_local {G : List Nat} {sweep apply : RState V → RState V} (hs : LocalTo G sweep) (ha : LocalTo G apply) (relax : Option ((Nat → V) → (Nat → V) → Nat → V)) :
    LocalTo G (nlgsIt G sweep apply (relax.map fun f a b => f (unkIn G a) (unkIn G b))) := by
  have h1 : LocalTo G (fun s => apply (sweep s)) := ha.comp hs
  cases relax with
  | none => exact h1
  | some f =>
    refine ⟨fun s => (setIn_off G _ _).trans (h1.1 s), fun s s' h => ?_⟩
    exact setIn_same (by show f (unkIn G s.u) (unkIn G _) = f (unkIn G s'.u) (unkIn G _); rw [unkIn_same h, unkIn_same (h1.2 s s' h)]) (h1.2 s s' h)

theorem newtonIt_local {G : List Nat} {sweep apply : RState V → RState V} (hs : LocalTo G sweep) (ha : LocalTo G apply) (step : RState V → Nat → V) (sub : Bool) :
    LocalTo G (newtonIt G sweep apply (fun s => step (viewIn G s)) sub) := by
  have h1 : LocalTo G (fun s => setIn G (step (viewIn G s)) s) := ⟨fun s => setIn_off G _ s, fun s s' h => setIn_same (by rw [viewIn_same h]) h⟩
  exact ha.comp (LocalTo.ite sub (hs.comp h1) h1)

theorem runSolver_local {G : List Nat} {sweep apply : RState V → RState V} (hs : LocalTo G sweep) (ha : LocalTo G apply) (sol : RSolver V) : LocalTo G (runSolver G sweep apply (sol.within G)) := by
  have h1 : LocalTo G (fun s => apply (sweep s)) := ha.comp hs
  cases sol with
  | runOnce => exact hs
  | nlgs n more relax =>
    by_cases hn : n = 1
    · have : runSolver G sweep apply (RSolver.within G (.nlgs n more relax)) = sweep := by funext s; simp only [RSolver.within, runSolver, hn, if_true]
      rw [this]; exact hs
    · refine ⟨fun s => ?_, fun s s' h => ?_⟩ <;> simp only [RSolver.within, runSolver, hn, if_false]
      · rw [nlgs_it]
        exact (itLoop_off (nlgsIt_local hs ha relax) _ _ _ _).trans (h1.1 s)
      · rw [nlgs_it, nlgs_it]
        refine itLoop_on (nlgsIt_local hs ha relax) ?_ (h1.2 s s' h) _ _ _ _ _ (h1.2 s s' h) (h1.2 s s' h)
        intro a a' b b' c c' h1 h2 h3
        rw [viewIn_same h1, viewIn_same h2, viewIn_same h3]
  | newton n more step sub =>
    refine ⟨fun s => ?_, fun s s' h => ?_⟩ <;> simp only [RSolver.within, runSolver]
    · rw [newton_it]
      exact (itLoop_off (newtonIt_local hs ha step sub) _ _ _ _).trans (h1.1 s)
    · rw [newton_it, newton_it]
      refine itLoop_on (newtonIt_local hs ha step sub) ?_ (h1.2 s s' h) _ _ _ _ _ (h1.2 s s' h) (h1.2 s s' h)
      intro a a' b b' c c' h1 h2 h3
      rw [viewIn_same h1, viewIn_same h2, viewIn_same h3]

theorem mem_compsP {cs : List (ParTree V)} {t : ParTree V} (h : t ∈ cs) : ∀ i ∈ t.comps, i ∈ compsP cs := by
  induction cs with
  | nil => simp at h
  | cons c cs ih =>
    intro i hi
    rw [compsP, List.mem_append]
    rcases List.mem_cons.1 h with rfl | h
    · exact Or.inl hi
    · exact Or.inr (ih h i hi)

theorem scatterAll_local (G : List Nat) : ∀ cs : List (ParTree V), (∀ i ∈ compsP cs, i ∈ G) → LocalTo G (scatterAll m G cs)
  | [], _ => LocalTo.id G
  | t :: ts, h => by
    have h1 := transferP_local (m := m) G t fun i hi => h i (by rw [compsP, List.mem_append]; exact Or.inl hi)
    have h2 := scatterAll_local G ts fun i hi => h i (by rw [compsP, List.mem_append]; exact Or.inr hi)
    exact h2.comp h1

theorem scaleSub_local (t : ParTree V) : LocalTo t.comps (scaleSub (V := V) sc t) := by
  cases t with
  | comp i => exact scaleR_local i
  | group par sol cs => exact LocalTo.id _

mutual
theorem applyP_local : ∀ t : ParTree V, LocalTo t.comps (applyP m run sc t)
  | .comp i => by
    have : applyP m run sc (.comp i) = applyComp m i := by funext s; rw [applyP]
    rw [this]; exact applyComp_local i
  | .group false sol cs => by
    have : applyP m run sc (.group false sol cs) = fun s => applySer m run sc (compsP cs) cs s := by funext s; rw [applyP]
    rw [this]; exact applySer_local (compsP cs) cs fun i hi => hi
  | .group true sol cs => by
    have : applyP m run sc (.group true sol cs) = fun s => applyPar m run sc cs (scatterAll m (compsP cs) cs s) := by funext s; rw [applyP]
    rw [this]; exact (applyPar_local cs).comp (scatterAll_local (compsP cs) cs fun i hi => hi)
theorem applySer_local (G : List Nat) : ∀ ts : List (ParTree V), (∀ i ∈ compsP ts, i ∈ G) → LocalTo G (applySer m run sc G ts)
  | [], _ => by
    have : applySer m run sc G [] = fun s => s := by funext s; rw [applySer]
    rw [this]; exact LocalTo.id G
  | t :: ts, h => by
    have hG : ∀ k ∈ t.comps, k ∈ G := fun k hk => h k (by rw [compsP, List.mem_append]; exact Or.inl hk)
    have h1 := transferP_local (m := m) G t hG
    have h2 := (applyP_local t).mono hG
    have h3 := applySer_local G ts fun k hk => h k (by rw [compsP, List.mem_append]; exact Or.inr hk)
    have : applySer m run sc G (t :: ts) = fun s => applySer m run sc G ts (if t.skipped run then s else scaleSub sc t (applyP m run sc t (transferP m G t s))) := by
      funext s; rw [applySer]
    rw [this]
    exact h3.comp (LocalTo.ite (t.skipped run) (LocalTo.id G) (((scaleSub_local t).mono hG).comp (h2.comp h1)))
theorem applyPar_local : ∀ ts : List (ParTree V), LocalTo (compsP ts) (applyPar m run sc ts)
  | [] => by
    have : applyPar m run sc [] = fun s => s := by funext s; rw [applyPar]
    rw [this]; exact LocalTo.id _
  | t :: ts => by
    have : applyPar m run sc (t :: ts) = fun s => applyPar m run sc ts (applyP m run sc t s) := by funext s; rw [applyPar]
    rw [this]
    exact ((applyPar_local ts).mono fun i hi => by rw [compsP, List.mem_append]; exact Or.inr hi).comp ((applyP_local t).mono fun i hi => by rw [compsP, List.mem_append]; exact Or.inl hi)
end

mutual
theorem solveP_local : ∀ t : ParTree V, LocalTo t.comps (solveP m run sc t)
  | .comp i => by
    have : solveP m run sc (.comp i) = runComp m i := by funext s; rw [solveP]
    rw [this]; exact runComp_local i
  | .group false sol cs => by
    have : solveP m run sc (.group false sol cs) =
      runSolver (compsP cs) (fun s => sweepSer m run sc (compsP cs) cs s) (fun s => applyP m run sc (.group false sol cs) s) (sol.within (compsP cs)) := by funext s; rw [solveP]
    rw [this]; exact runSolver_local (sweepSer_local (compsP cs) cs fun i hi => hi) (applyP_local (.group false sol cs)) sol
  | .group true sol cs => by
    have : solveP m run sc (.group true sol cs) =
      runSolver (compsP cs) (fun s => sweepPar m run sc cs (scatterAll m (compsP cs) cs s)) (fun s => applyP m run sc (.group true sol cs) s) (sol.within (compsP cs)) := by funext s; rw [solveP]
    rw [this]
    exact runSolver_local ((sweepPar_local cs).comp (scatterAll_local (compsP cs) cs fun i hi => hi)) (applyP_local (.group true sol cs)) sol
theorem sweepSer_local (G : List Nat) : ∀ ts : List (ParTree V), (∀ i ∈ compsP ts, i ∈ G) → LocalTo G (sweepSer m run sc G ts)
  | [], _ => by
    have : sweepSer m run sc G [] = fun s => s := by funext s; rw [sweepSer]
    rw [this]; exact LocalTo.id G
  | t :: ts, h => by
    have hG : ∀ k ∈ t.comps, k ∈ G := fun k hk => h k (by rw [compsP, List.mem_append]; exact Or.inl hk)
    have h3 := sweepSer_local G ts fun k hk => h k (by rw [compsP, List.mem_append]; exact Or.inr hk)
    have : sweepSer m run sc G (t :: ts) = fun s => sweepSer m run sc G ts (solveP m run sc t (transferP m G t s)) := by funext s; rw [sweepSer]
    rw [this]
    exact h3.comp (((solveP_local t).mono hG).comp (transferP_local (m := m) G t hG))
theorem sweepPar_local : ∀ ts : List (ParTree V), LocalTo (compsP ts) (sweepPar m run sc ts)
  | [] => by
    have : sweepPar m run sc [] = fun s => s := by funext s; rw [sweepPar]
    rw [this]; exact LocalTo.id _
  | t :: ts => by
    have : sweepPar m run sc (t :: ts) = fun s => sweepPar m run sc ts (solveP m run sc t s) := by funext s; rw [sweepPar]
    rw [this]
    exact ((sweepPar_local ts).mono fun i hi => by rw [compsP, List.mem_append]; exact Or.inr hi).comp ((solveP_local t).mono fun i hi => by rw [compsP, List.mem_append]; exact Or.inl hi)
end

theorem compsP_nodup {t : ParTree V} {ts : List (ParTree V)} (h : (compsP (t :: ts)).Nodup) : t.comps.Nodup ∧ (compsP ts).Nodup ∧ ∀ i ∈ t.comps, i ∉ compsP ts := by
  rw [compsP] at h
  exact ⟨(List.nodup_append.1 h).1, (List.nodup_append.1 h).2.1, fun i hi hj => (List.nodup_append.1 h).2.2 i hi i hj rfl⟩

/-- A loop over steps that each keep to their own components: every one has the effect that it would have alone. -/
theorem fold_local {f : ParTree V → RState V → RState V} (hf : ∀ t, LocalTo t.comps (f t)) :
    ∀ (cs : List (ParTree V)) (s : RState V), (compsP cs).Nodup → (∀ t ∈ cs, SameOn t.comps (cs.foldl (fun s t => f t s) s) (f t s)) ∧ SameOff (compsP cs) (cs.foldl (fun s t => f t s) s) s
  | [], s, _ => ⟨fun t ht => by simp at ht, SameOff.refl _ s⟩
  | c :: cs, s, h => by
    obtain ⟨-, h2, h3⟩ := compsP_nodup h
    obtain ⟨ih1, ih2⟩ := fold_local hf cs (f c s) h2
    rw [List.foldl_cons]
    refine ⟨fun t ht => ?_, fun i hi => ?_⟩
    · rcases List.mem_cons.1 ht with rfl | ht
      · exact fun i hi => ih2 i (h3 i hi)
      · refine (ih1 t ht).trans ((hf t).2 _ _ fun i hi => (hf c).1 s i fun hc => h3 i hc (mem_compsP ht i hi))
    · rw [compsP, List.mem_append, not_or] at hi
      have a := ih2 i hi.2
      have b := (hf c).1 s i hi.1
      exact ⟨a.1.trans b.1, a.2.1.trans b.2.1, a.2.2.trans b.2.2⟩

theorem sweepPar_fold : ∀ (cs : List (ParTree V)) (s : RState V), sweepPar m run sc cs s = cs.foldl (fun s t => solveP m run sc t s) s
  | [], s => by rw [sweepPar]; rfl
  | t :: ts, s => by rw [sweepPar, sweepPar_fold ts, List.foldl_cons]

theorem applyPar_fold : ∀ (cs : List (ParTree V)) (s : RState V), applyPar m run sc cs s = cs.foldl (fun s t => applyP m run sc t s) s
  | [], s => by rw [applyPar]; rfl
  | t :: ts, s => by rw [applyPar, applyPar_fold ts, List.foldl_cons]

/-- The full scatter: all params of a subsystem get what the transfer to that subsystem alone would give them. -/
theorem scatterAll_spec (G : List Nat) (cs : List (ParTree V)) (s : RState V) (h : (compsP cs).Nodup) :
    (scatterAll m G cs s).u = s.u ∧ (scatterAll m G cs s).r = s.r ∧ (∀ t ∈ cs, SameOn t.comps (scatterAll m G cs s) (transferP m G t s)) ∧ SameOff (compsP cs) (scatterAll m G cs s) s := by
  induction cs generalizing s with
  | nil => exact ⟨rfl, rfl, fun t ht => by simp at ht, SameOff.refl _ s⟩
  | cons c cs ih =>
    obtain ⟨-, h2, h3⟩ := compsP_nodup h
    have hc : scatterAll m G (c :: cs) s = scatterAll m G cs (transferP m G c s) := rfl
    rw [hc]
    obtain ⟨a, b, d, e⟩ := ih (transferP m G c s) h2
    have hp : ∀ i, i ∉ c.comps → (transferP m G c s).p i = s.p i := fun i hi => by
      funext j
      simp only [transferP]
      rw [if_neg fun hh => hi hh.1]
    refine ⟨a, b, fun t ht => ?_, fun i hi => ?_⟩
    · rcases List.mem_cons.1 ht with rfl | ht
      · exact fun i hi => e i (h3 i hi)
      · refine (d t ht).trans fun i hi => ⟨rfl, rfl, ?_⟩
        funext j
        have := congrFun (hp i fun hh => h3 i hh (mem_compsP ht i hi)) j
        simp only [transferP] at this ⊢
        rw [this]
    · rw [compsP, List.mem_append, not_or] at hi
      have x := e i hi.2
      exact ⟨x.1, x.2.1, x.2.2.trans (hp i hi.1)⟩

theorem mem_compsP_iff {cs : List (ParTree V)} {i : Nat} : i ∈ compsP cs ↔ ∃ t ∈ cs, i ∈ t.comps := by
  induction cs with
  | nil => simp [compsP]
  | cons c cs ih => rw [compsP, List.mem_append, ih]; simp

theorem compsP_perm {cs cs' : List (ParTree V)} (h : cs.Perm cs') : (compsP cs).Perm (compsP cs') := by
  induction h with
  | nil => exact List.Perm.refl _
  | cons t _ ih => simp only [compsP]; exact ih.append_left _
  | swap a b l =>
    simp only [compsP, ← List.append_assoc]
    exact List.Perm.append_right _ List.perm_append_comm
  | trans _ _ h1 h2 => exact h1.trans h2

theorem same_of_children {cs : List (ParTree V)} {s s' : RState V} (h : ∀ t ∈ cs, SameOn t.comps s s') (h' : SameOff (compsP cs) s s') : s = s' := by
  refine same_all (G := compsP cs) (fun i hi => ?_) h'
  obtain ⟨t, ht, hi⟩ := mem_compsP_iff.1 hi
  exact h t ht i hi

theorem SameOff.symm {G : List Nat} {s s' : RState V} (h : SameOff G s s') : SameOff G s' s := fun i hi => ⟨(h i hi).1.symm, (h i hi).2.1.symm, (h i hi).2.2.symm⟩

theorem fold_perm {f : ParTree V → RState V → RState V} (hf : ∀ t, LocalTo t.comps (f t)) {cs cs' : List (ParTree V)} (h : cs.Perm cs') (hn : (compsP cs).Nodup) (s : RState V) :
    cs.foldl (fun s t => f t s) s = cs'.foldl (fun s t => f t s) s := by
  have hn' : (compsP cs').Nodup := (compsP_perm h).nodup_iff.1 hn
  obtain ⟨a, b⟩ := fold_local hf cs s hn
  obtain ⟨a', b'⟩ := fold_local hf cs' s hn'
  refine same_of_children (cs := cs) (fun t ht => (a t ht).trans (a' t (h.mem_iff.1 ht)).symm) ?_
  refine b.trans fun i hi => ?_
  have := b' i fun hh => hi ((compsP_perm h).mem_iff.2 hh)
  exact ⟨this.1.symm, this.2.1.symm, this.2.2.symm⟩

theorem transferP_mem {G G' : List Nat} (h : ∀ i, i ∈ G ↔ i ∈ G') (t : ParTree V) : transferP m G t = transferP m G' t := by
  funext s
  simp only [transferP, h]

theorem scatterAll_perm {G G' : List Nat} (hG : ∀ i, i ∈ G ↔ i ∈ G') {cs cs' : List (ParTree V)} (h : cs.Perm cs') (hn : (compsP cs).Nodup) (s : RState V) : scatterAll m G cs s = scatterAll m G' cs' s := by
  have hn' : (compsP cs').Nodup := (compsP_perm h).nodup_iff.1 hn
  obtain ⟨-, -, a, b⟩ := scatterAll_spec (m := m) G cs s hn
  obtain ⟨-, -, a', b'⟩ := scatterAll_spec (m := m) G' cs' s hn'
  refine same_of_children (cs := cs) (fun t ht => (a t ht).trans ?_) ?_
  · rw [transferP_mem hG t]; exact (a' t (h.mem_iff.1 ht)).symm
  · refine b.trans fun i hi => ?_
    have := b' i fun hh => hi ((compsP_perm h).mem_iff.2 hh)
    exact ⟨this.1.symm, this.2.1.symm, this.2.2.symm⟩

theorem within_mem {G G' : List Nat} (h : ∀ i, i ∈ G ↔ i ∈ G') (sol : RSolver V) : sol.within G = sol.within G' := by
  have h1 : viewIn (V := V) G = viewIn G' := by funext s; simp only [viewIn, h]
  have h2 : unkIn (V := V) G = unkIn G' := by funext s i; simp only [unkIn, h]
  cases sol with
  | runOnce => rfl
  | nlgs n more relax => simp only [RSolver.within, h1, h2]
  | newton n more step sub => simp only [RSolver.within, h1]

theorem nlgsIt_mem {G G' : List Nat} (h : ∀ i, i ∈ G ↔ i ∈ G') : nlgsIt (V := V) G = nlgsIt G' := by
  funext sweep apply relax s
  simp only [nlgsIt, setIn, h]

theorem newtonIt_mem {G G' : List Nat} (h : ∀ i, i ∈ G ↔ i ∈ G') : newtonIt (V := V) G = newtonIt G' := by
  funext sweep apply step sub s
  simp only [newtonIt, setIn, h]

theorem runSolver_mem {G G' : List Nat} (h : ∀ i, i ∈ G ↔ i ∈ G') (sweep apply : RState V → RState V) (sol : RSolver V) (s : RState V) : runSolver G sweep apply sol s = runSolver G' sweep apply sol s := by
  cases sol with
  | runOnce => rfl
  | nlgs n more relax => simp only [runSolver, nlgs_it, nlgsIt_mem h]
  | newton n more step sub => simp only [runSolver, newton_it, newtonIt_mem h]

/-- **C170.** The subsystems of a `ParallelGroup` may run, and evaluate their residuals, in any order: a run of the group gives the same state. -/
theorem C170_any_order (m : RModel V) (run : Nat → Bool) (sc : Nat → V → V) (sol : RSolver V) {cs cs' : List (ParTree V)} (h : cs.Perm cs') (hn : (compsP cs).Nodup) (s : RState V) :
    solveP m run sc (.group true sol cs) s = solveP m run sc (.group true sol cs') s ∧ applyP m run sc (.group true sol cs) s = applyP m run sc (.group true sol cs') s ∧
      childrenP m run sc true cs s = childrenP m run sc true cs' s := by
  have hG : ∀ i, i ∈ compsP cs ↔ i ∈ compsP cs' := fun i => (compsP_perm h).mem_iff
  have ha : ∀ s, applyP m run sc (.group true sol cs) s = applyP m run sc (.group true sol cs') s := fun s => by
    rw [applyP, applyP, applyPar_fold, applyPar_fold, scatterAll_perm hG h hn, fold_perm (f := fun t s => applyP m run sc t s) (fun t => applyP_local t) h hn]
  have hc : ∀ s, sweepPar m run sc cs (scatterAll m (compsP cs) cs s) = sweepPar m run sc cs' (scatterAll m (compsP cs') cs' s) := fun s => by
    rw [sweepPar_fold, sweepPar_fold, scatterAll_perm hG h hn, fold_perm (f := fun t s => solveP m run sc t s) (fun t => solveP_local t) h hn]
  refine ⟨?_, ha s, ?_⟩
  · rw [solveP, solveP, within_mem hG, runSolver_mem hG]
    simp only [ha, hc]
  · simp only [childrenP, if_true]
    exact hc s

/-- **C170.** In a `ParallelGroup`, each subsystem runs as if it were alone, with the params it gets from the unknowns before the run; what is outside the group is unchanged. -/
theorem C170_before_run (m : RModel V) (run : Nat → Bool) (sc : Nat → V → V) (cs : List (ParTree V)) (hn : (compsP cs).Nodup) (s : RState V) :
    (∀ t ∈ cs, SameOn t.comps (childrenP m run sc true cs s) (solveP m run sc t (transferP m (compsP cs) t s))) ∧ SameOff (compsP cs) (childrenP m run sc true cs s) s := by
  obtain ⟨-, -, a, b⟩ := scatterAll_spec (m := m) (compsP cs) cs s hn
  obtain ⟨d, e⟩ := fold_local (f := fun t s => solveP m run sc t s) (fun t => solveP_local t) cs (scatterAll m (compsP cs) cs s) hn
  simp only [childrenP, if_true]
  rw [sweepPar_fold]
  exact ⟨fun t ht => (d t ht).trans ((solveP_local t).2 _ _ (a t ht)), e.trans b⟩

/-- The same for an explicit component directly in the group: its output is computed from the outputs before the run. -/
theorem C170_explicit (m : RModel V) (run : Nat → Bool) (sc : Nat → V → V) (cs : List (ParTree V)) (hn : (compsP cs).Nodup) (s : RState V) {i : Nat} (hi : .comp i ∈ cs) {f : (Nat → V) → V}
    (hf : m.kind i = .explicit f) (hs : ∀ j ∈ m.src i, j ∈ compsP cs) : (childrenP m run sc true cs s).u i = f (nowArgs m s i) := by
  have := ((C170_before_run m run sc cs hn s).1 _ hi i (by simp [ParTree.comps])).1
  rw [this, solveP]
  simp only [runComp, hf, Function.update_self]
  congr 1
  funext j
  simp only [transferP, nowArgs, ParTree.comps, ParTree.isComp, true_or, and_true, List.mem_singleton, true_and]
  by_cases hj : j ∈ m.src i
  · rw [if_pos ⟨hj, hs j hj⟩, if_pos hj]
  · rw [if_neg fun h => hj h.1, if_neg hj]

theorem transferP_kept {G : List Nat} {t c : ParTree V} {s s' : RState V} (hf : SameOff c.comps s' s) (hd : ∀ i ∈ t.comps, i ∉ c.comps)
    (hc : ∀ i ∈ t.comps, ∀ j ∈ c.comps, j ∉ m.src i) : SameOn t.comps (transferP m G t s') (transferP m G t s) := by
  intro i hi
  have h1 := hf i (hd i hi)
  refine ⟨h1.1, h1.2.1, funext fun j => ?_⟩
  simp only [transferP]
  split
  · rename_i h
    exact (hf j fun hj => hc i hi j hj h.2.1).1
  · rw [h1.2.2]

theorem sweepSer_indep (G : List Nat) : ∀ (cs : List (ParTree V)) (s : RState V), (compsP cs).Nodup → NotConnected m cs →
    (∀ t ∈ cs, SameOn t.comps (sweepSer m run sc G cs s) (solveP m run sc t (transferP m G t s))) ∧ SameOff (compsP cs) (sweepSer m run sc G cs s) s
  | [], s, _, _ => by
    rw [sweepSer]
    exact ⟨fun t ht => by simp at ht, SameOff.refl _ s⟩
  | c :: cs, s, hn, hc => by
    obtain ⟨-, h2, h3⟩ := compsP_nodup hn
    have hc' := List.pairwise_cons.1 hc
    have hl : SameOff c.comps (solveP m run sc c (transferP m G c s)) s := by
      refine ((solveP_local c).1 _).trans fun i hi => ⟨rfl, rfl, funext fun j => ?_⟩
      simp only [transferP]; rw [if_neg fun h => hi h.1]
    rw [sweepSer]
    obtain ⟨ih1, ih2⟩ := sweepSer_indep G cs (solveP m run sc c (transferP m G c s)) h2 hc'.2
    refine ⟨fun t ht => ?_, fun i hi => ?_⟩
    · rcases List.mem_cons.1 ht with rfl | ht
      · exact fun i hi => ih2 i (h3 i hi)
      · refine (ih1 t ht).trans ((solveP_local t).2 _ _ (transferP_kept hl (fun i hi hh => h3 i hh (mem_compsP ht i hi)) fun i hi j hj => ?_))
        exact (hc'.1 t ht j hj i hi).2
    · rw [compsP, List.mem_append, not_or] at hi
      have a := ih2 i hi.2
      have b := hl i hi.1
      exact ⟨a.1.trans b.1, a.2.1.trans b.2.1, a.2.2.trans b.2.2⟩

/-- **C170.** When no subsystem is connected to another one, a `ParallelGroup` runs its subsystems with the same result as a `Group`. -/
theorem C170_same_as_group_partial (m : RModel V) (run : Nat → Bool) (sc : Nat → V → V) (cs : List (ParTree V)) (hn : (compsP cs).Nodup) (hc : NotConnected m cs) (s : RState V) :
    childrenP m run sc true cs s = childrenP m run sc false cs s ∧ solveP m run sc (.group true .runOnce cs) s = solveP m run sc (.group false .runOnce cs) s := by
  have : childrenP m run sc true cs s = childrenP m run sc false cs s := by
    obtain ⟨a, b⟩ := C170_before_run m run sc cs hn s
    obtain ⟨d, e⟩ := sweepSer_indep (run := run) (sc := sc) (compsP cs) cs s hn hc
    have hf : childrenP m run sc false cs s = sweepSer m run sc (compsP cs) cs s := by simp [childrenP]
    rw [hf]
    exact same_of_children (fun t ht => (a t ht).trans (d t ht).symm) (b.trans e.symm)
  refine ⟨this, ?_⟩
  rw [solveP, solveP]
  simpa [childrenP, runSolver, RSolver.within] using this

/-- Only components, all of them explicit, in an order in which they could run once. -/
def inOrderComps (m : RModel V) (ids : List Nat) : Prop := ids.Nodup ∧ ∀ i ∈ ids, (∃ f, m.kind i = .explicit f) ∧ ∀ j ∈ m.src i, j ∈ ids ∧ ids.idxOf j < ids.idxOf i

theorem compsP_map (ids : List Nat) : compsP (ids.map (ParTree.comp (V := V))) = ids := by
  induction ids with
  | nil => rfl
  | cons i is ih => rw [List.map_cons, compsP, ih, ParTree.comps]; rfl

/-- `n` runs of the subsystems. -/
def runsPar (m : RModel V) (run : Nat → Bool) (sc : Nat → V → V) (cs : List (ParTree V)) : Nat → RState V → RState V
  | 0, s => s
  | n + 1, s => childrenP m run sc true cs (runsPar m run sc cs n s)

theorem childrenP_p (m : RModel V) (run : Nat → Bool) (sc : Nat → V → V) (ids : List Nat) (hn : ids.Nodup) (s : RState V) (i j : Nat) (hj : j ∉ m.src i) :
    (childrenP m run sc true (ids.map .comp) s).p i j = s.p i j := by
  have hn' : (compsP (ids.map (ParTree.comp (V := V)))).Nodup := by rw [compsP_map]; exact hn
  obtain ⟨a, b⟩ := C170_before_run m run sc (ids.map .comp) hn' s
  by_cases hi : i ∈ ids
  · have := (a (.comp i) (List.mem_map.2 ⟨i, hi, rfl⟩) i (by simp [ParTree.comps])).2.2
    rw [this, solveP]
    simp only [runComp, transferP]
    rw [if_neg fun h => hj h.2.1]
  · rw [(b i (by rw [compsP_map]; exact hi)).2.2]

/-- **C170.** `n` runs of a chain of explicit components in a `ParallelGroup` bring the first `n` of them to their final values: their residuals are zero, and further runs do not change them. -/
theorem C170_runs (m : RModel V) (run : Nat → Bool) (sc : Nat → V → V) (ids : List Nat) (h : inOrderComps m ids) (s : RState V) (n : Nat) :
    ∀ i ∈ ids, ids.idxOf i < n → trueResid m (runsPar m run sc (ids.map .comp) n s) i = 0 ∧ (runsPar m run sc (ids.map .comp) (n + 1) s).u i = (runsPar m run sc (ids.map .comp) n s).u i := by
  have hn' : (compsP (ids.map (ParTree.comp (V := V)))).Nodup := by rw [compsP_map]; exact h.1
  have step : ∀ s, ∀ i ∈ ids, ∀ f, m.kind i = .explicit f → (childrenP m run sc true (ids.map .comp) s).u i = f (nowArgs m s i) := fun s i hi f hf =>
    C170_explicit m run sc _ hn' s (List.mem_map.2 ⟨i, hi, rfl⟩) hf fun j hj => by rw [compsP_map]; exact ((h.2 i hi).2 j hj).1
  have key : ∀ n, ∀ i ∈ ids, ids.idxOf i < n → (runsPar m run sc (ids.map .comp) (n + 1) s).u i = (runsPar m run sc (ids.map .comp) n s).u i := by
    intro n
    induction n with
    | zero => intro i _ hlt; omega
    | succ n ih =>
      intro i hi hlt
      obtain ⟨f, hf⟩ := (h.2 i hi).1
      show (childrenP m run sc true (ids.map .comp) (runsPar m run sc (ids.map .comp) (n + 1) s)).u i = (childrenP m run sc true (ids.map .comp) (runsPar m run sc (ids.map .comp) n s)).u i
      rw [step _ i hi f hf, step _ i hi f hf]
      congr 1
      funext j
      simp only [nowArgs]
      split
      · rename_i hj
        exact ih j ((h.2 i hi).2 j hj).1 (by have := ((h.2 i hi).2 j hj).2; omega)
      · rename_i hj
        exact childrenP_p m run sc ids h.1 _ i j hj
  intro i hi hlt
  refine ⟨?_, key n i hi hlt⟩
  obtain ⟨f, hf⟩ := (h.2 i hi).1
  have := key n i hi hlt
  rw [show runsPar m run sc (ids.map .comp) (n + 1) s = childrenP m run sc true (ids.map .comp) (runsPar m run sc (ids.map .comp) n s) from rfl, step _ i hi f hf] at this
  simp only [trueResid, hf]
  rw [this, sub_self]

theorem scatterAll_u (G : List Nat) (cs : List (ParTree V)) (s : RState V) : (scatterAll m G cs s).u = s.u := by
  induction cs generalizing s with
  | nil => rfl
  | cons c cs ih => exact (ih (transferP m G c s)).trans rfl

mutual
theorem applyP_u : ∀ (t : ParTree V) (s : RState V), (applyP m run sc t s).u = s.u
  | .comp i, s => by rw [applyP]; exact (applyComp_u i s).1
  | .group false sol cs, s => by rw [applyP]; exact applySer_u (compsP cs) cs s
  | .group true sol cs, s => by rw [applyP, applyPar_u cs, scatterAll_u]
theorem applySer_u (G : List Nat) : ∀ (ts : List (ParTree V)) (s : RState V), (applySer m run sc G ts s).u = s.u
  | [], s => by rw [applySer]
  | t :: ts, s => by
    rw [applySer, applySer_u G ts]
    split
    · rfl
    · have : ∀ x, (scaleSub sc t x).u = x.u := fun x => by cases t <;> rfl
      rw [this, applyP_u t]; rfl
theorem applyPar_u : ∀ (ts : List (ParTree V)) (s : RState V), (applyPar m run sc ts s).u = s.u
  | [], s => by rw [applyPar]
  | t :: ts, s => by rw [applyPar, applyPar_u ts, applyP_u t]
end

theorem applyPar_comps (m : RModel V) (run : Nat → Bool) (sc : Nat → V → V) (sol : RSolver V) (ids : List Nat) (hn : ids.Nodup) (s : RState V) {i : Nat} (hi : i ∈ ids) (hs : ∀ j ∈ m.src i, j ∈ ids) :
    (applyP m run sc (.group true sol (ids.map .comp)) s).r i = trueResid m s i ∧ ∀ j, j ∉ m.src i → (applyP m run sc (.group true sol (ids.map .comp)) s).p i j = s.p i j := by
  have hn' : (compsP (ids.map (ParTree.comp (V := V)))).Nodup := by rw [compsP_map]; exact hn
  rw [applyP, applyPar_fold]
  have hm : ParTree.comp i ∈ ids.map (ParTree.comp (V := V)) := List.mem_map.2 ⟨i, hi, rfl⟩
  have hii : i ∈ (ParTree.comp (V := V) i).comps := by simp [ParTree.comps]
  have h1 := (fold_local (f := fun t s => applyP m run sc t s) (fun t => applyP_local t) _ (scatterAll m (compsP (ids.map (ParTree.comp (V := V)))) (ids.map .comp) s) hn').1 _ hm
  have h2 := (scatterAll_spec (m := m) (compsP (ids.map (ParTree.comp (V := V)))) (ids.map .comp) s hn').2.2.1 _ hm
  have h3 := (h1.trans ((applyP_local (.comp i)).2 _ _ h2)) i hii
  rw [applyP] at h3
  have hp : (transferP m (compsP (ids.map (ParTree.comp (V := V)))) (.comp i) s).p i = nowArgs m s i := by
    funext j
    simp only [transferP, nowArgs, ParTree.comps, ParTree.isComp, true_or, and_true, List.mem_singleton, true_and]
    by_cases hj : j ∈ m.src i
    · rw [if_pos ⟨hj, by rw [compsP_map]; exact hs j hj⟩, if_pos hj]
    · rw [if_neg fun h => hj h.1, if_neg hj]
  refine ⟨?_, fun j hj => ?_⟩
  · rw [h3.2.1, applyComp_r, Function.update_self, hp]
    rfl
  · rw [h3.2.2, (applyComp_u i _).2, hp]
    simp only [nowArgs, hj, if_false]

theorem runSolver_applied {G : List Nat} {sweep apply : RState V → RState V} (sol : RSolver V) (he : sol.Evaluates) (hx : sol.NotRelaxed) (s : RState V) : ∃ x, runSolver G sweep apply (sol.within G) s = apply x := by
  have loop : ∀ more it (_ : ∀ s : RState V, ∃ x, it s = apply x) base n prev (s : RState V), (∃ x, s = apply x) → ∃ x, itLoop more it base n prev s = apply x := by
    intro more it hit base n
    induction n with
    | zero => intro prev s h; exact h
    | succ n ih =>
      intro prev s h
      simp only [itLoop]
      split
      · exact ih s (it s) (hit s)
      · exact h
  cases sol with
  | runOnce => exact he.elim
  | nlgs n more relax =>
    obtain rfl : relax = none := hx
    simp only [RSolver.within, runSolver, show ¬ n = 1 from he, if_false, nlgs_it]
    exact loop _ _ (fun s => ⟨_, rfl⟩) _ _ _ _ ⟨_, rfl⟩
  | newton n more step sub =>
    simp only [RSolver.within, runSolver, newton_it]
    exact loop _ _ (fun s => ⟨_, rfl⟩) _ _ _ _ ⟨_, rfl⟩

/-- **C170.** A solver on a `ParallelGroup` whose subsystems are components: after it, the residuals are the residuals of the outputs that it returns (without the scaling). -/
theorem C170_residuals_partial (m : RModel V) (run : Nat → Bool) (sc : Nat → V → V) (sol : RSolver V) (he : sol.Evaluates) (hx : sol.NotRelaxed) (ids : List Nat) (hn : ids.Nodup)
    (hs : ∀ i ∈ ids, ∀ j ∈ m.src i, j ∈ ids) (s : RState V) :
    ∀ i ∈ ids, (solveP m run sc (.group true sol (ids.map .comp)) s).r i = trueResid m (solveP m run sc (.group true sol (ids.map .comp)) s) i := by
  intro i hi
  rw [solveP]
  obtain ⟨x, h⟩ := runSolver_applied (G := compsP (ids.map (ParTree.comp (V := V)))) (sweep := fun s => sweepPar m run sc (ids.map .comp) (scatterAll m (compsP (ids.map (ParTree.comp (V := V)))) (ids.map .comp) s))
    (apply := fun s => applyP m run sc (.group true sol (ids.map .comp)) s) sol he hx s
  rw [h]
  obtain ⟨a, b⟩ := applyPar_comps m run sc sol ids hn x hi (hs i hi)
  rw [a]
  have hu := applyP_u (m := m) (run := run) (sc := sc) (.group true sol (ids.map .comp)) x
  have : nowArgs m (applyP m run sc (.group true sol (ids.map .comp)) x) i = nowArgs m x i := by
    funext j
    simp only [nowArgs, hu]
    split
    · rfl
    · rename_i hj; exact b j hj
  simp only [trueResid, this, hu]

/-! Examples and refutations. -/

/-- Two components: 0 gives 1, 1 gives the output of 0. -/
def pSample : RModel Int where
  src i := if i = 1 then [0] else []
  kind i := if i = 0 then .explicit fun _ => 1 else .explicit fun p => p 0

/-- The initial state: zeros. -/
def pZero : RState Int := ⟨fun _ => 0, fun _ => 0, fun _ _ => 0⟩

/-- A test of residuals: one of them is not zero. -/
def pMore (_ _ s : RState Int) : Bool := decide (s.r 0 ≠ 0) || decide (s.r 1 ≠ 0)

/-- The two components in one group each. -/
def pTwo : List (ParTree Int) := [.group false .runOnce [.comp 0], .group false .runOnce [.comp 1]]

/-- No component has to run again, as 0 runs before 1. -/
def pMarks : Nat → Bool := runApply pSample [0, 1]

example : (compsP pTwo).Nodup ∧ pTwo.Perm pTwo.reverse ∧ pTwo ≠ pTwo.reverse := ⟨by decide, (List.reverse_perm _).symm, fun h => by simp [pTwo] at h⟩
example : NotConnected pSample [ParTree.comp 0, .group false .runOnce [.comp 2], .comp 3] := by
  simp [NotConnected, ParTree.comps, compsP, pSample]
example : inOrderComps pSample [0, 1] := by
  refine ⟨by decide, fun i hi => ?_⟩
  rcases List.mem_cons.1 hi with rfl | hi
  · exact ⟨⟨_, rfl⟩, fun j hj => by simp [pSample] at hj⟩
  · obtain rfl : i = 1 := by simpa using hi
    exact ⟨⟨_, rfl⟩, fun j hj => by obtain rfl : j = 0 := by simpa [pSample] using hj
                                    decide⟩

/-- Connected subsystems: one run of a `Group` computes both outputs, one run of a `ParallelGroup` leaves the second one at a value computed from the output before the run. -/
theorem C170_same_as_group_refuted : (let s := solveP pSample pMarks (fun _ v => v) (.group true .runOnce [.comp 0, .comp 1]) pZero; (s.u 0, s.u 1)) = (1, 0) ∧
    (let s := solveP pSample pMarks (fun _ v => v) (.group false .runOnce [.comp 0, .comp 1]) pZero; (s.u 0, s.u 1)) = (1, 1) := by decide

/-- `NLGaussSeidel` on a `ParallelGroup` of two connected groups: all residuals are zero and it stops, although the second component would give another output. -/
theorem C170_residuals_refuted : (let s := solveP pSample pMarks (fun _ v => v) (.group true (.nlgs 10 pMore none) pTwo) pZero; (s.u 0, s.u 1, s.r 0, s.r 1, trueResid pSample s 1)) = (1, 0, 0, 0, 1) := by decide

/-- With the components directly in the `ParallelGroup`, it goes on until the outputs are right. -/
example : (let s := solveP pSample pMarks (fun _ v => v) (.group true (.nlgs 10 pMore none) [.comp 0, .comp 1]) pZero; (s.u 0, s.u 1, s.r 0, s.r 1, trueResid pSample s 1)) = (1, 1, 0, 0, 0) := by decide

/-- An implicit component with residual `6 - state`. -/
def pImpl : RModel Int where
  src _ := []
  kind _ := .implicit (fun _ x => x) fun _ x => 6 - x

/-- The `resid_scaler` of a state is used in a `Group` and ignored in a `ParallelGroup`. -/
theorem finding_C170_scaler : (applyP pImpl (fun _ => true) (fun _ v => v / 2) (.group false .runOnce [.comp 0]) pZero).r 0 = 3 ∧
    (applyP pImpl (fun _ => true) (fun _ v => v / 2) (.group true .runOnce [.comp 0]) pZero).r 0 = 6 := by decide

end OpenMDAO
