import Verif.Spec.RunDir
import Mathlib.Data.List.Basic
/-!
# C174: each component runs in its own directory
-/
namespace OpenMDAO
set_option linter.unusedSectionVars false

/-- `dirOf`, from the working directory `c` and the absolute directory `a`. -/
def expo (c a : PathStr) : List PathStr → PathStr
  | [] => c
  | d :: ds => if d = [] then expo c a ds else expo (absOf a d) (absOf a d) ds

theorem absOf_nil (a : PathStr) : absOf a [] = a := by simp [absOf]

theorem expo_same (a : PathStr) (ds : List PathStr) : expo a a ds = (ds.filter (· ≠ [])).foldl below a := by
  induction ds generalizing a with
  | nil => rfl
  | cons d ds ih =>
    unfold expo
    by_cases hd : d = []
    · simp [hd, ih]
    · rw [if_neg hd, ih]
      have : absOf a d = below a d := by simp [absOf, below, hd]
      simp [hd, this]

theorem expo_dirOf (c a : PathStr) (ds : List PathStr) : expo c a ds = dirOf c a ds := by
  induction ds with
  | nil => rfl
  | cons d ds ih =>
    unfold expo
    by_cases hd : d = []
    · rw [if_pos hd, ih]
      simp [dirOf, hd]
    · rw [if_neg hd, expo_same]
      have : absOf a d = below a d := by simp [absOf, below, hd]
      simp [dirOf, hd, this]

/-- The working directory inside a system. -/
def inside (c a d : PathStr) : PathStr := if d = [] then c else absOf a d

theorem expo_cons (c a d : PathStr) (ds : List PathStr) : expo c a (d :: ds) = expo (inside c a d) (absOf a d) ds := by
  unfold inside
  by_cases hd : d = []
  · simp [expo, hd, absOf_nil]
  · simp [expo, hd]

/-- An event is at a component of `t`, in the right directory: that of the component if it solves or linearizes, that of a group
above it, or of itself, if it evaluates residuals. -/
def GoodEv (c a : PathStr) (t : DirTree) (ev : Nat × DirCall × PathStr) : Prop :=
  ∃ ds, t.At (t.dir :: ds) ev.1 ∧ (ev.2.1 ≠ .apply → ev.2.2 = expo c a (t.dir :: ds)) ∧
    (ev.2.1 = .apply → ∃ d1 d2, ds = d1 ++ d2 ∧ ev.2.2 = expo c a (t.dir :: d1))

/-- A step keeps the directory and the attribute `start` of all contexts but those in `N`, and adds good events. -/
def KeepsDir (P : Nat × DirCall × PathStr → Prop) (N : Nat → Prop) (c : PathStr) (f : DirSt → DirSt) : Prop :=
  ∀ s, s.cwd = c → (f s).cwd = c ∧ (∀ j, ¬ N j → (f s).start j = s.start j) ∧ ∀ ev ∈ (f s).log, ev ∈ s.log ∨ P ev

variable {P Q : Nat × DirCall × PathStr → Prop} {N M : Nat → Prop} {c : PathStr} {f g : DirSt → DirSt}

theorem KeepsDir.id : KeepsDir P N c (fun s => s) := fun _ h => ⟨h, fun _ _ => rfl, fun _ he => Or.inl he⟩

theorem KeepsDir.andThen (hf : KeepsDir P N c f) (hg : KeepsDir P N c g) : KeepsDir P N c (andThen f g) := by
  intro s hs
  obtain ⟨h1, h0, h2⟩ := hf s hs
  unfold OpenMDAO.andThen
  split
  · exact ⟨h1, h0, h2⟩
  · obtain ⟨h3, h5, h4⟩ := hg (f s) h1
    refine ⟨h3, fun j hj => (h5 j hj).trans (h0 j hj), fun ev he => ?_⟩
    rcases h4 ev he with h | h
    · exact h2 ev h
    · exact Or.inr h

theorem KeepsDir.times (hf : KeepsDir P N c f) : ∀ n, KeepsDir P N c (timesOk f n)
  | 0 => KeepsDir.id
  | n + 1 => KeepsDir.andThen hf (KeepsDir.times hf n)

theorem KeepsDir.mono (hf : KeepsDir P N c f) (h : ∀ ev, P ev → Q ev) (hN : ∀ j, N j → M j) : KeepsDir Q M c f := fun s hs =>
  ⟨(hf s hs).1, fun j hj => (hf s hs).2.1 j (fun h => hj (hN j h)), fun ev he => ((hf s hs).2.2 ev he).imp_right (h ev)⟩

theorem KeepsDir.withDir {E : DirEnv} {i : Nat} {a d : PathStr} (hf : KeepsDir P N (inside c a d) f) (hi : ¬ N i) :
    KeepsDir P (fun j => j = i ∨ N j) c (withDir E i (if d = [] then none else some (absOf a d)) f) := by
  intro s hs
  unfold inside at hf
  by_cases hd : d = []
  · rw [if_pos hd] at hf ⊢
    exact hf.mono (fun _ h => h) (fun _ h => Or.inr h) s hs
  · rw [if_neg hd] at hf ⊢
    unfold OpenMDAO.withDir
    dsimp only
    split
    · obtain ⟨_, h2, h3⟩ := hf { s with start := Function.update s.start i s.cwd, cwd := absOf a d } rfl
      refine ⟨?_, fun j hj => ?_, h3⟩
      · refine (h2 i hi).trans ?_
        simp [hs]
      · refine (h2 j fun h => hj (Or.inr h)).trans ?_
        exact Function.update_of_ne (fun h => hj (Or.inl h)) _ _
    · exact ⟨hs, fun j hj => Function.update_of_ne (fun h => hj (Or.inl h)) _ _, fun ev he => Or.inl he⟩

theorem runDirComp_keeps (E : DirEnv) (call : DirCall) (i : Nat) (c : PathStr) (h : P (i, call, c)) :
    KeepsDir P N c (runDirComp E call i) := by
  intro s hs
  refine ⟨hs, fun _ _ => rfl, fun ev he => ?_⟩
  simp only [runDirComp, List.mem_append, List.mem_singleton] at he
  rcases he with he | he
  · exact Or.inl he
  · right; rw [he, hs]; exact h

/-- Events at a component of a list of systems, all below a group with directory `a`. -/
def GoodIn (c a : PathStr) (ts : List DirTree) (ev : Nat × DirCall × PathStr) : Prop := ∃ t ∈ ts, GoodEv c a t ev

/-- Residuals: events in the directory where the loop runs. -/
def ApplyIn (c : PathStr) (ts : List DirTree) (ev : Nat × DirCall × PathStr) : Prop :=
  ∃ t ∈ ts, ∃ ds, t.At (t.dir :: ds) ev.1 ∧ ev.2.1 = .apply ∧ ev.2.2 = c

mutual
theorem apply_keeps (E : DirEnv) (c a : PathStr) : ∀ t, KeepsDir (ApplyIn c [t]) (fun _ => False) c (applyDirTree E (setupDir a t))
  | .node i k d x b r n e w subs => by
    have hs := applySubs_keeps E c (absOf a d) subs
    unfold setupDir applyDirTree
    intro s hc
    dsimp only
    cases k
    · simp only [Bool.false_eq_true, if_false]
      refine KeepsDir.mono hs ?_ (fun _ h => h) s hc
      rintro ev ⟨t, ht, ds, h1, h2, h3⟩
      exact ⟨_, List.mem_singleton.2 rfl, t.dir :: ds, .sub ht h1, h2, h3⟩
    · simp only [if_true]
      exact runDirComp_keeps E .apply i c ⟨_, List.mem_singleton.2 rfl, [], .comp, rfl, rfl⟩ s hc

theorem applySubs_keeps (E : DirEnv) (c a : PathStr) : ∀ ts, KeepsDir (ApplyIn c ts) (fun _ => False) c (applySubs E (setupDirs a ts))
  | [] => by unfold setupDirs applySubs; exact KeepsDir.id
  | t :: ts => by
    have h1 := apply_keeps E c a t
    have h2 := applySubs_keeps E c a ts
    unfold setupDirs applySubs
    have h1' : KeepsDir (ApplyIn c [t]) (fun _ => False) c (fun s => if (setupDir a t).runs then applyDirTree E (setupDir a t) s else s) := by
      intro s hc
      dsimp only
      split
      · exact h1 s hc
      · exact KeepsDir.id s hc
    refine KeepsDir.andThen (h1'.mono ?_ (fun _ h => h)) (h2.mono ?_ (fun _ h => h))
    · rintro ev ⟨t', ht, h⟩
      simp only [List.mem_singleton] at ht
      exact ⟨t', by simp [ht], h⟩
    · rintro ev ⟨t', ht, h⟩
      exact ⟨t', List.mem_cons_of_mem _ ht, h⟩
end

theorem new_ctx {t : DirTree} (h : t.New) (a : PathStr) : (setupDir a t).ctx = if t.dir = [] then none else some (absOf a t.dir) := by
  cases h with
  | mk h => rfl

theorem setupDir_id (t : DirTree) (a : PathStr) : (setupDir a t).id = t.id := by cases t; rfl

/-- The contexts of the systems of a list. -/
def HasIn (ts : List DirTree) (j : Nat) : Prop := ∃ t ∈ ts, t.Has j

/-- The subsystems. -/
def DirTree.subs : DirTree → List DirTree
  | .node _ _ _ _ _ _ _ _ _ subs => subs

theorem has_iff (t : DirTree) (j : Nat) : t.Has j ↔ j = t.id ∨ HasIn t.subs j := by
  constructor
  · intro h
    cases h with
    | top => exact Or.inl rfl
    | sub ht h => exact Or.inr ⟨_, ht, h⟩
  · rcases t with ⟨i, k, d, x, b, r, n, e, w, subs⟩
    rintro (h | ⟨t, ht, h⟩)
    · rw [h]; exact .top
    · exact .sub ht h

theorem new_not {t : DirTree} (h : t.New) : ¬ HasIn t.subs t.id := by
  cases h with
  | mk h1 h2 => rintro ⟨t, ht, h⟩; exact h2 t ht h

theorem good_up {i d x b r n e w subs c a} (ev : Nat × DirCall × PathStr) (h : GoodIn (inside c a d) (absOf a d) subs ev) :
    GoodEv c a (.node i false d x b r n e w subs) ev := by
  obtain ⟨t, ht, ds, h1, h2, h3⟩ := h
  refine ⟨t.dir :: ds, .sub ht h1, fun h => ?_, fun h => ?_⟩
  · rw [h2 h]; exact (expo_cons c a d _).symm
  · obtain ⟨d1, d2, rfl, h4⟩ := h3 h
    exact ⟨t.dir :: d1, d2, rfl, by rw [h4]; exact (expo_cons c a d _).symm⟩

mutual
theorem lin_keeps (E : DirEnv) (c a : PathStr) : ∀ t : DirTree, t.New →
    KeepsDir (GoodEv c a t) t.Has c (linDirTree E (setupDir a t))
  | .node i k d x b r n e w subs, hnew => by
    have hsub : ∀ t ∈ subs, t.New := by cases hnew with | mk h => exact h
    have hx : x = none := by cases hnew; rfl
    have hno : ¬ HasIn subs i := new_not hnew
    subst hx
    have hs := linSubs_keeps E (inside c a d) (absOf a d) subs hsub
    unfold setupDir linDirTree
    refine KeepsDir.mono (P := GoodEv c a (.node i k d none b r n e w subs)) (KeepsDir.withDir (N := HasIn subs) (a := a) (d := d) ?_ hno)
      (fun _ h => h) (fun j hj => (has_iff _ j).2 hj)
    cases k
    · simp only [Bool.false_eq_true, if_false]
      exact hs.mono good_up (fun _ h => h)
    · simp only [if_true]
      exact runDirComp_keeps E .linearize i _ ⟨[], .comp, fun _ => (expo_cons c a d []).symm, fun h => by cases h⟩

theorem linSubs_keeps (E : DirEnv) (c a : PathStr) : ∀ ts : List DirTree, (∀ t ∈ ts, t.New) →
    KeepsDir (GoodIn c a ts) (HasIn ts) c (linSubs E (setupDirs a ts))
  | [], _ => by unfold setupDirs linSubs; exact KeepsDir.id
  | t :: ts, hnew => by
    have h1 := lin_keeps E c a t (hnew t (by simp))
    have h2 := linSubs_keeps E c a ts (fun t ht => hnew t (List.mem_cons_of_mem _ ht))
    unfold setupDirs linSubs
    refine KeepsDir.andThen (h1.mono (fun ev h => ⟨t, by simp, h⟩) (fun j h => ⟨t, by simp, h⟩)) (h2.mono ?_ ?_)
    · rintro ev ⟨t', ht, h⟩
      exact ⟨t', List.mem_cons_of_mem _ ht, h⟩
    · rintro j ⟨t', ht, h⟩
      exact ⟨t', List.mem_cons_of_mem _ ht, h⟩
end

mutual
theorem solve_keeps (E : DirEnv) (c a : PathStr) : ∀ t : DirTree, t.New → t.NoNewton →
    KeepsDir (GoodEv c a t) (HasIn t.subs) (inside c a t.dir) (solveDirTree E (setupDir a t))
  | .node i k d x b r n e w subs, hnew, hnn => by
    have hsub : ∀ t ∈ subs, t.New := by cases hnew with | mk h => exact h
    have hsubn : ∀ t ∈ subs, t.NoNewton := by cases hnn with | mk h => exact h
    have hw : w = true → d = [] := by cases hnn with | mk _ h => exact h
    have hx : x = none := by cases hnew; rfl
    subst hx
    have hs := solveSubs_keeps E (inside c a d) (absOf a d) subs hsub hsubn
    have ha := applySubs_keeps E (inside c a d) (absOf a d) subs
    have hl := linSubs_keeps E (inside c a d) (absOf a d) subs hsub
    unfold setupDir solveDirTree
    change KeepsDir _ (HasIn subs) (inside c a d) _
    cases k
    · simp only [Bool.false_eq_true, if_false]
      refine KeepsDir.times (KeepsDir.andThen (KeepsDir.andThen (hs.mono good_up (fun _ h => h)) ?_) ?_) n
      · intro s hc
        dsimp only
        split
        · refine ha.mono ?_ (fun _ h => h.elim) s hc
          rintro ev ⟨t, ht, ds, h1, h2, h3⟩
          refine ⟨t.dir :: ds, .sub ht h1, fun h => absurd h2 h, fun _ => ⟨[], _, rfl, ?_⟩⟩
          rw [h3]; exact (expo_cons c a d []).symm
        · exact KeepsDir.id s hc
      · intro s hc
        dsimp only
        split
        · rename_i hwt
          have hd := hw hwt
          unfold linDirTree
          rw [if_pos hd]
          simp only [withDir, Bool.false_eq_true, if_false]
          exact hl.mono good_up (fun _ h => h) s hc
        · exact KeepsDir.id s hc
    · simp only [if_true]
      exact runDirComp_keeps E .solve i _ ⟨[], .comp, fun _ => (expo_cons c a d []).symm, fun h => by cases h⟩

theorem solveSubs_keeps (E : DirEnv) (c a : PathStr) : ∀ ts : List DirTree, (∀ t ∈ ts, t.New) → (∀ t ∈ ts, t.NoNewton) →
    KeepsDir (GoodIn c a ts) (HasIn ts) c (solveSubs E (setupDirs a ts))
  | [], _, _ => by unfold setupDirs solveSubs; exact KeepsDir.id
  | t :: ts, hnew, hnn => by
    have h1 := solve_keeps E c a t (hnew t (by simp)) (hnn t (by simp))
    have h2 := solveSubs_keeps E c a ts (fun t ht => hnew t (List.mem_cons_of_mem _ ht)) (fun t ht => hnn t (List.mem_cons_of_mem _ ht))
    unfold setupDirs solveSubs
    refine KeepsDir.andThen ?_ (h2.mono ?_ ?_)
    · rw [new_ctx (hnew t (by simp)) a, setupDir_id]
      exact (KeepsDir.withDir h1 (new_not (hnew t (by simp)))).mono (fun ev h => ⟨t, by simp, h⟩)
        (fun j h => ⟨t, by simp, (has_iff t j).2 h⟩)
    · rintro ev ⟨t', ht, h⟩
      exact ⟨t', List.mem_cons_of_mem _ ht, h⟩
    · rintro j ⟨t', ht, h⟩
      exact ⟨t', List.mem_cons_of_mem _ ht, h⟩
end

theorem run_keeps (E : DirEnv) (t : DirTree) (hn : t.New) (hw : t.NoNewton) (start base : PathStr) :
    KeepsDir (GoodEv start base t) (fun _ => True) start (runOnceDir E (setupDir base t)) := by
  unfold runOnceDir
  rw [new_ctx hn, setupDir_id]
  refine KeepsDir.andThen
    ((KeepsDir.withDir (solve_keeps E start base t hn hw) (new_not hn)).mono (fun _ h => h) (fun _ _ => trivial))
    ((KeepsDir.withDir (apply_keeps E _ base t) (fun h => h)).mono ?_ (fun _ _ => trivial))
  rintro ev ⟨t', ht, ds, q1, q2, q3⟩
  simp only [List.mem_singleton] at ht
  subst ht
  refine ⟨ds, q1, fun h => absurd q2 h, fun _ => ⟨[], ds, rfl, ?_⟩⟩
  rw [q3, expo_cons]; rfl

/-- **C174 (a run).** A model is set up for the first time with the directory `base`, and `run_once` is called in the directory
`start`. No group with a directory of its own has a Newton solver. Whatever exceptions occur, the directory afterwards is `start`.
Every component whose `solve_nonlinear` or `linearize` is called by a solver is then in its own directory. Missing: residuals
(see `C174_residuals`), a second `setup`, and Newton solvers. -/
theorem C174_run_partial (E : DirEnv) (t : DirTree) (hn : t.New) (hw : t.NoNewton) (start base : PathStr) (s : DirSt)
    (hs : s.cwd = start) :
    (runOnceDir E (setupDir base t) s).cwd = start ∧
    ∀ i call dir, call ≠ .apply → (i, call, dir) ∈ (runOnceDir E (setupDir base t) s).log → (i, call, dir) ∉ s.log →
      ∃ ds, t.At ds i ∧ dir = dirOf start base ds := by
  obtain ⟨h4, _, h5⟩ := run_keeps E t hn hw start base s hs
  refine ⟨h4, fun i call dir hc hi hno => ?_⟩
  rcases h5 _ hi with h | ⟨ds, q1, q2, _⟩
  · exact absurd h hno
  · exact ⟨_, q1, by rw [← expo_dirOf]; exact q2 hc⟩

/-- **C174 (linearize).** The same for `_sys_linearize`, with any solvers. -/
theorem C174_linearize (E : DirEnv) (t : DirTree) (hn : t.New) (start base : PathStr) (s : DirSt) (hs : s.cwd = start) :
    (linDirTree E (setupDir base t) s).cwd = start ∧
    ∀ i call dir, (i, call, dir) ∈ (linDirTree E (setupDir base t) s).log → (i, call, dir) ∉ s.log → call ≠ .apply →
      ∃ ds, t.At ds i ∧ dir = dirOf start base ds := by
  obtain ⟨h1, _, h2⟩ := lin_keeps E start base t hn s hs
  refine ⟨h1, fun i call dir hi hno hc => ?_⟩
  rcases h2 _ hi with h | ⟨ds, q1, q2, _⟩
  · exact absurd h hno
  · exact ⟨_, q1, by rw [← expo_dirOf]; exact q2 hc⟩

/-- **C174 (residuals).** A component whose residuals are evaluated is in the directory of a group above it, or its own: that of
some first part, not empty, of the way down to it. -/
theorem C174_residuals (E : DirEnv) (t : DirTree) (hn : t.New) (hw : t.NoNewton) (start base : PathStr) (s : DirSt)
    (hs : s.cwd = start) :
    ∀ i dir, (i, .apply, dir) ∈ (runOnceDir E (setupDir base t) s).log → (i, .apply, dir) ∉ s.log →
      ∃ d ds1 ds2, t.At (d :: ds1 ++ ds2) i ∧ dir = dirOf start base (d :: ds1) := by
  intro i dir hi hno
  rcases (run_keeps E t hn hw start base s hs).2.2 _ hi with h | ⟨ds, q1, _, q3⟩
  · exact absurd h hno
  · obtain ⟨d1, d2, rfl, h⟩ := q3 rfl
    exact ⟨t.dir, d1, d2, q1, by rw [← expo_dirOf]; exact h⟩

/-- **C174 (gradient).** `calc_gradient` of a root without a directory of its own comes back to the directory `start`. -/
theorem C174_gradient_partial (E : DirEnv) (t : DirTree) (hn : t.New) (start base : PathStr) (s : DirSt) (hs : s.cwd = start)
    (hd : t.dir = []) :
    (calcGradDir E (setupDir base t) s).cwd = start := by
  unfold calcGradDir
  rw [new_ctx hn, if_pos hd]
  exact (lin_keeps E start base t hn s hs).1

/-! ## Concrete models -/

/-- Everything exists, nothing raises an exception. -/
def calmEnv : DirEnv := ⟨fun _ => true, fun _ _ => false⟩

/-- Root, a group with directory `g`, in it component 1 with directory `d`; component 2 without directory in the root. The solver of the
group linearizes it if `w`. -/
def dirModel (w : Bool) : DirTree := .node 0 false [] none [] true 1 false false
  [.node 3 false ['g'] none [] true 1 false w [.node 1 true ['d'] none [] true 0 false false []],
   .node 2 true [] none [] false 0 false false []]

theorem has_leaf {i k d x a r n e w j} (h : DirTree.Has (.node i k d x a r n e w []) j) : j = i := by
  cases h with
  | top => rfl
  | sub ht _ => cases ht

theorem dirModel_new (w : Bool) : (dirModel w).New := by
  have h1 : DirTree.New (.node 1 true ['d'] none [] true 0 false false []) := .mk (by simp) (by simp)
  have h2 : DirTree.New (.node 2 true [] none [] false 0 false false []) := .mk (by simp) (by simp)
  have h3 : DirTree.New (.node 3 false ['g'] none [] true 1 false w [.node 1 true ['d'] none [] true 0 false false []]) := by
    refine .mk (by simpa using h1) ?_
    intro t ht h
    simp only [List.mem_cons, List.not_mem_nil, or_false] at ht
    subst ht
    exact absurd (has_leaf h) (by decide)
  refine .mk (by simpa using ⟨h3, h2⟩) ?_
  intro t ht h
  simp only [List.mem_cons, List.not_mem_nil, or_false] at ht
  rcases ht with rfl | rfl
  · cases h with
    | sub ht h =>
      simp only [List.mem_cons, List.not_mem_nil, or_false] at ht
      subst ht
      exact absurd (has_leaf h) (by decide)
  · exact absurd (has_leaf h) (by decide)

theorem dirModel_calm : (dirModel false).NoNewton := by
  have h1 : DirTree.NoNewton (.node 1 true ['d'] none [] true 0 false false []) := .mk (by simp) (by simp)
  have h2 : DirTree.NoNewton (.node 2 true [] none [] false 0 false false []) := .mk (by simp) (by simp)
  have h3 : DirTree.NoNewton (.node 3 false ['g'] none [] true 1 false false [.node 1 true ['d'] none [] true 0 false false []]) :=
    .mk (by simpa using h1) (by simp)
  exact .mk (by simpa using ⟨h3, h2⟩) (by simp)

/-- A process in `/w` that has not run anything. -/
def dirStart : DirSt := ⟨['/', 'w'], fun _ => [], [], false⟩

/-- Component 1 solves in `/b/g/d`, component 2 in `/w`, where the run was started; then the residuals of component 1. -/
example : (dirModel false).New ∧ (dirModel false).NoNewton ∧
    (runOnceDir calmEnv (setupDir ['/', 'b'] (dirModel false)) dirStart).log =
      [(1, .solve, ['/', 'b', '/', 'g', '/', 'd']), (2, .solve, ['/', 'w']), (1, .apply, ['/', 'w'])] :=
  ⟨dirModel_new _, dirModel_calm, by decide⟩

/-- Component 1 raises an exception: the process is back in `/w`, and component 2 does not run. -/
example : let s := runOnceDir ⟨fun _ => true, fun i _ => i == 1⟩ (setupDir ['/', 'b'] (dirModel false)) dirStart
    s.cwd = ['/', 'w'] ∧ s.failed = true ∧ s.log.length = 1 := by decide

/-- No event of the log, except the last one if `l`, raised an exception. -/
def CalmLog (E : DirEnv) (l : Bool) (log : List (Nat × DirCall × PathStr)) : Prop :=
  ∀ k ev, log[k]? = some ev → (l = true → k + 1 < log.length) → E.raises ev.1 k = false

/-- A step that stops at an exception. -/
def DirStops (E : DirEnv) (f : DirSt → DirSt) : Prop :=
  ∀ s, s.failed = false → CalmLog E false s.log → CalmLog E true (f s).log ∧ ((f s).failed = false → CalmLog E false (f s).log)

theorem CalmLog.weak {E : DirEnv} {log} (h : CalmLog E false log) : CalmLog E true log := fun k ev hk _ => h k ev hk (by simp)

theorem DirStops.id {E : DirEnv} : DirStops E (fun s => s) := fun _ _ h => ⟨h.weak, fun _ => h⟩

theorem DirStops.andThen {E : DirEnv} {f g : DirSt → DirSt} (hf : DirStops E f) (hg : DirStops E g) : DirStops E (andThen f g) := by
  intro s h1 h2
  obtain ⟨h3, h4⟩ := hf s h1 h2
  unfold OpenMDAO.andThen
  cases hb : (f s).failed with
  | true => simp only [if_true]; exact ⟨h3, fun h => by rw [hb] at h; cases h⟩
  | false => simp only [Bool.false_eq_true, if_false]; exact hg (f s) hb (h4 hb)

theorem DirStops.times {E : DirEnv} {f : DirSt → DirSt} (hf : DirStops E f) : ∀ n, DirStops E (timesOk f n)
  | 0 => DirStops.id
  | n + 1 => DirStops.andThen hf (DirStops.times hf n)

theorem DirStops.withDir {E : DirEnv} {i : Nat} {ctx : Option PathStr} {f : DirSt → DirSt} (hf : DirStops E f) : DirStops E (withDir E i ctx f) := by
  intro s h1 h2
  unfold OpenMDAO.withDir
  cases ctx with
  | none => exact hf s h1 h2
  | some d =>
    dsimp only
    split
    · exact hf { s with start := Function.update s.start i s.cwd, cwd := d } h1 h2
    · exact ⟨h2.weak, fun h => by cases h⟩

theorem DirStops.ite {E : DirEnv} {b : Bool} {f g : DirSt → DirSt} (hf : DirStops E f) (hg : DirStops E g) : DirStops E (fun s => if b then f s else g s) := by
  cases b
  · simpa using hg
  · simpa using hf

theorem runDirComp_stops (E : DirEnv) (call : DirCall) (i : Nat) : DirStops E (runDirComp E call i) := by
  intro s h1 h2
  have key : ∀ k ev, (s.log ++ [(i, call, s.cwd)])[k]? = some ev → k < s.log.length ∧ E.raises ev.1 k = false ∨ k = s.log.length ∧ ev = (i, call, s.cwd) := by
    intro k ev hk
    by_cases hlt : k < s.log.length
    · rw [List.getElem?_append_left hlt] at hk
      exact Or.inl ⟨hlt, h2 k ev hk (by simp)⟩
    · rw [List.getElem?_append_right (by omega)] at hk
      have hk0 : k = s.log.length := by
        by_contra hne
        rw [List.getElem?_eq_none (by simp; omega)] at hk
        cases hk
      subst hk0
      simp at hk
      exact Or.inr ⟨rfl, hk.symm⟩
  refine ⟨fun k ev hk hl => ?_, fun hf k ev hk _ => ?_⟩
  · rcases key k ev hk with ⟨_, h⟩ | ⟨h, _⟩
    · exact h
    · have := hl rfl
      simp [runDirComp, h] at this
  · rcases key k ev hk with ⟨_, h⟩ | ⟨h, h'⟩
    · exact h
    · subst h; rw [h']; exact hf

mutual
theorem apply_stops (E : DirEnv) : ∀ t, DirStops E (applyDirTree E t)
  | .node i k d x b r n e w subs => by
    have hs := applySubs_stops E subs
    unfold applyDirTree
    exact DirStops.ite (runDirComp_stops E _ i) hs

theorem applySubs_stops (E : DirEnv) : ∀ ts, DirStops E (applySubs E ts)
  | [] => by unfold applySubs; exact DirStops.id
  | t :: ts => by
    have h1 := apply_stops E t
    have h2 := applySubs_stops E ts
    unfold applySubs
    exact DirStops.andThen (DirStops.ite h1 DirStops.id) h2
end

mutual
theorem lin_stops (E : DirEnv) : ∀ t, DirStops E (linDirTree E t)
  | .node i k d x b r n e w subs => by
    have hs := linSubs_stops E subs
    unfold linDirTree
    exact DirStops.withDir (DirStops.ite (runDirComp_stops E _ i) hs)

theorem linSubs_stops (E : DirEnv) : ∀ ts, DirStops E (linSubs E ts)
  | [] => by unfold linSubs; exact DirStops.id
  | t :: ts => by
    have h1 := lin_stops E t
    have h2 := linSubs_stops E ts
    unfold linSubs
    exact DirStops.andThen h1 h2
end

mutual
theorem solve_stops (E : DirEnv) : ∀ t, DirStops E (solveDirTree E t)
  | .node i k d x b r n e w subs => by
    have hs := solveSubs_stops E subs
    unfold solveDirTree
    exact DirStops.ite (runDirComp_stops E _ i)
      (DirStops.times (DirStops.andThen (DirStops.andThen hs (DirStops.ite (applySubs_stops E subs) DirStops.id)) (DirStops.ite (lin_stops E _) DirStops.id)) n)

theorem solveSubs_stops (E : DirEnv) : ∀ ts, DirStops E (solveSubs E ts)
  | [] => by unfold solveSubs; exact DirStops.id
  | t :: ts => by
    have h1 := solve_stops E t
    have h2 := solveSubs_stops E ts
    unfold solveSubs
    exact DirStops.andThen (DirStops.withDir h1) h2
end

/-- **C174 (exceptions).** Nothing runs after a component has raised an exception: only the last call of a run can have raised one, whatever
directories and solvers there are. -/
theorem C174_stops (E : DirEnv) (t : DirTree) (s : DirSt) (h0 : s.log = []) (h1 : s.failed = false) (k : Nat) (ev : Nat × DirCall × PathStr)
    (hk : (runOnceDir E t s).log[k]? = some ev) (hr : E.raises ev.1 k = true) :
    k + 1 = (runOnceDir E t s).log.length ∧ (runOnceDir E t s).failed = true := by
  have hs : DirStops E (runOnceDir E t) := DirStops.andThen (DirStops.withDir (solve_stops E t)) (DirStops.withDir (apply_stops E t))
  obtain ⟨h2, h3⟩ := hs s h1 (by rw [h0]; intro k ev hk; simp at hk)
  have hlt : k < (runOnceDir E t s).log.length := (List.getElem?_eq_some_iff.1 hk).1
  constructor
  · by_contra hne
    have := h2 k ev hk (fun _ => by omega)
    rw [hr] at this
    cases this
  · by_contra hne
    have := h3 (by simpa using hne) k ev hk (by simp)
    rw [hr] at this
    cases this

/-- A second run of component 1, for the residuals, raises the exception: two calls before it did not. -/
example : let s := runOnceDir ⟨fun _ => true, fun i k => i == 1 && k == 2⟩ (setupDir ['/', 'b'] (dirModel false)) dirStart
    s.failed = true ∧ s.log.length = 3 := by decide

/-- The directory `/b/g` does not exist: nothing runs. -/
example : let s := runOnceDir ⟨fun d => d != ['/', 'b', '/', 'g'], fun _ _ => false⟩ (setupDir ['/', 'b'] (dirModel false)) dirStart
    s.cwd = ['/', 'w'] ∧ s.failed = true ∧ s.log = [] := by decide

theorem dirModel_at (w : Bool) : ∀ ds, (dirModel w).At ds 1 → ds = [[], ['g'], ['d']] := by
  intro ds h
  cases h with
  | sub ht h =>
    simp only [List.mem_cons, List.not_mem_nil, or_false] at ht
    rcases ht with rfl | rfl
    · cases h with
      | sub ht h =>
        simp only [List.mem_cons, List.not_mem_nil, or_false] at ht
        subst ht
        cases h
        rfl
    · cases h

theorem dirModel_at2 (w : Bool) : ∀ ds, (dirModel w).At ds 2 → ds = [[], []] := by
  intro ds h
  cases h with
  | sub ht h =>
    simp only [List.mem_cons, List.not_mem_nil, or_false] at ht
    rcases ht with rfl | rfl
    · cases h with
      | sub ht h =>
        simp only [List.mem_cons, List.not_mem_nil, or_false] at ht
        subst ht
        cases h
    · cases h
      rfl

/-- **Refutation: residuals are evaluated in another directory.** The residuals of an explicit component are found by running it again.
`run_once` does so for component 1, whose directory is `/b/g/d`, in the directory where the run was started. -/
theorem C174_residuals_refuted : ∃ (t : DirTree) (s : DirSt), t.New ∧ t.NoNewton ∧ s.log = [] ∧
    (∀ ds, t.At ds 1 → dirOf s.cwd ['/', 'b'] ds = ['/', 'b', '/', 'g', '/', 'd']) ∧
    (1, .apply, ['/', 'w']) ∈ (runOnceDir calmEnv (setupDir ['/', 'b'] t) s).log := by
  refine ⟨dirModel false, dirStart, dirModel_new _, dirModel_calm, rfl, ?_, by decide⟩
  intro ds h
  rw [dirModel_at false ds h]
  decide

/-- **Refutation: a Newton solver in a group with a directory.** The solver linearizes the group, and enters the context of the group a
second time; the context forgets where it came from. After the group the process stays in `/b/g`: component 2, which has no
directory, runs there, and so ends the run. -/
theorem C174_newton_refuted : ∃ (t : DirTree) (s : DirSt), t.New ∧ s.log = [] ∧ s.cwd = ['/', 'w'] ∧
    (∀ ds, t.At ds 2 → dirOf s.cwd ['/', 'b'] ds = ['/', 'w']) ∧
    (2, .solve, ['/', 'b', '/', 'g']) ∈ (runOnceDir calmEnv (setupDir ['/', 'b'] t) s).log ∧
    (runOnceDir calmEnv (setupDir ['/', 'b'] t) s).cwd = ['/', 'b', '/', 'g'] := by
  refine ⟨dirModel true, dirStart, dirModel_new _, rfl, rfl, ?_, by decide, by decide⟩
  intro ds h
  rw [dirModel_at2 true ds h]
  decide

/-- **Refutation: the gradient of a model whose root has a directory.** `calc_gradient` enters the context of the root, and
`_sys_linearize` enters it again. After the call the process is in the directory of the root. -/
theorem C174_gradient_refuted : ∃ (t : DirTree) (s : DirSt), t.New ∧ s.cwd = ['/', 'w'] ∧
    (calcGradDir calmEnv (setupDir ['/', 'b'] t) s).failed = false ∧
    (calcGradDir calmEnv (setupDir ['/', 'b'] t) s).cwd = ['/', 'b', '/', 'r'] :=
  ⟨.node 0 false ['r'] none [] true 1 false false [], dirStart, .mk (by simp) (by simp), rfl, by decide, by decide⟩

/-- The user takes the directory of a system away. -/
def clearDir : DirTree → DirTree
  | .node i c _ x a r n e w subs => .node i c [] x a r n e w subs

/-- **Refutation: a directory that is taken away.** A component has the directory `d` when the model is set up; the user sets it to the
empty string and sets the model up again. It still runs in `/b/d`, although its absolute directory is now `/b`. -/
theorem C174_second_setup_refuted : ∃ (t : DirTree) (s : DirSt), t.New ∧ (clearDir (setupDir ['/', 'b'] t)).dir = [] ∧ s.log = [] ∧
    (runOnceDir calmEnv (setupDir ['/', 'b'] (clearDir (setupDir ['/', 'b'] t))) s).log.head? = some (1, .solve, ['/', 'b', '/', 'd']) ∧
    dirOf s.cwd ['/', 'b'] [[]] = ['/', 'b'] :=
  ⟨.node 1 true ['d'] none [] false 0 false false [], ⟨['/', 'b'], fun _ => [], [], false⟩, .mk (by simp) (by simp), rfl, rfl,
    by decide, by decide⟩

/-- A step that goes well and forgets nothing. -/
def DirQuiet (f : DirSt → DirSt) : Prop := ∀ s, s.failed = false → (f s).failed = false ∧ ∀ ev ∈ s.log, ev ∈ (f s).log

theorem DirQuiet.id : DirQuiet (fun s => s) := fun _ h => ⟨h, fun _ h => h⟩

theorem DirQuiet.andThen {f g : DirSt → DirSt} (hf : DirQuiet f) (hg : DirQuiet g) : DirQuiet (andThen f g) := by
  intro s h
  obtain ⟨h1, h2⟩ := hf s h
  obtain ⟨h3, h4⟩ := hg (f s) h1
  unfold OpenMDAO.andThen
  rw [h1]
  exact ⟨h3, fun ev hev => h4 ev (h2 ev hev)⟩

theorem DirQuiet.times {f : DirSt → DirSt} (hf : DirQuiet f) : ∀ n, DirQuiet (timesOk f n)
  | 0 => DirQuiet.id
  | n + 1 => DirQuiet.andThen hf (DirQuiet.times hf n)

theorem DirQuiet.withDir {E : DirEnv} (hE : ∀ p, E.has p = true) {i : Nat} {ctx : Option PathStr} {f : DirSt → DirSt} (hf : DirQuiet f) :
    DirQuiet (withDir E i ctx f) := by
  intro s h
  unfold OpenMDAO.withDir
  cases ctx with
  | none => exact hf s h
  | some d =>
    dsimp only
    rw [hE d]
    exact hf { s with start := Function.update s.start i s.cwd, cwd := d } h

theorem DirQuiet.ite {b : Bool} {f g : DirSt → DirSt} (hf : DirQuiet f) (hg : DirQuiet g) : DirQuiet (fun s => if b then f s else g s) := by
  cases b
  · simpa using hg
  · simpa using hf

section
variable {E : DirEnv} (hE : ∀ p, E.has p = true) (hR : ∀ i k, E.raises i k = false)
include hE hR

theorem runDirComp_quiet (call : DirCall) (i : Nat) : DirQuiet (runDirComp E call i) := by
  intro s _
  exact ⟨hR _ _, fun ev hev => by simp [runDirComp, hev]⟩

mutual
theorem apply_quiet : ∀ t, DirQuiet (applyDirTree E t)
  | .node i k d x b r n e w subs => by
    have hs := applySubs_quiet subs
    unfold applyDirTree
    exact DirQuiet.ite (runDirComp_quiet hE hR _ i) hs

theorem applySubs_quiet : ∀ ts, DirQuiet (applySubs E ts)
  | [] => by unfold applySubs; exact DirQuiet.id
  | t :: ts => by
    have h1 := apply_quiet t
    have h2 := applySubs_quiet ts
    unfold applySubs
    exact DirQuiet.andThen (DirQuiet.ite h1 DirQuiet.id) h2
end

mutual
theorem lin_quiet : ∀ t, DirQuiet (linDirTree E t)
  | .node i k d x b r n e w subs => by
    have hs := linSubs_quiet subs
    unfold linDirTree
    exact DirQuiet.withDir hE (DirQuiet.ite (runDirComp_quiet hE hR _ i) hs)

theorem linSubs_quiet : ∀ ts, DirQuiet (linSubs E ts)
  | [] => by unfold linSubs; exact DirQuiet.id
  | t :: ts => by
    have h1 := lin_quiet t
    have h2 := linSubs_quiet ts
    unfold linSubs
    exact DirQuiet.andThen h1 h2
end

mutual
theorem solve_quiet : ∀ t, DirQuiet (solveDirTree E t)
  | .node i k d x b r n e w subs => by
    have hs := solveSubs_quiet subs
    unfold solveDirTree
    exact DirQuiet.ite (runDirComp_quiet hE hR _ i)
      (DirQuiet.times (DirQuiet.andThen (DirQuiet.andThen hs (DirQuiet.ite (applySubs_quiet hE hR subs) DirQuiet.id))
        (DirQuiet.ite (lin_quiet hE hR _) DirQuiet.id)) n)

theorem solveSubs_quiet : ∀ ts, DirQuiet (solveSubs E ts)
  | [] => by unfold solveSubs; exact DirQuiet.id
  | t :: ts => by
    have h1 := solve_quiet t
    have h2 := solveSubs_quiet ts
    unfold solveSubs
    exact DirQuiet.andThen (DirQuiet.withDir hE h1) h2
end

theorem andThen_log {f g : DirSt → DirSt} {s : DirSt} (hf : (f s).failed = false) (hg : DirQuiet g) {ev} (h : ev ∈ (f s).log) : ev ∈ (andThen f g s).log := by
  unfold OpenMDAO.andThen
  rw [hf]
  exact (hg (f s) hf).2 ev h

theorem andThen_log' {f g : DirSt → DirSt} {s : DirSt} (hf : (f s).failed = false) {ev} (h : ev ∈ (g (f s)).log) : ev ∈ (andThen f g s).log := by
  unfold OpenMDAO.andThen
  rw [hf]
  exact h

theorem withDir_log {i : Nat} {ctx : Option PathStr} {f : DirSt → DirSt} {j : Nat} (hf : ∀ s, s.failed = false → ∃ d, (j, DirCall.solve, d) ∈ (f s).log) (s : DirSt)
    (h : s.failed = false) : ∃ d, (j, DirCall.solve, d) ∈ (withDir E i ctx f s).log := by
  unfold OpenMDAO.withDir
  cases ctx with
  | none => exact hf s h
  | some d =>
    dsimp only
    rw [hE d]
    exact hf { s with start := Function.update s.start i s.cwd, cwd := d } h

mutual
theorem solve_runs : ∀ (t : DirTree) (j : Nat), t.Runs j → ∀ s, s.failed = false → ∃ d, (j, DirCall.solve, d) ∈ (solveDirTree E t s).log
  | .node i true d x a r n e w subs, j, h, s, _ => by
    cases h
    exact ⟨s.cwd, by simp [solveDirTree, runDirComp]⟩
  | .node i false d x a r n e w subs, j, h, s, hs => by
    cases h with
    | sub ht hn h =>
      obtain ⟨p, hp⟩ := solveSubs_runs subs j ⟨_, ht, h⟩ s hs
      refine ⟨p, ?_⟩
      obtain ⟨n, rfl⟩ : ∃ k, n = k + 1 := ⟨n - 1, by omega⟩
      unfold solveDirTree
      simp only [Bool.false_eq_true, if_false]
      have q1 := solveSubs_quiet hE hR subs
      have q2 : DirQuiet (fun s => if e = true then applySubs E subs s else s) := DirQuiet.ite (applySubs_quiet hE hR subs) DirQuiet.id
      have q3 : DirQuiet (fun s => if w = true then linDirTree E (.node i false d x a r (n + 1) e w subs) s else s) :=
        DirQuiet.ite (lin_quiet hE hR _) DirQuiet.id
      have q12 := DirQuiet.andThen q1 q2
      have q := DirQuiet.andThen q12 q3
      unfold timesOk
      exact andThen_log hE hR (q s hs).1 (DirQuiet.times q n) (andThen_log hE hR (q12 s hs).1 q3 (andThen_log hE hR (q1 s hs).1 q2 hp))

theorem solveSubs_runs : ∀ (ts : List DirTree) (j : Nat), (∃ t ∈ ts, t.Runs j) → ∀ s, s.failed = false → ∃ d, (j, DirCall.solve, d) ∈ (solveSubs E ts s).log
  | [], _, h, _, _ => by obtain ⟨_, h, _⟩ := h; cases h
  | t :: ts, j, h, s, hs => by
    have q1 : DirQuiet (OpenMDAO.withDir E t.id t.ctx (solveDirTree E t)) := DirQuiet.withDir hE (solve_quiet hE hR t)
    have h1 := solve_runs t j
    have h2 := solveSubs_runs ts j
    unfold solveSubs
    obtain ⟨t', ht, hr⟩ := h
    rcases List.mem_cons.1 ht with rfl | ht
    · obtain ⟨p, hp⟩ := withDir_log hE hR (i := t'.id) (ctx := t'.ctx) (h1 hr) s hs
      exact ⟨p, andThen_log hE hR (q1 s hs).1 (solveSubs_quiet hE hR ts) hp⟩
    · obtain ⟨p, hp⟩ := h2 ⟨t', ht, hr⟩ _ (q1 s hs).1
      exact ⟨p, andThen_log' hE hR (q1 s hs).1 hp⟩
end

end

mutual
theorem setupDir_runs : ∀ (t : DirTree) (p : PathStr) (j : Nat), t.Runs j → (setupDir p t).Runs j
  | .node i c d x a r n e w subs, p, j, h => by
    unfold setupDir
    cases h with
    | comp => exact .comp
    | sub ht hn h =>
      obtain ⟨t', ht', h'⟩ := setupDirs_runs subs (absOf p d) j ⟨_, ht, h⟩
      exact .sub ht' hn h'

theorem setupDirs_runs : ∀ (ts : List DirTree) (p : PathStr) (j : Nat), (∃ t ∈ ts, t.Runs j) → ∃ t ∈ setupDirs p ts, t.Runs j
  | [], _, _, h => by obtain ⟨_, h, _⟩ := h; cases h
  | t :: ts, p, j, h => by
    have h1 := setupDir_runs t p j
    have h2 := setupDirs_runs ts p j
    unfold setupDirs
    obtain ⟨t', ht, hr⟩ := h
    rcases List.mem_cons.1 ht with rfl | ht
    · exact ⟨_, List.mem_cons_self, h1 hr⟩
    · obtain ⟨t2, h3, h4⟩ := h2 ⟨t', ht, hr⟩
      exact ⟨t2, List.mem_cons_of_mem _ h3, h4⟩
end

/-- **C174 (everything runs).** If all directories are there and nothing raises an exception, the run ends without one, and every component is solved that is
in groups whose solvers run their subsystems. `C174_run_partial` says in which directory. -/
theorem C174_runs (E : DirEnv) (hE : ∀ p, E.has p = true) (hR : ∀ i k, E.raises i k = false) (base : PathStr) (t : DirTree) (s : DirSt) (h0 : s.failed = false)
    (j : Nat) (hj : t.Runs j) :
    (runOnceDir E (setupDir base t) s).failed = false ∧ ∃ d, (j, DirCall.solve, d) ∈ (runOnceDir E (setupDir base t) s).log := by
  have q1 : DirQuiet (OpenMDAO.withDir E (setupDir base t).id (setupDir base t).ctx (solveDirTree E (setupDir base t))) := DirQuiet.withDir hE (solve_quiet hE hR _)
  have q2 : DirQuiet (OpenMDAO.withDir E (setupDir base t).id (setupDir base t).ctx (applyDirTree E (setupDir base t))) := DirQuiet.withDir hE (apply_quiet hE hR _)
  refine ⟨((q1.andThen q2) s h0).1, ?_⟩
  obtain ⟨p, hp⟩ := withDir_log hE hR (i := (setupDir base t).id) (ctx := (setupDir base t).ctx)
    (solve_runs hE hR (setupDir base t) j (setupDir_runs t base j hj)) s h0
  exact ⟨p, andThen_log hE hR (q1 s h0).1 q2 hp⟩

example : (dirModel true).Runs 1 ∧ (dirModel true).Runs 2 :=
  ⟨.sub (.head _) (by decide) (.sub (.head _) (by decide) .comp), .sub (.tail _ (.head _)) (by decide) .comp⟩

end OpenMDAO
