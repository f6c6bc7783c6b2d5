import Verif.Spec.SubProblem
import Verif.Lemmas.Connections
import Mathlib.Analysis.Calculus.FDeriv.Prod
import Mathlib.Analysis.Calculus.FDeriv.Comp
import Mathlib.Analysis.Calculus.FDeriv.Const
import Mathlib.Analysis.Calculus.FDeriv.Add
import Mathlib.Analysis.Calculus.FDeriv.Pow
import Mathlib.Analysis.Calculus.Deriv.Basic
import Mathlib.Data.List.Nodup
/-! C103 to C105: `SubProblem`. -/
namespace OpenMDAO
set_option linter.unusedSectionVars false

variable {S V : Type}

/-! ## C103: a run of the component is a run of the wrapped problem -/

theorem subSetParams_iff {P : SubOps S V} {vals : String → V} : ∀ {l : List String} {s s1 : S}, subSetParams P vals l s = (s1, none) ↔ P.AssignAll vals l s s1 := by
  intro l
  induction l with
  | nil =>
    intro s s1
    simp only [subSetParams, Prod.mk.injEq, and_true]
    exact ⟨fun h => h ▸ .nil, fun h => by cases h; rfl⟩
  | cons n rest ih =>
    intro s s1
    constructor
    · intro h
      simp only [subSetParams] at h
      cases hv : P.set n (vals n) s with
      | error e => rw [hv] at h; simp at h
      | ok s' => rw [hv] at h; exact .cons hv (ih.mp h)
    · intro h
      cases h with
      | cons h1 h2 => simp only [subSetParams, h1]; exact ih.mpr h2

theorem assignAll_val {P : SubOps S V} {N : List String} {val : String → S → V} (hs : P.SetsOne N val) {vals : String → V} {l : List String} {s s1 : S} (h : P.AssignAll vals l s s1) (hl : ∀ n ∈ l, n ∈ N) :
    ∀ k ∈ N, val k s1 = if k ∈ l then vals k else val k s := by
  induction h with
  | nil => intro k _; simp
  | @cons n rest s s' s1 h1 _ ih =>
    intro k hk
    rw [ih (fun m hm => hl m (List.mem_cons_of_mem _ hm)) k hk]
    by_cases hr : k ∈ rest
    · simp [hr]
    · by_cases hkn : k = n
      · subst hkn
        simp [hr, hs.same hk h1]
      · simp [hr, hkn, hs.other (hl n List.mem_cons_self) hk h1 hkn]

theorem subPull_spec {P : SubOps S V} {s : S} : ∀ {l : List String} {w w' : SubVals V}, subPull P s l w = (w', none) →
    w'.params = w.params ∧ (∀ u ∈ l, P.unknown u s = .ok (w'.unknowns u) ∧ P.resid u s = .ok (w'.resids u)) ∧ ∀ u, u ∉ l → w'.unknowns u = w.unknowns u ∧ w'.resids u = w.resids u := by
  intro l
  induction l with
  | nil => intro w w' h; simp only [subPull, Prod.mk.injEq, and_true] at h; subst h; simp
  | cons n rest ih =>
    intro w w' h
    simp only [subPull] at h
    cases hv : P.unknown n s with
    | error e => rw [hv] at h; simp at h
    | ok v =>
      rw [hv] at h
      simp only at h
      cases hr : P.resid n s with
      | error e => rw [hr] at h; simp at h
      | ok r =>
        rw [hr] at h
        simp only at h
        obtain ⟨h1, h2, h3⟩ := ih h
        refine ⟨h1, ?_, ?_⟩
        · intro u hu
          by_cases hur : u ∈ rest
          · exact h2 u hur
          · have : u = n := by simpa [hur] using hu
            subst this
            obtain ⟨h4, h5⟩ := h3 u hur
            simp only [Function.update_self] at h4 h5
            rw [h4, h5]
            exact ⟨hv, hr⟩
        · intro u hu
          simp only [List.mem_cons, not_or] at hu
          obtain ⟨h4, h5⟩ := h3 u hu.2
          rw [h4, h5]
          simp [hu.1]

theorem subBack_spec {P : SubOps S V} {s : S} : ∀ {l : List String} {w w' : SubVals V}, subBack P s l w = (w', none) →
    w'.unknowns = w.unknowns ∧ w'.resids = w.resids ∧ (∀ u ∈ l, P.unknown u s = .ok (w'.params u)) ∧ ∀ u, u ∉ l → w'.params u = w.params u := by
  intro l
  induction l with
  | nil => intro w w' h; simp only [subBack, Prod.mk.injEq, and_true] at h; subst h; simp
  | cons n rest ih =>
    intro w w' h
    simp only [subBack] at h
    cases hv : P.unknown n s with
    | error e => rw [hv] at h; simp at h
    | ok v =>
      rw [hv] at h
      simp only at h
      obtain ⟨h1, h2, h3, h4⟩ := ih h
      refine ⟨h1, h2, ?_, ?_⟩
      · intro u hu
        by_cases hur : u ∈ rest
        · exact h3 u hur
        · have : u = n := by simpa [hur] using hu
          subst this
          have h5 := h4 u hur
          simp only [Function.update_self] at h5
          rw [h5]
          exact hv
      · intro u hu
        simp only [List.mem_cons, not_or] at hu
        rw [h4 u hu.2]
        simp [hu.1]

/-- C103. When the component runs without error, the wrapped problem has been run, once, from a state in which every exposed parameter has the value of the component's parameter. The unknowns and residuals of the component are then those of
the wrapped problem; parameters that are unknowns there are updated, and nothing else is changed. -/
theorem C103_run {P : SubOps S V} {prms unks asP : List String} {val : String → S → V} (hs : P.SetsOne prms val) {s s' : S} {w w' : SubVals V} (h : subSolve P prms unks asP s w = (s', w', none)) :
    ∃ s1, (∀ n ∈ prms, val n s1 = w.params n) ∧ P.run s1 = (s', none) ∧ (∀ u ∈ unks, P.unknown u s' = .ok (w'.unknowns u) ∧ P.resid u s' = .ok (w'.resids u)) ∧
      (∀ u, u ∉ unks → w'.unknowns u = w.unknowns u ∧ w'.resids u = w.resids u) ∧ (∀ p ∈ asP, P.unknown p s' = .ok (w'.params p)) ∧ ∀ p, p ∉ asP → w'.params p = w.params p := by
  unfold subSolve at h
  rcases hd : subSetParams P w.params prms s with ⟨s1, _ | e⟩
  · rw [hd] at h
    simp only at h
    rcases hr : P.run s1 with ⟨s2, _ | e⟩
    · rw [hr] at h
      simp only [Prod.mk.injEq] at h
      obtain ⟨rfl, h⟩ := h
      unfold subCollect at h
      rcases hp : subPull P s2 unks w with ⟨w1, _ | e⟩
      · rw [hp] at h
        simp only at h
        obtain ⟨a1, a2, a3⟩ := subPull_spec hp
        obtain ⟨b1, b2, b3, b4⟩ := subBack_spec h
        refine ⟨s1, ?_, hr, ?_, ?_, b3, ?_⟩
        · intro n hn
          rw [assignAll_val hs (subSetParams_iff.mp hd) (fun _ h => h) n hn, if_pos hn]
        · rw [b1, b2]; exact a2
        · rw [b1, b2]; exact a3
        · intro p hp'
          rw [b4 p hp', a1]
      · rw [hp] at h
        simp at h
    · rw [hr] at h
      simp at h
  · rw [hd] at h
    simp at h

/-- C103. An exception from setting a parameter or from the run of the wrapped problem is passed on, and the values of the component are as before. -/
theorem C103_failed_run {P : SubOps S V} {prms : List String} (unks asP : List String) {s : S} {w : SubVals V} {e : PyErr}
    (h : (∃ s1 s2, P.AssignAll w.params prms s s1 ∧ P.run s1 = (s2, some e)) ∨ ∃ pre n post s1, prms = pre ++ n :: post ∧ P.AssignAll w.params pre s s1 ∧ P.set n (w.params n) s1 = .error e) :
    (subSolve P prms unks asP s w).2 = (w, some e) := by
  rcases h with ⟨s1, s2, h1, h2⟩ | ⟨pre, n, post, s1, rfl, h1, h2⟩
  · simp [subSolve, subSetParams_iff.mpr h1, h2]
  · have : subSetParams P w.params (pre ++ n :: post) s = (s1, some e) := by
      induction h1 with
      | nil => simp [subSetParams, h2]
      | cons h3 _ ih => simp only [List.cons_append, subSetParams, h3]; exact ih h2
    simp [subSolve, this]

theorem subPull_ok {P : SubOps S V} {s : S} : ∀ (l : List String) (w : SubVals V), (∀ u ∈ l, ∃ v r, P.unknown u s = .ok v ∧ P.resid u s = .ok r) → (subPull P s l w).2 = none := by
  intro l
  induction l with
  | nil => intro w _; rfl
  | cons n rest ih =>
    intro w h
    obtain ⟨v, r, hv, hr⟩ := h n List.mem_cons_self
    simp only [subPull, hv, hr]
    exact ih _ fun u hu => h u (List.mem_cons_of_mem _ hu)

theorem subBack_ok {P : SubOps S V} {s : S} : ∀ (l : List String) (w : SubVals V), (∀ u ∈ l, ∃ v, P.unknown u s = .ok v) → (subBack P s l w).2 = none := by
  intro l
  induction l with
  | nil => intro w _; rfl
  | cons n rest ih =>
    intro w h
    obtain ⟨v, hv⟩ := h n List.mem_cons_self
    simp only [subBack, hv]
    exact ih _ fun u hu => h u (List.mem_cons_of_mem _ hu)

/-- C103. It returns whenever the parameters can be set, the wrapped problem runs and the exposed unknowns can be read. -/
theorem C103_returns {P : SubOps S V} {prms unks asP : List String} {s s1 s2 : S} {w : SubVals V} (h1 : P.AssignAll w.params prms s s1) (h2 : P.run s1 = (s2, none))
    (h3 : ∀ u ∈ unks, ∃ v r, P.unknown u s2 = .ok v ∧ P.resid u s2 = .ok r) (h4 : ∀ u ∈ asP, ∃ v, P.unknown u s2 = .ok v) :
    ∃ w', subSolve P prms unks asP s w = (s2, w', none) := by
  have a1 := subPull_ok unks w h3
  rcases hp : subPull P s2 unks w with ⟨w1, o⟩
  rw [hp] at a1
  simp only at a1
  subst a1
  have a2 := subBack_ok (P := P) (s := s2) asP w1 h4
  rcases hb : subBack P s2 asP w1 with ⟨w2, o⟩
  rw [hb] at a2
  simp only at a2
  subst a2
  exact ⟨w2, by simp [subSolve, subSetParams_iff.mpr h1, h2, subCollect, hp, hb]⟩

/-- C103. When the run succeeded but an unknown cannot be read, the exception is passed on. -/
theorem C103_unreadable {P : SubOps S V} {prms unks asP : List String} {s s1 s2 : S} {w : SubVals V} {u : String} {e : PyErr} (h1 : P.AssignAll w.params prms s s1) (h2 : P.run s1 = (s2, none))
    (hu : u ∈ unks ++ asP) (he : P.unknown u s2 = .error e) : (subSolve P prms unks asP s w).2.2 ≠ none := by
  intro hn
  have hb : ∀ (l : List String) (w : SubVals V), u ∈ l → (subBack P s2 l w).2 ≠ none := by
    intro l
    induction l with
    | nil => intro w h; simp at h
    | cons n rest ih =>
      intro w h hn
      rcases List.mem_cons.mp h with rfl | h
      · simp [subBack, he] at hn
      · simp only [subBack] at hn
        cases hv : P.unknown n s2 with
        | error e => rw [hv] at hn; simp at hn
        | ok v => rw [hv] at hn; exact ih _ h hn
  have hc : (subCollect P unks asP s2 w).2 = none := by simpa [subSolve, subSetParams_iff.mpr h1, h2] using hn
  unfold subCollect at hc
  rcases hp : subPull P s2 unks w with ⟨w1, _ | e'⟩
  · rw [hp] at hc
    rcases List.mem_append.mp hu with hm | hm
    · have := ((subPull_spec hp).2.1 u hm).1
      rw [he] at this
      simp at this
    · exact hb asP w1 hm hc
  · rw [hp] at hc
    simp at hc

/-- A wrapped problem that doubles `x`. -/
def subExample : SubOps (ℤ × ℤ) ℤ where
  set n v s := if n = "x" then .ok (v, s.2) else .error .KeyError
  run s := ((s.1, 2 * s.1), none)
  unknown n s := if n = "y" then .ok s.2 else if n = "x" then .ok s.1 else .error .KeyError
  resid _ _ := .ok 0

example : subExample.SetsOne ["x"] fun _ s => s.1 := by
  constructor
  · intro n v s s' hn h
    simp only [List.mem_singleton] at hn
    subst hn
    simp only [subExample, if_true, Except.ok.injEq] at h
    rw [← h]
  · intro n v s s' k hn hk _ hne
    simp only [List.mem_singleton] at hn hk
    exact absurd (hk.trans hn.symm) hne

example : let r := subSolve subExample ["x"] ["y"] ["x"] (0, 0) ⟨fun _ => 21, fun _ => 0, fun _ => 0⟩
    r.1 = (21, 42) ∧ r.2.1.unknowns "y" = 42 ∧ r.2.1.params "x" = 21 ∧ r.2.2 = none := by decide +kernel

/-! ## C104: derivatives -/

theorem flatRow_lookup {B : Type} (o : String) (row : List (String × B)) (hn : (row.map Prod.fst).Nodup) : ∀ (acc : List ((String × String) × B)) (o' i : String),
    (flatRow acc (o, row)).lookup (o', i) = if o' = o ∧ (row.lookup i).isSome then row.lookup i else acc.lookup (o', i) := by
  unfold flatRow
  induction row with
  | nil => intro acc o' i; simp
  | cons e row ih =>
    intro acc o' i
    obtain ⟨k, b⟩ := e
    rw [List.map_cons, List.nodup_cons] at hn
    simp only [List.foldl_cons]
    rw [show (List.foldl (fun a e => dictSet a (o, e.1) e.2) (dictSet acc (o, k) b) row).lookup (o', i) = _ from ih hn.2 _ o' i]
    rw [lookup_dictSet, List.lookup_cons]
    by_cases hik : i = k
    · subst hik
      have : row.lookup i = none := by
        cases hl : row.lookup i with
        | none => rfl
        | some x =>
          exfalso
          apply hn.1
          have : ∀ (r : List (String × B)), r.lookup i = some x → i ∈ r.map Prod.fst := by
            intro r
            induction r with
            | nil => intro h; simp at h
            | cons q r ih2 =>
              obtain ⟨a, c⟩ := q
              intro h
              rw [List.lookup_cons] at h
              cases hq : (i == a) with
              | true => simp [eq_of_beq hq]
              | false => rw [hq] at h; exact List.mem_cons_of_mem _ (ih2 h)
          exact this row hl
      by_cases ho : o' = o <;> simp [this, ho]
    · have h1 : (i == k) = false := by simpa using hik
      rw [if_neg (fun h => hik (Prod.mk.inj h).2)]
      simp only [h1]

/-- C104. The flat dictionary that `linearize` returns holds, for unknown `o` and parameter `i`, the block `[o][i]` of the problem's gradient at the component's parameters. -/
theorem C104_blocks {B : Type} {P : SubOps S V} {prms : List String} {grad : S → Except PyErr (List (String × List (String × B)))} {s : S} {w : SubVals V} {J : List ((String × String) × B)}
    (h : subLinearize P prms grad s w = .ok J) : ∃ s1 Jn, P.AssignAll w.params prms s s1 ∧ grad s1 = .ok Jn ∧
      ((Jn.map Prod.fst).Nodup → (∀ r ∈ Jn, (r.2.map Prod.fst).Nodup) → ∀ o i, J.lookup (o, i) = (Jn.lookup o).bind fun r => r.lookup i) := by
  unfold subLinearize at h
  rcases hd : subSetParams P w.params prms s with ⟨s1, _ | e⟩
  · rw [hd] at h
    simp only at h
    cases hg : grad s1 with
    | error e => rw [hg] at h; simp at h
    | ok Jn =>
      rw [hg] at h
      simp only [Except.ok.injEq] at h
      refine ⟨s1, Jn, subSetParams_iff.mp hd, hg, ?_⟩
      intro hn hr o i
      rw [← h]
      have key : ∀ (L : List (String × List (String × B))) (acc : List ((String × String) × B)), (L.map Prod.fst).Nodup → (∀ r ∈ L, (r.2.map Prod.fst).Nodup) →
          (L.foldl flatRow acc).lookup (o, i) = match (L.lookup o).bind fun r => r.lookup i with | some b => some b | none => acc.lookup (o, i) := by
        intro L
        induction L with
        | nil => intro acc _ _; rfl
        | cons r L ih =>
          intro acc h1 h2
          obtain ⟨k, row⟩ := r
          rw [List.map_cons, List.nodup_cons] at h1
          rw [List.foldl_cons, ih _ h1.2 (fun q hq => h2 q (List.mem_cons_of_mem _ hq)), flatRow_lookup k row (h2 _ List.mem_cons_self), List.lookup_cons]
          by_cases hok : o = k
          · subst hok
            have hno : L.lookup o = none := by
              cases hl : L.lookup o with
              | none => rfl
              | some x =>
                exact absurd (List.mem_map.mpr ⟨(o, x), lookup_mem hl, rfl⟩) h1.1
            rw [hno]
            have hb : (o == o) = true := beq_self_eq_true o
            simp only [hb, Option.bind_none, Option.bind_some, true_and]
            cases hri : row.lookup i <;> simp
          · have : (o == k) = false := by simpa using hok
            rw [this]
            simp [hok]
      rw [jacToFlat, key Jn [] hn hr]
      cases (Jn.lookup o).bind fun r => r.lookup i <;> simp
  · rw [hd] at h
    simp at h

section Derivative
variable {E X : Type} [NormedAddCommGroup E] [NormedSpace ℝ E] [NormedAddCommGroup X] [NormedSpace ℝ X]

/-- A wrapped problem with the parameter `p` and the output `y = F p x`, where `x` is varied by its driver: a run replaces it by `opt p x`. -/
def drivenOps (F : E → X → E) (opt : E → X → X) : SubOps (E × X) E where
  set n v s := if n = "p" then .ok (v, s.2) else .error .KeyError
  run s := ((s.1, opt s.1 s.2), none)
  unknown n s := if n = "y" then .ok (F s.1 s.2) else .error .KeyError
  resid _ _ := .ok 0

/-- `y` as a function of the parameter, for a component whose wrapped problem is in the state `s`. -/
def drivenOut (F : E → X → E) (opt : E → X → X) (s : E × X) (v : E) : E := (subSolve (drivenOps F opt) ["p"] ["y"] [] s ⟨fun _ => v, fun _ => 0, fun _ => 0⟩).2.1.unknowns "y"

/-- The block `y`, `p` that `linearize` returns after a run at `v`; `G` is the problem's gradient of `y` with respect to `p`, for fixed `x`. -/
noncomputable def drivenLin (F : E → X → E) (opt : E → X → X) (G : E × X → E →L[ℝ] E) (s : E × X) (v : E) : Option (E →L[ℝ] E) :=
  let r := subSolve (drivenOps F opt) ["p"] ["y"] [] s ⟨fun _ => v, fun _ => 0, fun _ => 0⟩
  match subLinearize (drivenOps F opt) ["p"] (fun t => .ok [("y", [("p", G t)])]) r.1 r.2.1 with
  | .ok J => J.lookup ("y", "p")
  | .error _ => none

theorem drivenOut_eq (F : E → X → E) (opt : E → X → X) (s : E × X) (v : E) : drivenOut F opt s v = F v (opt v s.2) := by
  simp [drivenOut, subSolve, subSetParams, drivenOps, subCollect, subPull, subBack]

theorem drivenLin_eq (F : E → X → E) (opt : E → X → X) (G : E × X → E →L[ℝ] E) (s : E × X) (v : E) : drivenLin F opt G s v = some (G (v, opt v s.2)) := by
  simp [drivenLin, subSolve, subSetParams, drivenOps, subCollect, subPull, subBack, subLinearize, jacToFlat, flatRow, dictSet]

/-- C104 (partial). With a driver that does not change the design (`Driver`, which runs the model once), `linearize` returns the derivative of the output with respect to the parameter, provided the wrapped problem's gradient is right. -/
theorem C104_plain_driver_partial {F : E → X → E} {opt : E → X → X} (hopt : ∀ p x, opt p x = x) {G : E × X → E →L[ℝ] E} (hG : ∀ p x, HasFDerivAt (fun q => F q x) (G (p, x)) p) (s : E × X) (v : E) :
    ∃ D, drivenLin F opt G s v = some D ∧ HasFDerivAt (drivenOut F opt s) D v := by
  refine ⟨_, drivenLin_eq F opt G s v, ?_⟩
  have : drivenOut F opt s = fun q => F q s.2 := by funext q; rw [drivenOut_eq, hopt]
  rw [this, hopt]
  exact hG v s.2

/-- C104 (partial). With an optimizing driver it does so for outputs that are stationary in the design, such as the objective at an unconstrained optimum. Missing: other outputs, see `C104_optimizer_refuted`. -/
theorem C104_stationary_partial {F : E → X → E} {opt : E → X → X} {G : E × X → E →L[ℝ] E} (hG : ∀ p x, HasFDerivAt (fun q => F q x) (G (p, x)) p) (s : E × X) (v : E)
    {L : E × X →L[ℝ] E} (hF : HasFDerivAt (fun z : E × X => F z.1 z.2) L (v, opt v s.2)) (hstat : ∀ dx, L (0, dx) = 0) {O : E →L[ℝ] X} (hO : HasFDerivAt (fun q => opt q s.2) O v) :
    ∃ D, drivenLin F opt G s v = some D ∧ HasFDerivAt (drivenOut F opt s) D v := by
  refine ⟨_, drivenLin_eq F opt G s v, ?_⟩
  have h1 : drivenOut F opt s = fun q => F q (opt q s.2) := by funext q; rw [drivenOut_eq]
  rw [h1]
  have h2 : HasFDerivAt (fun q => F q (opt q s.2)) (L.comp ((ContinuousLinearMap.id ℝ E).prod O)) v := HasFDerivAt.comp v (f := fun q => (q, opt q s.2)) hF ((hasFDerivAt_id v).prodMk hO)
  have h3 : HasFDerivAt (fun q => F q (opt v s.2)) (L.comp ((ContinuousLinearMap.id ℝ E).prod 0)) v :=
    HasFDerivAt.comp v (f := fun q => (q, opt v s.2)) hF ((hasFDerivAt_id v).prodMk (hasFDerivAt_const _ v))
  have h4 := (hG v (opt v s.2)).unique h3
  have h5 : L.comp ((ContinuousLinearMap.id ℝ E).prod O) = L.comp ((ContinuousLinearMap.id ℝ E).prod 0) := by
    ext d
    simp only [ContinuousLinearMap.comp_apply, ContinuousLinearMap.prod_apply, ContinuousLinearMap.id_apply, zero_apply]
    have : ((d, O d) : E × X) = (d, 0) + (0, O d) := by simp
    rw [this, map_add, hstat, add_zero]
  rw [h4, ← h5]
  exact h2

end Derivative

/-- C104 is false of the code for optimizing drivers: with `x` chosen as the minimiser of `(x - p)²`, that is `x = p`, the output `y = x` has the derivative 1, and `linearize` returns 0. -/
theorem C104_optimizer_refuted : ∃ (F : ℝ → ℝ → ℝ) (opt : ℝ → ℝ → ℝ) (G : ℝ × ℝ → ℝ →L[ℝ] ℝ), (∀ p x, HasFDerivAt (fun q => F q x) (G (p, x)) p) ∧ (∀ p x z, (opt p x - p) ^ 2 ≤ (z - p) ^ 2) ∧
    ∀ s v, drivenLin F opt G s v = some 0 ∧ HasFDerivAt (drivenOut F opt s) (ContinuousLinearMap.id ℝ ℝ) v := by
  refine ⟨fun _ x => x, fun p _ => p, fun _ => 0, fun p x => hasFDerivAt_const _ _, fun p x z => by simpa using sq_nonneg (z - p), ?_⟩
  intro s v
  refine ⟨drivenLin_eq _ _ _ s v, ?_⟩
  have : drivenOut (fun _ x => x) (fun p _ => p) s = fun q : ℝ => q := by funext q; rw [drivenOut_eq]
  rw [this]
  exact hasFDerivAt_id v

/-- The hypotheses of `C104_stationary_partial` with the optimum of `(x - p)²` and the output `(x - p)²` at `p = x = 3`. -/
example : HasFDerivAt (fun z : ℝ × ℝ => (z.2 - z.1) ^ 2) (0 : ℝ × ℝ →L[ℝ] ℝ) (3, 3) := by
  have h1 : HasFDerivAt (fun z : ℝ × ℝ => z.2 - z.1) (ContinuousLinearMap.snd ℝ ℝ ℝ - ContinuousLinearMap.fst ℝ ℝ ℝ) (3, 3) := HasFDerivAt.sub hasFDerivAt_snd hasFDerivAt_fst
  have := HasFDerivAt.pow h1 2
  simpa using this

/-! ## C105: which names may be exposed as parameters -/

theorem forM_ok {α : Type} (f : α → Except PyErr Unit) (l : List α) : l.forM f = .ok () ↔ ∀ x ∈ l, f x = .ok () := by
  induction l with
  | nil => simp [List.forM, pure, Except.pure]
  | cons a l ih =>
    rw [show (a :: l).forM f = (f a >>= fun _ => l.forM f) from rfl]
    simp only [bind, Except.bind]
    cases h : f a with
    | error e => simp [h]
    | ok u => simp only [ih]; simp [h]

theorem subParam_fold {N : SubNames} (hc : N.Consistent) : ∀ (l acc : List String), (∀ p ∈ l, subCheckParam N p = .ok ()) →
    ((∀ p ∈ l, N.Settable p) → l.foldlM (subParamStep N) acc = .ok (acc ++ l.filter fun p => decide (p ∉ N.dangling))) ∧
    ((∃ p ∈ l, ¬ N.Settable p) → l.foldlM (subParamStep N) acc = .error .TypeError) := by
  intro l
  induction l with
  | nil => intro acc _; exact ⟨fun _ => by simp [pure, Except.pure], fun ⟨p, hp, _⟩ => by simp at hp⟩
  | cons p l ih =>
    intro acc hk
    have hkp := hk p List.mem_cons_self
    have hkl : ∀ q ∈ l, subCheckParam N q = .ok () := fun q hq => hk q (List.mem_cons_of_mem _ hq)
    by_cases hd : p ∈ N.dangling
    · have hstep : subParamStep N acc p = .ok acc := by unfold subParamStep; simp [hd]
      rw [List.foldlM_cons, hstep]
      simp only [bind, Except.bind]
      obtain ⟨h1, h2⟩ := ih acc hkl
      constructor
      · intro hs
        rw [h1 fun q hq => hs q (List.mem_cons_of_mem _ hq)]
        simp [hd]
      · rintro ⟨q, hq, hns⟩
        rcases List.mem_cons.mp hq with rfl | hq
        · exact absurd (Or.inl hd) hns
        · exact h2 ⟨q, hq, hns⟩
    · have hu : (N.unknowns.lookup p).isSome := by
        unfold subCheckParam at hkp
        split at hkp
        · rename_i h; exact h.resolve_left hd
        · simp at hkp
      have hnp : p ∉ N.params := by
        intro h
        rw [hc p h] at hu
        simp at hu
      obtain ⟨b, hb⟩ := Option.isSome_iff_exists.mp hu
      rw [List.foldlM_cons]
      cases b with
      | true =>
        have hstep : subParamStep N acc p = .ok (acc ++ [p]) := by unfold subParamStep; simp [hd, hnp, hb]
        rw [hstep]
        simp only [bind, Except.bind]
        obtain ⟨h1, h2⟩ := ih (acc ++ [p]) hkl
        constructor
        · intro hs
          rw [h1 fun q hq => hs q (List.mem_cons_of_mem _ hq)]
          simp [hd]
        · rintro ⟨q, hq, hns⟩
          rcases List.mem_cons.mp hq with rfl | hq
          · exact absurd (Or.inr hb) hns
          · exact h2 ⟨q, hq, hns⟩
      | false =>
        have hstep : subParamStep N acc p = .error .TypeError := by unfold subParamStep; simp [hd, hnp, hb]
        rw [hstep]
        refine ⟨fun hs => ?_, fun _ => rfl⟩
        rcases hs p List.mem_cons_self with h | h
        · exact absurd h hd
        · rw [hb] at h; simp at h

theorem subSetup_eq (N : SubNames) (prms unks : List String) : subSetup N prms unks = match prms.forM (subCheckParam N) with
    | .error e => .error e
    | .ok _ => match prms.foldlM (subParamStep N) [] with
      | .error e => .error e
      | .ok asP => match unks.forM (subUnknownStep N) with
        | .error e => .error e
        | .ok _ => .ok asP := by
  unfold subSetup
  simp only [bind, Except.bind, pure, Except.pure]
  cases List.forM prms (subCheckParam N) with
  | error e => rfl
  | ok u =>
    simp only
    cases List.foldlM (subParamStep N) [] prms with
    | error e => rfl
    | ok a => simp only; cases List.forM unks (subUnknownStep N) <;> rfl

/-- C105. Setting up succeeds exactly when every exposed parameter can be set without being overwritten, and every exposed unknown exists; the parameters that are unknowns of the wrapped problem are remembered. -/
theorem C105_accepted {N : SubNames} (hc : N.Consistent) (prms unks asP : List String) : subSetup N prms unks = .ok asP ↔
    (∀ p ∈ prms, N.Settable p) ∧ (∀ u ∈ unks, (N.unknowns.lookup u).isSome) ∧ asP = prms.filter fun p => decide (p ∉ N.dangling) := by
  have hunk : unks.forM (subUnknownStep N) = .ok () ↔ ∀ u ∈ unks, (N.unknowns.lookup u).isSome := by
    rw [forM_ok]
    apply forall₂_congr
    intro u _
    unfold subUnknownStep
    cases N.unknowns.lookup u <;> simp
  rw [subSetup_eq]
  by_cases hk : ∀ p ∈ prms, subCheckParam N p = .ok ()
  · rw [(forM_ok _ _).mpr hk]
    obtain ⟨h1, h2⟩ := subParam_fold hc prms [] hk
    by_cases hs : ∀ p ∈ prms, N.Settable p
    · simp only [h1 hs, List.nil_append]
      cases hu : unks.forM (subUnknownStep N) with
      | error e =>
        have : ¬ ∀ u ∈ unks, (N.unknowns.lookup u).isSome := fun h => by rw [hunk.mpr h] at hu; simp at hu
        exact ⟨fun h => by simp at h, fun h => absurd h.2.1 this⟩
      | ok u =>
        have h3 := hunk.mp hu
        simp only [Except.ok.injEq]
        exact ⟨fun h => ⟨hs, h3, h.symm⟩, fun h => h.2.2.symm⟩
    · have : ∃ p ∈ prms, ¬ N.Settable p := by push Not at hs; exact hs
      simp only [h2 this]
      simp [hs]
  · have hns : ¬ ∀ p ∈ prms, N.Settable p := by
      intro hs
      apply hk
      intro p hp
      unfold subCheckParam
      rw [if_pos]
      rcases hs p hp with h | h
      · exact Or.inl h
      · exact Or.inr (by rw [h]; rfl)
    cases hf : prms.forM (subCheckParam N) with
    | error e => simp [hns]
    | ok u => exact absurd ((forM_ok _ _).mp hf) hk

/-- C105. A parameter that is neither an unconnected input nor an unknown gives `RuntimeError`; otherwise one that is the output of another component gives `TypeError`. -/
theorem C105_refused {N : SubNames} (hc : N.Consistent) (prms unks : List String) :
    ((∃ p ∈ prms, p ∉ N.dangling ∧ N.unknowns.lookup p = none) → subSetup N prms unks = .error .RuntimeError) ∧
    ((∀ p ∈ prms, p ∈ N.dangling ∨ (N.unknowns.lookup p).isSome) → (∃ p ∈ prms, p ∉ N.dangling ∧ N.unknowns.lookup p = some false) → subSetup N prms unks = .error .TypeError) := by
  rw [subSetup_eq]
  constructor
  · rintro ⟨p, hp, hd, hu⟩
    have : ∀ l : List String, p ∈ l → l.forM (subCheckParam N) = .error .RuntimeError := by
      intro l
      induction l with
      | nil => intro h; simp at h
      | cons q l ih =>
        intro h
        rw [show (q :: l).forM (subCheckParam N) = (subCheckParam N q >>= fun _ => l.forM (subCheckParam N)) from rfl]
        simp only [bind, Except.bind]
        by_cases hq : q ∈ N.dangling ∨ (N.unknowns.lookup q).isSome
        · have hqp : p ≠ q := by
            rintro rfl
            rcases hq with h1 | h1
            · exact hd h1
            · rw [hu] at h1; simp at h1
          simp only [subCheckParam, if_pos hq]
          exact ih ((List.mem_cons.mp h).resolve_left hqp)
        · simp only [subCheckParam, if_neg hq]
    rw [this prms hp]
  · rintro hall ⟨p, hp, hd, hu⟩
    have hk : ∀ p ∈ prms, subCheckParam N p = .ok () := fun q hq => by unfold subCheckParam; rw [if_pos (hall q hq)]
    rw [(forM_ok _ _).mpr hk]
    simp only
    rw [(subParam_fold hc prms [] hk).2 ⟨p, hp, fun h => by
      rcases h with h | h
      · exact hd h
      · rw [hu] at h; simp at h⟩]

example : let N : SubNames := ⟨["p"], ["c.x"], [("x", true), ("y", false)]⟩
    N.Consistent ∧ subSetup N ["p", "x"] ["y"] = .ok ["x"] ∧ subSetup N ["y"] [] = .error .TypeError ∧ subSetup N ["c.x"] [] = .error .RuntimeError := by
  refine ⟨?_, by decide +kernel, by decide +kernel, by decide +kernel⟩
  intro p hp
  simp only [List.mem_singleton] at hp
  subst hp
  decide

end OpenMDAO
