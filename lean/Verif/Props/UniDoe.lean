import Verif.Spec.UniDoe
import Mathlib.Data.Rat.Defs
import Mathlib.Algebra.Order.Ring.Rat
import Mathlib.Algebra.Field.Rat
import Mathlib.Tactic.Linarith
import Mathlib.Tactic.Ring
import Mathlib.Tactic.NormNum
/-!
# C179: the uniform design of experiments
-/
namespace OpenMDAO
set_option linter.unusedSectionVars false
variable {K σ : Type} [Field K]

theorem uniBound_at (b : UniBound K) (k : Nat) : uniBound b k = match b.at k with | some x => .ok x | none => .error .IndexError := by
  cases b with
  | num x => rfl
  | arr l =>
    simp only [uniBound, UniBound.at]
    split <;> simp_all

theorem uniEntry_cases (draw : σ → K × σ) (v : UniVar K) (k : Nat) (s : σ) :
    (∃ l h, v.low.at k = some l ∧ v.high.at k = some h ∧ uniEntry draw v k s = .ok (l + (h - l) * (draw s).1, (draw s).2)) ∨
    (¬ ((v.low.at k).isSome ∧ (v.high.at k).isSome) ∧ uniEntry draw v k s = .error .IndexError) := by
  unfold uniEntry
  rw [uniBound_at, uniBound_at]
  cases hl : v.low.at k with
  | none => exact Or.inr ⟨by simp, rfl⟩
  | some l =>
    cases hh : v.high.at k with
    | none => exact Or.inr ⟨by simp, rfl⟩
    | some h => exact Or.inl ⟨l, h, rfl, rfl, rfl⟩

theorem uniEntries_cases (draw : σ → K × σ) (v : UniVar K) : ∀ n k s,
    ((∀ j < n, (v.low.at (k + j)).isSome ∧ (v.high.at (k + j)).isSome) ∧ ∃ r, uniEntries draw v n k s = .ok r) ∨
    (¬ (∀ j < n, (v.low.at (k + j)).isSome ∧ (v.high.at (k + j)).isSome) ∧ uniEntries draw v n k s = .error .IndexError)
  | 0, k, s => Or.inl ⟨by simp, _, rfl⟩
  | n + 1, k, s => by
    unfold uniEntries
    rcases uniEntry_cases draw v k s with ⟨l, h, hl, hh, he⟩ | ⟨hn, he⟩
    · rw [he]
      dsimp only
      rcases uniEntries_cases draw v n (k + 1) (draw s).2 with ⟨h1, r, h2⟩ | ⟨h1, h2⟩
      · refine Or.inl ⟨fun j hj => ?_, ?_⟩
        · cases j with
          | zero => simp [hl, hh]
          | succ j => have := h1 j (by omega); rwa [show k + 1 + j = k + (j + 1) by omega] at this
        · rw [h2]; exact ⟨_, rfl⟩
      · refine Or.inr ⟨fun hall => h1 fun j hj => ?_, ?_⟩
        · have := hall (j + 1) (by omega); rwa [show k + (j + 1) = k + 1 + j by omega] at this
        · rw [h2]
    · rw [he]
      refine Or.inr ⟨fun hall => hn ?_, rfl⟩
      exact hall 0 (by omega)

theorem uniSample_cases (draw : σ → K × σ) : ∀ vs s,
    ((∀ v ∈ vs, UniVar.Bounded v) ∧ ∃ r, uniSample draw vs s = .ok r) ∨ (¬ (∀ v ∈ vs, UniVar.Bounded v) ∧ uniSample draw vs s = .error .IndexError)
  | [], s => Or.inl ⟨by simp, _, rfl⟩
  | v :: vs, s => by
    unfold uniSample
    have hz : (∀ j < v.size, (v.low.at (0 + j)).isSome ∧ (v.high.at (0 + j)).isSome) ↔ v.Bounded := by simp [UniVar.Bounded]
    rcases uniEntries_cases draw v v.size 0 s with ⟨h1, r, h2⟩ | ⟨h1, h2⟩
    · rw [hz] at h1
      rw [h2]
      obtain ⟨xs, s1⟩ := r
      dsimp only
      rcases uniSample_cases draw vs s1 with ⟨h3, r, h4⟩ | ⟨h3, h4⟩
      · rw [h4]; exact Or.inl ⟨by simpa using ⟨h1, h3⟩, _, rfl⟩
      · rw [h4]; exact Or.inr ⟨fun h => h3 fun w hw => h w (List.mem_cons_of_mem _ hw), rfl⟩
    · rw [hz] at h1
      rw [h2]
      exact Or.inr ⟨fun h => h1 (h v List.mem_cons_self), rfl⟩

/-- **C179 (all or nothing).** If every entry of every design variable has its bounds, the given number of cases is run. Otherwise there is an
`IndexError` before the first case, unless no case is asked for. -/
theorem C179_number (draw : σ → K × σ) (seeded : Nat → σ) (model : UniCase K → σ → σ) (vs : List (UniVar K)) (n : Nat) (seed : Option Nat) (s : σ) :
    ((∀ v ∈ vs, UniVar.Bounded v) → (uniRun draw seeded model vs n seed s).1.length = n ∧ (uniRun draw seeded model vs n seed s).2 = none) ∧
    (¬ (∀ v ∈ vs, UniVar.Bounded v) → 0 < n → uniRun draw seeded model vs n seed s = ([], some .IndexError)) := by
  unfold uniRun
  generalize uniStart seeded seed s = t
  constructor
  · intro hb
    induction n generalizing t with
    | zero => exact ⟨rfl, rfl⟩
    | succ n ih =>
      unfold uniLoop
      rcases uniSample_cases draw vs t with ⟨_, r, hr⟩ | ⟨hn, _⟩
      · rw [hr]
        obtain ⟨c, s1⟩ := r
        exact ⟨by simp [(ih (model c s1)).1], (ih (model c s1)).2⟩
      · exact absurd hb hn
  · intro hb hn
    obtain ⟨n, rfl⟩ : ∃ k, n = k + 1 := ⟨n - 1, by omega⟩
    unfold uniLoop
    rcases uniSample_cases draw vs t with ⟨h, _⟩ | ⟨_, hr⟩
    · exact absurd h hb
    · rw [hr]

section Order
variable [LinearOrder K] [IsStrictOrderedRing K]

theorem uni_between (l h t : K) (h0 : 0 ≤ t) (h1 : t ≤ 1) : min l h ≤ l + (h - l) * t ∧ l + (h - l) * t ≤ max l h := by
  rcases le_total l h with hle | hle
  · rw [min_eq_left hle, max_eq_right hle]
    constructor
    · have := mul_nonneg (sub_nonneg.2 hle) h0; linarith
    · have := mul_le_mul_of_nonneg_left h1 (sub_nonneg.2 hle); linarith
  · rw [min_eq_right hle, max_eq_left hle]
    constructor
    · have := mul_le_mul_of_nonneg_left h1 (sub_nonneg.2 hle); nlinarith
    · have := mul_nonneg (sub_nonneg.2 hle) h0; nlinarith

theorem uniEntries_fit (draw : σ → K × σ) (hd : ∀ s, 0 ≤ (draw s).1 ∧ (draw s).1 < 1) (v : UniVar K) : ∀ n k s xs s', uniEntries draw v n k s = .ok (xs, s') →
    xs.length = n ∧ ∀ j x, xs[j]? = some x → ∃ l h, v.low.at (k + j) = some l ∧ v.high.at (k + j) = some h ∧ min l h ≤ x ∧ x ≤ max l h
  | 0, k, s, xs, s', hr => by cases hr; simp
  | n + 1, k, s, xs, s', hr => by
    unfold uniEntries at hr
    rcases uniEntry_cases draw v k s with ⟨l, h, hl, hh, he⟩ | ⟨hn, he⟩
    · rw [he] at hr
      dsimp only at hr
      cases hq : uniEntries draw v n (k + 1) (draw s).2 with
      | error e => rw [hq] at hr; cases hr
      | ok r =>
        obtain ⟨ys, s2⟩ := r
        rw [hq] at hr
        cases hr
        obtain ⟨i1, i2⟩ := uniEntries_fit draw hd v n (k + 1) _ _ _ hq
        refine ⟨by simp [i1], fun j x hx => ?_⟩
        cases j with
        | zero =>
          simp at hx
          subst hx
          exact ⟨l, h, hl, hh, uni_between l h _ (hd s).1 (hd s).2.le⟩
        | succ j =>
          have := i2 j x (by simpa using hx)
          rwa [show k + 1 + j = k + (j + 1) by omega] at this
    · rw [he] at hr; cases hr

theorem uniSample_fit (draw : σ → K × σ) (hd : ∀ s, 0 ≤ (draw s).1 ∧ (draw s).1 < 1) : ∀ vs s c s', uniSample draw vs s = .ok (c, s') → UniFits vs c
  | [], s, c, s', h => by cases h; exact .nil
  | v :: vs, s, c, s', h => by
    unfold uniSample at h
    cases h1 : uniEntries draw v v.size 0 s with
    | error e => rw [h1] at h; cases h
    | ok r =>
      obtain ⟨xs, s1⟩ := r
      rw [h1] at h
      dsimp only at h
      cases h2 : uniSample draw vs s1 with
      | error e => rw [h2] at h; cases h
      | ok r =>
        obtain ⟨c2, s2⟩ := r
        rw [h2] at h
        cases h
        obtain ⟨i1, i2⟩ := uniEntries_fit draw hd v _ _ _ _ _ h1
        refine .cons ⟨rfl, i1, fun k x hx => ?_⟩ (uniSample_fit draw hd vs _ _ _ h2)
        simpa using i2 k x hx

/-- **C179 (the cases).** Every case that is run sets all design variables, in their order, with as many values as they have entries, each between the
bounds of its entry; whatever the model does with random numbers. -/
theorem C179_fits (draw : σ → K × σ) (hd : ∀ s, 0 ≤ (draw s).1 ∧ (draw s).1 < 1) (seeded : Nat → σ) (model : UniCase K → σ → σ) (vs : List (UniVar K)) (n : Nat)
    (seed : Option Nat) (s : σ) (c : UniCase K) (hc : c ∈ (uniRun draw seeded model vs n seed s).1) : UniFits vs c := by
  unfold uniRun at hc
  generalize uniStart seeded seed s = t at hc
  induction n generalizing t with
  | zero => cases hc
  | succ n ih =>
    unfold uniLoop at hc
    cases hr : uniSample draw vs t with
    | error e => rw [hr] at hc; cases hc
    | ok r =>
      obtain ⟨c1, s1⟩ := r
      rw [hr] at hc
      rcases List.mem_cons.1 hc with rfl | hc
      · exact uniSample_fit draw hd vs _ _ _ hr
      · exact ih _ hc

end Order

/-- **C179 (runs can be repeated).** With a seed the cases do not depend on what was drawn before. -/
theorem C179_seed (draw : σ → K × σ) (seeded : Nat → σ) (model : UniCase K → σ → σ) (vs : List (UniVar K)) (n k : Nat) (s t : σ) :
    uniRun draw seeded model vs n (some k) s = uniRun draw seeded model vs n (some k) t := rfl

/-- **C179 (the same cases for another model).** With a seed the cases do not depend on the model, if it leaves the shared generator alone. Missing: models
that draw random numbers themselves (see the refutation). -/
theorem C179_models_partial (draw : σ → K × σ) (seeded : Nat → σ) (model model' : UniCase K → σ → σ) (h : ∀ c s, model c s = s) (h' : ∀ c s, model' c s = s)
    (vs : List (UniVar K)) (n k : Nat) (s t : σ) :
    uniRun draw seeded model vs n (some k) s = uniRun draw seeded model' vs n (some k) t := by
  have : model = model' := by funext c s; rw [h, h']
  rw [this]; rfl

/-- More cases go on where fewer stop: the first cases of a longer study are those of the shorter one. -/
theorem C179_prefix (draw : σ → K × σ) (seeded : Nat → σ) (model : UniCase K → σ → σ) (vs : List (UniVar K)) (n m : Nat) (seed : Option Nat) (s : σ) :
    (uniRun draw seeded model vs n seed s).1 <+: (uniRun draw seeded model vs (n + m) seed s).1 := by
  unfold uniRun
  generalize uniStart seeded seed s = t
  induction n generalizing t with
  | zero => exact List.nil_prefix
  | succ n ih =>
    rw [show n + 1 + m = (n + m) + 1 by omega]
    unfold uniLoop
    cases uniSample draw vs t with
    | error e => exact List.prefix_refl _
    | ok r => exact List.cons_prefix_cons.2 ⟨rfl, ih _⟩

/-! ## Concrete studies -/

/-- A generator that counts: 0, 1/4, 1/2, 3/4, 0, … -/
def uniDraw (s : Nat) : ℚ × Nat := (((s % 4 : Nat) : ℚ) / 4, s + 1)

theorem uniDraw_unit : ∀ s, 0 ≤ (uniDraw s).1 ∧ (uniDraw s).1 < 1 := by
  intro s
  have h : s % 4 < 4 := Nat.mod_lt _ (by decide)
  have h2 : ((s % 4 : Nat) : ℚ) < 4 := by exact_mod_cast h
  have h3 : (0 : ℚ) ≤ ((s % 4 : Nat) : ℚ) := Nat.cast_nonneg _
  unfold uniDraw
  constructor
  · exact div_nonneg h3 (by norm_num)
  · rw [div_lt_one (by norm_num)]; exact h2

/-- `x` with two entries between 0 and 4, and 10 and 2 (a negative scaler); `y` between 0 and 8. -/
def uniVars : List (UniVar ℚ) := [⟨"x", 2, .arr [0, 10], .arr [4, 2]⟩, ⟨"y", 1, .num 0, .num 8⟩]

example : ∀ v ∈ uniVars, UniVar.Bounded v := by
  intro v hv
  simp only [uniVars, List.mem_cons, List.not_mem_nil, or_false] at hv
  rcases hv with rfl | rfl <;> intro k hk
  · have : k = 0 ∨ k = 1 := by simp at hk; omega
    rcases this with rfl | rfl <;> simp [UniBound.at]
  · simp [UniBound.at]

example : ((uniRun uniDraw (fun k => k) (fun _ s => s) uniVars 2 (some 1) 7).1.map (·.map Prod.snd)) = [[[1, 6], [6]], [[0, 8], [4]]] := by decide +kernel

/-- An array of bounds that is too short. -/
example : (uniRun uniDraw (fun k => k) (fun _ s => s) [⟨"x", 2, .arr [0], .num 1⟩] 3 none 0) = ([], some .IndexError) := rfl

/-- **Refutation: the generator is shared with the model.** Two models, the same seed, the same design variables: one draws a random number in every
case, and from the second case on it is run with other values. -/
theorem C179_shared_refuted : ∃ (model model' : UniCase ℚ → Nat → Nat),
    uniRun uniDraw (fun k => k) model uniVars 2 (some 1) 0 ≠ uniRun uniDraw (fun k => k) model' uniVars 2 (some 1) 0 := by
  refine ⟨fun _ s => s, fun _ s => s + 1, fun h => ?_⟩
  have h2 := congrArg (fun r => r.1.map (·.map Prod.snd)) h
  exact absurd h2 (by decide +kernel)

end OpenMDAO
