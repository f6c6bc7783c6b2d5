import Verif.Spec.DoeProcs
import Verif.Props.ArrayUtil
/-!
# C188: processes of a parallel design study
-/
namespace OpenMDAO

theorem evenly_bounds {p n : Nat} (hp : 0 < p) {sizes offsets : List Nat} (h : evenlyDistribIdxs p n = .ok (sizes, offsets)) :
    sizes.length = p ∧ ∀ i s, sizes[i]? = some s → s = n / p + if i < n % p then 1 else 0 := by
  obtain ⟨sizes', offsets', h0, hl, _, hs, _⟩ := evenlyDistribIdxs_eq p n hp
  rw [h] at h0
  cases h0
  refine ⟨hl, fun i s hi => ?_⟩
  have hlt : i < p := by
    rw [← hl]; exact (List.getElem?_eq_some_iff.1 hi).1
  rw [hs i hlt] at hi
  exact (Option.some.inj hi).symm

theorem doeSetup_ok {n : Nat} {balance : Bool} {req : Nat × Option Nat} {size : Nat} {sizes : List Nat} (h : doeSetup n balance req size = .ok sizes) :
    req.1 * n ≤ size ∧ (∀ m, req.2 = some m → size ≤ m * n) ∧ doeSizes n balance size = .ok sizes := by
  unfold doeSetup at h
  split at h
  · cases h
  · rename_i h1
    split at h
    · cases h
    · rename_i h2
      refine ⟨Nat.le_of_not_lt h2, fun m hm => ?_, h⟩
      simp only [doeReq, hm, Option.map_some, tooManyProcs, decide_eq_true_eq] at h1
      exact Nat.le_of_not_lt h1

/-- The cases of `doeSizes`, with the sizes written out. -/
theorem doeSizes_cases {n : Nat} {balance : Bool} {size : Nat} {sizes : List Nat} (h : doeSizes n balance size = .ok sizes) :
    (n ≤ 1 ∧ sizes = [size]) ∨
    (1 < n ∧ balance = true ∧ ∃ r, sizes = 1 :: r ∧ r.length = n - 1 ∧ ∀ i s, r[i]? = some s → s = (size - 1) / (n - 1) + if i < (size - 1) % (n - 1) then 1 else 0) ∨
    (1 < n ∧ balance = false ∧ sizes.length = n ∧ ∀ i s, sizes[i]? = some s → s = size / n + if i < size % n then 1 else 0) := by
  unfold doeSizes at h
  split at h
  · rename_i hn
    cases h
    exact .inl ⟨hn, rfl⟩
  · rename_i hn
    have hn : 1 < n := Nat.lt_of_not_le hn
    cases balance with
    | true =>
      simp only [if_true] at h
      cases he : evenlyDistribIdxs (n - 1) (size - 1) with
      | error e => rw [he] at h; cases h
      | ok r =>
        rw [he] at h
        cases h
        obtain ⟨hl, hs⟩ := evenly_bounds (by omega) (sizes := r.1) (offsets := r.2) he
        exact .inr (.inl ⟨hn, rfl, r.1, rfl, hl, hs⟩)
    | false =>
      simp only [Bool.false_eq_true, if_false] at h
      cases he : evenlyDistribIdxs n size with
      | error e => rw [he] at h; cases h
      | ok r =>
        rw [he] at h
        cases h
        obtain ⟨hl, hs⟩ := evenly_bounds (by omega) (sizes := r.1) (offsets := r.2) he
        exact .inr (.inr ⟨hn, rfl, hl, hs⟩)

/-- **C188 (enough).** If the number of processes is accepted, every group that runs cases has as many processes as the root needs, with and without load balancing. -/
theorem C188_enough {n : Nat} (hn : 0 < n) {balance : Bool} {req : Nat × Option Nat} {size : Nat} {sizes : List Nat}
    (h : doeSetup n balance req size = .ok sizes) (hpos : 0 < req.1) {i s : Nat} (hi : RunsCases n balance sizes i s) : req.1 ≤ s := by
  obtain ⟨hmin, _, hs⟩ := doeSetup_ok h
  obtain ⟨hi, hrun⟩ := hi
  rcases doeSizes_cases hs with ⟨h1, rfl⟩ | ⟨h1, rfl, r, rfl, hl, hr⟩ | ⟨h1, rfl, hl, hr⟩
  · have : n = 1 := by omega
    subst this
    cases i with
    | zero => simp at hi; omega
    | succ i => simp at hi
  · cases i with
    | zero => exact absurd ⟨h1, rfl, rfl⟩ hrun
    | succ i =>
      rw [List.getElem?_cons_succ] at hi
      have := hr i s hi
      have hle : req.1 ≤ (size - 1) / (n - 1) := by
        rw [Nat.le_div_iff_mul_le (by omega)]
        obtain ⟨k, rfl⟩ : ∃ k, n = k + 1 := ⟨n - 1, by omega⟩
        rw [Nat.mul_add, Nat.mul_one] at hmin
        simp only [Nat.add_sub_cancel]
        omega
      omega
  · have := hr i s hi
    have hle : req.1 ≤ size / n := (Nat.le_div_iff_mul_le hn).2 hmin
    omega

/-- **C188 (not too many).** Without load balancing, no group has more processes than the root can use. -/
theorem C188_most_partial {n : Nat} (hn : 0 < n) {req : Nat × Option Nat} {size m : Nat} {sizes : List Nat}
    (h : doeSetup n false req size = .ok sizes) (hm : req.2 = some m) {s : Nat} (hi : s ∈ sizes) : s ≤ m := by
  obtain ⟨_, hmax, hs⟩ := doeSetup_ok h
  have hmax := hmax m hm
  obtain ⟨i, hi⟩ := List.mem_iff_getElem?.1 hi
  rcases doeSizes_cases hs with ⟨h1, rfl⟩ | ⟨_, hb, _⟩ | ⟨h1, _, hl, hr⟩
  · have : n = 1 := by omega
    subst this
    cases i with
    | zero => simp at hi; omega
    | succ i => simp at hi
  · cases hb
  · have := hr i s hi
    have hd : size / n * n + size % n = size := Nat.div_add_mod' size n
    have hq : size / n ≤ m := by
      rw [Nat.mul_comm] at hmax
      exact Nat.div_le_of_le_mul hmax
    by_cases hz : size / n = m
    · have h0 : size % n = 0 := by rw [hz] at hd; omega
      rw [if_neg (by omega)] at this
      omega
    · split at this <;> omega

/-- **C188 (load balancing).** With load balancing, the groups that run cases all stay within what the root can use if and only if the processes without the master do
so. -/
theorem C188_balance_partial {n : Nat} (hn : 1 < n) {req : Nat × Option Nat} {size : Nat} {sizes : List Nat} (hsize : 0 < size)
    (h : doeSetup n true req size = .ok sizes) (m : Nat) :
    (∀ i s, RunsCases n true sizes i s → s ≤ m) ↔ size ≤ m * (n - 1) + 1 := by
  obtain ⟨_, _, hs⟩ := doeSetup_ok h
  rcases doeSizes_cases hs with ⟨h1, _⟩ | ⟨_, _, r, rfl, hl, hr⟩ | ⟨_, hb, _⟩
  · omega
  · obtain ⟨k, rfl⟩ : ∃ k, n = k + 1 := ⟨n - 1, by omega⟩
    simp only [Nat.add_sub_cancel] at hl hr ⊢
    have hd : (size - 1) / k * k + (size - 1) % k = size - 1 := Nat.div_add_mod' (size - 1) k
    have hlt : (size - 1) % k < k := Nat.mod_lt _ (by omega)
    constructor
    · intro hall
      have h0 : r[0]? = some (r[0]'(by omega)) := List.getElem?_eq_getElem (by omega)
      have hle : r[0]'(by omega) ≤ m := hall 1 _ ⟨by rw [List.getElem?_cons_succ]; exact h0, by omega⟩
      have he := hr 0 _ h0
      have hmul : ∀ a b : Nat, a ≤ b → a * k ≤ b * k := fun a b hab => Nat.mul_le_mul_right k hab
      by_cases hz : (size - 1) % k = 0
      · rw [if_neg (by omega)] at he
        have := hmul ((size - 1) / k) m (by omega)
        omega
      · rw [if_pos (by omega)] at he
        have := hmul ((size - 1) / k + 1) m (by omega)
        rw [Nat.add_mul, Nat.one_mul] at this
        omega
    · rintro hle i s ⟨hi, hrun⟩
      cases i with
      | zero => exact absurd ⟨hn, rfl, rfl⟩ hrun
      | succ i =>
        rw [List.getElem?_cons_succ] at hi
        have he := hr i s hi
        have hq : (size - 1) / k ≤ m := Nat.div_le_of_le_mul (by rw [Nat.mul_comm]; omega)
        by_cases hz : (size - 1) / k = m
        · have h0 : (size - 1) % k = 0 := by rw [hz] at hd; omega
          rw [if_neg (by omega)] at he
          omega
        · split at he <;> omega
  · cases hb

/-- **C188 (when it is refused).** `RuntimeError` exactly if there are fewer processes than the groups need together or more than they can use together. -/
theorem C188_refused (n : Nat) (balance : Bool) (req : Nat × Option Nat) (size : Nat) :
    (∃ e, doeSetup n balance req size = .error e) ↔ size < req.1 * n ∨ ∃ m, req.2 = some m ∧ m * n < size := by
  have hok : ∃ sizes, doeSizes n balance size = .ok sizes := by
    unfold doeSizes
    split
    · exact ⟨_, rfl⟩
    · rename_i hn
      split
      · obtain ⟨a, b, h, _⟩ := evenlyDistribIdxs_eq (n - 1) (size - 1) (by omega)
        rw [h]; exact ⟨_, rfl⟩
      · obtain ⟨a, b, h, _⟩ := evenlyDistribIdxs_eq n size (by omega)
        rw [h]; exact ⟨_, rfl⟩
  constructor
  · rintro ⟨e, h⟩
    unfold doeSetup at h
    split at h
    · rename_i h1
      obtain ⟨mn, mx⟩ := req
      cases mx with
      | none => cases h1
      | some m => exact .inr ⟨m, rfl, by simpa [doeReq, tooManyProcs] using h1⟩
    · split at h
      · rename_i h2; exact .inl h2
      · obtain ⟨sizes, hs⟩ := hok
        rw [hs] at h; cases h
  · intro h
    cases hr : doeSetup n balance req size with
    | error e => exact ⟨e, rfl⟩
    | ok sizes =>
      obtain ⟨h1, h2, _⟩ := doeSetup_ok hr
      rcases h with h | ⟨m, hm, h⟩
      · omega
      · have := h2 m hm; omega

/-- **Refutation: too many with load balancing.** The root can use two processes, there are two groups and four processes. They are accepted; the master takes one, and
the only group that runs cases gets three. -/
theorem C188_balance_refuted : ∃ (n : Nat) (req : Nat × Option Nat) (size : Nat) (sizes : List Nat) (i s m : Nat),
    doeSetup n true req size = .ok sizes ∧ RunsCases n true sizes i s ∧ req.2 = some m ∧ m < s :=
  ⟨2, (1, some 2), 4, [1, 3], 1, 3, 2, by decide, ⟨rfl, by decide⟩, rfl, by decide⟩

/-- The number of groups is corrected from 0 to 1 only after the check: with 0 groups too few processes are accepted, and a root with a limit is refused. -/
theorem finding_zero_groups : doeSetup 0 false (2, none) 1 = .ok [1] ∧ doeSetup 0 false (1, some 1) 1 = .error .RuntimeError := by decide

example : doeSetup 3 false (2, some 3) 8 = .ok [3, 3, 2] ∧ doeSetup 3 true (2, none) 8 = .ok [1, 4, 3] ∧ RunsCases 3 true [1, 4, 3] 2 3 :=
  ⟨by decide, by decide, rfl, by decide⟩

example : doeSetup 3 true (2, some 3) 7 = .ok [1, 3, 3] ∧ 7 ≤ 3 * (3 - 1) + 1 := by decide

example : doeSetup 3 true (2, none) 5 = .error .RuntimeError ∧ doeSetup 3 false (2, some 3) 10 = .error .RuntimeError := by decide

end OpenMDAO
