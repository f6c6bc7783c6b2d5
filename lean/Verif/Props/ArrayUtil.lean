import Verif.Lemmas.ArrayUtil
/-!
# Properties C01 and C02 (`openmdao/util/array_util.py`)
-/
namespace OpenMDAO

/-- Specification of C01: `sizes`/`offsets` describe consecutive blocks, starting at 0 and ending at
`n`, whose lengths differ by at most one, so that each of the `n` items lies in exactly one block. -/
structure IsEvenPartition (p n : Nat) (sizes offsets : List Nat) : Prop where
  sizes_len : sizes.length = p
  offsets_len : offsets.length = p
  first : offsets[0]? = some 0
  consecutive : ∀ i, i + 1 < p → ∀ o s o', offsets[i]? = some o → sizes[i]? = some s →
    offsets[i+1]? = some o' → o' = o + s
  last : ∀ o s, offsets[p-1]? = some o → sizes[p-1]? = some s → o + s = n
  balanced : ∀ s ∈ sizes, ∀ t ∈ sizes, s ≤ t + 1
  covers : ∀ k, k < n → ∃! i : Nat, ∃ o s, offsets[i]? = some o ∧ sizes[i]? = some s ∧ o ≤ k ∧ k < o + s
  nothingElse : ∀ (i o s k : Nat), offsets[i]? = some o → sizes[i]? = some s → o ≤ k → k < o + s → k < n

/-- C01. Work distribution is an even partition, for every number of divisions and items. -/
theorem C01_evenly_distrib_partition (p n : Nat) (hp : 0 < p) :
    ∃ sizes offsets, evenlyDistribIdxs p n = .ok (sizes, offsets) ∧ IsEvenPartition p n sizes offsets := by
  obtain ⟨sizes, offsets, h0, hs, ho, hsz, hof⟩ := evenlyDistribIdxs_eq p n hp
  have hsz' : ∀ i s, sizes[i]? = some s → i < p ∧ s = n / p + if i < n % p then 1 else 0 := by
    intro i s h
    have hi : i < p := by rw [← hs]; exact (List.getElem?_eq_some_iff.mp h).1
    rw [hsz i hi] at h
    exact ⟨hi, by simpa using h.symm⟩
  have hof' : ∀ i o, offsets[i]? = some o → i < p ∧ o = i * (n / p) + min i (n % p) := by
    intro i s h
    have hi : i < p := by rw [← ho]; exact (List.getElem?_eq_some_iff.mp h).1
    rw [hof i hi] at h
    exact ⟨hi, by simpa using h.symm⟩
  have hdm := Nat.div_add_mod n p
  have hml := Nat.mod_lt n hp
  have hmono : ∀ i, i < p → (i+1) * (n/p) + min (i+1) (n%p) ≤ n := by
    intro i hi
    have : (i+1) * (n/p) ≤ p * (n/p) := Nat.mul_le_mul_right _ hi
    omega
  refine ⟨sizes, offsets, h0, hs, ho, ?_, ?_, ?_, ?_, ?_, ?_⟩
  · rw [hof 0 hp]; simp
  · intro i _ o s o' h1 h2 h3
    obtain ⟨_, rfl⟩ := hof' _ _ h1
    obtain ⟨_, rfl⟩ := hsz' _ _ h2
    obtain ⟨_, rfl⟩ := hof' _ _ h3
    rw [Nat.succ_mul]; split <;> omega
  · intro o s h1 h2
    obtain ⟨_, rfl⟩ := hof' _ _ h1
    obtain ⟨_, rfl⟩ := hsz' _ _ h2
    obtain ⟨q, rfl⟩ : ∃ q, p = q + 1 := ⟨p - 1, by omega⟩
    rw [Nat.succ_mul] at hdm
    simp only [Nat.add_sub_cancel]
    split <;> omega
  · intro s hsm t htm
    obtain ⟨i, hi⟩ := List.getElem?_of_mem hsm
    obtain ⟨j, hj⟩ := List.getElem?_of_mem htm
    obtain ⟨_, rfl⟩ := hsz' _ _ hi
    obtain ⟨_, rfl⟩ := hsz' _ _ hj
    split <;> split <;> omega
  · intro k hk
    -- the blocks are [f i, f (i+1)) for the monotone f below
    have hex : ∃ i, i ≤ p ∧ k < i * (n/p) + min i (n%p) := ⟨p, le_refl _, by omega⟩
    classical
    let m := Nat.find hex
    have hm := Nat.find_spec hex
    have hm0 : m ≠ 0 := by
      intro h
      have : k < m * (n/p) + min m (n%p) := hm.2
      rw [h] at this; simp at this
    have hmin : ¬ (m - 1 ≤ p ∧ k < (m-1) * (n/p) + min (m-1) (n%p)) :=
      Nat.find_min hex (by show m - 1 < m; omega)
    have hmp : m ≤ p := hm.1
    refine ⟨m - 1, ⟨_, _, hof _ (by omega), hsz _ (by omega), ?_, ?_⟩, ?_⟩
    · omega
    · have h2 : k < m * (n/p) + min m (n%p) := hm.2
      obtain ⟨q, hq⟩ : ∃ q, m = q + 1 := ⟨m - 1, by omega⟩
      rw [hq] at h2 ⊢
      rw [Nat.succ_mul] at h2
      simp only [Nat.add_sub_cancel]
      split <;> omega
    · rintro j ⟨o, s, h1, h2, h3, h4⟩
      obtain ⟨hj, rfl⟩ := hof' _ _ h1
      obtain ⟨_, rfl⟩ := hsz' _ _ h2
      have h5 : k < (j+1) * (n/p) + min (j+1) (n%p) := by
        rw [Nat.succ_mul]; split at h4 <;> omega
      have h6 : m ≤ j + 1 := Nat.find_min' hex ⟨hj, h5⟩
      by_contra hne
      have h7 : m - 1 < j := by omega
      have h8 : m * (n/p) ≤ j * (n/p) := Nat.mul_le_mul_right _ (by omega)
      have h9 : k < m * (n/p) + min m (n%p) := hm.2
      omega
  · intro i o s k h1 h2 h3 h4
    obtain ⟨hi, rfl⟩ := hof' _ _ h1
    obtain ⟨_, rfl⟩ := hsz' _ _ h2
    have := hmono i hi
    rw [Nat.succ_mul] at this
    split at h4 <;> omega

/-- C01, error branch: zero divisions are refused. -/
theorem C01_evenly_distrib_zero (n : Nat) : evenlyDistribIdxs 0 n = .error .ZeroDivisionError := rfl

example : evenlyDistribIdxs 3 11 = .ok ([4, 4, 3], [0, 4, 8]) := by decide

/-- C02. The converted index object selects exactly the same positions in the same order
(`Idx.positions` is numpy's indexing, defined in `Verif/Model/Numpy.lean`). -/
theorem C02_to_slice_exact (idxs : List Nat) (n : Nat) (h : ∀ k ∈ idxs, k < n) :
    (toSlice idxs).positions n = idxs := by
  cases hc : toSlice idxs with
  | arr l =>
    simp only [Idx.positions]
    match idxs, hc with
    | [], hc => simpa [toSlice] using hc.symm
    | a :: b :: rest, hc =>
      simp only [toSlice] at hc
      split at hc
      · simpa using hc.symm
      · split at hc
        · simpa using hc.symm
        · simp at hc
  | slice s =>
    obtain ⟨d, hd, hstep, hlen, hstop, _, hl⟩ := toSlice_slice_form idxs s hc
    simp only [Idx.positions, PySlice.positions, hstep, hstop]
    rw [filter_range_progression s.start d idxs.length n hd]
    · exact hl.symm
    · intro i hi
      apply h
      rw [hl, List.mem_map]
      exact ⟨i, by simpa using hi, rfl⟩

/-- C02. A slice is only produced for strictly increasing (hence duplicate-free) index arrays, and
never has step 0 (which python would reject). -/
theorem C02_to_slice_only_increasing (idxs : List Nat) (s : PySlice) (h : toSlice idxs = .slice s) :
    idxs.Pairwise (· < ·) ∧ s.step ≠ some 0 := by
  obtain ⟨d, hd, hstep, hlen, hstop, hne, hl⟩ := toSlice_slice_form idxs s h
  refine ⟨?_, hne⟩
  rw [hl]
  refine List.Pairwise.map _ ?_ List.pairwise_lt_range
  intro x y hxy
  have := Nat.mul_lt_mul_of_pos_left hxy hd
  omega

example : (toSlice [2, 5, 8]).positions 9 = [2, 5, 8] ∧ toSlice [2, 5, 8] = .slice ⟨2, 11, some 3⟩ := by
  decide
example : toSlice [2, 5, 9] = .arr [2, 5, 9] := by decide

end OpenMDAO
