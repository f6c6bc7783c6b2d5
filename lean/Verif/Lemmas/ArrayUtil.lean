import Verif.Model.ArrayUtil
import Mathlib.Tactic.Ring
import Mathlib.Tactic.Linarith
import Mathlib.Data.List.Sort
/-! Helper lemmas for C01 / C02. -/
namespace OpenMDAO

theorem cumsumFrom_length (acc : Nat) (l : List Nat) : (cumsumFrom acc l).length = l.length := by
  induction l generalizing acc with
  | nil => rfl
  | cons x xs ih => simp [cumsumFrom, ih]

theorem cumsumFrom_getElem? (acc : Nat) (l : List Nat) (i : Nat) (h : i < l.length) :
    (cumsumFrom acc l)[i]? = some (acc + (l.take (i+1)).sum) := by
  induction l generalizing acc i with
  | nil => simp at h
  | cons x xs ih =>
    cases i with
    | zero => simp [cumsumFrom]
    | succ i =>
      simp only [List.length_cons] at h
      simp only [cumsumFrom, List.getElem?_cons_succ]
      rw [ih _ _ (by omega)]
      simp [Nat.add_assoc]

theorem bumpFirst_length (k : Nat) (l : List Nat) : (bumpFirst k l).length = l.length := by
  induction l generalizing k with
  | nil => cases k <;> rfl
  | cons x xs ih => cases k <;> simp [bumpFirst, ih]

theorem bumpFirst_replicate_getElem? (k p b i : Nat) (h : i < p) :
    (bumpFirst k (List.replicate p b))[i]? = some (b + if i < k then 1 else 0) := by
  induction p generalizing k i with
  | zero => omega
  | succ p ih =>
    cases k with
    | zero => simp [bumpFirst, h]
    | succ k =>
      rw [List.replicate_succ, bumpFirst]
      cases i with
      | zero => simp
      | succ i => simp [ih k i (by omega)]

theorem bumpFirst_replicate_take_sum (k p b i : Nat) (h : i ≤ p) :
    ((bumpFirst k (List.replicate p b)).take i).sum = i * b + min i k := by
  induction i with
  | zero => simp
  | succ i ih =>
    have h1 := bumpFirst_replicate_getElem? k p b i (by omega)
    rw [List.take_add_one, List.sum_append, ih (by omega), h1]
    simp only [Option.toList_some, List.sum_cons, List.sum_nil, Nat.succ_mul]
    split <;> omega

/-- closed form of the result of `evenlyDistribIdxs` -/
theorem evenlyDistribIdxs_eq (p n : Nat) (hp : 0 < p) :
    ∃ sizes offsets, evenlyDistribIdxs p n = .ok (sizes, offsets) ∧ sizes.length = p ∧
      offsets.length = p ∧
      (∀ i, i < p → sizes[i]? = some (n / p + if i < n % p then 1 else 0)) ∧
      (∀ i, i < p → offsets[i]? = some (i * (n / p) + min i (n % p))) := by
  refine ⟨_, _, by simp only [evenlyDistribIdxs, Nat.ne_of_gt hp, if_false]; rfl, ?_, ?_, ?_, ?_⟩
  · simp [bumpFirst_length]
  · simp [cumsum, cumsumFrom_length, bumpFirst_length]; omega
  · intro i hi; exact bumpFirst_replicate_getElem? _ _ _ _ hi
  · intro i hi
    cases i with
    | zero => simp
    | succ i =>
      rw [List.getElem?_cons_succ, List.getElem?_dropLast]
      simp only [cumsum, cumsumFrom_length, bumpFirst_length, List.length_replicate]
      rw [if_pos (by omega), cumsumFrom_getElem? _ _ _ (by simp [bumpFirst_length]; omega),
        bumpFirst_replicate_take_sum _ _ _ _ (by omega)]
      simp

theorem strideBroken_false_iff (d : Int) (a : Nat) (l : List Nat) :
    strideBroken d (a :: l) = false ↔
      ∀ i, i < l.length → ((a :: l)[i+1]?.map (Int.ofNat)) = some ((a : Int) + d * (i+1)) := by
  induction l generalizing a with
  | nil => simp [strideBroken]
  | cons b l ih =>
    simp only [strideBroken, Bool.or_eq_false_iff, bne_eq_false_iff_eq, ih b]
    constructor
    · rintro ⟨h1, h2⟩ i hi
      cases i with
      | zero => simp; omega
      | succ i =>
        have := h2 i (by simpa using hi)
        simp only [List.getElem?_cons_succ] at this ⊢
        rw [this]; congr 1; push_cast; linarith
    · intro h
      have h0 : (b : Int) = a + d := by simpa using h 0 (by simp)
      refine ⟨by omega, ?_⟩
      intro i hi
      have := h (i+1) (by simpa using hi)
      simp only [List.getElem?_cons_succ] at this ⊢
      rw [this]; congr 1; push_cast; linarith

/-- an arithmetic progression, written out -/
theorem toSlice_slice_form (idxs : List Nat) (s : PySlice) (h : toSlice idxs = .slice s) :
    ∃ d, 0 < d ∧ s.step.getD 1 = d ∧ 0 < idxs.length ∧ s.stop = s.start + idxs.length * d ∧
      s.step ≠ some 0 ∧ idxs = (List.range idxs.length).map (fun i => s.start + d * i) := by
  match idxs, h with
  | [a], h =>
    simp only [toSlice, Idx.slice.injEq] at h
    subst h
    exact ⟨1, by simp [List.range_succ]⟩
  | a :: b :: rest, h =>
    simp only [toSlice] at h
    split at h
    · simp at h
    · split at h
      · simp at h
      · rename_i hpos hbr
        simp only [Idx.slice.injEq] at h
        have hbr' : strideBroken ((b : Int) - a) (a :: b :: rest) = false := by simpa using hbr
        rw [strideBroken_false_iff] at hbr'
        obtain ⟨d, hd⟩ : ∃ d : Nat, (b : Int) - a = d := ⟨((b : Int) - a).toNat, by omega⟩
        rw [hd] at hbr' hpos h
        have hlist : a :: b :: rest =
            (List.range (a :: b :: rest).length).map (fun i => a + d * i) := by
          apply List.ext_getElem?
          intro i
          by_cases hi : i < (a :: b :: rest).length
          · rw [List.getElem?_map, List.getElem?_range hi]
            cases i with
            | zero => simp
            | succ i =>
              have h3 := hbr' i (by simpa using hi)
              cases h4 : (a :: b :: rest)[i+1]? with
              | none => simp [h4] at h3
              | some v =>
                rw [h4] at h3
                simp only [Option.map_some, Option.some.injEq] at h3 ⊢
                zify
                rw [← h3]; rfl
          · rw [List.getElem?_eq_none (by omega), List.getElem?_eq_none (by simp at hi ⊢; omega)]
        have hlast : (b :: rest).getLast (by simp) = a + d * (rest.length + 1) := by
          have h5 : (a :: b :: rest).getLast (by simp) = (b :: rest).getLast (by simp) := by simp
          rw [← h5, List.getLast_eq_getElem]
          have h6 : (a :: b :: rest)[rest.length + 1]? = some (a + d * (rest.length + 1)) := by
            rw [hlist, List.getElem?_map, List.getElem?_range (by simp)]
            simp
          rw [List.getElem?_eq_some_iff] at h6
          obtain ⟨_, h6⟩ := h6
          simpa using h6
        subst h
        refine ⟨d, by omega, by simp, by simp, ?_, by simp; omega, by simpa using hlist⟩
        simp only [hlast, Int.toNat_natCast, List.length_cons]
        ring

theorem filter_range_progression (a d len n : Nat) (hd : 0 < d)
    (hn : ∀ i, i < len → a + d * i < n) :
    (List.range n).filter (fun k => a ≤ k && k < a + len * d && (k - a) % d == 0)
      = (List.range len).map (fun i => a + d * i) := by
  apply List.Perm.eq_of_pairwise' (r := (· < ·))
  · exact List.Pairwise.filter _ List.pairwise_lt_range
  · refine List.Pairwise.map _ ?_ List.pairwise_lt_range
    intro x y hxy
    have := Nat.mul_lt_mul_of_pos_left hxy hd
    omega
  · rw [List.perm_ext_iff_of_nodup (List.Nodup.filter _ List.nodup_range)]
    · intro k
      simp only [List.mem_filter, List.mem_range, Bool.and_eq_true, decide_eq_true_eq, beq_iff_eq,
        List.mem_map]
      constructor
      · rintro ⟨hk, ⟨h1, h2⟩, h3⟩
        refine ⟨(k - a) / d, ?_, ?_⟩
        · rw [Nat.div_lt_iff_lt_mul hd]; omega
        · have := Nat.div_add_mod (k - a) d
          omega
      · rintro ⟨i, hi, rfl⟩
        refine ⟨hn i hi, ⟨by omega, ?_⟩, ?_⟩
        · have := Nat.mul_lt_mul_of_pos_right hi hd
          rw [Nat.mul_comm d i]; omega
        · simp
    · refine List.Nodup.map ?_ List.nodup_range
      intro x y hxy
      simp only at hxy
      have : d * x = d * y := by omega
      exact Nat.eq_of_mul_eq_mul_left hd this

end OpenMDAO
