import Verif.Model.Gather
import Verif.Spec.Gather
import Verif.Lemmas.Connections
import Mathlib.Data.List.Nodup
import Mathlib.Tactic.Tauto
/-! C59: gathers over processes. -/
namespace OpenMDAO
set_option linter.unusedSectionVars false

variable {κ α : Type} [DecidableEq κ]

theorem mem_needTups (J : LocalJac κ α) (k : κ) (hn : (J.map Prod.fst).Nodup) : k ∈ needTups J ↔ J.lookup k = some [] := by
  simp only [needTups, List.mem_map, List.mem_filter, List.isEmpty_iff]
  constructor
  · rintro ⟨⟨a, b⟩, ⟨h1, h2⟩, rfl⟩
    simp only at h2
    subst h2
    exact (lookup_eq_some_iff_of_nodup J a [] hn).mpr h1
  · intro h
    exact ⟨(k, []), ⟨(lookup_eq_some_iff_of_nodup J k [] hn).mp h, rfl⟩, rfl⟩

theorem mem_hasTups (J : LocalJac κ α) (k : κ) (hn : (J.map Prod.fst).Nodup) :
    k ∈ hasTups J ↔ ∃ v, J.lookup k = some v ∧ v ≠ [] := by
  simp only [hasTups, List.mem_map, List.mem_filter, Bool.not_eq_true', List.isEmpty_eq_false_iff]
  constructor
  · rintro ⟨⟨a, b⟩, ⟨h1, h2⟩, rfl⟩
    exact ⟨b, (lookup_eq_some_iff_of_nodup J a b hn).mpr h1, h2⟩
  · rintro ⟨v, h1, h2⟩
    exact ⟨(k, v), ⟨(lookup_eq_some_iff_of_nodup J k v hn).mp h1, h2⟩, rfl⟩

theorem ownInner (needed : List κ) (J : LocalJac κ α) (iproc rank : Nat) (tups : List κ) (st : List κ × List (κ × List α)) :
    (∀ k, k ∈ (tups.foldl (ownStep needed J iproc rank) st).1 ↔ k ∈ st.1 ∨ (k ∈ tups ∧ k ∈ needed)) ∧
    (∀ k v, (k, v) ∈ (tups.foldl (ownStep needed J iproc rank) st).2 ↔
      (k, v) ∈ st.2 ∨ (rank = iproc ∧ k ∈ tups ∧ k ∈ needed ∧ k ∉ st.1 ∧ J.lookup k = some v)) := by
  induction tups generalizing st with
  | nil => simp
  | cons t ts ih =>
    obtain ⟨i1, i2⟩ := ih (ownStep needed J iproc rank st t)
    rw [List.foldl_cons]
    have s1 : ∀ k, k ∈ (ownStep needed J iproc rank st t).1 ↔ k ∈ st.1 ∨ (k = t ∧ k ∈ needed) := by
      intro k
      unfold ownStep
      split
      · rename_i h
        simp only [List.mem_cons]
        constructor
        · rintro (rfl | h')
          · exact Or.inr ⟨rfl, h.1⟩
          · exact Or.inl h'
        · tauto
      · rename_i h
        constructor
        · exact Or.inl
        · rintro (h' | ⟨rfl, h'⟩)
          · exact h'
          · by_contra hc; exact h ⟨h', hc⟩
    have s2 : ∀ k v, (k, v) ∈ (ownStep needed J iproc rank st t).2 ↔
        (k, v) ∈ st.2 ∨ (rank = iproc ∧ k = t ∧ k ∈ needed ∧ k ∉ st.1 ∧ J.lookup k = some v) := by
      intro k v
      unfold ownStep
      split
      · rename_i h
        simp only
        split
        · rename_i hr
          split
          · rename_i w hw
            simp only [List.mem_append, List.mem_singleton, Prod.mk.injEq]
            constructor
            · rintro (h' | ⟨rfl, rfl⟩)
              · exact Or.inl h'
              · exact Or.inr ⟨hr, rfl, h.1, h.2, hw⟩
            · rintro (h' | ⟨_, rfl, _, _, h'⟩)
              · exact Or.inl h'
              · rw [hw] at h'; exact Or.inr ⟨rfl, (Option.some.inj h').symm⟩
          · rename_i hw
            constructor
            · exact Or.inl
            · rintro (h' | ⟨_, rfl, _, _, h'⟩)
              · exact h'
              · rw [hw] at h'; cases h'
        · rename_i hr
          tauto
      · rename_i h
        constructor
        · exact Or.inl
        · rintro (h' | ⟨_, rfl, h1, h2, _⟩)
          · exact h'
          · exact absurd ⟨h1, h2⟩ h
    constructor
    · intro k
      rw [i1, s1, List.mem_cons]
      tauto
    · intro k v
      rw [i2, s2, s1, List.mem_cons]
      by_cases hk : k = t
      · subst hk; tauto
      · tauto

/-- State of the outer loop after the ranks `s, s+1, …`. -/
theorem ownOuter (needed : List κ) (J : LocalJac κ α) (iproc : Nat) (L : List (List κ)) (s : Nat)
    (st : List κ × List (κ × List α)) :
    (∀ k, k ∈ ((L.zipIdx s).foldl (fun st e => e.1.foldl (ownStep needed J iproc e.2) st) st).1 ↔
      k ∈ st.1 ∨ (k ∈ needed ∧ ∃ T ∈ L, k ∈ T)) ∧
    (∀ k v, (k, v) ∈ ((L.zipIdx s).foldl (fun st e => e.1.foldl (ownStep needed J iproc e.2) st) st).2 ↔
      (k, v) ∈ st.2 ∨ (k ∈ needed ∧ k ∉ st.1 ∧ J.lookup k = some v ∧
        ∃ p T, L[p]? = some T ∧ s + p = iproc ∧ k ∈ T ∧ ∀ p' < p, ∀ T', L[p']? = some T' → k ∉ T')) := by
  induction L generalizing s st with
  | nil => simp
  | cons T L ih =>
    obtain ⟨n1, n2⟩ := ownInner needed J iproc s T st
    obtain ⟨i1, i2⟩ := ih (s + 1) (T.foldl (ownStep needed J iproc s) st)
    rw [List.zipIdx_cons, List.foldl_cons]
    constructor
    · intro k
      rw [i1, n1]
      simp only [List.mem_cons, exists_eq_or_imp]
      tauto
    · intro k v
      rw [i2, n2, n1]
      constructor
      · rintro ((h | ⟨h1, h2, h3, h4, h5⟩) | ⟨h1, h2, h3, p, T', h4, h5, h6, h7⟩)
        · exact Or.inl h
        · exact Or.inr ⟨h3, h4, h5, 0, T, rfl, by omega, h2, by simp⟩
        · push Not at h2
          refine Or.inr ⟨h1, h2.1, h3, p + 1, T', h4, by omega, h6, ?_⟩
          intro p' hp' T'' hT''
          cases p' with
          | zero =>
            simp only [List.getElem?_cons_zero, Option.some.injEq] at hT''
            subst hT''
            intro hk
            exact h2.2 hk h1
          | succ p' => exact h7 p' (by omega) T'' hT''
      · rintro (h | ⟨h1, h2, h3, p, T', h4, h5, h6, h7⟩)
        · exact Or.inl (Or.inl h)
        · cases p with
          | zero =>
            simp only [List.getElem?_cons_zero, Option.some.injEq] at h4
            subst h4
            exact Or.inl (Or.inr ⟨by omega, h6, h1, h2, h3⟩)
          | succ p =>
            refine Or.inr ⟨h1, ?_, h3, p, T', h4, by omega, h6, ?_⟩
            · push Not
              refine ⟨h2, fun hk => absurd hk (h7 0 (by omega) T rfl)⟩
            · intro p' hp' T'' hT''
              exact h7 (p' + 1) (by omega) T'' (by simpa using hT'')

theorem mem_neededSet (Js : List (LocalJac κ α)) (hn : ∀ J ∈ Js, (J.map Prod.fst).Nodup) (k : κ) :
    k ∈ neededSet Js ↔ Needed Js k := by
  simp only [neededSet, List.mem_flatten, List.mem_map, Needed]
  constructor
  · rintro ⟨_, ⟨J, hJ, rfl⟩, hk⟩
    exact ⟨J, hJ, (mem_needTups J k (hn J hJ)).mp hk⟩
  · rintro ⟨J, hJ, hk⟩
    exact ⟨_, ⟨J, hJ, rfl⟩, (mem_needTups J k (hn J hJ)).mpr hk⟩

/-- A process sends exactly the needed entries of which it is the lowest holder. -/
theorem mem_ownedVals (Js : List (LocalJac κ α)) (hn : ∀ J ∈ Js, (J.map Prod.fst).Nodup) (r : Nat) (k : κ) (v : List α) :
    (k, v) ∈ ownedVals Js r ↔ Needed Js k ∧ LowestHolder Js r k v := by
  obtain ⟨_, h⟩ := ownOuter (neededSet Js) (Js.getD r []) r (Js.map hasTups) 0 ([], [])
  rw [ownedVals, h k v, mem_neededSet Js hn]
  simp only [List.not_mem_nil, false_or, not_false_eq_true, true_and, Nat.zero_add]
  have hJ : ∀ (p : Nat) (T : List κ), (Js.map hasTups)[p]? = some T ↔ ∃ J, Js[p]? = some J ∧ T = hasTups J := by
    intro p T
    rw [List.getElem?_map]
    cases Js[p]? <;> simp [eq_comm]
  have hold : ∀ (p : Nat) (T : List κ), (Js.map hasTups)[p]? = some T → (k ∈ T ↔ ∃ w, Holds Js p k w) := by
    intro p T hT
    obtain ⟨J, h1, rfl⟩ := (hJ p T).mp hT
    rw [mem_hasTups J k (hn J (List.mem_of_getElem? h1))]
    constructor
    · rintro ⟨w, a, b⟩; exact ⟨w, J, h1, a, b⟩
    · rintro ⟨w, J', h1', a, b⟩
      rw [h1] at h1'; cases h1'; exact ⟨w, a, b⟩
  constructor
  · rintro ⟨h1, h2, p, T, h3, rfl, h4, h5⟩
    refine ⟨h1, ?_, ?_⟩
    · obtain ⟨w, J, a, b, c⟩ := (hold p T h3).mp h4
      have : Js.getD p [] = J := by simp [List.getD, a]
      rw [this, b] at h2
      cases h2
      exact ⟨J, a, b, c⟩
    · intro r' hr' w hw
      obtain ⟨J', a, _, _⟩ := hw
      have hT : (Js.map hasTups)[r']? = some (hasTups J') := (hJ _ _).mpr ⟨J', a, rfl⟩
      exact h5 r' hr' _ hT ((hold r' _ hT).mpr ⟨w, J', a, by assumption, by assumption⟩)
  · rintro ⟨h1, ⟨J, a, b, c⟩, h3⟩
    have hT : (Js.map hasTups)[r]? = some (hasTups J) := (hJ _ _).mpr ⟨J, a, rfl⟩
    refine ⟨h1, by simp [List.getD, a, b], r, hasTups J, hT, rfl, (hold r _ hT).mpr ⟨v, J, a, b, c⟩, ?_⟩
    intro p' hp' T' hT' hk
    obtain ⟨w, hw⟩ := (hold p' T' hT').mp hk
    exact h3 p' hp' w hw

theorem foldl_dictSet_lookup (vals : List (κ × List α)) (J : LocalJac κ α) (k : κ) :
    (∀ v, (k, v) ∉ vals) → (vals.foldl (fun J x => dictSet J x.1 x.2) J).lookup k = J.lookup k := by
  induction vals generalizing J with
  | nil => simp
  | cons e vals ih =>
    intro h
    rw [List.foldl_cons, ih _ (fun v hv => h v (by simp [hv])), lookup_dictSet, if_neg]
    intro he
    exact h e.2 (by rw [he]; simp)

theorem foldl_dictSet_lookup_mem (vals : List (κ × List α)) (J : LocalJac κ α) (k : κ) (v : List α)
    (hu : ∀ w, (k, w) ∈ vals → w = v) (h : (k, v) ∈ vals ∨ J.lookup k = some v) :
    (vals.foldl (fun J x => dictSet J x.1 x.2) J).lookup k = some v := by
  induction vals generalizing J with
  | nil => simpa using h
  | cons e vals ih =>
    rw [List.foldl_cons]
    apply ih
    · intro w hw; exact hu w (by simp [hw])
    · by_cases hk : k = e.1
      · right
        rw [lookup_dictSet, if_pos hk]
        have : e.2 = v := hu e.2 (by rw [hk]; simp)
        rw [this]
      · rcases h with h | h
        · left
          rcases List.mem_cons.mp h with h | h
          · rw [← h] at hk; exact absurd rfl hk
          · exact h
        · right
          rw [lookup_dictSet, if_neg hk, h]

/-- The loop over the received values as one list. -/
theorem combined_flat (i : Nat) (J : LocalJac κ α) (rs : List (List (κ × List α) × Nat)) :
    rs.foldl (takeVals i) J =
      ((rs.filter fun e => e.2 ≠ i).flatMap Prod.fst).foldl (fun J x => dictSet J x.1 x.2) J := by
  induction rs generalizing J with
  | nil => rfl
  | cons e rs ih =>
    rw [List.foldl_cons, ih]
    by_cases h : e.2 = i
    · simp [takeVals, h]
    · simp [takeVals, h, List.foldl_append]

theorem mem_combined_flat (Js : List (LocalJac κ α)) (hn : ∀ J ∈ Js, (J.map Prod.fst).Nodup) (i : Nat) (k : κ) (v : List α) :
    (k, v) ∈ ((((List.range Js.length).map (ownedVals Js)).zipIdx.filter fun e => e.2 ≠ i).flatMap Prod.fst) ↔
      ∃ r, r ≠ i ∧ Needed Js k ∧ LowestHolder Js r k v := by
  simp only [List.mem_flatMap, List.mem_filter, decide_eq_true_eq]
  constructor
  · rintro ⟨⟨L, r⟩, ⟨h1, h2⟩, h3⟩
    rw [List.mem_zipIdx_iff_getElem?] at h1
    simp only [List.getElem?_map] at h1
    cases hr : (List.range Js.length)[r]? with
    | none => rw [hr] at h1; simp at h1
    | some r' =>
      rw [hr] at h1
      simp only [Option.map_some, Option.some.injEq] at h1
      have : r = r' := by
        have := List.getElem?_eq_some_iff.mp hr
        obtain ⟨hlt, he⟩ := this
        simpa using he
      subst this
      subst h1
      exact ⟨r, h2, (mem_ownedVals Js hn r k v).mp h3⟩
  · rintro ⟨r, h1, h2⟩
    have hlt : r < Js.length := by
      obtain ⟨J, hJ, _⟩ := h2.2.1
      exact (List.getElem?_eq_some_iff.mp hJ).1
    refine ⟨(ownedVals Js r, r), ⟨?_, h1⟩, (mem_ownedVals Js hn r k v).mpr h2⟩
    rw [List.mem_zipIdx_iff_getElem?]
    simp [hlt]

theorem lowest_unique (Js : List (LocalJac κ α)) (k : κ) (r r' : Nat) (v v' : List α) (h : LowestHolder Js r k v)
    (h' : LowestHolder Js r' k v') : r = r' ∧ v = v' := by
  have : r = r' := by
    rcases Nat.lt_trichotomy r r' with hl | hl | hl
    · exact absurd h.1 (h'.2 r hl v)
    · exact hl
    · exact absurd h'.1 (h.2 r' hl v')
  subst this
  obtain ⟨J, a, b, _⟩ := h.1
  obtain ⟨J', a', b', _⟩ := h'.1
  rw [a] at a'; cases a'; rw [b] at b'; cases b'
  exact ⟨rfl, rfl⟩

/-- **C59, needed entries.** When some process lists an entry without having it, afterwards every process has the value of the
lowest-ranked process that had it, including processes that had another value of their own or did not list the entry. -/
theorem C59_needed (Js : List (LocalJac κ α)) (hn : ∀ J ∈ Js, (J.map Prod.fst).Nodup) (k : κ) (r : Nat) (v : List α)
    (hneed : Needed Js k) (h : LowestHolder Js r k v) (i : Nat) (hi : i < Js.length) :
    (combinedJac Js i).lookup k = some v := by
  have hne : neededSet Js ≠ [] := by
    intro hc
    have := (mem_neededSet Js hn k).mpr hneed
    rw [hc] at this; simp at this
  rw [combinedJac, if_neg hne, combined_flat]
  apply foldl_dictSet_lookup_mem
  · intro w hw
    obtain ⟨r', _, _, h'⟩ := (mem_combined_flat Js hn i k w).mp hw
    exact (lowest_unique Js k r' r w v h' h).2
  · by_cases hr : r = i
    · right
      subst hr
      obtain ⟨J, a, b, _⟩ := h.1
      simp [List.getD, a, b]
    · left
      exact (mem_combined_flat Js hn i k v).mpr ⟨r, hr, hneed, h⟩

/-- **C59, other entries.** An entry that nobody lists as missing, or that nobody has, is left as it is on every process. -/
theorem C59_untouched (Js : List (LocalJac κ α)) (hn : ∀ J ∈ Js, (J.map Prod.fst).Nodup) (k : κ)
    (h : ¬ Needed Js k ∨ ∀ r v, ¬ Holds Js r k v) (i : Nat) (J : LocalJac κ α) (hJ : Js[i]? = some J) :
    (combinedJac Js i).lookup k = J.lookup k := by
  have hg : Js.getD i [] = J := by simp [List.getD, hJ]
  rw [combinedJac]
  split
  · rw [hg]
  · rw [combined_flat, foldl_dictSet_lookup, hg]
    intro v hv
    obtain ⟨r, _, h1, h2⟩ := (mem_combined_flat Js hn i k v).mp hv
    rcases h with h | h
    · exact h h1
    · exact h r v h2.1

/-- **C59, all processes agree** on every entry that some process lists as missing, and on every entry which they agreed on
before. Missing from the full claim: an entry that nobody lists as missing but on which processes disagree, see
`C59_duplicates_refuted`. -/
theorem C59_identical_partial (Js : List (LocalJac κ α)) (hn : ∀ J ∈ Js, (J.map Prod.fst).Nodup) (k : κ) (i j : Nat)
    (Ji Jj : LocalJac κ α) (hi : Js[i]? = some Ji) (hj : Js[j]? = some Jj)
    (h : (Needed Js k ∧ ∃ r v, Holds Js r k v) ∨ Ji.lookup k = Jj.lookup k) :
    (combinedJac Js i).lookup k = (combinedJac Js j).lookup k := by
  classical
  by_cases hh : Needed Js k ∧ ∃ r v, Holds Js r k v
  · obtain ⟨hneed, hr⟩ := hh
    have hex : ∃ r, ∃ v, Holds Js r k v := hr
    obtain ⟨v, hv⟩ := Nat.find_spec hex
    have hlow : LowestHolder Js (Nat.find hex) k v := ⟨hv, fun r' hr' w hw => Nat.find_min hex hr' ⟨w, hw⟩⟩
    rw [C59_needed Js hn k _ v hneed hlow i (List.getElem?_eq_some_iff.mp hi).1,
      C59_needed Js hn k _ v hneed hlow j (List.getElem?_eq_some_iff.mp hj).1]
  · rcases h with h | h
    · exact absurd h hh
    · have h' : ¬ Needed Js k ∨ ∀ r v, ¬ Holds Js r k v := by
        by_cases hneed : Needed Js k
        · right; intro r v hv; exact hh ⟨hneed, r, v, hv⟩
        · exact Or.inl hneed
      rw [C59_untouched Js hn k h' i Ji hi, C59_untouched Js hn k h' j Jj hj, h]

/-- Two processes with different values of an entry that nobody lists as missing (here process 1 needs another entry): both keep their
own, so the result is not that of the lowest rank and not the same on both. -/
theorem C59_duplicates_refuted : ∃ (Js : List (LocalJac String ℕ)), (∀ J ∈ Js, (J.map Prod.fst).Nodup) ∧
    LowestHolder Js 0 "f" [1] ∧ (combinedJac Js 0).lookup "f" = some [1] ∧ (combinedJac Js 1).lookup "f" = some [2] := by
  refine ⟨[[("f", [1]), ("g", [5])], [("f", [2]), ("g", [])]], by decide, ⟨⟨_, rfl, by decide, by decide⟩, ?_⟩, by decide, by decide⟩
  intro r' hr'; omega

/-- Three processes: entry "f" is held by 1 and 2 with different values and missing on 0: everybody gets the value of process 1. -/
example : (∀ i < 3, (combinedJac [[("f", [])], [("f", [3])], [("f", [4])]] i).lookup "f" = some [3]) ∧
    Needed [[("f", ([] : List ℕ))], [("f", [3])], [("f", [4])]] "f" := by
  refine ⟨by decide, [("f", [])], by decide, by decide⟩

/-! ## Owning ranks -/

theorem ownerInner (rank : Nat) (vs : List κ) (ranks : List (κ × Nat)) (k : κ) :
    (vs.foldl (ownerStep rank) ranks).lookup k =
      match ranks.lookup k with
      | some r => some r
      | none => if k ∈ vs then some rank else none := by
  induction vs generalizing ranks with
  | nil =>
    rw [List.foldl_nil]
    split
    · assumption
    · rename_i h; rw [h]; simp
  | cons v vs ih =>
    rw [List.foldl_cons, ih]
    have hl : (ownerStep rank ranks v).lookup k =
        match ranks.lookup k with
        | some r => some r
        | none => if k = v then some rank else none := by
      unfold ownerStep
      split
      · rename_i h
        cases hk : ranks.lookup k with
        | some r => rfl
        | none =>
          have : k ≠ v := by
            rintro rfl
            have := (lookup_isSome_iff_mem_keys ranks k).mpr h
            rw [hk] at this; simp at this
          simp [this]
      · rename_i h
        rw [List.lookup_append]
        cases hk : ranks.lookup k with
        | some r => simp
        | none =>
          by_cases hkv : k = v
          · subst hkv; simp [List.lookup_cons]
          · have : (k == v) = false := by simpa using hkv
            simp [List.lookup_cons, hkv, this]
    rw [hl]
    cases hk : ranks.lookup k with
    | some r => simp
    | none =>
      by_cases hkv : k = v
      · simp [hkv]
      · simp [hkv]

theorem ownerOuter (L : List (List κ)) (s : Nat) (ranks : List (κ × Nat)) (k : κ) (r : Nat) :
    ((L.zipIdx s).foldl (fun ranks e => e.1.foldl (ownerStep e.2) ranks) ranks).lookup k = some r ↔
      ranks.lookup k = some r ∨ (ranks.lookup k = none ∧
        ∃ p T, L[p]? = some T ∧ r = s + p ∧ k ∈ T ∧ ∀ p' < p, ∀ T', L[p']? = some T' → k ∉ T') := by
  induction L generalizing s ranks with
  | nil => simp
  | cons T L ih =>
    rw [List.zipIdx_cons, List.foldl_cons, ih (s + 1), ownerInner]
    cases hk : ranks.lookup k with
    | some r' => simp
    | none =>
      simp only [reduceCtorEq, false_or, true_and]
      by_cases hT : k ∈ T
      · simp only [hT, if_true, Option.some.injEq, reduceCtorEq, false_and, or_false]
        constructor
        · rintro rfl
          exact ⟨0, T, rfl, by omega, hT, by simp⟩
        · rintro ⟨p, T', h1, h2, h3, h4⟩
          cases p with
          | zero => omega
          | succ p => exact absurd hT (h4 0 (by omega) T rfl)
      · simp only [hT, if_false, reduceCtorEq, true_and, false_or]
        constructor
        · rintro ⟨p, T', h1, h2, h3, h4⟩
          refine ⟨p + 1, T', h1, by omega, h3, ?_⟩
          intro p' hp' T'' hT''
          cases p' with
          | zero =>
            simp only [List.getElem?_cons_zero, Option.some.injEq] at hT''
            subst hT''; exact hT
          | succ p' => exact h4 p' (by omega) T'' (by simpa using hT'')
        · rintro ⟨p, T', h1, h2, h3, h4⟩
          cases p with
          | zero =>
            simp only [List.getElem?_cons_zero, Option.some.injEq] at h1
            subst h1; exact absurd h3 hT
          | succ p =>
            refine ⟨p, T', by simpa using h1, by omega, h3, ?_⟩
            intro p' hp' T'' hT''
            exact h4 (p' + 1) (by omega) T'' (by simpa using hT'')

/-- **C59, ownership.** The owner of a variable is the lowest rank on which it is local; a variable that is local nowhere has no
owner. -/
theorem C59_owner (locals : List (List κ)) (v : κ) (r : Nat) :
    (owningRanks locals).lookup v = some r ↔
      (∃ T, locals[r]? = some T ∧ v ∈ T) ∧ ∀ r' < r, ∀ T, locals[r']? = some T → v ∉ T := by
  rw [owningRanks, ownerOuter]
  simp only [List.lookup_nil, reduceCtorEq, false_or, true_and, Nat.zero_add]
  constructor
  · rintro ⟨p, T, h1, rfl, h2, h3⟩
    exact ⟨⟨T, h1, h2⟩, h3⟩
  · rintro ⟨⟨T, h1, h2⟩, h3⟩
    exact ⟨r, T, h1, rfl, h2, h3⟩

/-- Every variable that is local somewhere has an owner. -/
theorem C59_owner_exists (locals : List (List κ)) (v : κ) :
    (∃ r, (owningRanks locals).lookup v = some r) ↔ ∃ T ∈ locals, v ∈ T := by
  constructor
  · rintro ⟨r, h⟩
    obtain ⟨⟨T, h1, h2⟩, _⟩ := (C59_owner locals v r).mp h
    exact ⟨T, List.mem_of_getElem? h1, h2⟩
  · rintro ⟨T, hT, hv⟩
    classical
    obtain ⟨p, hp⟩ := List.mem_iff_getElem?.mp hT
    have hex : ∃ r, ∃ T, locals[r]? = some T ∧ v ∈ T := ⟨p, T, hp, hv⟩
    exact ⟨Nat.find hex, (C59_owner locals v _).mpr ⟨Nat.find_spec hex,
      fun r' hr' T' h1 h2 => Nat.find_min hex hr' ⟨T', h1, h2⟩⟩⟩

example : (owningRanks [["a"], ["b", "a"], ["c", "b"]]).lookup "b" = some 1 := by decide

end OpenMDAO
