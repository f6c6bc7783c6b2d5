import Verif.Spec.ParGroup
import Mathlib.Tactic.Linarith
import Mathlib.Tactic.Ring
import Mathlib.Data.List.Nodup
/-! Helper lemmas on processor allocation. -/
namespace OpenMDAO
set_option linter.unusedSectionVars false

theorem capAt_le (k : Nat) (mx : Option Nat) : capAt k mx ≤ k := by
  cases mx <;> simp [capAt]

theorem capAt_mono {k l : Nat} (h : k ≤ l) (mx : Option Nat) : capAt k mx ≤ capAt l mx := by
  cases mx with
  | none => simpa [capAt] using h
  | some m => simp only [capAt, Nat.min_def]; split <;> split <;> omega

theorem belowMax_some {m n : Nat} : belowMax (some m) n = true ↔ n < m := by simp [belowMax]

theorem capAt_succ_of_below {k : Nat} {mx : Option Nat} (h : belowMax mx (capAt k mx) = true) : capAt (k + 1) mx = capAt k mx + 1 := by
  cases mx with
  | none => simp [capAt]
  | some m =>
    rw [belowMax_some] at h
    simp only [capAt, Nat.min_def] at *
    split at h <;> split <;> omega

theorem capAt_succ_of_not {k : Nat} {mx : Option Nat} (h : ¬ belowMax mx (capAt k mx) = true) : capAt (k + 1) mx = capAt k mx := by
  cases mx with
  | none => simp [belowMax] at h
  | some m =>
    rw [belowMax_some] at h
    simp only [capAt, Nat.min_def] at *
    split at h <;> split <;> omega

/-- The first `j` subsystems have had `k + 1` rounds, the others `k`. -/
def level (mxs : List (Option Nat)) (k j : Nat) : List Nat :=
  (mxs.take j).map (capAt (k + 1)) ++ (mxs.drop j).map (capAt k)

theorem level_zero (mxs : List (Option Nat)) (k : Nat) : level mxs k 0 = mxs.map (capAt k) := by simp [level]

theorem level_full (mxs : List (Option Nat)) (k : Nat) : level mxs k mxs.length = mxs.map (capAt (k + 1)) := by simp [level]

theorem level_cons (mx : Option Nat) (ms : List (Option Nat)) (k j : Nat) : level (mx :: ms) k (j + 1) = capAt (k + 1) mx :: level ms k j := by simp [level]

theorem rrPass_level (limit k : Nat) : ∀ (mxs : List (Option Nat)) (n : Nat), n < limit →
    ∃ j, j ≤ mxs.length ∧ (rrPass limit mxs (mxs.map (capAt k)) n).1 = level mxs k j ∧
      (rrPass limit mxs (mxs.map (capAt k)) n).2 + (mxs.map (capAt k)).sum = n + (level mxs k j).sum ∧
      (rrPass limit mxs (mxs.map (capAt k)) n).2 ≤ limit ∧
      ((rrPass limit mxs (mxs.map (capAt k)) n).2 = limit ∨ j = mxs.length) := by
  intro mxs
  induction mxs with
  | nil => intro n hn; exact ⟨0, by simp, by simp [rrPass, level], by simp [rrPass, level], by simp [rrPass]; omega, Or.inr rfl⟩
  | cons mx ms ih =>
    intro n hn
    by_cases hb : belowMax mx (capAt k mx) = true
    · have hc := capAt_succ_of_below hb
      by_cases hl : n + 1 = limit
      · refine ⟨1, by simp, ?_, ?_, ?_, ?_⟩
        · simp [rrPass, hb, hl, level, hc]
        · simp [rrPass, hb, hl, level, hc]; omega
        · simp [rrPass, hb, hl]
        · left; simp [rrPass, hb, hl]
      · obtain ⟨j, hj, h1, h2, h3, h4⟩ := ih (n + 1) (by omega)
        refine ⟨j + 1, by simpa using hj, ?_, ?_, ?_, ?_⟩
        · simp [rrPass, hb, hl, level_cons, hc, h1]
        · simp only [List.map_cons, rrPass, hb, hl, if_true, if_false, level_cons, List.sum_cons, hc]; omega
        · simpa [rrPass, hb, hl] using h3
        · rcases h4 with h4 | h4
          · left; simpa [rrPass, hb, hl] using h4
          · right; simp [h4]
    · have hc := capAt_succ_of_not hb
      obtain ⟨j, hj, h1, h2, h3, h4⟩ := ih n hn
      refine ⟨j + 1, by simpa using hj, ?_, ?_, ?_, ?_⟩
      · simp [rrPass, hb, level_cons, hc, h1]
      · simp only [List.map_cons, rrPass, hb, level_cons, List.sum_cons, hc]; simp only [Bool.false_eq_true, if_false]; omega
      · simpa [rrPass, hb] using h3
      · rcases h4 with h4 | h4
        · left; simpa [rrPass, hb] using h4
        · right; simp [h4]

theorem sum_map_le {α : Type} (l : List α) (f g : α → Nat) (h : ∀ a ∈ l, f a ≤ g a) : (l.map f).sum ≤ (l.map g).sum := by
  induction l with
  | nil => simp
  | cons a l ih =>
    simp only [List.map_cons, List.sum_cons]
    have := h a (by simp)
    have := ih fun b hb => h b (by simp [hb])
    omega

theorem sum_map_lt {α : Type} (l : List α) (f g : α → Nat) (h : ∀ a ∈ l, f a ≤ g a) (hs : ∃ a ∈ l, f a < g a) : (l.map f).sum < (l.map g).sum := by
  induction l with
  | nil => obtain ⟨a, ha, -⟩ := hs; simp at ha
  | cons a l ih =>
    simp only [List.map_cons, List.sum_cons]
    have h1 := h a (by simp)
    have h2 := sum_map_le l f g fun b hb => h b (by simp [hb])
    obtain ⟨b, hb, hlt⟩ := hs
    rcases List.mem_cons.mp hb with rfl | hb
    · omega
    · have := ih (fun b hb => h b (by simp [hb])) ⟨b, hb, hlt⟩; omega

theorem map_eq_of_sum_eq {α : Type} (l : List α) (f g : α → Nat) (h : ∀ a ∈ l, f a ≤ g a) (hs : (l.map f).sum = (l.map g).sum) : ∀ a ∈ l, f a = g a := by
  intro a ha
  by_contra hne
  have := sum_map_lt l f g h ⟨a, ha, by have := h a ha; omega⟩
  omega

/-- The limit is within what the subsystems can take. -/
def LimitOk (limit : Nat) (mxs : List (Option Nat)) : Prop := none ∈ mxs ∨ limit ≤ (mxs.map fun m => m.getD 0).sum

theorem capAt_progress {limit : Nat} {mxs : List (Option Nat)} (hl : LimitOk limit mxs) (k : Nat) (hlt : (mxs.map (capAt k)).sum < limit) :
    (mxs.map (capAt k)).sum < (mxs.map (capAt (k + 1))).sum := by
  apply sum_map_lt
  · intro a _; exact capAt_mono (by omega) a
  · by_contra hc
    push Not at hc
    rcases hl with hl | hl
    · have := hc none hl; simp [capAt] at this
    · have : (mxs.map fun m => m.getD 0).sum ≤ (mxs.map (capAt k)).sum := by
        apply sum_map_le
        intro a ha
        have := hc a ha
        cases a with
        | none => simp
        | some m => simp only [capAt, Nat.min_def, Option.getD_some] at *; split at this <;> split at this <;> split <;> omega
      omega

theorem level_len_le (mxs : List (Option Nat)) (k j : Nat) (hj : j ≤ mxs.length) : (level mxs k j).length = mxs.length := by
  simp [level]; omega

theorem rrLoop_level {limit : Nat} {mxs : List (Option Nat)} (hl : LimitOk limit mxs) : ∀ (fuel k n : Nat), n = (mxs.map (capAt k)).sum → n ≤ limit → limit ≤ n + fuel →
    ∃ k' j, j ≤ mxs.length ∧ (level mxs k' j).sum = limit ∧ rrLoop limit mxs fuel (mxs.map (capAt k), n) = some (level mxs k' j, limit) := by
  intro fuel
  induction fuel with
  | zero =>
    intro k n hn hle hf
    have : n = limit := by omega
    refine ⟨k, 0, by omega, by rw [level_zero, ← hn]; exact this, ?_⟩
    rw [level_zero, ← this]; unfold rrLoop; simp
  | succ f ih =>
    intro k n hn hle hf
    by_cases hlt : n < limit
    · have hp := capAt_progress hl k (by omega)
      obtain ⟨j, hj, h1, h2, h3, h4⟩ := rrPass_level limit k mxs n hlt
      have hstep : rrLoop limit mxs (f + 1) (mxs.map (capAt k), n) = rrLoop limit mxs f (rrPass limit mxs (mxs.map (capAt k)) n) := by
        conv_lhs => unfold rrLoop
        simp [hlt]
      rw [hstep]
      rw [← hn] at h2
      have h2' : (rrPass limit mxs (mxs.map (capAt k)) n).2 = (level mxs k j).sum := by omega
      rcases h4 with h4 | h4
      · refine ⟨k, j, hj, by omega, ?_⟩
        have : rrPass limit mxs (mxs.map (capAt k)) n = (level mxs k j, limit) := Prod.ext h1 h4
        rw [this]; unfold rrLoop; simp
      · subst h4
        rw [level_full] at h1 h2'
        have : rrPass limit mxs (mxs.map (capAt k)) n = (mxs.map (capAt (k + 1)), (mxs.map (capAt (k + 1))).sum) := Prod.ext h1 h2'
        rw [this]
        exact ih (k + 1) _ rfl (by omega) (by omega)
    · have : n = limit := by omega
      refine ⟨k, 0, by omega, by rw [level_zero, ← hn]; exact this, ?_⟩
      rw [level_zero, ← this]; unfold rrLoop; simp

theorem replicate_eq_cap (mxs : List (Option Nat)) : List.replicate mxs.length 0 = mxs.map (capAt 0) := by
  induction mxs with
  | nil => rfl
  | cons a l ih => simp only [List.length_cons, List.replicate_succ, List.map_cons, ih]; cases a <;> simp [capAt]

theorem rrLoop_start {limit : Nat} {mxs : List (Option Nat)} (hl : LimitOk limit mxs) {fuel : Nat} (hf : limit ≤ fuel) :
    ∃ k j, j ≤ mxs.length ∧ (level mxs k j).sum = limit ∧ rrLoop limit mxs fuel (List.replicate mxs.length 0, 0) = some (level mxs k j, limit) := by
  rw [replicate_eq_cap]
  refine rrLoop_level hl fuel 0 0 ?_ (by omega) (by omega)
  rw [← replicate_eq_cap]; simp

/-! ## More fuel does not change the outcome -/

theorem rrLoop_mono {limit : Nat} {mxs : List (Option Nat)} : ∀ {fuel : Nat} {st r}, rrLoop limit mxs fuel st = some r → ∀ {f'}, fuel ≤ f' → rrLoop limit mxs f' st = some r := by
  intro fuel
  induction fuel with
  | zero =>
    intro st r h f' _
    unfold rrLoop at h ⊢
    split at h
    · simp at h
    · rename_i hn; simpa [hn] using h
  | succ f ih =>
    intro st r h f' hf
    unfold rrLoop at h ⊢
    split at h
    · rename_i hc
      obtain ⟨g, rfl⟩ : ∃ g, f' = g + 1 := ⟨f' - 1, by omega⟩
      simp only [hc, if_true]
      exact ih h (by omega)
    · rename_i hn; simpa [hn] using h

theorem growLoop_mono {mxs : List (Option Nat)} : ∀ {fuel : Nat} {st r}, growLoop mxs fuel st = some r → ∀ {f'}, fuel ≤ f' → growLoop mxs f' st = some r := by
  intro fuel
  induction fuel with
  | zero =>
    intro st r h f' _
    unfold growLoop at h ⊢
    split at h
    · simp at h
    · rename_i hn; simpa [hn] using h
  | succ f ih =>
    intro st r h f' hf
    unfold growLoop at h ⊢
    split at h
    · rename_i hc
      obtain ⟨g, rfl⟩ : ∃ g, f' = g + 1 := ⟨f' - 1, by omega⟩
      simp only [hc, if_true]
      exact ih h (by omega)
    · rename_i hn; simpa [hn] using h

/-! ## Limit -/

theorem reqStep_none (subs : List Req) : ∀ (a : Nat), (subs.foldl reqStep (a, none)).2 = none := by
  induction subs with
  | nil => intro a; rfl
  | cons r l ih => intro a; simp only [List.foldl_cons, reqStep]; exact ih _

theorem reqStep_snd (subs : List Req) : ∀ (a b : Nat), (subs.foldl reqStep (a, some b)).2 =
    if none ∈ subs.map Req.max then none else some (b + (subs.map fun r => r.max.getD 0).sum) := by
  induction subs with
  | nil => intro a b; simp
  | cons r l ih =>
    intro a b
    obtain ⟨mn, mx⟩ := r
    cases mx with
    | none => simp only [List.foldl_cons, reqStep, reqStep_none]; simp
    | some m =>
      simp only [List.foldl_cons, reqStep, ih]
      simp only [List.map_cons, List.mem_cons, List.sum_cons, Option.getD_some]
      by_cases h : none ∈ l.map Req.max
      · simp [h]
      · simp [h]; omega

theorem procLimit_eq (size : Nat) (subs : List Req) : procLimit size subs =
    if none ∈ subs.map Req.max then size else Nat.min size ((subs.map fun r => r.max.getD 0).sum) := by
  unfold procLimit parReqProcs
  simp only [reqStep_snd]
  by_cases h : none ∈ subs.map Req.max
  · simp [h]
  · simp only [h, if_false, Nat.zero_add]
    split
    · rename_i h2; split at h2 <;> simp at h2
    · rfl

theorem limitOk_procLimit (size : Nat) (subs : List Req) : LimitOk (procLimit size subs) (subs.map Req.max) := by
  rw [procLimit_eq]
  by_cases h : none ∈ subs.map Req.max
  · exact Or.inl h
  · right; rw [if_neg h, List.map_map]; exact Nat.min_le_right _ _

theorem procLimit_le (size : Nat) (subs : List Req) : procLimit size subs ≤ size := by
  rw [procLimit_eq]; split
  · exact Nat.le_refl _
  · exact Nat.min_le_left _ _

theorem reqStep_fst (subs : List Req) : ∀ (a : Nat × Option Nat), a.1 ≤ (subs.foldl reqStep a).1 ∧ (∀ r ∈ subs, r.min ≤ (subs.foldl reqStep a).1) ∧
    ((subs.foldl reqStep a).1 = a.1 ∨ ∃ r ∈ subs, (subs.foldl reqStep a).1 = r.min) := by
  induction subs with
  | nil => intro a; simp
  | cons r l ih =>
    intro a
    obtain ⟨h1, h2, h3⟩ := ih (reqStep a r)
    have e1 : a.1 ≤ (reqStep a r).1 := by simp only [reqStep]; split <;> omega
    have e2 : r.min ≤ (reqStep a r).1 := by simp only [reqStep]; split <;> omega
    refine ⟨by simp only [List.foldl_cons]; omega, ?_, ?_⟩
    · intro q hq
      rcases List.mem_cons.mp hq with rfl | hq
      · simp only [List.foldl_cons]; omega
      · exact h2 q hq
    · simp only [List.foldl_cons]
      rcases h3 with h3 | ⟨q, hq, h3⟩
      · rw [h3]; simp only [reqStep]; split
        · right; exact ⟨r, by simp, rfl⟩
        · left; rfl
      · right; exact ⟨q, by simp [hq], h3⟩

/-! ## Packing -/

theorem minBucket_mem : ∀ (bs : List Bucket) (b : Bucket), minBucket b bs ∈ b :: bs := by
  intro bs
  induction bs with
  | nil => intro b; simp [minBucket]
  | cons c cs ih =>
    intro b
    simp only [minBucket]
    have := ih (if bucketLt c b then c else b)
    rcases List.mem_cons.mp this with h | h
    · rw [h]; split <;> simp
    · simp [h]

theorem shortest_spec : ∀ (bs : List Bucket) (b : Bucket), (∃ c ∈ b :: bs, c.2.length = shortest b bs) ∧ ∀ c ∈ b :: bs, shortest b bs ≤ c.2.length := by
  intro bs
  induction bs with
  | nil => intro b; simp [shortest]
  | cons c cs ih =>
    intro b
    simp only [shortest]
    by_cases hlt : c.2.length < b.2.length
    · rw [if_pos hlt]
      obtain ⟨⟨d, hd, he⟩, hmin⟩ := ih c
      refine ⟨⟨d, by simp [List.mem_cons.mp hd], he⟩, ?_⟩
      intro e hm
      rcases List.mem_cons.mp hm with rfl | hm
      · have := hmin c (by simp); omega
      · exact hmin e hm
    · rw [if_neg hlt]
      obtain ⟨⟨d, hd, he⟩, hmin⟩ := ih b
      refine ⟨⟨d, ?_, he⟩, ?_⟩
      · rcases List.mem_cons.mp hd with rfl | h
        · simp
        · simp [h]
      · intro e hm
        rcases List.mem_cons.mp hm with rfl | hm
        · exact hmin e (by simp)
        · rcases List.mem_cons.mp hm with rfl | hm
          · have := hmin b (by simp); omega
          · exact hmin e (by simp [hm])

/-- The bucket that is picked is big enough and has as few members as possible among those that are. -/
theorem pickBucket_ok {req : Nat} {bs : List Bucket} (h : ∃ b ∈ bs, req ≤ b.1) :
    ∃ c, pickBucket req bs = .ok c ∧ c ∈ bs ∧ req ≤ c.1 ∧ ∀ d ∈ bs, req ≤ d.1 → c.2.length ≤ d.2.length := by
  unfold pickBucket
  cases hf : bs.filter (fun b => decide (b.1 ≥ req)) with
  | nil =>
    obtain ⟨b, hb, hr⟩ := h
    have : b ∈ bs.filter (fun b => decide (b.1 ≥ req)) := by simp [hb, hr]
    rw [hf] at this; simp at this
  | cons b l =>
    simp only
    obtain ⟨⟨d, hd, he⟩, hmin⟩ := shortest_spec l b
    cases hg : (b :: l).filter (fun c => decide (c.2.length = shortest b l)) with
    | nil =>
      have : d ∈ (b :: l).filter (fun c => decide (c.2.length = shortest b l)) := by rw [List.mem_filter]; exact ⟨hd, by simpa using he⟩
      rw [hg] at this; simp at this
    | cons c cs =>
      simp only
      have hm := minBucket_mem cs c
      rw [← hg, List.mem_filter] at hm
      have hm2 := hm.1
      rw [← hf, List.mem_filter] at hm2
      refine ⟨_, rfl, hm2.1, by simpa using hm2.2, ?_⟩
      intro d hd hr
      have : d ∈ b :: l := by rw [← hf, List.mem_filter]; exact ⟨hd, by simpa using hr⟩
      have := hmin d this
      have h3 := hm.2
      simp only [decide_eq_true_eq] at h3
      omega

theorem nodup_buckets {bs : List Bucket} (hn : (bs.flatMap Prod.snd).Nodup) (hne : ∀ b ∈ bs, b.2 ≠ []) : bs.Nodup := by
  rw [List.nodup_flatMap] at hn
  refine hn.2.imp_of_mem ?_
  intro a b ha hb hd hab
  subst hab
  obtain ⟨x, hx⟩ := List.exists_mem_of_ne_nil _ (hne a ha)
  exact hd hx hx

theorem map_ite_not_mem (b : Bucket) (i : Nat) (l : List Bucket) (h : b ∉ l) : addToBucket b i l = l := by
  induction l with
  | nil => rfl
  | cons c cs ih =>
    simp only [List.mem_cons, not_or] at h
    have h1 : ¬ c = b := fun e => h.1 e.symm
    simp only [addToBucket, List.map_cons, h1, if_false]
    exact congrArg _ (ih h.2)

theorem addToBucket_split {bs : List Bucket} (hn : bs.Nodup) {b : Bucket} (hb : b ∈ bs) (i : Nat) :
    ∃ s t, bs = s ++ b :: t ∧ addToBucket b i bs = s ++ (b.1, b.2 ++ [i]) :: t := by
  obtain ⟨s, t, rfl⟩ := List.append_of_mem hb
  have hs : b ∉ s := fun h => by
    have := (List.nodup_append'.mp hn).2.2 h; simp at this
  have ht : b ∉ t := (List.nodup_cons.mp (List.nodup_append'.mp hn).2.1).1
  refine ⟨s, t, rfl, ?_⟩
  have e1 := map_ite_not_mem b i s hs
  have e2 := map_ite_not_mem b i t ht
  simp only [addToBucket] at e1 e2 ⊢
  rw [List.map_append, List.map_cons, e1, e2]; simp

/-- What holds while the sorted list is packed; `done` are the entries treated so far. -/
structure PackInv (size : Nat) (done : List (Nat × Nat)) (st : List Bucket × Nat) : Prop where
  total : (st.1.map Prod.fst).sum + st.2 = size
  members : (st.1.flatMap Prod.snd).Perm (done.map Prod.snd)
  big : ∀ b ∈ st.1, ∀ i ∈ b.2, ∃ n, (n, i) ∈ done ∧ n ≤ b.1
  nonempty : ∀ b ∈ st.1, b.2 ≠ []
  nodup : (done.map Prod.snd).Nodup

theorem packInv_new {size : Nat} {done : List (Nat × Nat)} {st : List Bucket × Nat} (h : PackInv size done st) {t : Nat × Nat} (ht : t.2 ∉ done.map Prod.snd) (hr : st.2 ≥ t.1) :
    PackInv size (done ++ [t]) (st.1 ++ [(t.1, [t.2])], st.2 - t.1) := by
  obtain ⟨h1, h2, h3, h4, h5⟩ := h
  refine ⟨?_, ?_, ?_, ?_, ?_⟩
  · simp only [List.map_append, List.map_cons, List.map_nil, List.sum_append, List.sum_cons, List.sum_nil]; omega
  · simp only [List.flatMap_append, List.flatMap_cons, List.flatMap_nil, List.map_append, List.map_cons, List.map_nil, List.append_nil]
    exact h2.append_right _
  · intro b hb i hi
    rcases List.mem_append.mp hb with hb | hb
    · obtain ⟨n, hn, hle⟩ := h3 b hb i hi
      exact ⟨n, List.mem_append_left _ hn, hle⟩
    · simp only [List.mem_singleton] at hb; subst hb
      simp only [List.mem_singleton] at hi; subst hi
      exact ⟨t.1, by simp, Nat.le_refl _⟩
  · intro b hb
    rcases List.mem_append.mp hb with hb | hb
    · exact h4 b hb
    · simp only [List.mem_singleton] at hb; subst hb; simp
  · simp only [List.map_append, List.map_cons, List.map_nil]
    rw [List.nodup_append']
    refine ⟨h5, by simp, ?_⟩
    intro a ha ha'; simp only [List.mem_singleton] at ha'; subst ha'; exact ht ha

theorem packInv_add {size : Nat} {done : List (Nat × Nat)} {st : List Bucket × Nat} (h : PackInv size done st) {t : Nat × Nat} (ht : t.2 ∉ done.map Prod.snd)
    {b : Bucket} (hb : b ∈ st.1) (hr : t.1 ≤ b.1) : PackInv size (done ++ [t]) (addToBucket b t.2 st.1, st.2) := by
  obtain ⟨h1, h2, h3, h4, h5⟩ := h
  have hnd := nodup_buckets (h2.nodup_iff.mpr h5) h4
  obtain ⟨s, u, e1, e2⟩ := addToBucket_split hnd hb t.2
  rw [e2]
  rw [e1] at h1 h2 h3 h4
  refine ⟨?_, ?_, ?_, ?_, ?_⟩
  · simpa using h1
  · simp only [List.flatMap_append, List.flatMap_cons, List.map_append, List.map_cons, List.map_nil] at h2 ⊢
    refine List.Perm.trans ?_ (h2.append_right [t.2])
    simp only [List.append_assoc]
    refine List.Perm.append_left _ (List.Perm.append_left _ ?_)
    exact List.perm_append_comm
  · intro c hc i hi
    rcases List.mem_append.mp hc with hc | hc
    · obtain ⟨n, hn, hle⟩ := h3 c (by simp [hc]) i hi
      exact ⟨n, List.mem_append_left _ hn, hle⟩
    · rcases List.mem_cons.mp hc with rfl | hc
      · simp only [List.mem_append, List.mem_singleton] at hi
        rcases hi with hi | rfl
        · obtain ⟨n, hn, hle⟩ := h3 b (by simp) i hi
          exact ⟨n, List.mem_append_left _ hn, hle⟩
        · exact ⟨t.1, by simp, hr⟩
      · obtain ⟨n, hn, hle⟩ := h3 c (by simp [hc]) i hi
        exact ⟨n, List.mem_append_left _ hn, hle⟩
  · intro c hc
    rcases List.mem_append.mp hc with hc | hc
    · exact h4 c (by simp [hc])
    · rcases List.mem_cons.mp hc with rfl | hc
      · simp
      · exact h4 c (by simp [hc])
  · simp only [List.map_append, List.map_cons, List.map_nil]
    rw [List.nodup_append']
    refine ⟨h5, by simp, ?_⟩
    intro a ha ha'; simp only [List.mem_singleton] at ha'; subst ha'; exact ht ha

/-- Member lists only get longer and no bucket disappears. -/
theorem packRest_ok {size : Nat} : ∀ (ts done : List (Nat × Nat)) (st : List Bucket × Nat), PackInv size done st → ((done ++ ts).map Prod.snd).Nodup →
    (∀ t ∈ ts, ∃ b ∈ st.1, t.1 ≤ b.1) → ∃ r, packRest st ts = .ok r ∧ PackInv size (done ++ ts) r ∧ (∀ t ∈ ts, r.2 ≤ st.2) ∧ r.2 ≤ st.2 ∧ ((∀ t ∈ ts, t.1 = 1) → r.2 = st.2 - ts.length) := by
  intro ts
  induction ts with
  | nil => intro done st h _ _; exact ⟨st, rfl, by simpa using h, by simp, Nat.le_refl _, by simp⟩
  | cons t ts ih =>
    intro done st h hnd hbig
    have ht : t.2 ∉ done.map Prod.snd := by
      rw [List.map_append, List.nodup_append'] at hnd
      intro hm; exact hnd.2.2 hm (by simp)
    have hnd' : (((done ++ [t]) ++ ts).map Prod.snd).Nodup := by simpa using hnd
    simp only [packRest]
    by_cases hr : st.2 ≥ t.1
    · have hstep : packStep false st t = .ok (st.1 ++ [(t.1, [t.2])], st.2 - t.1) := by simp [packStep, hr]
      rw [hstep]
      obtain ⟨r, e, hi, _, hle, h1⟩ := ih (done ++ [t]) _ (packInv_new h ht hr) hnd' (fun q hq => by
        obtain ⟨b, hb, hl⟩ := hbig q (by simp [hq]); exact ⟨b, by simp [hb], hl⟩)
      have hle' : r.2 ≤ st.2 := by simp only at hle; omega
      refine ⟨r, e, by simpa using hi, fun _ _ => hle', hle', ?_⟩
      intro hall
      have e1 := h1 fun q hq => hall q (by simp [hq])
      have e2 := hall t (by simp)
      simp only [List.length_cons] at *; omega
    · obtain ⟨c, hc, hm, hl, _⟩ := pickBucket_ok (hbig t (by simp))
      have hstep : packStep false st t = .ok (addToBucket c t.2 st.1, st.2) := by simp [packStep, hr, hc]
      rw [hstep]
      obtain ⟨r, e, hi, _, hle, h1⟩ := ih (done ++ [t]) _ (packInv_add h ht hm hl) hnd' (fun q hq => by
        obtain ⟨b, hb, hl'⟩ := hbig q (by simp [hq])
        simp only [addToBucket, List.mem_map]
        by_cases hbc : b = c
        · exact ⟨_, ⟨b, hb, rfl⟩, by simpa [hbc] using (hbc ▸ hl')⟩
        · exact ⟨_, ⟨b, hb, rfl⟩, by simpa [hbc] using hl'⟩)
      refine ⟨r, e, by simpa using hi, fun _ _ => hle, hle, ?_⟩
      intro hall
      have e1 := h1 fun q hq => hall q (by simp [hq])
      have e2 := hall t (by simp)
      simp only [List.length_cons] at *; omega

theorem sortedReqs_perm (reqs : List Nat) : (sortedReqs reqs).Perm reqs.zipIdx := List.perm_insertionSort _ _

theorem sortedReqs_desc (reqs : List Nat) : (sortedReqs reqs).Pairwise fun a b => b.1 ≤ a.1 := by
  have : Std.Total (fun a b : Nat × Nat => a.1 > b.1 ∨ (a.1 = b.1 ∧ a.2 ≥ b.2)) := ⟨fun a b => by omega⟩
  have : IsTrans (Nat × Nat) (fun a b : Nat × Nat => a.1 > b.1 ∨ (a.1 = b.1 ∧ a.2 ≥ b.2)) := ⟨fun a b c => by omega⟩
  exact (List.pairwise_insertionSort (fun a b : Nat × Nat => a.1 > b.1 ∨ (a.1 = b.1 ∧ a.2 ≥ b.2)) reqs.zipIdx).imp (by intro a b; omega)

theorem snd_zipIdx (reqs : List Nat) : reqs.zipIdx.map Prod.snd = List.range reqs.length := by
  rw [List.zipIdx_map_snd]; simp [List.range_eq_range']

/-- Packing succeeds when the largest requirement fits. -/
theorem pack_ok {size : Nat} {reqs : List Nat} (hfit : ∀ r ∈ reqs, r ≤ size) : ∃ r, pack size (sortedReqs reqs) = .ok r ∧ PackInv size (sortedReqs reqs) r ∧
    ((∀ q ∈ reqs, q = 1) → r.2 = size - reqs.length) := by
  have hp := sortedReqs_perm reqs
  have hd := sortedReqs_desc reqs
  have hlen : (sortedReqs reqs).length = reqs.length := by rw [hp.length_eq, List.length_zipIdx]
  have hnd : ((sortedReqs reqs).map Prod.snd).Nodup := by
    rw [(hp.map Prod.snd).nodup_iff, snd_zipIdx]; exact List.nodup_range
  have hmem : ∀ t ∈ sortedReqs reqs, t.1 ∈ reqs := by
    intro t ht
    exact List.fst_mem_of_mem_zipIdx (hp.mem_iff.mp ht)
  generalize hL : sortedReqs reqs = L at hnd hd hmem hlen
  clear hL hp
  cases L with
  | nil => exact ⟨([], size), rfl, ⟨by simp, by simp, by simp, by simp, by simp⟩, by intro _; simp at hlen; simp [← hlen]⟩
  | cons t ts =>
    have hr : size ≥ t.1 := hfit _ (hmem t (by simp))
    have hstep : packStep true ([], size) t = .ok ([(t.1, [t.2])], size - t.1) := by simp [packStep, hr]
    simp only [pack, hstep]
    have h0 : PackInv size [] ([], size) := ⟨by simp, by simp, by simp, by simp, by simp⟩
    have h1 := packInv_new h0 (t := t) (by simp) hr
    obtain ⟨r, e, hi, _, _, hone⟩ := packRest_ok ts [t] _ h1 (by simpa using hnd) (by
      intro q hq
      exact ⟨(t.1, [t.2]), by simp, (List.pairwise_cons.mp hd).1 q hq⟩)
    refine ⟨r, by simpa using e, by simpa using hi, ?_⟩
    intro hall
    have := hone fun q hq => hall _ (hmem q (by simp [hq]))
    have := hall _ (hmem t (by simp))
    simp only [List.length_cons] at *
    omega

/-- Packing fails at once when the largest requirement does not fit. -/
theorem pack_err {size : Nat} {reqs : List Nat} (hfit : ∃ r ∈ reqs, size < r) : pack size (sortedReqs reqs) = .error .RuntimeError := by
  have hp := sortedReqs_perm reqs
  have hd := sortedReqs_desc reqs
  obtain ⟨r, hr, hlt⟩ := hfit
  obtain ⟨i, hi⟩ := List.mem_iff_getElem?.mp hr
  have hm : (r, i) ∈ sortedReqs reqs := hp.mem_iff.mpr (List.mem_zipIdx_iff_getElem?.mpr hi)
  generalize sortedReqs reqs = L at hd hm
  cases L with
  | nil => simp at hm
  | cons t ts =>
    have : r ≤ t.1 := by
      rcases List.mem_cons.mp hm with h | h
      · rw [← h]
      · exact (List.pairwise_cons.mp hd).1 _ h
    have hng : ¬ size ≥ t.1 := by omega
    simp [pack, packStep, hng]

/-! ## Left over processes -/

theorem growPass_spec (mxs : List (Option Nat)) : ∀ (bs : List Bucket) (r : Nat), 0 < r →
    ((growPass mxs bs r).1.map Prod.fst).sum + (growPass mxs bs r).2 = (bs.map Prod.fst).sum + r ∧
    List.Forall₂ (fun b c => c.2 = b.2 ∧ (c.1 = b.1 ∨ (canGrow mxs b = true ∧ c.1 = b.1 + 1))) bs (growPass mxs bs r).1 ∧
    (growPass mxs bs r).2 ≤ r ∧ ((∃ b ∈ bs, canGrow mxs b = true) → (growPass mxs bs r).2 < r) := by
  intro bs
  have hrefl : ∀ l : List Bucket, List.Forall₂ (fun b c => c.2 = b.2 ∧ (c.1 = b.1 ∨ (canGrow mxs b = true ∧ c.1 = b.1 + 1))) l l := by
    intro l
    induction l with
    | nil => exact .nil
    | cons a l ih => exact .cons ⟨rfl, Or.inl rfl⟩ ih
  induction bs with
  | nil => intro r _; simp [growPass]
  | cons b bs ih =>
    intro r hr
    by_cases hg : canGrow mxs b = true
    · by_cases h0 : r - 1 = 0
      · have e : growPass mxs (b :: bs) r = ((b.1 + 1, b.2) :: bs, r - 1) := by simp [growPass, hg, h0]
        rw [e]
        refine ⟨by simp only [List.map_cons, List.sum_cons]; omega, .cons ⟨rfl, Or.inr ⟨hg, rfl⟩⟩ (hrefl bs), by simp, fun _ => by simp only; omega⟩
      · obtain ⟨i1, i2, i3, i4⟩ := ih (r - 1) (by omega)
        have e : growPass mxs (b :: bs) r = ((b.1 + 1, b.2) :: (growPass mxs bs (r - 1)).1, (growPass mxs bs (r - 1)).2) := by simp [growPass, hg, h0]
        rw [e]
        refine ⟨by simp only [List.map_cons, List.sum_cons]; omega, .cons ⟨rfl, Or.inr ⟨hg, rfl⟩⟩ i2, by simp only; omega, fun _ => by simp only; omega⟩
    · have h0 : ¬ r = 0 := by omega
      obtain ⟨i1, i2, i3, i4⟩ := ih r hr
      have e : growPass mxs (b :: bs) r = (b :: (growPass mxs bs r).1, (growPass mxs bs r).2) := by simp [growPass, hg, h0]
      rw [e]
      refine ⟨by simp only [List.map_cons, List.sum_cons]; omega, .cons ⟨rfl, Or.inl rfl⟩ i2, i3, ?_⟩
      rintro ⟨c, hc, hcg⟩
      rcases List.mem_cons.mp hc with rfl | hc
      · exact absurd hcg hg
      · exact i4 ⟨c, hc, hcg⟩

/-- What the buckets can be afterwards: same members, at least as many processes. -/
def Grown (bs cs : List Bucket) : Prop := List.Forall₂ (fun b c => c.2 = b.2 ∧ b.1 ≤ c.1) bs cs

theorem Grown.refl (bs : List Bucket) : Grown bs bs := by
  unfold Grown
  induction bs with
  | nil => exact .nil
  | cons a l ih => exact .cons ⟨rfl, Nat.le_refl _⟩ ih

theorem Grown.trans {a b c : List Bucket} (h : Grown a b) (h' : Grown b c) : Grown a c := by
  unfold Grown at *
  induction h generalizing c with
  | nil => cases h'; exact .nil
  | cons h1 _ ih => cases h' with
    | cons h2 h3 => exact .cons ⟨h2.1.trans h1.1, h1.2.trans h2.2⟩ (ih h3)

theorem growPass_grown (mxs : List (Option Nat)) (bs : List Bucket) {r : Nat} (hr : 0 < r) : Grown bs (growPass mxs bs r).1 :=
  (growPass_spec mxs bs r hr).2.1.imp (by rintro b c ⟨h1, h2 | ⟨_, h2⟩⟩ <;> exact ⟨h1, by omega⟩)

theorem growLoop_spec (mxs : List (Option Nat)) : ∀ (fuel : Nat) (st r : List Bucket × Nat), growLoop mxs fuel st = some r →
    r.2 = 0 ∧ (r.1.map Prod.fst).sum = (st.1.map Prod.fst).sum + st.2 ∧ Grown st.1 r.1 := by
  intro fuel
  induction fuel with
  | zero =>
    intro st r h
    unfold growLoop at h
    split at h
    · simp at h
    · simp only [Option.some.injEq] at h; subst h; exact ⟨by omega, by omega, Grown.refl _⟩
  | succ f ih =>
    intro st r h
    unfold growLoop at h
    split at h
    · rename_i hc
      obtain ⟨h1, h2, h3⟩ := ih _ _ h
      obtain ⟨g1, _, _, _⟩ := growPass_spec mxs st.1 st.2 hc
      exact ⟨h1, by omega, (growPass_grown mxs st.1 hc).trans h3⟩
    · simp only [Option.some.injEq] at h; subst h; exact ⟨by omega, by omega, Grown.refl _⟩

end OpenMDAO
