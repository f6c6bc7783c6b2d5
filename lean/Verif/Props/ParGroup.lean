import Verif.Lemmas.ParGroup
import Mathlib.Algebra.BigOperators.Group.List.Basic
import Mathlib.Algebra.Group.Action.Defs
/-!
# C51: processor allocation in a parallel group
-/
namespace OpenMDAO
set_option linter.unusedSectionVars false

theorem le_sum_nat {l : List Nat} {q : Nat} (h : q ∈ l) : q ≤ l.sum := by
  induction l with
  | nil => simp at h
  | cons a l ih =>
    rw [List.sum_cons]
    rcases List.mem_cons.mp h with rfl | h
    · omega
    · have := ih h; omega

/-! ## Colors and local subsystems -/

theorem length_flat_replicate (l : List (Bucket × Nat)) : (l.flatMap fun p => List.replicate p.1.1 (some p.2)).length = (l.map fun p => p.1.1).sum := by
  induction l with
  | nil => rfl
  | cons a l ih => simp [List.flatMap_cons, ih]

theorem parColors_length {size : Nat} {a : Alloc} (hs : (a.buckets.map Prod.fst).sum = a.assigned) (hle : a.assigned ≤ size) : (parColors size a).length = size := by
  unfold parColors
  rw [List.length_append, length_flat_replicate]
  have : (a.buckets.zipIdx.map fun p => p.1.1) = a.buckets.map Prod.fst := by
    have : (fun p : Bucket × Nat => p.1.1) = Prod.fst ∘ Prod.fst := rfl
    rw [this, ← List.map_map, List.zipIdx_map_fst]
  rw [this, hs]
  split
  · rw [List.length_replicate]; omega
  · simp only [List.length_nil]; omega

theorem count_flat_replicate (c : Nat) : ∀ (l : List Bucket) (k : Nat), ((l.zipIdx k).flatMap fun p => List.replicate p.1.1 (some p.2)).count (some c) =
    if k ≤ c then ((l[c - k]?).map Prod.fst).getD 0 else 0 := by
  intro l
  induction l with
  | nil => intro k; simp
  | cons b l ih =>
    intro k
    rw [List.zipIdx_cons, List.flatMap_cons, List.count_append, ih, List.count_replicate]
    by_cases h : k = c
    · subst h; simp
    · have : ¬ (some k == some c) = true := by simpa using h
      rw [if_neg this]
      by_cases hk : k ≤ c
      · have h1 : k + 1 ≤ c := by omega
        have h2 : c - k = (c - (k + 1)) + 1 := by omega
        rw [if_pos h1, if_pos hk, h2]; simp
      · have h1 : ¬ k + 1 ≤ c := by omega
        rw [if_neg h1, if_neg hk]

theorem parColors_count {size : Nat} {a : Alloc} {c : Nat} {b : Bucket} (hb : a.buckets[c]? = some b) : (parColors size a).count (some c) = b.1 := by
  unfold parColors
  rw [List.count_append, count_flat_replicate]
  have : (if size > a.assigned then List.replicate (size - a.assigned) (none : Option Nat) else []).count (some c) = 0 := by
    split
    · rw [List.count_replicate]; simp
    · simp
  simp [this, hb]

theorem filter_range_getElem (l : List (Option Nat)) (c : Option Nat) : ((List.range l.length).filter fun r => decide (l[r]? = some c)).length = l.count c := by
  rw [← List.countP_eq_length_filter, List.count]
  induction l with
  | nil => simp
  | cons a l ih =>
    rw [List.length_cons, List.range_succ_eq_map, List.countP_cons, List.countP_map, List.countP_cons]
    have e : ((fun r => decide ((a :: l)[r]? = some c)) ∘ Nat.succ) = fun r => decide (l[r]? = some c) := by
      funext r; simp
    rw [e, ih]
    simp

theorem bucket_unique {bs : List Bucket} (hn : (bs.flatMap Prod.snd).Nodup) {c d : Nat} {b b' : Bucket} (hc : bs[c]? = some b) (hd : bs[d]? = some b') {i : Nat}
    (hi : i ∈ b.2) (hi' : i ∈ b'.2) : c = d := by
  rw [List.nodup_flatMap] at hn
  by_contra hne
  rw [List.getElem?_eq_some_iff] at hc hd
  obtain ⟨hc, rfl⟩ := hc
  obtain ⟨hd, rfl⟩ := hd
  rcases Nat.lt_or_gt_of_ne hne with h | h
  · exact List.pairwise_iff_getElem.mp hn.2 c d hc hd h hi hi'
  · exact List.pairwise_iff_getElem.mp hn.2 d c hd hc h hi' hi

theorem localSubs_mem {size : Nat} {a : Alloc} (hn : (a.buckets.flatMap Prod.snd).Nodup) {rank : Nat} {l : List Nat} (hl : localSubs size a rank = .ok l) {c : Nat} {b : Bucket}
    (hb : a.buckets[c]? = some b) {i : Nat} (hi : i ∈ b.2) : i ∈ l ↔ (parColors size a)[rank]? = some (some c) := by
  unfold localSubs at hl
  cases hr : (parColors size a)[rank]? with
  | none => rw [hr] at hl; simp at hl
  | some o =>
    rw [hr] at hl
    cases o with
    | none =>
      simp only [Except.ok.injEq] at hl; subst hl; simp
    | some d =>
      simp only [Except.ok.injEq] at hl; subst hl
      simp only [List.mem_flatMap, List.mem_filter, decide_eq_true_eq, Option.some.injEq]
      constructor
      · rintro ⟨⟨b', d'⟩, ⟨hm, rfl⟩, hi'⟩
        exact bucket_unique hn (List.mem_zipIdx_iff_getElem?.mp hm) hb hi' hi
      · rintro rfl
        exact ⟨(b, d), ⟨List.mem_zipIdx_iff_getElem?.mpr hb, rfl⟩, hi⟩

/-! ## What every finished allocation satisfies -/

/-- Facts about the result that hold in both branches. -/
structure GoodAlloc (size n : Nat) (a : Alloc) : Prop where
  members : (a.buckets.flatMap Prod.snd).Perm (List.range n)
  total : (a.buckets.map Prod.fst).sum = a.assigned
  fits : a.assigned ≤ size

theorem single_members (l : List Nat) : ∀ k, ((l.zipIdx k).map fun p => (p.1, [p.2])).flatMap Prod.snd = List.range' k l.length := by
  induction l with
  | nil => intro k; rfl
  | cons a l ih => intro k; simp only [List.zipIdx_cons, List.map_cons, List.flatMap_cons, ih]; simp [List.range'_succ]

theorem single_total (l : List Nat) (k : Nat) : ((l.zipIdx k).map fun p => (p.1, [p.2])).map Prod.fst = l := by
  have : (((l.zipIdx k).map fun p => (p.1, [p.2])).map Prod.fst) = (l.zipIdx k).map Prod.fst := by simp [Function.comp_def]
  rw [this, List.zipIdx_map_fst]

/-- The allocation with one bucket for each subsystem. -/
def singles (procs : List Nat) : List Bucket := procs.zipIdx.map fun p => (p.1, [p.2])

/-- Enough processes for all: round robin. -/
theorem parAlloc_rr {size : Nat} {subs : List Req} (hpos : ∀ r ∈ subs, r.min ≠ 0) (hne : subs ≠ []) (hs : (subs.map Req.min).sum ≤ size) {fuel : Nat} (hf : size ≤ fuel) :
    ∃ k j, j ≤ subs.length ∧ (level (subs.map Req.max) k j).sum = procLimit size subs ∧
      parAlloc fuel size subs = some (.ok ⟨singles (level (subs.map Req.max) k j), procLimit size subs⟩) := by
  obtain ⟨k, j, hj, h1, h2⟩ := rrLoop_start (limitOk_procLimit size subs) (fuel := fuel) (by have := procLimit_le size subs; omega)
  rw [List.length_map] at hj h2
  refine ⟨k, j, hj, h1, ?_⟩
  unfold parAlloc
  have e1 : ¬ subs.any (fun r => decide (r.min = 0)) = true := by simpa using hpos
  have e2 : ¬ (subs.map Req.min).sum = 0 := by
    obtain ⟨r, l, rfl⟩ := List.exists_cons_of_ne_nil hne
    have := hpos r (by simp)
    simp only [List.map_cons, List.sum_cons]; omega
  rw [if_neg e1, if_neg e2, if_pos hs, h2]
  rfl

theorem parAlloc_good {fuel size : Nat} {subs : List Req} {a : Alloc} (h : parAlloc fuel size subs = some (.ok a)) : GoodAlloc size subs.length a := by
  unfold parAlloc at h
  split at h
  · simp at h
  rename_i e1
  split at h
  · simp at h
  rename_i e2
  split at h
  · rename_i hs
    have hpos : ∀ r ∈ subs, r.min ≠ 0 := by simpa using e1
    have hne : subs ≠ [] := by rintro rfl; simp at e2
    split at h
    · simp at h
    rename_i st hst
    simp only [Option.some.injEq, Except.ok.injEq] at h
    subst h
    obtain ⟨k, j, hj, h1, h2⟩ := rrLoop_start (limitOk_procLimit size subs) (fuel := max fuel size) (by have := procLimit_le size subs; omega)
    rw [List.length_map] at h2 hj
    have := rrLoop_mono hst (f' := max fuel size) (by omega)
    rw [h2] at this
    simp only [Option.some.injEq] at this
    subst this
    refine ⟨?_, ?_, procLimit_le size subs⟩
    · simp only; rw [single_members, level_len_le _ _ _ (by simpa using hj), List.length_map, List.range_eq_range']
    · simp only; rw [single_total, h1]
  · rename_i hs
    split at h
    · simp at h
    · rename_i st hst
      split at h
      · simp at h
      rename_i st' hst'
      simp only [Option.some.injEq, Except.ok.injEq] at h
      subst h
      have hfit : ∀ r ∈ subs.map Req.min, r ≤ size := by
        by_contra hc
        push Not at hc
        rw [pack_err hc] at hst; simp at hst
      obtain ⟨r, e, hi, _⟩ := pack_ok hfit
      rw [hst] at e; simp only [Except.ok.injEq] at e; subst e
      obtain ⟨g1, g2, g3⟩ := growLoop_spec _ _ _ _ hst'
      have hm : st'.1.flatMap Prod.snd = st.1.flatMap Prod.snd := by
        clear hst' g1 g2 hst hi
        generalize st.1 = x at g3
        generalize st'.1 = y at g3
        unfold Grown at g3
        induction g3 with
        | nil => rfl
        | cons h _ ih => simp only [List.flatMap_cons, ih, h.1]
      refine ⟨?_, ?_, by simp⟩
      · simp only; rw [hm]
        refine hi.members.trans ?_
        have := (sortedReqs_perm (subs.map Req.min)).map Prod.snd
        rw [snd_zipIdx, List.length_map] at this
        exact this
      · have := hi.total
        simp only; omega

theorem good_bucket {size n : Nat} {a : Alloc} (h : GoodAlloc size n a) {i : Nat} (hi : i < n) : ∃ (c : Nat) (b : Bucket), a.buckets[c]? = some b ∧ i ∈ b.2 := by
  have : i ∈ a.buckets.flatMap Prod.snd := h.members.mem_iff.mpr (by simpa using hi)
  obtain ⟨b, hb, hib⟩ := List.mem_flatMap.mp this
  obtain ⟨c, hc⟩ := List.mem_iff_getElem?.mp hb
  exact ⟨c, b, hc, hib⟩

theorem good_nodup {size n : Nat} {a : Alloc} (h : GoodAlloc size n a) : (a.buckets.flatMap Prod.snd).Nodup := by
  rw [h.members.nodup_iff]; exact List.nodup_range

theorem good_local {size n : Nat} {a : Alloc} (h : GoodAlloc size n a) {rank : Nat} (hr : rank < size) : ∃ l, localSubs size a rank = .ok l := by
  unfold localSubs
  have hl := parColors_length h.total h.fits
  cases hc : (parColors size a)[rank]? with
  | none => rw [List.getElem?_eq_none_iff] at hc; omega
  | some o => cases o <;> exact ⟨_, rfl⟩

theorem good_ranks {size n : Nat} {a : Alloc} (h : GoodAlloc size n a) {c : Nat} {b : Bucket} (hb : a.buckets[c]? = some b) {i : Nat} (hi : i ∈ b.2) :
    ranksOf size a i = (List.range size).filter (fun r => decide ((parColors size a)[r]? = some (some c))) ∧ procsOf size a i = b.1 := by
  have e : ranksOf size a i = (List.range size).filter (fun r => decide ((parColors size a)[r]? = some (some c))) := by
    unfold ranksOf
    apply List.filter_congr
    intro r hr
    obtain ⟨l, hl⟩ := good_local h (List.mem_range.mp hr)
    rw [hl]
    simp only
    rw [decide_eq_decide]
    exact localSubs_mem (good_nodup h) hl hb hi
  refine ⟨e, ?_⟩
  unfold procsOf
  rw [e]
  have hl := parColors_length h.total h.fits
  have := filter_range_getElem (parColors size a) (some c)
  rw [hl] at this
  rw [this, parColors_count hb]

/-- C51. Whenever the allocation finishes, no process fails, every subsystem is local to the processes of exactly one sub-communicator (subsystems either have the same processes or none in common),
and no more processes are used than there are. -/
theorem C51_one_communicator {fuel size : Nat} {subs : List Req} {a : Alloc} (h : parAlloc fuel size subs = some (.ok a)) :
    (∀ rank : Nat, rank < size → ∃ l : List Nat, localSubs size a rank = .ok l ∧ ∀ i ∈ l, i < subs.length) ∧
    (∀ i : Nat, i < subs.length → ∃ b ∈ a.buckets, i ∈ b.2 ∧ procsOf size a i = b.1 ∧ ∀ k ∈ b.2, ranksOf size a k = ranksOf size a i) ∧
    (∀ i k : Nat, i < subs.length → k < subs.length → ∀ rank : Nat, rank ∈ ranksOf size a i → rank ∈ ranksOf size a k → ranksOf size a i = ranksOf size a k) ∧
    (a.buckets.map Prod.fst).sum ≤ size := by
  have hg := parAlloc_good h
  refine ⟨?_, ?_, ?_, by rw [hg.total]; exact hg.fits⟩
  · intro rank hr
    obtain ⟨l, hl⟩ := good_local hg hr
    refine ⟨l, hl, ?_⟩
    intro i hi
    unfold localSubs at hl
    split at hl
    · simp at hl
    · simp only [Except.ok.injEq] at hl; subst hl; simp at hi
    · simp only [Except.ok.injEq] at hl; subst hl
      simp only [List.mem_flatMap, List.mem_filter, decide_eq_true_eq] at hi
      obtain ⟨⟨b, d⟩, ⟨hm, _⟩, hib⟩ := hi
      have : i ∈ a.buckets.flatMap Prod.snd := List.mem_flatMap.mpr ⟨b, List.fst_mem_of_mem_zipIdx hm, hib⟩
      simpa using hg.members.mem_iff.mp this
  · intro i hi
    obtain ⟨c, b, hb, hib⟩ := good_bucket hg hi
    obtain ⟨e1, e2⟩ := good_ranks hg hb hib
    refine ⟨b, List.mem_of_getElem? hb, hib, e2, ?_⟩
    intro k hk
    rw [e1, (good_ranks hg hb hk).1]
  · intro i k hi hk rank h1 h2
    obtain ⟨c, b, hb, hib⟩ := good_bucket hg hi
    obtain ⟨d, b', hb', hib'⟩ := good_bucket hg hk
    rw [(good_ranks hg hb hib).1] at h1 ⊢
    rw [(good_ranks hg hb' hib').1] at h2 ⊢
    simp only [List.mem_filter, decide_eq_true_eq] at h1 h2
    have := h1.2.symm.trans h2.2
    simp only [Option.some.injEq] at this
    rw [this]

/-- Two members share three processes, the third has the fourth one. -/
example : parAlloc 10 4 [⟨3, some 3⟩, ⟨2, none⟩, ⟨1, some 1⟩] = some (.ok ⟨[(3, [0, 1]), (1, [2])], 4⟩) := by decide

/-! ## Grouping when there are too few processes -/

/-- C51. With fewer processes than requested together, but enough for the largest request, a finished allocation gives every subsystem at least what it needs and uses every process. -/
theorem C51_grouped_min {fuel size : Nat} {subs : List Req} {a : Alloc} (hfew : size < (subs.map Req.min).sum) (h : parAlloc fuel size subs = some (.ok a)) :
    MinMet size subs a ∧ (a.buckets.map Prod.fst).sum = size := by
  have hg := parAlloc_good h
  unfold parAlloc at h
  split at h
  · simp at h
  split at h
  · simp at h
  rw [if_neg (by omega)] at h
  split at h
  · simp at h
  rename_i st hst
  split at h
  · simp at h
  rename_i st' hst'
  simp only [Option.some.injEq, Except.ok.injEq] at h
  have hfit : ∀ r ∈ subs.map Req.min, r ≤ size := by
    by_contra hc
    push Not at hc
    rw [pack_err hc] at hst; simp at hst
  obtain ⟨r, e, hi, _⟩ := pack_ok hfit
  rw [hst] at e; simp only [Except.ok.injEq] at e; subst e
  obtain ⟨g1, g2, g3⟩ := growLoop_spec _ _ _ _ hst'
  constructor
  · intro i r hr
    have hlt : i < subs.length := (List.getElem?_eq_some_iff.mp hr).1
    obtain ⟨c, b, hb, hib⟩ := good_bucket hg hlt
    rw [(good_ranks hg hb hib).2]
    subst h
    simp only at hb
    obtain ⟨b0, hb0, hs, hle⟩ : ∃ b0 ∈ st.1, b.2 = b0.2 ∧ b0.1 ≤ b.1 := by
      have hb' := List.mem_of_getElem? hb
      clear hst' g1 g2 hst hi hb hg
      generalize st.1 = x at g3
      generalize st'.1 = y at g3 hb'
      unfold Grown at g3
      induction g3 with
      | nil => simp at hb'
      | cons h _ ih =>
        rcases List.mem_cons.mp hb' with rfl | hb'
        · exact ⟨_, by simp, h.1, h.2⟩
        · obtain ⟨b0, h1, h2⟩ := ih hb'
          exact ⟨b0, by simp [h1], h2⟩
    obtain ⟨n, hn, hnle⟩ := hi.big b0 hb0 i (hs ▸ hib)
    have := List.mem_zipIdx_iff_getElem?.mp ((sortedReqs_perm _).mem_iff.mp hn)
    simp only [List.getElem?_map, hr, Option.map_some, Option.some.injEq] at this
    omega
  · subst h
    have := hi.total
    simp only; omega

example : (4 : Nat) < ((([⟨3, some 3⟩, ⟨2, none⟩, ⟨1, some 1⟩] : List Req)).map Req.min).sum := by decide

/-- C51. The group never fails on at least as many processes as it asks for itself, and with fewer it fails exactly because some subsystem needs more than there are. -/
theorem C51_error_iff {fuel size : Nat} {subs : List Req} (hpos : ∀ r ∈ subs, r.min ≠ 0) (hne : subs ≠ []) (e : PyErr) :
    parAlloc fuel size subs = some (.error e) ↔ e = .RuntimeError ∧ size < (parReqProcs subs).1 := by
  have e1 : ¬ subs.any (fun r => decide (r.min = 0)) = true := by simpa using hpos
  have e2 : ¬ (subs.map Req.min).sum = 0 := by
    obtain ⟨r, l, rfl⟩ := List.exists_cons_of_ne_nil hne
    have := hpos r (by simp)
    simp only [List.map_cons, List.sum_cons]; omega
  obtain ⟨f1, f2, f3⟩ := reqStep_fst subs (0, some 0)
  have hM : (parReqProcs subs).1 = (subs.foldl reqStep (0, some 0)).1 := by
    unfold parReqProcs
    simp only
    rw [if_neg]
    obtain ⟨r, l, rfl⟩ := List.exists_cons_of_ne_nil hne
    have := f2 r (by simp)
    have := hpos r (by simp)
    omega
  have hiff : size < (parReqProcs subs).1 ↔ ∃ r ∈ subs.map Req.min, size < r := by
    rw [hM]
    constructor
    · intro hlt
      rcases f3 with f3 | ⟨r, hr, f3⟩
      · simp only at f3; omega
      · exact ⟨r.min, List.mem_map.mpr ⟨r, hr, rfl⟩, by omega⟩
    · rintro ⟨q, hq, hlt⟩
      obtain ⟨r, hr, rfl⟩ := List.mem_map.mp hq
      have := f2 r hr; omega
  rw [hiff]
  unfold parAlloc
  rw [if_neg e1, if_neg e2]
  by_cases hs : size ≥ (subs.map Req.min).sum
  · rw [if_pos hs]
    constructor
    · intro h
      split at h <;> simp at h
    · rintro ⟨-, q, hq, hlt⟩
      have := le_sum_nat hq
      omega
  · rw [if_neg hs]
    by_cases hfit : ∃ r ∈ subs.map Req.min, size < r
    · rw [pack_err hfit]
      simp only [Option.some.injEq, Except.error.injEq]
      constructor
      · rintro rfl; exact ⟨rfl, hfit⟩
      · rintro ⟨rfl, -⟩; rfl
    · push Not at hfit
      obtain ⟨r, e, _, _⟩ := pack_ok hfit
      rw [e]
      simp only
      constructor
      · intro h; split at h <;> simp at h
      · rintro ⟨-, q, hq, hlt⟩
        have := hfit q hq
        omega

example : parAlloc 5 2 [⟨3, some 3⟩, ⟨1, none⟩] = some (.error .RuntimeError) := by decide

/-- A parallel group without subsystems fails under MPI. -/
theorem finding_C51_empty (fuel size : Nat) : parAlloc fuel size [] = some (.error .NameError) := by simp [parAlloc]

/-! ## Round robin when there are enough processes -/

theorem singles_get {procs : List Nat} {i p : Nat} (h : procs[i]? = some p) : (singles procs)[i]? = some (p, [i]) := by
  simp [singles, List.getElem?_zipIdx, h]

theorem level_get {mxs : List (Option Nat)} {k j i : Nat} {mx : Option Nat} (hj : j ≤ mxs.length) (h : mxs[i]? = some mx) :
    (level mxs k j)[i]? = some (if i < j then capAt (k + 1) mx else capAt k mx) := by
  unfold level
  rw [List.getElem?_append, List.length_map, List.length_take, Nat.min_eq_left hj]
  split
  · rename_i hlt
    rw [List.getElem?_map, List.getElem?_take, if_pos hlt, h]; rfl
  · rename_i hge
    rw [List.getElem?_map, List.getElem?_drop]
    have : j + (i - j) = i := by omega
    rw [this, h]; rfl

/-- C51. With enough processes for all requests the allocation finishes; the processes are handed out fairly: there is a number of rounds such that every subsystem has had this many processes
or its maximum, whichever is less, and the first subsystems one more. Altogether as many processes are used as are available or usable. -/
theorem C51_enough_fair {size : Nat} {subs : List Req} (hpos : ∀ r ∈ subs, r.min ≠ 0) (hne : subs ≠ []) (hs : (subs.map Req.min).sum ≤ size) :
    ∃ a : Alloc, (∀ fuel : Nat, size ≤ fuel → parAlloc fuel size subs = some (.ok a)) ∧
      (∃ k j : Nat, ∀ (i : Nat) (r : Req), subs[i]? = some r → procsOf size a i = if i < j then capAt (k + 1) r.max else capAt k r.max) ∧
      (a.buckets.map Prod.fst).sum = if none ∈ subs.map Req.max then size else Nat.min size ((subs.map fun r => r.max.getD 0).sum) := by
  obtain ⟨k, j, hj, h1, h2⟩ := parAlloc_rr hpos hne hs (Nat.le_refl size)
  refine ⟨⟨singles (level (subs.map Req.max) k j), procLimit size subs⟩, ?_, ⟨k, j, ?_⟩, ?_⟩
  · intro fuel hf
    unfold parAlloc at h2 ⊢
    split at h2
    · simp at h2
    rename_i e1
    split at h2
    · simp at h2
    rename_i e2
    rw [if_neg e1, if_neg e2, if_pos hs]
    split at h2
    · simp at h2
    rename_i st hst
    rw [rrLoop_mono hst hf]
    exact h2
  · intro i r hr
    have hg := parAlloc_good h2
    have hlt : i < subs.length := (List.getElem?_eq_some_iff.mp hr).1
    have hl := level_get (k := k) (j := j) (mxs := subs.map Req.max) (i := i) (mx := r.max) (by simpa using hj) (by simp [hr])
    exact (good_ranks hg (singles_get hl) (by simp)).2
  · have hg := parAlloc_good h2
    rw [hg.total]; exact procLimit_eq size subs

/-- Two rounds and a half: the second subsystem is limited to one process. -/
example : parAlloc 6 6 [⟨1, none⟩, ⟨1, some 1⟩, ⟨1, none⟩] = some (.ok ⟨[(3, [0]), (1, [1]), (2, [2])], 6⟩) := by decide

theorem level_sum_le (mxs : List (Option Nat)) (k j : Nat) (hj : j ≤ mxs.length) : (level mxs k j).sum ≤ mxs.length * k + j := by
  unfold level
  rw [List.sum_append]
  have h1 := sum_map_le (mxs.take j) (capAt (k + 1)) (fun _ => k + 1) fun a _ => capAt_le _ a
  have h2 := sum_map_le (mxs.drop j) (capAt k) (fun _ => k) fun a _ => capAt_le _ a
  simp only [List.map_const', List.sum_replicate, List.length_take, List.length_drop, smul_eq_mul, Nat.min_eq_left hj] at h1 h2
  have : mxs.length * k = j * k + (mxs.length - j) * k := by rw [← Nat.add_mul]; congr 1; omega
  have : j * (k + 1) = j * k + j := by ring
  omega

/-- C51 (partial). The minimum is met when every subsystem could be given the largest minimum. Missing: the minimum is not met in general, see `C51_min_refuted`. -/
theorem C51_min_partial {size : Nat} {subs : List Req} {a : Alloc} {fuel : Nat} (hmax : ∀ r ∈ subs, ∀ m, r.max = some m → r.min ≤ m)
    (hroom : subs.length * (parReqProcs subs).1 ≤ size ∨ size < (subs.map Req.min).sum) (h : parAlloc fuel size subs = some (.ok a)) : MinMet size subs a := by
  by_cases hfew : size < (subs.map Req.min).sum
  · exact (C51_grouped_min hfew h).1
  have hroom' : subs.length * (parReqProcs subs).1 ≤ size := by rcases hroom with h | h <;> omega
  have hpos : ∀ r ∈ subs, r.min ≠ 0 := by
    unfold parAlloc at h
    split at h
    · simp at h
    rename_i e1
    simpa using e1
  have hne : subs ≠ [] := by
    rintro rfl; simp [parAlloc] at h
  obtain ⟨k, j, hj, h1, h2⟩ := parAlloc_rr hpos hne (Nat.le_of_not_lt hfew) (fuel := max fuel size) (by omega)
  have ha : a = ⟨singles (level (subs.map Req.max) k j), procLimit size subs⟩ := by
    unfold parAlloc at h h2
    split at h
    · simp at h
    rename_i e1
    split at h
    · simp at h
    rename_i e2
    rw [if_neg e1, if_neg e2, if_pos (by omega)] at h2
    rw [if_pos (by omega)] at h
    split at h
    · simp at h
    rename_i st hst
    rw [rrLoop_mono hst (f' := max fuel size) (by omega)] at h2
    simp only at h2
    rw [h] at h2
    simpa using h2
  have hg := parAlloc_good h
  obtain ⟨f1, f2, f3⟩ := reqStep_fst subs (0, some 0)
  have hM : ∀ r ∈ subs, r.min ≤ (parReqProcs subs).1 := by
    intro r hr
    have := f2 r hr
    unfold parReqProcs; simp only; split <;> omega
  generalize (parReqProcs subs).1 = M at hroom' hM
  intro i r hr
  have hrm : r ∈ subs := List.mem_of_getElem? hr
  have hl := level_get (k := k) (j := j) (mxs := subs.map Req.max) (i := i) (mx := r.max) (by simpa using hj) (by simp [hr])
  have hproc : procsOf size a i = if i < j then capAt (k + 1) r.max else capAt k r.max := by
    rw [ha] at hg ⊢
    exact (good_ranks hg (singles_get hl) (by simp)).2
  rw [hproc]
  have hge : ∀ q, r.min ≤ q → r.min ≤ capAt q r.max := by
    intro q hq
    cases hx : r.max with
    | none => simpa [capAt] using hq
    | some m => have := hmax r hrm m hx; simp only [capAt, Nat.min_def]; split <;> omega
  have hilt : i < subs.length := (List.getElem?_eq_some_iff.mp hr).1
  have hsum := level_sum_le (subs.map Req.max) k j (by simpa using hj)
  rw [List.length_map] at hsum
  by_cases hk : M ≤ k
  · have := hM r hrm
    split
    · exact hge _ (by omega)
    · exact hge _ (by omega)
  · rw [procLimit_eq] at h1
    by_cases hfull : procLimit size subs = size
    · rw [procLimit_eq] at hfull
      rw [hfull] at h1
      have hmul : subs.length * k + subs.length ≤ subs.length * M := by
        have : subs.length * (k + 1) ≤ subs.length * M := Nat.mul_le_mul_left _ (by omega)
        have e : subs.length * (k + 1) = subs.length * k + subs.length := by ring
        omega
      have hjn : j = subs.length := by omega
      have hkM : M = k + 1 := by
        by_contra hne'
        have : subs.length * (k + 2) ≤ subs.length * M := Nat.mul_le_mul_left _ (by omega)
        have e : subs.length * (k + 2) = subs.length * k + 2 * subs.length := by ring
        omega
      rw [if_pos (by omega)]
      exact hge _ (by have := hM r hrm; omega)
    · rw [procLimit_eq] at hfull
      have hnn : none ∉ subs.map Req.max := by
        intro hm; rw [if_pos hm] at hfull; exact hfull rfl
      rw [if_neg hnn] at h1 hfull
      have hsz : Nat.min size ((subs.map fun r => r.max.getD 0).sum) = (subs.map fun r => r.max.getD 0).sum := by
        simp only [Nat.min_def] at hfull ⊢; split <;> rename_i hc
        · simp [hc] at hfull
        · rfl
      rw [hsz] at h1
      -- everybody is at the maximum
      have hsub : subs.map (fun r => r.max.getD 0) = (subs.map Req.max).map fun m => m.getD 0 := by simp
      have hcap : ∀ (q : Nat) (mx : Option Nat), mx ∈ subs.map Req.max → capAt q mx ≤ mx.getD 0 := by
        intro q mx hmx
        cases mx with
        | none => exact absurd hmx hnn
        | some m => exact Nat.min_le_left _ _
      rw [hsub] at h1
      have hsplit : ((subs.map Req.max).map fun m => m.getD 0).sum = (((subs.map Req.max).take j).map fun m => m.getD 0).sum + (((subs.map Req.max).drop j).map fun m => m.getD 0).sum := by
        rw [← List.sum_append, ← List.map_append, List.take_append_drop]
      have a1 := sum_map_le ((subs.map Req.max).take j) (capAt (k + 1)) (fun m => m.getD 0) fun mx hm => hcap _ _ (List.mem_of_mem_take hm)
      have a2 := sum_map_le ((subs.map Req.max).drop j) (capAt k) (fun m => m.getD 0) fun mx hm => hcap _ _ (List.mem_of_mem_drop hm)
      unfold level at h1
      rw [List.sum_append] at h1
      have b1 := map_eq_of_sum_eq ((subs.map Req.max).take j) (capAt (k + 1)) (fun m => m.getD 0) (fun mx hm => hcap _ _ (List.mem_of_mem_take hm)) (by omega)
      have b2 := map_eq_of_sum_eq ((subs.map Req.max).drop j) (capAt k) (fun m => m.getD 0) (fun mx hm => hcap _ _ (List.mem_of_mem_drop hm)) (by omega)
      have hget : (subs.map Req.max)[i]? = some r.max := by simp [hr]
      have hfin : r.min ≤ r.max.getD 0 := by
        cases hx : r.max with
        | none => exact absurd (List.mem_map.mpr ⟨r, hrm, hx⟩) hnn
        | some m => exact hmax r hrm m hx
      split
      · rename_i hlt
        rw [b1 r.max (List.mem_of_getElem? (i := i) (by rw [List.getElem?_take, if_pos hlt]; exact hget))]; exact hfin
      · rename_i hlt
        rw [b2 r.max (List.mem_of_getElem? (i := i - j) (by rw [List.getElem?_drop]; rw [show j + (i - j) = i by omega]; exact hget))]; exact hfin

example : ∀ r ∈ ([⟨1, none⟩, ⟨2, some 3⟩] : List Req), ∀ m, r.max = some m → r.min ≤ m := by simp
example : (2 : Nat) * (parReqProcs [⟨1, none⟩, ⟨2, some 3⟩]).1 ≤ 5 := by decide

/-- C51 is false of the code: with four processes for requests of one and three, which fit exactly, each gets two. -/
theorem C51_min_refuted : ∃ (subs : List Req) (a : Alloc), (subs.map Req.min).sum ≤ 4 ∧ (∀ fuel : Nat, 4 ≤ fuel → parAlloc fuel 4 subs = some (.ok a)) ∧ ¬ MinMet 4 subs a := by
  refine ⟨[⟨1, none⟩, ⟨3, some 3⟩], ⟨[(2, [0]), (2, [1])], 4⟩, by decide, ?_, ?_⟩
  · intro fuel hf
    obtain ⟨a, h1, -⟩ := C51_enough_fair (size := 4) (subs := [⟨1, none⟩, ⟨3, some 3⟩]) (by decide) (by decide) (by decide)
    rw [h1 fuel hf, ← h1 4 (by omega)]
    decide
  · intro h
    have := h 1 ⟨3, some 3⟩ rfl
    revert this
    decide

/-! ## Termination of the distribution of left over processes -/

theorem bucketCap_ge (subs : List Req) (b : Bucket) : b.1 ≤ bucketCap subs b := by
  obtain ⟨p, l⟩ := b
  unfold bucketCap
  simp only
  induction l with
  | nil => simp
  | cons i l ih => simp only [List.foldr_cons]; exact le_trans ih (Nat.le_max_right _ _)

theorem lt_bucketCap_iff (subs : List Req) (b : Bucket) (hf : none ∉ subs.map Req.max) : b.1 < bucketCap subs b ↔ canGrow (subs.map Req.max) b = true := by
  obtain ⟨p, l⟩ := b
  unfold bucketCap canGrow
  simp only
  induction l with
  | nil => simp
  | cons i l ih =>
    simp only [List.foldr_cons, List.any_cons, Bool.or_eq_true, ← ih]
    have hi : canUse (subs.map Req.max) i p = true ↔ p < (subs[i]?.bind Req.max).getD 0 := by
      unfold canUse
      rw [List.getElem?_map]
      cases h : subs[i]? with
      | none => simp
      | some r =>
        cases hx : r.max with
        | none => exact absurd (List.mem_map.mpr ⟨r, List.mem_of_getElem? h, hx⟩) hf
        | some m => simp [hx, belowMax]
    rw [hi]
    exact lt_max_iff

theorem foldr_max_start (subs : List Req) (l : List Nat) (x y : Nat) : (l.foldr (fun i m => Nat.max ((subs[i]?.bind Req.max).getD 0) m) (max x y)) =
    max (l.foldr (fun i m => Nat.max ((subs[i]?.bind Req.max).getD 0) m) x) y := by
  induction l with
  | nil => rfl
  | cons i l ih =>
    simp only [List.foldr_cons]
    rw [ih]
    exact (Nat.max_assoc _ _ _).symm

theorem bucketCap_grown (subs : List Req) (b c : Bucket) (h2 : c.2 = b.2) (h1 : b.1 ≤ c.1) (hc : c.1 ≤ bucketCap subs b) : bucketCap subs c = bucketCap subs b := by
  obtain ⟨p, l⟩ := b
  obtain ⟨q, l'⟩ := c
  simp only at h1 h2
  subst h2
  unfold bucketCap at hc ⊢
  simp only at hc ⊢
  have e := foldr_max_start subs l' p q
  rw [Nat.max_eq_right h1] at e
  rw [e, Nat.max_eq_left hc]

theorem growPass_cap (subs : List Req) (hf : none ∉ subs.map Req.max) (bs : List Bucket) {r : Nat} (hr : 0 < r) :
    ((growPass (subs.map Req.max) bs r).1.map (bucketCap subs)).sum = (bs.map (bucketCap subs)).sum := by
  have h := (growPass_spec (subs.map Req.max) bs r hr).2.1
  generalize (growPass (subs.map Req.max) bs r).1 = cs at h
  induction h with
  | nil => rfl
  | cons h1 _ ih =>
    rename_i b c l1 l2 _
    have e : bucketCap subs c = bucketCap subs b := by
      obtain ⟨h2, h3⟩ := h1
      rcases h3 with h3 | ⟨hg, h3⟩
      · exact bucketCap_grown subs b c h2 (by omega) (by rw [h3]; exact bucketCap_ge subs b)
      · have := (lt_bucketCap_iff subs b hf).mpr hg
        exact bucketCap_grown subs b c h2 (by omega) (by omega)
    simp only [List.map_cons, List.sum_cons, e, ih]

theorem growLoop_total (subs : List Req) (hf : none ∉ subs.map Req.max) : ∀ (fuel : Nat) (st : List Bucket × Nat), (st.1.map Prod.fst).sum + st.2 ≤ (st.1.map (bucketCap subs)).sum → st.2 ≤ fuel →
    ∃ r, growLoop (subs.map Req.max) fuel st = some r := by
  intro fuel
  induction fuel with
  | zero => intro st _ h0; unfold growLoop; rw [if_neg (by omega)]; exact ⟨_, rfl⟩
  | succ f ih =>
    intro st hcap hfu
    unfold growLoop
    by_cases hr : 0 < st.2
    · rw [if_pos hr]
      simp only
      have hex : ∃ b ∈ st.1, canGrow (subs.map Req.max) b = true := by
        by_contra hc
        push Not at hc
        have : (st.1.map (bucketCap subs)).sum ≤ (st.1.map Prod.fst).sum := by
          apply sum_map_le
          intro b hb
          by_contra hlt
          exact hc b hb ((lt_bucketCap_iff subs b hf).mp (by omega))
        omega
      obtain ⟨g1, _, _, g4⟩ := growPass_spec (subs.map Req.max) st.1 st.2 hr
      have := g4 hex
      have e := growPass_cap subs hf st.1 hr
      exact ih _ (by rw [e]; omega) (by omega)
    · rw [if_neg hr]; exact ⟨_, rfl⟩

theorem growLoop_hangs (subs : List Req) (hf : none ∉ subs.map Req.max) : ∀ (fuel : Nat) (st : List Bucket × Nat), (st.1.map (bucketCap subs)).sum < (st.1.map Prod.fst).sum + st.2 →
    growLoop (subs.map Req.max) fuel st = none := by
  have hpos : ∀ st : List Bucket × Nat, (st.1.map (bucketCap subs)).sum < (st.1.map Prod.fst).sum + st.2 → 0 < st.2 := by
    intro st h
    have := sum_map_le st.1 Prod.fst (bucketCap subs) fun b _ => bucketCap_ge subs b
    omega
  intro fuel
  induction fuel with
  | zero => intro st h; unfold growLoop; rw [if_pos (hpos st h)]
  | succ f ih =>
    intro st h
    unfold growLoop
    have hr := hpos st h
    rw [if_pos hr]
    simp only
    obtain ⟨g1, _, _, _⟩ := growPass_spec (subs.map Req.max) st.1 st.2 hr
    exact ih _ (by rw [growPass_cap subs hf st.1 hr]; omega)

theorem growLoop_unbounded (mxs : List (Option Nat)) : ∀ (fuel : Nat) (st : List Bucket × Nat), (∃ b ∈ st.1, ∃ i ∈ b.2, mxs[i]? = some none) → st.2 ≤ fuel →
    ∃ r, growLoop mxs fuel st = some r := by
  intro fuel
  induction fuel with
  | zero => intro st _ h0; unfold growLoop; rw [if_neg (by omega)]; exact ⟨_, rfl⟩
  | succ f ih =>
    intro st hex hfu
    unfold growLoop
    by_cases hr : 0 < st.2
    · rw [if_pos hr]
      simp only
      obtain ⟨b, hb, i, hi, hm⟩ := hex
      have hg : canGrow mxs b = true := by
        unfold canGrow
        rw [List.any_eq_true]
        exact ⟨i, hi, by unfold canUse; rw [hm]; rfl⟩
      obtain ⟨_, _, _, g4⟩ := growPass_spec mxs st.1 st.2 hr
      have := g4 ⟨b, hb, hg⟩
      refine ih _ ?_ (by omega)
      have hgr := growPass_grown mxs st.1 hr
      generalize (growPass mxs st.1 st.2).1 = cs at hgr
      have : ∃ c ∈ cs, c.2 = b.2 := by
        clear hr ih this g4
        unfold Grown at hgr
        generalize st.1 = x at hgr hb
        induction hgr with
        | nil => simp at hb
        | cons h1 _ ih2 =>
          rcases List.mem_cons.mp hb with rfl | hb
          · exact ⟨_, by simp, h1.1⟩
          · obtain ⟨c, hc, e⟩ := ih2 hb
            exact ⟨c, by simp [hc], e⟩
      obtain ⟨c, hc, e⟩ := this
      exact ⟨c, hc, i, e ▸ hi, hm⟩
    · rw [if_neg hr]; exact ⟨_, rfl⟩

/-- C51 (partial). Exactly when the allocation finishes if there are fewer processes than requested: with `bs` the packed buckets, some subsystem must be unbounded or the buckets must be able
to take all processes. Missing: it does not always finish, see `C51_hangs_refuted`. -/
theorem C51_grouped_terminates_iff_partial {size : Nat} {subs : List Req} (hpos : ∀ r ∈ subs, r.min ≠ 0) (hfit : (parReqProcs subs).1 ≤ size) (hfew : size < (subs.map Req.min).sum) :
    ∃ (bs : List Bucket) (rem : Nat), pack size (sortedReqs (subs.map Req.min)) = .ok (bs, rem) ∧
      ((∃ (fuel : Nat) (a : Alloc), parAlloc fuel size subs = some (.ok a)) ↔ (∃ r ∈ subs, r.max = none) ∨ size ≤ (bs.map (bucketCap subs)).sum) := by
  have hf : ∀ r ∈ subs.map Req.min, r ≤ size := by
    intro q hq
    obtain ⟨r, hr, rfl⟩ := List.mem_map.mp hq
    obtain ⟨f1, f2, f3⟩ := reqStep_fst subs (0, some 0)
    have := f2 r hr
    unfold parReqProcs at hfit; simp only at hfit
    split at hfit <;> omega
  obtain ⟨⟨bs, rem⟩, e, hi, _⟩ := pack_ok hf
  refine ⟨bs, rem, e, ?_⟩
  have e1 : ¬ subs.any (fun r => decide (r.min = 0)) = true := by simpa using hpos
  have e2 : ¬ (subs.map Req.min).sum = 0 := by omega
  have e3 : ¬ size ≥ (subs.map Req.min).sum := by omega
  have hred : ∀ fuel, (∃ a : Alloc, parAlloc fuel size subs = some (.ok a)) ↔ ∃ r, growLoop (subs.map Req.max) fuel (bs, rem) = some r := by
    intro fuel
    unfold parAlloc
    rw [if_neg e1, if_neg e2, if_neg e3, e]
    simp only
    cases growLoop (subs.map Req.max) fuel (bs, rem) with
    | none => simp
    | some r => simp
  simp only [hred]
  have htot := hi.total
  simp only at htot
  by_cases hun : ∃ r ∈ subs, r.max = none
  · simp only [hun, true_or, iff_true]
    obtain ⟨r, hr, hx⟩ := hun
    obtain ⟨i, hir⟩ := List.mem_iff_getElem?.mp hr
    have hmem : i ∈ bs.flatMap Prod.snd := by
      rw [hi.members.mem_iff]
      rw [((sortedReqs_perm (subs.map Req.min)).map Prod.snd).mem_iff, snd_zipIdx, List.mem_range, List.length_map]
      exact (List.getElem?_eq_some_iff.mp hir).1
    obtain ⟨b, hb, hib⟩ := List.mem_flatMap.mp hmem
    exact ⟨rem, growLoop_unbounded _ rem (bs, rem) ⟨b, hb, i, hib, by simp [hir, hx]⟩ (Nat.le_refl _)⟩
  · have hnn : none ∉ subs.map Req.max := by
      intro h; obtain ⟨r, hr, hx⟩ := List.mem_map.mp h; exact hun ⟨r, hr, hx⟩
    simp only [hun, false_or]
    constructor
    · rintro ⟨fuel, r, hr⟩
      by_contra hc
      rw [growLoop_hangs subs hnn fuel (bs, rem) (by simp only; omega)] at hr
      simp at hr
    · intro hle
      exact ⟨rem, growLoop_total subs hnn rem (bs, rem) (by simp only; omega) (Nat.le_refl _)⟩

example : (∀ r ∈ ([⟨3, some 3⟩, ⟨3, none⟩] : List Req), r.min ≠ 0) ∧ (parReqProcs [⟨3, some 3⟩, ⟨3, none⟩]).1 ≤ 4 ∧ (4 : Nat) < (([⟨3, some 3⟩, ⟨3, none⟩] : List Req).map Req.min).sum := by decide

/-- C51 (partial). The common case: every subsystem needs one process. Then the allocation always finishes and every subsystem gets at least one process. -/
theorem C51_unit_requests_partial {size : Nat} {subs : List Req} (hone : ∀ r ∈ subs, r.min = 1) (hmax : ∀ r ∈ subs, r.max ≠ some 0) (hne : subs ≠ []) (hsz : 0 < size) :
    ∃ a : Alloc, (∀ fuel : Nat, size ≤ fuel → parAlloc fuel size subs = some (.ok a)) ∧ ∀ i : Nat, i < subs.length → 1 ≤ procsOf size a i := by
  have hsum : (subs.map Req.min).sum = subs.length := by
    have : subs.map Req.min = List.replicate subs.length 1 := by
      rw [List.eq_replicate_iff]
      refine ⟨by simp, ?_⟩
      intro b hb
      obtain ⟨r, hr, rfl⟩ := List.mem_map.mp hb
      exact hone r hr
    rw [this]; simp
  have hpos : ∀ r ∈ subs, r.min ≠ 0 := fun r hr => by rw [hone r hr]; simp
  have hM : (parReqProcs subs).1 ≤ 1 := by
    obtain ⟨f1, f2, f3⟩ := reqStep_fst subs (0, some 0)
    have : (subs.foldl reqStep (0, some 0)).1 ≤ 1 := by
      rcases f3 with f3 | ⟨r, hr, f3⟩
      · rw [f3]; simp
      · rw [f3, hone r hr]
    unfold parReqProcs; simp only; split <;> omega
  have hfin : ∀ a fuel, parAlloc fuel size subs = some (.ok a) → ∀ i : Nat, i < subs.length → 1 ≤ procsOf size a i := by
    intro a fuel h i hi
    have hmm : MinMet size subs a := by
      refine C51_min_partial ?_ ?_ h
      · intro r hr m hm
        rw [hone r hr]
        have := hmax r hr
        rw [hm] at this
        cases m with
        | zero => simp at this
        | succ m => omega
      · by_cases hl : subs.length ≤ size
        · left; calc subs.length * (parReqProcs subs).1 ≤ subs.length * 1 := Nat.mul_le_mul_left _ hM
            _ ≤ size := by omega
        · right; omega
    have := hmm i subs[i] (List.getElem?_eq_getElem hi)
    rw [hone _ (List.getElem_mem hi)] at this
    exact this
  by_cases hl : subs.length ≤ size
  · obtain ⟨a, h1, -⟩ := C51_enough_fair hpos hne (by omega : (subs.map Req.min).sum ≤ size)
    exact ⟨a, h1, hfin a size (h1 size (Nat.le_refl _))⟩
  · have hf : ∀ r ∈ subs.map Req.min, r ≤ size := by
      intro q hq
      obtain ⟨r, hr, rfl⟩ := List.mem_map.mp hq
      rw [hone r hr]; omega
    obtain ⟨⟨bs, rem⟩, e, hi, h1⟩ := pack_ok hf
    have hrem : rem = 0 := by
      have := h1 (by intro q hq; obtain ⟨r, hr, rfl⟩ := List.mem_map.mp hq; exact hone r hr)
      simp only [List.length_map] at this; omega
    subst hrem
    have hval : ∀ fuel, parAlloc fuel size subs = some (.ok ⟨bs, size - 0⟩) := by
      intro fuel
      unfold parAlloc
      have e1 : ¬ subs.any (fun r => decide (r.min = 0)) = true := by simpa using hpos
      rw [if_neg e1, if_neg (by omega), if_neg (by omega), e]
      simp only
      unfold growLoop
      simp
    exact ⟨_, fun fuel _ => hval fuel, hfin _ 0 (hval 0)⟩

example : parAlloc 2 2 [⟨1, some 1⟩, ⟨1, none⟩, ⟨1, some 1⟩] = some (.ok ⟨[(1, [2]), (1, [1, 0])], 2⟩) := by decide

/-- C51 is false of the code: two subsystems that need exactly three processes each on four processes. Both are put into one bucket of three, the fourth process can be given to nobody and the loop
never ends. -/
theorem C51_hangs_refuted : ∃ subs : List Req, (parReqProcs subs).1 ≤ 4 ∧ (∀ r ∈ subs, r.min ≠ 0) ∧ ∀ fuel : Nat, parAlloc fuel 4 subs = none := by
  refine ⟨[⟨3, some 3⟩, ⟨3, some 3⟩], by decide, by decide, ?_⟩
  intro fuel
  have e : pack 4 (sortedReqs (([⟨3, some 3⟩, ⟨3, some 3⟩] : List Req).map Req.min)) = .ok ([(3, [1, 0])], 1) := by decide
  unfold parAlloc
  rw [if_neg (by decide), if_neg (by decide), if_neg (by decide), e]
  simp only
  rw [growLoop_hangs [⟨3, some 3⟩, ⟨3, some 3⟩] (by decide) fuel ([(3, [1, 0])], 1) (by decide)]

end OpenMDAO
