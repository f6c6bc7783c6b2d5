import Verif.Spec.Comms
import Verif.Props.ParGroup
import Verif.Props.ArrayUtil
/-! Theorems about the set-up of communicators over the tree (C164, C165). -/
namespace OpenMDAO
set_option linter.unusedSectionVars false

/-! ## Splitting a communicator -/

theorem count_take_lt {l : List (Option Nat)} {k : Nat} {c : Option Nat} (h : l[k]? = some c) : (l.take k).count c < l.count c := by
  rw [List.getElem?_eq_some_iff] at h
  obtain ⟨hk, h⟩ := h
  have e : l.count c = (l.take k).count c + (l.drop k).count c := by rw [← List.count_append, List.take_append_drop]
  rw [e, List.drop_eq_getElem_cons hk, h, List.count_cons_self]
  omega

theorem count_take_inj {l : List (Option Nat)} {k m : Nat} {c : Option Nat} (hk : l[k]? = some c) (hm : l[m]? = some c) (h : (l.take k).count c = (l.take m).count c) : k = m := by
  by_contra hne
  have key : ∀ a b : Nat, a < b → l[a]? = some c → (l.take a).count c < (l.take b).count c := by
    intro a b hab ha
    have e : (l.take b).take a = l.take a := by rw [List.take_take, Nat.min_eq_left (by omega)]
    rw [← e]
    apply count_take_lt
    rw [List.getElem?_take, if_pos hab, ha]
  rcases Nat.lt_or_gt_of_ne hne with h' | h'
  · have := key k m h' hk; omega
  · have := key m k h' hm; omega

theorem exists_rank (l : List (Option Nat)) (c : Option Nat) : ∀ r : Nat, r < l.count c → ∃ k : Nat, l[k]? = some c ∧ (l.take k).count c = r := by
  induction l with
  | nil => intro r h; simp at h
  | cons a l ih =>
    intro r h
    by_cases ha : a = c
    · subst ha
      rw [List.count_cons_self] at h
      cases r with
      | zero => exact ⟨0, by simp, by simp⟩
      | succ r =>
        obtain ⟨k, h1, h2⟩ := ih r (by omega)
        exact ⟨k + 1, by simpa using h1, by rw [List.take_succ_cons, List.count_cons_self, h2]⟩
    · rw [List.count_cons_of_ne ha] at h
      obtain ⟨k, h1, h2⟩ := ih r h
      exact ⟨k + 1, by simpa using h1, by rw [List.take_succ_cons, List.count_cons_of_ne ha, h2]⟩

/-! ## Every component has as many processes as it asked for -/

/-- The rank of a communicator is below its size. -/
def PComm.Valid (c : PComm) : Prop := ∀ s k : Nat, c = .comm s k → k < s

theorem splitComm_valid {colors : List (Option Nat)} {k : Nat} {c : Option Nat} (h : colors[k]? = some c) : (splitComm colors k c).Valid := by
  intro s j e
  unfold splitComm at e
  injection e with e1 e2
  subst e1 e2
  exact count_take_lt h

theorem parSub_valid {colors : List (Option Nat)} {k c : Nat} (h : colors[k]? = some (some c)) (bs : List Bucket) (i : Nat) : (parSub colors k bs c i).Valid := by
  unfold parSub
  split
  · intro s j e; cases e
  · split
    · exact splitComm_valid h
    · intro s j e; cases e

theorem fdComm_valid {num : Nat} {c c' : PComm} (hv : c.Valid) (h : fdComm num c = .ok c') : c'.Valid := by
  unfold fdComm at h
  split at h
  · cases h
  split at h
  · split at h
    · cases h
    · split at h
      · cases h
      · split at h
        · cases h
        · rename_i hk
          injection h with h
          subst h
          exact splitComm_valid hk
  · injection h with h; subst h; exact hv

/-- What is wanted of one component. -/
def Enough (r : Req) (p : Place) : Prop := ∀ n j : Nat, p = .on n j → r.min ≤ n ∧ j < n

theorem forall2_unset (l : List Req) : List.Forall₂ Enough l (List.replicate l.length .unset) := by
  induction l with
  | nil => exact .nil
  | cons r l ih => exact .cons (by intro n j h; cases h) ih

mutual
theorem count_comps : ∀ t : CTree, t.count = t.comps.length
  | .comp _ => rfl
  | .group subs => by simp only [CTree.count, CTree.comps]; exact counts_comps subs
  | .par subs => by simp only [CTree.count, CTree.comps]; exact counts_comps subs
  | .fd _ subs => by simp only [CTree.count, CTree.comps]; exact counts_comps subs
theorem counts_comps : ∀ ts : List CTree, treeCounts ts = (treeComps ts).length
  | [] => rfl
  | t :: ts => by simp only [treeCounts, treeComps, List.length_append, count_comps t, counts_comps ts]
end

theorem setupTrees_cons {fuel : Nat} {t : CTree} {ts : List CTree} {f : Nat → PComm} {i : Nat} {ps : List Place} (h : setupTrees fuel (t :: ts) f i = some (.ok ps)) :
    ∃ p q : List Place, setupTree fuel t (f i) = some (.ok p) ∧ setupTrees fuel ts f (i + 1) = some (.ok q) ∧ ps = p ++ q := by
  unfold setupTrees at h
  cases h1 : setupTree fuel t (f i) with
  | none => rw [h1] at h; cases h
  | some o =>
    cases o with
    | error e => rw [h1] at h; cases h
    | ok p =>
      rw [h1] at h
      dsimp only at h
      cases h2 : setupTrees fuel ts f (i + 1) with
      | none => rw [h2] at h; cases h
      | some o =>
        cases o with
        | error e => rw [h2] at h; cases h
        | ok q =>
          rw [h2] at h
          injection h with h
          injection h with h
          exact ⟨p, q, rfl, rfl, h.symm⟩

mutual
theorem tree_sound (fuel : Nat) : ∀ (t : CTree) (c : PComm) (ps : List Place), c.Valid → setupTree fuel t c = some (.ok ps) → List.Forall₂ Enough t.comps ps
  | .comp r, c, ps, hv, h => by
    simp only [setupTree] at h
    split at h
    · cases h
    · rename_i hs
      injection h with h
      injection h with h
      subst h
      refine .cons ?_ .nil
      intro n j e
      cases c with
      | null => cases e
      | comm s k =>
        simp only [placeOf] at e
        injection e with e1 e2
        subst e1 e2
        refine ⟨?_, hv _ _ rfl⟩
        simpa [tooSmall] using hs
  | .group subs, c, ps, hv, h => by
    simp only [setupTree] at h
    split at h
    · cases h
    · exact trees_sound fuel subs _ 0 ps (fun _ => hv) h
  | .par subs, .null, ps, hv, h => by
    simp only [setupTree] at h
    exact trees_sound fuel subs _ 0 ps (fun _ => hv) h
  | .par subs, .comm s k, ps, hv, h => by
    simp only [setupTree] at h
    split at h
    · cases h
    · cases h
    · split at h
      · cases h
      · injection h with h
        injection h with h
        subst h
        rw [counts_comps]
        exact forall2_unset _
      · rename_i c hc
        exact trees_sound fuel subs _ 0 ps (fun i => parSub_valid hc _ i) h
  | .fd num subs, c, ps, hv, h => by
    simp only [setupTree] at h
    split at h
    · cases h
    · rename_i c' hc'
      exact trees_sound fuel subs _ 0 ps (fun _ => fdComm_valid hv hc') h
theorem trees_sound (fuel : Nat) : ∀ (ts : List CTree) (f : Nat → PComm) (i : Nat) (ps : List Place), (∀ i, (f i).Valid) → setupTrees fuel ts f i = some (.ok ps) →
    List.Forall₂ Enough (treeComps ts) ps
  | [], f, i, ps, hv, h => by
    simp only [setupTrees] at h
    injection h with h
    injection h with h
    subst h
    exact .nil
  | t :: ts, f, i, ps, hv, h => by
    obtain ⟨p, q, h1, h2, rfl⟩ := setupTrees_cons h
    exact List.rel_append (tree_sound fuel t _ p (hv i) h1) (trees_sound fuel ts f (i + 1) q hv h2)
end

/-- C164. When the set-up of a problem ends without an exception on a process, every component that runs on this process has a communicator with at least as many processes as it asked for, whatever the
tree of groups, parallel groups and parallel FD groups above it. -/
theorem C164_enough {fuel : Nat} {t : CTree} {size rank : Nat} {ps : List Place} (hr : rank < size) (h : problemComms fuel t size rank = some (.ok ps)) :
    ps.length = t.comps.length ∧ ∀ (i n j : Nat) (r : Req), t.comps[i]? = some r → ps[i]? = some (.on n j) → r.min ≤ n ∧ j < n := by
  unfold problemComms at h
  split at h
  · have hs := tree_sound fuel t _ ps (by intro s k e; injection e with e1 e2; subst e1 e2; exact hr) h
    refine ⟨hs.length_eq.symm, ?_⟩
    intro i n j r h1 h2
    rw [List.getElem?_eq_some_iff] at h1 h2
    obtain ⟨a1, rfl⟩ := h1
    obtain ⟨a2, e2⟩ := h2
    exact List.Forall₂.get hs a1 a2 n j e2
  · cases h

/-! ## The communicator of a component is the same on all its processes -/

/-- One communicator of `n` processes, seen from the `s` processes: each of them is outside or has a rank of its own. -/
structure Fam (s : Nat) (c : Nat → PComm) (n : Nat) : Prop where
  inside : ∀ k, k < s → c k = .null ∨ ∃ r, r < n ∧ c k = .comm n r
  rank : ∀ r, r < n → ∃ k, k < s ∧ c k = .comm n r
  inj : ∀ r k k', k < s → k' < s → c k = .comm n r → c k' = .comm n r → k = k'

/-- The communicator that a place holds. -/
def commOfPlace : Option Place → PComm
  | some (.on n j) => .comm n j
  | _ => .null

/-- The communicators after a split by the color `x`. -/
def splitFam (colors : List (Option Nat)) (x : Nat) : PComm → PComm
  | .null => .null
  | .comm _ r => if colors[r]? = some (some x) then splitComm colors r (some x) else .null

theorem Fam.split {s n : Nat} {c : Nat → PComm} (h : Fam s c n) {colors : List (Option Nat)} (hl : colors.length = n) (x : Nat) :
    Fam s (fun k => splitFam colors x (c k)) (colors.count (some x)) := by
  refine ⟨?_, ?_, ?_⟩
  · intro k hk
    rcases h.inside k hk with e | ⟨r, hr, e⟩
    · left; rw [e]; rfl
    · rw [e]
      simp only [splitFam]
      by_cases hc : colors[r]? = some (some x)
      · right
        rw [if_pos hc]
        exact ⟨_, count_take_lt hc, rfl⟩
      · left; rw [if_neg hc]
  · intro j hj
    obtain ⟨r, h1, h2⟩ := exists_rank colors (some x) j hj
    have hr : r < n := by rw [← hl]; exact (List.getElem?_eq_some_iff.mp h1).1
    obtain ⟨k, hk, e⟩ := h.rank r hr
    refine ⟨k, hk, ?_⟩
    simp only [e, splitFam, if_pos h1, splitComm, h2]
  · intro j k k' hk hk' e e'
    have key : ∀ k, k < s → splitFam colors x (c k) = .comm (colors.count (some x)) j → ∃ r, c k = .comm n r ∧ colors[r]? = some (some x) ∧ (colors.take r).count (some x) = j := by
      intro k hk e
      rcases h.inside k hk with e0 | ⟨r, hr, e0⟩
      · rw [e0] at e; cases e
      · rw [e0] at e
        simp only [splitFam] at e
        by_cases hc : colors[r]? = some (some x)
        · rw [if_pos hc] at e
          unfold splitComm at e
          injection e with _ e
          exact ⟨r, e0, hc, e⟩
        · rw [if_neg hc] at e; cases e
    obtain ⟨r, a1, a2, a3⟩ := key k hk e
    obtain ⟨r', b1, b2, b3⟩ := key k' hk' e'
    have : r = r' := count_take_inj a2 b2 (by omega)
    subst this
    exact h.inj r k k' hk hk' a1 b1

/-- The set-up of a tree was done on this process, or the process did not get there. -/
def Ran (fuel : Nat) (t : CTree) (c : PComm) (ps : List Place) : Prop :=
  setupTree fuel t c = some (.ok ps) ∨ (c = .null ∧ ps = List.replicate t.count .unset)

/-- The same for the members of a group. -/
def RanL (fuel : Nat) (ts : List CTree) (f : Nat → PComm) (i : Nat) (ps : List Place) : Prop :=
  setupTrees fuel ts f i = some (.ok ps) ∨ ((∀ m, f m = .null) ∧ ps = List.replicate (treeCounts ts) .unset)

mutual
theorem setupTree_length (fuel : Nat) : ∀ (t : CTree) (c : PComm) (ps : List Place), setupTree fuel t c = some (.ok ps) → ps.length = t.count
  | .comp r, c, ps, h => by
    simp only [setupTree] at h
    split at h
    · cases h
    · injection h with h
      injection h with h
      subst h
      rfl
  | .group subs, c, ps, h => by
    simp only [setupTree] at h
    split at h
    · cases h
    · simp only [CTree.count]; exact setupTrees_length fuel subs _ 0 ps h
  | .par subs, .null, ps, h => by
    simp only [setupTree] at h
    simp only [CTree.count]; exact setupTrees_length fuel subs _ 0 ps h
  | .par subs, .comm s k, ps, h => by
    simp only [setupTree] at h
    simp only [CTree.count]
    split at h
    · cases h
    · cases h
    · split at h
      · cases h
      · injection h with h
        injection h with h
        subst h
        simp
      · exact setupTrees_length fuel subs _ 0 ps h
  | .fd num subs, c, ps, h => by
    simp only [setupTree] at h
    simp only [CTree.count]
    split at h
    · cases h
    · exact setupTrees_length fuel subs _ 0 ps h
theorem setupTrees_length (fuel : Nat) : ∀ (ts : List CTree) (f : Nat → PComm) (i : Nat) (ps : List Place), setupTrees fuel ts f i = some (.ok ps) → ps.length = treeCounts ts
  | [], f, i, ps, h => by
    simp only [setupTrees] at h
    injection h with h
    injection h with h
    subst h
    rfl
  | t :: ts, f, i, ps, h => by
    obtain ⟨p, q, h1, h2, rfl⟩ := setupTrees_cons h
    rw [List.length_append, setupTree_length fuel t _ p h1, setupTrees_length fuel ts f _ q h2]
    rfl
end

theorem RanL.cons {fuel : Nat} {t : CTree} {ts : List CTree} {f : Nat → PComm} {i : Nat} {ps : List Place} (h : RanL fuel (t :: ts) f i ps) :
    Ran fuel t (f i) (ps.take t.count) ∧ RanL fuel ts f (i + 1) (ps.drop t.count) := by
  rcases h with h | ⟨h1, h2⟩
  · obtain ⟨p, q, h1, h2, rfl⟩ := setupTrees_cons h
    have hl := setupTree_length fuel t _ p h1
    constructor
    · left; rw [← hl, List.take_left]; exact h1
    · left; rw [← hl, List.drop_left]; exact h2
  · subst h2
    constructor
    · right
      refine ⟨h1 i, ?_⟩
      rw [List.take_replicate]
      simp only [treeCounts]
      rw [Nat.min_eq_left (by omega)]
    · right
      refine ⟨h1, ?_⟩
      rw [List.drop_replicate]
      simp only [treeCounts]
      rw [Nat.add_sub_cancel_left]

/-- The members of a parallel group as their processes see them. -/
def parFam (s : Nat) (a : Alloc) : PComm → Nat → PComm
  | .null => fun _ => .null
  | .comm _ r => match (parColors s a)[r]? with
    | some (some c) => parSub (parColors s a) r a.buckets c
    | _ => fun _ => .null

theorem parFam_split {s n : Nat} {a : Alloc} (hg : GoodAlloc s n a) {i x : Nat} {b : Bucket} (hb : a.buckets[x]? = some b) (hi : i ∈ b.2) (c : PComm) :
    parFam s a c i = splitFam (parColors s a) x c := by
  cases c with
  | null => rfl
  | comm m r =>
    simp only [parFam, splitFam]
    cases hc : (parColors s a)[r]? with
    | none => simp
    | some o =>
      cases o with
      | none => simp
      | some y =>
        simp only [Option.some.injEq]
        unfold parSub
        by_cases hy : y = x
        · subst hy; rw [if_pos rfl]; rw [hb]; simp [hi]
        · rw [if_neg hy]
          cases hb' : a.buckets[y]? with
          | none => rfl
          | some b' =>
            have : i ∉ b'.2 := fun hi' => hy (bucket_unique (good_nodup hg) hb' hb hi' hi)
            simp [this]

theorem setupTrees_null_shape {fuel : Nat} {subs : List CTree} {c : PComm} {ps : List Place} {s : Nat} {a : Alloc} (ha : parAlloc fuel s (treeReqs subs) = some (.ok a))
    (hc : c = .null ∨ ∃ r, c = .comm s r) (h : Ran fuel (.par subs) c ps) : RanL fuel subs (parFam s a c) 0 ps := by
  rcases h with h | ⟨h1, h2⟩
  · rcases hc with rfl | ⟨r, rfl⟩
    · left
      simp only [setupTree] at h
      exact h
    · simp only [setupTree, ha] at h
      unfold parFam
      split at h
      · cases h
      · rename_i hr
        injection h with h
        injection h with h
        right
        simp only [hr]
        exact ⟨fun _ => trivial, h.symm⟩
      · rename_i hr
        left
        simp only [hr]
        exact h
  · subst h1
    right
    exact ⟨fun _ => rfl, by simpa only [CTree.count] using h2⟩

/-- Trees whose components need one process each and can use at least one. -/
def UnitReqs (l : List Req) : Prop := ∀ r ∈ l, r.min = 1 ∧ r.max ≠ some 0

theorem groupReq_unit {l : List Req} (h : UnitReqs l) : (groupReq l).min = 1 ∧ (groupReq l).max ≠ some 0 := by
  unfold groupReq
  have : ∀ (l : List Req) (acc : Req), UnitReqs l → acc.min = 1 → acc.max ≠ some 0 → (l.foldl groupReqStep acc).min = 1 ∧ (l.foldl groupReqStep acc).max ≠ some 0 := by
    intro l
    induction l with
    | nil => intro acc _ h1 h2; exact ⟨h1, h2⟩
    | cons r l ih =>
      intro acc hu h1 h2
      rw [List.foldl_cons]
      have hr := hu r (by simp)
      apply ih _ (fun q hq => hu q (List.mem_cons_of_mem _ hq))
      · unfold groupReqStep; simp [h1, hr.1]
      · unfold groupReqStep
        cases ha : acc.max with
        | none => simp
        | some m =>
          cases hr' : r.max with
          | none => simp
          | some k =>
            rw [ha] at h2
            simp only [ne_eq, Option.some.injEq] at h2 ⊢
            intro e
            have : m ≤ Nat.max m k := Nat.le_max_left _ _
            omega
  exact this l ⟨1, some 1⟩ h rfl (by simp)

theorem reqStep_unit (l : List Req) : ∀ acc : Nat × Option Nat, UnitReqs l → acc.1 ≤ 1 → (l ≠ [] ∨ acc.1 = 1) → (l.foldl reqStep acc).1 = 1 := by
  induction l with
  | nil => intro acc _ h1 h2; rcases h2 with h2 | h2; exact absurd rfl h2; exact h2
  | cons r l ih =>
    intro acc hu h1 _
    have hr := hu r (by simp)
    rw [List.foldl_cons]
    have : (reqStep acc r).1 = 1 := by
      unfold reqStep
      simp only [hr.1]
      split <;> omega
    exact ih _ (fun q hq => hu q (List.mem_cons_of_mem _ hq)) (by omega) (Or.inr this)

theorem parReq_unit {l : List Req} (h : UnitReqs l) : (parReqProcs l).1 = 1 ∧ (parReqProcs l).2 ≠ some 0 := by
  constructor
  · unfold parReqProcs
    cases l with
    | nil => rfl
    | cons r l =>
      have := reqStep_unit (r :: l) (0, some 0) h (by simp) (Or.inl (by simp))
      simp only [this]
      rfl
  · unfold parReqProcs
    simp only
    split
    · simp
    · assumption

mutual
theorem req_unit : ∀ t : CTree, t.FdFree → UnitReqs t.comps → t.req.min = 1 ∧ t.req.max ≠ some 0
  | .comp r, _, h => h r (by simp [CTree.comps])
  | .group subs, hf, h => by simp only [CTree.req]; exact groupReq_unit (reqs_unit subs hf h)
  | .par subs, hf, h => by simp only [CTree.req]; exact parReq_unit (reqs_unit subs hf h)
  | .fd num subs, hf, h => by
    obtain ⟨rfl, hf⟩ := hf
    simp only [CTree.req]
    have := groupReq_unit (reqs_unit subs hf h)
    unfold fdReq
    refine ⟨by simp [this.1], ?_⟩
    cases hm : (groupReq (treeReqs subs)).max with
    | none => simp
    | some m => rw [hm] at this; simpa using this.2
theorem reqs_unit : ∀ ts : List CTree, TreesFdFree ts → UnitReqs (treeComps ts) → UnitReqs (treeReqs ts)
  | [], _, _ => by intro r hr; simp [treeReqs] at hr
  | t :: ts, hf, h => by
    intro r hr
    simp only [treeReqs, List.mem_cons] at hr
    simp only [treeComps] at h
    rcases hr with rfl | hr
    · exact req_unit t hf.1 (fun q hq => h q (List.mem_append_left _ hq))
    · exact reqs_unit ts hf.2 (fun q hq => h q (List.mem_append_right _ hq)) r hr
end

theorem treeReqs_length : ∀ ts : List CTree, (treeReqs ts).length = ts.length
  | [] => rfl
  | t :: ts => by simp [treeReqs, treeReqs_length ts]

/-- Every place of a component in a family of results is one communicator, not empty in the simple case. -/
def PlacesOk (s : Nat) (cnt : Nat) (simple : Prop) (ps : Nat → List Place) : Prop :=
  ∀ i : Nat, i < cnt → ∃ n, Fam s (fun k => commOfPlace ((ps k)[i]?)) n ∧ (simple → 0 < n)

theorem Fam.congr {s n : Nat} {c d : Nat → PComm} (h : Fam s c n) (e : ∀ k, k < s → d k = c k) : Fam s d n := by
  refine ⟨?_, ?_, ?_⟩
  · intro k hk; rw [e k hk]; exact h.inside k hk
  · intro r hr; obtain ⟨k, hk, h1⟩ := h.rank r hr; exact ⟨k, hk, by rw [e k hk]; exact h1⟩
  · intro r k k' hk hk' h1 h2; rw [e k hk] at h1; rw [e k' hk'] at h2; exact h.inj r k k' hk hk' h1 h2

theorem PlacesOk.append {s m n : Nat} {P : Prop} {ps qs rs : Nat → List Place} (h1 : PlacesOk s m P ps) (h2 : PlacesOk s n P qs) (hl : ∀ k, k < s → (ps k).length = m)
    (e : ∀ k, k < s → rs k = ps k ++ qs k) : PlacesOk s (m + n) P rs := by
  intro i hi
  by_cases h : i < m
  · obtain ⟨a, ha, hp⟩ := h1 i h
    refine ⟨a, ha.congr ?_, hp⟩
    intro k hk
    rw [e k hk, List.getElem?_append_left (by rw [hl k hk]; exact h)]
  · obtain ⟨a, ha, hp⟩ := h2 (i - m) (by omega)
    refine ⟨a, ha.congr ?_, hp⟩
    intro k hk
    rw [e k hk, List.getElem?_append_right (by rw [hl k hk]; omega), hl k hk]

/-- The simple case: one process for each component, and no empty parallel group. -/
def Simple (t : CTree) : Prop := t.ParNonempty ∧ UnitReqs t.comps

/-- For some trees. -/
def SimpleL (ts : List CTree) : Prop := TreesParNonempty ts ∧ UnitReqs (treeComps ts)

theorem Ran.length {fuel : Nat} {t : CTree} {c : PComm} {ps : List Place} (h : Ran fuel t c ps) : ps.length = t.count := by
  rcases h with h | ⟨_, rfl⟩
  · exact setupTree_length fuel t c ps h
  · simp

theorem RanL.length {fuel : Nat} {ts : List CTree} {f : Nat → PComm} {i : Nat} {ps : List Place} (h : RanL fuel ts f i ps) : ps.length = treeCounts ts := by
  rcases h with h | ⟨_, rfl⟩
  · exact setupTrees_length fuel ts f i ps h
  · simp

theorem ran_same {fuel : Nat} {subs : List CTree} {c : PComm} {ps : List Place} (h : setupTrees fuel subs (fun _ => c) 0 = some (.ok ps) ∨ (c = .null ∧ ps = List.replicate (treeCounts subs) .unset)) :
    RanL fuel subs (fun _ => c) 0 ps := by
  rcases h with h | ⟨h1, h2⟩
  · exact Or.inl h
  · exact Or.inr ⟨fun _ => h1, h2⟩

mutual
theorem tree_fam (fuel s : Nat) (S : Prop) : ∀ (t : CTree) (c : Nat → PComm) (ps : Nat → List Place) (n : Nat), t.FdFree → Fam s c n → (S → Simple t ∧ n ≤ fuel ∧ 0 < n) →
    (∀ k, k < s → Ran fuel t (c k) (ps k)) → PlacesOk s t.count S ps
  | .comp r, c, ps, n, hf, hc, hS, h => by
    intro i hi
    have : i = 0 := by simp only [CTree.count] at hi; omega
    subst this
    refine ⟨n, hc.congr ?_, fun hs => (hS hs).2.2⟩
    intro k hk
    rcases h k hk with h | ⟨h1, h2⟩
    · simp only [setupTree] at h
      split at h
      · cases h
      · injection h with h
        injection h with h
        rw [← h]
        cases c k <;> rfl
    · rw [h2, h1]; rfl
  | .group subs, c, ps, n, hf, hc, hS, h => by
    refine trees_fam fuel s S subs (fun k _ => c k) 0 ps hf (fun _ _ => ⟨n, hc, fun hs => (hS hs).2⟩) (fun hs => (hS hs).1) ?_
    intro k hk
    apply ran_same
    rcases h k hk with h | h
    · left
      simp only [setupTree] at h
      split at h
      · cases h
      · exact h
    · exact Or.inr h
  | .par subs, c, ps, n, hf, hc, hS, h => by
    by_cases hn : n = 0
    · -- nobody has the communicator: all processes set up a serial group without one
      subst hn
      have hnull : ∀ k, k < s → c k = .null := by
        intro k hk
        rcases hc.inside k hk with e | ⟨r, hr, _⟩
        · exact e
        · omega
      refine trees_fam fuel s S subs (fun _ _ => .null) 0 ps hf (fun _ _ => ⟨0, hc.congr (fun k hk => (hnull k hk).symm), fun hs => (hS hs).2⟩) (fun hs => ⟨(hS hs).1.1.2, (hS hs).1.2⟩) ?_
      intro k hk
      apply ran_same
      rcases h k hk with h | h
      · left
        rw [hnull k hk] at h
        simpa only [setupTree] using h
      · exact Or.inr ⟨rfl, h.2⟩
    · -- some process has it, so the allocation succeeded
      obtain ⟨k0, hk0, e0⟩ := hc.rank 0 (by omega)
      obtain ⟨a, ha⟩ : ∃ a, parAlloc fuel n (treeReqs subs) = some (.ok a) := by
        rcases h k0 hk0 with h | ⟨h1, _⟩
        · rw [e0] at h
          simp only [setupTree] at h
          split at h
          · cases h
          · cases h
          · exact ⟨_, by assumption⟩
        · rw [e0] at h1; cases h1
      have hg := parAlloc_good ha
      rw [treeReqs_length] at hg
      refine trees_fam fuel s S subs (fun k => parFam n a (c k)) 0 ps hf ?_ (fun hs => ⟨(hS hs).1.1.2, (hS hs).1.2⟩) ?_
      · intro m hm
        obtain ⟨x, b, hb, hi⟩ := good_bucket hg hm
        refine ⟨(parColors n a).count (some x), ?_, ?_⟩
        · apply (hc.split (parColors_length hg.total hg.fits) x).congr
          intro k hk
          rw [Nat.zero_add]
          exact parFam_split hg hb hi (c k)
        · intro hs
          constructor
          · have h1 := parColors_length hg.total hg.fits
            have h2 : (parColors n a).count (some x) ≤ (parColors n a).length := List.count_le_length
            have := (hS hs).2.1
            omega
          · have hu := reqs_unit subs hf (hS hs).1.2
            obtain ⟨a', h1, h2⟩ := C51_unit_requests_partial (size := n) (fun r hr => (hu r hr).1) (fun r hr => (hu r hr).2) (by
              intro e
              have := treeReqs_length subs
              rw [e] at this
              exact (hS hs).1.1.1 (List.length_eq_zero_iff.mp this.symm)) (hS hs).2.2
            have e := h1 fuel (hS hs).2.1
            rw [ha] at e
            injection e with e
            injection e with e
            subst e
            have h3 := h2 m (by rw [treeReqs_length]; exact hm)
            rw [(good_ranks hg hb hi).2] at h3
            rw [parColors_count hb]
            omega
      · intro k hk
        apply setupTrees_null_shape ha _ (h k hk)
        rcases hc.inside k hk with e | ⟨r, _, e⟩
        · exact Or.inl e
        · exact Or.inr ⟨r, e⟩
  | .fd num subs, c, ps, n, hf, hc, hS, h => by
    obtain ⟨rfl, hf⟩ := hf
    refine trees_fam fuel s S subs (fun k _ => c k) 0 ps hf (fun _ _ => ⟨n, hc, fun hs => (hS hs).2⟩) (fun hs => (hS hs).1) ?_
    intro k hk
    apply ran_same
    rcases h k hk with h | h
    · left
      simpa [setupTree, fdComm] using h
    · exact Or.inr h
theorem trees_fam (fuel s : Nat) (S : Prop) : ∀ (ts : List CTree) (f : Nat → Nat → PComm) (i0 : Nat) (ps : Nat → List Place), TreesFdFree ts →
    (∀ m, m < ts.length → ∃ n, Fam s (fun k => f k (i0 + m)) n ∧ (S → n ≤ fuel ∧ 0 < n)) → (S → SimpleL ts) → (∀ k, k < s → RanL fuel ts (f k) i0 (ps k)) →
    PlacesOk s (treeCounts ts) S ps
  | [], f, i0, ps, hf, hm, hS, h => by intro i hi; simp [treeCounts] at hi
  | t :: ts, f, i0, ps, hf, hm, hS, h => by
    obtain ⟨n, hn, hpos⟩ := hm 0 (by simp)
    have h1 := tree_fam fuel s S t (fun k => f k i0) (fun k => (ps k).take t.count) n hf.1 hn
      (fun hs => ⟨⟨(hS hs).1.1, fun r hr => (hS hs).2 r (List.mem_append_left _ hr)⟩, hpos hs⟩) (fun k hk => (h k hk).cons.1)
    have h2 := trees_fam fuel s S ts f (i0 + 1) (fun k => (ps k).drop t.count) hf.2 (by
      intro m hm'
      obtain ⟨n', a1, a2⟩ := hm (m + 1) (by simpa using hm')
      have e : i0 + (m + 1) = i0 + 1 + m := by omega
      rw [e] at a1
      exact ⟨n', a1, a2⟩) (fun hs => ⟨(hS hs).1.2, fun r hr => (hS hs).2 r (List.mem_append_right _ hr)⟩) (fun k hk => (h k hk).cons.2)
    exact h1.append h2 (fun k hk => (h k hk).cons.1.length) (fun k hk => (List.take_append_drop _ _).symm)
end

theorem fam_world (s : Nat) : Fam s (fun k => .comm s k) s :=
  ⟨fun k hk => Or.inr ⟨k, hk, rfl⟩, fun r hr => ⟨r, hr, rfl⟩, fun r k k' _ _ h h' => by injection h with _ h; injection h' with _ h'; omega⟩

/-- The world communicator on every process is what the set-up of the problem starts from. -/
theorem setup_places {fuel : Nat} {t : CTree} {size : Nat} {ps : Nat → List Place} (hf : t.FdFree) (h : SetupOk fuel t size ps) (S : Prop) (hS : S → Simple t ∧ size ≤ fuel ∧ 0 < size) :
    PlacesOk size t.comps.length S ps := by
  rw [← count_comps]
  refine tree_fam fuel size S t (fun k => .comm size k) ps size hf (fam_world size) hS ?_
  intro k hk
  left
  have := h k hk
  unfold problemComms at this
  split at this
  · exact this
  · cases this

theorem commOfPlace_eq {p : Option Place} {n j : Nat} : commOfPlace p = .comm n j ↔ p = some (.on n j) := by
  unfold commOfPlace
  split
  · simp
  · rename_i h
    constructor
    · intro e; cases e
    · intro e; exact absurd e (h n j)

/-- C164. When the set-up ends without an exception on all processes and no finite differences are done in parallel, every component has one communicator: all processes it runs on agree on the number of
processes, their ranks are below that number, and each rank belongs to exactly one process. -/
theorem C164_one_communicator {fuel : Nat} {t : CTree} {size : Nat} {ps : Nat → List Place} (hf : t.FdFree) (h : SetupOk fuel t size ps) (i : Nat) (hi : i < t.comps.length) :
    ∃ n : Nat, (∀ (k m j : Nat), k < size → (ps k)[i]? = some (.on m j) → m = n ∧ j < n) ∧ ∀ j : Nat, j < n → ∃! k : Nat, k < size ∧ (ps k)[i]? = some (.on n j) := by
  obtain ⟨n, hn, -⟩ := setup_places hf h False (fun f => f.elim) i hi
  refine ⟨n, ?_, ?_⟩
  · intro k m j hk e
    rcases hn.inside k hk with e' | ⟨r, hr, e'⟩
    · rw [commOfPlace_eq.mpr e] at e'; cases e'
    · rw [commOfPlace_eq.mpr e] at e'
      injection e' with e1 e2
      omega
  · intro j hj
    obtain ⟨k, hk, e⟩ := hn.rank j hj
    refine ⟨k, ⟨hk, commOfPlace_eq.mp e⟩, ?_⟩
    rintro k' ⟨hk', e'⟩
    exact hn.inj j k' k hk' hk (commOfPlace_eq.mpr e') e

/-! ## One process for each component is always enough -/

theorem setupTrees_ok {fuel : Nat} : ∀ (ts : List CTree) (f : Nat → PComm) (i0 : Nat), (∀ (m : Nat) (t : CTree), ts[m]? = some t → ∃ p, setupTree fuel t (f (i0 + m)) = some (.ok p)) →
    ∃ ps, setupTrees fuel ts f i0 = some (.ok ps)
  | [], f, i0, _ => ⟨[], rfl⟩
  | t :: ts, f, i0, h => by
    obtain ⟨p, hp⟩ := h 0 t rfl
    obtain ⟨q, hq⟩ := setupTrees_ok ts f (i0 + 1) (by
      intro m t' ht
      have e : i0 + 1 + m = i0 + (m + 1) := by omega
      rw [e]
      exact h (m + 1) t' (by simpa using ht))
    rw [Nat.add_zero] at hp
    exact ⟨p ++ q, by unfold setupTrees; rw [hp]; dsimp only; rw [hq]⟩

theorem trees_get {ts : List CTree} (hf : TreesFdFree ts) (hp : TreesParNonempty ts) (hu : UnitReqs (treeComps ts)) {m : Nat} {t : CTree} (h : ts[m]? = some t) :
    t.FdFree ∧ t.ParNonempty ∧ UnitReqs t.comps := by
  induction ts generalizing m with
  | nil => simp at h
  | cons a ts ih =>
    cases m with
    | zero =>
      simp only [List.getElem?_cons_zero, Option.some.injEq] at h
      subst h
      exact ⟨hf.1, hp.1, fun r hr => hu r (List.mem_append_left _ hr)⟩
    | succ m => exact ih hf.2 hp.2 (fun r hr => hu r (List.mem_append_right _ hr)) (by simpa using h)

theorem sizeOf_get {ts : List CTree} {m : Nat} {t : CTree} (h : ts[m]? = some t) : sizeOf t < sizeOf ts := List.sizeOf_lt_of_mem (List.mem_of_getElem? h)

/-- A communicator of a legal rank that does not exceed the fuel. -/
def PComm.Small (fuel : Nat) (c : PComm) : Prop := ∀ s k : Nat, c = .comm s k → k < s ∧ s ≤ fuel

theorem not_tooSmall {fuel : Nat} {c : PComm} (hc : c.Small fuel) {minp : Nat} (hm : minp = 1) : ¬ tooSmall minp c = true := by
  cases c with
  | null => simp [tooSmall]
  | comm s k =>
    have := hc s k rfl
    simp only [tooSmall, decide_eq_true_eq]
    omega

theorem tree_unit_ok (fuel : Nat) : ∀ (t : CTree) (c : PComm), t.FdFree → t.ParNonempty → UnitReqs t.comps → c.Small fuel → ∃ ps, setupTree fuel t c = some (.ok ps)
  | .comp r, c, hf, hp, hu, hc => by
    simp only [setupTree]
    rw [if_neg (not_tooSmall hc (hu r (by simp [CTree.comps])).1)]
    exact ⟨_, rfl⟩
  | .group subs, c, hf, hp, hu, hc => by
    simp only [setupTree]
    rw [if_neg (not_tooSmall hc (groupReq_unit (reqs_unit subs hf hu)).1)]
    apply setupTrees_ok
    intro m t' ht
    obtain ⟨a1, a2, a3⟩ := trees_get hf hp hu ht
    have := sizeOf_get ht
    exact tree_unit_ok fuel t' c a1 a2 a3 hc
  | .par subs, .null, hf, hp, hu, hc => by
    simp only [setupTree]
    apply setupTrees_ok
    intro m t' ht
    obtain ⟨a1, a2, a3⟩ := trees_get hf hp.2 hu ht
    have := sizeOf_get ht
    exact tree_unit_ok fuel t' .null a1 a2 a3 hc
  | .par subs, .comm s k, hf, hp, hu, hc => by
    obtain ⟨hk, hs⟩ := hc s k rfl
    have hr := reqs_unit subs hf hu
    obtain ⟨a, h1, h2⟩ := C51_unit_requests_partial (size := s) (fun r h => (hr r h).1) (fun r h => (hr r h).2) (by
      intro e
      have := treeReqs_length subs
      rw [e] at this
      exact hp.1 (List.length_eq_zero_iff.mp this.symm)) (by omega)
    simp only [setupTree, h1 fuel hs]
    have hg := parAlloc_good (h1 fuel hs)
    have hl := parColors_length hg.total hg.fits
    cases hx : (parColors s a)[k]? with
    | none => rw [List.getElem?_eq_none_iff] at hx; omega
    | some o =>
      cases o with
      | none => exact ⟨_, rfl⟩
      | some x =>
        dsimp only
        apply setupTrees_ok
        intro m t' ht
        obtain ⟨a1, a2, a3⟩ := trees_get hf hp.2 hu ht
        have := sizeOf_get ht
        apply tree_unit_ok fuel t' _ a1 a2 a3
        rw [Nat.zero_add]
        intro s' k' e
        refine ⟨parSub_valid hx _ _ s' k' e, ?_⟩
        unfold parSub at e
        split at e
        · cases e
        · split at e
          · unfold splitComm at e
            injection e with e1 _
            have : (parColors s a).count (some x) ≤ (parColors s a).length := List.count_le_length
            omega
          · cases e
  | .fd num subs, c, hf, hp, hu, hc => by
    obtain ⟨rfl, hf⟩ := hf
    have e : fdComm 1 c = .ok c := by simp [fdComm]
    simp only [setupTree, e]
    apply setupTrees_ok
    intro m t' ht
    obtain ⟨a1, a2, a3⟩ := trees_get hf hp hu ht
    have := sizeOf_get ht
    exact tree_unit_ok fuel t' c a1 a2 a3 hc
termination_by t => sizeOf t
decreasing_by all_goals (simp_wf; omega)

/-- C164 (partial). When every component needs one process and can use one, no parallel group is empty and no finite differences are done in parallel, the set-up ends without an exception on every process
for every number of processes that the problem accepts, and every component runs on at least one process. Missing: other requirements, see `C164_raises_refuted` and `C164_fd_in_parallel_refuted`. -/
theorem C164_unit_partial {fuel : Nat} {t : CTree} {size : Nat} (hf : t.FdFree) (hp : t.ParNonempty) (hu : ∀ r ∈ t.comps, r.min = 1 ∧ r.max ≠ some 0) (hacc : problemAccepts t.req size = true)
    (hfuel : size ≤ fuel) :
    ∃ ps : Nat → List Place, SetupOk fuel t size ps ∧ ∀ i : Nat, i < t.comps.length → ∃ (k n j : Nat), k < size ∧ (ps k)[i]? = some (.on n j) := by
  have hpos : 0 < size := by
    have h1 := (req_unit t hf hu).1
    unfold problemAccepts at hacc
    split at hacc
    · simp only [decide_eq_true_eq] at hacc; omega
    · simp only [Bool.and_eq_true, decide_eq_true_eq] at hacc; omega
  have hok : ∀ k : Nat, ∃ ps, k < size → problemComms fuel t size k = some (.ok ps) := by
    intro k
    by_cases hk : k < size
    · obtain ⟨ps, hps⟩ := tree_unit_ok fuel t (.comm size k) hf hp hu (by intro s k' e; injection e with e1 e2; omega)
      exact ⟨ps, fun _ => by unfold problemComms; rw [if_pos hacc]; exact hps⟩
    · exact ⟨[], fun h => absurd h hk⟩
  choose ps hps using hok
  refine ⟨ps, hps, ?_⟩
  intro i hi
  obtain ⟨n, hn, hn'⟩ := setup_places hf hps True (fun _ => ⟨⟨hp, hu⟩, hfuel, hpos⟩) i hi
  obtain ⟨k, hk, e⟩ := hn.rank 0 (hn' trivial)
  exact ⟨k, n, 0, hk, commOfPlace_eq.mp e⟩

/-- A tree with a group in a parallel group. -/
example : (CTree.group [.comp ⟨1, some 1⟩, .par [.comp ⟨1, none⟩, .group [.comp ⟨1, some 2⟩, .fd 1 [.comp ⟨1, some 1⟩]]]]).FdFree ∧
    (CTree.group [.comp ⟨1, some 1⟩, .par [.comp ⟨1, none⟩, .group [.comp ⟨1, some 2⟩, .fd 1 [.comp ⟨1, some 1⟩]]]]).ParNonempty ∧
    problemAccepts (CTree.group [.comp ⟨1, some 1⟩, .par [.comp ⟨1, none⟩, .group [.comp ⟨1, some 2⟩, .fd 1 [.comp ⟨1, some 1⟩]]]]).req 5 = true ∧
    problemComms 5 (.group [.comp ⟨1, some 1⟩, .par [.comp ⟨1, none⟩, .group [.comp ⟨1, some 2⟩, .fd 1 [.comp ⟨1, some 1⟩]]]]) 5 3 = some (.ok [.on 5 3, .null, .on 2 0, .on 2 0]) := by
  refine ⟨by simp [CTree.FdFree, TreesFdFree], by simp [CTree.ParNonempty, TreesParNonempty], by decide +kernel, by decide +kernel⟩

/-! ## Without parallel groups the accepted numbers are always enough -/

theorem groupReq_ge (l : List Req) : 1 ≤ (groupReq l).min ∧ ∀ r ∈ l, r.min ≤ (groupReq l).min := by
  unfold groupReq
  have : ∀ (l : List Req) (acc : Req), acc.min ≤ (l.foldl groupReqStep acc).min ∧ ∀ r ∈ l, r.min ≤ (l.foldl groupReqStep acc).min := by
    intro l
    induction l with
    | nil => intro acc; simp
    | cons q l ih =>
      intro acc
      rw [List.foldl_cons]
      obtain ⟨h1, h2⟩ := ih (groupReqStep acc q)
      have e : (groupReqStep acc q).min = Nat.max acc.min q.min := rfl
      have e1 : acc.min ≤ Nat.max acc.min q.min := Nat.le_max_left _ _
      have e2 : q.min ≤ Nat.max acc.min q.min := Nat.le_max_right _ _
      refine ⟨by omega, ?_⟩
      intro r hr
      rcases List.mem_cons.mp hr with rfl | hr
      · omega
      · exact h2 r hr
  exact this l ⟨1, some 1⟩

theorem pfdColors_buckets (sizes : List Nat) : pfdColors sizes = (((sizes.map fun n => ((n, []) : Bucket)).zipIdx).flatMap fun p => List.replicate p.1.1 (some p.2)) := by
  unfold pfdColors
  rw [List.zipIdx_map, List.flatMap_map]
  rfl

theorem fdComm_even {num s k minp : Nat} (hn : 1 ≤ num) (hs : minp * num ≤ s) (hk : k < s) : ∃ s' k', fdComm num (.comm s k) = .ok (.comm s' k') ∧ minp ≤ s' ∧ k' < s' := by
  unfold fdComm
  rw [if_neg (by omega)]
  by_cases h1 : num > 1
  · rw [if_pos h1]
    obtain ⟨sizes, offsets, e, hl, -, hsz, -⟩ := evenlyDistribIdxs_eq num s (by omega)
    have hsum : sizes.sum = s := by
      have e' := e
      unfold evenlyDistribIdxs at e'
      rw [if_neg (by omega)] at e'
      injection e' with e'
      injection e' with e1 _
      have h2 := bumpFirst_replicate_take_sum (s % num) num (s / num) num (Nat.le_refl _)
      rw [e1, List.take_of_length_le (by omega)] at h2
      have h3 := Nat.mod_lt s (show num > 0 by omega)
      have h4 := Nat.div_add_mod s num
      rw [h2, Nat.min_eq_right (by omega)]
      exact h4
    dsimp only
    rw [e]
    dsimp only
    have hlen : (pfdColors sizes).length = s := by
      rw [pfdColors_buckets, length_flat_replicate]
      have : ((sizes.map fun n => ((n, []) : Bucket)).zipIdx.map fun p => p.1.1) = sizes := by
        have e : (fun p : Bucket × Nat => p.1.1) = Prod.fst ∘ Prod.fst := rfl
        rw [e, ← List.map_map, List.zipIdx_map_fst, List.map_map]
        simp [Function.comp_def]
      rw [this, hsum]
    cases hx : (pfdColors sizes)[k]? with
    | none => rw [List.getElem?_eq_none_iff] at hx; omega
    | some o =>
      dsimp only
      refine ⟨_, _, rfl, ?_, count_take_lt hx⟩
      have hm := List.mem_of_getElem? hx
      unfold pfdColors at hm
      rw [List.mem_flatMap] at hm
      obtain ⟨q, hq, hq'⟩ := hm
      have := List.eq_of_mem_replicate hq'
      subst this
      rw [pfdColors_buckets, count_flat_replicate, if_pos (by omega)]
      rw [List.mem_zipIdx_iff_getElem?] at hq
      have hi : q.2 < num := by rw [← hl]; exact (List.getElem?_eq_some_iff.mp hq).1
      rw [Nat.sub_zero, List.getElem?_map, hsz q.2 hi]
      simp only [Option.map_some, Option.getD_some]
      have : minp ≤ s / num := (Nat.le_div_iff_mul_le (by omega)).mpr hs
      omega
  · rw [if_neg h1]
    have : num = 1 := by omega
    subst this
    exact ⟨s, k, rfl, by omega, hk⟩

theorem nopar_get {ts : List CTree} (hf : TreesNoPar ts) {m : Nat} {t : CTree} (h : ts[m]? = some t) : t.NoPar ∧ t.req ∈ treeReqs ts := by
  induction ts generalizing m with
  | nil => simp at h
  | cons a ts ih =>
    cases m with
    | zero =>
      simp only [List.getElem?_cons_zero, Option.some.injEq] at h
      subst h
      exact ⟨hf.1, by simp [treeReqs]⟩
    | succ m =>
      obtain ⟨h1, h2⟩ := ih hf.2 (m := m) (by simpa using h)
      exact ⟨h1, by simp [treeReqs, h2]⟩

theorem tree_nopar_ok (fuel : Nat) : ∀ (t : CTree) (s k : Nat), t.NoPar → t.req.min ≤ s → k < s → ∃ ps, setupTree fuel t (.comm s k) = some (.ok ps)
  | .comp r, s, k, hf, hs, hk => by
    simp only [CTree.req] at hs
    have ht : ¬ tooSmall r.min (.comm s k) = true := by simp only [tooSmall, decide_eq_true_eq]; omega
    simp only [setupTree]
    rw [if_neg ht]
    exact ⟨_, rfl⟩
  | .group subs, s, k, hf, hs, hk => by
    simp only [CTree.req] at hs
    have ht : ¬ tooSmall (groupReq (treeReqs subs)).min (.comm s k) = true := by simp only [tooSmall, decide_eq_true_eq]; omega
    simp only [setupTree]
    rw [if_neg ht]
    apply setupTrees_ok
    intro m t' ht
    obtain ⟨a1, a2⟩ := nopar_get hf ht
    have := sizeOf_get ht
    exact tree_nopar_ok fuel t' s k a1 (Nat.le_trans ((groupReq_ge _).2 _ a2) hs) hk
  | .par subs, s, k, hf, hs, hk => hf.elim
  | .fd num subs, s, k, hf, hs, hk => by
    simp only [CTree.req, fdReq] at hs
    obtain ⟨s', k', e, h1, h2⟩ := fdComm_even hf.1 hs hk
    simp only [setupTree, e]
    apply setupTrees_ok
    intro m t' ht
    obtain ⟨a1, a2⟩ := nopar_get hf.2 ht
    have := sizeOf_get ht
    exact tree_nopar_ok fuel t' s' k' a1 (Nat.le_trans ((groupReq_ge _).2 _ a2) h1) h2
termination_by t => sizeOf t
decreasing_by all_goals (simp_wf; omega)

theorem fdComm_comm {num s k : Nat} {c : PComm} (h : fdComm num (.comm s k) = .ok c) : ∃ s' k', c = .comm s' k' := by
  unfold fdComm at h
  split at h
  · cases h
  split at h
  · dsimp only at h
    split at h
    · cases h
    · split at h
      · cases h
      · injection h with h; exact ⟨_, _, h.symm⟩
  · injection h with h; exact ⟨_, _, h.symm⟩

mutual
theorem nopar_runs (fuel : Nat) : ∀ (t : CTree) (s k : Nat) (ps : List Place), t.NoPar → setupTree fuel t (.comm s k) = some (.ok ps) → ∀ p ∈ ps, p.Runs
  | .comp r, s, k, ps, _, h => by
    simp only [setupTree] at h
    split at h
    · cases h
    · injection h with h
      injection h with h
      subst h
      intro p hp
      simp only [List.mem_singleton, placeOf] at hp
      exact ⟨s, k, hp⟩
  | .group subs, s, k, ps, hp, h => by
    simp only [setupTree] at h
    split at h
    · cases h
    · exact nopars_run fuel subs s k 0 ps hp h
  | .par subs, s, k, ps, hp, h => hp.elim
  | .fd num subs, s, k, ps, hp, h => by
    simp only [setupTree] at h
    split at h
    · cases h
    · rename_i c hc
      obtain ⟨s', k', rfl⟩ := fdComm_comm hc
      exact nopars_run fuel subs s' k' 0 ps hp.2 h
theorem nopars_run (fuel : Nat) : ∀ (ts : List CTree) (s k i : Nat) (ps : List Place), TreesNoPar ts → setupTrees fuel ts (fun _ => .comm s k) i = some (.ok ps) → ∀ p ∈ ps, p.Runs
  | [], s, k, i, ps, _, h => by
    simp only [setupTrees] at h
    injection h with h
    injection h with h
    subst h
    simp
  | t :: ts, s, k, i, ps, hp, h => by
    obtain ⟨p, q, h1, h2, rfl⟩ := setupTrees_cons h
    intro x hx
    rcases List.mem_append.mp hx with hx | hx
    · exact nopar_runs fuel t s k p hp.1 h1 x hx
    · exact nopars_run fuel ts s k _ q hp.2 h2 x hx
end

/-- C164 (partial). Without parallel groups, but with parallel FD groups nested in any way, every number of processes that the problem accepts is enough: the set-up ends without an exception on every process and
every process runs every component. Missing: parallel groups, see the refutations. -/
theorem C164_fd_partial {fuel : Nat} {t : CTree} {size rank : Nat} (hn : t.NoPar) (hacc : problemAccepts t.req size = true) (hr : rank < size) :
    ∃ ps : List Place, problemComms fuel t size rank = some (.ok ps) ∧ ∀ p ∈ ps, p.Runs := by
  have hle : t.req.min ≤ size := by
    unfold problemAccepts at hacc
    split at hacc
    · simpa using hacc
    · simp only [Bool.and_eq_true, decide_eq_true_eq] at hacc; exact hacc.2
  obtain ⟨ps, h⟩ := tree_nopar_ok fuel t size rank hn hle hr
  refine ⟨ps, by unfold problemComms; rw [if_pos hacc]; exact h, nopar_runs fuel t size rank ps hn h⟩

example : (CTree.fd 2 [.comp ⟨1, some 1⟩, .fd 2 [.comp ⟨2, none⟩]]).NoPar ∧ problemComms 0 (.fd 2 [.comp ⟨1, some 1⟩, .fd 2 [.comp ⟨2, none⟩]]) 9 8 = some (.ok [.on 4 3, .on 2 1]) := by
  refine ⟨by simp [CTree.NoPar, TreesNoPar], by decide +kernel⟩

/-! ## What goes wrong with other requirements -/

/-- C164 is false of the code: a problem whose number of processes is accepted, and is just what its two components need together, but the set-up raises on the processes of the second component and not on those of the
first: the first takes more than its share. -/
theorem C164_raises_refuted : problemAccepts (CTree.par [.comp ⟨1, none⟩, .comp ⟨3, some 3⟩]).req 4 = true ∧
    (∀ fuel : Nat, 4 ≤ fuel → problemComms fuel (.par [.comp ⟨1, none⟩, .comp ⟨3, some 3⟩]) 4 0 = some (.ok [.on 2 0, .null]) ∧
      problemComms fuel (.par [.comp ⟨1, none⟩, .comp ⟨3, some 3⟩]) 4 3 = some (.error .RuntimeError)) := by
  refine ⟨by decide +kernel, ?_⟩
  intro fuel hf
  obtain ⟨a, h1, -⟩ := C51_enough_fair (size := 4) (subs := [⟨1, none⟩, ⟨3, some 3⟩]) (by decide) (by decide) (by decide)
  have h4 : parAlloc 4 4 [⟨1, none⟩, ⟨3, some 3⟩] = some (.ok ⟨[(2, [0]), (2, [1])], 4⟩) := by decide
  have h := h1 fuel hf
  have h' := h1 4 (by omega)
  rw [h4] at h'
  injection h' with h'
  injection h' with h'
  subst h'
  have hacc : problemAccepts (CTree.par [.comp ⟨1, none⟩, .comp ⟨3, some 3⟩]).req 4 = true := by decide +kernel
  constructor
  · unfold problemComms
    rw [if_pos hacc]
    simp only [setupTree, treeReqs, CTree.req, h]
    rfl
  · unfold problemComms
    rw [if_pos hacc]
    simp only [setupTree, treeReqs, CTree.req, h]
    rfl

/-- C164 is false of the code: two components that need exactly three processes each on four processes, a number that is accepted. No process ever leaves the set-up. -/
theorem C164_hangs_refuted : problemAccepts (CTree.par [.comp ⟨3, some 3⟩, .comp ⟨3, some 3⟩]).req 4 = true ∧
    ∀ (fuel rank : Nat), problemComms fuel (.par [.comp ⟨3, some 3⟩, .comp ⟨3, some 3⟩]) 4 rank = none := by
  refine ⟨by decide +kernel, ?_⟩
  intro fuel rank
  have e : pack 4 (sortedReqs (([⟨3, some 3⟩, ⟨3, some 3⟩] : List Req).map Req.min)) = .ok ([(3, [1, 0])], 1) := by decide
  have h : parAlloc fuel 4 [⟨3, some 3⟩, ⟨3, some 3⟩] = none := by
    unfold parAlloc
    rw [if_neg (by decide), if_neg (by decide), if_neg (by decide), e]
    simp only
    rw [growLoop_hangs [⟨3, some 3⟩, ⟨3, some 3⟩] (by decide) fuel ([(3, [1, 0])], 1) (by decide)]
  have hacc : problemAccepts (CTree.par [.comp ⟨3, some 3⟩, .comp ⟨3, some 3⟩]).req 4 = true := by decide +kernel
  unfold problemComms
  rw [if_pos hacc]
  simp only [setupTree, treeReqs, CTree.req, h]

theorem setupTrees_fails {fuel : Nat} : ∀ (ts : List CTree) (f : Nat → PComm) (i0 m : Nat) (t : CTree), ts[m]? = some t → (∀ p, setupTree fuel t (f (i0 + m)) ≠ some (.ok p)) →
    ∀ ps, setupTrees fuel ts f i0 ≠ some (.ok ps)
  | [], f, i0, m, t, h, _ => by simp at h
  | a :: ts, f, i0, m, t, h, hn => by
    intro ps e
    obtain ⟨p, q, h1, h2, rfl⟩ := setupTrees_cons e
    cases m with
    | zero =>
      simp only [List.getElem?_cons_zero, Option.some.injEq] at h
      subst h
      exact hn p h1
    | succ m =>
      refine setupTrees_fails ts f (i0 + 1) m t (by simpa using h) ?_ q h2
      intro p'
      have e : i0 + 1 + m = i0 + (m + 1) := by omega
      rw [e]
      exact hn p'

/-- C164. A parallel FD group with more than one part can be a member of a parallel group only if every process of the parallel group that has anything to do runs it: on every other process the set-up fails, because
the size of the missing communicator is asked for. -/
theorem C164_fd_in_parallel {fuel size rank : Nat} {subs members : List CTree} {num i : Nat} {ps : List Place} {a : Alloc} {c : Nat} {b : Bucket} (hn : 1 < num) (hi : subs[i]? = some (.fd num members))
    (ha : parAlloc fuel size (treeReqs subs) = some (.ok a)) (hc : (parColors size a)[rank]? = some (some c)) (hb : a.buckets[c]? = some b) (hib : i ∉ b.2) :
    setupTree fuel (.par subs) (.comm size rank) ≠ some (.ok ps) := by
  simp only [setupTree, ha, hc]
  refine setupTrees_fails subs _ 0 i _ hi ?_ ps
  intro p
  have e : parSub (parColors size a) rank a.buckets c (0 + i) = .null := by
    unfold parSub
    rw [hb]
    simp [hib]
  rw [e]
  have e2 : fdComm num .null = .error .RuntimeError := by
    unfold fdComm
    rw [if_neg (by omega), if_pos (by omega)]
  simp only [setupTree, e2]
  simp

/-- C164 is false of the code: a component and a parallel FD group of two parts in a parallel group, on three processes, which is what they need together and is accepted. The process of the component raises. -/
theorem C164_fd_in_parallel_refuted : problemAccepts (CTree.par [.comp ⟨1, some 1⟩, .fd 2 [.comp ⟨1, some 1⟩]]).req 3 = true ∧
    (treeReqs [.comp ⟨1, some 1⟩, .fd 2 [.comp ⟨1, some 1⟩]]) = [⟨1, some 1⟩, ⟨2, some 2⟩] ∧
    problemComms 3 (.par [.comp ⟨1, some 1⟩, .fd 2 [.comp ⟨1, some 1⟩]]) 3 0 = some (.error .RuntimeError) ∧
    problemComms 3 (.par [.comp ⟨1, some 1⟩, .fd 2 [.comp ⟨1, some 1⟩]]) 3 1 = some (.ok [.null, .on 1 0]) := by
  decide +kernel

/-! ## Where the variables are -/

theorem groupReq_none {l : List Req} (h : ∃ r ∈ l, r.max = none) : (groupReq l).max = none := by
  unfold groupReq
  have keep : ∀ (l : List Req) (acc : Req), acc.max = none → (l.foldl groupReqStep acc).max = none := by
    intro l
    induction l with
    | nil => intro acc h; exact h
    | cons r l ih => intro acc h; rw [List.foldl_cons]; apply ih; unfold groupReqStep; simp [h]
  generalize (⟨1, some 1⟩ : Req) = acc
  induction l generalizing acc with
  | nil => simp at h
  | cons r l ih =>
    rw [List.foldl_cons]
    obtain ⟨q, hq, hn⟩ := h
    rcases List.mem_cons.mp hq with rfl | hq
    · apply keep
      unfold groupReqStep
      cases acc.max <;> simp [hn]
    · exact ih ⟨q, hq, hn⟩ _

theorem parReq_none {l : List Req} (h : ∃ r ∈ l, r.max = none) : (parReqProcs l).2 = none := by
  have keep : ∀ (l : List Req) (acc : Nat × Option Nat), acc.2 = none → (l.foldl reqStep acc).2 = none := by
    intro l
    induction l with
    | nil => intro acc h; exact h
    | cons r l ih => intro acc h; rw [List.foldl_cons]; apply ih; unfold reqStep; simp [h]
  have all : ∀ acc : Nat × Option Nat, (l.foldl reqStep acc).2 = none := by
    induction l with
    | nil => simp at h
    | cons r l ih =>
      intro acc
      rw [List.foldl_cons]
      obtain ⟨q, hq, hn⟩ := h
      rcases List.mem_cons.mp hq with rfl | hq
      · apply keep
        unfold reqStep
        cases acc.2 <;> simp [hn]
      · exact ih ⟨q, hq, hn⟩ _
  unfold parReqProcs
  simp [all]

mutual
theorem req_none : ∀ t : CTree, (∃ r ∈ t.comps, r.max = none) → t.req.max = none
  | .comp r, h => by simpa [CTree.comps, CTree.req] using h
  | .group subs, h => by simp only [CTree.req]; exact groupReq_none (reqs_none subs h)
  | .par subs, h => by simp only [CTree.req]; exact parReq_none (reqs_none subs h)
  | .fd num subs, h => by simp only [CTree.req, fdReq, groupReq_none (reqs_none subs h), Option.map_none]
theorem reqs_none : ∀ ts : List CTree, (∃ r ∈ treeComps ts, r.max = none) → ∃ r ∈ treeReqs ts, r.max = none
  | [], h => by simp [treeComps] at h
  | t :: ts, h => by
    obtain ⟨r, hr, hn⟩ := h
    simp only [treeComps, List.mem_append] at hr
    simp only [treeReqs]
    rcases hr with hr | hr
    · exact ⟨t.req, by simp, req_none t ⟨r, hr, hn⟩⟩
    · obtain ⟨q, hq, hn⟩ := reqs_none ts ⟨r, hr, hn⟩
      exact ⟨q, List.mem_cons_of_mem _ hq, hn⟩
end

theorem rrLoop_done {limit : Nat} {mxs : List (Option Nat)} : ∀ {fuel : Nat} {st st' : List Nat × Nat}, rrLoop limit mxs fuel st = some st' → limit ≤ st'.2 := by
  intro fuel
  induction fuel with
  | zero =>
    intro st st' h
    unfold rrLoop at h
    split at h
    · simp at h
    · injection h with h; subst h; omega
  | succ f ih =>
    intro st st' h
    unfold rrLoop at h
    split at h
    · exact ih h
    · injection h with h; subst h; omega

theorem assigned_all {fuel size : Nat} {subs : List Req} {a : Alloc} (hn : ∃ r ∈ subs, r.max = none) (h : parAlloc fuel size subs = some (.ok a)) : a.assigned = size := by
  have hg := parAlloc_good h
  by_cases hfew : size < (subs.map Req.min).sum
  · rw [← hg.total]; exact (C51_grouped_min hfew h).2
  · have hl : procLimit size subs = size := by unfold procLimit; rw [parReq_none hn]
    have hfit := hg.fits
    unfold parAlloc at h
    split at h
    · simp at h
    split at h
    · simp at h
    rw [if_pos (by omega), hl] at h
    split at h
    · cases h
    · rename_i st hst
      have := rrLoop_done hst
      injection h with h
      injection h with h
      subst h
      dsimp only at hfit ⊢
      omega

theorem parColors_full {fuel size : Nat} {subs : List Req} {a : Alloc} (hn : ∃ r ∈ subs, r.max = none) (h : parAlloc fuel size subs = some (.ok a)) (k : Nat) : (parColors size a)[k]? ≠ some none := by
  intro e
  have hm := List.mem_of_getElem? e
  unfold parColors at hm
  rw [assigned_all hn h, if_neg (by omega), List.append_nil, List.mem_flatMap] at hm
  obtain ⟨p, -, hp⟩ := hm
  have := List.eq_of_mem_replicate hp
  cases this

mutual
theorem tree_no_unset (fuel : Nat) : ∀ (t : CTree) (c : PComm) (ps : List Place), t.ParUnbounded → setupTree fuel t c = some (.ok ps) → Place.unset ∉ ps
  | .comp r, c, ps, _, h => by
    simp only [setupTree] at h
    split at h
    · cases h
    · injection h with h
      injection h with h
      subst h
      cases c <;> simp [placeOf]
  | .group subs, c, ps, hp, h => by
    simp only [setupTree] at h
    split at h
    · cases h
    · exact trees_no_unset fuel subs _ 0 ps hp h
  | .par subs, .null, ps, hp, h => by
    simp only [setupTree] at h
    exact trees_no_unset fuel subs _ 0 ps hp.2 h
  | .par subs, .comm s k, ps, hp, h => by
    simp only [setupTree] at h
    split at h
    · cases h
    · cases h
    · rename_i a ha
      split at h
      · cases h
      · rename_i hc
        exact absurd hc (parColors_full (reqs_none subs hp.1) ha k)
      · exact trees_no_unset fuel subs _ 0 ps hp.2 h
  | .fd num subs, c, ps, hp, h => by
    simp only [setupTree] at h
    split at h
    · cases h
    · exact trees_no_unset fuel subs _ 0 ps hp h
theorem trees_no_unset (fuel : Nat) : ∀ (ts : List CTree) (f : Nat → PComm) (i : Nat) (ps : List Place), TreesParUnbounded ts → setupTrees fuel ts f i = some (.ok ps) → Place.unset ∉ ps
  | [], f, i, ps, _, h => by
    simp only [setupTrees] at h
    injection h with h
    injection h with h
    subst h
    simp
  | t :: ts, f, i, ps, hp, h => by
    obtain ⟨p, q, h1, h2, rfl⟩ := setupTrees_cons h
    rw [List.mem_append]
    rintro (hm | hm)
    · exact tree_no_unset fuel t _ p hp.1 h1 hm
    · exact trees_no_unset fuel ts f _ q hp.2 h2 hm
end

/-- C165 (partial). When every parallel group has a component that can use any number of processes, the variables of a component are part of the vectors of exactly the processes it runs on. Missing: a parallel group
that cannot use all processes it is given, see `C165_idle_refuted`. -/
theorem C165_local_partial {fuel : Nat} {t : CTree} {size rank : Nat} {ps : List Place} (hp : t.ParUnbounded) (h : problemComms fuel t size rank = some (.ok ps)) :
    ∀ p ∈ ps, (p.VarsLocal ↔ p.Runs) := by
  unfold problemComms at h
  split at h
  · intro p hm
    have hu := tree_no_unset fuel t _ ps hp h
    unfold Place.VarsLocal Place.Runs
    cases p with
    | unset => exact absurd hm hu
    | null => simp
    | on n j => simp
  · cases h

example : (CTree.group [.comp ⟨1, some 1⟩, .par [.comp ⟨1, none⟩, .comp ⟨1, some 1⟩]]).ParUnbounded ∧
    problemComms 4 (.group [.comp ⟨1, some 1⟩, .par [.comp ⟨1, none⟩, .comp ⟨1, some 1⟩]]) 4 2 = some (.ok [.on 4 2, .on 3 2, .null]) := by
  refine ⟨by simp [CTree.ParUnbounded, TreesParUnbounded, treeComps, CTree.comps], by decide +kernel⟩

/-- C165 is false of the code: next to a component that uses three processes, a parallel group that can only use two leaves the third process before the set-up of its members. There the variables of both members
are not marked as remote, so the process holds them as if it ran the components. -/
theorem C165_idle_refuted : problemAccepts (CTree.group [.par [.comp ⟨1, some 1⟩, .comp ⟨1, some 1⟩], .comp ⟨1, some 3⟩]).req 3 = true ∧
    (∃ ps : List Place, problemComms 3 (.group [.par [.comp ⟨1, some 1⟩, .comp ⟨1, some 1⟩], .comp ⟨1, some 3⟩]) 3 2 = some (.ok ps) ∧ ∃ p : Place, ps[0]? = some p ∧ p.VarsLocal ∧ ¬ p.Runs) ∧
    problemComms 3 (.group [.par [.comp ⟨1, some 1⟩, .comp ⟨1, some 1⟩], .comp ⟨1, some 3⟩]) 3 1 = some (.ok [.null, .on 1 0, .on 3 1]) := by
  refine ⟨by decide +kernel, ⟨[.unset, .unset, .on 3 2], by decide +kernel, .unset, rfl, ?_, ?_⟩, by decide +kernel⟩
  · intro e; cases e
  · rintro ⟨n, j, e⟩; cases e

end OpenMDAO
