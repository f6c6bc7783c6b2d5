import Verif.Model.DataTransfer
import Verif.Lemmas.ArrayUtil
import Verif.Spec.Common
import Mathlib.Algebra.BigOperators.Group.List.Basic
import Mathlib.Algebra.Ring.Defs
import Mathlib.Tactic.Ring
/-! Helper lemmas for C03 / C04. -/
namespace OpenMDAO

/-- a slice whose `stop` is exactly `start + len*step`, all positions inside the vector -/
def WFIdx (n : Nat) : Idx → Prop
  | .slice s => ∃ len d, 0 < d ∧ s.step.getD 1 = d ∧ s.stop = s.start + len * d ∧
      ∀ i, i < len → s.start + d * i < n
  | .arr l => ∀ k ∈ l, k < n

theorem WFIdx_bound {n : Nat} {i : Idx} (h : WFIdx n i) : ∀ k ∈ i.positions n, k < n := by
  cases i with
  | arr l => exact h
  | slice s =>
    intro k hk
    simp only [Idx.positions, PySlice.positions, List.mem_filter, List.mem_range] at hk
    exact hk.1

theorem toSlice_positions {idxs : List Nat} {n : Nat} (h : ∀ k ∈ idxs, k < n) :
    (toSlice idxs).positions n = idxs ∧ WFIdx n (toSlice idxs) := by
  cases hc : toSlice idxs with
  | arr l =>
    have : l = idxs := by
      match idxs, hc with
      | [], hc => simpa [toSlice] using hc.symm
      | a :: b :: rest, hc =>
        simp only [toSlice] at hc
        split at hc
        · simpa using hc.symm
        · split at hc
          · simpa using hc.symm
          · simp at hc
    subst this
    exact ⟨rfl, h⟩
  | slice s =>
    obtain ⟨d, hd, hstep, hlen, hstop, _, hl⟩ := toSlice_slice_form idxs s hc
    have hb : ∀ i, i < idxs.length → s.start + d * i < n := by
      intro i hi
      apply h
      rw [hl, List.mem_map]
      exact ⟨i, by simpa using hi, rfl⟩
    refine ⟨?_, idxs.length, d, hd, hstep, hstop, hb⟩
    simp only [Idx.positions, PySlice.positions, hstep, hstop]
    rw [filter_range_progression s.start d idxs.length n hd hb]
    exact hl.symm

/-- two adjacent slices with the same step, merged -/
theorem merge_positions {n : Nat} {a b : PySlice} (ha : WFIdx n (.slice a)) (hb : WFIdx n (.slice b))
    (h1 : a.stop = b.start) (h2 : a.step = b.step) :
    (Idx.slice ⟨a.start, b.stop, b.step⟩).positions n =
      (Idx.slice a).positions n ++ (Idx.slice b).positions n ∧
    WFIdx n (.slice ⟨a.start, b.stop, b.step⟩) := by
  obtain ⟨la, d, hd, hsa, hea, hba⟩ := ha
  obtain ⟨lb, d', hd', hsb, heb, hbb⟩ := hb
  have hdd : d' = d := by rw [← hsa, ← hsb, h2]
  subst hdd
  have hstart : b.start = a.start + la * d' := by omega
  have hstop : b.stop = a.start + (la + lb) * d' := by rw [heb, hstart]; ring
  have hbm : ∀ i, i < la + lb → a.start + d' * i < n := by
    intro i hi
    by_cases h : i < la
    · exact hba i h
    · have := hbb (i - la) (by omega)
      rw [hstart] at this
      obtain ⟨j, rfl⟩ : ∃ j, i = la + j := ⟨i - la, by omega⟩
      simp only [Nat.add_sub_cancel_left] at this
      calc a.start + d' * (la + j) = a.start + la * d' + d' * j := by ring
        _ < n := this
  refine ⟨?_, la + lb, d', hd, hsb, hstop, hbm⟩
  simp only [Idx.positions, PySlice.positions, hsa, hsb, hstop, hea]
  rw [filter_range_progression a.start d' (la + lb) n hd hbm,
    filter_range_progression a.start d' la n hd hba]
  have e : (List.range n).filter (fun k => decide (b.start ≤ k) && decide (k < a.start + (la + lb) * d') &&
      (k - b.start) % d' == 0) = (List.range lb).map (fun i => b.start + d' * i) := by
    have := filter_range_progression b.start d' lb n hd hbb
    rw [← this]
    congr 1
    funext k
    rw [show a.start + (la + lb) * d' = b.start + lb * d' by rw [hstart]; ring]
  rw [e, List.range_add, List.map_append, List.map_map]
  congr 1
  apply List.map_congr_left
  intro i _
  simp only [Function.comp, hstart]
  ring

/-- the pairs (source position, target position) served by a scatter -/
def Scatter.pairs (s : Scatter) (ns nt : Nat) : List (Nat × Nat) :=
  (s.srcs.positions ns).zip (s.tgts.positions nt)

structure WFScatter (ns nt : Nat) (s : Scatter) : Prop where
  src : WFIdx ns s.srcs
  tgt : WFIdx nt s.tgts
  len : (s.srcs.positions ns).length = (s.tgts.positions nt).length

/-- positions of a slice are distinct -/
theorem slice_positions_nodup (s : PySlice) (n : Nat) : ((Idx.slice s).positions n).Nodup :=
  List.Nodup.filter _ List.nodup_range

/-- in rev mode the flag `unique` is only set if the source positions are distinct -/
def UniqueOk (mode : Mode) (ns : Nat) (s : Scatter) : Prop :=
  mode = .rev → s.unique = true → (s.srcs.positions ns).Nodup

structure ValidConn (ns nt : Nat) (c : List Nat × List Nat) : Prop where
  len : c.1.length = c.2.length
  src : ∀ k ∈ c.1, k < ns
  tgt : ∀ k ∈ c.2, k < nt

theorem mkScatter_ok {mode : Mode} {ns nt : Nat} {c : List Nat × List Nat} (h : ValidConn ns nt c) :
    WFScatter ns nt (mkScatter mode c) ∧ UniqueOk mode ns (mkScatter mode c) ∧
      (mkScatter mode c).pairs ns nt = c.1.zip c.2 := by
  obtain ⟨h1, w1⟩ := toSlice_positions h.src
  obtain ⟨h2, w2⟩ := toSlice_positions h.tgt
  refine ⟨⟨w1, w2, ?_⟩, ?_, ?_⟩
  · simp only [mkScatter, h1, h2, h.len]
  · intro hm hu
    subst hm
    simp only [mkScatter] at hu ⊢
    cases hs : toSlice c.1 with
    | slice s => exact slice_positions_nodup s ns
    | arr l =>
      rw [hs] at hu
      simp only [srcUnique, decide_eq_true_eq] at hu
      have : l.dedup = l := (List.dedup_sublist l).eq_of_length hu
      show l.Nodup
      rw [← this]; exact List.nodup_dedup l
  · simp only [Scatter.pairs, mkScatter, h1, h2]

theorem tryMerge_ok {mode : Mode} {ns nt : Nat} {a b m : Scatter} (ha : WFScatter ns nt a)
    (hb : WFScatter ns nt b) (h : tryMerge a b = some m) :
    WFScatter ns nt m ∧ UniqueOk mode ns m ∧ m.pairs ns nt = a.pairs ns nt ++ b.pairs ns nt := by
  obtain ⟨as, at_, au⟩ := a
  obtain ⟨bs, bt, bu⟩ := b
  unfold tryMerge at h
  split at h
  · rename_i olds oldt srcs tgts e1 e2 e3 e4
    simp only at e1 e2 e3 e4
    subst e1 e2 e3 e4
    split at h
    · rename_i hc
      obtain ⟨c1, c2, c3, c4⟩ := hc
      simp only [Option.some.injEq] at h
      subst h
      obtain ⟨p1, w1⟩ := merge_positions ha.src hb.src c1 c3
      obtain ⟨p2, w2⟩ := merge_positions ha.tgt hb.tgt c2 c4
      refine ⟨⟨w1, w2, ?_⟩, ?_, ?_⟩
      · simp only [p1, p2, List.length_append, ha.len, hb.len]
      · intro _ _
        exact slice_positions_nodup _ ns
      · simp only [Scatter.pairs, p1, p2]
        exact List.zip_append ha.len
    · simp at h
  · simp at h

/-- everything the loop keeps true about its accumulator -/
def GoodAcc (mode : Mode) (ns nt : Nat) (acc : List Scatter) : Prop :=
  ∀ s ∈ acc, WFScatter ns nt s ∧ UniqueOk mode ns s

def allPairs (ns nt : Nat) (l : List Scatter) : List (Nat × Nat) := l.flatMap (·.pairs ns nt)

theorem scatterStep_ok {mode : Mode} {ns nt : Nat} {acc : List Scatter} {c : List Nat × List Nat}
    (ha : GoodAcc mode ns nt acc) (hc : ValidConn ns nt c) :
    GoodAcc mode ns nt (scatterStep mode acc c) ∧
    allPairs ns nt (scatterStep mode acc c).reverse = allPairs ns nt acc.reverse ++ c.1.zip c.2 := by
  obtain ⟨w, u, p⟩ := mkScatter_ok (mode := mode) hc
  cases acc with
  | nil =>
    simp only [scatterStep]
    refine ⟨by intro s hs; simp only [List.mem_singleton] at hs; subst hs; exact ⟨w, u⟩, ?_⟩
    simp [allPairs, p]
  | cons old rest =>
    simp only [scatterStep]
    have ho := ha old (by simp)
    split
    · rename_i m hm
      obtain ⟨wm, um, pm⟩ := tryMerge_ok (mode := mode) ho.1 w hm
      refine ⟨?_, ?_⟩
      · intro s hs
        simp only [List.mem_cons] at hs
        rcases hs with rfl | hs
        · exact ⟨wm, um⟩
        · exact ha s (by simp [hs])
      · simp only [allPairs, List.reverse_cons, List.flatMap_append, List.flatMap_cons, List.flatMap_nil,
          List.append_nil, pm, p, List.append_assoc]
    · refine ⟨?_, ?_⟩
      · intro s hs
        simp only [List.mem_cons] at hs
        rcases hs with rfl | hs
        · exact ⟨w, u⟩
        · exact ha s (by simpa using hs)
      · simp only [allPairs, List.reverse_cons, List.flatMap_append, List.flatMap_cons, List.flatMap_nil,
          List.append_nil, p, List.append_assoc]

theorem scatterFold_ok {mode : Mode} {ns nt : Nat} (conns : List (List Nat × List Nat)) (acc : List Scatter)
    (ha : GoodAcc mode ns nt acc) (hc : ∀ c ∈ conns, ValidConn ns nt c) :
    GoodAcc mode ns nt (conns.foldl (scatterStep mode) acc) ∧
    allPairs ns nt (conns.foldl (scatterStep mode) acc).reverse =
      allPairs ns nt acc.reverse ++ conns.flatMap (fun c => c.1.zip c.2) := by
  induction conns generalizing acc with
  | nil => exact ⟨ha, by simp⟩
  | cons c rest ih =>
    obtain ⟨g, e⟩ := scatterStep_ok ha (hc c (by simp))
    obtain ⟨g', e'⟩ := ih (scatterStep mode acc c) g (fun c' h => hc c' (by simp [h]))
    refine ⟨g', ?_⟩
    rw [List.foldl_cons, e', e]
    simp

/-- The transfer object built from valid connections: well formed scatters that serve exactly the
connected pairs, up to the order of connections. -/
theorem mkTransfer_ok (mode : Mode) {ns nt : Nat} (conns : List (List Nat × List Nat))
    (hc : ∀ c ∈ conns, ValidConn ns nt c ∧ c.1 ≠ []) :
    ∃ sc, mkTransfer mode conns = .ok sc ∧ GoodAcc mode ns nt sc ∧
      (allPairs ns nt sc).Perm (conns.flatMap (fun c => c.1.zip c.2)) := by
  have hne : conns.any (keyFails mode) = false := by
    rw [List.any_eq_false]
    intro c hcm
    obtain ⟨v, h⟩ := hc c hcm
    have h2 : c.2 ≠ [] := by
      intro h2; apply h; rw [← List.length_eq_zero_iff, v.len, h2]; rfl
    cases mode <;> simp [keyFails, h, h2]
  refine ⟨_, by unfold mkTransfer; exact if_neg (by rw [hne]; simp), ?_, ?_⟩
  · have := (scatterFold_ok (mode := mode) (conns.insertionSort (fun a b => sortKey mode a ≤ sortKey mode b))
      [] (by intro s hs; simp at hs) (fun c h => (hc c ((List.mem_insertionSort _).mp h)).1)).1
    intro s hs
    exact this s (List.mem_reverse.mp hs)
  · have := (scatterFold_ok (mode := mode) (conns.insertionSort (fun a b => sortKey mode a ≤ sortKey mode b))
      [] (by intro s hs; simp at hs) (fun c h => (hc c ((List.mem_insertionSort _).mp h)).1)).2
    rw [this]
    simp only [List.reverse_nil, allPairs, List.flatMap_nil, List.nil_append]
    exact (List.perm_insertionSort _ _).flatMap_right _

variable {α : Type}

theorem npGet_ok (v : List α) (idx : Idx) (h : ∀ k ∈ idx.positions v.length, k < v.length) :
    ∃ vals, npGet v idx = .ok vals ∧ vals.map some = (idx.positions v.length).map (fun k => v[k]?) := by
  unfold npGet
  generalize idx.positions v.length = ps at h
  induction ps with
  | nil => exact ⟨[], rfl, rfl⟩
  | cons p ps ih =>
    obtain ⟨vals, h1, h2⟩ := ih (fun k hk => h k (by simp [hk]))
    have hp := h p (by simp)
    refine ⟨v[p] :: vals, ?_, ?_⟩
    · rw [List.mapM_cons, h1]
      simp [hp]
      rfl
    · simp [h2, hp]

/-- sequential assignment along pairs -/
def assignPairs (src : List α) (pairs : List (Nat × Nat)) (v : List α) : List α :=
  pairs.foldl (fun w p => match src[p.1]? with | some x => w.set p.2 x | none => w) v

theorem npAssign_pairs (src v : List α) (si ti : Idx) (hs : ∀ k ∈ si.positions src.length, k < src.length)
    (ht : ∀ k ∈ ti.positions v.length, k < v.length)
    (hl : (si.positions src.length).length = (ti.positions v.length).length) :
    (do let vals ← npGet src si; npAssign v ti vals) =
      .ok (assignPairs src ((si.positions src.length).zip (ti.positions v.length)) v) := by
  obtain ⟨vals, h1, h2⟩ := npGet_ok src si hs
  rw [h1]
  show npAssign v ti vals = _
  have hlen : vals.length = (si.positions src.length).length := by
    have := congrArg List.length h2; simpa using this
  have hany : (ti.positions v.length).any (fun k => decide (v.length ≤ k)) = false := by
    rw [List.any_eq_false]
    intro k hk; have := ht k hk; simp; omega
  simp only [npAssign, hany, Bool.false_eq_true, if_false]
  rw [if_pos (by omega)]
  congr 1
  unfold assignPairs
  clear h1 hany
  generalize si.positions src.length = sp at *
  generalize ti.positions v.length = tp at *
  clear ht
  induction sp generalizing tp vals v with
  | nil => cases tp <;> simp_all
  | cons a sp ih =>
    cases tp with
    | nil => simp at hl
    | cons b tp =>
      cases vals with
      | nil => simp at hlen
      | cons x vals =>
        simp only [List.map_cons, List.cons.injEq] at h2
        simp only [List.zip_cons_cons, List.foldl_cons]
        rw [← h2.1]
        exact ih (v.set b x) vals (fun k hk => hs k (by simp [hk])) h2.2 (by simpa using hlen) tp
          (by simpa using hl)

theorem assignPairs_length (src : List α) (pairs : List (Nat × Nat)) (v : List α) :
    (assignPairs src pairs v).length = v.length := by
  unfold assignPairs
  induction pairs generalizing v with
  | nil => rfl
  | cons p ps ih =>
    rw [List.foldl_cons, ih]
    split <;> simp

theorem assignPairs_append (src : List α) (p q : List (Nat × Nat)) (v : List α) :
    assignPairs src (p ++ q) v = assignPairs src q (assignPairs src p v) := by
  simp [assignPairs, List.foldl_append]

theorem transferFwdVec_pairs {mode : Mode} (sc : List Scatter) (src tgt : List α)
    (h : GoodAcc mode src.length tgt.length sc) :
    transferFwdVec sc src tgt = .ok (assignPairs src (allPairs src.length tgt.length sc) tgt) := by
  unfold transferFwdVec
  generalize hn : tgt.length = nt at h
  induction sc generalizing tgt with
  | nil => rfl
  | cons s sc ih =>
    have hs := (h s (by simp)).1
    have h1 := npAssign_pairs src tgt s.srcs s.tgts (WFIdx_bound hs.src) (by rw [hn]; exact WFIdx_bound hs.tgt)
      (by rw [hn]; exact hs.len)
    rw [List.foldlM_cons, h1]
    show List.foldlM _ _ sc = _
    rw [ih _ (by rw [assignPairs_length]; exact hn) (fun s' hs' => h s' (by simp [hs']))]
    rw [← assignPairs_append, hn]
    rfl

theorem assignPairs_not_mem (src : List α) (pairs : List (Nat × Nat)) (v : List α) (k : Nat)
    (h : k ∉ pairs.map Prod.snd) : (assignPairs src pairs v)[k]? = v[k]? := by
  unfold assignPairs
  induction pairs generalizing v with
  | nil => rfl
  | cons p ps ih =>
    simp only [List.map_cons, List.mem_cons, not_or] at h
    rw [List.foldl_cons, ih _ h.2]
    split
    · rw [List.getElem?_set_ne (Ne.symm h.1)]
    · rfl

theorem assignPairs_mem (src : List α) (pairs : List (Nat × Nat)) (v : List α)
    (hnd : (pairs.map Prod.snd).Nodup) (p : Nat × Nat) (hp : p ∈ pairs) (h1 : p.1 < src.length)
    (h2 : p.2 < v.length) : (assignPairs src pairs v)[p.2]? = src[p.1]? := by
  induction pairs generalizing v with
  | nil => simp at hp
  | cons q ps ih =>
    rw [List.map_cons, List.nodup_cons] at hnd
    rw [show q :: ps = [q] ++ ps from rfl, assignPairs_append]
    rcases List.mem_cons.mp hp with rfl | hp
    · rw [assignPairs_not_mem _ _ _ _ hnd.1]
      simp [assignPairs, h1, h2]
    · exact ih _ hnd.2 hp (by rw [assignPairs_length]; exact h2)

/-- sequential accumulation along pairs -/
def addPairs [Add α] (tgt : List α) (pairs : List (Nat × Nat)) (v : List α) : List α :=
  pairs.foldl (fun w p => match tgt[p.2]? with | some x => w.modify p.1 (· + x) | none => w) v

theorem addPairs_length [Add α] (tgt : List α) (pairs : List (Nat × Nat)) (v : List α) :
    (addPairs tgt pairs v).length = v.length := by
  unfold addPairs
  induction pairs generalizing v with
  | nil => rfl
  | cons p ps ih =>
    rw [List.foldl_cons, ih]
    split <;> simp

theorem addPairs_append [Add α] (tgt : List α) (p q : List (Nat × Nat)) (v : List α) :
    addPairs tgt (p ++ q) v = addPairs tgt q (addPairs tgt p v) := by
  simp [addPairs, List.foldl_append]

theorem foldl_modify_zip [Add α] (tgt : List α) (sp tp : List Nat) (vals v : List α)
    (hl : sp.length = tp.length) (hv : vals.map some = tp.map (fun k => tgt[k]?)) :
    (sp.zip vals).foldl (fun w p => w.modify p.1 (· + p.2)) v = addPairs tgt (sp.zip tp) v := by
  unfold addPairs
  induction sp generalizing tp vals v with
  | nil => simp
  | cons a sp ih =>
    cases tp with
    | nil => simp at hl
    | cons b tp =>
      cases vals with
      | nil => simp at hv
      | cons x vals =>
        simp only [List.map_cons, List.cons.injEq] at hv
        simp only [List.zip_cons_cons, List.foldl_cons]
        rw [← hv.1]
        exact ih tp vals _ (by simpa using hl) hv.2

theorem buffered_eq [Add α] (sp : List Nat) (old vals v : List α) (hnd : sp.Nodup)
    (hold : old.map some = sp.map (fun k => v[k]?)) :
    (sp.zip (List.zipWith (· + ·) old vals)).foldl (fun w p => w.set p.1 p.2) v =
      (sp.zip vals).foldl (fun w p => w.modify p.1 (· + p.2)) v := by
  induction sp generalizing old vals v with
  | nil => simp
  | cons a sp ih =>
    cases old with
    | nil => simp at hold
    | cons o old =>
      cases vals with
      | nil => simp
      | cons x vals =>
        simp only [List.map_cons, List.cons.injEq] at hold
        rw [List.nodup_cons] at hnd
        simp only [List.zipWith_cons_cons, List.zip_cons_cons, List.foldl_cons]
        have e : v.modify a (· + x) = v.set a (o + x) := by
          apply List.ext_getElem?
          intro i
          rw [List.getElem?_modify, List.getElem?_set]
          by_cases hia : a = i
          · subst hia
            rw [if_pos rfl, ← hold.1]
            have : a < v.length := (List.getElem?_eq_some_iff.mp hold.1.symm).1
            simp [this]
          · simp [hia]
        rw [e]
        apply ih _ _ _ hnd.2
        rw [hold.2]
        apply List.map_congr_left
        intro k hk
        have hka : a ≠ k := by rintro rfl; exact hnd.1 hk
        rw [List.getElem?_set_ne hka]

theorem revStep [Add α] (s : Scatter) (v tgt : List α) (w : WFScatter v.length tgt.length s)
    (u : UniqueOk .rev v.length s) :
    (do let vals ← npGet tgt s.tgts
        if s.unique then npAddAssign v s.srcs vals else npAddAt v s.srcs vals) =
      .ok (addPairs tgt (s.pairs v.length tgt.length) v) := by
  obtain ⟨vals, h1, h2⟩ := npGet_ok tgt s.tgts (WFIdx_bound w.tgt)
  have hlen : vals.length = (s.srcs.positions v.length).length := by
    rw [w.len]; have := congrArg List.length h2; simpa using this
  have hany : (s.srcs.positions v.length).any (fun k => decide (v.length ≤ k)) = false := by
    rw [List.any_eq_false]
    intro k hk; have := WFIdx_bound w.src k hk; simp; omega
  rw [h1]
  show (if s.unique then npAddAssign v s.srcs vals else npAddAt v s.srcs vals) = _
  split
  · rename_i hu
    obtain ⟨old, g1, g2⟩ := npGet_ok v s.srcs (WFIdx_bound w.src)
    have hold : old.length = (s.srcs.positions v.length).length := by
      have := congrArg List.length g2; simpa using this
    unfold npAddAssign
    rw [g1]
    show (if old.length = vals.length then npAssign v s.srcs (List.zipWith (· + ·) old vals) else _) = _
    rw [if_pos (by omega)]
    simp only [npAssign, hany, Bool.false_eq_true, if_false]
    rw [if_pos (by simp; omega), buffered_eq _ _ _ _ (u rfl hu) g2,
      foldl_modify_zip tgt _ _ _ _ w.len h2]
    rfl
  · simp only [npAddAt, hany, Bool.false_eq_true, if_false]
    rw [if_pos (by omega), foldl_modify_zip tgt _ _ _ _ w.len h2]
    rfl

theorem transferRev_pairs [Add α] (sc : List Scatter) (src tgt : List α)
    (h : GoodAcc .rev src.length tgt.length sc) :
    transferRev sc src tgt = .ok (addPairs tgt (allPairs src.length tgt.length sc) src) := by
  unfold transferRev
  generalize hn : src.length = ns at h
  induction sc generalizing src with
  | nil => rfl
  | cons s sc ih =>
    have hs := h s (by simp)
    have h1 := revStep s src tgt (by rw [hn]; exact hs.1) (by rw [hn]; exact hs.2)
    rw [List.foldlM_cons, h1]
    show List.foldlM _ _ sc = _
    rw [ih _ (by rw [addPairs_length]; exact hn) (fun s' hs' => h s' (by simp [hs']))]
    rw [← addPairs_append, hn]
    rfl

theorem addPairs_getElem? [AddCommMonoid α] (tgt : List α) (pairs : List (Nat × Nat)) (v : List α) (i : Nat)
    (h2 : ∀ p ∈ pairs, p.2 < tgt.length) :
    (addPairs tgt pairs v)[i]? =
      v[i]?.map (· + ((pairs.filter (fun p => p.1 = i)).map (fun p => tgt.getD p.2 0)).sum) := by
  induction pairs generalizing v with
  | nil => cases h : v[i]? <;> simp [addPairs, h]
  | cons p ps ih =>
    rw [show p :: ps = [p] ++ ps from rfl, addPairs_append, ih _ (fun q hq => h2 q (by simp [hq]))]
    have hp := h2 p (by simp)
    by_cases hpi : p.1 = i
    · cases h : v[i]? with
      | none => simp [addPairs, hp, hpi, h]
      | some x => simp [addPairs, hp, hpi, h, add_assoc]
    · simp [addPairs, hp, hpi]

theorem dot_set [CommSemiring α] (v t : List α) (k : Nat) (x : α) (hk : k < t.length)
    (h0 : v[k]? = some 0) : dot (v.set k x) t = dot v t + x * t.getD k 0 := by
  induction v generalizing t k with
  | nil => simp at h0
  | cons a v ih =>
    cases t with
    | nil => simp at hk
    | cons b t =>
      cases k with
      | zero =>
        simp only [List.getElem?_cons_zero, Option.some.injEq] at h0
        subst h0
        simp [dot, add_comm]
      | succ k =>
        simp only [List.getElem?_cons_succ] at h0
        have := ih t k (by simpa using hk) h0
        simp only [dot] at this
        simp only [dot, List.set_cons_succ, List.zipWith_cons_cons, List.sum_cons, this,
          List.getD_cons_succ, add_assoc]

theorem dot_modify [CommSemiring α] (s w : List α) (k : Nat) (x : α) (hk : k < s.length)
    (hl : w.length = s.length) : dot s (w.modify k (· + x)) = dot s w + s.getD k 0 * x := by
  induction s generalizing w k with
  | nil => simp at hk
  | cons a s ih =>
    cases w with
    | nil => simp at hl
    | cons b w =>
      cases k with
      | zero => simp [dot, mul_add, add_assoc, add_comm]
      | succ k =>
        have := ih w k (by simpa using hk) (by simpa using hl)
        simp only [dot] at this
        simp only [dot, List.modify_succ_cons, List.zipWith_cons_cons, List.sum_cons, this,
          List.getD_cons_succ, add_assoc]

theorem dot_assignPairs [CommSemiring α] (s t v : List α) (ps : List (Nat × Nat))
    (hnd : (ps.map Prod.snd).Nodup) (h1 : ∀ p ∈ ps, p.1 < s.length) (h2 : ∀ p ∈ ps, p.2 < t.length)
    (hz : ∀ p ∈ ps, v[p.2]? = some 0) :
    dot (assignPairs s ps v) t = dot v t + (ps.map (fun p => s.getD p.1 0 * t.getD p.2 0)).sum := by
  induction ps generalizing v with
  | nil => simp [assignPairs]
  | cons p ps ih =>
    rw [List.map_cons, List.nodup_cons] at hnd
    have hp1 := h1 p (by simp)
    have e : assignPairs s (p :: ps) v = assignPairs s ps (v.set p.2 s[p.1]) := by
      simp [assignPairs, hp1]
    rw [e, ih _ hnd.2 (fun q hq => h1 q (by simp [hq])) (fun q hq => h2 q (by simp [hq])),
      dot_set _ _ _ _ (h2 p (by simp)) (hz p (by simp))]
    · simp [hp1, add_assoc]
    · intro q hq
      have : p.2 ≠ q.2 := by
        intro h; apply hnd.1; rw [h]; exact List.mem_map_of_mem hq
      rw [List.getElem?_set_ne this]
      exact hz q (by simp [hq])

theorem dot_addPairs [CommSemiring α] (s t w : List α) (ps : List (Nat × Nat))
    (h1 : ∀ p ∈ ps, p.1 < s.length) (h2 : ∀ p ∈ ps, p.2 < t.length) (hl : w.length = s.length) :
    dot s (addPairs t ps w) = dot s w + (ps.map (fun p => s.getD p.1 0 * t.getD p.2 0)).sum := by
  induction ps generalizing w with
  | nil => simp [addPairs]
  | cons p ps ih =>
    have hp2 := h2 p (by simp)
    have e : addPairs t (p :: ps) w = addPairs t ps (w.modify p.1 (· + t[p.2])) := by
      simp [addPairs, hp2]
    rw [e, ih _ (fun q hq => h1 q (by simp [hq])) (fun q hq => h2 q (by simp [hq])) (by simpa using hl),
      dot_modify _ _ _ _ (h1 p (by simp)) hl]
    simp [hp2, add_assoc]

theorem zip_snd_flatMap {conns : List (List Nat × List Nat)} (h : ∀ c ∈ conns, c.1.length = c.2.length) :
    (conns.flatMap (fun c => c.1.zip c.2)).map Prod.snd = conns.flatMap Prod.snd := by
  rw [List.map_flatMap]
  induction conns with
  | nil => rfl
  | cons c cs ih =>
    rw [List.flatMap_cons, List.flatMap_cons, ih (fun d hd => h d (by simp [hd]))]
    congr 1
    exact List.map_snd_zip (by rw [h c (by simp)])

end OpenMDAO
