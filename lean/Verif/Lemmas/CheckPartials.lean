import Verif.Model.CheckPartials
import Verif.Lemmas.ApplyLinear
import Verif.Lemmas.Connections
import Verif.Spec.CheckPartials
/-! # The loops of `check_partial_derivatives` -/
namespace OpenMDAO
set_option linter.unusedSectionVars false

section
variable {K : Type} [CommRing K]

/-- An entry of a derivative vector. -/
def DVec.valueAt (d : DVec K) (n : String) (i : Nat) : K := ((d.lookup n).getD []).getD i 0

theorem lookup_put (d : DVec K) (n q : String) (w : List K) : (d.put n w).lookup q = if q = n then (d.lookup n).map (fun _ => w) else d.lookup q := by
  induction d with
  | nil => simp [DVec.put]
  | cons e d ih =>
    obtain ⟨k, v⟩ := e
    unfold DVec.put
    by_cases h : n = k
    · subst h
      rw [if_pos rfl]
      by_cases hq : q = n
      · subst hq; simp [List.lookup_cons]
      · have : (q == n) = false := by simpa using hq
        simp [List.lookup_cons, hq, this]
    · rw [if_neg h]
      have hnk : (n == k) = false := by simpa using h
      by_cases hq : q = k
      · subst hq
        have : ¬ q = n := fun h2 => h h2.symm
        simp [List.lookup_cons, this]
      · have hqk : (q == k) = false := by simpa using hq
        simp only [List.lookup_cons, hqk, hnk]
        exact ih

theorem lookup_zerosOf (l : List (String × Nat)) (q : String) : (zerosOf l : DVec K).lookup q = (l.lookup q).map fun s => List.replicate s 0 := by
  induction l with
  | nil => rfl
  | cons e l ih =>
    obtain ⟨k, v⟩ := e
    simp only [zerosOf, List.map_cons, List.lookup_cons] at ih ⊢
    cases q == k
    · exact ih
    · rfl

theorem lookup_unitAt (l : List (String × Nat)) (n q : String) (i : Nat) :
    (unitAt l n i : DVec K).lookup q = (l.lookup q).map fun s => if q = n then (List.replicate s 0).set i 1 else List.replicate s 0 := by
  unfold unitAt
  simp only
  rw [lookup_zerosOf]
  cases h : l.lookup n with
  | none =>
    simp only [Option.map_none]
    rw [lookup_zerosOf]
    by_cases hq : q = n
    · subst hq; rw [h]; rfl
    · simp [hq]
  | some s =>
    simp only [Option.map_some]
    rw [lookup_put, lookup_zerosOf, h, lookup_zerosOf]
    by_cases hq : q = n
    · subst hq; simp [h]
    · simp [hq]

theorem lookup_scaleBy (f : String → Option K) (d : DVec K) (q : String) : (scaleBy f d).lookup q = (d.lookup q).map fun v => match f q with
    | none => v
    | some k => v.map (· * k) := by
  induction d with
  | nil => rfl
  | cons e d ih =>
    obtain ⟨k, v⟩ := e
    simp only [scaleBy, List.map_cons, List.lookup_cons] at ih ⊢
    cases hk : q == k
    · exact ih
    · have : q = k := by simpa using hk
      subst this
      rfl

theorem layout_zerosOf (l : List (String × Nat)) : (zerosOf l : DVec K).layout = l := by
  unfold DVec.layout zerosOf
  rw [List.map_map]
  conv => rhs; rw [← List.map_id l]
  refine List.map_congr_left fun e _ => ?_
  simp

theorem layout_unitAt (l : List (String × Nat)) (n : String) (i : Nat) : (unitAt l n i : DVec K).layout = l := by
  unfold unitAt
  simp only
  cases h : (zerosOf l : DVec K).lookup n with
  | none => exact layout_zerosOf l
  | some v =>
    simp only
    rw [layout_put _ _ v _ h (by simp), layout_zerosOf]

theorem zerosOf_eq (d : DVec K) : zerosOf d.layout = zeroVec d := by
  unfold zerosOf DVec.layout zeroVec
  rw [List.map_map]
  refine List.map_congr_left fun e _ => ?_
  simp [Function.comp]

theorem dot_unit (y : List K) (i n : Nat) (h : y.length = n) : dot y ((List.replicate n 0).set i 1) = y.getD i 0 := by
  rw [dot_eq_sum _ _ n h (by simp)]
  by_cases hi : i < n
  · rw [Finset.sum_eq_single i]
    · simp [List.getD, hi]
    · intro j hj hne
      rw [Finset.mem_range] at hj
      simp [List.getD, hj, List.getElem?_set, Ne.symm hne]
    · intro hn
      exact absurd (Finset.mem_range.2 hi) hn
  · have : y.getD i 0 = 0 := by simp [List.getD, List.getElem?_eq_none (by omega : y.length ≤ i)]
    rw [this]
    apply Finset.sum_eq_zero
    intro j hj
    rw [Finset.mem_range] at hj
    have hij : i ≠ j := by omega
    simp [List.getD, hj, List.getElem?_set, hij]

theorem dvDot_unitAt (d : DVec K) (l : List (String × Nat)) (hl : d.layout = l) (n : String) (i : Nat) : dvDot d (unitAt l n i) = d.valueAt n i := by
  subst hl
  unfold unitAt DVec.valueAt
  simp only
  rw [lookup_zerosOf, lookup_layout]
  cases h : d.lookup n with
  | none => simp [zerosOf_eq, dvDot_zeroVec]
  | some y =>
    simp only [Option.map_some]
    have h0 : (zerosOf d.layout : DVec K).lookup n = some (List.replicate y.length 0) := by rw [lookup_zerosOf, lookup_layout, h]; rfl
    rw [dvDot_put d (zerosOf d.layout) n _ _ y (layout_zerosOf _).symm h0 h, zerosOf_eq, dvDot_zeroVec, dot_unit y i _ rfl]
    have : dot y (List.replicate y.length (0 : K)) = 0 := by
      have := dot_zeros y y
      rwa [List.map_const'] at this
    rw [this]
    simp

theorem lookup_map_modify (d : JDict K) (k q : String × String) (f : Mat K → Mat K) :
    (d.map fun e => if e.1 = k then (e.1, f e.2) else e).lookup q = if q = k then (d.lookup q).map f else d.lookup q := by
  induction d with
  | nil => simp
  | cons e d ih =>
    obtain ⟨a, M⟩ := e
    simp only [List.map_cons]
    by_cases ha : a = k
    · subst ha
      simp only [if_true, List.lookup_cons]
      by_cases hq : q = a
      · subst hq; simp
      · have : (q == a) = false := by simpa using hq
        rw [this, ih]
    · simp only [if_neg ha, List.lookup_cons]
      by_cases hq : q = a
      · subst hq
        simp [ha]
      · have : (q == a) = false := by simpa using hq
        rw [this, ih]

/-- All arrays are there. -/
def ChkComp.Allocated (c : ChkComp K) (d : JDict K) : Prop := ∀ u ∈ c.unknList, ∀ p ∈ c.paramList, ∃ M, d.lookup (u, p) = some M

theorem modify_spec (d : JDict K) (k : String × String) (f : Mat K → Mat K) (M : Mat K) (h : d.lookup k = some M) :
    ∃ d', d.modify k f = .ok d' ∧ ∀ q, d'.lookup q = if q = k then (d.lookup q).map f else d.lookup q := by
  refine ⟨_, by rw [JDict.modify, if_pos (by rw [h]; rfl)], fun q => lookup_map_modify d k q f⟩

theorem rows_fold (c : ChkComp K) (u : String) (hu : u ∈ c.unknList) (i : Nat) (dp du : DVec K) (ps : List String) (hps : ∀ p ∈ ps, p ∈ c.paramList)
    (hv : ∀ p ∈ ps, ∃ v, (if c.states.contains p then du else dp).lookup p = some v) (d : JDict K) (hd : c.Allocated d) :
    ∃ d', ps.foldlM (c.storeRow u i dp du) d = .ok d' ∧ c.Allocated d' ∧
      ∀ q M, d.lookup q = some M → ∃ M', d'.lookup q = some M' ∧ M'.m = M.m ∧ M'.n = M.n ∧ ∀ r s, M'.a r s = if q.1 = u ∧ r = i ∧ q.2 ∈ ps then (if c.states.contains q.2 then du else dp).valueAt q.2 s else M.a r s := by
  induction ps generalizing d with
  | nil => exact ⟨d, rfl, hd, fun q M h => ⟨M, h, rfl, rfl, fun r s => by simp⟩⟩
  | cons p ps ih =>
    obtain ⟨v, hvp⟩ := hv p (by simp)
    obtain ⟨M0, hM0⟩ := hd u hu p (hps p (by simp))
    obtain ⟨d1, h1, h2⟩ := modify_spec d (u, p) (fun M => M.setRow i v) M0 hM0
    have hd1 : c.Allocated d1 := by
      intro u' hu' p' hp'
      obtain ⟨M, hM⟩ := hd u' hu' p' hp'
      rw [h2]
      split
      · exact ⟨_, by rw [hM]; rfl⟩
      · exact ⟨M, hM⟩
    obtain ⟨d', e1, e2, e3⟩ := ih (fun p hp => hps p (by simp [hp])) (fun p hp => hv p (by simp [hp])) d1 hd1
    refine ⟨d', ?_, e2, ?_⟩
    · rw [List.foldlM_cons]
      have : c.storeRow u i dp du d p = .ok d1 := by
        unfold ChkComp.storeRow
        rw [hvp]
        exact h1
      rw [this]
      exact e1
    · intro q M hM
      have hl := h2 q
      by_cases hq : q = (u, p)
      · subst hq
        rw [if_pos rfl, hM] at hl
        obtain ⟨M', f1, f2, f3, f4⟩ := e3 _ _ hl
        refine ⟨M', f1, f2, f3, fun r s => ?_⟩
        rw [f4]
        simp only [List.mem_cons, true_or, and_true, true_and]
        by_cases hr : r = i
        · subst hr
          simp only [true_and]
          have hval : (if c.states.contains p = true then du else dp).valueAt p s = v.getD s 0 := by
            unfold DVec.valueAt
            rw [hvp]
            rfl
          rw [hval]
          simp [Mat.setRow]
        · simp [hr, Mat.setRow]
      · rw [if_neg hq, hM] at hl
        obtain ⟨M', f1, f2, f3, f4⟩ := e3 _ _ hl
        refine ⟨M', f1, f2, f3, fun r s => ?_⟩
        rw [f4]
        have : (q.1 = u ∧ r = i ∧ q.2 ∈ p :: ps) ↔ (q.1 = u ∧ r = i ∧ q.2 ∈ ps) := by
          constructor
          · rintro ⟨h1, h2, h3⟩
            rcases List.mem_cons.1 h3 with h | h
            · exact absurd (Prod.ext h1 h) hq
            · exact ⟨h1, h2, h⟩
          · rintro ⟨h1, h2, h3⟩
            exact ⟨h1, h2, List.mem_cons_of_mem _ h3⟩
        simp only [this]

/-- A component whose vectors have one entry per name, whose states are unknowns and not params, and whose `apply_linear` returns vectors of the right sizes. -/
structure ChkComp.WellFormed (c : ChkComp K) : Prop where
  dpN : (c.dp.map Prod.fst).Nodup
  duN : (c.du.map Prod.fst).Nodup
  st : ∀ s ∈ c.states, s ∈ c.du.map Prod.fst ∧ s ∉ c.dp.map Prod.fst
  fwd : ∀ dp du, dp.layout = c.dp → du.layout = c.du → ∃ dr, c.fwd dp du (zerosOf c.du) = .ok dr ∧ dr.layout = c.du
  rev : ∀ dr, dr.layout = c.du → ∃ dp du, c.rev (zerosOf c.dp) (zerosOf c.du) dr = .ok (dp, du) ∧ dp.layout = c.dp ∧ du.layout = c.du

/-- The result of reverse mode for an entry of an unknown. -/
def ChkComp.revVal (c : ChkComp K) (u : String) (i : Nat) (p : String) (j : Nat) : K :=
  match c.rev (zerosOf c.dp) (zerosOf c.du) (scaleBy c.residF (unitAt c.du u i)) with
  | .error _ => 0
  | .ok (dp, du) => (if c.states.contains p then du else scaleBy c.unitF dp).valueAt p j

theorem chk_lookup_of_mem_keys (l : List (String × Nat)) (n : String) (h : n ∈ l.map Prod.fst) : ∃ s, l.lookup n = some s := by
  induction l with
  | nil => simp at h
  | cons e l ih =>
    obtain ⟨k, v⟩ := e
    by_cases hn : n = k
    · subst hn; exact ⟨v, by simp [List.lookup_cons]⟩
    · simp only [List.map_cons, List.mem_cons, hn, false_or] at h
      have : (n == k) = false := by simpa using hn
      obtain ⟨s, hs⟩ := ih h
      exact ⟨s, by simp [List.lookup_cons, this, hs]⟩

theorem inputs_lookup (c : ChkComp K) (hc : c.WellFormed) (p : String) (hp : p ∈ c.paramList) : ∃ s, (c.inputs p).lookup p = some s := by
  unfold ChkComp.inputs
  apply chk_lookup_of_mem_keys
  split
  · rename_i h
    exact (hc.st p (by simpa using h)).1
  · rename_i h
    rcases List.mem_append.1 hp with h1 | h1
    · exact h1
    · exact absurd (by simpa using h1) h

theorem chk_rev_fold (c : ChkComp K) (hc : c.WellFormed) (cells : List (String × Nat)) (hcell : ∀ e ∈ cells, e.1 ∈ c.unknList) (d : JDict K) (hd : c.Allocated d) :
    ∃ d', cells.foldlM c.revCell d = .ok d' ∧ c.Allocated d' ∧ ∀ u p M, p ∈ c.paramList → d.lookup (u, p) = some M →
      ∃ M', d'.lookup (u, p) = some M' ∧ M'.m = M.m ∧ M'.n = M.n ∧ ∀ r s, M'.a r s = if (u, r) ∈ cells then c.revVal u r p s else M.a r s := by
  induction cells generalizing d with
  | nil => exact ⟨d, rfl, hd, fun u p M _ h => ⟨M, h, rfl, rfl, fun r s => by simp⟩⟩
  | cons e cells ih =>
    obtain ⟨u0, i0⟩ := e
    obtain ⟨dp, du, hr, hlp, hlu⟩ := hc.rev (scaleBy c.residF (unitAt c.du u0 i0)) (by rw [layout_scaleBy, layout_unitAt])
    obtain ⟨d1, h1, h2, h3⟩ := rows_fold c u0 (hcell _ List.mem_cons_self) i0 (scaleBy c.unitF dp) du c.paramList (fun _ h => h) (by
      intro p hp
      obtain ⟨s, hs⟩ := inputs_lookup c hc p hp
      unfold ChkComp.inputs at hs
      by_cases hst : c.states.contains p = true
      · rw [if_pos hst] at hs ⊢
        rw [← hlu, lookup_layout] at hs
        cases hx : du.lookup p with
        | none => rw [hx] at hs; simp at hs
        | some v => exact ⟨v, rfl⟩
      · rw [if_neg hst] at hs ⊢
        rw [lookup_scaleBy]
        rw [← hlp, lookup_layout] at hs
        cases hx : dp.lookup p with
        | none => rw [hx] at hs; simp at hs
        | some v => exact ⟨_, rfl⟩) d hd
    obtain ⟨d', e1, e2, e3⟩ := ih (fun e he => hcell e (by simp [he])) d1 h2
    refine ⟨d', ?_, e2, ?_⟩
    · rw [List.foldlM_cons]
      have : c.revCell d (u0, i0) = .ok d1 := by
        unfold ChkComp.revCell
        simp only [hr]
        exact h1
      rw [this]
      exact e1
    · intro u p M hp hM
      obtain ⟨M1, f1, f2, f3, f4⟩ := h3 _ _ hM
      obtain ⟨M', g1, g2, g3, g4⟩ := e3 u p M1 hp f1
      refine ⟨M', g1, g2.trans f2, g3.trans f3, fun r s => ?_⟩
      rw [g4, f4]
      by_cases hin : (u, r) ∈ cells
      · simp [hin]
      · by_cases he : u = u0 ∧ r = i0
        · obtain ⟨rfl, rfl⟩ := he
          simp only [hin, if_false, hp, and_self, if_true, List.mem_cons, true_or]
          unfold ChkComp.revVal
          rw [hr]
        · have h5 : ¬ (u = u0 ∧ r = i0 ∧ p ∈ c.paramList) := fun h => he ⟨h.1, h.2.1⟩
          have h6 : (u, r) ∉ (u0, i0) :: cells := by
            intro h
            rcases List.mem_cons.1 h with h | h
            · exact he ⟨congrArg Prod.fst h, congrArg Prod.snd h⟩
            · exact hin h
          simp only [hin, h5, h6, if_false]

/-- The result of forward mode for an entry of a param or state. -/
def ChkComp.fwdVal (c : ChkComp K) (p : String) (j : Nat) (u : String) (i : Nat) : K :=
  match c.fwd (scaleBy c.unitF (if c.states.contains p then zerosOf c.dp else unitAt c.dp p j)) (if c.states.contains p then unitAt c.du p j else zerosOf c.du) (zerosOf c.du) with
  | .error _ => 0
  | .ok dr => (scaleBy c.residF dr).valueAt u i

theorem cols_fold (c : ChkComp K) (p : String) (hp : p ∈ c.paramList) (j : Nat) (dr : DVec K) (hn : (dr.map Prod.fst).Nodup) (hdr : ∀ e ∈ dr, e.1 ∈ c.unknList) (d : JDict K) (hd : c.Allocated d) :
    ∃ d', dr.foldlM (storeColumn p j) d = .ok d' ∧ c.Allocated d' ∧
      ∀ q M, d.lookup q = some M → ∃ M', d'.lookup q = some M' ∧ M'.m = M.m ∧ M'.n = M.n ∧ ∀ r s, M'.a r s = if q.2 = p ∧ s = j ∧ q.1 ∈ dr.map Prod.fst then dr.valueAt q.1 r else M.a r s := by
  induction dr generalizing d with
  | nil => exact ⟨d, rfl, hd, fun q M h => ⟨M, h, rfl, rfl, fun r s => by simp⟩⟩
  | cons e dr ih =>
    obtain ⟨u, v⟩ := e
    obtain ⟨M0, hM0⟩ := hd u (hdr (u, v) (by simp)) p hp
    obtain ⟨d1, h1, h2⟩ := modify_spec d (u, p) (fun M => M.setColumn j v) M0 hM0
    have hd1 : c.Allocated d1 := by
      intro u' hu' p' hp'
      obtain ⟨M, hM⟩ := hd u' hu' p' hp'
      rw [h2]
      split
      · exact ⟨_, by rw [hM]; rfl⟩
      · exact ⟨M, hM⟩
    simp only [List.map_cons, List.nodup_cons] at hn
    obtain ⟨d', e1, e2, e3⟩ := ih hn.2 (fun e he => hdr e (by simp [he])) d1 hd1
    refine ⟨d', ?_, e2, ?_⟩
    · rw [List.foldlM_cons]
      have : storeColumn p j d (u, v) = .ok d1 := h1
      rw [this]
      exact e1
    · intro q M hM
      have hl := h2 q
      by_cases hq : q = (u, p)
      · subst hq
        rw [if_pos rfl, hM] at hl
        obtain ⟨M', f1, f2, f3, f4⟩ := e3 _ _ hl
        refine ⟨M', f1, f2, f3, fun r s => ?_⟩
        rw [f4]
        simp only [hn.1, List.map_cons, List.mem_cons, true_or, and_true, true_and, and_false, if_false]
        by_cases hs : s = j
        · subst hs
          simp [Mat.setColumn, DVec.valueAt, List.lookup_cons]
        · simp [hs, Mat.setColumn]
      · rw [if_neg hq, hM] at hl
        obtain ⟨M', f1, f2, f3, f4⟩ := e3 _ _ hl
        refine ⟨M', f1, f2, f3, fun r s => ?_⟩
        rw [f4]
        by_cases hq1 : q.1 = u
        · have hq2 : q.2 ≠ p := fun h => hq (Prod.ext hq1 h)
          simp [hq2]
        · have hk : (q.1 == u) = false := by simpa using hq1
          have hv : DVec.valueAt ((u, v) :: dr) q.1 r = DVec.valueAt dr q.1 r := by simp [DVec.valueAt, List.lookup_cons, hk]
          simp only [List.map_cons, List.mem_cons, hq1, false_or, hv]

theorem keys_layout (d : DVec K) (l : List (String × Nat)) (h : d.layout = l) : d.map Prod.fst = l.map Prod.fst := by
  rw [← h]
  unfold DVec.layout
  rw [List.map_map]
  rfl

theorem chk_fwd_fold (c : ChkComp K) (hc : c.WellFormed) (cells : List (String × Nat)) (hcell : ∀ e ∈ cells, e.1 ∈ c.paramList) (d : JDict K) (hd : c.Allocated d) :
    ∃ d', cells.foldlM c.fwdCell d = .ok d' ∧ c.Allocated d' ∧ ∀ u p M, u ∈ c.unknList → d.lookup (u, p) = some M →
      ∃ M', d'.lookup (u, p) = some M' ∧ M'.m = M.m ∧ M'.n = M.n ∧ ∀ r s, M'.a r s = if (p, s) ∈ cells then c.fwdVal p s u r else M.a r s := by
  induction cells generalizing d with
  | nil => exact ⟨d, rfl, hd, fun u p M _ h => ⟨M, h, rfl, rfl, fun r s => by simp⟩⟩
  | cons e cells ih =>
    obtain ⟨p0, j0⟩ := e
    obtain ⟨dr, hr, hlr⟩ := hc.fwd (scaleBy c.unitF (if c.states.contains p0 then zerosOf c.dp else unitAt c.dp p0 j0)) (if c.states.contains p0 then unitAt c.du p0 j0 else zerosOf c.du)
      (by rw [layout_scaleBy]; split <;> [exact layout_zerosOf _; exact layout_unitAt _ _ _]) (by split <;> [exact layout_unitAt _ _ _; exact layout_zerosOf _])
    have hks : (scaleBy c.residF dr).map Prod.fst = c.du.map Prod.fst := keys_layout _ _ (by rw [layout_scaleBy, hlr])
    obtain ⟨d1, h1, h2, h3⟩ := cols_fold c p0 (hcell _ List.mem_cons_self) j0 (scaleBy c.residF dr) (by rw [hks]; exact hc.duN) (by
      intro e he
      have : e.1 ∈ (scaleBy c.residF dr).map Prod.fst := List.mem_map_of_mem he
      rw [hks] at this
      exact this) d hd
    obtain ⟨d', e1, e2, e3⟩ := ih (fun e he => hcell e (by simp [he])) d1 h2
    refine ⟨d', ?_, e2, ?_⟩
    · rw [List.foldlM_cons]
      have : c.fwdCell d (p0, j0) = .ok d1 := by
        unfold ChkComp.fwdCell
        simp only [hr]
        exact h1
      rw [this]
      exact e1
    · intro u p M hu hM
      obtain ⟨M1, f1, f2, f3, f4⟩ := h3 _ _ hM
      obtain ⟨M', g1, g2, g3, g4⟩ := e3 u p M1 hu f1
      refine ⟨M', g1, g2.trans f2, g3.trans f3, fun r s => ?_⟩
      rw [g4, f4]
      by_cases hin : (p, s) ∈ cells
      · simp [hin]
      · by_cases he : p = p0 ∧ s = j0
        · obtain ⟨rfl, rfl⟩ := he
          have hu2 : u ∈ (scaleBy c.residF dr).map Prod.fst := by rw [hks]; exact hu
          simp only [hin, if_false, hu2, and_self, if_true, List.mem_cons, true_or]
          unfold ChkComp.fwdVal
          rw [hr]
        · have h5 : ¬ (p = p0 ∧ s = j0 ∧ u ∈ (scaleBy c.residF dr).map Prod.fst) := fun h => he ⟨h.1, h.2.1⟩
          have h6 : (p, s) ∉ (p0, j0) :: cells := by
            intro h
            rcases List.mem_cons.1 h with h | h
            · exact he ⟨congrArg Prod.fst h, congrArg Prod.snd h⟩
            · exact hin h
          simp only [hin, h5, h6, if_false]

/-! ## Allocation -/

/-- The shape of the derivative supplied fits the sizes. -/
def ChkComp.Fits (c : ChkComp K) (u p : String) (n m : Nat) : Prop := ∀ s, c.shapes.lookup (u, p) = some s → userShape s = .ok (n, m)

theorem alloc_unk (c : ChkComp K) (p : String) (m : Nat) (us : List String) (hus : ∀ u ∈ us, ∃ n, c.du.lookup u = some n ∧ c.Fits u p n m) (d : JDict K) :
    ∃ d', us.foldlM (c.allocStep p m) d = .ok d' ∧ ∀ q, d'.lookup q = if q.2 = p ∧ q.1 ∈ us then (c.du.lookup q.1).map (fun n => Mat.zeros n m) else d.lookup q := by
  induction us generalizing d with
  | nil => exact ⟨d, rfl, fun q => by simp⟩
  | cons u us ih =>
    obtain ⟨n, hn, hf⟩ := hus u (by simp)
    obtain ⟨d', h1, h2⟩ := ih (fun u hu => hus u (by simp [hu])) (dictSet d (u, p) (Mat.zeros n m))
    refine ⟨d', ?_, fun q => ?_⟩
    · rw [List.foldlM_cons]
      have : c.allocStep p m d u = .ok (dictSet d (u, p) (Mat.zeros n m)) := by
        unfold ChkComp.allocStep sizeIn
        rw [hn]
        simp only
        cases hs : c.shapes.lookup (u, p) with
        | none => rfl
        | some s => simp only [hf s hs, if_true]
      rw [this]
      exact h1
    · rw [h2, lookup_dictSet]
      by_cases hq : q = (u, p)
      · subst hq
        simp [hn]
      · rw [if_neg hq]
        have : (q.2 = p ∧ q.1 ∈ u :: us) ↔ (q.2 = p ∧ q.1 ∈ us) := by
          constructor
          · rintro ⟨h1, h3⟩
            rcases List.mem_cons.1 h3 with h | h
            · exact absurd (Prod.ext h h1) hq
            · exact ⟨h1, h⟩
          · rintro ⟨h1, h3⟩
            exact ⟨h1, List.mem_cons_of_mem _ h3⟩
        simp only [this]

theorem alloc_params (c : ChkComp K) (ps : List String) (hps : ∀ p ∈ ps, ∃ m, (c.inputs p).lookup p = some m ∧ ∀ u ∈ c.unknList, ∃ n, c.du.lookup u = some n ∧ c.Fits u p n m) (d : JDict K) :
    ∃ d', ps.foldlM c.allocParam d = .ok d' ∧ ∀ u p n m, p ∈ ps → u ∈ c.unknList → c.du.lookup u = some n → (c.inputs p).lookup p = some m → d'.lookup (u, p) = some (Mat.zeros n m) := by
  induction ps using List.reverseRecOn with
  | nil => exact ⟨d, rfl, fun u p n m h => by simp at h⟩
  | append_singleton ps p0 ih =>
    obtain ⟨d1, h1, h2⟩ := ih (fun p hp => hps p (by simp [hp]))
    obtain ⟨m0, hm0, hu0⟩ := hps p0 (by simp)
    obtain ⟨d', h3, h4⟩ := alloc_unk c p0 m0 c.unknList hu0 d1
    refine ⟨d', ?_, ?_⟩
    · rw [List.foldlM_append, h1]
      have : c.allocParam d1 p0 = .ok d' := by
        unfold ChkComp.allocParam sizeIn
        rw [hm0]
        exact h3
      simp only [List.foldlM_cons, List.foldlM_nil, bind, Except.bind, this, pure, Except.pure]
    · intro u p n m hp hu hn hm
      rw [h4]
      by_cases hpp : p = p0
      · subst hpp
        rw [hm0] at hm
        cases hm
        simp [hu, hn]
      · simp only [hpp, false_and, if_false]
        rcases List.mem_append.1 hp with h | h
        · exact h2 u p n m h hu hn hm
        · exact absurd (by simpa using h) hpp

theorem fold_error {σ α : Type} (P : PyErr → Prop) (f : σ → α → Except PyErr σ) (l : List α) (s : σ) (hf : ∀ s a e, a ∈ l → f s a = .error e → P e) (a : α) (ha : a ∈ l) (hbad : ∀ s, ∃ e, f s a = .error e) :
    ∃ e, l.foldlM f s = .error e ∧ P e := by
  induction l generalizing s with
  | nil => simp at ha
  | cons b l ih =>
    rw [List.foldlM_cons]
    cases hb : f s b with
    | error e => exact ⟨e, rfl, hf s b e (by simp) hb⟩
    | ok s1 =>
      rcases List.mem_cons.1 ha with h | h
      · subst h
        obtain ⟨e, he⟩ := hbad s
        rw [he] at hb
        cases hb
      · exact ih s1 (fun s a e h => hf s a e (by simp [h])) h

theorem fold_error_inv {σ α : Type} (P : PyErr → Prop) (f : σ → α → Except PyErr σ) (l : List α) (s : σ) (hf : ∀ s a e, a ∈ l → f s a = .error e → P e) (e : PyErr) (h : l.foldlM f s = .error e) : P e := by
  induction l generalizing s with
  | nil => cases h
  | cons b l ih =>
    rw [List.foldlM_cons] at h
    cases hb : f s b with
    | error e1 =>
      rw [hb] at h
      cases h
      exact hf s b e (by simp) hb
    | ok s1 =>
      rw [hb] at h
      exact ih s1 (fun s a e h => hf s a e (by simp [h])) h

/-! ## Unit vectors -/

/-- All entries are zero but the entry `i` of the variable `n`. -/
def DVec.Peak (d : DVec K) (n : String) (i : Nat) (a : K) : Prop := ∀ q v, d.lookup q = some v → ∀ r, v.getD r 0 = if q = n ∧ r = i then a else 0

theorem peak_zeros (f : String → Option K) (l : List (String × Nat)) (n : String) (i : Nat) : (scaleBy f (zerosOf l)).Peak n i 0 := by
  intro q v h r
  rw [lookup_scaleBy, lookup_zerosOf] at h
  cases hl : l.lookup q with
  | none => rw [hl] at h; simp at h
  | some s =>
    rw [hl] at h
    simp only [Option.map_some, Option.some.injEq] at h
    subst h
    by_cases hr : r < s <;> cases f q <;> simp [List.getD, List.getElem?_replicate, hr]

theorem peak_zeros' (l : List (String × Nat)) (n : String) (i : Nat) : (zerosOf l : DVec K).Peak n i 0 := by
  have := peak_zeros (K := K) (fun _ => none) l n i
  intro q v h r
  refine this q v ?_ r
  rw [lookup_scaleBy, h]
  rfl

theorem peak_unit (f : String → Option K) (l : List (String × Nat)) (n : String) (s i : Nat) (hs : l.lookup n = some s) (hi : i < s) : (scaleBy f (unitAt l n i)).Peak n i ((f n).getD 1) := by
  intro q v h r
  rw [lookup_scaleBy, lookup_unitAt] at h
  cases hl : l.lookup q with
  | none => rw [hl] at h; simp at h
  | some t =>
    rw [hl] at h
    simp only [Option.map_some, Option.some.injEq] at h
    subst h
    by_cases hq : q = n
    · subst hq
      rw [hs] at hl
      cases hl
      by_cases hr : r = i
      · subst hr
        cases f q <;> simp [List.getD, hi]
      · have hr2 : i ≠ r := fun h => hr h.symm
        by_cases hrs : r < s <;> cases f q <;> simp [List.getD, List.getElem?_set, List.getElem?_replicate, hr, hr2, hrs]
    · by_cases hr : r < t <;> cases f q <;> simp [hq, List.getD, List.getElem?_replicate, hr]

theorem peak_unit' (l : List (String × Nat)) (n : String) (s i : Nat) (hs : l.lookup n = some s) (hi : i < s) : (unitAt l n i : DVec K).Peak n i 1 := by
  have := peak_unit (K := K) (fun _ => none) l n s i hs hi
  intro q v h r
  refine this q v ?_ r
  rw [lookup_scaleBy, h]
  rfl

theorem bil_peak (J : Mat K) (y x : List K) (i j : Nat) (a b : K) (hy : ∀ r, y.getD r 0 = if r = i then a else 0) (hx : ∀ r, x.getD r 0 = if r = j then b else 0) (hi : i < J.m) (hj : j < J.n) :
    bil y J x = a * J.a i j * b := by
  unfold bil
  rw [Finset.sum_eq_single i]
  · rw [Finset.sum_eq_single j]
    · rw [hy, hx]; simp
    · intro r _ hr
      rw [hx r, if_neg hr]; simp
    · intro hn
      exact absurd (Finset.mem_range.2 hj) hn
  · intro r _ hr
    apply Finset.sum_eq_zero
    intro s _
    rw [hy r, if_neg hr]; simp
  · intro hn
    exact absurd (Finset.mem_range.2 hi) hn

theorem bilAt_ne (X Y : DVec K) (u p o q : String) (i j : Nat) (a b : K) (J : Mat K) (hX : X.Peak u i a) (hY : Y.Peak p j b) (h : ¬ (o = u ∧ q = p)) : bilAt X o J Y q = 0 := by
  unfold bilAt
  cases hx : X.lookup o with
  | none => rfl
  | some y =>
    cases hy : Y.lookup q with
    | none => rfl
    | some x =>
      simp only
      unfold bil
      apply Finset.sum_eq_zero
      intro r _
      apply Finset.sum_eq_zero
      intro s _
      rw [hX o y hx r, hY q x hy s]
      by_cases h1 : o = u
      · have h2 : ¬ q = p := fun h2 => h ⟨h1, h2⟩
        simp [h2]
      · simp [h1]

theorem bilAt_eq (X Y : DVec K) (u p : String) (i j : Nat) (a b : K) (J : Mat K) (hX : X.Peak u i a) (hY : Y.Peak p j b) (hu : (X.lookup u).isSome) (hp : (Y.lookup p).isSome) (hi : i < J.m) (hj : j < J.n) :
    bilAt X u J Y p = a * J.a i j * b := by
  unfold bilAt
  obtain ⟨y, hy⟩ := Option.isSome_iff_exists.1 hu
  obtain ⟨x, hx⟩ := Option.isSome_iff_exists.1 hp
  rw [hy, hx]
  exact bil_peak J y x i j a b (fun r => by simpa using hX u y hy r) (fun r => by simpa using hY p x hx r) hi hj

theorem sum_at_key (jac : List ((String × String) × Mat K)) (hn : (jac.map Prod.fst).Nodup) (k : String × String) (g : Mat K → K) :
    (jac.map fun e => if e.1 = k then g e.2 else 0).sum = match jac.lookup k with
      | none => 0
      | some J => g J := by
  induction jac with
  | nil => rfl
  | cons e jac ih =>
    obtain ⟨q, J⟩ := e
    simp only [List.map_cons, List.nodup_cons] at hn
    by_cases hq : k = q
    · subst hq
      simp only [List.map_cons, List.sum_cons, if_true, List.lookup_cons_self]
      have : (jac.map fun e => if e.1 = k then g e.2 else 0).sum = 0 := by
        apply List.sum_eq_zero
        intro x hx
        obtain ⟨e, he, rfl⟩ := List.mem_map.1 hx
        have : e.1 ≠ k := fun h => hn.1 (h ▸ List.mem_map_of_mem he)
        simp [this]
      rw [this, add_zero]
    · have h1 : (k == q) = false := by simpa using hq
      have h2 : ¬ q = k := fun h => hq h.symm
      simp only [List.map_cons, List.sum_cons, List.lookup_cons, h1, h2, if_false, zero_add]
      exact ih hn.2

theorem sum_entries (c : LinComp K) (jac : List ((String × String) × Mat K)) (hn : (jac.map Prod.fst).Nodup) (hrel : c.relInputs = []) (X bp bu : DVec K) (u p : String) (i j : Nat) (a b : K)
    (hX : X.Peak u i a) (hu : (X.lookup u).isSome) (hst : p ∈ c.states → bp.Peak p j 0 ∧ bu.Peak p j b ∧ (bu.lookup p).isSome) (hpa : p ∉ c.states → bu.Peak p j 0 ∧ bp.Peak p j b ∧ (bp.lookup p).isSome)
    (hJ : ∀ J, ((u, p), J) ∈ jac → i < J.m ∧ j < J.n) :
    (jac.map (entryTerm c X bp bu)).sum = match jac.lookup (u, p) with
      | none => 0
      | some J => a * J.a i j * b := by
  rw [← sum_at_key jac hn (u, p) (fun J => a * J.a i j * b)]
  congr 1
  apply List.map_congr_left
  rintro ⟨⟨o, q⟩, J⟩ he
  unfold entryTerm
  have hskip : c.skips q = false := by simp [LinComp.skips, hrel]
  simp only [hskip, Bool.false_eq_true, if_false]
  by_cases hk : (o, q) = (u, p)
  · obtain ⟨rfl, rfl⟩ := Prod.mk.inj hk
    rw [if_pos hk]
    obtain ⟨hi, hj⟩ := hJ J he
    by_cases hs : q ∈ c.states
    · obtain ⟨_, h2, h3⟩ := hst hs
      rw [if_pos (by simpa using hs)]
      exact bilAt_eq X bu o q i j a b J hX h2 hu h3 hi hj
    · obtain ⟨_, h2, h3⟩ := hpa hs
      rw [if_neg (by simpa using hs)]
      exact bilAt_eq X bp o q i j a b J hX h2 hu h3 hi hj
  · rw [if_neg hk]
    have hk2 : ¬ (o = u ∧ q = p) := fun h => hk (Prod.ext h.1 h.2)
    have hb : ∃ b1 b2, bp.Peak p j b1 ∧ bu.Peak p j b2 := by
      by_cases hs : p ∈ c.states
      · exact ⟨0, b, (hst hs).1, (hst hs).2.1⟩
      · exact ⟨b, 0, (hpa hs).2.1, (hpa hs).1⟩
    obtain ⟨b1, b2, h1, h2⟩ := hb
    split
    · exact bilAt_ne X bu u p o q i j a b2 J hX h2 hk2
    · exact bilAt_ne X bp u p o q i j a b1 J hX h1 hk2

end

end OpenMDAO
