import Verif.Model.MultiFi
import Verif.Props.MetaModel
/-! # C74: training data of `MultiFiMetaModel` -/
namespace OpenMDAO
set_option linter.unusedSectionVars false

variable {K : Type} [Zero K]

/-- The names under which the data of two levels are given: `x` and `x_fi2`. -/
def fidelityName (fi : Nat) (x : String) : String := if fi = 0 then x else x ++ "_fi2"

/-- The variables of one level. -/
def levelVars (fi : Nat) (vars : List (String × Nat)) : List (String × Nat) := vars.map fun p => (fidelityName fi p.1, p.2)

theorem fiName_zero (x : String) : fiName x 0 = fidelityName 0 x := rfl

theorem fiName_one (x : String) : fiName x 1 = fidelityName 1 x := by
  have : toString (1 + 1) = "2" := by decide +kernel
  simp only [fiName, fidelityName, Nat.one_ne_zero, if_false, Nat.zero_lt_one, if_true, this]
  rw [String.append_assoc]
  rfl

theorem range_two : List.range 2 = [0, 1] := rfl

theorem foldlM_two {σ ε : Type} (F : σ → Nat → Except ε σ) (s s1 s2 : σ) (h1 : F s 0 = .ok s1) (h2 : F s1 1 = .ok s2) : (List.range 2).foldlM F s = .ok s2 := by
  rw [range_two, List.foldlM_cons, h1]
  show [1].foldlM F s1 = _
  rw [List.foldlM_cons, h2]
  rfl

/-- counting the points of one parameter on two levels -/
theorem mfCountParam_ok (data : TrainData K) (num : Nat → Option Nat) (p : String × Nat) (n : Nat → Nat) (h : ∀ fi < 2, ∃ v, data.lookup (fidelityName fi p.1) = some v ∧ v.length = n fi)
    (hnum : ∀ fi < 2, num fi = none ∨ num fi = some (n fi)) :
    ∃ num', mfCountParam 2 data num p = .ok num' ∧ ∀ fi < 2, num' fi = some (n fi) := by
  obtain ⟨v0, a0, b0⟩ := h 0 (by decide)
  obtain ⟨v1, a1, b1⟩ := h 1 (by decide)
  have s0 : ∃ num1, mfCountStep data (p.1, num) 0 = .ok (p.1, num1) ∧ num1 0 = some (n 0) ∧ num1 1 = num 1 := by
    simp only [mfCountStep, fiName_zero, trainVal, a0]
    rcases hnum 0 (by decide) with h0 | h0
    · rw [h0]
      exact ⟨_, rfl, by simp [atLevel, b0], by simp [atLevel]⟩
    · rw [h0]
      simp only [b0, if_true]
      exact ⟨_, rfl, h0, rfl⟩
  obtain ⟨num1, e0, c0, c1⟩ := s0
  have s1 : ∃ x num2, mfCountStep data (p.1, num1) 1 = .ok (x, num2) ∧ num2 0 = some (n 0) ∧ num2 1 = some (n 1) := by
    simp only [mfCountStep, fiName_one, trainVal, a1]
    rcases hnum 1 (by decide) with h0 | h0
    · rw [c1, h0]
      exact ⟨_, _, rfl, by simp [atLevel, c0], by simp [atLevel, b1]⟩
    · rw [c1, h0]
      simp only [b1, if_true]
      exact ⟨_, _, rfl, c0, by rw [c1, h0]⟩
  obtain ⟨x, num2, e1, d0, d1⟩ := s1
  refine ⟨num2, ?_, ?_⟩
  · simp only [mfCountParam, foldlM_two _ _ _ _ e0 e1]
  · intro fi hfi
    rcases (by omega : fi = 0 ∨ fi = 1) with rfl | rfl
    · exact d0
    · exact d1

theorem mfCountParams_ok (data : TrainData K) (n : Nat → Nat) (ps : List (String × Nat)) (num : Nat → Option Nat) (h : ∀ p ∈ ps, ∀ fi < 2, ∃ v, data.lookup (fidelityName fi p.1) = some v ∧ v.length = n fi)
    (hnum : ∀ fi < 2, num fi = none ∨ num fi = some (n fi)) :
    ∃ num', ps.foldlM (mfCountParam 2 data) num = .ok num' ∧ (∀ fi < 2, num' fi = none ∨ num' fi = some (n fi)) ∧ (ps ≠ [] → ∀ fi < 2, num' fi = some (n fi)) := by
  induction ps generalizing num with
  | nil => exact ⟨num, rfl, hnum, fun h => absurd rfl h⟩
  | cons p ps ih =>
    obtain ⟨num1, e, h1⟩ := mfCountParam_ok data num p n (h p (by simp)) hnum
    obtain ⟨num', e', h2, h3⟩ := ih num1 (fun q hq => h q (List.mem_cons_of_mem _ hq)) (fun fi hfi => Or.inr (h1 fi hfi))
    refine ⟨num', ?_, h2, fun _ => ?_⟩
    · rw [List.foldlM_cons, e]; exact e'
    · cases ps with
      | nil =>
        have : num1 = num' := by simpa [pure, Except.pure] using e'
        rw [← this]; exact h1
      | cons q qs => exact h3 (by simp)

theorem mfCheckOuts_ok (data : TrainData K) (n : Nat → Nat) (num : Nat → Option Nat) (os : List (String × Nat)) (h : ∀ p ∈ os, ∀ fi < 2, ∃ v, data.lookup (fidelityName fi p.1) = some v ∧ v.length = n fi)
    (hnum : ∀ fi < 2, num fi = some (n fi)) : os.foldlM (mfCheckOut 2 data num) () = .ok () := by
  induction os with
  | nil => rfl
  | cons o os ih =>
    obtain ⟨v0, a0, b0⟩ := h o (by simp) 0 (by decide)
    obtain ⟨v1, a1, b1⟩ := h o (by simp) 1 (by decide)
    have e0 : mfCheckStep data num o.1 0 = .ok o.1 := by simp [mfCheckStep, fiName_zero, trainVal, a0, b0, hnum 0 (by decide)]; rfl
    have e1 : mfCheckStep data num o.1 1 = .ok (fidelityName 1 o.1) := by simp [mfCheckStep, fiName_one, trainVal, a1, b1, hnum 1 (by decide)]
    have : mfCheckOut 2 data num () o = .ok () := by simp only [mfCheckOut, foldlM_two _ _ _ _ e0 e1]
    rw [List.foldlM_cons, this]
    exact ih fun q hq => h q (List.mem_cons_of_mem _ hq)

/-- one step of filling on one level -/
theorem mfFillStep_ok (data : TrainData K) (num : Nat → Nat) (fi : Nat) (hfi : fi < 2) (hn : 0 < num fi) (p : String × Nat) (ps : List (String × Nat)) (st : Nat → Nat × List (List K)) (r : List (List K))
    (h : fillParams data (st fi).1 (levelVars fi (p :: ps)) (st fi).2 = (r, none)) :
    ∃ c, mfFillStep data num p.2 (p.1, st) fi = .ok (fidelityName fi p.1, atLevel st fi c) ∧ fillParams data c.1 (levelVars fi ps) c.2 = (r, none) := by
  have hname : fiName p.1 fi = fidelityName fi p.1 := by
    rcases (by omega : fi = 0 ∨ fi = 1) with rfl | rfl
    · rfl
    · exact fiName_one _
  simp only [mfFillStep, hn, if_true, hname]
  simp only [levelVars, List.map_cons, fillParams] at h
  cases hv : trainVal data (fidelityName fi p.1) with
  | error e => rw [hv] at h; simp at h
  | ok vs =>
    rw [hv] at h
    simp only at h ⊢
    split_ifs at h ⊢ with hf
    · cases hc : fillCol (st fi).1 (st fi).2 vs with
      | mk rows' err =>
        rw [hc] at h
        cases err with
        | some e => simp at h
        | none => exact ⟨_, by simp [noErr]; rfl, h⟩
    · cases hc : fillRows (st fi).1 p.2 (st fi).2 vs with
      | mk rows' err =>
        rw [hc] at h
        cases err with
        | some e => simp at h
        | none => exact ⟨_, by simp [noErr]; rfl, h⟩

/-- the two levels are filled independently -/
theorem mfFill_ok (data : TrainData K) (num : Nat → Nat) (h0 : 0 < num 0) (h1 : 0 < num 1) (ps : List (String × Nat)) (st : Nat → Nat × List (List K)) (r : Nat → List (List K))
    (h : ∀ fi < 2, fillParams data (st fi).1 (levelVars fi ps) (st fi).2 = (r fi, none)) :
    ∃ st', ps.foldlM (mfFillParam 2 data num) st = .ok st' ∧ ∀ fi < 2, (st' fi).2 = r fi := by
  induction ps generalizing st with
  | nil =>
    refine ⟨st, rfl, fun fi hfi => ?_⟩
    have := h fi hfi
    simpa [levelVars, fillParams] using this
  | cons p ps ih =>
    obtain ⟨c0, e0, f0⟩ := mfFillStep_ok data num 0 (by decide) h0 p ps st (r 0) (h 0 (by decide))
    obtain ⟨c1, e1, f1⟩ := mfFillStep_ok data num 1 (by decide) h1 p ps (atLevel st 0 c0) (r 1) (by simpa [atLevel] using h 1 (by decide))
    have hp : mfFillParam 2 data num st p = .ok (atLevel (atLevel st 0 c0) 1 c1) := by
      simp only [mfFillParam]
      rw [foldlM_two _ _ _ _ e0 e1]
    obtain ⟨st', e, hs⟩ := ih (atLevel (atLevel st 0 c0) 1 c1) (by
      intro fi hfi
      rcases (by omega : fi = 0 ∨ fi = 1) with rfl | rfl
      · simpa [atLevel] using f0
      · simpa [atLevel] using f1)
    exact ⟨st', by rw [List.foldlM_cons, hp]; exact e, hs⟩

/-- one level of one output -/
theorem mfOutStep_ok {vars : List (String × Nat)} {data : TrainData K} {f : String → Nat → TrVal K} (warm : Bool) (num nold : Nat → Nat) (fi : Nat) (hfi : fi < 2)
    (hg : GoodData (levelVars fi vars) data (num fi) f) (o : String × Nat) (ho : o ∈ vars) (M : MultiM K) (outputs : Nat → Option (List (List K))) (old : List (List K))
    (hold : mfOld M o.1 fi (if warm then nold fi else 0) o.2 = .ok old) :
    mfOutStep data warm num nold o (M, outputs) fi =
      .ok ({ M with trainOut := dictSet M.trainOut o.1 (if warm then atLevel ((M.trainOut.lookup o.1).getD fun _ => none) fi (some (old ++ (List.range (num fi)).map fun i => (f (fidelityName fi o.1) i).flat))
          else atLevel outputs fi (some (old ++ (List.range (num fi)).map fun i => (f (fidelityName fi o.1) i).flat))) },
        atLevel outputs fi (some (old ++ (List.range (num fi)).map fun i => (f (fidelityName fi o.1) i).flat))) := by
  have hname : fiName o.1 fi = fidelityName fi o.1 := by
    rcases (by omega : fi = 0 ∨ fi = 1) with rfl | rfl
    · rfl
    · exact fiName_one _
  have hm : (fidelityName fi o.1, o.2) ∈ levelVars fi vars := List.mem_map.2 ⟨o, ho, rfl⟩
  have hfill := fillOut_ok hg (fidelityName fi o.1, o.2) hm
  simp only at hfill
  simp only [mfOutStep, hg.pos, if_true, hold, hname, trainVal, hg.vals _ hm, hfill, noErr]

/-- Rows of training data of one level of a variable. -/
def levelRows (num : Nat → Nat) (f : String → Nat → TrVal K) (o : String) (fi : Nat) : List (List K) := (List.range (num fi)).map fun i => (f (fidelityName fi o) i).flat

theorem mfOld_congr (M M' : MultiM K) (o : String) (fi nold sz : Nat) (h : nold ≠ 0 → (M.trainOut.lookup o).map (· fi) = (M'.trainOut.lookup o).map (· fi)) : mfOld M o fi nold sz = mfOld M' o fi nold sz := by
  simp only [mfOld]
  split_ifs with h0
  · rfl
  · have := h h0
    cases h1 : M.trainOut.lookup o with
    | none =>
      cases h2 : M'.trainOut.lookup o with
      | none => rfl
      | some b => rw [h1, h2] at this; simp at this
    | some a =>
      cases h2 : M'.trainOut.lookup o with
      | none => rw [h1, h2] at this; simp at this
      | some b =>
        rw [h1, h2] at this
        simp only [Option.map_some, Option.some.injEq] at this
        simp only [this]

/-- one output on both levels -/
theorem mfOut_ok {vars : List (String × Nat)} {data : TrainData K} {f : String → Nat → TrVal K} (warm : Bool) (num nold : Nat → Nat)
    (hg : ∀ fi < 2, GoodData (levelVars fi vars) data (num fi) f) (o : String × Nat) (ho : o ∈ vars) (M : MultiM K) (hnfi : M.nfi = 2) (outputs : Nat → Option (List (List K))) (calls : List (MfCall K))
    (old : Nat → List (List K)) (hold : ∀ fi < 2, mfOld M o.1 fi (if warm then nold fi else 0) o.2 = .ok (old fi)) :
    ∃ lv outputs', mfOut data warm num nold ((M, outputs), calls) o =
        .ok (({ M with trainOut := lv }, outputs'), calls ++ [(o.1, [M.trainIn 0, M.trainIn 1], [some (old 0 ++ levelRows num f o.1 0), some (old 1 ++ levelRows num f o.1 1)])]) ∧
      (∃ w, lv.lookup o.1 = some w ∧ ∀ fi < 2, w fi = some (old fi ++ levelRows num f o.1 fi)) ∧ ∀ x, x ≠ o.1 → lv.lookup x = M.trainOut.lookup x := by
  have e0 := mfOutStep_ok warm num nold 0 (by decide) (hg 0 (by decide)) o ho M outputs (old 0) (hold 0 (by decide))
  have e1 := fun M' outs h => mfOutStep_ok warm num nold 1 (by decide) (hg 1 (by decide)) o ho M' outs (old 1) h
  have h1 := e1 _ (atLevel outputs 0 (some (old 0 ++ (List.range (num 0)).map fun i => (f (fidelityName 0 o.1) i).flat))) ((mfOld_congr { M with trainOut := dictSet M.trainOut o.1 (if warm then atLevel ((M.trainOut.lookup o.1).getD fun _ => none) 0 (some (old 0 ++ (List.range (num 0)).map fun i => (f (fidelityName 0 o.1) i).flat))
          else atLevel outputs 0 (some (old 0 ++ (List.range (num 0)).map fun i => (f (fidelityName 0 o.1) i).flat))) } M o.1 1 (if warm then nold 1 else 0) o.2 (by
        intro hne
        cases warm with
        | false => simp at hne
        | true =>
          have := hold 1 (by decide)
          simp only [if_true] at this hne ⊢
          simp only [mfOld, if_neg hne] at this
          cases hl : M.trainOut.lookup o.1 with
          | none => rw [hl] at this; simp at this
          | some w => simp [lookup_dictSet, hl, atLevel])).trans (hold 1 (by decide)))
  have hr := foldlM_two _ _ _ _ e0 h1
  simp only at hr
  have key : ∃ lv outputs', (List.range 2).foldlM (mfOutStep data warm num nold o) (M, outputs) = .ok ({ M with trainOut := lv }, outputs') ∧
      (∃ w, lv.lookup o.1 = some w ∧ ∀ fi < 2, w fi = some (old fi ++ levelRows num f o.1 fi)) ∧ ∀ x, x ≠ o.1 → lv.lookup x = M.trainOut.lookup x := by
    rw [hr]
    refine ⟨_, _, rfl, ⟨_, (lookup_dictSet _ _ _ _).trans (if_pos rfl), ?_⟩, ?_⟩
    · intro fi hfi
      rcases (by omega : fi = 0 ∨ fi = 1) with rfl | rfl <;> cases warm <;> simp [atLevel, lookup_dictSet, levelRows]
    · intro x hx
      simp only [lookup_dictSet, if_neg hx]
  obtain ⟨lv, outputs', k1, ⟨w, k2, k3⟩, k4⟩ := key
  refine ⟨lv, outputs', ?_, ⟨w, k2, k3⟩, k4⟩
  simp only [mfOut, hnfi, k1, k2]
  simp [range_two, k3 0 (by decide), k3 1 (by decide)]

/-- all outputs -/
theorem mfOuts_ok {vars : List (String × Nat)} {data : TrainData K} {f : String → Nat → TrVal K} (warm : Bool) (num nold : Nat → Nat)
    (hg : ∀ fi < 2, GoodData (levelVars fi vars) data (num fi) f) (old : String → Nat → List (List K)) (os : List (String × Nat)) (ho : ∀ o ∈ os, o ∈ vars) (hnd : (os.map (·.1)).Nodup) (M : MultiM K) (hnfi : M.nfi = 2)
    (outputs : Nat → Option (List (List K))) (calls : List (MfCall K)) (hold : ∀ o ∈ os, ∀ fi < 2, mfOld M o.1 fi (if warm then nold fi else 0) o.2 = .ok (old o.1 fi)) :
    ∃ lv outputs', os.foldlM (mfOut data warm num nold) ((M, outputs), calls) =
        .ok (({ M with trainOut := lv }, outputs'), calls ++ os.map fun o => (o.1, [M.trainIn 0, M.trainIn 1], [some (old o.1 0 ++ levelRows num f o.1 0), some (old o.1 1 ++ levelRows num f o.1 1)])) ∧
      (∀ o ∈ os, ∃ w, lv.lookup o.1 = some w ∧ ∀ fi < 2, w fi = some (old o.1 fi ++ levelRows num f o.1 fi)) ∧ ∀ x, x ∉ os.map (·.1) → lv.lookup x = M.trainOut.lookup x := by
  induction os generalizing M outputs calls with
  | nil => exact ⟨M.trainOut, outputs, by simp [pure, Except.pure], by simp, fun _ _ => rfl⟩
  | cons o os ih =>
    simp only [List.map_cons, List.nodup_cons] at hnd
    obtain ⟨lv1, outs1, e1, w1, k1⟩ := mfOut_ok warm num nold hg o (ho o (by simp)) M hnfi outputs calls (old o.1) (hold o (by simp))
    have hne : ∀ q ∈ os, q.1 ≠ o.1 := fun q hq e => hnd.1 (e ▸ List.mem_map_of_mem (f := (·.1)) hq)
    obtain ⟨lv, outs, e, w, k⟩ := ih (fun q hq => ho q (List.mem_cons_of_mem _ hq)) hnd.2 { M with trainOut := lv1 } hnfi outs1 _ (by
      intro q hq fi hfi
      rw [← hold q (List.mem_cons_of_mem _ hq) fi hfi]
      apply mfOld_congr
      intro _
      simp only [k1 q.1 (hne q hq)])
    refine ⟨lv, outs, ?_, ?_, ?_⟩
    · rw [List.foldlM_cons, e1]
      refine Eq.trans e ?_
      simp
    · intro q hq
      rcases List.mem_cons.1 hq with rfl | hq
      · obtain ⟨w', a, b⟩ := w1
        exact ⟨w', (k _ hnd.1).trans a, b⟩
      · exact w q hq
    · intro x hx
      simp only [List.map_cons, List.mem_cons, not_or] at hx
      rw [k x hx.2, k1 x hx.1]

/-- On both levels, every output has as many rows as there are input rows, of the right width (true of a new component and after every training). -/
def MultiM.Consistent (m : MultiM K) : Prop :=
  ∀ o ∈ m.outs, ∃ w, m.trainOut.lookup o.1 = some w ∧ ∀ fi < 2, ∃ rows, w fi = some rows ∧ rows.length = (m.trainIn fi).length ∧ ∀ r ∈ rows, r.length = o.2

/-- Earlier rows of an output that are kept. -/
def MultiM.keptOut (m : MultiM K) (warm : Bool) (o : String) (fi : Nat) : List (List K) :=
  if warm then ((m.trainOut.lookup o).bind (· fi)).getD [] else []

/-- **C74, two levels.** Training with non-empty data of the right sizes on both levels, all but the last parameter having float data: the surrogate of every output is given, for each level, one row per training point with the
values of all parameters of that level in order, and one row per point with the values of the output of that level, appended to the rows of earlier trainings if `warm_restart` is set. -/
theorem C74_two_levels_partial (m : MultiM K) (warm : Bool) (hnfi : m.nfi = 2) (hp : m.params ≠ []) (hout : (m.outs.map (·.1)).Nodup) (hm : m.Consistent) (data : TrainData K) (num : Nat → Nat) (f : String → Nat → TrVal K)
    (hg : ∀ fi < 2, GoodData (levelVars fi (m.params ++ m.outs)) data (num fi) f)
    (hlast : ∀ fi < 2, ∀ p ∈ m.params.dropLast, (f (fidelityName fi p.1) 0).isFloat = true) :
    ∃ m', mfTrain m warm data = .ok (m', m.outs.map fun o =>
        (o.1, [0, 1].map (fun fi => (if warm then m.trainIn fi else []) ++ (List.range (num fi)).map fun i => m.params.flatMap fun p => (f (fidelityName fi p.1) i).flat),
          [0, 1].map fun fi => some (m.keptOut warm o.1 fi ++ (List.range (num fi)).map fun i => (f (fidelityName fi o.1) i).flat))) ∧
      m'.params = m.params ∧ m'.outs = m.outs ∧ m'.nfi = 2 ∧ m'.Consistent ∧
      (∀ fi < 2, m'.trainIn fi = (if warm then m.trainIn fi else []) ++ (List.range (num fi)).map fun i => m.params.flatMap fun p => (f (fidelityName fi p.1) i).flat) ∧
      ∀ o ∈ m.outs, ∀ fi < 2, m'.keptOut true o.1 fi = m.keptOut warm o.1 fi ++ (List.range (num fi)).map fun i => (f (fidelityName fi o.1) i).flat := by
  have hlen : ∀ p ∈ m.params ++ m.outs, ∀ fi < 2, ∃ v, data.lookup (fidelityName fi p.1) = some v ∧ v.length = num fi := by
    intro p hp fi hfi
    exact ⟨_, (hg fi hfi).vals (fidelityName fi p.1, p.2) (List.mem_map.2 ⟨p, hp, rfl⟩), by simp⟩
  obtain ⟨cnt, c1, -, c3⟩ := mfCountParams_ok data num m.params (fun _ => none) (fun p hp => hlen p (List.mem_append_left _ hp)) (fun _ _ => Or.inl rfl)
  have c3 := c3 hp
  have c4 := mfCheckOuts_ok data num cnt m.outs (fun p hp => hlen p (List.mem_append_right _ hp)) c3
  have c5 : mfCounted 2 cnt = .ok fun fi => (cnt fi).getD 0 := by
    simp [mfCounted, range_two, c3 0 (by decide), c3 1 (by decide)]
  have d0 : (cnt 0).getD 0 = num 0 := by rw [c3 0 (by decide)]; rfl
  have d1 : (cnt 1).getD 0 = num 1 := by rw [c3 1 (by decide)]; rfl
  have hnum : ∀ fi < 2, (cnt fi).getD 0 = num fi := by intro fi hfi; rw [c3 fi hfi]; rfl
  have hg' : ∀ fi < 2, GoodData (levelVars fi (m.params ++ m.outs)) data ((cnt fi).getD 0) f := by intro fi hfi; rw [hnum fi hfi]; exact hg fi hfi
  obtain ⟨cells, e1, e2⟩ := mfFill_ok data (fun fi => (cnt fi).getD 0) (hg' 0 (by decide)).pos (hg' 1 (by decide)).pos m.params (fun fi => (0, zeroRows ((cnt fi).getD 0) (m.params.map (·.2)).sum))
    (fun fi => (List.range ((cnt fi).getD 0)).map fun i => m.params.flatMap fun p => (f (fidelityName fi p.1) i).flat) (by
      intro fi hfi
      have := fillParams_layout (hg' fi hfi) (levelVars fi m.params) 0 (fun _ => []) (fun p hp => by
        obtain ⟨q, hq, rfl⟩ := List.mem_map.1 hp
        exact List.mem_map.2 ⟨q, List.mem_append_left _ hq, rfl⟩) (by
        intro p hp
        rw [levelVars, ← List.map_dropLast] at hp
        obtain ⟨q, hq, rfl⟩ := List.mem_map.1 hp
        exact hlast fi hfi q hq) (by simp)
      have hs : ((levelVars fi m.params).map (·.2)).sum = (m.params.map (·.2)).sum := by simp [levelVars, Function.comp_def]
      rw [hs] at this
      simpa [zeroRows, levelVars, List.flatMap_map] using this)
  obtain ⟨lv, outs', f1, f2, f3⟩ := mfOuts_ok warm (fun fi => (cnt fi).getD 0) (fun fi => (m.trainIn fi).length) hg' (m.keptOut warm) m.outs (fun o ho => List.mem_append_right _ ho) hout
    { m with trainIn := fun fi => (if warm then m.trainIn fi else []) ++ (cells fi).2 } hnfi (fun _ => none) [] (by
      intro o ho fi hfi
      cases warm with
      | false => simp [mfOld, MultiM.keptOut]
      | true =>
        obtain ⟨w, q1, q2⟩ := hm o ho
        obtain ⟨rows, q3, q4, q5⟩ := q2 fi hfi
        simp only [mfOld, if_true, MultiM.keptOut, q1, Option.bind_some, q3, Option.getD_some]
        split_ifs with hl hl2
        · rw [hl] at q4
          rw [List.length_eq_zero_iff.1 q4]
        · rfl
        · exfalso
          apply hl2
          refine ⟨q4, ?_⟩
          rw [List.all_eq_true]
          intro r hr
          simpa using q5 r hr)
  have rows_eq : ∀ o fi, fi < 2 → levelRows (fun fi => (cnt fi).getD 0) f o fi = (List.range (num fi)).map fun i => (f (fidelityName fi o) i).flat := by
    intro o fi hfi
    simp only [levelRows, hnum fi hfi]
  have cells_eq : ∀ fi, fi < 2 → (cells fi).2 = (List.range (num fi)).map fun i => m.params.flatMap fun p => (f (fidelityName fi p.1) i).flat := by
    intro fi hfi
    rw [e2 fi hfi, hnum fi hfi]
  refine ⟨{ m with trainIn := fun fi => (if warm then m.trainIn fi else []) ++ (cells fi).2, trainOut := lv }, ?_, rfl, rfl, hnfi, ?_, ?_, ?_⟩
  · simp only [mfTrain, hnfi, c1, c4, c5]
    rw [e1]
    simp only
    simp only [hnfi] at f1
    rw [f1]
    simp only [List.nil_append, List.map_cons, List.map_nil, cells_eq 0 (by decide), cells_eq 1 (by decide), rows_eq _ 0 (by decide), rows_eq _ 1 (by decide)]
  · intro o ho
    obtain ⟨w, g1, g2⟩ := f2 o ho
    refine ⟨w, g1, fun fi hfi => ⟨_, g2 fi hfi, ?_, ?_⟩⟩
    · simp only [cells_eq fi hfi, rows_eq _ fi hfi, List.length_append, List.length_map]
      cases warm with
      | false => simp [MultiM.keptOut]
      | true =>
        obtain ⟨w, q1, q2⟩ := hm o ho
        obtain ⟨rows, q3, q4, q5⟩ := q2 fi hfi
        simp [MultiM.keptOut, q1, q3, q4]
    · intro r hr
      rcases List.mem_append.1 hr with hr | hr
      · cases warm with
        | false => simp [MultiM.keptOut] at hr
        | true =>
          obtain ⟨w, q1, q2⟩ := hm o ho
          obtain ⟨rows, q3, q4, q5⟩ := q2 fi hfi
          simp only [MultiM.keptOut, if_true, q1, Option.bind_some, q3, Option.getD_some] at hr
          exact q5 r hr
      · rw [rows_eq _ fi hfi] at hr
        obtain ⟨i, hi, rfl⟩ := List.mem_map.1 hr
        exact (hg fi hfi).size (fidelityName fi o.1, o.2) (List.mem_map.2 ⟨o, List.mem_append_right _ ho, rfl⟩) i (List.mem_range.1 hi)
  · intro fi hfi
    simp only [cells_eq fi hfi]
  · intro o ho fi hfi
    obtain ⟨w, g1, g2⟩ := f2 o ho
    simp only [MultiM.keptOut, if_true, g1, Option.bind_some, g2 fi hfi, Option.getD_some, rows_eq _ fi hfi]

/-- **C74, three levels and more.** No training is possible: the code looks for the data of the third level of the first parameter `x` under `x_fi2_fi3` instead of `x_fi3`. -/
theorem C74_three_levels_refuted (m : MultiM K) (warm : Bool) (data : TrainData K) (h3 : 3 ≤ m.nfi) (x : String) (sz : Nat) (ps : List (String × Nat)) (hp : m.params = (x, sz) :: ps)
    (v1 v2 v3 : List (TrVal K)) (h1 : data.lookup x = some v1) (h2 : data.lookup (x ++ "_fi2") = some v2) (_h3 : data.lookup (x ++ "_fi3") = some v3) (hmiss : data.lookup (x ++ "_fi2_fi3") = none) :
    mfTrain m warm data = .error .KeyError := by
  obtain ⟨k, hk⟩ : ∃ k, m.nfi = k + 3 := ⟨m.nfi - 3, by omega⟩
  have hr : List.range (k + 3) = 0 :: 1 :: 2 :: (List.range k).map (fun i => i + 3) := by
    rw [List.range_succ_eq_map, List.range_succ_eq_map, List.range_succ_eq_map]
    simp [Function.comp_def]
  have t2 : fiName (x ++ "_fi2") 2 = x ++ "_fi2_fi3" := by
    have : toString (2 + 1) = "3" := by decide +kernel
    simp only [fiName, Nat.zero_lt_succ, if_true, this]
    rw [String.append_assoc, String.append_assoc]
    rfl
  have e0 : mfCountStep data (x, fun _ => none) 0 = .ok (x, atLevel (fun _ => none) 0 (some v1.length)) := by
    simp only [mfCountStep, fiName_zero, fidelityName, if_true, trainVal, h1]
  have e1 : mfCountStep data (x, atLevel (fun _ => none) 0 (some v1.length)) 1 = .ok (x ++ "_fi2", atLevel (atLevel (fun _ => none) 0 (some v1.length)) 1 (some v2.length)) := by
    simp [mfCountStep, fiName_one, fidelityName, trainVal, h2, atLevel]
  have e2 : ∀ num, mfCountStep data (x ++ "_fi2", num) 2 = .error .KeyError := by
    intro num
    simp only [mfCountStep, t2, trainVal, hmiss]
  have : mfCountParam m.nfi data (fun _ => none) (x, sz) = .error .KeyError := by
    simp only [mfCountParam, hk, hr, List.foldlM_cons, e0, bind, Except.bind, e1, e2]
  simp only [mfTrain, hp, List.foldlM_cons, this, bind, Except.bind]

theorem mfCountStep_inv {data : TrainData K} {st st' : String × (Nat → Option Nat)} {fi : Nat} (h : mfCountStep data st fi = .ok st') :
    st'.1 = fiName st.1 fi ∧ ∃ v, data.lookup (fiName st.1 fi) = some v ∧ st'.2 fi = some v.length ∧ (st.2 fi = none ∨ st.2 fi = some v.length) ∧ ∀ g, g ≠ fi → st'.2 g = st.2 g := by
  simp only [mfCountStep, trainVal] at h
  cases hl : data.lookup (fiName st.1 fi) with
  | none => simp [hl] at h
  | some v =>
    simp only [hl] at h
    cases hn : st.2 fi with
    | none =>
      simp only [hn] at h
      rw [← Except.ok.inj h]
      exact ⟨rfl, v, rfl, by simp [atLevel], .inl rfl, fun g hg => by simp [atLevel, hg]⟩
    | some n =>
      simp only [hn] at h
      split at h
      · rename_i e
        rw [← Except.ok.inj h]
        exact ⟨rfl, v, rfl, by rw [hn, e], .inr (by rw [e]), fun _ _ => rfl⟩
      · cases h

theorem foldlM_two_inv {σ ε : Type} {F : σ → Nat → Except ε σ} {s s2 : σ} (h : (List.range 2).foldlM F s = .ok s2) : ∃ s1, F s 0 = .ok s1 ∧ F s1 1 = .ok s2 := by
  rw [range_two, List.foldlM_cons] at h
  cases h0 : F s 0 with
  | error e => rw [h0] at h; cases h
  | ok s1 =>
    rw [h0] at h
    refine ⟨s1, rfl, ?_⟩
    change [1].foldlM F s1 = _ at h
    rw [List.foldlM_cons] at h
    cases h1 : F s1 1 with
    | error e => rw [h1] at h; cases h
    | ok s3 => rw [h1] at h; exact h

theorem mfCountParam_inv {data : TrainData K} {num num' : Nat → Option Nat} {p : String × Nat} (h : mfCountParam 2 data num p = .ok num') :
    ∀ fi < 2, ∃ v, data.lookup (fidelityName fi p.1) = some v ∧ num' fi = some v.length ∧ (num fi = none ∨ num fi = some v.length) := by
  simp only [mfCountParam] at h
  split at h
  · cases h
  rename_i st hst
  obtain ⟨s1, a, b⟩ := foldlM_two_inv hst
  obtain ⟨a1, v0, a2, a3, a4, a5⟩ := mfCountStep_inv a
  obtain ⟨b1, v1, b2, b3, b4, b5⟩ := mfCountStep_inv b
  rw [← Except.ok.inj h]
  intro fi hfi
  rcases (by omega : fi = 0 ∨ fi = 1) with rfl | rfl
  · exact ⟨v0, a2, by rw [b5 0 (by decide), a3], a4⟩
  · rw [a1, fiName_zero] at b2
    refine ⟨v1, ?_, b3, ?_⟩
    · rw [← fiName_one]; exact b2
    · rw [a5 1 (by decide)] at b4; exact b4

theorem mfCountParams_inv {data : TrainData K} (ps : List (String × Nat)) {num num' : Nat → Option Nat} (h : ps.foldlM (mfCountParam 2 data) num = .ok num') :
    ∀ fi < 2, (num fi = none ∨ num fi = num' fi) ∧ ∀ p ∈ ps, ∃ v, data.lookup (fidelityName fi p.1) = some v ∧ num' fi = some v.length := by
  induction ps generalizing num with
  | nil => intro fi _; rw [Except.ok.inj h]; exact ⟨.inr rfl, by simp⟩
  | cons p ps ih =>
    rw [List.foldlM_cons] at h
    cases h1 : mfCountParam 2 data num p with
    | error e => rw [h1] at h; cases h
    | ok n1 =>
      rw [h1] at h
      intro fi hfi
      obtain ⟨v, a, b, c⟩ := mfCountParam_inv h1 fi hfi
      obtain ⟨d, e⟩ := ih h fi hfi
      have hn : num' fi = some v.length := by
        rcases d with d | d
        · rw [b] at d; cases d
        · rw [← d, b]
      refine ⟨c.imp_right fun c => by rw [c, hn], fun q hq => ?_⟩
      rcases List.mem_cons.1 hq with rfl | hq
      · exact ⟨v, a, hn⟩
      · exact e q hq

theorem mfCheckStep_inv {data : TrainData K} {num : Nat → Option Nat} {name name' : String} {fi : Nat} (h : mfCheckStep data num name fi = .ok name') :
    name' = fiName name fi ∧ ∃ v, data.lookup (fiName name fi) = some v ∧ num fi = some v.length := by
  simp only [mfCheckStep, trainVal] at h
  cases hl : data.lookup (fiName name fi) with
  | none => simp [hl] at h
  | some v =>
    simp only [hl] at h
    split at h
    · rename_i e; exact ⟨(Except.ok.inj h).symm, v, rfl, e.symm⟩
    · cases h

theorem mfCheckOuts_inv {data : TrainData K} {num : Nat → Option Nat} (os : List (String × Nat)) {u : Unit} (h : os.foldlM (mfCheckOut 2 data num) () = .ok u) :
    ∀ o ∈ os, ∀ fi < 2, ∃ v, data.lookup (fidelityName fi o.1) = some v ∧ num fi = some v.length := by
  induction os with
  | nil => simp
  | cons o os ih =>
    rw [List.foldlM_cons] at h
    cases h1 : mfCheckOut 2 data num () o with
    | error e => rw [h1] at h; cases h
    | ok n1 =>
      rw [h1] at h
      intro q hq fi hfi
      rcases List.mem_cons.1 hq with rfl | hq
      · simp only [mfCheckOut] at h1
        split at h1
        · cases h1
        rename_i st hst
        obtain ⟨s1, a, b⟩ := foldlM_two_inv hst
        obtain ⟨a1, v0, a2, a3⟩ := mfCheckStep_inv a
        obtain ⟨b1, v1, b2, b3⟩ := mfCheckStep_inv b
        rcases (by omega : fi = 0 ∨ fi = 1) with rfl | rfl
        · exact ⟨v0, a2, a3⟩
        · rw [a1, fiName_zero] at b2
          exact ⟨v1, by rw [← fiName_one]; exact b2, b3⟩
      · exact ih h q hq fi hfi

/-- **C74, rejected data.** With two levels a training is accepted only if, on each level, all parameters and outputs have data and the same number of points. -/
theorem C74_counts_agree (m : MultiM K) (warm : Bool) (data : TrainData K) (hnfi : m.nfi = 2) (hp : m.params ≠ []) (r : MultiM K × List (MfCall K)) (h : mfTrain m warm data = .ok r) :
    ∀ fi < 2, ∃ n, ∀ p ∈ m.params ++ m.outs, ∃ v, data.lookup (fidelityName fi p.1) = some v ∧ v.length = n := by
  rw [mfTrain, hnfi] at h
  cases h1 : m.params.foldlM (mfCountParam 2 data) (fun _ => none) with
  | error e => rw [h1] at h; cases h
  | ok cnt =>
    rw [h1] at h
    simp only at h
    cases h2 : m.outs.foldlM (mfCheckOut 2 data cnt) () with
    | error e => rw [h2] at h; cases h
    | ok u =>
      intro fi hfi
      have a := (mfCountParams_inv m.params h1 fi hfi).2
      obtain ⟨p0, hp0⟩ := List.exists_mem_of_ne_nil _ hp
      obtain ⟨v, _, e⟩ := a p0 hp0
      refine ⟨v.length, fun q hq => ?_⟩
      rcases List.mem_append.1 hq with hq | hq
      · obtain ⟨w, l, e'⟩ := a q hq
        exact ⟨w, l, by rw [e] at e'; exact (Option.some.inj e').symm⟩
      · obtain ⟨w, l, e'⟩ := mfCheckOuts_inv m.outs h2 q hq fi hfi
        exact ⟨w, l, by rw [e] at e'; exact (Option.some.inj e').symm⟩

/-- A component with two levels, and its data. -/
def mfGood : MultiM Int := ⟨2, [("s", 1), ("x", 2)], [("y", 1)], fun _ => [], [("y", fun _ => some [])]⟩
def mfF : String → Nat → TrVal Int := fun name i =>
  if name = "s" then .flt (10 + i) else if name = "x" then .arr [20 + i, 30 + i] else if name = "y" then .flt (40 + i) else if name = "s_fi2" then .flt (50 + i) else if name = "x_fi2" then .arr [60 + i, 70 + i] else .flt (80 + i)
def mfData : TrainData Int := [("s", (List.range 2).map (mfF "s")), ("x", (List.range 2).map (mfF "x")), ("y", (List.range 2).map (mfF "y")),
  ("s_fi2", (List.range 3).map (mfF "s_fi2")), ("x_fi2", (List.range 3).map (mfF "x_fi2")), ("y_fi2", (List.range 3).map (mfF "y_fi2"))]

example : ∃ m', mfTrain mfGood false mfData = .ok (m', [("y", [[[10, 20, 30], [11, 21, 31]], [[50, 60, 70], [51, 61, 71], [52, 62, 72]]], [some [[40], [41]], some [[80], [81], [82]]])]) := by
  obtain ⟨m', h, -⟩ := C74_two_levels_partial mfGood false rfl (by decide) (by decide) (by
      intro o ho
      simp [mfGood] at ho
      subst ho
      exact ⟨_, rfl, fun fi _ => ⟨[], rfl, rfl, by simp⟩⟩) mfData (fun fi => if fi = 0 then 2 else 3) mfF (by
      intro fi hfi
      rcases (by omega : fi = 0 ∨ fi = 1) with rfl | rfl
      · exact ⟨by decide, by decide +kernel, by decide +kernel, by decide +kernel⟩
      · exact ⟨by decide, by decide +kernel, by decide +kernel, by decide +kernel⟩) (by
      intro fi hfi
      rcases (by omega : fi = 0 ∨ fi = 1) with rfl | rfl
      · decide +kernel
      · decide +kernel)
  exact ⟨m', h⟩

example : mfTrain { mfGood with nfi := 3 } false (mfData ++ [("s_fi3", [.flt 1])]) = .error .KeyError :=
  C74_three_levels_refuted _ _ _ (by decide) "s" 1 [("x", 2)] rfl ((List.range 2).map (mfF "s")) ((List.range 3).map (mfF "s_fi2")) [.flt 1] (by decide +kernel) (by decide +kernel) (by decide +kernel) (by decide +kernel)

example : ∀ r, mfTrain mfGood false (("s", [.flt 1]) :: mfData) ≠ .ok r := by
  intro r h
  obtain ⟨n, hn⟩ := C74_counts_agree _ _ _ rfl (by decide) r h 0 (by decide)
  obtain ⟨v, a, b⟩ := hn ("s", 1) (by decide)
  obtain ⟨w, c, d⟩ := hn ("x", 2) (by decide)
  cases a
  have : w = (List.range 2).map (mfF "x") := (Option.some.inj c).symm
  subst this
  simp at b d
  omega

/-- **C74, array parameters.** As in `MetaModel`, a parameter after one with array data is written over it. -/
theorem C74_array_first_refuted : (mfTrain { mfGood with params := [("x", 2), ("s", 1)] } false mfData).map (·.2) =
    .ok [("y", [[[10, 30, 0], [11, 31, 0]], [[50, 70, 0], [51, 71, 0], [52, 72, 0]]], [some [[40], [41]], some [[80], [81], [82]]])] := by rfl

/-- A level without data gives the surrogate no matrix at all for the outputs of that level. -/
theorem finding_empty_level : (mfTrain mfGood false (mfData.take 3 ++ [("s_fi2", []), ("x_fi2", []), ("y_fi2", [])])).map (·.2) =
    .ok [("y", [[[10, 20, 30], [11, 21, 31]], []], [some [[40], [41]], none])] := by rfl

end OpenMDAO
