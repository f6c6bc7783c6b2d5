import Verif.Model.MetaModel
import Verif.Lemmas.List
import Verif.Lemmas.FiniteDiff
/-!
# C47, C48: layout and accumulation of the training data of a metamodel
-/
namespace OpenMDAO
set_option linter.unusedSectionVars false

variable {K : Type} [Zero K]

/-- A set of training data: under every name the values `f name 0, …, f name (n-1)`, `n > 0` points, as many numbers per point as the variable has elements, and for each variable either only floats or no floats. -/
structure GoodData (vars : List (String × Nat)) (data : TrainData K) (n : Nat) (f : String → Nat → TrVal K) : Prop where
  pos : 0 < n
  vals : ∀ p ∈ vars, data.lookup p.1 = some ((List.range n).map (f p.1))
  size : ∀ p ∈ vars, ∀ i < n, (f p.1 i).flat.length = p.2
  hom : ∀ p ∈ vars, ∀ i < n, (f p.1 i).isFloat = (f p.1 0).isFloat

theorem mapM_ok_of {α β ε : Type} (F : α → Except ε β) (G : α → β) (l : List α) (h : ∀ a ∈ l, F a = .ok (G a)) : l.mapM F = .ok (l.map G) := by
  induction l with
  | nil => rfl
  | cons a l ih =>
    rw [List.mapM_cons, h a (by simp), ih (fun b hb => h b (List.mem_cons_of_mem _ hb))]
    rfl

theorem setSlice_fit (pre mid post flat : List K) (h : flat.length = mid.length) :
    setSlice (pre ++ (mid ++ post)) pre.length mid.length flat = .ok (pre ++ (flat ++ post)) := by
  have ha : min pre.length (pre ++ (mid ++ post)).length = pre.length := by simp
  have hb : min (pre.length + mid.length) (pre ++ (mid ++ post)).length = pre.length + mid.length := by simp
  simp only [setSlice, ha, hb, h, Nat.add_sub_cancel_left, if_true, List.take_left]
  rw [← List.append_assoc pre mid post, List.drop_left' (by simp)]
  simp

theorem setAt_fit (pre post : List K) (x y : K) : setAt (pre ++ y :: post) pre.length x = .ok (pre ++ x :: post) := by
  simp [setAt]

theorem fillRows_ok {ι : Type} (idx sz : Nat) (l : List ι) (g g' : ι → List K) (v : ι → TrVal K)
    (h : ∀ i ∈ l, setSlice (g i) idx sz (v i).flat = .ok (g' i)) : fillRows idx sz (l.map g) (l.map v) = (l.map g', none) := by
  induction l with
  | nil => rfl
  | cons i l ih =>
    simp only [List.map_cons, fillRows, h i (by simp), ih (fun j hj => h j (List.mem_cons_of_mem _ hj))]

theorem fillCol_ok {ι : Type} (idx : Nat) (l : List ι) (g g' : ι → List K) (v : ι → TrVal K)
    (h : ∀ i ∈ l, colStep idx (g i, v i) = .ok (g' i)) : fillCol idx (l.map g) (l.map v) = (l.map g', none) := by
  have e : (l.map g).zip (l.map v) = l.map fun i => (g i, v i) := by
    induction l with
    | nil => rfl
    | cons i l ih => simp only [List.map_cons, List.zip_cons_cons, ih (fun j hj => h j (List.mem_cons_of_mem _ hj))]
  have e2 : (l.map fun i => (g i, v i)).mapM (colStep idx) = .ok (l.map g') := by
    clear e
    induction l with
    | nil => rfl
    | cons i l ih =>
      rw [List.map_cons, List.mapM_cons, h i (by simp), ih (fun j hj => h j (List.mem_cons_of_mem _ hj))]
      rfl
  simp only [fillCol, e, e2]

theorem firstFloat_range {n : Nat} (hn : 0 < n) (v : Nat → TrVal K) : firstFloat ((List.range n).map v) = (v 0).isFloat := by
  obtain ⟨m, rfl⟩ : ∃ m, n = m + 1 := ⟨n - 1, by omega⟩
  rw [List.range_succ_eq_map]
  rfl

theorem isFloat_flat {v : TrVal K} (h : v.isFloat = true) : ∃ x, v = .flt x := by
  cases v with
  | flt x => exact ⟨x, rfl⟩
  | int x => simp [TrVal.isFloat] at h
  | arr l => simp [TrVal.isFloat] at h

/-- a slice that lies within the row is always written, and the width stays -/
theorem setSlice_width (row flat : List K) (idx sz : Nat) (h : idx + sz ≤ row.length) (hf : flat.length = sz) :
    ∃ r, setSlice row idx sz flat = .ok r ∧ r.length = row.length := by
  have ha : min idx row.length = idx := by omega
  have hb : min (idx + sz) row.length = idx + sz := by omega
  simp only [setSlice, ha, hb, hf, Nat.add_sub_cancel_left, if_true]
  refine ⟨_, rfl, ?_⟩
  simp only [List.length_append, List.length_take, List.length_drop, hf]
  omega

/-- filling never fails for data of the right sizes -/
theorem fillParams_ok {vars : List (String × Nat)} {data : TrainData K} {n : Nat} {f : String → Nat → TrVal K} (hg : GoodData vars data n f) :
    ∀ (ps : List (String × Nat)) (idx w : Nat) (g : Nat → List K), (∀ p ∈ ps, p ∈ vars) → idx + (ps.map (·.2)).sum ≤ w → (∀ i < n, (g i).length = w) →
      ∃ g' : Nat → List K, fillParams data idx ps ((List.range n).map g) = ((List.range n).map g', none) ∧ ∀ i < n, (g' i).length = w
  | [], idx, w, g, _, _, h => ⟨g, rfl, h⟩
  | p :: ps, idx, w, g, hv, hw, h => by
    have hp := hv p (by simp)
    simp only [List.map_cons, List.sum_cons] at hw
    simp only [fillParams, trainVal, hg.vals p hp, firstFloat_range hg.pos]
    split_ifs with hf
    · have h1 : p.2 = 1 := by
        obtain ⟨x, hx⟩ := isFloat_flat hf
        rw [← hg.size p hp 0 hg.pos, hx]; rfl
      have key : ∀ i, ∃ r : List K, i < n → colStep idx (g i, f p.1 i) = .ok r ∧ r.length = w := by
        intro i
        by_cases hi : i < n
        · obtain ⟨x, hx⟩ := isFloat_flat ((hg.hom p hp i hi).trans hf)
          refine ⟨(g i).set idx x, fun _ => ⟨?_, by simpa using h i hi⟩⟩
          simp only [colStep, hx, TrVal.num, setAt]
          rw [if_pos (by rw [h i hi]; omega)]
        · exact ⟨[], fun h => absurd h hi⟩
      choose g1 hg1 using key
      rw [fillCol_ok idx (List.range n) g g1 (f p.1) (fun i hi => (hg1 i (List.mem_range.1 hi)).1)]
      exact fillParams_ok hg ps (idx + 1) w g1 (fun q hq => hv q (List.mem_cons_of_mem _ hq)) (by omega) (fun i hi => (hg1 i hi).2)
    · have key : ∀ i, ∃ r : List K, i < n → setSlice (g i) idx p.2 (f p.1 i).flat = .ok r ∧ r.length = w := by
        intro i
        by_cases hi : i < n
        · obtain ⟨r, h1, h2⟩ := setSlice_width (g i) (f p.1 i).flat idx p.2 (by rw [h i hi]; omega) (hg.size p hp i hi)
          exact ⟨r, fun _ => ⟨h1, h2.trans (h i hi)⟩⟩
        · exact ⟨[], fun h => absurd h hi⟩
      choose g1 hg1 using key
      rw [fillRows_ok idx p.2 (List.range n) g g1 (f p.1) (fun i hi => (hg1 i (List.mem_range.1 hi)).1)]
      exact fillParams_ok hg ps idx w g1 (fun q hq => hv q (List.mem_cons_of_mem _ hq)) (by omega) (fun i hi => (hg1 i hi).2)

/-- with float data for all parameters but the last, the rows are the values one after another -/
theorem fillParams_layout {vars : List (String × Nat)} {data : TrainData K} {n : Nat} {f : String → Nat → TrVal K} (hg : GoodData vars data n f) :
    ∀ (ps : List (String × Nat)) (idx : Nat) (pre : Nat → List K), (∀ p ∈ ps, p ∈ vars) → (∀ p ∈ ps.dropLast, (f p.1 0).isFloat = true) →
      (∀ i < n, (pre i).length = idx) →
      fillParams data idx ps ((List.range n).map fun i => pre i ++ List.replicate (ps.map (·.2)).sum 0) =
        ((List.range n).map fun i => pre i ++ ps.flatMap fun p => (f p.1 i).flat, none)
  | [], idx, pre, _, _, _ => by simp [fillParams]
  | p :: ps, idx, pre, hv, hl, hpre => by
    have hp := hv p (by simp)
    simp only [fillParams, trainVal, hg.vals p hp, firstFloat_range hg.pos]
    split_ifs with hf
    · have h1 : p.2 = 1 := by
        obtain ⟨x, hx⟩ := isFloat_flat hf
        rw [← hg.size p hp 0 hg.pos, hx]; rfl
      rw [fillCol_ok idx (List.range n) _ (fun i => (pre i ++ (f p.1 i).flat) ++ List.replicate (ps.map (·.2)).sum 0) (f p.1)]
      · dsimp only
        rw [fillParams_layout hg ps (idx + 1) (fun i => pre i ++ (f p.1 i).flat) (fun q hq => hv q (List.mem_cons_of_mem _ hq)) ?_ ?_]
        · simp only [List.flatMap_cons, List.append_assoc]
        · intro q hq
          cases ps with
          | nil => simp at hq
          | cons a ps => exact hl q (by rw [List.dropLast_cons_of_ne_nil (by simp)]; exact List.mem_cons_of_mem _ hq)
        · intro i hi
          simp [hpre i hi, hg.size p hp i hi, h1]
      · intro i hi
        have hi := List.mem_range.1 hi
        obtain ⟨x, hx⟩ := isFloat_flat ((hg.hom p hp i hi).trans hf)
        simp only [colStep, hx, TrVal.num, List.map_cons, List.sum_cons, h1, Nat.add_comm 1, List.replicate_succ]
        rw [← hpre i hi, setAt_fit]
        simp [TrVal.flat]
    · have hps : ps = [] := by
        cases ps with
        | nil => rfl
        | cons a ps => exact absurd (hl p (by rw [List.dropLast_cons_of_ne_nil (by simp)]; simp)) hf
      subst hps
      rw [fillRows_ok idx p.2 (List.range n) _ (fun i => pre i ++ (f p.1 i).flat) (f p.1)]
      · simp [fillParams]
      · intro i hi
        have hi := List.mem_range.1 hi
        have := setSlice_fit (pre i) (List.replicate p.2 (0 : K)) [] (f p.1 i).flat (by simp [hg.size p hp i hi])
        simpa [hpre i hi] using this

/-- rows of an output -/
theorem fillOut_ok {vars : List (String × Nat)} {data : TrainData K} {n : Nat} {f : String → Nat → TrVal K} (hg : GoodData vars data n f)
    (o : String × Nat) (ho : o ∈ vars) : fillOut o.2 (zeroRows n o.2) ((List.range n).map (f o.1)) = ((List.range n).map fun i => (f o.1 i).flat, none) := by
  have hz : (zeroRows n o.2 : List (List K)) = (List.range n).map fun _ => List.replicate o.2 0 := by
    simp [zeroRows]
  simp only [fillOut, firstFloat_range hg.pos, hz]
  split_ifs with hf
  · have h1 : o.2 = 1 := by
      obtain ⟨x, hx⟩ := isFloat_flat hf
      rw [← hg.size o ho 0 hg.pos, hx]; rfl
    apply fillCol_ok
    intro i hi
    obtain ⟨x, hx⟩ := isFloat_flat ((hg.hom o ho i (List.mem_range.1 hi)).trans hf)
    simp [colStep, hx, TrVal.num, setAt, h1, TrVal.flat]
  · apply fillRows_ok
    intro i hi
    have := setSlice_fit ([] : List K) (List.replicate o.2 (0 : K)) [] (f o.1 i).flat (by simp [hg.size o ho i (List.mem_range.1 hi)])
    simpa using this

theorem oldOut_putOut (m : MetaM K) (o o' : String) (rows : List (List K)) (nold sz : Nat) (h : o ≠ o') :
    oldOut (m.putOut o' rows) o nold sz = oldOut m o nold sz := by
  have : (m.putOut o' rows).trainOut.lookup o = m.trainOut.lookup o := by
    simp only [MetaM.putOut, lookup_dictSet]
    rw [if_neg h]
  simp only [oldOut, this]

theorem trainOuts_ok {vars : List (String × Nat)} {data : TrainData K} {n : Nat} {f : String → Nat → TrVal K} (hg : GoodData vars data n f) (nold : Nat) (old : String → List (List K)) :
    ∀ (os : List (String × Nat)) (m : MetaM K) (calls : List (TrainCall K)), (∀ o ∈ os, o ∈ vars) → (os.map (·.1)).Nodup →
      (∀ o ∈ os, oldOut m o.1 nold o.2 = .ok (old o.1)) →
      ∃ m', trainOuts data n nold m calls os = (m', .ok (calls ++ os.map fun o => (o.1, m.trainIn, old o.1 ++ (List.range n).map fun i => (f o.1 i).flat))) ∧
        m'.params = m.params ∧ m'.outs = m.outs ∧ m'.trainIn = m.trainIn ∧
        (∀ o ∈ os, m'.trainOut.lookup o.1 = some (old o.1 ++ (List.range n).map fun i => (f o.1 i).flat)) ∧
        (∀ name, name ∉ os.map (·.1) → m'.trainOut.lookup name = m.trainOut.lookup name)
  | [], m, calls, _, _, _ => ⟨m, by simp [trainOuts], rfl, rfl, rfl, by simp, fun _ _ => rfl⟩
  | o :: os, m, calls, hv, hn, ho => by
    simp only [List.map_cons, List.nodup_cons] at hn
    obtain ⟨m', e1, e2, e3, e4, e5, e6⟩ := trainOuts_ok hg nold old os (m.putOut o.1 (old o.1 ++ (List.range n).map fun i => (f o.1 i).flat))
      (calls ++ [(o.1, m.trainIn, old o.1 ++ (List.range n).map fun i => (f o.1 i).flat)])
      (fun q hq => hv q (List.mem_cons_of_mem _ hq)) hn.2 (by
        intro q hq
        rw [oldOut_putOut]
        · exact ho q (List.mem_cons_of_mem _ hq)
        · intro e; exact hn.1 (e ▸ List.mem_map_of_mem (f := (·.1)) hq))
    refine ⟨m', ?_, e2, e3, e4, ?_, ?_⟩
    · simp only [trainOuts, hg.pos, if_true, ho o (by simp), trainVal, hg.vals o (hv o (by simp)), fillOut_ok hg o (hv o (by simp))]
      rw [e1]
      simp [MetaM.putOut]
    · intro q hq
      rcases List.mem_cons.1 hq with rfl | hq
      · rw [e6 _ hn.1]
        simp [MetaM.putOut, lookup_dictSet]
      · exact e5 q hq
    · intro name hname
      simp only [List.map_cons, List.mem_cons, not_or] at hname
      rw [e6 name hname.2]
      simp only [MetaM.putOut, lookup_dictSet, if_neg hname.1]

theorem mmCountParams_ok {vars : List (String × Nat)} {data : TrainData K} {n : Nat} {f : String → Nat → TrVal K} (hg : GoodData vars data n f) :
    ∀ (ps : List (String × Nat)), (∀ p ∈ ps, p ∈ vars) → mmCountParams data (some n) ps = .ok (some n)
  | [], _ => rfl
  | p :: ps, h => by
    simp only [mmCountParams, trainVal, hg.vals p (h p (by simp)), List.length_map, List.length_range, if_true]
    exact mmCountParams_ok hg ps (fun q hq => h q (List.mem_cons_of_mem _ hq))

theorem mmCountOuts_ok {vars : List (String × Nat)} {data : TrainData K} {n : Nat} {f : String → Nat → TrVal K} (hg : GoodData vars data n f) :
    ∀ (ps : List (String × Nat)), (∀ p ∈ ps, p ∈ vars) → mmCountOuts data (some n) ps = .ok ()
  | [], _ => rfl
  | p :: ps, h => by
    simp only [mmCountOuts, trainVal, hg.vals p (h p (by simp)), List.length_map, List.length_range, if_true]
    exact mmCountOuts_ok hg ps (fun q hq => h q (List.mem_cons_of_mem _ hq))

/-- The component has as many output rows as input rows, of the right width (true of a new component, `meta_model.py:65-66,138`). -/
def MetaM.Consistent (m : MetaM K) : Prop :=
  ∀ o ∈ m.outs, ∃ rows, m.trainOut.lookup o.1 = some rows ∧ rows.length = m.trainIn.length ∧ ∀ r ∈ rows, r.length = o.2

/-- A training with good data: everything about it. -/
theorem mmTrain_ok (m : MetaM K) (warm : Bool) (hm : m.Consistent) (hp : m.params ≠ []) (hout : (m.outs.map (·.1)).Nodup)
    {data : TrainData K} {n : Nat} {f : String → Nat → TrVal K} (hg : GoodData (m.params ++ m.outs) data n f) :
    ∃ (m' : MetaM K) (r : List (List K)), fillParams data 0 m.params (zeroRows n m.inputSize) = (r, none) ∧
      mmTrain m warm data = (m', .ok (m.outs.map fun o => (o.1, (if warm then m.trainIn else []) ++ r,
        (if warm then (m.trainOut.lookup o.1).getD [] else []) ++ (List.range n).map fun i => (f o.1 i).flat))) ∧
      r.length = n ∧ m'.params = m.params ∧ m'.outs = m.outs ∧ m'.trainIn = (if warm then m.trainIn else []) ++ r ∧ m'.Consistent ∧
      ∀ o ∈ m.outs, m'.trainOut.lookup o.1 = some ((if warm then (m.trainOut.lookup o.1).getD [] else []) ++ (List.range n).map fun i => (f o.1 i).flat) := by
  obtain ⟨g', h1, h2⟩ := fillParams_ok hg m.params 0 m.inputSize (fun _ => List.replicate m.inputSize 0) (fun p hp => List.mem_append_left _ hp)
    (by simp [MetaM.inputSize]) (by simp)
  have hz : (zeroRows n m.inputSize : List (List K)) = (List.range n).map fun _ => List.replicate m.inputSize 0 := by simp [zeroRows]
  rw [← hz] at h1
  have hc : mmCountParams data none m.params = .ok (some n) := by
    cases hps : m.params with
    | nil => exact absurd hps hp
    | cons p ps =>
      simp only [mmCountParams, trainVal, hg.vals p (by simp [hps]), List.length_map, List.length_range]
      exact mmCountParams_ok hg ps (fun q hq => by simp [hps, hq])
  have ho : mmCountOuts data (some n) m.outs = .ok () := mmCountOuts_ok hg m.outs (fun q hq => List.mem_append_right _ hq)
  obtain ⟨m', e1, e2, e3, e4, e5, e6⟩ := trainOuts_ok hg (if warm then m.trainIn else []).length (fun o => if warm then (m.trainOut.lookup o).getD [] else [])
    m.outs { m with trainIn := (if warm then m.trainIn else []) ++ (List.range n).map g' } [] (fun q hq => List.mem_append_right _ hq) hout (by
      intro o ho
      cases warm with
      | false => simp [oldOut]
      | true =>
        obtain ⟨rows, q1, q2, q3⟩ := hm o ho
        simp only [oldOut, if_true, q1, Option.getD_some]
        split_ifs with hl hl2
        · rw [hl] at q2
          rw [List.length_eq_zero_iff.1 q2]
        · rfl
        · exfalso
          apply hl2
          refine ⟨q2, ?_⟩
          rw [List.all_eq_true]
          intro r hr
          simpa using q3 r hr)
  refine ⟨m', (List.range n).map g', h1, ?_, by simp, e2, e3, e4, ?_, e5⟩
  · simp only [mmTrain, hc, ho, mmFill, hg.pos, if_true, h1]
    rw [e1]
    simp
  · intro o ho
    rw [e3] at ho
    refine ⟨_, e5 o ho, ?_, ?_⟩
    · rw [e4]
      cases warm with
      | false => simp
      | true =>
        obtain ⟨rows, q1, q2, q3⟩ := hm o ho
        simp [q1, q2]
    · intro r hr
      rcases List.mem_append.1 hr with hr | hr
      · cases warm with
        | false => simp at hr
        | true =>
          obtain ⟨rows, q1, q2, q3⟩ := hm o ho
          simp only [if_true, q1, Option.getD_some] at hr
          exact q3 r hr
      · obtain ⟨i, hi, rfl⟩ := List.mem_map.1 hr
        exact hg.size o (List.mem_append_right _ ho) i (List.mem_range.1 hi)

/-- **C47 (training), partial.** If the data of every parameter but the last are floats, every surrogate is trained on a matrix whose new rows, one per training point, are the flattened values of the parameters one after another
in declaration order, together with the flattened values of its output. Missing: a parameter with array (or integer) data that is followed by another parameter; there the claim fails (`C47_training_rows_refuted`). -/
theorem C47_training_rows_partial (m : MetaM K) (hp : m.params ≠ []) (hout : (m.outs.map (·.1)).Nodup) (hm : m.Consistent)
    (data : TrainData K) (n : Nat) (f : String → Nat → TrVal K) (hg : GoodData (m.params ++ m.outs) data n f)
    (hlast : ∀ p ∈ m.params.dropLast, (f p.1 0).isFloat = true) :
    (mmTrain m false data).2 = .ok (m.outs.map fun o =>
      (o.1, (List.range n).map (fun i => m.params.flatMap fun p => (f p.1 i).flat), (List.range n).map fun i => (f o.1 i).flat)) := by
  obtain ⟨m', r, h1, h2, -⟩ := mmTrain_ok m false hm hp hout hg
  have h3 := fillParams_layout hg m.params 0 (fun _ => []) (fun p hp => List.mem_append_left _ hp) hlast (by simp)
  have hz : (zeroRows n m.inputSize : List (List K)) = (List.range n).map fun _ => [] ++ List.replicate (m.params.map (·.2)).sum 0 := by simp [zeroRows, MetaM.inputSize]
  rw [hz, h3] at h1
  simp only [Prod.mk.injEq, and_true] at h1
  rw [h2, ← h1]
  simp

/-- A component with an array of two elements after a number, and one before a number. -/
def mmGood : MetaM Int := ⟨[("s", 1), ("x", 2)], [("y", 1)], [], [("y", [])]⟩
def mmBad : MetaM Int := ⟨[("x", 2), ("s", 1)], [("y", 1)], [], [("y", [])]⟩
def mmF : String → Nat → TrVal Int := fun name i => if name = "s" then .flt (10 + i) else if name = "x" then .arr [20 + i, 30 + i] else .flt (40 + i)
def mmData : TrainData Int := [("s", (List.range 2).map (mmF "s")), ("x", (List.range 2).map (mmF "x")), ("y", (List.range 2).map (mmF "y"))]

theorem mmData_good : GoodData (mmGood.params ++ mmGood.outs) mmData 2 mmF := by
  constructor
  · decide
  · decide
  · decide
  · decide

theorem mmGood_consistent : mmGood.Consistent := by
  intro o ho
  simp [mmGood] at ho
  subst ho
  exact ⟨[], by decide, rfl, by simp⟩

example : (mmTrain mmGood false mmData).2 = .ok [("y", [[10, 20, 30], [11, 21, 31]], [[40], [41]])] :=
  C47_training_rows_partial mmGood (by decide) (by decide) mmGood_consistent mmData 2 mmF mmData_good (by decide)

/-- **C47 (training), refuted.** With the array first, the number is written over the first element of the array and the last column stays zero, in every row. -/
theorem C47_training_rows_refuted : GoodData (mmBad.params ++ mmBad.outs) mmData 2 mmF ∧
    (mmTrain mmBad false mmData).2 = .ok [("y", [[10, 30, 0], [11, 31, 0]], [[40], [41]])] ∧
    (List.range 2).map (fun i => mmBad.params.flatMap fun p => (mmF p.1 i).flat) = [[20, 30, 10], [21, 31, 11]] := by
  refine ⟨⟨by decide, by decide, by decide, by decide⟩, ?_, by decide⟩
  rfl

/-- Flattened value of a parameter. -/
def PVal.flat : PVal K → List K
  | .num x => [x]
  | .arr l => l

theorem inputsLoop_ok (vals : List (String × PVal K)) (v : String → PVal K) : ∀ (ps : List (String × Nat)) (pre : List K), (∀ p ∈ ps, vals.lookup p.1 = some (v p.1) ∧ (v p.1).flat.length = p.2) →
    inputsLoop vals pre.length ps (pre ++ List.replicate (ps.map (·.2)).sum 0) = .ok (pre ++ ps.flatMap fun p => (v p.1).flat)
  | [], pre, _ => by simp [inputsLoop]
  | p :: ps, pre, h => by
    obtain ⟨h1, h2⟩ := h p (by simp)
    have ih := inputsLoop_ok vals v ps (pre ++ (v p.1).flat) (fun q hq => h q (List.mem_cons_of_mem _ hq))
    simp only [inputsLoop, h1]
    cases hv : v p.1 with
    | num x =>
      rw [hv] at h2 ih
      have h3 : p.2 = 1 := by rw [← h2]; rfl
      simp only [List.map_cons, List.sum_cons, h3, Nat.add_comm 1, List.replicate_succ, setAt_fit]
      simpa [PVal.flat, hv] using ih
    | arr l =>
      rw [hv] at h2 ih
      simp only [List.map_cons, List.sum_cons, List.replicate_add]
      have := setSlice_fit pre (List.replicate p.2 (0 : K)) (List.replicate (ps.map (·.2)).sum 0) l (by simpa [PVal.flat] using h2)
      rw [List.length_replicate] at this
      rw [this]
      have h4 : l.length = p.2 := h2
      simpa [PVal.flat, hv, h4] using ih

/-- **C47 (prediction).** The vector handed to the surrogates for prediction holds the flattened values of all parameters one after another in declaration order, for every list of parameters. -/
theorem C47_prediction_layout (m : MetaM K) (vals : List (String × PVal K)) (v : String → PVal K) (h : ∀ p ∈ m.params, vals.lookup p.1 = some (v p.1) ∧ (v p.1).flat.length = p.2) :
    paramsToInputs m vals = .ok (m.params.flatMap fun p => (v p.1).flat) := by
  have := inputsLoop_ok vals v m.params [] h
  simpa [paramsToInputs, MetaM.inputSize] using this

example : (paramsToInputs mmBad [("s", .num 7), ("x", .arr [1, 2])]) = .ok [1, 2, 7] :=
  C47_prediction_layout mmBad _ (fun n => if n = "s" then .num 7 else .arr [1, 2]) (by simp [mmBad, PVal.flat]; rfl)

theorem jacSlices_ok (f : String → List K) : ∀ (ps : List (String × Nat)) (pre : List K) (rows : List (List K)) (G : List K → String → List K),
    (∀ r ∈ rows, ∃ a : List K, r = a ++ ps.flatMap (fun p => G r p.1) ∧ a.length = pre.length) → (∀ r ∈ rows, ∀ p ∈ ps, (G r p.1).length = p.2) →
    jacSlices rows pre.length ps = ps.map fun p => (p.1, rows.map fun r => G r p.1)
  | [], _, _, _, _, _ => rfl
  | p :: ps, pre, rows, G, h1, h2 => by
    simp only [jacSlices, List.map_cons, List.cons.injEq, Prod.mk.injEq, true_and]
    constructor
    · apply List.map_congr_left
      intro r hr
      obtain ⟨a, e1, e2⟩ := h1 r hr
      rw [← e2]
      conv_lhs => rw [e1]
      rw [List.drop_left, List.flatMap_cons, ← h2 r hr p (by simp), List.take_left]
    · have := jacSlices_ok f ps (pre ++ List.replicate p.2 0) rows G (by
        intro r hr
        obtain ⟨a, e1, e2⟩ := h1 r hr
        refine ⟨a ++ G r p.1, ?_, by simp [e2, h2 r hr p (by simp)]⟩
        conv_lhs => rw [e1]
        simp) (fun r hr q hq => h2 r hr q (List.mem_cons_of_mem _ hq))
      simpa using this

/-- **C47 (derivatives).** The Jacobian of a surrogate is cut at the same places: if each of its rows is the concatenation of one piece for each parameter, as long as the parameter, then the block of a parameter consists of its pieces. -/
theorem C47_jacobian_layout (m : MetaM K) (rows : List (List K)) (G : List K → String → List K)
    (h : ∀ r ∈ rows, r = m.params.flatMap fun p => G r p.1) (hs : ∀ r ∈ rows, ∀ p ∈ m.params, (G r p.1).length = p.2) :
    jacSlices rows 0 m.params = m.params.map fun p => (p.1, rows.map fun r => G r p.1) :=
  jacSlices_ok (fun _ => []) m.params [] rows G (fun r hr => ⟨[], by simpa using h r hr, rfl⟩) hs

/-! ### C48 -/

/-- One training call. -/
structure TrainEntry (K : Type) where
  warm : Bool
  data : TrainData K
  n : Nat
  f : String → Nat → TrVal K

/-- The component after a history of trainings. -/
def trainAll (m : MetaM K) (h : List (TrainEntry K)) : MetaM K := h.foldl (fun m e => (mmTrain m e.warm e.data).1) m

/-- What is accumulated: the latest data without warm restart, everything so far with it. -/
def accum (rows : TrainEntry K → List (List K)) (h : List (TrainEntry K)) : List (List K) :=
  h.foldl (fun acc e => if e.warm then acc ++ rows e else rows e) []

/-- Input rows of one data set: what a component that has never been trained gets. -/
def freshRows (m : MetaM K) (e : TrainEntry K) : List (List K) := (mmTrain { m with trainIn := [], trainOut := m.outs.map fun o => (o.1, []) } false e.data).1.trainIn

theorem lookup_map_fst {α β : Type} [DecidableEq α] (l : List (α × β)) (a : α × β) (ha : a ∈ l) (γ : Type) (c : γ) : (l.map fun o => (o.1, c)).lookup a.1 = some c := by
  induction l with
  | nil => simp at ha
  | cons b l ih =>
    simp only [List.map_cons, List.lookup_cons]
    by_cases h : a.1 = b.1
    · simp [h]
    · rw [beq_eq_false_iff_ne.2 h]
      rcases List.mem_cons.1 ha with rfl | ha
      · exact absurd rfl h
      · exact ih ha

theorem freshRows_eq (m m' : MetaM K) (hmp : m'.params = m.params) (hp : m.params ≠ []) (hout : (m.outs.map (·.1)).Nodup) (e : TrainEntry K)
    (hg : GoodData (m.params ++ m.outs) e.data e.n e.f) (r : List (List K)) (h1 : fillParams e.data 0 m'.params (zeroRows e.n m'.inputSize) = (r, none)) : r = freshRows m e := by
  have hc : MetaM.Consistent { m with trainIn := [], trainOut := m.outs.map fun o => (o.1, ([] : List (List K))) } := by
    intro o ho
    exact ⟨[], lookup_map_fst m.outs o ho _ _, rfl, by simp⟩
  obtain ⟨m2, r2, q1, q2, -, -, -, q3, -⟩ := mmTrain_ok { m with trainIn := [], trainOut := m.outs.map fun o => (o.1, ([] : List (List K))) } false hc hp hout hg
  have : m'.inputSize = m.inputSize := by simp [MetaM.inputSize, hmp]
  rw [hmp, this] at h1
  have q1' : fillParams e.data 0 m.params (zeroRows e.n m.inputSize) = (r2, none) := q1
  rw [h1] at q1'
  simp only [Prod.mk.injEq, and_true] at q1'
  simp only [freshRows, q2, q3]
  simpa using q1'

theorem trainAll_spec (m : MetaM K) (hp : m.params ≠ []) (hout : (m.outs.map (·.1)).Nodup) (h0 : m.trainIn = []) (h1 : ∀ o ∈ m.outs, m.trainOut.lookup o.1 = some [])
    (h : List (TrainEntry K)) (hg : ∀ e ∈ h, GoodData (m.params ++ m.outs) e.data e.n e.f) :
    (trainAll m h).params = m.params ∧ (trainAll m h).outs = m.outs ∧ (trainAll m h).Consistent ∧ (trainAll m h).trainIn = accum (freshRows m) h ∧
      ∀ o ∈ m.outs, (trainAll m h).trainOut.lookup o.1 = some (accum (fun e => (List.range e.n).map fun i => (e.f o.1 i).flat) h) := by
  induction h using List.reverseRecOn with
  | nil =>
    refine ⟨rfl, rfl, ?_, h0, h1⟩
    intro o ho
    exact ⟨[], h1 o ho, by simp [trainAll, h0], by simp⟩
  | append_singleton h e ih =>
    obtain ⟨i1, i2, i3, i4, i5⟩ := ih (fun q hq => hg q (by simp [hq]))
    have hge := hg e (by simp)
    obtain ⟨m', r, q1, q2, -, q4, q5, q6, q7, q8⟩ := mmTrain_ok (trainAll m h) e.warm i3 (by rw [i1]; exact hp) (by rw [i2]; exact hout) (by rw [i1, i2]; exact hge)
    have hr := freshRows_eq m _ i1 hp hout e hge r q1
    have hm' : trainAll m (h ++ [e]) = m' := by
      simp only [trainAll, List.foldl_append, List.foldl_cons, List.foldl_nil] at q2 ⊢
      rw [q2]
    rw [hm']
    refine ⟨q4.trans i1, q5.trans i2, q7, ?_, ?_⟩
    · rw [q6, i4, hr]
      simp only [accum, List.foldl_append, List.foldl_cons, List.foldl_nil]
      split_ifs <;> simp
    · intro o ho
      rw [q8 o (by rw [i2]; exact ho), i5 o ho]
      simp only [accum, List.foldl_append, List.foldl_cons, List.foldl_nil, Option.getD_some]
      split_ifs <;> simp

/-- **C48, partial.** After any history of trainings of a new component with well-formed non-empty data, the next training calls the surrogate of every output with the accumulated inputs and the accumulated outputs: without warm restart
the latest data only, with it all data since (and including) the last training without. The input rows of a data set are those a new component makes of it (C47). Missing: empty data sets and trainings that failed, where the claim fails. -/
theorem C48_accumulates_partial (m : MetaM K) (hp : m.params ≠ []) (hout : (m.outs.map (·.1)).Nodup) (h0 : m.trainIn = []) (h1 : ∀ o ∈ m.outs, m.trainOut.lookup o.1 = some [])
    (h : List (TrainEntry K)) (e : TrainEntry K) (hg : ∀ q ∈ h ++ [e], GoodData (m.params ++ m.outs) q.data q.n q.f) :
    (mmTrain (trainAll m h) e.warm e.data).2 = .ok (m.outs.map fun o =>
      (o.1, accum (freshRows m) (h ++ [e]), accum (fun e => (List.range e.n).map fun i => (e.f o.1 i).flat) (h ++ [e]))) := by
  obtain ⟨i1, i2, i3, i4, i5⟩ := trainAll_spec m hp hout h0 h1 h (fun q hq => hg q (by simp [hq]))
  have hge := hg e (by simp)
  obtain ⟨m', r, q1, q2, -⟩ := mmTrain_ok (trainAll m h) e.warm i3 (by rw [i1]; exact hp) (by rw [i2]; exact hout) (by rw [i1, i2]; exact hge)
  have hr := freshRows_eq m _ i1 hp hout e hge r q1
  rw [q2, i2]
  simp only [Except.ok.injEq]
  apply List.map_congr_left
  intro o ho
  rw [i5 o ho, i4, hr]
  simp only [accum, List.foldl_append, List.foldl_cons, List.foldl_nil, Option.getD_some]
  split_ifs <;> simp

theorem countParams_iff (data : TrainData K) (v : String → List (TrVal K)) : ∀ (ps : List (String × Nat)) (n : Nat), (∀ p ∈ ps, data.lookup p.1 = some (v p.1)) →
    mmCountParams data (some n) ps = if ∀ p ∈ ps, (v p.1).length = n then .ok (some n) else .error .RuntimeError
  | [], n, _ => by simp [mmCountParams]
  | p :: ps, n, h => by
    simp only [mmCountParams, trainVal, h p (by simp), countParams_iff data v ps n (fun q hq => h q (List.mem_cons_of_mem _ hq)), List.forall_mem_cons]
    by_cases hc : (v p.1).length = n
    · simp only [hc, true_and, if_true]
    · simp [hc]

theorem countOuts_iff (data : TrainData K) (v : String → List (TrVal K)) (n : Nat) : ∀ (ps : List (String × Nat)), (∀ p ∈ ps, data.lookup p.1 = some (v p.1)) →
    mmCountOuts data (some n) ps = if ∀ p ∈ ps, (v p.1).length = n then .ok () else .error .RuntimeError
  | [], _ => by simp [mmCountOuts]
  | p :: ps, h => by
    simp only [mmCountOuts, trainVal, h p (by simp), countOuts_iff data v n ps (fun q hq => h q (List.mem_cons_of_mem _ hq)), List.forall_mem_cons, Option.some.injEq]
    by_cases hc : (v p.1).length = n
    · simp only [hc, true_and, if_true]
    · simp [hc]

/-- **C48 (inconsistent data).** If two variables have different numbers of training points, training raises RuntimeError and nothing is stored. -/
theorem C48_inconsistent_rejected (m : MetaM K) (warm : Bool) (data : TrainData K) (v : String → List (TrVal K)) (hd : ∀ p ∈ m.params ++ m.outs, data.lookup p.1 = some (v p.1)) (hp : m.params ≠ [])
    (a b : String × Nat) (ha : a ∈ m.params ++ m.outs) (hb : b ∈ m.params ++ m.outs) (hne : (v a.1).length ≠ (v b.1).length) :
    mmTrain m warm data = (m, .error .RuntimeError) := by
  cases hps : m.params with
  | nil => exact absurd hps hp
  | cons p ps =>
    have hd1 : ∀ q ∈ ps, data.lookup q.1 = some (v q.1) := fun q hq => hd q (by simp [hps, hq])
    have hd2 : ∀ q ∈ m.outs, data.lookup q.1 = some (v q.1) := fun q hq => hd q (by simp [hq])
    simp only [mmTrain, hps, mmCountParams, trainVal, hd p (by simp [hps]), countParams_iff data v ps _ hd1]
    by_cases h1 : ∀ q ∈ ps, (v q.1).length = (v p.1).length
    · rw [if_pos h1]
      simp only [countOuts_iff data v _ m.outs hd2]
      have h2 : ¬ ∀ q ∈ m.outs, (v q.1).length = (v p.1).length := by
        intro h2
        have key : ∀ q ∈ m.params ++ m.outs, (v q.1).length = (v p.1).length := by
          intro q hq
          rcases List.mem_append.1 hq with hq | hq
          · rw [hps] at hq
            rcases List.mem_cons.1 hq with rfl | hq
            · rfl
            · exact h1 q hq
          · exact h2 q hq
        exact hne ((key a ha).trans (key b hb).symm)
      rw [if_neg h2]
    · rw [if_neg h1]

/-- Two trainings, the second with warm restart: the hypotheses hold and the second surrogate call sees all four points. -/
example : (mmTrain (trainAll mmGood [⟨false, mmData, 2, mmF⟩]) true mmData).2 =
    .ok [("y", [[10, 20, 30], [11, 21, 31], [10, 20, 30], [11, 21, 31]], [[40], [41], [40], [41]])] := by
  have := C48_accumulates_partial mmGood (by decide) (by decide) rfl (by decide) [⟨false, mmData, 2, mmF⟩] ⟨true, mmData, 2, mmF⟩ (by
    intro q hq
    simp at hq
    rcases hq with rfl | rfl <;> exact mmData_good)
  rw [this]
  rfl

/-- **C48, refuted (empty data).** Training without warm restart on empty data hands the old outputs to the surrogates, with no inputs. -/
theorem C48_empty_refuted : (mmTrain (trainAll mmGood [⟨false, mmData, 2, mmF⟩]) false [("s", []), ("x", []), ("y", [])]).2 = .ok [("y", [], [[40], [41]])] := by
  rfl

/-- **C48, refuted (failed training).** With warm restart, a training that fails because one array has a wrong size leaves its unfinished rows in the data: the next training, although its own data are good, fails too. -/
theorem C48_failure_refuted :
    let bad : TrainData Int := [("s", [.flt 1]), ("x", [.arr [1, 2, 3]]), ("y", [.flt 5])]
    let m1 := (mmTrain (trainAll mmGood [⟨true, mmData, 2, mmF⟩]) true bad).1
    (mmTrain (trainAll mmGood [⟨true, mmData, 2, mmF⟩]) true bad).2 = .error .ValueError ∧ m1.trainIn = [[10, 20, 30], [11, 21, 31], [1, 0, 0]] ∧
      (mmTrain m1 true mmData).2 = .error .ValueError := by
  refine ⟨rfl, rfl, rfl⟩

end OpenMDAO
