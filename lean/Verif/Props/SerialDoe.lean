import Verif.Spec.SerialDoe
import Verif.Lemmas.Connections
import Verif.Props.Recorder
/-!
# C154: responses of a serial design of experiments
-/
namespace OpenMDAO

set_option linter.unusedSectionVars false

variable {V C : Type}

theorem keepP_fst (st : LiveVecs V) (e : Str × VarAccess V) : (keepP st e).1 = e.1 := by
  rw [keepP]; cases e.2 <;> rfl

theorem keepU_fst (st : LiveVecs V) (e : Str × VarAccess V) : (keepU st e).1 = e.1 := by
  rw [keepU]; cases e.2 <;> rfl

theorem lookup_map_keep {A B : Type} (f : Str × A → Str × B) (hf : ∀ e, (f e).1 = e.1) (l : List (Str × A)) (hn : (l.map (·.1)).Nodup) (e : Str × A) (he : e ∈ l) : (l.map f).lookup e.1 = some (f e).2 := by
  induction l with
  | nil => cases he
  | cons x l ih =>
    rw [List.map_cons, List.nodup_cons] at hn
    rw [List.map_cons, List.lookup_cons, hf]
    rcases List.mem_cons.mp he with rfl | he
    · simp
    · have : (e.1 == x.1) = false := by
        rw [beq_eq_false_iff_ne]
        intro h
        exact hn.1 (h ▸ List.mem_map_of_mem he)
      rw [this]
      exact ih hn.2 he

theorem filterVec_keep {A B : Type} (f : Str × A → Str × B) (hf : ∀ e, (f e).1 = e.1) (l : List (Str × A)) (hn : (l.map (·.1)).Nodup) (q : Str → Bool) :
    filterVec (l.map f) ((l.map (·.1)).filter q) = .ok ((l.filter fun e => q e.1).map f) := by
  rw [filterVec]
  split
  · rename_i h
    rw [List.isEmpty_iff, List.map_eq_nil_iff] at h
    subst h
    rfl
  · rw [List.filter_map]
    have : ∀ sub : List (Str × A), (∀ e ∈ sub, e ∈ l) → (sub.map (·.1)).mapM (vecItem (l.map f)) = .ok (sub.map f) := by
      intro sub
      induction sub with
      | nil => intro _; rfl
      | cons e sub ih =>
        intro hs
        rw [List.map_cons, List.mapM_cons, vecItem, lookup_map_keep f hf l hn e (hs e (by simp)), ih fun x hx => hs x (List.mem_cons_of_mem _ hx)]
        simp only [bind, Except.bind, pure, Except.pure, List.map_cons]
        rw [← hf e]
    exact this _ fun e he => (List.mem_filter.mp he).1

theorem checkPath_resp {fnm : Str → Str → Bool} {n : Str} {resp : List Str} (h : ∀ r ∈ resp, fnm n r = decide (n = r)) : checkPath fnm n [] resp = decide (n ∈ resp) := by
  rw [Bool.eq_iff_iff, checkPath_iff]
  simp only [decide_eq_true_eq, List.not_mem_nil, false_implies, implies_true, and_true]
  constructor
  · rintro ⟨i, hi, h1⟩
    rw [h i hi, decide_eq_true_eq] at h1
    rw [h1]; exact hi
  · intro hn
    exact ⟨n, hn, by rw [h n hn]; simp⟩

/-- The data recorded for a case. -/
def caseData (resp : List Str) (M : VecMeta V) (st : LiveVecs V) : RecData (Kept V) :=
  ⟨some ((M.params.filter fun e => decide (e.1 ∈ resp)).map (keepP st)), some ((M.unknowns.filter fun e => decide (e.1 ∈ resp)).map (keepU st)), none⟩

theorem respRecord_eq {fnm : Str → Str → Bool} {resp : List Str} {M : VecMeta V} (h : RespNames fnm resp M) (st0 st : LiveVecs V) (k : Nat) : respRecord fnm resp M st0 (caseCoord k) st = .ok (caseData resp M st) := by
  have hp0 : (M.params.map (keepP st0)).map (·.1) = M.params.map (·.1) := by
    rw [List.map_map]; exact List.map_congr_left fun e _ => keepP_fst st0 e
  have hu0 : (M.unknowns.map (keepU st0)).map (·.1) = M.unknowns.map (·.1) := by
    rw [List.map_map]; exact List.map_congr_left fun e _ => keepU_fst st0 e
  have hc : getPathname (caseCoord k) = [] := rfl
  have e1 : filterVec (M.params.map (keepP st)) ((M.params.map (·.1)).filter fun n => checkPath fnm n [] resp) = .ok ((M.params.filter fun e => decide (e.1 ∈ resp)).map (keepP st)) := by
    rw [filterVec_keep (keepP st) (keepP_fst st) M.params h.params]
    congr 2
    apply List.filter_congr
    intro e he
    exact checkPath_resp fun r hr => h.plain e.1 (List.mem_append_left _ (List.mem_map_of_mem he)) r hr
  have e2 : filterVec (M.unknowns.map (keepU st)) ((M.unknowns.map (·.1)).filter fun n => checkPath fnm n [] resp) = .ok ((M.unknowns.filter fun e => decide (e.1 ∈ resp)).map (keepU st)) := by
    rw [filterVec_keep (keepU st) (keepU_fst st) M.unknowns h.unknowns]
    congr 2
    apply List.filter_congr
    intro e he
    exact checkPath_resp fun r hr => h.plain e.1 (List.mem_append_right _ (List.mem_map_of_mem he)) r hr
  rw [respRecord, recIteration]
  simp only [respOpts, Bool.or_true, Bool.true_or, if_true, hc, List.lookup_cons, beq_self_eq_true, recStartup, handed, recPart, hp0, hu0, e1, e2, Except.map, Bool.false_eq_true, if_false]
  rfl

theorem loop_trace {prep : LiveVecs V → C → Except PyErr Unit × LiveVecs V} {solve : LiveVecs V → CaseEnd × LiveVecs V} {record : Coord → LiveVecs V → Except PyErr (RecData (Kept V))} (data : LiveVecs V → RecData (Kept V))
    (hrec : ∀ k st, record (caseCoord k) st = .ok (data st)) (cases : List C) : ∀ (k : Nat) (st : LiveVecs V) (its : List (KeptIter V)), ∃ outs r fin, DoeTrace prep solve st cases outs r fin ∧
      serialLoop prep solve record cases k st its = (r, fin, k + outs.length, its ++ outs.zipIdx.map fun x => ⟨caseCoord (k + x.2), x.1.2, data x.1.1⟩) := by
  induction cases with
  | nil => intro k st its; exact ⟨[], _, _, .done st, by simp [serialLoop]⟩
  | cons c cs ih =>
    intro k st its
    rw [serialLoop]
    rcases hp : prep st c with ⟨e | u, st1⟩
    · exact ⟨[], _, _, .unset st st1 c cs e hp, by simp⟩
    · rcases hs : solve st1 with ⟨o, st2⟩
      cases o with
      | fatal e => exact ⟨[], _, _, .fatal st st1 st2 c cs e hp hs, by simp [hs]⟩
      | ok =>
        obtain ⟨outs, r, fin, h1, h2⟩ := ih (k + 1) st2 (its ++ [⟨caseCoord k, 1, data st2⟩])
        refine ⟨(st2, 1) :: outs, r, fin, .success st st1 st2 fin c cs outs r hp hs h1, ?_⟩
        simp only [hs, hrec, h2, List.zipIdx_cons, List.map_cons, List.length_cons, List.append_assoc, List.singleton_append, Nat.add_zero, Nat.zero_add]
        rw [List.zipIdx_succ, List.map_map]
        simp only [Function.comp_def, Nat.add_assoc, Nat.add_comm 1]
      | analysis =>
        obtain ⟨outs, r, fin, h1, h2⟩ := ih (k + 1) st2 (its ++ [⟨caseCoord k, 0, data st2⟩])
        refine ⟨(st2, 0) :: outs, r, fin, .analysis st st1 st2 fin c cs outs r hp hs h1, ?_⟩
        simp only [hs, hrec, h2, List.zipIdx_cons, List.map_cons, List.length_cons, List.append_assoc, List.singleton_append, Nat.add_zero, Nat.zero_add]
        rw [List.zipIdx_succ, List.map_map]
        simp only [Function.comp_def, Nat.add_assoc, Nat.add_comm 1]


theorem look_keepP (st st' : LiveVecs V) (e : Str × VarAccess V) (he : e.2 ≠ .view) : ((keepP st e).1, (keepP st e).2.look st') = (e.1, e.2.value (st.p e.1)) := by
  obtain ⟨n, a⟩ := e
  cases a with
  | view => exact absurd rfl he
  | copy conv => rfl

theorem look_keepU (st st' : LiveVecs V) (e : Str × VarAccess V) (he : e.2 ≠ .view) : ((keepU st e).1, (keepU st e).2.look st') = (e.1, e.2.value (st.u e.1)) := by
  obtain ⟨n, a⟩ := e
  cases a with
  | view => exact absurd rfl he
  | copy conv => rfl

/-- The responses of the cases of a run, as they are seen in the state `st'`. -/
theorem getResponses_outs (resp : List Str) (M : VecMeta V) (st' : LiveVecs V) (outs : List (LiveVecs V × Nat)) :
    getResponses st' (outs.zipIdx.map fun x => ⟨caseCoord (0 + x.2), x.1.2, caseData resp M x.1.1⟩) =
      outs.map fun x => ((((M.params.filter fun e => decide (e.1 ∈ resp)).map (keepP x.1)) ++ ((M.unknowns.filter fun e => decide (e.1 ∈ resp)).map (keepU x.1))).map fun e => (e.1, e.2.look st'), x.2) := by
  rw [getResponses, List.map_map]
  conv_rhs => rw [← List.zipIdx_map_fst 0 outs, List.map_map]
  rfl

/-- C154, in part. If no response is an array without units: after a run, `get_responses` gives, at any time and whatever the vectors hold then, for each completed case in order the responses of that case and its flag of success; nothing of earlier runs. A case with an
AnalysisError is completed with the flag 0; any other exception is raised after the cases before it. The cases are recorded under the coordinates Driver 0, 1, …. (The full claim has no condition on the responses: `C154_arrays_refuted`.) -/
theorem C154_responses_partial (prep : LiveVecs V → C → Except PyErr Unit × LiveVecs V) (solve : LiveVecs V → CaseEnd × LiveVecs V) (fnm : Str → Str → Bool) (resp : List Str) (M : VecMeta V) (h : RespNames fnm resp M) (hv : NoViews resp M)
    (st0 st : LiveVecs V) (cases : List C) (before : List (KeptIter V)) :
    ∃ outs r fin its, DoeTrace prep solve st cases outs r fin ∧ serialRun prep solve (respRecord fnm resp M st0) cases st before = (r, fin, outs.length, its) ∧
      (∀ st', getResponses st' its = outs.map fun x => (responsesAt resp M x.1, x.2)) ∧ its.map (·.coord) = (List.range outs.length).map fun k => ⟨0, [("Driver".toList, [k])]⟩ := by
  obtain ⟨outs, r, fin, h1, h2⟩ := loop_trace (prep := prep) (solve := solve) (caseData resp M) (fun k st => respRecord_eq h st0 st k) cases 0 st []
  refine ⟨outs, r, fin, _, h1, by rw [serialRun, h2, Nat.zero_add, List.nil_append], fun st' => ?_, ?_⟩
  · rw [getResponses_outs]
    apply List.map_congr_left
    intro x _
    rw [responsesAt, List.map_append, List.map_map, List.map_map]
    congr 2
    · apply List.map_congr_left
      intro e he
      have := List.mem_filter.mp he
      exact look_keepP x.1 st' e (hv e (List.mem_append_left _ this.1) (of_decide_eq_true this.2))
    · apply List.map_congr_left
      intro e he
      have := List.mem_filter.mp he
      exact look_keepU x.1 st' e (hv e (List.mem_append_right _ this.1) (of_decide_eq_true this.2))
  · rw [List.map_map]
    have : ∀ k, caseCoord k = ⟨0, [("Driver".toList, [k])]⟩ := fun k => rfl
    simp only [Function.comp_def, this, Nat.zero_add]
    rw [List.range_eq_range', ← List.zipIdx_map_snd 0 outs, List.map_map]
    rfl

/-- What is true of arrays: `get_responses` gives, for every case, the values of the array that the model holds at that time. -/
theorem C154_arrays_shared (prep : LiveVecs V → C → Except PyErr Unit × LiveVecs V) (solve : LiveVecs V → CaseEnd × LiveVecs V) (fnm : Str → Str → Bool) (resp : List Str) (M : VecMeta V) (h : RespNames fnm resp M)
    (st0 st st' : LiveVecs V) (cases : List C) (before : List (KeptIter V)) (n : Str) (hn : n ∈ resp) (hu : (n, .view) ∈ M.unknowns) :
    ∀ resps ∈ getResponses st' (serialRun prep solve (respRecord fnm resp M st0) cases st before).2.2.2, (n, st'.u n) ∈ resps.1 := by
  obtain ⟨outs, r, fin, h1, h2⟩ := loop_trace (prep := prep) (solve := solve) (caseData resp M) (fun k st => respRecord_eq h st0 st k) cases 0 st []
  rw [serialRun, h2, List.nil_append, getResponses_outs]
  intro resps hr
  obtain ⟨x, _, rfl⟩ := List.mem_map.mp hr
  refine List.mem_map.mpr ⟨(n, .viewU n), List.mem_append_right _ ?_, rfl⟩
  exact List.mem_map.mpr ⟨(n, .view), List.mem_filter.mpr ⟨hu, decide_eq_true hn⟩, rfl⟩

/-- The same for arrays among the params. -/
theorem C154_array_params_shared (prep : LiveVecs V → C → Except PyErr Unit × LiveVecs V) (solve : LiveVecs V → CaseEnd × LiveVecs V) (fnm : Str → Str → Bool) (resp : List Str) (M : VecMeta V) (h : RespNames fnm resp M)
    (st0 st st' : LiveVecs V) (cases : List C) (before : List (KeptIter V)) (n : Str) (hn : n ∈ resp) (hp : (n, .view) ∈ M.params) :
    ∀ resps ∈ getResponses st' (serialRun prep solve (respRecord fnm resp M st0) cases st before).2.2.2, (n, st'.p n) ∈ resps.1 := by
  obtain ⟨outs, r, fin, h1, h2⟩ := loop_trace (prep := prep) (solve := solve) (caseData resp M) (fun k st => respRecord_eq h st0 st k) cases 0 st []
  rw [serialRun, h2, List.nil_append, getResponses_outs]
  intro resps hr
  obtain ⟨x, _, rfl⟩ := List.mem_map.mp hr
  refine List.mem_map.mpr ⟨(n, .viewP n), List.mem_append_left _ ?_, rfl⟩
  exact List.mem_map.mpr ⟨(n, .view), List.mem_filter.mpr ⟨hp, decide_eq_true hn⟩, rfl⟩

/-- A model with a design variable `x` and an array `y = 10 x`. -/
def doeSample : VecMeta Nat := ⟨[], [(['x'], .copy id), (['y'], .view)]⟩
/-- Setting `x`. -/
def doePrep (st : LiveVecs Nat) (c : Nat) : Except PyErr Unit × LiveVecs Nat := (.ok (), ⟨st.p, fun n => if n = ['x'] then c else st.u n⟩)
/-- Running the model; 5 is outside of its range. -/
def doeSolve (st : LiveVecs Nat) : CaseEnd × LiveVecs Nat := (if st.u ['x'] = 5 then .analysis else .ok, ⟨st.p, fun n => if n = ['y'] then 10 * st.u ['x'] else st.u n⟩)

/-- C154 is false for arrays: after the cases 1, 5 and 3, the responses of all cases show the array of the last one. -/
theorem C154_arrays_refuted : RespNames (fun n p => decide (n = p)) [['x'], ['y']] doeSample ∧
    getResponses (serialRun doePrep doeSolve (respRecord (fun n p => decide (n = p)) [['x'], ['y']] doeSample ⟨fun _ => 0, fun _ => 0⟩) [1, 5, 3] ⟨fun _ => 0, fun _ => 0⟩ []).2.1
      (serialRun doePrep doeSolve (respRecord (fun n p => decide (n = p)) [['x'], ['y']] doeSample ⟨fun _ => 0, fun _ => 0⟩) [1, 5, 3] ⟨fun _ => 0, fun _ => 0⟩ []).2.2.2 =
      [([(['x'], 1), (['y'], 30)], 1), ([(['x'], 5), (['y'], 30)], 0), ([(['x'], 3), (['y'], 30)], 1)] :=
  ⟨⟨by decide, by decide, fun _ _ _ _ => rfl⟩, by decide⟩

/-- The condition of `C154_responses_partial` holds for the scalar `x` alone. -/
example : RespNames (fun n p => decide (n = p)) [['x']] doeSample ∧ NoViews [['x']] doeSample := by
  refine ⟨⟨by decide, by decide, fun _ _ _ _ => rfl⟩, ?_⟩
  intro e he hr
  simp only [doeSample, List.nil_append, List.mem_cons, List.not_mem_nil, or_false] at he
  rcases he with rfl | rfl
  · simp
  · simp at hr

/-- C154. `add_response` adds names in their order; a name that is there already, or twice in the call, raises RuntimeError. The names before it have been added. -/
theorem C154_add_response (names : List Str) : ∀ (resp : List Str), resp.Nodup →
    (addResponse resp names = (.ok (), resp ++ names) ∧ (resp ++ names).Nodup) ∨
    ∃ pre n post, names = pre ++ n :: post ∧ (resp ++ pre).Nodup ∧ n ∈ resp ++ pre ∧ addResponse resp names = (.error .RuntimeError, resp ++ pre) := by
  induction names with
  | nil => intro resp h; exact .inl ⟨by simp [addResponse], by simpa using h⟩
  | cons n ns ih =>
    intro resp h
    rw [addResponse]
    by_cases hn : n ∈ resp
    · rw [if_pos hn]
      exact .inr ⟨[], n, ns, rfl, by simpa using h, by simpa using hn, by simp⟩
    · rw [if_neg hn]
      have hnd : (resp ++ [n]).Nodup := by
        rw [List.nodup_append]
        refine ⟨h, by simp, ?_⟩
        intro a ha b hb
        rw [List.mem_singleton.mp hb]
        rintro rfl
        exact hn ha
      rcases ih (resp ++ [n]) hnd with ⟨h1, h2⟩ | ⟨pre, m, post, rfl, h1, h2, h3⟩
      · exact .inl ⟨by rw [h1]; simp, by simpa using h2⟩
      · exact .inr ⟨n :: pre, m, post, rfl, by simpa using h1, by simpa using h2, by rw [h3]; simp⟩

end OpenMDAO
