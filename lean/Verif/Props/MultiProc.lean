import Verif.Model.MultiProc
import Verif.Lemmas.Concurrent
/-!
# Property C41: design study with multiprocessing
-/
namespace OpenMDAO
set_option linter.unusedSectionVars false

variable {P : Nat} {C : Type}

/-- Stop messages put so far. -/
def stopsPut (P : Nat) : DPhase → Nat
  | .seed _ | .loop => 0
  | .stopPut k => k
  | _ => P

/-- 1 for a worker that left its loop. -/
def WSt.gone : WSt C → Nat
  | .stopped => 1
  | _ => 0

theorem gone_stopped : (WSt.stopped : WSt C).gone = 1 := rfl
theorem gone_idle : (WSt.idle : WSt C).gone = 0 := rfl
theorem gone_busy (c : C) : (WSt.busy c).gone = 0 := rfl

/-- All cases of the queue come before all stop messages. -/
def QShape (q : List (Option C)) : Prop := ∃ (cs : List C) (m : Nat), q = cs.map some ++ List.replicate m none

/-- Cases that are being run. -/
def DSt.running (s : DSt P C) : Multiset C := ∑ w, (↑(s.worker w).cases : Multiset C)

/-- Invariant. -/
structure DInv (fatal : C → Bool) (cases : List C) (s : DSt P C) : Prop where
  all : (s.consumed : Multiset C) + ↑(s.doneQ.map Prod.fst) + s.running + ↑(inCases s.taskQ) + ↑s.remaining = ↑cases
  evals : (s.evals : Multiset C) + ↑(inCases s.taskQ) + ↑s.remaining = ↑cases
  records : s.records = s.consumed.filter fun c => !fatal c
  flags : ∀ m ∈ s.doneQ, m.2 = fatal m.1
  term : ∀ w, s.term w = false
  active : s.numActive = (inCases s.taskQ).length + s.running.card + s.doneQ.length
  shape : QShape s.taskQ
  stops : inStops s.taskQ + (∑ w, (s.worker w).gone) = stopsPut P s.phase
  gone : 0 < (∑ w, (s.worker w).gone) → inCases s.taskQ = []
  ctrl : match s.phase with
    | .seed k => s.numActive = k ∧ k ≤ P
    | .loop => s.numActive = P
    | .stopPut k => k ≤ P ∧ (s.remaining = [] ∨ ∃ c ∈ s.consumed, fatal c = true)
    | .drain => s.remaining = [] ∨ ∃ c ∈ s.consumed, fatal c = true
    | .join | .done => s.numActive = 0 ∧ (s.remaining = [] ∨ ∃ c ∈ s.consumed, fatal c = true)

theorem qshape_some (q : List (Option C)) (c : C) (h : QShape q) (h0 : inStops q = 0) : QShape (q ++ [some c]) := by
  obtain ⟨cs, m, rfl⟩ := h
  have : m = 0 := by
    simp only [inStops, List.countP_append, List.countP_replicate] at h0
    simp at h0; omega
  subst this
  exact ⟨cs ++ [c], 0, by simp⟩

theorem qshape_none (q : List (Option C)) (h : QShape q) : QShape (q ++ [none]) := by
  obtain ⟨cs, m, rfl⟩ := h
  exact ⟨cs, m + 1, by rw [List.replicate_succ', List.append_assoc]⟩

theorem qshape_tail (x : Option C) (q : List (Option C)) (h : QShape (x :: q)) : QShape q := by
  obtain ⟨cs, m, e⟩ := h
  cases cs with
  | nil =>
    cases m with
    | zero => simp at e
    | succ m => exact ⟨[], m, by simpa [List.replicate_succ] using (List.cons.inj (by simpa [List.replicate_succ] using e)).2⟩
  | cons c cs => exact ⟨cs, m, (List.cons.inj (by simpa using e)).2⟩

theorem qshape_none_head (q : List (Option C)) (h : QShape (none :: q)) : inCases q = [] := by
  obtain ⟨cs, m, e⟩ := h
  cases cs with
  | nil =>
    have : inCases (none :: q) = [] := by rw [e]; simp [inCases]
    rwa [inCases_cons_none] at this
  | cons c cs => simp at e

theorem running_update (s : DSt P C) (w : Fin P) (v : WSt C) (s' : DSt P C) (h : s'.worker = Function.update s.worker w v) :
    ∃ r g, s.running = ↑(s.worker w).cases + r ∧ s'.running = ↑v.cases + r ∧
      (∑ x, (s.worker x).gone) = (s.worker w).gone + g ∧ (∑ x, (s'.worker x).gone) = v.gone + g := by
  obtain ⟨r, a, b⟩ := sum_change (fun x => (↑(s.worker x).cases : Multiset C)) (fun x => (↑(s'.worker x).cases : Multiset C)) w
    (fun x hx => by rw [h, Function.update_of_ne hx])
  obtain ⟨g, a2, b2⟩ := sum_change (fun x => (s.worker x).gone) (fun x => (s'.worker x).gone) w
    (fun x hx => by rw [h, Function.update_of_ne hx])
  refine ⟨r, g, a, ?_, a2, ?_⟩
  · unfold DSt.running; rw [b, h, Function.update_self]
  · rw [b2, h, Function.update_self]

theorem inStops_append (q r : List (Option C)) : inStops (q ++ r) = inStops q + inStops r := by simp [inStops]

theorem dinv_init (fatal : C → Bool) (cases : List C) : DInv fatal cases (DSt.init P cases) := by
  constructor <;> simp [DSt.init, DSt.running, inCases, inStops, WSt.cases, WSt.gone, stopsPut]
  exact ⟨[], 0, rfl⟩

theorem dinv_step (lb : Bool) (fatal : C → Bool) (cases : List C) (hP : 0 < P) (hsafe : lb = true ∨ ∀ c ∈ cases, fatal c = false)
    (s s' : DSt P C) (h : DInv fatal cases s) (hs : DStep lb fatal s s') : DInv fatal cases s' := by
  obtain ⟨h1, h2, h3, h4, h5, h6, h7, h8, h9, h10⟩ := h
  cases hs with
  | seedPut k c rest hp hk hr =>
    rw [hp] at h8 h10
    rw [hr] at h1 h2
    simp only [stopsPut] at h8
    refine ⟨?_, ?_, h3, h4, h5, ?_, qshape_some _ _ h7 (by omega), ?_, ?_, ?_⟩
    · show (s.consumed : Multiset C) + ↑(s.doneQ.map Prod.fst) + s.running + ↑(inCases (s.taskQ ++ [some c])) + ↑rest = _
      rw [inCases_append_some, coe_append_one, ← h1, coe_cons_add]; abel
    · show (s.evals : Multiset C) + ↑(inCases (s.taskQ ++ [some c])) + ↑rest = _
      rw [inCases_append_some, coe_append_one, ← h2, coe_cons_add]; abel
    · show s.numActive + 1 = (inCases (s.taskQ ++ [some c])).length + s.running.card + s.doneQ.length
      rw [inCases_append_some, List.length_append, List.length_singleton]; omega
    · show inStops (s.taskQ ++ [some c]) + (∑ w, (s.worker w).gone) = 0
      rw [inStops_append]; simpa [inStops] using h8
    · intro hg
      exact absurd hg (by show ¬ 0 < ∑ w, (s.worker w).gone; omega)
    · exact ⟨by show s.numActive + 1 = k + 1; omega, hk⟩
  | seedEmpty k hp hk hr =>
    rw [hp] at h8 h10
    exact ⟨h1, h2, h3, h4, h5, h6, h7, h8, h9, Nat.zero_le _, Or.inl hr⟩
  | seedDone k hp hk =>
    rw [hp] at h8 h10
    exact ⟨h1, h2, h3, h4, h5, h6, h7, h8, h9, by show s.numActive = P; have := h10; simp only at this; omega⟩
  | loopEnd hp hn =>
    rw [hp] at h8 h10
    simp only at h10
    omega
  | loopFatal c rest hp hn hd =>
    rw [hp] at h8 h10
    rw [hd] at h1 h4 h6
    have hf := h4 (c, true) List.mem_cons_self
    refine ⟨?_, h2, ?_, ?_, h5, ?_, h7, h8, h9, Nat.zero_le _, Or.inr ⟨c, ?_, hf.symm⟩⟩
    · show ((s.consumed ++ [c] : List C) : Multiset C) + ↑(rest.map Prod.fst) + s.running + ↑(inCases s.taskQ) + ↑s.remaining = _
      rw [← h1, List.map_cons, coe_cons_add, coe_append_one]; abel
    · show s.records = (s.consumed ++ [c]).filter _
      rw [List.filter_append, h3]
      have : fatal c = true := hf.symm
      simp [this]
    · intro m hm; exact h4 m (List.mem_cons_of_mem _ hm)
    · show s.numActive - 1 = (inCases s.taskQ).length + s.running.card + rest.length
      rw [List.length_cons] at h6; omega
    · exact List.mem_append_right _ (List.mem_singleton.2 rfl)
  | loopNext c rest c' rest' hp hn hd hr =>
    rw [hp] at h8 h10
    rw [hd] at h1 h4 h6
    rw [hr] at h1 h2
    have hf := h4 (c, false) List.mem_cons_self
    simp only [stopsPut] at h8
    refine ⟨?_, ?_, ?_, ?_, h5, ?_, qshape_some _ _ h7 (by omega), ?_, ?_, ?_⟩
    · show ((s.consumed ++ [c] : List C) : Multiset C) + ↑(rest.map Prod.fst) + s.running + ↑(inCases (s.taskQ ++ [some c'])) + ↑rest' = _
      rw [← h1, List.map_cons, coe_cons_add, coe_append_one, inCases_append_some, coe_append_one, coe_cons_add]; abel
    · show (s.evals : Multiset C) + ↑(inCases (s.taskQ ++ [some c'])) + ↑rest' = _
      rw [inCases_append_some, coe_append_one, ← h2, coe_cons_add]; abel
    · show s.records ++ [c] = (s.consumed ++ [c]).filter _
      have : fatal c = false := hf.symm
      rw [List.filter_append, h3]; simp [this]
    · intro m hm; exact h4 m (List.mem_cons_of_mem _ hm)
    · show s.numActive - 1 + 1 = (inCases (s.taskQ ++ [some c'])).length + s.running.card + rest.length
      rw [inCases_append_some, List.length_append, List.length_singleton]
      rw [List.length_cons] at h6; omega
    · show inStops (s.taskQ ++ [some c']) + (∑ w, (s.worker w).gone) = stopsPut P s.phase
      rw [inStops_append, hp]; simpa [inStops, stopsPut] using h8
    · intro hg
      exact absurd hg (by show ¬ 0 < ∑ w, (s.worker w).gone; omega)
    · show match s.phase with
        | .seed k => s.numActive - 1 + 1 = k ∧ k ≤ P
        | .loop => s.numActive - 1 + 1 = P
        | .stopPut k => k ≤ P ∧ (rest' = [] ∨ ∃ x ∈ s.consumed ++ [c], fatal x = true)
        | .drain => rest' = [] ∨ ∃ x ∈ s.consumed ++ [c], fatal x = true
        | .join | .done => s.numActive - 1 + 1 = 0 ∧ (rest' = [] ∨ ∃ x ∈ s.consumed ++ [c], fatal x = true)
      rw [hp]
      simp only at h10 ⊢
      omega
  | loopLast c rest hp hn hd hr =>
    rw [hp] at h8 h10
    rw [hd] at h1 h4 h6
    have hf := h4 (c, false) List.mem_cons_self
    refine ⟨?_, h2, ?_, ?_, h5, ?_, h7, h8, h9, Nat.zero_le _, Or.inl hr⟩
    · show ((s.consumed ++ [c] : List C) : Multiset C) + ↑(rest.map Prod.fst) + s.running + ↑(inCases s.taskQ) + ↑s.remaining = _
      rw [← h1, List.map_cons, coe_cons_add, coe_append_one]; abel
    · show s.records ++ [c] = (s.consumed ++ [c]).filter _
      have : fatal c = false := hf.symm
      rw [List.filter_append, h3]; simp [this]
    · intro m hm; exact h4 m (List.mem_cons_of_mem _ hm)
    · show s.numActive - 1 = (inCases s.taskQ).length + s.running.card + rest.length
      rw [List.length_cons] at h6; omega
  | stopPut k hp hk =>
    rw [hp] at h8 h10
    simp only [stopsPut] at h8
    refine ⟨?_, ?_, h3, h4, h5, ?_, qshape_none _ h7, ?_, ?_, hk, h10.2⟩
    · show (s.consumed : Multiset C) + ↑(s.doneQ.map Prod.fst) + s.running + ↑(inCases (s.taskQ ++ [none])) + ↑s.remaining = _
      rw [inCases_append_none]; exact h1
    · show (s.evals : Multiset C) + ↑(inCases (s.taskQ ++ [none])) + ↑s.remaining = _
      rw [inCases_append_none]; exact h2
    · show s.numActive = (inCases (s.taskQ ++ [none])).length + s.running.card + s.doneQ.length
      rw [inCases_append_none]; exact h6
    · show inStops (s.taskQ ++ [none]) + (∑ w, (s.worker w).gone) = k + 1
      rw [inStops_append]
      have : inStops [(none : Option C)] = 1 := by simp [inStops]
      omega
    · show 0 < (∑ w, (s.worker w).gone) → inCases (s.taskQ ++ [none]) = []
      rw [inCases_append_none]; exact h9
  | stopEnd k hp hk =>
    rw [hp] at h8 h10
    have hkP : k = P := by have := h10.1; omega
    refine ⟨h1, h2, h3, h4, h5, h6, h7, ?_, h9, h10.2⟩
    simpa [stopsPut, hkP] using h8
  | drainGet c f rest hp hn hd =>
    rw [hp] at h8 h10
    rw [hd] at h1 h4 h6
    have hf : f = fatal c := h4 (c, f) List.mem_cons_self
    refine ⟨?_, h2, ?_, ?_, h5, ?_, h7, by show inStops s.taskQ + (∑ w, (s.worker w).gone) = stopsPut P s.phase; rw [hp]; exact h8, h9, ?_⟩
    · show ((s.consumed ++ [c] : List C) : Multiset C) + ↑(rest.map Prod.fst) + s.running + ↑(inCases s.taskQ) + ↑s.remaining = _
      rw [← h1, List.map_cons, coe_cons_add, coe_append_one]; abel
    · show (if f then s.records else s.records ++ [c]) = (s.consumed ++ [c]).filter _
      rw [List.filter_append, h3, hf]
      cases hfc : fatal c <;> simp [hfc]
    · intro m hm; exact h4 m (List.mem_cons_of_mem _ hm)
    · show s.numActive - 1 = (inCases s.taskQ).length + s.running.card + rest.length
      rw [List.length_cons] at h6; omega
    · show match s.phase with
        | .seed k => s.numActive - 1 = k ∧ k ≤ P
        | .loop => s.numActive - 1 = P
        | .stopPut k => k ≤ P ∧ (s.remaining = [] ∨ ∃ x ∈ s.consumed ++ [c], fatal x = true)
        | .drain => s.remaining = [] ∨ ∃ x ∈ s.consumed ++ [c], fatal x = true
        | .join | .done => s.numActive - 1 = 0 ∧ (s.remaining = [] ∨ ∃ x ∈ s.consumed ++ [c], fatal x = true)
      rw [hp]
      rcases h10 with h | ⟨x, hx, hfx⟩
      · exact Or.inl h
      · exact Or.inr ⟨x, List.mem_append_left _ hx, hfx⟩
  | drainEnd hp hn =>
    rw [hp] at h8 h10
    exact ⟨h1, h2, h3, h4, h5, h6, h7, h8, h9, hn, h10⟩
  | joinEnd hp hall =>
    rw [hp] at h8 h10
    exact ⟨h1, h2, h3, h4, h5, h6, h7, h8, h9, h10⟩
  | take w c rest hw ht hq =>
    obtain ⟨r, g, a1, b1, a2, b2⟩ := running_update s w (.busy c)
      { s with worker := Function.update s.worker w (.busy c), taskQ := rest, evals := s.evals ++ [c] } rfl
    rw [hw] at a1 a2
    simp only [WSt.cases, gone_stopped, gone_idle, gone_busy, Multiset.coe_nil, Multiset.coe_singleton, Nat.zero_add, zero_add] at a1 a2 b1 b2
    rw [hq] at h1 h2 h6 h7 h8 h9
    rw [a1] at h1 h6
    rw [a2] at h8 h9
    rw [inCases_cons_some] at h1 h2 h6 h9
    refine ⟨?_, ?_, h3, h4, h5, ?_, qshape_tail _ _ h7, ?_, ?_, h10⟩
    · rw [b1]
      show (s.consumed : Multiset C) + ↑(s.doneQ.map Prod.fst) + ({c} + r) + ↑(inCases rest) + ↑s.remaining = _
      rw [← h1, coe_cons_add]; abel
    · show ((s.evals ++ [c] : List C) : Multiset C) + ↑(inCases rest) + ↑s.remaining = _
      rw [← h2, coe_append_one, coe_cons_add]; abel
    · rw [b1]
      show s.numActive = (inCases rest).length + ({c} + r).card + s.doneQ.length
      rw [Multiset.card_add, Multiset.card_singleton]
      rw [List.length_cons] at h6; omega
    · rw [b2]
      show inStops rest + g = stopsPut P s.phase
      rw [← h8]; simp [inStops]
    · rw [b2]
      intro hg
      exact absurd (h9 hg) (by simp)
  | swallow w c rest hw ht hq =>
    rw [h5 w] at ht; exact absurd ht (by simp)
  | takeStop w rest hw hq =>
    obtain ⟨r, g, a1, b1, a2, b2⟩ := running_update s w .stopped
      { s with worker := Function.update s.worker w .stopped, taskQ := rest } rfl
    rw [hw] at a1 a2
    simp only [WSt.cases, gone_stopped, gone_idle, gone_busy, Multiset.coe_nil, Nat.zero_add, zero_add] at a1 a2 b1 b2
    rw [hq] at h1 h2 h6 h7 h8 h9
    rw [a1] at h1 h6
    rw [a2] at h8 h9
    rw [inCases_cons_none] at h1 h2 h6 h9
    refine ⟨by rw [b1]; exact h1, h2, h3, h4, h5, by rw [b1]; exact h6, qshape_tail _ _ h7, ?_, ?_, h10⟩
    · rw [b2]
      show inStops rest + (1 + g) = stopsPut P s.phase
      rw [← h8]
      have : inStops (none :: rest) = inStops rest + 1 := by simp [inStops]
      omega
    · intro _
      exact qshape_none_head rest h7
  | reply w c hw =>
    obtain ⟨r, g, a1, b1, a2, b2⟩ := running_update s w .idle
      { s with worker := Function.update s.worker w .idle, doneQ := s.doneQ ++ [(c, fatal c)], term := Function.update s.term w (fatal c && !lb) } rfl
    rw [hw] at a1 a2
    simp only [WSt.cases, gone_stopped, gone_idle, gone_busy, Multiset.coe_nil, Multiset.coe_singleton, Nat.zero_add, zero_add] at a1 a2 b1 b2
    rw [a1] at h1 h6
    rw [a2] at h8 h9
    have hmem : c ∈ cases := by
      have : c ∈ (s.consumed : Multiset C) + ↑(s.doneQ.map Prod.fst) + ({c} + r) + ↑(inCases s.taskQ) + ↑s.remaining := by
        simp
      rw [h1] at this
      simpa using this
    refine ⟨?_, h2, h3, ?_, ?_, ?_, h7, by rw [b2]; exact h8, by rw [b2]; exact h9, h10⟩
    · rw [b1]
      show (s.consumed : Multiset C) + ↑((s.doneQ ++ [(c, fatal c)]).map Prod.fst) + r + ↑(inCases s.taskQ) + ↑s.remaining = _
      rw [← h1, List.map_append, List.map_cons, List.map_nil, coe_append_one]; abel
    · intro m hm
      rcases List.mem_append.1 hm with h | h
      · exact h4 m h
      · rw [List.mem_singleton.1 h]
    · intro x
      show Function.update s.term w (fatal c && !lb) x = false
      by_cases hx : x = w
      · subst hx
        rw [Function.update_self]
        rcases hsafe with h | h
        · simp [h]
        · simp [h c hmem]
      · rw [Function.update_of_ne hx]; exact h5 x
    · rw [b1]
      show s.numActive = (inCases s.taskQ).length + r.card + (s.doneQ ++ [(c, fatal c)]).length
      rw [Multiset.card_add, Multiset.card_singleton] at h6
      rw [List.length_append, List.length_singleton]; omega

/-- The study is over and all worker processes have ended. -/
def DSt.Finished (s : DSt P C) : Prop := s.phase = .done ∧ ∀ w, s.worker w = .stopped

theorem dinv_reach (lb : Bool) (fatal : C → Bool) (cases : List C) (hP : 0 < P) (hsafe : lb = true ∨ ∀ c ∈ cases, fatal c = false)
    (s : DSt P C) (hr : DReach P lb fatal cases s) : DInv fatal cases s ∧ (s.phase = .done → ∀ w, s.worker w = .stopped) := by
  induction hr with
  | refl => exact ⟨dinv_init fatal cases, by intro h; cases h⟩
  | tail _ hstep ih =>
    refine ⟨dinv_step lb fatal cases hP hsafe _ _ ih.1 hstep, ?_⟩
    intro hd
    cases hstep with
    | joinEnd hp hall => exact hall
    | take w c rest hw ht hq => have := ih.2 hd w; rw [hw] at this; cases this
    | takeStop w rest hw hq => have := ih.2 hd w; rw [hw] at this; cases this
    | reply w c hw => have := ih.2 hd w; rw [hw] at this; cases this
    | swallow w c rest hw ht hq => exact ih.2 hd
    | seedPut => cases hd
    | seedEmpty => cases hd
    | seedDone => cases hd
    | loopEnd => cases hd
    | loopFatal => cases hd
    | loopNext _ _ _ _ hp => exact ih.2 hd
    | loopLast => cases hd
    | stopPut => cases hd
    | stopEnd => cases hd
    | drainGet => exact ih.2 hd
    | drainEnd => cases hd

theorem dprogress (lb : Bool) (fatal : C → Bool) (cases : List C) (hP : 0 < P) (s : DSt P C) (h : DInv fatal cases s)
    (hdone : s.phase = .done → ∀ w, s.worker w = .stopped) : s.Finished ∨ ∃ s', DStep lb fatal s s' := by
  obtain ⟨h1, h2, h3, h4, h5, h6, h7, h8, h9, h10⟩ := h
  by_cases hbusy : ∃ w c, s.worker w = .busy c
  · obtain ⟨w, c, h⟩ := hbusy
    exact Or.inr ⟨_, .reply s w c h⟩
  have hrun : s.running = 0 := by
    unfold DSt.running
    apply Finset.sum_eq_zero
    intro w _
    cases hs : s.worker w with
    | busy c => exact absurd ⟨w, c, hs⟩ hbusy
    | idle => rfl
    | stopped => rfl
  -- a worker that can take the head of a queue that is not empty
  have htake : s.taskQ ≠ [] → (∃ w, s.worker w = .idle) → ∃ s', DStep lb fatal s s' := by
    rintro hq ⟨w, hw⟩
    cases hq' : s.taskQ with
    | nil => exact absurd hq' hq
    | cons m rest =>
      cases m with
      | some c => exact ⟨_, .take s w c rest hw (h5 w) hq'⟩
      | none => exact ⟨_, .takeStop s w rest hw hq'⟩
  -- if no response is queued then a waited-for case is in the queue and no worker has left
  have hwait : s.numActive ≠ 0 → s.doneQ = [] → ∃ s', DStep lb fatal s s' := by
    intro hn hd
    rw [hrun, hd] at h6
    simp only [Multiset.card_zero, List.length_nil, Nat.add_zero] at h6
    have hne : inCases s.taskQ ≠ [] := by
      intro e; rw [e] at h6; simp at h6; omega
    have hg : (∑ w, (s.worker w).gone) = 0 := by
      by_contra hg
      exact hne (h9 (by omega))
    refine htake ?_ ⟨⟨0, hP⟩, ?_⟩
    · intro e; rw [e] at hne; exact hne rfl
    · have := (Finset.sum_eq_zero_iff.1 hg) ⟨0, hP⟩ (Finset.mem_univ _)
      cases hs : s.worker ⟨0, hP⟩ with
      | idle => rfl
      | busy c => exact absurd ⟨_, c, hs⟩ hbusy
      | stopped => rw [hs] at this; simp [WSt.gone] at this
  cases hp : s.phase with
  | seed k =>
    by_cases hk : k < P
    · cases hr : s.remaining with
      | nil => exact Or.inr ⟨_, .seedEmpty s k hp hk hr⟩
      | cons c rest => exact Or.inr ⟨_, .seedPut s k c rest hp hk hr⟩
    · exact Or.inr ⟨_, .seedDone s k hp hk⟩
  | loop =>
    by_cases hn : s.numActive = 0
    · exact Or.inr ⟨_, .loopEnd s hp hn⟩
    · cases hd : s.doneQ with
      | nil => exact Or.inr (hwait hn hd)
      | cons m rest =>
        obtain ⟨c, f⟩ := m
        cases f with
        | true => exact Or.inr ⟨_, .loopFatal s c rest hp hn hd⟩
        | false =>
          cases hr : s.remaining with
          | nil => exact Or.inr ⟨_, .loopLast s c rest hp hn hd hr⟩
          | cons c' rest' => exact Or.inr ⟨_, .loopNext s c rest c' rest' hp hn hd hr⟩
  | stopPut k =>
    by_cases hk : k < P
    · exact Or.inr ⟨_, .stopPut s k hp hk⟩
    · exact Or.inr ⟨_, .stopEnd s k hp hk⟩
  | drain =>
    by_cases hn : s.numActive = 0
    · exact Or.inr ⟨_, .drainEnd s hp hn⟩
    · cases hd : s.doneQ with
      | nil => exact Or.inr (hwait hn hd)
      | cons m rest => exact Or.inr ⟨_, .drainGet s m.1 m.2 rest hp hn hd⟩
  | join =>
    by_cases hall : ∀ w, s.worker w = .stopped
    · exact Or.inr ⟨_, .joinEnd s hp hall⟩
    · push Not at hall
      obtain ⟨w, hw⟩ := hall
      have hwi : s.worker w = .idle := by
        cases hs : s.worker w with
        | idle => rfl
        | busy c => exact absurd ⟨w, c, hs⟩ hbusy
        | stopped => exact absurd hs hw
      right
      refine htake ?_ ⟨w, hwi⟩
      intro e
      rw [hp, e] at h8
      simp only [stopsPut, inStops, List.countP_nil, Nat.zero_add] at h8
      obtain ⟨g, a, b⟩ := sum_change (fun x => (s.worker x).gone) (fun x => if x = w then 1 else (s.worker x).gone) w
        (fun x hx => by simp [hx])
      have hle : (∑ x, if x = w then 1 else (s.worker x).gone) ≤ ∑ _x : Fin P, 1 := by
        apply Finset.sum_le_sum
        intro x _
        split
        · exact le_refl 1
        · cases s.worker x <;> simp [WSt.gone]
      simp only [if_true] at b
      rw [b] at hle
      rw [a, hwi] at h8
      simp [WSt.gone] at h8 hle
      omega
  | done => exact Or.inl ⟨hp, hdone hp⟩

/-- Weight of the phase in the termination measure. -/
def dPhWeight (P : Nat) : DPhase → Nat
  | .seed k => (P - k) + 2 * P + 5
  | .loop => 2 * P + 4
  | .stopPut k => 2 * (P - k) + 3
  | .drain => 2
  | .join => 1
  | .done => 0

/-- Termination measure. -/
def dMeasure (s : DSt P C) : Nat :=
  dPhWeight P s.phase + 4 * s.remaining.length + 3 * (inCases s.taskQ).length + inStops s.taskQ + 2 * s.running.card + s.doneQ.length

theorem dmeasure_step (lb : Bool) (fatal : C → Bool) (s s' : DSt P C) (hs : DStep lb fatal s s') : dMeasure s' < dMeasure s := by
  cases hs with
  | seedPut k c rest hp hk hr =>
    unfold dMeasure
    have hrun : ({ s with phase := .seed (k + 1), remaining := rest, taskQ := s.taskQ ++ [some c], numActive := s.numActive + 1 } : DSt P C).running = s.running := rfl
    rw [hrun, hp, hr]
    simp only [dPhWeight, inCases_append_some, inStops_append, List.length_append, List.length_cons, List.length_nil]
    have : inStops [some c] = 0 := by simp [inStops]
    omega
  | seedEmpty k hp hk hr =>
    unfold dMeasure
    have hrun : ({ s with phase := .stopPut 0 } : DSt P C).running = s.running := rfl
    rw [hrun, hp]
    simp only [dPhWeight]; omega
  | seedDone k hp hk =>
    unfold dMeasure
    have hrun : ({ s with phase := .loop } : DSt P C).running = s.running := rfl
    rw [hrun, hp]
    simp only [dPhWeight]; omega
  | loopEnd hp hn =>
    unfold dMeasure
    have hrun : ({ s with phase := .stopPut 0 } : DSt P C).running = s.running := rfl
    rw [hrun, hp]
    simp only [dPhWeight]; omega
  | loopFatal c rest hp hn hd =>
    unfold dMeasure
    have hrun : ({ s.consume c true rest with phase := .stopPut 0, numActive := s.numActive - 1 } : DSt P C).running = s.running := rfl
    rw [hrun, hp, hd]
    simp only [dPhWeight, DSt.consume, List.length_cons]; omega
  | loopNext c rest c' rest' hp hn hd hr =>
    unfold dMeasure
    have hrun : ({ s.consume c false rest with remaining := rest', taskQ := s.taskQ ++ [some c'], numActive := s.numActive - 1 + 1 } : DSt P C).running = s.running := rfl
    rw [hrun, hr, hd]
    simp only [DSt.consume, inCases_append_some, inStops_append, List.length_append, List.length_cons, List.length_nil]
    have : inStops [some c'] = 0 := by simp [inStops]
    omega
  | loopLast c rest hp hn hd hr =>
    unfold dMeasure
    have hrun : ({ s.consume c false rest with phase := .stopPut 0, numActive := s.numActive - 1 } : DSt P C).running = s.running := rfl
    rw [hrun, hp, hd]
    simp only [dPhWeight, DSt.consume, List.length_cons]; omega
  | stopPut k hp hk =>
    unfold dMeasure
    have hrun : ({ s with phase := .stopPut (k + 1), taskQ := s.taskQ ++ [none] } : DSt P C).running = s.running := rfl
    rw [hrun, hp]
    simp only [dPhWeight, inCases_append_none, inStops_append]
    have : inStops [(none : Option C)] = 1 := by simp [inStops]
    omega
  | stopEnd k hp hk =>
    unfold dMeasure
    have hrun : ({ s with phase := .drain } : DSt P C).running = s.running := rfl
    rw [hrun, hp]
    simp only [dPhWeight]; omega
  | drainGet c f rest hp hn hd =>
    unfold dMeasure
    have hrun : ({ s.consume c f rest with numActive := s.numActive - 1 } : DSt P C).running = s.running := rfl
    rw [hrun, hd]
    simp only [DSt.consume, List.length_cons]; omega
  | drainEnd hp hn =>
    unfold dMeasure
    have hrun : ({ s with phase := .join } : DSt P C).running = s.running := rfl
    rw [hrun, hp]
    simp only [dPhWeight]; omega
  | joinEnd hp hall =>
    unfold dMeasure
    have hrun : ({ s with phase := .done } : DSt P C).running = s.running := rfl
    rw [hrun, hp]
    simp only [dPhWeight]; omega
  | take w c rest hw ht hq =>
    obtain ⟨r, g, a1, b1, a2, b2⟩ := running_update s w (.busy c)
      { s with worker := Function.update s.worker w (.busy c), taskQ := rest, evals := s.evals ++ [c] } rfl
    rw [hw] at a1
    unfold dMeasure
    rw [b1, a1, hq, inCases_cons_some]
    have : inStops (some c :: rest) = inStops rest := by simp [inStops]
    simp only [WSt.cases, Multiset.coe_nil, Multiset.coe_singleton, zero_add, Multiset.card_add, Multiset.card_singleton, List.length_cons]
    omega
  | swallow w c rest hw ht hq =>
    unfold dMeasure
    have hrun : ({ s with taskQ := rest } : DSt P C).running = s.running := rfl
    rw [hrun, hq, inCases_cons_some]
    have : inStops (some c :: rest) = inStops rest := by simp [inStops]
    simp only [List.length_cons]
    omega
  | takeStop w rest hw hq =>
    obtain ⟨r, g, a1, b1, a2, b2⟩ := running_update s w .stopped
      { s with worker := Function.update s.worker w .stopped, taskQ := rest } rfl
    rw [hw] at a1
    unfold dMeasure
    rw [b1, a1, hq, inCases_cons_none]
    have : inStops (none :: rest) = inStops rest + 1 := by simp [inStops]
    simp only [WSt.cases, Multiset.coe_nil, zero_add]
    omega
  | reply w c hw =>
    obtain ⟨r, g, a1, b1, a2, b2⟩ := running_update s w .idle
      { s with worker := Function.update s.worker w .idle, doneQ := s.doneQ ++ [(c, fatal c)], term := Function.update s.term w (fatal c && !lb) } rfl
    rw [hw] at a1
    unfold dMeasure
    rw [b1, a1]
    simp only [WSt.cases, Multiset.coe_nil, Multiset.coe_singleton, zero_add, Multiset.card_add, Multiset.card_singleton, List.length_append, List.length_cons, List.length_nil]
    omega

/-- C41, if the load balance option is set or no case fails fatally. For every order of events the study never gets stuck, and when it is over: no case was run twice; exactly
the cases that were run and did not fail fatally are recorded, each once; if no case fails fatally, all cases were run. -/
theorem C41_records_once_partial (lb : Bool) (fatal : C → Bool) (cases : List C) (hP : 0 < P) (hsafe : lb = true ∨ ∀ c ∈ cases, fatal c = false)
    (s : DSt P C) (hr : DReach P lb fatal cases s) :
    (s.Finished ∨ ∃ s', DStep lb fatal s s') ∧
    (s.Finished → (∃ notRun, (s.evals ++ notRun).Perm cases) ∧ s.records.Perm (s.evals.filter fun c => !fatal c) ∧
      ((∀ c ∈ cases, fatal c = false) → s.records.Perm cases)) := by
  obtain ⟨h, hdone⟩ := dinv_reach lb fatal cases hP hsafe s hr
  refine ⟨dprogress lb fatal cases hP s h hdone, ?_⟩
  rintro ⟨hp, hw⟩
  obtain ⟨h1, h2, h3, h4, h5, h6, h7, h8, h9, h10⟩ := h
  rw [hp] at h10
  have hn : s.numActive = 0 := h10.1
  have hc : inCases s.taskQ = [] := List.length_eq_zero_iff.1 (by omega)
  have hrun : s.running = 0 := Multiset.card_eq_zero.1 (by omega)
  have hd : s.doneQ = [] := List.length_eq_zero_iff.1 (by omega)
  rw [hc, hrun, hd] at h1
  rw [hc] at h2
  have e1 : (s.consumed ++ s.remaining).Perm cases := by
    have : ((s.consumed ++ s.remaining : List C) : Multiset C) = ↑cases := by rw [← h1, ← Multiset.coe_add]; simp
    exact Multiset.coe_eq_coe.1 this
  have e2 : (s.evals ++ s.remaining).Perm cases := by
    have : ((s.evals ++ s.remaining : List C) : Multiset C) = ↑cases := by rw [← h2, ← Multiset.coe_add]; simp
    exact Multiset.coe_eq_coe.1 this
  have e3 : s.consumed.Perm s.evals := (List.perm_append_right_iff _).1 (e1.trans e2.symm)
  refine ⟨⟨s.remaining, e2⟩, ?_, ?_⟩
  · rw [h3]; exact e3.filter _
  · intro hnf
    have hrem : s.remaining = [] := by
      rcases h10.2 with h | ⟨c, hc, hf⟩
      · exact h
      · have := hnf c (e1.mem_iff.1 (List.mem_append_left _ hc))
        rw [hf] at this; cases this
    rw [hrem, List.append_nil] at e1
    have : s.records = s.consumed := by
      rw [h3, List.filter_eq_self]
      intro c hc
      rw [hnf c (e1.mem_iff.1 hc)]; rfl
    rw [this]; exact e1

/-- C41: there is no infinite sequence of steps, whatever fails. -/
theorem C41_no_infinite_run (lb : Bool) (fatal : C → Bool) (cases : List C) : Acc (fun s' s => DStep lb fatal s s') (DSt.init P cases) := by
  have hwf : WellFounded (fun s' s : DSt P C => dMeasure s' < dMeasure s) := (measure dMeasure).wf
  exact Subrelation.accessible (fun {a b} (h : DStep lb fatal b a) => dmeasure_step lb fatal b a h) (hwf.apply _)

/-- C41 is false without load balancing (the default): two worker processes, two cases, the first one fails fatally. The first worker runs the first case, then
takes the second case from the queue as well and drops it because of its fatal error; the main process waits for ever for the response to the second case. -/
theorem C41_deadlock_refuted : ∃ s : DSt 2 Nat, DReach 2 false (fun c => c == 0) [0, 1] s ∧ ¬ s.Finished ∧ ∀ s', ¬ DStep false (fun c => c == 0) s s' := by
  have u0 : ∀ {α : Type} (a b v : α), Function.update (fun x : Fin 2 => if x = 0 then a else b) 0 v = fun x : Fin 2 => if x = 0 then v else b := by
    intro α a b v; funext x
    by_cases hx : x = 0
    · subst hx; simp
    · simp [Function.update_of_ne hx, hx]
  have u1 : ∀ {α : Type} (a b v : α), Function.update (fun x : Fin 2 => if x = 0 then a else b) 1 v = fun x : Fin 2 => if x = 0 then a else v := by
    intro α a b v; funext x
    by_cases hx : x = 1
    · subst hx; simp
    · have : x = 0 := by omega
      subst this; simp
  let idle : WSt Nat := .idle
  let mk : DPhase → List Nat → Nat → List (Option Nat) → List (Nat × Bool) → WSt Nat → WSt Nat → Bool → List Nat → List Nat → DSt 2 Nat :=
    fun ph rem n tq dq w0 w1 t0 cons ev => ⟨ph, rem, n, tq, dq, fun x => if x = 0 then w0 else w1, fun x => if x = 0 then t0 else false, [], cons, ev⟩
  have hinit : DSt.init 2 [0, 1] = mk (.seed 0) [0, 1] 0 [] [] .idle .idle false [] [] := by
    simp [mk, DSt.init]
  refine ⟨mk .drain [] 1 [] [] .stopped .stopped true [0] [0], ?_, ?_, ?_⟩
  · unfold DReach
    rw [hinit]
    refine .head (b := mk (.seed 1) [1] 1 [some 0] [] .idle .idle false [] []) (.seedPut _ 0 0 [1] rfl (by omega) rfl) ?_
    refine .head (b := mk (.seed 2) [] 2 [some 0, some 1] [] .idle .idle false [] []) (.seedPut _ 1 1 [] rfl (by omega) rfl) ?_
    refine .head (b := mk .loop [] 2 [some 0, some 1] [] .idle .idle false [] []) (.seedDone _ 2 rfl (by omega)) ?_
    refine .head (b := mk .loop [] 2 [some 1] [] (.busy 0) .idle false [] [0]) ?_ ?_
    · have := DStep.take (lb := false) (fatal := fun c => c == 0) (mk .loop [] 2 [some 0, some 1] [] .idle .idle false [] []) 0 0 [some 1] rfl rfl rfl
      simp only [mk, u0] at this
      exact this
    refine .head (b := mk .loop [] 2 [some 1] [(0, true)] .idle .idle true [] [0]) ?_ ?_
    · have := DStep.reply (lb := false) (fatal := fun c => c == 0) (mk .loop [] 2 [some 1] [] (.busy 0) .idle false [] [0]) 0 0 rfl
      simp only [mk, u0] at this
      exact this
    refine .head (b := mk .loop [] 2 [] [(0, true)] .idle .idle true [] [0]) (.swallow _ 0 1 [] rfl rfl rfl) ?_
    refine .head (b := mk (.stopPut 0) [] 1 [] [] .idle .idle true [0] [0]) (.loopFatal _ 0 [] rfl (by decide) rfl) ?_
    refine .head (b := mk (.stopPut 1) [] 1 [none] [] .idle .idle true [0] [0]) (.stopPut _ 0 rfl (by omega)) ?_
    refine .head (b := mk (.stopPut 2) [] 1 [none, none] [] .idle .idle true [0] [0]) (.stopPut _ 1 rfl (by omega)) ?_
    refine .head (b := mk .drain [] 1 [none, none] [] .idle .idle true [0] [0]) (.stopEnd _ 2 rfl (by omega)) ?_
    refine .head (b := mk .drain [] 1 [none] [] .stopped .idle true [0] [0]) ?_ ?_
    · have := DStep.takeStop (lb := false) (fatal := fun c => c == 0) (mk .drain [] 1 [none, none] [] .idle .idle true [0] [0]) 0 [none] rfl rfl
      simp only [mk, u0] at this
      exact this
    refine .single ?_
    have := DStep.takeStop (lb := false) (fatal := fun c => c == 0) (mk .drain [] 1 [none] [] .stopped .idle true [0] [0]) 1 [] rfl rfl
    simp only [mk, u1] at this
    exact this
  · rintro ⟨h, _⟩; cases h
  · intro s' hs
    have hidle : ∀ w, (mk .drain [] 1 [] [] .stopped .stopped true [0] [0]).worker w = .stopped := by
      intro w; simp [mk]
    cases hs with
    | seedPut k c rest hp => cases hp
    | seedEmpty k hp => cases hp
    | seedDone k hp => cases hp
    | loopEnd hp => cases hp
    | loopFatal c rest hp => cases hp
    | loopNext c rest c' rest' hp => cases hp
    | loopLast c rest hp => cases hp
    | stopPut k hp => cases hp
    | stopEnd k hp => cases hp
    | drainGet c f rest hp hn hd => cases hd
    | drainEnd hp hn => cases hn
    | joinEnd hp => cases hp
    | take w c rest hw => rw [hidle w] at hw; cases hw
    | swallow w c rest hw => rw [hidle w] at hw; cases hw
    | takeStop w rest hw => rw [hidle w] at hw; cases hw
    | reply w c hw => rw [hidle w] at hw; cases hw

/-- The hypotheses are met: three worker processes, four cases, one of which fails fatally, with load balancing. -/
example : (DSt.init 3 [0, 1, 2, 3]).Finished ∨ ∃ s', DStep true (fun c => c == 2) (DSt.init 3 [0, 1, 2, 3]) s' :=
  (C41_records_once_partial true _ [0, 1, 2, 3] (by omega) (Or.inl rfl) _ .refl).1

end OpenMDAO
