import Verif.Lemmas.Concurrent
/-!
# Property C40: load balanced evaluation over MPI
-/
namespace OpenMDAO
set_option linter.unusedSectionVars false

variable {W : Nat} {C R : Type}

/-- No worker was told to stop. -/
def NoStops (s : CSt W C R) : Prop := ∀ w, s.worker w ≠ .stopped ∧ none ∉ s.inbox w

/-- The first `k` workers were told to stop, nothing else is on its way. -/
def Stopping (k : Nat) (s : CSt W C R) : Prop :=
  ∀ w : Fin W, if w.val < k then (s.inbox w = [none] ∧ s.worker w = .idle) ∨ (s.inbox w = [] ∧ s.worker w = .stopped)
    else s.inbox w = [] ∧ s.worker w = .idle

/-- Control invariant. -/
def PInv (cases : List C) (s : CSt W C R) : Prop :=
  match s.phase with
  | .seed i => i ≤ W ∧ s.sent = i ∧ s.received = 0 ∧ NoStops s ∧ (cases.length ≤ W → s.remaining.length + i ≤ W)
  | .loop => s.received < s.sent ∧ NoStops s ∧ (s.remaining ≠ [] → s.sent = s.received + W ∧ 2 ≤ W)
  | .stop k => k ≤ W ∧ s.received = s.sent ∧ s.remaining = [] ∧ Stopping k s
  | .done => s.received = s.sent ∧ s.remaining = [] ∧ Stopping W s

theorem all_idle (s : CSt W C R) (h : (∑ w, (s.load w).card) = 0) (hn : NoStops s) : ∀ w, s.inbox w = [] ∧ s.worker w = .idle := by
  intro w
  have h0 : (s.load w).card = 0 := (Finset.sum_eq_zero_iff.1 h) w (Finset.mem_univ w)
  unfold CSt.load at h0
  rw [Multiset.card_add, Multiset.coe_card, Multiset.coe_card] at h0
  obtain ⟨hw, hi⟩ := hn w
  constructor
  · cases hb : s.inbox w with
    | nil => rfl
    | cons m l =>
      rw [hb] at hi h0
      cases m with
      | none => exact absurd List.mem_cons_self hi
      | some c => rw [inCases_cons_some, List.length_cons] at h0; omega
  · cases hs : s.worker w with
    | idle => rfl
    | busy c => rw [hs] at h0; simp [WSt.cases] at h0
    | stopped => exact absurd hs hw

theorem noStops_send (s : CSt W C R) (w : Fin W) (c : C) (h : NoStops s) : NoStops (s.send w (some c)) := by
  intro x
  refine ⟨(h x).1, ?_⟩
  unfold CSt.send
  by_cases hx : x = w
  · subst hx
    simp only [Function.update_self, List.mem_append, List.mem_singleton, not_or]
    exact ⟨(h x).2, by simp⟩
  · simp only [Function.update_of_ne hx]; exact (h x).2

theorem pinv_step (eval : C → R) (cases : List C) (hW : 2 ≤ W ∨ cases.length ≤ W) (s s' : CSt W C R) (hc : CInv eval cases s)
    (hc' : CInv eval cases s') (h : PInv cases s) (hs : CStep eval s s') : PInv cases s' := by
  cases hs with
  | seedSend w c rest hp hr =>
    unfold PInv at h
    rw [hp] at h
    obtain ⟨h1, h2, h3, h4, h5⟩ := h
    refine ⟨w.isLt, ?_, h3, noStops_send s w c h4, ?_⟩
    · show s.sent + 1 = w.val + 1
      rw [h2]
    · intro hl
      have := h5 hl
      rw [hr, List.length_cons] at this
      show rest.length + (w.val + 1) ≤ W
      omega
  | seedEnd i hp hor =>
    unfold PInv at h
    rw [hp] at h
    obtain ⟨h1, h2, h3, h4, h5⟩ := h
    have hrem : s.remaining ≠ [] → i = W ∧ 2 ≤ W := by
      intro hne
      have hi : i = W := by
        rcases hor with h | h
        · omega
        · exact absurd h hne
      refine ⟨hi, ?_⟩
      rcases hW with h | h
      · exact h
      · have := h5 h
        have : 0 < s.remaining.length := List.length_pos_iff.2 hne
        omega
    unfold CSt.seedEnd PInv
    by_cases hz : 0 < s.sent
    · simp only [hz, if_true]
      refine ⟨by omega, h4, ?_⟩
      intro hne
      have := hrem hne
      exact ⟨by omega, this.2⟩
    · simp only [hz, if_false]
      have hsum := hc.sent
      refine ⟨Nat.zero_le _, by omega, ?_, ?_⟩
      · by_contra hne
        have := hrem hne
        omega
      · intro w
        simp only [Nat.not_lt_zero, if_false]
        exact all_idle s (by omega) h4 w
  | recvLast pre post w r hp ho he =>
    unfold PInv at h
    rw [hp] at h
    obtain ⟨h1, h2, h3⟩ := h
    refine ⟨Nat.zero_le _, he, ?_, ?_⟩
    · by_contra hne
      have := h3 hne
      omega
    · have hsum := hc'.sent
      have he' : ({ s.recv pre post r with phase := .stop 0 } : CSt W C R).received = ({ s.recv pre post r with phase := .stop 0 } : CSt W C R).sent := he
      intro x
      simp only [Nat.not_lt_zero, if_false]
      exact all_idle ({ s.recv pre post r with phase := .stop 0 } : CSt W C R) (by omega) h2 x
  | recvSend pre post w r c rest hp ho he hr =>
    unfold PInv at h
    rw [hp] at h
    obtain ⟨h1, h2, h3⟩ := h
    have h3' := h3 (by rw [hr]; simp)
    unfold PInv
    have e : ((s.recv pre post r).sendNext w c rest).phase = .loop := hp
    rw [e]
    refine ⟨?_, noStops_send (s.recv pre post r) w c h2, ?_⟩
    · show s.received + 1 < s.sent + 1
      omega
    · intro _
      refine ⟨?_, h3'.2⟩
      show s.sent + 1 = s.received + 1 + W
      omega
  | recvNone pre post w r hp ho he hr =>
    unfold PInv at h
    rw [hp] at h
    obtain ⟨h1, h2, h3⟩ := h
    unfold PInv
    have e : (s.recv pre post r).phase = .loop := hp
    rw [e]
    refine ⟨?_, h2, ?_⟩
    · show s.received + 1 < s.sent
      omega
    · intro hne
      exact absurd hr hne
  | stopSend w hp =>
    unfold PInv at h
    rw [hp] at h
    obtain ⟨h1, h2, h3, h4⟩ := h
    refine ⟨w.isLt, h2, h3, ?_⟩
    intro x
    have hx := h4 x
    show if x.val < w.val + 1 then (Function.update s.inbox w (s.inbox w ++ [none]) x = [none] ∧ s.worker x = .idle) ∨
      (Function.update s.inbox w (s.inbox w ++ [none]) x = [] ∧ s.worker x = .stopped)
      else Function.update s.inbox w (s.inbox w ++ [none]) x = [] ∧ s.worker x = .idle
    by_cases hxw : x = w
    · subst hxw
      rw [if_neg (lt_irrefl _)] at hx
      rw [if_pos (Nat.lt_succ_self _), Function.update_self, hx.1]
      exact Or.inl ⟨rfl, hx.2⟩
    · rw [Function.update_of_ne hxw]
      have hv : x.val ≠ w.val := fun e => hxw (Fin.ext e)
      by_cases hlt : x.val < w.val
      · rw [if_pos hlt] at hx
        rw [if_pos (by omega)]; exact hx
      · rw [if_neg hlt] at hx
        rw [if_neg (by omega)]; exact hx
  | finish k hp hk =>
    unfold PInv at h
    rw [hp] at h
    obtain ⟨h1, h2, h3, h4⟩ := h
    have : k = W := by omega
    subst this
    exact ⟨h2, h3, h4⟩
  | take w c rest hw hi =>
    unfold PInv at h ⊢
    have hno : NoStops s → NoStops ({ s with worker := Function.update s.worker w (.busy c), inbox := Function.update s.inbox w rest, evals := s.evals ++ [c] } : CSt W C R) := by
      intro hn x
      by_cases hx : x = w
      · subst hx
        simp only [Function.update_self]
        refine ⟨(by intro h; cases h), ?_⟩
        have := (hn x).2
        rw [hi] at this
        exact fun hm => this (List.mem_cons_of_mem _ hm)
      · simp only [Function.update_of_ne hx]; exact hn x
    have hst : ∀ k, ¬ Stopping k s := by
      intro k hk
      have := hk w
      split at this
      · rcases this with h | h
        · rw [hi] at h; simp at h
        · rw [hi] at h; simp at h
      · rw [hi] at this; simp at this
    dsimp only
    cases hp : s.phase with
    | seed i =>
      rw [hp] at h
      obtain ⟨h1, h2, h3, h4, h5⟩ := h
      exact ⟨h1, h2, h3, hno h4, h5⟩
    | loop =>
      rw [hp] at h
      exact ⟨h.1, hno h.2.1, h.2.2⟩
    | stop k => rw [hp] at h; exact absurd h.2.2.2 (hst k)
    | done => rw [hp] at h; exact absurd h.2.2 (hst W)
  | takeStop w rest hw hi =>
    unfold PInv at h ⊢
    have hno : ¬ NoStops s := by
      intro hn
      have := (hn w).2
      rw [hi] at this
      exact this List.mem_cons_self
    have hst : ∀ k, Stopping k s → Stopping k ({ s with worker := Function.update s.worker w .stopped, inbox := Function.update s.inbox w rest } : CSt W C R) := by
      intro k hk x
      have hx := hk x
      by_cases hxw : x = w
      · subst hxw
        simp only [Function.update_self]
        split at hx
        · rename_i hlt
          rw [if_pos hlt]
          rcases hx with h | h
          · rw [hi] at h
            exact Or.inr ⟨(List.cons.inj h.1).2, trivial⟩
          · rw [hi] at h; simp at h
        · rw [hi] at hx; simp at hx
      · simp only [Function.update_of_ne hxw]; exact hx
    dsimp only
    cases hp : s.phase with
    | seed i => rw [hp] at h; exact absurd h.2.2.2.1 hno
    | loop => rw [hp] at h; exact absurd h.2.1 hno
    | stop k => rw [hp] at h; exact ⟨h.1, h.2.1, h.2.2.1, hst k h.2.2.2⟩
    | done => rw [hp] at h; exact ⟨h.1, h.2.1, hst W h.2.2⟩
  | reply w c hw =>
    unfold PInv at h ⊢
    have hno : NoStops s → NoStops ({ s with worker := Function.update s.worker w .idle, outbox := s.outbox ++ [(w, eval c)] } : CSt W C R) := by
      intro hn x
      by_cases hx : x = w
      · subst hx
        simp only [Function.update_self]
        exact ⟨(by intro h; cases h), (hn x).2⟩
      · simp only [Function.update_of_ne hx]; exact hn x
    have hst : ∀ k, ¬ Stopping k s := by
      intro k hk
      have := hk w
      split at this
      · rcases this with h | h
        · rw [hw] at h; exact absurd h.2 (by simp)
        · rw [hw] at h; exact absurd h.2 (by simp)
      · rw [hw] at this; exact absurd this.2 (by simp)
    dsimp only
    cases hp : s.phase with
    | seed i =>
      rw [hp] at h
      obtain ⟨h1, h2, h3, h4, h5⟩ := h
      exact ⟨h1, h2, h3, hno h4, h5⟩
    | loop =>
      rw [hp] at h
      exact ⟨h.1, hno h.2.1, h.2.2⟩
    | stop k => rw [hp] at h; exact absurd h.2.2.2 (hst k)
    | done => rw [hp] at h; exact absurd h.2.2 (hst W)

/-- The run is over: the master returned, every worker left its loop and no message is left. -/
def CSt.Finished (s : CSt W C R) : Prop :=
  s.phase = .done ∧ (∀ w, s.worker w = .stopped ∧ s.inbox w = []) ∧ s.outbox = []

theorem inv_reach (eval : C → R) (cases : List C) (hW : 2 ≤ W ∨ cases.length ≤ W) (s : CSt W C R) (hr : CReach W eval cases s) :
    CInv eval cases s ∧ PInv cases s := by
  induction hr with
  | refl =>
    refine ⟨cinv_init eval cases, Nat.zero_le _, rfl, rfl, ?_, ?_⟩
    · intro w; exact ⟨(by intro h; cases h), by simp [CSt.init]⟩
    · intro h; exact h
  | tail _ hstep ih => 
    have := cinv_step eval cases _ _ ih.1 hstep
    exact ⟨this, pinv_step eval cases hW _ _ ih.1 this ih.2 hstep⟩

/-- A state that is not final can always move: no deadlock. -/
theorem progress (eval : C → R) (cases : List C) (s : CSt W C R) (hc : CInv eval cases s) (hp : PInv cases s) :
    s.Finished ∨ ∃ s', CStep eval s s' := by
  by_cases hbusy : ∃ w c, s.worker w = .busy c
  · obtain ⟨w, c, h⟩ := hbusy
    exact Or.inr ⟨_, .reply s w c h⟩
  by_cases hidle : ∃ w m rest, s.worker w = .idle ∧ s.inbox w = m :: rest
  · obtain ⟨w, m, rest, h1, h2⟩ := hidle
    cases m with
    | some c => exact Or.inr ⟨_, .take s w c rest h1 h2⟩
    | none => exact Or.inr ⟨_, .takeStop s w rest h1 h2⟩
  unfold PInv at hp
  cases hph : s.phase with
  | seed i =>
    rw [hph] at hp
    by_cases hi : i < W
    · cases hr : s.remaining with
      | nil => exact Or.inr ⟨_, .seedEnd s i hph (Or.inr hr)⟩
      | cons c rest => exact Or.inr ⟨_, .seedSend s ⟨i, hi⟩ c rest hph hr⟩
    · exact Or.inr ⟨_, .seedEnd s i hph (Or.inl hi)⟩
  | loop =>
    rw [hph] at hp
    obtain ⟨h1, h2, _⟩ := hp
    have hz : (∑ w, (s.load w).card) = 0 := by
      apply Finset.sum_eq_zero
      intro w _
      unfold CSt.load
      rw [Multiset.card_add, Multiset.coe_card, Multiset.coe_card]
      have hw : s.worker w = .idle := by
        cases hs : s.worker w with
        | idle => rfl
        | busy c => exact absurd ⟨w, c, hs⟩ hbusy
        | stopped => exact absurd hs (h2 w).1
      have hi : s.inbox w = [] := by
        cases hi : s.inbox w with
        | nil => rfl
        | cons m l => exact absurd ⟨w, m, l, hw, hi⟩ hidle
      rw [hw, hi]; rfl
    have hs := hc.sent
    cases ho : s.outbox with
    | nil => rw [ho, hz] at hs; simp at hs; omega
    | cons m post =>
      obtain ⟨w, r⟩ := m
      by_cases he : s.received + 1 = s.sent
      · exact Or.inr ⟨_, .recvLast s [] post w r hph ho he⟩
      · cases hr : s.remaining with
        | nil => exact Or.inr ⟨_, .recvNone s [] post w r hph ho he hr⟩
        | cons c rest => exact Or.inr ⟨_, .recvSend s [] post w r c rest hph ho he hr⟩
  | stop k =>
    by_cases hk : k < W
    · exact Or.inr ⟨_, .stopSend s ⟨k, hk⟩ hph⟩
    · exact Or.inr ⟨_, .finish s k hph hk⟩
  | done =>
    rw [hph] at hp
    obtain ⟨h1, h2, h3⟩ := hp
    left
    refine ⟨hph, ?_, ?_⟩
    · intro w
      have := h3 w
      rw [if_pos w.isLt] at this
      rcases this with h | h
      · exact absurd ⟨w, none, [], h.2, h.1⟩ hidle
      · exact ⟨h.2, h.1⟩
    · have hs := hc.sent
      have : s.outbox.length = 0 := by omega
      exact List.length_eq_zero_iff.1 this

/-- Weight of a worker in the termination measure. -/
def wWeight (l : List (Option C)) (w : WSt C) : Nat := 3 * (inCases l).length + inStops l + 2 * w.cases.length

/-- Weight of the master's phase. -/
def phWeight (W : Nat) : MPhase → Nat
  | .seed i => (W - i) + 2 * W + 3
  | .loop => 2 * W + 2
  | .stop k => 2 * (W - k) + 1
  | .done => 0

/-- Termination measure. -/
def cMeasure (s : CSt W C R) : Nat :=
  phWeight W s.phase + 4 * s.remaining.length + (∑ w, wWeight (s.inbox w) (s.worker w)) + s.outbox.length

theorem wWeight_some (l : List (Option C)) (c : C) (w : WSt C) : wWeight (l ++ [some c]) w = wWeight l w + 3 := by
  simp [wWeight, inCases_append_some, inStops]; omega
theorem wWeight_none (l : List (Option C)) (w : WSt C) : wWeight (l ++ [none]) w = wWeight l w + 1 := by
  simp [wWeight, inCases_append_none, inStops]; omega

theorem weight_update (s s' : CSt W C R) (w : Fin W) (h1 : ∀ x, x ≠ w → s'.inbox x = s.inbox x) (h2 : ∀ x, x ≠ w → s'.worker x = s.worker x) :
    (∑ x, wWeight (s'.inbox x) (s'.worker x)) + wWeight (s.inbox w) (s.worker w) =
      (∑ x, wWeight (s.inbox x) (s.worker x)) + wWeight (s'.inbox w) (s'.worker w) := by
  obtain ⟨r, a, b⟩ := sum_change (fun x => wWeight (s.inbox x) (s.worker x)) (fun x => wWeight (s'.inbox x) (s'.worker x)) w
    (fun x hx => by rw [h1 x hx, h2 x hx])
  rw [a, b]; omega

theorem measure_step (eval : C → R) (s s' : CSt W C R) (hs : CStep eval s s') : cMeasure s' < cMeasure s := by
  cases hs with
  | seedSend w c rest hp hr =>
    have := weight_update s (s.seedSend w c rest) w (fun x hx => by simp only [CSt.seedSend, CSt.send, Function.update_of_ne hx]) (fun x _ => rfl)
    have e : wWeight ((s.seedSend w c rest).inbox w) ((s.seedSend w c rest).worker w) = wWeight (s.inbox w) (s.worker w) + 3 := by
      simp only [CSt.seedSend, CSt.send, Function.update_self, wWeight_some]
    unfold cMeasure
    have h1 : (s.seedSend w c rest).phase = .seed (w.val + 1) := rfl
    have h2 : (s.seedSend w c rest).remaining = rest := rfl
    have h3 : (s.seedSend w c rest).outbox = s.outbox := rfl
    rw [h1, h2, h3, hp, hr]
    simp only [phWeight, List.length_cons]
    have := w.isLt
    omega
  | seedEnd i hp hor =>
    have h2 : (s.seedEnd).remaining = s.remaining := rfl
    have h3 : (s.seedEnd).outbox = s.outbox := rfl
    have h4 : (s.seedEnd).inbox = s.inbox := rfl
    have h5 : (s.seedEnd).worker = s.worker := rfl
    unfold cMeasure
    rw [h2, h3, h4, h5, hp]
    have : phWeight W (s.seedEnd).phase < phWeight W (.seed i) := by
      unfold CSt.seedEnd
      dsimp only
      split <;> simp only [phWeight] <;> omega
    omega
  | recvLast pre post w r hp ho he =>
    unfold cMeasure
    simp only [CSt.recv]
    rw [hp, ho]
    simp only [phWeight, List.length_append, List.length_cons]
    omega
  | recvSend pre post w r c rest hp ho he hr =>
    have := weight_update s ((s.recv pre post r).sendNext w c rest) w
      (fun x hx => by simp only [CSt.recv, CSt.sendNext, CSt.send, Function.update_of_ne hx]) (fun x _ => rfl)
    have e : wWeight (((s.recv pre post r).sendNext w c rest).inbox w) (((s.recv pre post r).sendNext w c rest).worker w)
        = wWeight (s.inbox w) (s.worker w) + 3 := by
      simp only [CSt.recv, CSt.sendNext, CSt.send, Function.update_self, wWeight_some]
    unfold cMeasure
    have h1 : ((s.recv pre post r).sendNext w c rest).phase = s.phase := rfl
    have h2 : ((s.recv pre post r).sendNext w c rest).remaining = rest := rfl
    have h3 : ((s.recv pre post r).sendNext w c rest).outbox = pre ++ post := rfl
    rw [h1, h2, h3, hr, ho]
    simp only [List.length_append, List.length_cons]
    omega
  | recvNone pre post w r hp ho he hr =>
    unfold cMeasure
    simp only [CSt.recv]
    rw [ho]
    simp only [List.length_append, List.length_cons]
    omega
  | stopSend w hp =>
    have := weight_update s (s.stopSend w) w (fun x hx => by simp only [CSt.stopSend, CSt.send, Function.update_of_ne hx]) (fun x _ => rfl)
    have e : wWeight ((s.stopSend w).inbox w) ((s.stopSend w).worker w) = wWeight (s.inbox w) (s.worker w) + 1 := by
      simp only [CSt.stopSend, CSt.send, Function.update_self, wWeight_none]
    unfold cMeasure
    have h1 : (s.stopSend w).remaining = s.remaining := rfl
    have h2 : (s.stopSend w).outbox = s.outbox := rfl
    have h3 : (s.stopSend w).phase = .stop (w.val + 1) := rfl
    rw [h1, h2, h3, hp]
    simp only [phWeight]
    have := w.isLt
    omega
  | finish k hp hk =>
    unfold cMeasure
    simp only [hp, phWeight]
    omega
  | take w c rest hw hi =>
    have := weight_update s { s with worker := Function.update s.worker w (.busy c), inbox := Function.update s.inbox w rest, evals := s.evals ++ [c] } w
      (fun x hx => by simp only [Function.update_of_ne hx]) (fun x hx => by simp only [Function.update_of_ne hx])
    simp only [Function.update_self] at this
    have e1 : wWeight (s.inbox w) (s.worker w) = wWeight rest (.busy c) + 1 := by
      rw [hi, hw]; simp [wWeight, inCases_cons_some, inStops, WSt.cases]; omega
    unfold cMeasure
    dsimp only
    omega
  | takeStop w rest hw hi =>
    have := weight_update s { s with worker := Function.update s.worker w .stopped, inbox := Function.update s.inbox w rest } w
      (fun x hx => by simp only [Function.update_of_ne hx]) (fun x hx => by simp only [Function.update_of_ne hx])
    simp only [Function.update_self] at this
    have e1 : wWeight (s.inbox w) (s.worker w) = wWeight rest (.stopped) + 1 := by
      rw [hi, hw]; simp [wWeight, inCases_cons_none, inStops, WSt.cases]; omega
    unfold cMeasure
    dsimp only
    omega
  | reply w c hw =>
    have := weight_update s { s with worker := Function.update s.worker w .idle, outbox := s.outbox ++ [(w, eval c)] } w
      (fun x hx => rfl) (fun x hx => by simp only [Function.update_of_ne hx])
    simp only [Function.update_self] at this
    have e1 : wWeight (s.inbox w) (s.worker w) = wWeight (s.inbox w) (.idle) + 2 := by
      rw [hw]; simp [wWeight, WSt.cases]
    unfold cMeasure
    dsimp only
    simp only [List.length_append, List.length_cons, List.length_nil]
    omega

/-- C40, with at least two workers, or at least as many workers as cases. For every order of events: the run never gets stuck; when it is over, every case was
evaluated exactly once, and the results are, in some order, one result (value or error) for each case. -/
theorem C40_exactly_once_partial {V E : Type} (func : C → Except E V) (cases : List C) (hW : 2 ≤ W ∨ cases.length ≤ W)
    (s : CSt W C (Option V × Option E)) (hr : CReach W (evalCase func) cases s) :
    (s.Finished ∨ ∃ s', CStep (evalCase func) s s') ∧
    (s.Finished → s.evals.Perm cases ∧ s.results.Perm (cases.map (evalCase func))) := by
  obtain ⟨hc, hp⟩ := inv_reach (evalCase func) cases hW s hr
  refine ⟨progress _ cases s hc hp, ?_⟩
  rintro ⟨f1, f2, f3⟩
  unfold PInv at hp
  rw [f1] at hp
  obtain ⟨_, h2, _⟩ := hp
  have hl : ∀ w, s.load w = 0 := by
    intro w; unfold CSt.load; rw [(f2 w).1, (f2 w).2]; rfl
  constructor
  · have := hc.evals
    simp only [(f2 _).2, h2] at this
    simpa [inCases] using this
  · have := hc.results
    simp only [hl, f3, h2] at this
    simpa using this

/-- C40: for every order of events the run ends (there is no infinite sequence of steps), for any number of workers. -/
theorem C40_terminates (eval : C → R) (cases : List C) : Acc (fun s' s => CStep eval s s') (CSt.init W R cases) := by
  have hwf : WellFounded (fun s' s : CSt W C R => cMeasure s' < cMeasure s) := (measure cMeasure).wf
  have hacc := hwf.apply (CSt.init W R cases)
  exact Subrelation.accessible (fun {a b} (h : CStep eval b a) => measure_step eval b a h) hacc

/-- C40 without a communicator: the results in the order of the cases. -/
theorem C40_serial {V E : Type} (func : C → Except E V) (cases : List C) : concurrentSerial func cases = cases.map (evalCase func) := by
  unfold concurrentSerial
  suffices ∀ acc, cases.foldl (fun results c => results ++ [evalCase func c]) acc = acc ++ cases.map (evalCase func) by simpa using this []
  induction cases with
  | nil => simp
  | cons c cs ih => intro acc; rw [List.foldl_cons, ih]; simp

/-- C40 is false with a single worker: the master leaves its loop after the first result, as `received == sent` is tested before the next case is sent.
Of two cases only the first one is evaluated and the run ends without an error. -/
theorem C40_single_worker_refuted : ∃ s : CSt 1 Nat Nat, CReach 1 (fun c => c * 10) [1, 2] s ∧ s.Finished ∧ s.evals = [1] ∧ s.results = [10] := by
  refine ⟨⟨.done, [2], 1, 1, [10], fun _ => [], fun _ => .stopped, [], [1]⟩, ?_, ⟨rfl, fun _ => ⟨rfl, rfl⟩, rfl⟩, rfl, rfl⟩
  have u : ∀ {α : Type} (f : Fin 1 → α) (v : α), Function.update f 0 v = fun _ => v := by
    intro α f v; funext x; rw [Subsingleton.elim x 0, Function.update_self]
  refine Relation.ReflTransGen.head (b := ⟨.seed 1, [2], 1, 0, [], fun _ => [some 1], fun _ => .idle, [], []⟩) ?_ ?_
  · have := CStep.seedSend (eval := fun c : Nat => c * 10) (CSt.init 1 Nat [1, 2]) 0 1 [2] rfl rfl
    simp only [CSt.seedSend, CSt.send, CSt.init, u] at this
    exact this
  refine Relation.ReflTransGen.head (b := ⟨.loop, [2], 1, 0, [], fun _ => [some 1], fun _ => .idle, [], []⟩) (.seedEnd _ 1 rfl (Or.inl (by omega))) ?_
  refine Relation.ReflTransGen.head (b := ⟨.loop, [2], 1, 0, [], fun _ => [], fun _ => .busy 1, [], [1]⟩) ?_ ?_
  · have := CStep.take (eval := fun c : Nat => c * 10) (⟨.loop, [2], 1, 0, [], fun _ => [some 1], fun _ => .idle, [], []⟩ : CSt 1 Nat Nat) 0 1 [] rfl rfl
    simp only [u] at this
    exact this
  refine Relation.ReflTransGen.head (b := ⟨.loop, [2], 1, 0, [], fun _ => [], fun _ => .idle, [(0, 10)], [1]⟩) ?_ ?_
  · have := CStep.reply (eval := fun c : Nat => c * 10) (⟨.loop, [2], 1, 0, [], fun _ => [], fun _ => .busy 1, [], [1]⟩ : CSt 1 Nat Nat) 0 1 rfl
    simp only [u] at this
    exact this
  refine Relation.ReflTransGen.head (.recvLast _ [] [] 0 10 rfl rfl rfl) ?_
  refine Relation.ReflTransGen.head (b := ⟨.stop 1, [2], 1, 1, [10], fun _ => [none], fun _ => .idle, [], [1]⟩) ?_ ?_
  · have := CStep.stopSend (eval := fun c : Nat => c * 10) (⟨.stop 0, [2], 1, 1, [10], fun _ => [], fun _ => .idle, [], [1]⟩ : CSt 1 Nat Nat) 0 rfl
    simp only [CSt.stopSend, CSt.send, u] at this
    exact this
  refine Relation.ReflTransGen.head (b := ⟨.stop 1, [2], 1, 1, [10], fun _ => [], fun _ => .stopped, [], [1]⟩) ?_ ?_
  · have := CStep.takeStop (eval := fun c : Nat => c * 10) (⟨.stop 1, [2], 1, 1, [10], fun _ => [none], fun _ => .idle, [], [1]⟩ : CSt 1 Nat Nat) 0 [] rfl rfl
    simp only [u] at this
    exact this
  exact Relation.ReflTransGen.single (.finish _ 1 rfl (by omega))

/-- The hypotheses are met: three workers, five cases, the state after the first case was sent to the first worker. -/
example : ((CSt.init 3 (Option Nat × Option String) [1, 2, 3, 4, 5]).seedSend 0 1 [2, 3, 4, 5]).Finished ∨
    ∃ s', CStep (evalCase fun c : Nat => if c = 3 then .error "failed" else .ok (c * c))
      ((CSt.init 3 (Option Nat × Option String) [1, 2, 3, 4, 5]).seedSend 0 1 [2, 3, 4, 5]) s' :=
  (C40_exactly_once_partial _ [1, 2, 3, 4, 5] (Or.inl (by omega)) _ (Relation.ReflTransGen.single (.seedSend _ 0 1 [2, 3, 4, 5] rfl rfl))).1

end OpenMDAO
