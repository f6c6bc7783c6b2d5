import Verif.Model.Concurrent
import Mathlib.Algebra.BigOperators.Group.Finset.Basic
import Mathlib.Data.Fintype.BigOperators
import Mathlib.Algebra.BigOperators.Group.Multiset.Basic
import Mathlib.Data.Multiset.AddSub
import Mathlib.Data.Multiset.MapFold
import Mathlib.Algebra.Order.BigOperators.Group.Finset
import Mathlib.Tactic.Abel
/-! Invariants of the load balancer. -/
namespace OpenMDAO
set_option linter.unusedSectionVars false

/-- Changing a function at one point changes its sum in one summand. -/
theorem sum_change {ι M : Type} [Fintype ι] [DecidableEq ι] [AddCommMonoid M] (f f' : ι → M) (w : ι) (h : ∀ x, x ≠ w → f' x = f x) :
    ∃ r, (∑ x, f x) = f w + r ∧ (∑ x, f' x) = f' w + r := by
  refine ⟨∑ x ∈ Finset.univ.erase w, f x, (Finset.add_sum_erase _ _ (Finset.mem_univ w)).symm, ?_⟩
  rw [← Finset.add_sum_erase _ _ (Finset.mem_univ w)]
  congr 1
  exact Finset.sum_congr rfl fun x hx => h x (Finset.ne_of_mem_erase hx)

variable {W : Nat} {C R : Type}

/-- Cases in an inbox. -/
def inCases (l : List (Option C)) : List C := l.filterMap id

/-- Stop messages in an inbox. -/
def inStops (l : List (Option C)) : Nat := l.countP (·.isNone)

/-- Case that a worker evaluates. -/
def WSt.cases : WSt C → List C
  | .busy c => [c]
  | _ => []

/-- Cases at worker `w`. -/
def CSt.load (s : CSt W C R) (w : Fin W) : Multiset C := ↑(inCases (s.inbox w)) + ↑(s.worker w).cases

/-- Conservation of cases and results. -/
structure CInv (eval : C → R) (cases : List C) (s : CSt W C R) : Prop where
  results : (s.results : Multiset R) + ↑(s.outbox.map Prod.snd) + (∑ w, (s.load w).map eval) + ↑(s.remaining.map eval) = ↑(cases.map eval)
  evals : (s.evals : Multiset C) + (∑ w, (↑(inCases (s.inbox w)) : Multiset C)) + ↑s.remaining = ↑cases
  sent : s.sent = s.received + s.outbox.length + ∑ w, (s.load w).card

theorem inCases_append_some (l : List (Option C)) (c : C) : inCases (l ++ [some c]) = inCases l ++ [c] := by simp [inCases]
theorem inCases_append_none (l : List (Option C)) : inCases (l ++ [none]) = inCases l := by simp [inCases]
theorem inCases_cons_some (l : List (Option C)) (c : C) : inCases (some c :: l) = c :: inCases l := by simp [inCases]
theorem inCases_cons_none (l : List (Option C)) : inCases (none :: l) = inCases l := by simp [inCases]

theorem load_congr (s s' : CSt W C R) (x : Fin W) (h1 : s'.inbox x = s.inbox x) (h2 : s'.worker x = s.worker x) : s'.load x = s.load x := by
  unfold CSt.load; rw [h1, h2]

theorem load_send_self (s : CSt W C R) (w : Fin W) (c : C) : (s.send w (some c)).load w = s.load w + {c} := by
  unfold CSt.load CSt.send
  simp only [Function.update_self, inCases_append_some]
  rw [← Multiset.coe_add, Multiset.coe_singleton]; abel

theorem cinv_init (eval : C → R) (cases : List C) : CInv eval cases (CSt.init W R cases) := by
  constructor <;> simp [CSt.init, CSt.load, inCases, WSt.cases]

theorem coe_cons_add {α : Type} (a : α) (l : List α) : ((a :: l : List α) : Multiset α) = {a} + ↑l := by
  rw [Multiset.singleton_add]; rfl
theorem coe_append_one {α : Type} (l : List α) (a : α) : ((l ++ [a] : List α) : Multiset α) = ↑l + {a} := by
  rw [← Multiset.coe_add]; rfl
theorem coe_middle {α : Type} (a : α) (l m : List α) : ((l ++ a :: m : List α) : Multiset α) = ↑(l ++ m) + {a} := by
  rw [← Multiset.coe_add, ← Multiset.coe_add, coe_cons_add]; abel

theorem sums_change (eval : C → R) (s s' : CSt W C R) (w : Fin W) (h1 : ∀ x, x ≠ w → s'.inbox x = s.inbox x)
    (h2 : ∀ x, x ≠ w → s'.worker x = s.worker x) :
    ∃ r1 r2 r3, (∑ x, (s.load x).map eval) = (s.load w).map eval + r1 ∧ (∑ x, (s'.load x).map eval) = (s'.load w).map eval + r1 ∧
      (∑ x, (↑(inCases (s.inbox x)) : Multiset C)) = ↑(inCases (s.inbox w)) + r2 ∧
      (∑ x, (↑(inCases (s'.inbox x)) : Multiset C)) = ↑(inCases (s'.inbox w)) + r2 ∧
      (∑ x, (s.load x).card) = (s.load w).card + r3 ∧ (∑ x, (s'.load x).card) = (s'.load w).card + r3 := by
  obtain ⟨r1, a1, b1⟩ := sum_change (fun x => (s.load x).map eval) (fun x => (s'.load x).map eval) w
    (fun x hx => by rw [load_congr s s' x (h1 x hx) (h2 x hx)])
  obtain ⟨r2, a2, b2⟩ := sum_change (fun x => (↑(inCases (s.inbox x)) : Multiset C)) (fun x => (↑(inCases (s'.inbox x)) : Multiset C)) w
    (fun x hx => by rw [h1 x hx])
  obtain ⟨r3, a3, b3⟩ := sum_change (fun x => (s.load x).card) (fun x => (s'.load x).card) w
    (fun x hx => by rw [load_congr s s' x (h1 x hx) (h2 x hx)])
  exact ⟨r1, r2, r3, a1, b1, a2, b2, a3, b3⟩

/-- Putting a case of `remaining` into the inbox of `w` keeps the balance. -/
theorem cinv_give (eval : C → R) (cases : List C) (s s' : CSt W C R) (h : CInv eval cases s) (w : Fin W) (c : C) (rest : List C)
    (hr : s.remaining = c :: rest) (e1 : s'.inbox = Function.update s.inbox w (s.inbox w ++ [some c])) (e2 : s'.worker = s.worker)
    (e3 : s'.remaining = rest) (e4 : s'.results = s.results) (e5 : s'.outbox = s.outbox) (e6 : s'.evals = s.evals)
    (e7 : s'.sent = s.sent + 1) (e8 : s'.received = s.received) : CInv eval cases s' := by
  obtain ⟨r1, r2, r3, a1, b1, a2, b2, a3, b3⟩ := sums_change eval s s' w (fun x hx => by rw [e1, Function.update_of_ne hx]) (fun x _ => by rw [e2])
  have hin : inCases (s'.inbox w) = inCases (s.inbox w) ++ [c] := by rw [e1, Function.update_self, inCases_append_some]
  have hl : s'.load w = s.load w + {c} := by
    unfold CSt.load; rw [hin, e2, coe_append_one]; abel
  constructor
  · have := h.results
    rw [a1, hr, List.map_cons, coe_cons_add] at this
    rw [e3, e4, e5, b1, hl, Multiset.map_add, Multiset.map_singleton, ← this]; abel
  · have := h.evals
    rw [a2, hr, coe_cons_add] at this
    rw [e3, e6, b2, hin, coe_append_one, ← this]; abel
  · have := h.sent
    rw [a3] at this
    rw [e7, e8, e5, b3, hl, Multiset.card_add, Multiset.card_singleton]; omega

theorem cinv_recv (eval : C → R) (cases : List C) (s : CSt W C R) (h : CInv eval cases s) (pre post : List (Fin W × R)) (w : Fin W) (r : R)
    (ho : s.outbox = pre ++ (w, r) :: post) : CInv eval cases (s.recv pre post r) := by
  constructor
  · have := h.results
    rw [ho] at this
    simp only [List.map_append, List.map_cons, coe_middle] at this
    show ((s.results ++ [r] : List R) : Multiset R) + ↑((pre ++ post).map Prod.snd) + (∑ x, (s.load x).map eval) + ↑(s.remaining.map eval) = _
    rw [coe_append_one, List.map_append, ← this]; abel
  · exact h.evals
  · have := h.sent
    rw [ho] at this
    show s.sent = s.received + 1 + (pre ++ post).length + ∑ x, (s.load x).card
    simp only [List.length_append, List.length_cons] at this ⊢
    omega

theorem cinv_congr (eval : C → R) (cases : List C) (s s' : CSt W C R) (h : CInv eval cases s) (e1 : s'.inbox = s.inbox) (e2 : s'.worker = s.worker)
    (e3 : s'.remaining = s.remaining) (e4 : s'.results = s.results) (e5 : s'.outbox = s.outbox) (e6 : s'.evals = s.evals)
    (e7 : s'.sent = s.sent) (e8 : s'.received = s.received) : CInv eval cases s' := by
  have hl : ∀ x, s'.load x = s.load x := fun x => load_congr s s' x (by rw [e1]) (by rw [e2])
  constructor
  · simp only [hl, e3, e4, e5]; exact h.results
  · simp only [e1, e3, e6]; exact h.evals
  · simp only [hl, e5, e7, e8]; exact h.sent

theorem cinv_stop (eval : C → R) (cases : List C) (s : CSt W C R) (h : CInv eval cases s) (w : Fin W) : CInv eval cases (s.send w none) := by
  have hin : ∀ x, inCases ((s.send w none).inbox x) = inCases (s.inbox x) := by
    intro x
    unfold CSt.send
    by_cases hx : x = w
    · subst hx; simp only [Function.update_self, inCases_append_none]
    · simp only [Function.update_of_ne hx]
  have hl : ∀ x, (s.send w none).load x = s.load x := by
    intro x; unfold CSt.load; rw [hin]; rfl
  constructor
  · simp only [hl]; exact h.results
  · simp only [hin]; exact h.evals
  · simp only [hl]; exact h.sent

theorem cinv_step (eval : C → R) (cases : List C) (s s' : CSt W C R) (h : CInv eval cases s) (hs : CStep eval s s') : CInv eval cases s' := by
  cases hs with
  | seedSend w c rest hp hr => exact cinv_give eval cases s _ h w c rest hr rfl rfl rfl rfl rfl rfl rfl rfl
  | seedEnd i hp hor => exact cinv_congr eval cases s _ h rfl rfl rfl rfl rfl rfl rfl rfl
  | recvLast pre post w r hp ho he => exact cinv_congr eval cases _ _ (cinv_recv eval cases s h pre post w r ho) rfl rfl rfl rfl rfl rfl rfl rfl
  | recvSend pre post w r c rest hp ho he hr =>
    exact cinv_give eval cases _ _ (cinv_recv eval cases s h pre post w r ho) w c rest hr rfl rfl rfl rfl rfl rfl rfl rfl
  | recvNone pre post w r hp ho he hr => exact cinv_recv eval cases s h pre post w r ho
  | stopSend w hp => exact cinv_congr eval cases _ _ (cinv_stop eval cases s h w) rfl rfl rfl rfl rfl rfl rfl rfl
  | finish k hp hk => exact cinv_congr eval cases s _ h rfl rfl rfl rfl rfl rfl rfl rfl
  | take w c rest hw hi =>
    obtain ⟨r1, r2, r3, a1, b1, a2, b2, a3, b3⟩ := sums_change eval s
      { s with worker := Function.update s.worker w (.busy c), inbox := Function.update s.inbox w rest, evals := s.evals ++ [c] } w
      (fun x hx => by simp only [Function.update_of_ne hx]) (fun x hx => by simp only [Function.update_of_ne hx])
    have hl : ({ s with worker := Function.update s.worker w (.busy c), inbox := Function.update s.inbox w rest, evals := s.evals ++ [c] } : CSt W C R).load w
        = s.load w := by
      unfold CSt.load
      simp only [Function.update_self, hi, hw, inCases_cons_some, WSt.cases, coe_cons_add, Multiset.coe_nil]
      abel
    constructor
    · have := h.results
      rw [a1] at this
      rw [b1, hl]; exact this
    · have := h.evals
      rw [a2, hi, inCases_cons_some, coe_cons_add] at this
      rw [b2]
      simp only [Function.update_self, coe_append_one]
      rw [← this]; abel
    · have := h.sent
      rw [a3] at this
      rw [b3, hl]; exact this
  | takeStop w rest hw hi =>
    obtain ⟨r1, r2, r3, a1, b1, a2, b2, a3, b3⟩ := sums_change eval s
      { s with worker := Function.update s.worker w .stopped, inbox := Function.update s.inbox w rest } w
      (fun x hx => by simp only [Function.update_of_ne hx]) (fun x hx => by simp only [Function.update_of_ne hx])
    have hl : ({ s with worker := Function.update s.worker w .stopped, inbox := Function.update s.inbox w rest } : CSt W C R).load w
        = s.load w := by
      unfold CSt.load
      simp only [Function.update_self, hi, hw, inCases_cons_none, WSt.cases]
    constructor
    · have := h.results
      rw [a1] at this
      rw [b1, hl]; exact this
    · have := h.evals
      rw [a2, hi, inCases_cons_none] at this
      rw [b2]
      simp only [Function.update_self]
      exact this
    · have := h.sent
      rw [a3] at this
      rw [b3, hl]; exact this
  | reply w c hw =>
    obtain ⟨r1, r2, r3, a1, b1, a2, b2, a3, b3⟩ := sums_change eval s
      { s with worker := Function.update s.worker w .idle, outbox := s.outbox ++ [(w, eval c)] } w
      (fun x hx => rfl) (fun x hx => by simp only [Function.update_of_ne hx])
    have hl : s.load w = ({ s with worker := Function.update s.worker w .idle, outbox := s.outbox ++ [(w, eval c)] } : CSt W C R).load w + {c} := by
      unfold CSt.load
      simp only [Function.update_self, hw, WSt.cases]
      rw [Multiset.coe_singleton, Multiset.coe_nil]; abel
    constructor
    · have := h.results
      rw [a1, hl, Multiset.map_add, Multiset.map_singleton] at this
      rw [b1]
      simp only [List.map_append, List.map_cons, List.map_nil, coe_append_one]
      rw [← this]; abel
    · exact h.evals
    · have := h.sent
      rw [a3, hl, Multiset.card_add, Multiset.card_singleton] at this
      rw [b3]
      simp only [List.length_append, List.length_cons, List.length_nil]
      omega

end OpenMDAO
