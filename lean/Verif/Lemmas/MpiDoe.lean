import Mathlib.Algebra.Order.BigOperators.Group.Finset
import Verif.Model.MpiDoe
import Mathlib.Data.Finset.Card
import Mathlib.Data.List.Nodup
import Mathlib.Data.List.Forall2
import Mathlib.Algebra.BigOperators.Group.Finset.Basic
/-! Lemmas for the load balanced design study over MPI: the invariant of its runs. -/
namespace OpenMDAO
set_option linter.unusedSectionVars false

variable {W G C : Type} [Fintype W] [DecidableEq W] [DecidableEq G] {grp : W → G} {out : C → W → COut}

/-- What a worker process is doing. -/
inductive LStat (C : Type)
  | rest
  | queued (c : C)
  | running (c : C)
  | sentBack (c : C)
  | counted (c : C)
  | stopq
  | stopped

/-- The master waits for a message of the process. -/
def LStat.pend : LStat C → Bool
  | .queued _ | .running _ | .sentBack _ => true
  | _ => false

/-- The case that the process has started but is not yet part of a finished one. -/
def LStat.started : LStat C → List C
  | .running c | .sentBack c | .counted c => [c]
  | _ => []

/-- Messages to the process. -/
def LStat.inbox : LStat C → List (Option C)
  | .queued c => [some c]
  | .stopq => [none]
  | _ => []

/-- State of the process. -/
def LStat.wst : LStat C → WSt C
  | .running c => .busy c
  | .stopped => .stopped
  | _ => .idle

/-- The case the process works on. -/
def LStat.case : LStat C → Option C
  | .queued c | .running c | .sentBack c | .counted c => some c
  | _ => none

/-- What a record of a case holds. -/
def GoodRec (grp : W → G) (out : C → W → COut) (r : G × LbInfo W C) (e : G × C × Bool) : Prop :=
  r.1 = e.1 ∧ (∀ w, grp w = e.1 → r.2.data w = some e.2.1) ∧ (r.2.md.success = true ↔ ∀ w, grp w = e.1 → out e.2.1 w = .ok) ∧
  (r.2.md.success = false → ∃ w, r.2.md.msg = some w ∧ grp w = e.1 ∧ out e.2.1 w ≠ .ok)

/-- The part of the invariant that does not speak about the phase. -/
structure LbCore (grp : W → G) (out : C → W → COut) (order : List G) (cases : List C) (s : LbSt W G C) (cur : G → Option C) (st : W → LStat C) (log : List (G × C × Bool)) : Prop where
  inb : ∀ w, s.inbox w = (st w).inbox
  wst : ∀ w, s.worker w = (st w).wst
  cas : ∀ w, (st w).case = cur (grp w)
  dat : ∀ w c, st w = .counted c → (s.info (grp w)).data w = some c
  outb : ∀ w c, (w, c) ∈ s.outbox ↔ st w = .sentBack c
  outn : (s.outbox.map Prod.fst).Nodup
  count : ∀ g, (s.info g).count = (Finset.univ.filter fun w => grp w = g ∧ (st w).pend = true).card
  term : ∀ g c, cur g = some c → (0 < (s.info g).term ↔ ∃ w, grp w = g ∧ st w = .counted c ∧ out c w = .fatal)
  md : ∀ g c, cur g = some c → ((s.info g).md.success = true ↔ ∀ w, grp w = g → st w = .counted c → out c w = .ok) ∧
    ((s.info g).md.success = false → ∃ w, (s.info g).md.msg = some w ∧ grp w = g ∧ out c w ≠ .ok)
  tot : (Finset.univ.filter fun w => (st w).pend = true).card + s.received = s.sent
  cons : (log.map (fun e => e.2.1) ++ order.filterMap cur ++ s.remaining).Perm cases
  recs : List.Forall₂ (GoodRec grp out) s.records (log.filter fun e => e.2.2)
  flags : ∀ e ∈ log, e.2.2 = true ↔ ∀ w, grp w = e.1 → out e.2.1 w ≠ .fatal
  evals : ∀ w, (s.evals.filter fun e => decide (e.1 = w)).map Prod.snd = (log.filter fun e => decide (e.1 = grp w)).map (fun e => e.2.1) ++ (st w).started

theorem pend_case {x : LStat C} (h : x.pend = true) : x.case ≠ none := by cases x <;> simp [LStat.pend, LStat.case] at h ⊢

theorem case_cases {x : LStat C} {c : C} (h : x.case = some c) : x.pend = true ∨ x = .counted c := by cases x <;> simp_all [LStat.pend, LStat.case]

/-- The order of the active groups does not matter. -/
theorem filterMap_update {order : List G} (hn : order.Nodup) (cur : G → Option C) {g : G} (hg : g ∈ order) (v : Option C) :
    (order.filterMap (Function.update cur g v)).Perm (v.toList ++ order.filterMap (Function.update cur g none)) := by
  obtain ⟨p, q, rfl⟩ := List.append_of_mem hg
  rw [List.nodup_append] at hn
  have hp : g ∉ p := fun h => hn.2.2 g h g List.mem_cons_self rfl
  have hq : g ∉ q := (List.nodup_cons.mp hn.2.1).1
  have hc : ∀ (l : List G), g ∉ l → ∀ u v : Option C, l.filterMap (Function.update cur g u) = l.filterMap (Function.update cur g v) := by
    intro l hl u v
    induction l with
    | nil => rfl
    | cons x l ih =>
      have hx : x ≠ g := fun h => hl (h ▸ List.mem_cons_self)
      rw [List.filterMap_cons, List.filterMap_cons, ih fun h => hl (List.mem_cons_of_mem _ h), Function.update_of_ne hx, Function.update_of_ne hx]
  rw [List.filterMap_append, List.filterMap_append, List.filterMap_cons, List.filterMap_cons, hc p hp v none, hc q hq v none, Function.update_self, Function.update_self]
  cases v with
  | none => simp
  | some c => simp only [Option.toList_some, List.singleton_append]; exact List.perm_middle

/-- A change of one process that leaves its case as it is. -/
theorem core_update {order : List G} {cases : List C} {s : LbSt W G C} {cur : G → Option C} {st : W → LStat C} {log : List (G × C × Bool)} (h : LbCore grp out order cases s cur st log) (w : W) (x : LStat C)
    (hx : x.case = (st w).case) (hp : x.pend = (st w).pend) (hnc : ∀ c, x ≠ .counted c) (hnc' : ∀ c, st w ≠ .counted c) (s' : LbSt W G C)
    (h1 : s'.inbox = Function.update s.inbox w x.inbox) (h2 : s'.worker = Function.update s.worker w x.wst) (h3 : s'.info = s.info) (h4 : s'.sent = s.sent) (h5 : s'.received = s.received) (h6 : s'.remaining = s.remaining)
    (h7 : s'.records = s.records) (h8 : ∀ w' c, (w', c) ∈ s'.outbox ↔ (Function.update st w x) w' = .sentBack c) (h9 : (s'.outbox.map Prod.fst).Nodup)
    (h10 : ∀ w', (s'.evals.filter fun e => decide (e.1 = w')).map Prod.snd = (log.filter fun e => decide (e.1 = grp w')).map (fun e => e.2.1) ++ (Function.update st w x w').started) :
    LbCore grp out order cases s' cur (Function.update st w x) log := by
  have hpend : ∀ w', (Function.update st w x w').pend = (st w').pend := by
    intro w'
    by_cases hw : w' = w
    · subst hw; rw [Function.update_self, hp]
    · rw [Function.update_of_ne hw]
  have hcount : ∀ w' c, Function.update st w x w' = .counted c ↔ st w' = .counted c := by
    intro w' c
    by_cases hw : w' = w
    · subst hw; rw [Function.update_self]; exact ⟨fun e => absurd e (hnc c), fun e => absurd e (hnc' c)⟩
    · rw [Function.update_of_ne hw]
  refine ⟨?_, ?_, ?_, ?_, h8, h9, ?_, ?_, ?_, ?_, ?_, ?_, h.flags, h10⟩
  · intro w'
    rw [h1]
    by_cases hw : w' = w
    · subst hw; simp
    · rw [Function.update_of_ne hw, Function.update_of_ne hw]; exact h.inb w'
  · intro w'
    rw [h2]
    by_cases hw : w' = w
    · subst hw; simp
    · rw [Function.update_of_ne hw, Function.update_of_ne hw]; exact h.wst w'
  · intro w'
    by_cases hw : w' = w
    · subst hw; rw [Function.update_self, hx]; exact h.cas _
    · rw [Function.update_of_ne hw]; exact h.cas w'
  · intro w' c hc
    rw [h3]
    exact h.dat w' c ((hcount w' c).mp hc)
  · intro g
    rw [h3, h.count g]
    simp only [hpend]
  · intro g c hc
    rw [h3, h.term g c hc]
    simp only [hcount]
  · intro g c hc
    rw [h3]
    simp only [hcount]
    exact h.md g c hc
  · rw [h4, h5, ← h.tot]
    simp only [hpend]
  · rw [h6]; exact h.cons
  · rw [h7]; exact h.recs

/-- The master merges the message of a process. -/
theorem core_merge {order : List G} {cases : List C} {s : LbSt W G C} {cur : G → Option C} {st : W → LStat C} {log : List (G × C × Bool)} (h : LbCore grp out order cases s cur st log) {w : W} {c : C} {l1 l2 : List (W × C)}
    (ho : s.outbox = l1 ++ (w, c) :: l2) :
    st w = .sentBack c ∧ LbCore grp out order cases { s with outbox := l1 ++ l2, received := s.received + 1, info := Function.update s.info (grp w) ((s.info (grp w)).recv w c (out c w)) } cur (Function.update st w (.counted c)) log := by
  have hst : st w = .sentBack c := (h.outb w c).mp (by rw [ho]; simp)
  refine ⟨hst, ?_⟩
  have hcur : cur (grp w) = some c := by rw [← h.cas w, hst]; rfl
  have hn := h.outn
  rw [ho, List.map_append, List.map_cons, List.nodup_append, List.nodup_cons] at hn
  have hw1 : ∀ c', (w, c') ∉ l1 := fun c' hm => hn.2.2 w (List.mem_map.mpr ⟨_, hm, rfl⟩) w List.mem_cons_self rfl
  have hw2 : ∀ c', (w, c') ∉ l2 := fun c' hm => hn.2.1.1 (List.mem_map.mpr ⟨_, hm, rfl⟩)
  refine ⟨?_, ?_, ?_, ?_, ?_, ?_, ?_, ?_, ?_, ?_, h.cons, h.recs, h.flags, ?_⟩
  · intro w'
    by_cases hw : w' = w
    · subst hw; rw [Function.update_self]; simp only; rw [h.inb, hst]; rfl
    · rw [Function.update_of_ne hw]; exact h.inb w'
  · intro w'
    by_cases hw : w' = w
    · subst hw; rw [Function.update_self]; simp only; rw [h.wst, hst]; rfl
    · rw [Function.update_of_ne hw]; exact h.wst w'
  · intro w'
    by_cases hw : w' = w
    · subst hw; rw [Function.update_self, hcur]; rfl
    · rw [Function.update_of_ne hw]; exact h.cas w'
  · intro w' c' hc
    by_cases hw : w' = w
    · subst hw
      rw [Function.update_self] at hc
      simp only [Function.update_self, LbInfo.recv]
      injection hc with hc
      rw [hc]
    · rw [Function.update_of_ne hw] at hc
      have := h.dat w' c' hc
      by_cases hg : grp w' = grp w
      · simp only [hg, Function.update_self, LbInfo.recv]
        rw [Function.update_of_ne hw, ← hg]; exact this
      · simp only [Function.update_of_ne hg]; exact this
  · intro w' c'
    simp only [List.mem_append]
    by_cases hw : w' = w
    · subst hw
      rw [Function.update_self]
      constructor
      · rintro (h | h)
        · exact absurd h (hw1 c')
        · exact absurd h (hw2 c')
      · intro h; cases h
    · rw [Function.update_of_ne hw, ← h.outb, ho]
      simp [hw]
  · simp only [List.map_append]
    rw [List.nodup_append]
    exact ⟨hn.1, hn.2.1.2, fun a ha b hb => hn.2.2 a ha b (List.mem_cons_of_mem _ hb)⟩
  · intro g
    by_cases hg : g = grp w
    · subst hg
      simp only [Function.update_self, LbInfo.recv]
      rw [h.count]
      have : (Finset.univ.filter fun w' => grp w' = grp w ∧ (Function.update st w (LStat.counted c) w').pend = true) = (Finset.univ.filter fun w' => grp w' = grp w ∧ (st w').pend = true).erase w := by
        ext w'
        simp only [Finset.mem_filter, Finset.mem_univ, true_and, Finset.mem_erase]
        by_cases hw : w' = w
        · subst hw; simp [LStat.pend]
        · rw [Function.update_of_ne hw]; simp [hw]
      rw [this, Finset.card_erase_of_mem]
      rw [Finset.mem_filter, hst]
      exact ⟨Finset.mem_univ _, rfl, rfl⟩
    · simp only [Function.update_of_ne hg]
      rw [h.count]
      congr 1
      ext w'
      simp only [Finset.mem_filter, Finset.mem_univ, true_and]
      by_cases hw : w' = w
      · subst hw; simp [Ne.symm hg]
      · rw [Function.update_of_ne hw]
  · intro g c' hc'
    by_cases hg : g = grp w
    · subst hg
      have : c' = c := by rw [hcur] at hc'; exact (Option.some.inj hc').symm
      subst this
      simp only [Function.update_self, LbInfo.recv]
      have ht := h.term (grp w) c' hcur
      constructor
      · intro hpos
        by_cases hf : out c' w = .fatal
        · exact ⟨w, rfl, by simp, hf⟩
        · rw [if_neg hf] at hpos
          obtain ⟨w', a, b, d⟩ := ht.mp (by simpa using hpos)
          have hw : w' ≠ w := fun e => by rw [e, hst] at b; cases b
          exact ⟨w', a, by rw [Function.update_of_ne hw]; exact b, d⟩
      · rintro ⟨w', a, b, d⟩
        by_cases hw : w' = w
        · subst hw; rw [if_pos d]; omega
        · rw [Function.update_of_ne hw] at b
          have := ht.mpr ⟨w', a, b, d⟩
          omega
    · simp only [Function.update_of_ne hg]
      rw [h.term g c' hc']
      constructor
      · rintro ⟨w', a, b, d⟩
        have hw : w' ≠ w := fun e => hg (by rw [← a, e])
        exact ⟨w', a, by rw [Function.update_of_ne hw]; exact b, d⟩
      · rintro ⟨w', a, b, d⟩
        have hw : w' ≠ w := fun e => hg (by rw [← a, e])
        exact ⟨w', a, by rw [Function.update_of_ne hw] at b; exact b, d⟩
  · intro g c' hc'
    by_cases hg : g = grp w
    · subst hg
      have : c' = c := by rw [hcur] at hc'; exact (Option.some.inj hc').symm
      subst this
      simp only [Function.update_self, LbInfo.recv, mergeMeta]
      obtain ⟨m1, m2⟩ := h.md (grp w) c' hcur
      by_cases hs : (s.info (grp w)).md.success = true
      · rw [if_pos hs]
        have hall := m1.mp hs
        by_cases hok : out c' w = .ok
        · rw [if_pos hok]
          refine ⟨⟨fun _ => ?_, fun _ => rfl⟩, by simp⟩
          intro w' a b
          by_cases hw : w' = w
          · rw [hw]; exact hok
          · rw [Function.update_of_ne hw] at b; exact hall w' a b
        · rw [if_neg hok]
          refine ⟨⟨by simp, fun hh => absurd (hh w rfl (by simp)) hok⟩, fun _ => ⟨w, rfl, rfl, hok⟩⟩
      · rw [if_neg hs]
        refine ⟨⟨fun e => absurd e hs, fun hh => ?_⟩, m2⟩
        exact m1.mpr fun w' a b => hh w' a (by
          have hw : w' ≠ w := fun e => by rw [e, hst] at b; cases b
          rw [Function.update_of_ne hw]; exact b)
    · simp only [Function.update_of_ne hg]
      obtain ⟨m1, m2⟩ := h.md g c' hc'
      refine ⟨?_, m2⟩
      rw [m1]
      constructor
      · intro hh w' a b
        have hw : w' ≠ w := fun e => hg (by rw [← a, e])
        rw [Function.update_of_ne hw] at b
        exact hh w' a b
      · intro hh w' a b
        have hw : w' ≠ w := fun e => hg (by rw [← a, e])
        exact hh w' a (by rw [Function.update_of_ne hw]; exact b)
  · simp only
    rw [← h.tot]
    have : (Finset.univ.filter fun w' => (Function.update st w (LStat.counted c) w').pend = true) = (Finset.univ.filter fun w' => (st w').pend = true).erase w := by
      ext w'
      simp only [Finset.mem_filter, Finset.mem_univ, true_and, Finset.mem_erase]
      by_cases hw : w' = w
      · subst hw; simp [LStat.pend]
      · rw [Function.update_of_ne hw]; simp [hw]
    have hm : w ∈ Finset.univ.filter fun w' => (st w').pend = true := by rw [Finset.mem_filter, hst]; exact ⟨Finset.mem_univ _, rfl⟩
    have := Finset.card_erase_of_mem hm
    have := Finset.card_pos.mpr ⟨w, hm⟩
    simp only [*]
    omega
  · intro w'
    have := h.evals w'
    simp only
    rw [this]
    by_cases hw : w' = w
    · subst hw; rw [Function.update_self, hst]; rfl
    · rw [Function.update_of_ne hw]

/-- The group has answered: its case is finished. -/
theorem core_drop {order : List G} (hn : order.Nodup) {cases : List C} {s : LbSt W G C} {cur : G → Option C} {st : W → LStat C} {log : List (G × C × Bool)} (h : LbCore grp out order cases s cur st log) {g : G} {c : C} (hgo : g ∈ order)
    (hcur : cur g = some c) (hcnt : (s.info g).count = 0) (flag : Bool) (hflag : flag = decide ((s.info g).term = 0)) (s' : LbSt W G C)
    (hs' : s' = { s with records := if flag then s.records ++ [(g, s.info g)] else s.records }) :
    LbCore grp out order cases s' (Function.update cur g none) (fun w => if grp w = g then .rest else st w) (log ++ [(g, c, flag)]) ∧ ∀ w, grp w = g → st w = .counted c := by
  have hall : ∀ w, grp w = g → st w = .counted c := by
    intro w hw
    have := h.cas w
    rw [hw, hcur] at this
    rcases case_cases this with h1 | h1
    · rw [h.count, Finset.card_eq_zero] at hcnt
      have : w ∈ Finset.univ.filter fun w => grp w = g ∧ (st w).pend = true := by simp [hw, h1]
      rw [hcnt] at this
      simp at this
    · exact h1
  refine ⟨?_, hall⟩
  have hin : s'.inbox = s.inbox := by rw [hs']
  have hwo : s'.worker = s.worker := by rw [hs']
  have hinf : s'.info = s.info := by rw [hs']
  have hout : s'.outbox = s.outbox := by rw [hs']
  have hrm : s'.remaining = s.remaining := by rw [hs']
  have hev : s'.evals = s.evals := by rw [hs']
  have hse : s'.sent = s.sent := by rw [hs']
  have hre : s'.received = s.received := by rw [hs']
  have hpend : ∀ w, (if grp w = g then LStat.rest else st w).pend = (st w).pend := by
    intro w
    split
    · rename_i hw; rw [hall w hw]; rfl
    · rfl
  refine ⟨?_, ?_, ?_, ?_, ?_, ?_, ?_, ?_, ?_, ?_, ?_, ?_, ?_, ?_⟩
  · intro w
    rw [hin, h.inb]
    split
    · rename_i hw; rw [hall w hw]; rfl
    · rfl
  · intro w
    rw [hwo, h.wst]
    split
    · rename_i hw; rw [hall w hw]; rfl
    · rfl
  · intro w
    split
    · rename_i hw; rw [hw, Function.update_self]; rfl
    · rename_i hw; rw [Function.update_of_ne hw]; exact h.cas w
  · intro w c' hc
    split at hc
    · cases hc
    · rw [hinf]; exact h.dat w c' hc
  · intro w c'
    rw [hout, h.outb]
    split
    · rename_i hw
      rw [hall w hw]
      constructor <;> intro e <;> cases e
    · rfl
  · rw [hout]; exact h.outn
  · intro g'
    rw [hinf, h.count]
    simp only [hpend]
  · intro g' c' hc'
    have hg : g' ≠ g := fun e => by rw [e, Function.update_self] at hc'; cases hc'
    rw [Function.update_of_ne hg] at hc'
    rw [hinf, h.term g' c' hc']
    constructor
    · rintro ⟨w, a, b, d⟩
      exact ⟨w, a, by rw [if_neg (by rw [a]; exact hg)]; exact b, d⟩
    · rintro ⟨w, a, b, d⟩
      exact ⟨w, a, by rw [if_neg (by rw [a]; exact hg)] at b; exact b, d⟩
  · intro g' c' hc'
    have hg : g' ≠ g := fun e => by rw [e, Function.update_self] at hc'; cases hc'
    rw [Function.update_of_ne hg] at hc'
    rw [hinf]
    obtain ⟨m1, m2⟩ := h.md g' c' hc'
    refine ⟨?_, m2⟩
    rw [m1]
    constructor
    · intro hh w a b
      rw [if_neg (by rw [a]; exact hg)] at b
      exact hh w a b
    · intro hh w a b
      exact hh w a (by rw [if_neg (by rw [a]; exact hg)]; exact b)
  · rw [hse, hre, ← h.tot]
    simp only [hpend]
  · rw [hrm]
    have hself : Function.update cur g (some c) = cur := by rw [← hcur]; exact Function.update_eq_self g cur
    have hp := filterMap_update hn cur hgo (some c)
    rw [hself] at hp
    refine List.Perm.trans ?_ h.cons
    rw [List.map_append]
    simp only [List.map_cons, List.map_nil, List.append_assoc]
    refine List.Perm.append_left _ ?_
    have := (hp.symm.append_right s.remaining)
    simpa using this
  · have hrecs : s'.records = if flag then s.records ++ [(g, s.info g)] else s.records := by rw [hs']
    rw [hrecs, List.filter_append]
    cases flag with
    | false => simpa using h.recs
    | true =>
      simp only [if_true, List.filter_cons, List.filter_nil]
      refine List.rel_append h.recs ?_
      refine List.Forall₂.cons ?_ List.Forall₂.nil
      obtain ⟨m1, m2⟩ := h.md g c hcur
      refine ⟨rfl, ?_, ?_, ?_⟩
      · intro w hw
        have := h.dat w c (hall w hw)
        rw [hw] at this
        exact this
      · rw [m1]
        exact ⟨fun hh w hw => hh w hw (hall w hw), fun hh w hw _ => hh w hw⟩
      · exact m2
  · intro e he
    rcases List.mem_append.mp he with he | he
    · exact h.flags e he
    · rw [List.mem_singleton] at he
      subst he
      simp only
      rw [hflag, decide_eq_true_eq]
      have ht := h.term g c hcur
      constructor
      · intro h0 w hw hf
        have := ht.mpr ⟨w, hw, hall w hw, hf⟩
        omega
      · intro hh
        by_contra hne
        obtain ⟨w, a, b, d⟩ := ht.mp (Nat.pos_of_ne_zero hne)
        exact hh w a d
  · intro w
    rw [hev, h.evals w, List.filter_append, List.map_append]
    by_cases hw : grp w = g
    · rw [if_pos hw, hall w hw]
      simp [hw, LStat.started]
    · rw [if_neg hw]
      simp [Ne.symm hw]

/-- A case is sent to a group that has none. -/
theorem core_send {order : List G} (hn : order.Nodup) {cases : List C} {s : LbSt W G C} {cur : G → Option C} {st : W → LStat C} {log : List (G × C × Bool)} (h : LbCore grp out order cases s cur st log) {g : G} {c : C} {rest : List C} (hgo : g ∈ order)
    (hcur : cur g = none) (hrest : ∀ w, grp w = g → st w = .rest) (hrem : s.remaining = c :: rest) (s' : LbSt W G C)
    (h1 : s'.inbox = fun w => if grp w = g then s.inbox w ++ [some c] else s.inbox w) (h2 : s'.sent = s.sent + groupSize grp g) (h3 : s'.received = s.received) (h4 : s'.remaining = rest) (h5 : s'.worker = s.worker) (h6 : s'.outbox = s.outbox)
    (h7 : s'.records = s.records) (h8 : s'.evals = s.evals) (h9 : ∀ g', g' ≠ g → s'.info g' = s.info g') (h10 : (s'.info g).count = (s.info g).count + groupSize grp g) (h11 : (s'.info g).term = 0) (h12 : (s'.info g).md = ⟨true, none⟩) :
    LbCore grp out order cases s' (Function.update cur g (some c)) (fun w => if grp w = g then .queued c else st w) log := by
  have hcount0 : (s.info g).count = 0 := by
    rw [h.count, Finset.card_eq_zero]
    ext w
    simp only [Finset.mem_filter, Finset.mem_univ, true_and, Finset.notMem_empty, iff_false, not_and]
    intro hw
    rw [hrest w hw]
    simp [LStat.pend]
  refine ⟨?_, ?_, ?_, ?_, ?_, ?_, ?_, ?_, ?_, ?_, ?_, ?_, h.flags, ?_⟩
  · intro w
    rw [h1]
    by_cases hw : grp w = g
    · simp only [if_pos hw]; rw [h.inb, hrest w hw]; rfl
    · simp only [if_neg hw]; exact h.inb w
  · intro w
    rw [h5]
    by_cases hw : grp w = g
    · simp only [if_pos hw]; rw [h.wst, hrest w hw]; rfl
    · simp only [if_neg hw]; exact h.wst w
  · intro w
    by_cases hw : grp w = g
    · simp only [if_pos hw]; rw [hw, Function.update_self]; rfl
    · simp only [if_neg hw]; rw [Function.update_of_ne hw]; exact h.cas w
  · intro w c' hc
    by_cases hw : grp w = g
    · simp only [if_pos hw] at hc; cases hc
    · simp only [if_neg hw] at hc
      rw [h9 _ hw]; exact h.dat w c' hc
  · intro w c'
    rw [h6, h.outb]
    by_cases hw : grp w = g
    · simp only [if_pos hw]; rw [hrest w hw]
      constructor <;> intro e <;> cases e
    · simp only [if_neg hw]
  · rw [h6]; exact h.outn
  · intro g'
    by_cases hg : g' = g
    · subst hg
      rw [h10, hcount0, Nat.zero_add]
      unfold groupSize
      congr 1
      ext w
      simp only [Finset.mem_filter, Finset.mem_univ, true_and]
      constructor
      · intro hw; exact ⟨hw, by rw [if_pos hw]; rfl⟩
      · exact fun hw => hw.1
    · rw [h9 _ hg, h.count]
      congr 1
      ext w
      simp only [Finset.mem_filter, Finset.mem_univ, true_and]
      constructor
      · rintro ⟨a, b⟩; exact ⟨a, by rw [if_neg (by rw [a]; exact hg)]; exact b⟩
      · rintro ⟨a, b⟩; exact ⟨a, by rw [if_neg (by rw [a]; exact hg)] at b; exact b⟩
  · intro g' c' hc'
    by_cases hg : g' = g
    · subst hg
      rw [h11]
      constructor
      · intro hh; omega
      · rintro ⟨w, a, b, _⟩
        rw [if_pos a] at b; cases b
    · rw [Function.update_of_ne hg] at hc'
      rw [h9 _ hg, h.term g' c' hc']
      constructor
      · rintro ⟨w, a, b, d⟩; exact ⟨w, a, by rw [if_neg (by rw [a]; exact hg)]; exact b, d⟩
      · rintro ⟨w, a, b, d⟩; exact ⟨w, a, by rw [if_neg (by rw [a]; exact hg)] at b; exact b, d⟩
  · intro g' c' hc'
    by_cases hg : g' = g
    · subst hg
      rw [h12]
      refine ⟨⟨fun _ w a b => ?_, fun _ => rfl⟩, by simp⟩
      rw [if_pos a] at b; cases b
    · rw [Function.update_of_ne hg] at hc'
      rw [h9 _ hg]
      obtain ⟨m1, m2⟩ := h.md g' c' hc'
      refine ⟨?_, m2⟩
      rw [m1]
      constructor
      · intro hh w a b
        rw [if_neg (by rw [a]; exact hg)] at b
        exact hh w a b
      · intro hh w a b
        exact hh w a (by rw [if_neg (by rw [a]; exact hg)]; exact b)
  · rw [h2, h3, ← h.tot]
    have hu : (Finset.univ.filter fun w => (if grp w = g then LStat.queued c else st w).pend = true) = (Finset.univ.filter fun w => (st w).pend = true) ∪ (Finset.univ.filter fun w => grp w = g) := by
      ext w
      simp only [Finset.mem_filter, Finset.mem_univ, true_and, Finset.mem_union]
      by_cases hw : grp w = g
      · simp [hw, LStat.pend]
      · simp [hw]
    have hd : Disjoint (Finset.univ.filter fun w => (st w).pend = true) (Finset.univ.filter fun w => grp w = g) := by
      rw [Finset.disjoint_left]
      intro w hw1 hw2
      simp only [Finset.mem_filter, Finset.mem_univ, true_and] at hw1 hw2
      rw [hrest w hw2] at hw1
      simp [LStat.pend] at hw1
    rw [hu, Finset.card_union_of_disjoint hd]
    unfold groupSize
    omega
  · rw [h4]
    have hself : Function.update cur g none = cur := by rw [← hcur]; exact Function.update_eq_self g cur
    have hp := filterMap_update hn cur hgo (some c)
    rw [hself] at hp
    refine List.Perm.trans ?_ h.cons
    rw [hrem]
    simp only [List.append_assoc]
    refine List.Perm.append_left _ ?_
    refine (hp.append_right rest).trans ?_
    simp only [Option.toList_some, List.cons_append]
    exact List.perm_middle.symm
  · rw [h7]; exact h.recs
  · intro w
    rw [h8, h.evals]
    by_cases hw : grp w = g
    · simp only [if_pos hw]; rw [hrest w hw]; rfl
    · simp only [if_neg hw]

/-- Whether the process has seen the stop message, or will next. -/
def LStat.stopping : LStat C → Bool
  | .stopq | .stopped => true
  | _ => false

/-- The part of the invariant about the phase of the master. -/
def LbPh (order : List G) (s : LbSt W G C) (cur : G → Option C) (st : W → LStat C) (log : List (G × C × Bool)) : LbPhase G → Prop
  | .seed left => (∃ dn, order = dn ++ left) ∧ (∀ g ∈ left, cur g = none ∧ (s.info g).term = 0 ∧ (s.info g).md = ⟨true, none⟩) ∧ (s.sent = 0 → left = order) ∧ s.received = 0 ∧ ∀ w, (st w).stopping = false
  | .loop => s.received < s.sent ∧ ∀ w, (st w).stopping = false
  | .stop => s.received = s.sent ∧ (s.remaining = [] ∨ ∃ e ∈ log, e.2.2 = false) ∧ ∀ w, (st w).stopping = false
  | .done => s.received = s.sent ∧ (s.remaining = [] ∨ ∃ e ∈ log, e.2.2 = false) ∧ ∀ w, (st w).stopping = true

/-- The invariant of a run. -/
structure LbInv (grp : W → G) (out : C → W → COut) (order : List G) (cases : List C) (s : LbSt W G C) (cur : G → Option C) (st : W → LStat C) (log : List (G × C × Bool)) : Prop where
  core : LbCore grp out order cases s cur st log
  act : ∀ g c, cur g = some c → 0 < (s.info g).count
  more : s.more = false → s.remaining = [] ∨ ∃ e ∈ log, e.2.2 = false
  ph : LbPh order s cur st log s.phase

theorem size_pos {g : G} (h : ∃ w, grp w = g) : 0 < groupSize grp g := by
  obtain ⟨w, hw⟩ := h
  exact Finset.card_pos.mpr ⟨w, by simp [hw]⟩

theorem rest_of_none {order : List G} {cases : List C} {s : LbSt W G C} {cur : G → Option C} {st : W → LStat C} {log : List (G × C × Bool)} (h : LbCore grp out order cases s cur st log) (hs : ∀ w, (st w).stopping = false)
    {g : G} (hg : cur g = none) (w : W) (hw : grp w = g) : st w = .rest := by
  have h1 := h.cas w
  rw [hw, hg] at h1
  have h2 := hs w
  cases hx : st w <;> rw [hx] at h1 h2 <;> simp [LStat.case, LStat.stopping] at h1 h2 ⊢

theorem core_phase {order : List G} {cases : List C} {s : LbSt W G C} {cur : G → Option C} {st : W → LStat C} {log : List (G × C × Bool)} (h : LbCore grp out order cases s cur st log) (p : LbPhase G) (m : Bool) :
    LbCore grp out order cases { s with phase := p, more := m } cur st log :=
  ⟨h.inb, h.wst, h.cas, h.dat, h.outb, h.outn, h.count, h.term, h.md, h.tot, h.cons, h.recs, h.flags, h.evals⟩

theorem complete_nil (s : LbSt W G C) (g : G) (hm : s.more = true) (hr : s.remaining = []) : s.complete grp g = { s with records := s.records ++ [(g, s.info g)], more := false } := by
  unfold LbSt.complete
  simp only [hm, if_true]
  rw [hr]

theorem complete_cons (s : LbSt W G C) (g : G) (c : C) (rest : List C) (hm : s.more = true) (hr : s.remaining = c :: rest) :
    s.complete grp g = ({ s with records := s.records ++ [(g, s.info g)], remaining := rest, info := Function.update s.info g { s.info g with term := 0, md := ⟨true, none⟩ } } : LbSt W G C).send grp g c := by
  unfold LbSt.complete
  simp only [hm, if_true]
  rw [hr]

theorem complete_stop (s : LbSt W G C) (g : G) (hm : s.more = false) : s.complete grp g = { s with records := s.records ++ [(g, s.info g)] } := by
  unfold LbSt.complete
  simp only [hm, Bool.false_eq_true, if_false]

theorem inv_recv {order : List G} (hn : order.Nodup) (hmem : ∀ w, grp w ∈ order) (hne : ∀ g ∈ order, ∃ w, grp w = g) {cases : List C} {s : LbSt W G C} {cur : G → Option C} {st : W → LStat C} {log : List (G × C × Bool)}
    (h : LbInv grp out order cases s cur st log) {w : W} {c : C} {l1 l2 : List (W × C)} (hph : s.phase = .loop) (ho : s.outbox = l1 ++ (w, c) :: l2) :
    ∃ cur' st' log', LbInv grp out order cases (s.recv grp out w c (l1 ++ l2)) cur' st' log' := by
  obtain ⟨hst, hm⟩ := core_merge h.core ho
  have hcur : cur (grp w) = some c := by rw [← h.core.cas w, hst]; rfl
  have hns : ∀ w, (st w).stopping = false := by have := h.ph; rw [hph] at this; exact this.2
  have hns1 : ∀ w', (Function.update st w (.counted c) w').stopping = false := by
    intro w'
    by_cases hw : w' = w
    · subst hw; simp [LStat.stopping]
    · rw [Function.update_of_ne hw]; exact hns w'
  have hact : ∀ g c', g ≠ grp w → cur g = some c' → 0 < (s.info g).count := fun g c' _ hc => h.act g c' hc
  generalize hs1 : ({ s with outbox := l1 ++ l2, received := s.received + 1, info := Function.update s.info (grp w) ((s.info (grp w)).recv w c (out c w)) } : LbSt W G C) = s1 at hm
  have hinf : s1.info (grp w) = (s.info (grp w)).recv w c (out c w) := by rw [← hs1]; simp
  have hinf' : ∀ g, g ≠ grp w → s1.info g = s.info g := fun g hg => by rw [← hs1]; simp [Function.update_of_ne hg]
  have hmore : s1.more = s.more := by rw [← hs1]
  have hrem : s1.remaining = s.remaining := by rw [← hs1]
  have hle : s1.received ≤ s1.sent := by have := hm.tot; omega
  have hrecv : s.recv grp out w c (l1 ++ l2) =
      (let s2 := if (s1.info (grp w)).count = 0 then (if (s1.info (grp w)).term > 0 then { s1 with more := false } else s1.complete grp (grp w)) else s1
       { s2 with phase := if s2.received = s2.sent then .stop else .loop }) := by
    subst hs1
    simp only [LbSt.recv, Function.update_self]
  rw [hrecv]
  simp only
  by_cases hc0 : (s1.info (grp w)).count = 0
  · rw [if_pos hc0]
    by_cases ht : (s1.info (grp w)).term > 0
    · -- a request for termination
      rw [if_pos ht]
      obtain ⟨hd, hall⟩ := core_drop hn hm (hmem w) hcur hc0 false (by rw [eq_comm, decide_eq_false_iff_not]; omega) s1 rfl
      refine ⟨_, _, _, ⟨hd.inb, hd.wst, hd.cas, hd.dat, hd.outb, hd.outn, hd.count, hd.term, hd.md, hd.tot, hd.cons, hd.recs, hd.flags, hd.evals⟩, ?_, ?_, ?_⟩
      · intro g c' hc'
        have hg : g ≠ grp w := fun e => by rw [e, Function.update_self] at hc'; cases hc'
        rw [Function.update_of_ne hg] at hc'
        simp only
        rw [hinf' g hg]
        exact h.act g c' hc'
      · intro _
        exact Or.inr ⟨_, List.mem_append_right _ List.mem_cons_self, rfl⟩
      · have hstp : ∀ w', (if grp w' = grp w then LStat.rest else Function.update st w (LStat.counted c) w').stopping = false := by
          intro w'
          split
          · rfl
          · exact hns1 w'
        simp only
        split
        · rename_i heq
          exact ⟨heq, Or.inr ⟨_, List.mem_append_right _ List.mem_cons_self, rfl⟩, hstp⟩
        · rename_i hneq
          exact ⟨by simp only at hneq ⊢; omega, hstp⟩
    · rw [if_neg ht]
      have ht0 : (s1.info (grp w)).term = 0 := by omega
      obtain ⟨hd, hall⟩ := core_drop hn hm (hmem w) hcur hc0 true (by rw [eq_comm, decide_eq_true_eq]; exact ht0) { s1 with records := s1.records ++ [(grp w, s1.info (grp w))] } rfl
      have hstp : ∀ w', (if grp w' = grp w then LStat.rest else Function.update st w (LStat.counted c) w').stopping = false := by
        intro w'
        split
        · rfl
        · exact hns1 w'
      have hact' : ∀ g c', Function.update cur (grp w) none g = some c' → 0 < (s1.info g).count := by
        intro g c' hc'
        have hg : g ≠ grp w := fun e => by rw [e, Function.update_self] at hc'; cases hc'
        rw [Function.update_of_ne hg] at hc'
        rw [hinf' g hg]
        exact h.act g c' hc'
      have hm' : ∀ l, (s.remaining = [] ∨ ∃ e ∈ log, e.2.2 = false) → s.remaining = [] ∨ ∃ e ∈ log ++ l, e.2.2 = false := by
        rintro l (h1 | ⟨e, he, h1⟩)
        · exact Or.inl h1
        · exact Or.inr ⟨e, List.mem_append_left _ he, h1⟩
      cases hmo : s1.more with
      | true =>
        cases hr : s1.remaining with
        | nil =>
          rw [complete_nil s1 (grp w) hmo hr]
          refine ⟨_, _, _, core_phase hd _ _, hact', fun _ => Or.inl hr, ?_⟩
          simp only
          split
          · rename_i heq
            exact ⟨heq, Or.inl hr, hstp⟩
          · rename_i hneq
            exact ⟨lt_of_le_of_ne hle hneq, hstp⟩
        | cons c' rest =>
          rw [complete_cons s1 (grp w) c' rest hmo hr]
          have hcs := core_send (s' := (({ s1 with records := s1.records ++ [(grp w, s1.info (grp w))], remaining := rest, info := Function.update s1.info (grp w) { s1.info (grp w) with term := 0, md := ⟨true, none⟩ } } : LbSt W G C).send grp (grp w) c')) hn hd (hmem w) (c := c') (rest := rest)
            (by simp) (fun w' hw' => by simp [hw']) hr rfl rfl rfl rfl rfl rfl rfl rfl
            (fun g' hg' => by simp [LbSt.send, Function.update_of_ne hg']) (by simp [LbSt.send]) (by simp [LbSt.send]) (by simp [LbSt.send])
          have hsz := size_pos (grp := grp) (hne _ (hmem w))
          refine ⟨_, _, _, core_phase hcs _ _, ?_, ?_, ?_⟩
          · intro g c2 hc2
            by_cases hg : g = grp w
            · subst hg
              simp only [LbSt.send, Function.update_self]
              omega
            · rw [Function.update_of_ne hg] at hc2
              simp only [LbSt.send, Function.update_of_ne hg]
              exact hact' g c2 hc2
          · intro hf
            simp only [LbSt.send] at hf
            rw [hmo] at hf
            cases hf
          · have hlt : s1.received ≠ s1.sent + groupSize grp (grp w) := by omega
            simp only [LbSt.send]
            rw [if_neg hlt]
            refine ⟨?_, ?_⟩
            · simp only; omega
            · intro w'
              by_cases hw' : grp w' = grp w
              · simp only [if_pos hw']; rfl
              · simp only [if_neg hw']; exact hns1 w'
      | false =>
        rw [complete_stop s1 (grp w) hmo]
        have hm2 := hm' [(grp w, c, true)] (h.more (by rw [← hmore]; exact hmo))
        rw [← hrem] at hm2
        refine ⟨_, _, _, core_phase hd _ _, hact', fun _ => hm2, ?_⟩
        simp only
        split
        · rename_i heq
          exact ⟨heq, hm2, hstp⟩
        · rename_i hneq
          exact ⟨lt_of_le_of_ne hle hneq, hstp⟩
  · rw [if_neg hc0]
    refine ⟨cur, _, log, ⟨hm.inb, hm.wst, hm.cas, hm.dat, hm.outb, hm.outn, hm.count, hm.term, hm.md, hm.tot, hm.cons, hm.recs, hm.flags, hm.evals⟩, ?_, ?_, ?_⟩
    · intro g c' hc'
      simp only
      by_cases hg : g = grp w
      · rw [hg]; exact Nat.pos_of_ne_zero hc0
      · rw [hinf' g hg]; exact h.act g c' hc'
    · intro hf
      simp only at hf ⊢
      rw [hrem]
      exact h.more (by rw [← hmore]; exact hf)
    · have : s1.received ≠ s1.sent := by
        intro heq
        apply hc0
        rw [hm.count, Finset.card_eq_zero]
        have := hm.tot
        have h0 : (Finset.univ.filter fun w' => (Function.update st w (LStat.counted c) w').pend = true).card = 0 := by omega
        rw [Finset.card_eq_zero] at h0
        ext w'
        simp only [Finset.mem_filter, Finset.mem_univ, true_and, Finset.notMem_empty, iff_false, not_and]
        intro _ hp
        have : w' ∈ Finset.univ.filter fun w' => (Function.update st w (LStat.counted c) w').pend = true := by simp [hp]
        rw [h0] at this
        simp at this
      simp only
      rw [if_neg this]
      exact ⟨by simp only; omega, hns1⟩

theorem inv_step {order : List G} (hn : order.Nodup) (hord : order ≠ []) (hmem : ∀ w, grp w ∈ order) (hne : ∀ g ∈ order, ∃ w, grp w = g) {cases : List C} {s s' : LbSt W G C} {cur : G → Option C} {st : W → LStat C} {log : List (G × C × Bool)}
    (h : LbInv grp out order cases s cur st log) (hstep : LbStep grp out s s') : ∃ cur' st' log', LbInv grp out order cases s' cur' st' log' := by
  have hc := h.core
  cases hstep with
  | seedSend g left c rest hp hr =>
    have hph := h.ph
    rw [hp] at hph
    obtain ⟨⟨dn, hdn⟩, h2, h3, h4, h5⟩ := hph
    obtain ⟨g1, g2, g3⟩ := h2 g List.mem_cons_self
    have hgo : g ∈ order := by rw [hdn]; simp
    have hcs := core_send (s' := (({ s with phase := .seed left, remaining := rest } : LbSt W G C).send grp g c)) hn hc hgo g1 (rest_of_none hc h5 g1) hr rfl rfl rfl rfl rfl rfl rfl rfl
      (fun g' hg' => by simp [LbSt.send, Function.update_of_ne hg']) (by simp [LbSt.send]) (by simpa [LbSt.send] using g2) (by simpa [LbSt.send] using g3)
    have hsz := size_pos (grp := grp) (hne g hgo)
    refine ⟨_, _, _, hcs, ?_, ?_, ?_⟩
    · intro g' c' hc'
      by_cases hg : g' = g
      · subst hg; simp only [LbSt.send, Function.update_self]; omega
      · rw [Function.update_of_ne hg] at hc'
        simp only [LbSt.send, Function.update_of_ne hg]
        exact h.act g' c' hc'
    · intro hf
      rcases h.more hf with h1 | h1
      · rw [hr] at h1; cases h1
      · exact Or.inr h1
    · have hgl : g ∉ left := by
        rw [hdn, List.nodup_append, List.nodup_cons] at hn
        exact hn.2.1.1
      refine ⟨⟨dn ++ [g], by rw [hdn]; simp⟩, ?_, ?_, h4, ?_⟩
      · intro g' hg'
        have hg : g' ≠ g := fun e => hgl (e ▸ hg')
        simp only [LbSt.send, Function.update_of_ne hg]
        exact h2 g' (List.mem_cons_of_mem _ hg')
      · intro h0
        simp only [LbSt.send] at h0
        omega
      · intro w
        by_cases hw : grp w = g
        · simp only [if_pos hw]; rfl
        · simp only [if_neg hw]; exact h5 w
  | seedEmpty g left hp hr =>
    have hph := h.ph
    rw [hp] at hph
    obtain ⟨_, h2, h3, h4, h5⟩ := hph
    refine ⟨cur, st, log, ⟨hc.inb, hc.wst, hc.cas, hc.dat, hc.outb, hc.outn, hc.count, hc.term, hc.md, hc.tot, hc.cons, hc.recs, hc.flags, hc.evals⟩, h.act, h.more, ?_⟩
    simp only
    split
    · exact ⟨by simp only; omega, h5⟩
    · exact ⟨by simp only; omega, Or.inl hr, h5⟩
  | seedDone hp =>
    have hph := h.ph
    rw [hp] at hph
    obtain ⟨_, h2, h3, h4, h5⟩ := hph
    refine ⟨cur, st, log, ⟨hc.inb, hc.wst, hc.cas, hc.dat, hc.outb, hc.outn, hc.count, hc.term, hc.md, hc.tot, hc.cons, hc.recs, hc.flags, hc.evals⟩, h.act, h.more, ?_⟩
    simp only
    split
    · exact ⟨by simp only; omega, h5⟩
    · rename_i h0
      exact absurd (h3 (by omega)).symm hord
  | recv w c l1 l2 hp ho => exact inv_recv hn hmem hne h hp ho
  | stop hp =>
    have hph := h.ph
    rw [hp] at hph
    obtain ⟨h1, h2, h3⟩ := hph
    have hnp : ∀ w, (st w).pend = false := by
      intro w
      by_contra hw
      have h0 : (Finset.univ.filter fun w => (st w).pend = true).card = 0 := by have := hc.tot; omega
      rw [Finset.card_eq_zero] at h0
      have : w ∈ Finset.univ.filter fun w => (st w).pend = true := by simpa using hw
      rw [h0] at this
      simp at this
    have hcn : ∀ g, cur g = none := by
      intro g
      cases hg : cur g with
      | none => rfl
      | some c =>
        have := h.act g c hg
        rw [hc.count] at this
        obtain ⟨w, hw⟩ := Finset.card_pos.mp this
        simp only [Finset.mem_filter] at hw
        rw [hnp w] at hw
        simp at hw
    have hrest : ∀ w, st w = .rest := fun w => rest_of_none hc h3 (hcn _) w rfl
    have hst : st = fun _ => .rest := funext hrest
    subst hst
    refine ⟨cur, fun _ => .stopq, log, ⟨?_, ?_, ?_, ?_, ?_, hc.outn, hc.count, ?_, ?_, hc.tot, hc.cons, hc.recs, hc.flags, hc.evals⟩, h.act, h.more, h1, h2, fun _ => rfl⟩
    · intro w; simp only; rw [hc.inb]; rfl
    · intro w; simp only; rw [hc.wst]; rfl
    · intro w; rw [← hc.cas w]; rfl
    · intro w c hh; cases hh
    · intro w c
      simp only
      rw [hc.outb]
      constructor <;> intro e <;> cases e
    · intro g c hg; rw [hcn g] at hg; cases hg
    · intro g c hg; rw [hcn g] at hg; cases hg
  | take w c r hi hb =>
    have h1 := hc.inb w
    rw [hb] at h1
    have hst : st w = .queued c ∧ r = [] := by
      cases hx : st w <;> rw [hx] at h1 <;> simp [LStat.inbox] at h1
      exact ⟨by rw [h1.1], h1.2⟩
    obtain ⟨hst, rfl⟩ := hst
    have hcu := core_update hc w (.running c) (by rw [hst]; rfl) (by rw [hst]; rfl) (by intro c e; cases e) (by intro c' e; rw [hst] at e; cases e)
      { s with worker := Function.update s.worker w (.busy c), inbox := Function.update s.inbox w [], evals := s.evals ++ [(w, c)] } rfl rfl rfl rfl rfl rfl rfl ?_ hc.outn ?_
    · refine ⟨cur, _, log, hcu, h.act, h.more, ?_⟩
      have hstp : ∀ b, (st w).stopping = b → (∀ w', (st w').stopping = b) → b = false → ∀ w', (Function.update st w (.running c) w').stopping = false := by
        intro b _ hb2 hb3 w'
        by_cases hw : w' = w
        · subst hw; simp [LStat.stopping]
        · rw [Function.update_of_ne hw, hb2, hb3]
      have hph := h.ph
      simp only
      cases hp : s.phase with
      | seed left => rw [hp] at hph; exact ⟨hph.1, hph.2.1, hph.2.2.1, hph.2.2.2.1, hstp false (hph.2.2.2.2 w) hph.2.2.2.2 rfl⟩
      | loop => rw [hp] at hph; exact ⟨hph.1, hstp false (hph.2 w) hph.2 rfl⟩
      | stop => rw [hp] at hph; exact ⟨hph.1, hph.2.1, hstp false (hph.2.2 w) hph.2.2 rfl⟩
      | done =>
        rw [hp] at hph
        have := hph.2.2 w
        rw [hst] at this
        cases this
    · intro w' c'
      simp only
      rw [hc.outb]
      by_cases hw : w' = w
      · subst hw; rw [Function.update_self, hst]
        constructor <;> intro e <;> cases e
      · rw [Function.update_of_ne hw]
    · intro w'
      simp only
      rw [List.filter_append, List.map_append, hc.evals w']
      by_cases hw : w' = w
      · subst hw; rw [Function.update_self, hst]; simp [LStat.started]
      · rw [Function.update_of_ne hw]
        simp [Ne.symm hw]
  | takeStop w r hi hb =>
    have h1 := hc.inb w
    rw [hb] at h1
    have hst : st w = .stopq ∧ r = [] := by
      cases hx : st w <;> rw [hx] at h1 <;> simp [LStat.inbox] at h1
      exact ⟨rfl, h1⟩
    obtain ⟨hst, rfl⟩ := hst
    have hcu := core_update hc w .stopped (by rw [hst]; rfl) (by rw [hst]; rfl) (by intro c e; cases e) (by intro c' e; rw [hst] at e; cases e)
      { s with worker := Function.update s.worker w .stopped, inbox := Function.update s.inbox w [] } rfl rfl rfl rfl rfl rfl rfl ?_ hc.outn ?_
    · refine ⟨cur, _, log, hcu, h.act, h.more, ?_⟩
      have hph := h.ph
      simp only
      cases hp : s.phase with
      | seed left => rw [hp] at hph; have := hph.2.2.2.2 w; rw [hst] at this; cases this
      | loop => rw [hp] at hph; have := hph.2 w; rw [hst] at this; cases this
      | stop => rw [hp] at hph; have := hph.2.2 w; rw [hst] at this; cases this
      | done =>
        rw [hp] at hph
        refine ⟨hph.1, hph.2.1, ?_⟩
        intro w'
        by_cases hw : w' = w
        · subst hw; simp [LStat.stopping]
        · rw [Function.update_of_ne hw]; exact hph.2.2 w'
    · intro w' c'
      simp only
      rw [hc.outb]
      by_cases hw : w' = w
      · subst hw; rw [Function.update_self, hst]
        constructor <;> intro e <;> cases e
      · rw [Function.update_of_ne hw]
    · intro w'
      simp only
      rw [hc.evals w']
      by_cases hw : w' = w
      · subst hw; rw [Function.update_self, hst]; rfl
      · rw [Function.update_of_ne hw]
  | reply w c hb =>
    have h1 := hc.wst w
    rw [hb] at h1
    have hst : st w = .running c := by
      cases hx : st w <;> rw [hx] at h1 <;> simp [LStat.wst] at h1
      rw [h1]
    have hib : s.inbox w = [] := by rw [hc.inb, hst]; rfl
    have hcu := core_update hc w (.sentBack c) (by rw [hst]; rfl) (by rw [hst]; rfl) (by intro c e; cases e) (by intro c' e; rw [hst] at e; cases e)
      { s with worker := Function.update s.worker w .idle, outbox := s.outbox ++ [(w, c)] } (by simp only [LStat.inbox]; rw [← hib]; exact (Function.update_eq_self w _).symm) rfl rfl rfl rfl rfl rfl ?_ ?_ ?_
    · refine ⟨cur, _, log, hcu, h.act, h.more, ?_⟩
      have hstp : ∀ b, (∀ w', (st w').stopping = b) → b = false → ∀ w', (Function.update st w (.sentBack c) w').stopping = false := by
        intro b hb2 hb3 w'
        by_cases hw : w' = w
        · subst hw; simp [LStat.stopping]
        · rw [Function.update_of_ne hw, hb2, hb3]
      have hph := h.ph
      simp only
      cases hp : s.phase with
      | seed left => rw [hp] at hph; exact ⟨hph.1, hph.2.1, hph.2.2.1, hph.2.2.2.1, hstp false hph.2.2.2.2 rfl⟩
      | loop => rw [hp] at hph; exact ⟨hph.1, hstp false hph.2 rfl⟩
      | stop => rw [hp] at hph; exact ⟨hph.1, hph.2.1, hstp false hph.2.2 rfl⟩
      | done =>
        rw [hp] at hph
        have := hph.2.2 w
        rw [hst] at this
        cases this
    · intro w' c'
      simp only [List.mem_append, List.mem_singleton, Prod.mk.injEq]
      rw [hc.outb]
      by_cases hw : w' = w
      · subst hw; rw [Function.update_self, hst]
        constructor
        · rintro (e | ⟨_, rfl⟩)
          · cases e
          · rfl
        · intro e; injection e with e; exact Or.inr ⟨rfl, e.symm⟩
      · rw [Function.update_of_ne hw]; simp [hw]
    · simp only [List.map_append, List.map_cons, List.map_nil]
      rw [List.nodup_append]
      refine ⟨hc.outn, by simp, ?_⟩
      intro a ha b hb2 hab
      rw [List.mem_singleton] at hb2
      obtain ⟨⟨w1, c1⟩, he, rfl⟩ := List.mem_map.mp ha
      simp only at hab
      subst hab; subst hb2
      have := (hc.outb w1 c1).mp he
      rw [hst] at this
      cases this
    · intro w'
      simp only
      rw [hc.evals w']
      by_cases hw : w' = w
      · subst hw; rw [Function.update_self, hst]; rfl
      · rw [Function.update_of_ne hw]

theorem inv_reach_lb {order : List G} (hn : order.Nodup) (hord : order ≠ []) (hmem : ∀ w, grp w ∈ order) (hne : ∀ g ∈ order, ∃ w, grp w = g) {cases : List C} {s : LbSt W G C} (hr : LbReach grp out order cases s) :
    ∃ cur st log, LbInv grp out order cases s cur st log := by
  unfold LbReach at hr
  induction hr with
  | refl =>
    refine ⟨fun _ => none, fun _ => .rest, [], ⟨fun _ => rfl, fun _ => rfl, fun _ => rfl, by simp, by simp [LbSt.init], by simp [LbSt.init], ?_, by simp, by simp, ?_, ?_, List.Forall₂.nil, by simp, fun _ => rfl⟩, by simp, by simp [LbSt.init], ?_⟩
    · intro g; simp [LbSt.init, LStat.pend]
    · simp [LbSt.init, LStat.pend]
    · simp [LbSt.init, List.filterMap_eq_nil_iff.mpr]
    · exact ⟨⟨[], rfl⟩, fun g _ => ⟨rfl, rfl, rfl⟩, fun _ => rfl, rfl, fun _ => rfl⟩
  | tail _ hs ih =>
    obtain ⟨cur, st, log, h⟩ := ih
    exact inv_step hn hord hmem hne h hs

/-- A state that is not finished has a successor. -/
theorem lb_progress {order : List G} {cases : List C} {s : LbSt W G C} {cur : G → Option C} {st : W → LStat C} {log : List (G × C × Bool)}
    (h : LbInv grp out order cases s cur st log) : s.Finished ∨ ∃ s', LbStep grp out s s' := by
  have hc := h.core
  have hph := h.ph
  cases hp : s.phase with
  | seed left =>
    right
    cases left with
    | nil => exact ⟨_, .seedDone s hp⟩
    | cons g left =>
      cases hr : s.remaining with
      | nil => exact ⟨_, .seedEmpty s g left hp hr⟩
      | cons c rest => exact ⟨_, .seedSend s g left c rest hp hr⟩
  | stop => exact Or.inr ⟨_, .stop s hp⟩
  | loop =>
    right
    rw [hp] at hph
    have hpos : 0 < (Finset.univ.filter fun w => (st w).pend = true).card := by have := hc.tot; have := hph.1; omega
    obtain ⟨w, hw⟩ := Finset.card_pos.mp hpos
    simp only [Finset.mem_filter, Finset.mem_univ, true_and] at hw
    have hi := hc.inb w
    have hb := hc.wst w
    cases hx : st w with
    | queued c => rw [hx] at hi hb; exact ⟨_, .take s w c [] hb hi⟩
    | running c => rw [hx] at hb; exact ⟨_, .reply s w c hb⟩
    | sentBack c =>
      obtain ⟨l1, l2, ho⟩ := List.append_of_mem ((hc.outb w c).mpr hx)
      exact ⟨_, .recv s w c l1 l2 hp ho⟩
    | rest => rw [hx] at hw; cases hw
    | counted c => rw [hx] at hw; cases hw
    | stopq => rw [hx] at hw; cases hw
    | stopped => rw [hx] at hw; cases hw
  | done =>
    rw [hp] at hph
    by_cases hall : ∀ w, st w = .stopped
    · left
      refine ⟨by rw [hp]; trivial, fun w => ?_⟩
      rw [hc.wst, hall]; rfl
    · right
      push Not at hall
      obtain ⟨w, hw⟩ := hall
      have h1 := hph.2.2 w
      have hi := hc.inb w
      have hb := hc.wst w
      cases hx : st w <;> rw [hx] at h1 hi hb hw <;> simp [LStat.stopping] at h1 hw
      exact ⟨_, .takeStop s w [] hb hi⟩

/-- Weight of a worker. -/
def WSt.weight : WSt C → Nat
  | .busy _ => 2
  | _ => 0

/-- Weight of the phase of the master. -/
def LbPhase.weight (n : Nat) : LbPhase G → Nat
  | .seed left => 3 * n + 3 + left.length
  | .loop => 3 * n + 2
  | .stop => 3 * n + 1
  | .done => 0

/-- A number that every step lowers. -/
def lbMeasure (s : LbSt W G C) : Nat :=
  s.phase.weight (Fintype.card W) + s.remaining.length * (3 * Fintype.card W + 1) + (∑ w, (3 * (s.inbox w).length + (s.worker w).weight)) + s.outbox.length

theorem sum_update_lt (f f' : W → Nat) (w : W) (k : Nat) (h : f' w + k ≤ f w) (ho : ∀ v, v ≠ w → f' v = f v) : (∑ v, f' v) + k ≤ ∑ v, f v := by
  rw [← Finset.add_sum_erase _ _ (Finset.mem_univ w), ← Finset.add_sum_erase _ f (Finset.mem_univ w)]
  have : ∑ v ∈ Finset.univ.erase w, f' v = ∑ v ∈ Finset.univ.erase w, f v := Finset.sum_congr rfl fun v hv => ho v (Finset.mem_erase.mp hv).1
  omega

theorem sum_send (s : LbSt W G C) (g : G) (c : C) : ∑ w, (3 * ((s.send grp g c).inbox w).length + ((s.send grp g c).worker w).weight) ≤ (∑ w, (3 * (s.inbox w).length + (s.worker w).weight)) + 3 * Fintype.card W := by
  have : ∀ w ∈ (Finset.univ : Finset W), 3 * ((s.send grp g c).inbox w).length + ((s.send grp g c).worker w).weight ≤ (3 * (s.inbox w).length + (s.worker w).weight) + 3 := by
    intro w _
    simp only [LbSt.send]
    split <;> simp <;> omega
  refine (Finset.sum_le_sum this).trans ?_
  rw [Finset.sum_add_distrib]
  simp [Finset.card_univ]
  omega

theorem lbMeasure_step {s s' : LbSt W G C} (h : LbStep grp out s s') : lbMeasure s' < lbMeasure s := by
  cases h with
  | seedSend g left c rest hp hr =>
    have := sum_send (grp := grp) ({ s with phase := .seed left, remaining := rest } : LbSt W G C) g c
    unfold lbMeasure
    rw [hp, hr]
    simp only [LbSt.send, LbPhase.weight, List.length_cons, Nat.succ_mul] at this ⊢
    omega
  | seedEmpty g left hp hr =>
    unfold lbMeasure
    rw [hp]
    by_cases h0 : s.sent > 0
    · simp only [if_pos h0, LbPhase.weight, List.length_cons]; omega
    · simp only [if_neg h0, LbPhase.weight, List.length_cons]; omega
  | seedDone hp =>
    unfold lbMeasure
    rw [hp]
    by_cases h0 : s.sent > 0
    · simp only [if_pos h0, LbPhase.weight, List.length_nil]; omega
    · simp only [if_neg h0, LbPhase.weight, List.length_nil]; omega
  | recv w c l1 l2 hp ho =>
    have key : ∀ s2 : LbSt W G C, s2.outbox = l1 ++ l2 → s2.remaining.length * (3 * Fintype.card W + 1) + (∑ w, (3 * (s2.inbox w).length + (s2.worker w).weight)) ≤ s.remaining.length * (3 * Fintype.card W + 1) + (∑ w, (3 * (s.inbox w).length + (s.worker w).weight)) →
        lbMeasure { s2 with phase := if s2.received = s2.sent then .stop else .loop } < lbMeasure s := by
      intro s2 h1 h2
      unfold lbMeasure
      rw [hp, ho]
      simp only [h1, List.length_append, List.length_cons]
      split <;> simp only [LbPhase.weight] <;> omega
    unfold LbSt.recv
    simp only
    apply key
    · split
      · split
        · rfl
        · unfold LbSt.complete
          simp only
          split
          · cases s.remaining <;> rfl
          · rfl
      · rfl
    · split
      · split
        · exact le_refl _
        · unfold LbSt.complete
          simp only
          split
          · cases hr : s.remaining with
            | nil => exact le_refl _
            | cons c' rest =>
              simp only
              refine (Nat.add_le_add_left (sum_send (grp := grp) _ (grp w) c') _).trans ?_
              simp only [LbSt.send, List.length_cons, Nat.succ_mul]
              omega
          · exact le_refl _
      · exact le_refl _
  | stop hp =>
    unfold lbMeasure
    rw [hp]
    have : ∑ w, (3 * (s.inbox w ++ [none]).length + (s.worker w).weight) = (∑ w, (3 * (s.inbox w).length + (s.worker w).weight)) + 3 * Fintype.card W := by
      have he : ∀ w, 3 * (s.inbox w ++ [none]).length + (s.worker w).weight = (3 * (s.inbox w).length + (s.worker w).weight) + 3 := fun w => by simp; omega
      simp only [he, Finset.sum_add_distrib]
      simp [Finset.card_univ]
      omega
    simp only [LbPhase.weight, this]
    omega
  | take w c r hi hb =>
    have := sum_update_lt (fun v => 3 * (s.inbox v).length + (s.worker v).weight) (fun v => 3 * ((Function.update s.inbox w r) v).length + ((Function.update s.worker w (.busy c)) v).weight) w 1
      (by simp only [Function.update_self]; rw [hb, hi]; simp [WSt.weight]; omega) (fun v hv => by simp only [Function.update_of_ne hv])
    unfold lbMeasure
    simp only
    omega
  | takeStop w r hi hb =>
    have := sum_update_lt (fun v => 3 * (s.inbox v).length + (s.worker v).weight) (fun v => 3 * ((Function.update s.inbox w r) v).length + ((Function.update s.worker w .stopped) v).weight) w 1
      (by simp only [Function.update_self]; rw [hb, hi]; simp [WSt.weight]; omega) (fun v hv => by simp only [Function.update_of_ne hv])
    unfold lbMeasure
    simp only
    omega
  | reply w c hb =>
    have := sum_update_lt (fun v => 3 * (s.inbox v).length + (s.worker v).weight) (fun v => 3 * (s.inbox v).length + ((Function.update s.worker w .idle) v).weight) w 2
      (by simp only [Function.update_self]; rw [hb]; simp [WSt.weight]) (fun v hv => by simp only [Function.update_of_ne hv])
    unfold lbMeasure
    simp only [List.length_append, List.length_singleton]
    omega

end OpenMDAO
