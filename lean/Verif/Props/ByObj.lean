import Verif.Spec.ByObj
import Verif.Props.Gather
import Mathlib.Data.List.Basic
import Mathlib.Data.List.Nodup
import Mathlib.Data.List.Pairwise
import Mathlib.Tactic.Tauto
/-!
# C163: pass-by-object variables arrive on all processes
-/
namespace OpenMDAO
set_option linter.unusedSectionVars false

variable {κ α : Type} [DecidableEq κ]

/-- The target of an action. -/
def BoAct.targ : BoAct κ α → Option κ
  | .recv _ _ t => some t
  | .copy t _ => some t
  | _ => none

def boSendAct (e : Nat × Nat × α) : BoAct κ α := .send e.1 e.2.1 e.2.2

/-- The value that an assignment on process `p` gives to its target. -/
def BoGives (S : Nat → List (Nat × Nat × α)) (p : Nat) (a : BoAct κ α) (tgt : κ) (v : α) : Prop :=
  a = .copy tgt v ∨ ∃ s t, a = .recv s t tgt ∧ (p, t, v) ∈ S s

def BoMsg.key (m : BoMsg α) : Nat × Nat × Nat := (m.src, m.dst, m.tag)

/-- Sends and receives match. -/
structure BoPlan (n : Nat) (S : Nat → List (Nat × Nat × α)) (R : Nat → List (BoAct κ α)) : Prop where
  pos : 0 < n
  nodup : ∀ p < n, ((S p).map fun e => (e.1, e.2.1)).Nodup
  acts : ∀ p < n, ∀ a ∈ R p, (∃ tgt v, a = .copy tgt v) ∨ ∃ s t tgt, a = .recv s t tgt ∧ s < n ∧ ∃ v, (p, t, v) ∈ S s
  dest : ∀ p < n, ∀ d t v, (d, t, v) ∈ S p → d < n ∧ ∃ tgt, BoAct.recv p t tgt ∈ R d
  rkeys : ∀ p < n, (R p).Pairwise fun a b => ∀ s t x y, a = .recv s t x → b ≠ .recv s t y
  tgts : ∀ p < n, (R p).Pairwise fun a b => a.targ ≠ b.targ

theorem BoPlan.func {n : Nat} {S : Nat → List (Nat × Nat × α)} {R : Nat → List (BoAct κ α)} (h : BoPlan n S R) {p d t : Nat} {v v' : α} (hp : p < n) (h1 : (d, t, v) ∈ S p) (h2 : (d, t, v') ∈ S p) : v = v' := by
  have := List.inj_on_of_nodup_map (h.nodup p hp) h1 h2 rfl
  exact (Prod.mk.inj (Prod.mk.inj this).2).2

def BoPhase1 (n : Nat) (S : Nat → List (Nat × Nat × α)) (R : Nat → List (BoAct κ α)) (tv0 : Nat → κ → α) (s : BoState κ α) : Prop :=
  ∃ dn rest : Nat → List (Nat × Nat × α), (∀ p < n, S p = dn p ++ rest p ∧ s.prog p = (rest p).map boSendAct ++ .barrier :: R p) ∧
    (∀ m, m ∈ s.net ↔ m.src < n ∧ (m.dst, m.tag, m.val) ∈ dn m.src) ∧ (s.net.map BoMsg.key).Nodup ∧ s.tgtv = tv0

def BoPhase2 (n : Nat) (S : Nat → List (Nat × Nat × α)) (R : Nat → List (BoAct κ α)) (tv0 : Nat → κ → α) (s : BoState κ α) : Prop :=
  ∃ dn : Nat → List (BoAct κ α), (∀ p < n, R p = dn p ++ s.prog p) ∧
    (∀ m, m ∈ s.net ↔ m.src < n ∧ (m.dst, m.tag, m.val) ∈ S m.src ∧ ∃ tgt, BoAct.recv m.src m.tag tgt ∈ s.prog m.dst) ∧ (s.net.map BoMsg.key).Nodup ∧
    (∀ p < n, ∀ a ∈ dn p, ∀ tgt v, BoGives S p a tgt v → s.tgtv p tgt = v) ∧
    (∀ p x, (p < n → ∀ a ∈ dn p, a.targ ≠ some x) → s.tgtv p x = tv0 p x)

/-- In the first phase the head of a program is a send or the barrier. -/
theorem phase1_head {l : List (Nat × Nat × α)} {R : List (BoAct κ α)} {a : BoAct κ α} {rest : List (BoAct κ α)} (h : l.map boSendAct ++ .barrier :: R = a :: rest) :
    (l = [] ∧ a = .barrier ∧ rest = R) ∨ ∃ e l', l = e :: l' ∧ a = boSendAct e ∧ rest = l'.map boSendAct ++ .barrier :: R := by
  cases l with
  | nil =>
    simp only [List.map_nil, List.nil_append, List.cons.injEq] at h
    exact .inl ⟨rfl, h.1.symm, h.2.symm⟩
  | cons e l' =>
    simp only [List.map_cons, List.cons_append, List.cons.injEq] at h
    exact .inr ⟨e, l', rfl, h.1.symm, h.2.symm⟩

theorem phase1_step {eager : α → Bool} {n : Nat} {S : Nat → List (Nat × Nat × α)} {R : Nat → List (BoAct κ α)} (hP : BoPlan n S R) {tv0 : Nat → κ → α} {s s' : BoState κ α} (h : BoPhase1 n S R tv0 s)
    (hs : BoStep eager n s s') : BoPhase1 n S R tv0 s' ∨ ((∀ p < n, s.prog p = .barrier :: R p) ∧ BoPhase2 n S R tv0 s') := by
  obtain ⟨dn, rest, h1, h2, h3, h4⟩ := h
  cases hs with
  | post p dst tag v rs hp h he =>
    left
    have hp1 := h1 p hp
    rw [hp1.2] at h
    rcases phase1_head h with ⟨-, h0, -⟩ | ⟨e, l', hl, ha, hr⟩
    · cases h0
    · obtain ⟨d, t, w⟩ := e
      simp only [boSendAct, BoAct.send.injEq] at ha
      obtain ⟨rfl, rfl, rfl⟩ := ha
      refine ⟨Function.update dn p (dn p ++ [(dst, tag, v)]), Function.update rest p l', ?_, ?_, ?_, h4⟩
      · intro q hq
        by_cases hqp : q = p
        · subst hqp
          simp only [Function.update_self]
          exact ⟨by rw [hp1.1, hl]; simp, hr⟩
        · simp only [Function.update_of_ne hqp]
          exact h1 q hq
      · intro m
        simp only [List.mem_append, List.mem_singleton, h2]
        by_cases hm : m.src = p
        · rw [hm, Function.update_self, List.mem_append, List.mem_singleton]
          constructor
          · rintro (⟨h, h'⟩ | rfl)
            · exact ⟨h, .inl h'⟩
            · exact ⟨hp, .inr rfl⟩
          · rintro ⟨h, h' | h'⟩
            · exact .inl ⟨h, h'⟩
            · right
              obtain ⟨a, b, c, d⟩ := m
              simp only [Prod.mk.injEq] at h' hm
              obtain ⟨rfl, rfl, rfl⟩ := h'
              rw [hm]
        · rw [Function.update_of_ne hm]
          constructor
          · rintro (h | rfl)
            · exact h
            · exact absurd rfl hm
          · exact fun h => .inl h
      · simp only [List.map_append, List.map_cons, List.map_nil]
        rw [List.nodup_append]
        refine ⟨h3, by simp, ?_⟩
        intro a ha b hb hab
        rw [List.mem_singleton] at hb
        subst hb hab
        obtain ⟨m, hm, hk⟩ := List.mem_map.1 ha
        simp only [BoMsg.key, Prod.mk.injEq] at hk
        have hmd := ((h2 m).1 hm).2
        rw [hk.1, hk.2.1, hk.2.2] at hmd
        have hnd := hP.nodup p hp
        rw [hp1.1, hl, List.map_append, List.nodup_append] at hnd
        refine hnd.2.2 (dst, tag) (List.mem_map.2 ⟨_, hmd, rfl⟩) (dst, tag) ?_ rfl
        simp
  | meet p q tag v tgt rs rs' hp hq hne h h' hno =>
    rw [(h1 q hq).2] at h'
    rcases phase1_head h' with ⟨-, h0, -⟩ | ⟨e, l', hl, ha, hr⟩
    · cases h0
    · cases ha
  | barrier rs h =>
    right
    have hall : ∀ p < n, rest p = [] ∧ rs p = R p := by
      intro p hp
      have := h p hp
      rw [(h1 p hp).2] at this
      rcases phase1_head this with ⟨h0, -, hr⟩ | ⟨e, l', hl, ha, hr⟩
      · exact ⟨h0, hr⟩
      · cases ha
    refine ⟨fun p hp => by rw [(h1 p hp).2, (hall p hp).1]; rfl, fun _ => [], ?_, ?_, h3, ?_, ?_⟩
    · intro p hp
      simp [hp, (hall p hp).2]
    · intro m
      simp only [h2]
      constructor
      · rintro ⟨ha, hb⟩
        have hS : S m.src = dn m.src := by rw [(h1 _ ha).1, (hall _ ha).1, List.append_nil]
        rw [← hS] at hb
        obtain ⟨hd, tgt, ht⟩ := hP.dest _ ha _ _ _ hb
        refine ⟨ha, hb, tgt, ?_⟩
        rw [if_pos hd, (hall _ hd).2]
        exact ht
      · rintro ⟨ha, hb, -⟩
        have hS : S m.src = dn m.src := by rw [(h1 _ ha).1, (hall _ ha).1, List.append_nil]
        exact ⟨ha, by rw [← hS]; exact hb⟩
    · intro p hp a ha; cases ha
    · intro p x _; exact congrFun (congrFun h4 p) x
  | recv q p tag v tgt rs pre post hq h hn hno =>
    rw [(h1 q hq).2] at h
    rcases phase1_head h with ⟨-, h0, -⟩ | ⟨e, l', hl, ha, hr⟩
    · cases h0
    · cases ha
  | copy p tgt v rs hp h =>
    rw [(h1 p hp).2] at h
    rcases phase1_head h with ⟨-, h0, -⟩ | ⟨e, l', hl, ha, hr⟩
    · cases h0
    · cases ha

theorem phase2_head {n : Nat} {S : Nat → List (Nat × Nat × α)} {R : Nat → List (BoAct κ α)} (hP : BoPlan n S R) {dn : Nat → List (BoAct κ α)} {s : BoState κ α} (h1 : ∀ p < n, R p = dn p ++ s.prog p) {p : Nat} (hp : p < n) {a : BoAct κ α}
    {rs : List (BoAct κ α)} (h : s.prog p = a :: rs) : (∃ tgt v, a = .copy tgt v) ∨ ∃ s t tgt, a = .recv s t tgt ∧ s < n ∧ ∃ v, (p, t, v) ∈ S s :=
  hP.acts p hp a (by rw [h1 p hp, h]; simp)

/-- One assignment in the second phase. -/
theorem phase2_assign {n : Nat} {S : Nat → List (Nat × Nat × α)} {R : Nat → List (BoAct κ α)} (hP : BoPlan n S R) {tv0 : Nat → κ → α} {s : BoState κ α} {dn : Nat → List (BoAct κ α)} (h1 : ∀ p < n, R p = dn p ++ s.prog p)
    (h4 : ∀ p < n, ∀ a ∈ dn p, ∀ tgt v, BoGives S p a tgt v → s.tgtv p tgt = v) (h5 : ∀ p x, (p < n → ∀ a ∈ dn p, a.targ ≠ some x) → s.tgtv p x = tv0 p x)
    {p : Nat} (hp : p < n) {a : BoAct κ α} {rs : List (BoAct κ α)} (h : s.prog p = a :: rs) {tgt : κ} {v : α} (hg : BoGives S p a tgt v) (huniq : ∀ w x, BoGives S p a x w → x = tgt ∧ w = v) (ht : a.targ = some tgt) :
    (∀ q < n, R q = Function.update dn p (dn p ++ [a]) q ++ Function.update s.prog p rs q) ∧
    (∀ q < n, ∀ b ∈ Function.update dn p (dn p ++ [a]) q, ∀ x w, BoGives S q b x w → Function.update s.tgtv p (Function.update (s.tgtv p) tgt v) q x = w) ∧
    (∀ q x, (q < n → ∀ b ∈ Function.update dn p (dn p ++ [a]) q, b.targ ≠ some x) → Function.update s.tgtv p (Function.update (s.tgtv p) tgt v) q x = tv0 q x) := by
  have hpw := hP.tgts p hp
  rw [h1 p hp, h, List.pairwise_append] at hpw
  refine ⟨?_, ?_, ?_⟩
  · intro q hq
    by_cases hqp : q = p
    · subst hqp
      simp only [Function.update_self]
      rw [h1 q hq, h]; simp
    · simp only [Function.update_of_ne hqp]
      exact h1 q hq
  · intro q hq b hb x w hbg
    by_cases hqp : q = p
    · subst hqp
      simp only [Function.update_self, List.mem_append, List.mem_singleton] at hb ⊢
      rcases hb with hb | rfl
      · have hne : x ≠ tgt := by
          rintro rfl
          refine hpw.2.2 b hb a List.mem_cons_self ?_
          rw [ht]
          rcases hbg with rfl | ⟨s', t', rfl, -⟩ <;> rfl
        rw [Function.update_of_ne hne]
        exact h4 q hq b hb x w hbg
      · obtain ⟨rfl, rfl⟩ := huniq w x hbg
        simp
    · simp only [Function.update_of_ne hqp] at hb ⊢
      exact h4 q hq b hb x w hbg
  · intro q x hx
    by_cases hqp : q = p
    · subst hqp
      simp only [Function.update_self] at hx ⊢
      have hne : x ≠ tgt := by
        rintro rfl
        exact hx hp a (by simp) ht
      rw [Function.update_of_ne hne]
      exact h5 q x fun hq b hb => hx hq b (by simp [hb])
    · simp only [Function.update_of_ne hqp] at hx ⊢
      exact h5 q x hx

theorem phase2_step {eager : α → Bool} {n : Nat} {S : Nat → List (Nat × Nat × α)} {R : Nat → List (BoAct κ α)} (hP : BoPlan n S R) {tv0 : Nat → κ → α} {s s' : BoState κ α} (h : BoPhase2 n S R tv0 s)
    (hs : BoStep eager n s s') : BoPhase2 n S R tv0 s' := by
  obtain ⟨dn, h1, h2, h3, h4, h5⟩ := h
  cases hs with
  | post p dst tag v rs hp h he =>
    rcases phase2_head hP h1 hp h with ⟨_, _, h0⟩ | ⟨_, _, _, h0, -⟩ <;> cases h0
  | meet p q tag v tgt rs rs' hp hq hne h h' hno =>
    rcases phase2_head hP h1 hp h with ⟨_, _, h0⟩ | ⟨_, _, _, h0, -⟩ <;> cases h0
  | barrier rs h =>
    rcases phase2_head hP h1 hP.pos (h 0 hP.pos) with ⟨_, _, h0⟩ | ⟨_, _, _, h0, -⟩ <;> cases h0
  | recv q p tag v tgt rs pre post hq h hn hno =>
    have hin : (⟨p, q, tag, v⟩ : BoMsg α) ∈ s.net := by rw [hn]; simp
    obtain ⟨hp, hv, -⟩ := (h2 _).1 hin
    simp only at hp hv
    have hg : BoGives S q (BoAct.recv p tag tgt) tgt v := .inr ⟨p, tag, rfl, hv⟩
    obtain ⟨g1, g2, g3⟩ := phase2_assign hP h1 h4 h5 hq h hg (by
      rintro w x (h0 | ⟨s', t', h0, h0'⟩)
      · cases h0
      · simp only [BoAct.recv.injEq] at h0
        obtain ⟨rfl, rfl, rfl⟩ := h0
        exact ⟨rfl, hP.func hp h0' hv⟩) rfl
    refine ⟨_, g1, ?_, ?_, g2, g3⟩
    · intro m
      have hnd : (s.net.map BoMsg.key).Nodup := h3
      rw [hn] at hnd
      simp only [List.map_append, List.map_cons] at hnd
      have hmem : m ∈ pre ++ post ↔ m ∈ s.net ∧ m.key ≠ (p, q, tag) := by
        rw [hn]
        constructor
        · intro hm
          refine ⟨?_, ?_⟩
          · rcases List.mem_append.1 hm with hm | hm <;> simp [hm]
          · intro hk
            rcases List.mem_append.1 hm with hm | hm
            · simp only [BoMsg.key, Prod.mk.injEq] at hk
              exact hno m hm hk
            · rw [List.nodup_append] at hnd
              have := (List.nodup_cons.1 hnd.2.1).1
              exact this (List.mem_map.2 ⟨m, hm, hk⟩)
        · rintro ⟨hm, hk⟩
          rcases List.mem_append.1 hm with hm | hm
          · simp [hm]
          · rcases List.mem_cons.1 hm with rfl | hm
            · exact absurd rfl hk
            · simp [hm]
      simp only
      rw [hmem, h2]
      have hpw := hP.rkeys q hq
      rw [h1 q hq, h, List.pairwise_append] at hpw
      have hpw2 := List.pairwise_cons.1 hpw.2.1
      constructor
      · rintro ⟨⟨ha, hb, x, hx⟩, hk⟩
        refine ⟨ha, hb, x, ?_⟩
        by_cases hd : m.dst = q
        · rw [hd, Function.update_self]
          rw [hd, h] at hx
          rcases List.mem_cons.1 hx with h0 | h0
          · simp only [BoAct.recv.injEq] at h0
            exact absurd (by simp [BoMsg.key, h0.1, h0.2.1, hd]) hk
          · exact h0
        · rw [Function.update_of_ne hd]; exact hx
      · rintro ⟨ha, hb, x, hx⟩
        by_cases hd : m.dst = q
        · rw [hd, Function.update_self] at hx
          refine ⟨⟨ha, hb, x, by rw [hd, h]; exact List.mem_cons_of_mem _ hx⟩, ?_⟩
          intro hk
          simp only [BoMsg.key, Prod.mk.injEq] at hk
          rw [hk.1, hk.2.2] at hx
          exact hpw2.1 _ hx p tag tgt x rfl rfl
        · rw [Function.update_of_ne hd] at hx
          refine ⟨⟨ha, hb, x, hx⟩, ?_⟩
          intro hk
          simp only [BoMsg.key, Prod.mk.injEq] at hk
          exact hd hk.2.1
    · have hnd : (s.net.map BoMsg.key).Nodup := h3
      rw [hn] at hnd
      refine hnd.sublist ?_
      exact (List.Sublist.append_left (List.sublist_cons_self _ _) pre).map _
  | copy p tgt v rs hp h =>
    obtain ⟨g1, g2, g3⟩ := phase2_assign hP h1 h4 h5 hp h (.inl rfl : BoGives S p (BoAct.copy tgt v) tgt v) (by
      rintro w x (h0 | ⟨s', t', h0, h0'⟩)
      · simp only [BoAct.copy.injEq] at h0; exact ⟨h0.1.symm, h0.2.symm⟩
      · cases h0) rfl
    refine ⟨_, g1, ?_, h3, g2, g3⟩
    intro m
    rw [h2]
    by_cases hd : m.dst = p
    · simp only [hd, Function.update_self, h, List.mem_cons, reduceCtorEq, false_or]
    · simp only [Function.update_of_ne hd]

theorem phase_run {eager : α → Bool} {n : Nat} {S : Nat → List (Nat × Nat × α)} {R : Nat → List (BoAct κ α)} (hP : BoPlan n S R) {tv0 : Nat → κ → α} {s s' : BoState κ α} (h : BoPhase1 n S R tv0 s) (hs : BoRun eager n s s') :
    BoPhase1 n S R tv0 s' ∨ BoPhase2 n S R tv0 s' := by
  induction hs with
  | refl => exact .inl h
  | tail _ hst ih =>
    rcases ih with ih | ih
    · exact (phase1_step hP ih hst).imp_right And.right
    · exact .inr (phase2_step hP ih hst)

/-- In a state that is not final a step is possible, if all messages are buffered. -/
theorem phase_progress {eager : α → Bool} {n : Nat} {S : Nat → List (Nat × Nat × α)} {R : Nat → List (BoAct κ α)} (hP : BoPlan n S R) (he : ∀ p < n, ∀ e ∈ S p, eager e.2.2 = true) {tv0 : Nat → κ → α} {s : BoState κ α}
    (h : BoPhase1 n S R tv0 s ∨ BoPhase2 n S R tv0 s) : s.Done n ∨ ∃ s', BoStep eager n s s' := by
  rcases h with ⟨dn, rest, h1, h2, h3, h4⟩ | ⟨dn, h1, h2, h3, h4, h5⟩
  · right
    by_cases hr : ∀ p < n, rest p = []
    · exact ⟨_, .barrier s R fun p hp => by rw [(h1 p hp).2, hr p hp]; rfl⟩
    · push Not at hr
      obtain ⟨p, hp, hne⟩ := hr
      cases hl : rest p with
      | nil => exact absurd hl hne
      | cons e l =>
        obtain ⟨d, t, v⟩ := e
        have := (h1 p hp).2
        rw [hl] at this
        exact ⟨_, .post s p d t v _ hp this (he p hp (d, t, v) (by rw [(h1 p hp).1, hl]; simp))⟩
  · by_cases hr : ∀ p < n, s.prog p = []
    · exact .inl hr
    · right
      push Not at hr
      obtain ⟨p, hp, hne⟩ := hr
      cases hl : s.prog p with
      | nil => exact absurd hl hne
      | cons a l =>
        rcases phase2_head hP h1 hp hl with ⟨tgt, v, rfl⟩ | ⟨q, t, tgt, rfl, hq, v, hv⟩
        · exact ⟨_, .copy s p tgt v l hp hl⟩
        · have hin : (⟨q, p, t, v⟩ : BoMsg α) ∈ s.net := (h2 _).2 ⟨hq, hv, tgt, by simp [hl]⟩
          obtain ⟨pre, post, hn⟩ := List.append_of_mem hin
          refine ⟨_, .recv s p q t v tgt l pre post hp hl hn ?_⟩
          intro m hm hk
          rw [hn, List.map_append, List.map_cons, List.nodup_append] at h3
          exact h3.2.2 m.key (List.mem_map_of_mem hm) (q, p, t) (by simp [BoMsg.key]) (by simp [BoMsg.key, hk.1, hk.2.1, hk.2.2])

/-- In the final state every assignment has been made and no message is left. -/
theorem phase_done {n : Nat} {S : Nat → List (Nat × Nat × α)} {R : Nat → List (BoAct κ α)} (hP : BoPlan n S R) {tv0 : Nat → κ → α} {s : BoState κ α} (h : BoPhase1 n S R tv0 s ∨ BoPhase2 n S R tv0 s) (hd : s.Done n) :
    s.net = [] ∧ (∀ p < n, ∀ a ∈ R p, ∀ tgt v, BoGives S p a tgt v → s.tgtv p tgt = v) ∧ ∀ p x, (p < n → ∀ a ∈ R p, a.targ ≠ some x) → s.tgtv p x = tv0 p x := by
  rcases h with ⟨dn, rest, h1, -⟩ | ⟨dn, h1, h2, h3, h4, h5⟩
  · have := (h1 0 hP.pos).2
    rw [hd 0 hP.pos] at this
    simp at this
  · have hR : ∀ p < n, R p = dn p := fun p hp => by rw [h1 p hp, hd p hp, List.append_nil]
    refine ⟨?_, ?_, ?_⟩
    · rw [List.eq_nil_iff_forall_not_mem]
      intro m hm
      obtain ⟨ha, hb, tgt, ht⟩ := (h2 m).1 hm
      rw [hd _ (hP.dest _ ha _ _ _ hb).1] at ht
      cases ht
    · intro p hp a ha; rw [hR p hp] at ha; exact h4 p hp a ha
    · intro p x hx
      exact h5 p x fun hp a ha => hx hp a (by rw [hR p hp]; exact ha)

/-- A message that is not buffered is never sent. -/
theorem phase_stuck {eager : α → Bool} {n : Nat} {S : Nat → List (Nat × Nat × α)} {R : Nat → List (BoAct κ α)} (hP : BoPlan n S R) {tv0 : Nat → κ → α} {p : Nat} (hp : p < n) {e : Nat × Nat × α} (hne : eager e.2.2 = false)
    {s s' : BoState κ α} (h : BoPhase1 n S R tv0 s) (hin : boSendAct e ∈ s.prog p) (hs : BoRun eager n s s') : BoPhase1 n S R tv0 s' ∧ boSendAct e ∈ s'.prog p := by
  have hR : boSendAct e ∉ BoAct.barrier :: R p := by
    intro h0
    rcases List.mem_cons.1 h0 with h0 | h0
    · cases h0
    · rcases hP.acts p hp _ h0 with ⟨_, _, h0⟩ | ⟨_, _, _, h0, -⟩ <;> cases h0
  induction hs with
  | refl => exact ⟨h, hin⟩
  | tail _ hst ih =>
    obtain ⟨ih1, ih2⟩ := ih
    rcases phase1_step hP ih1 hst with h1 | ⟨h1, -⟩
    · refine ⟨h1, ?_⟩
      obtain ⟨dn, rest, g1, -⟩ := ih1
      cases hst with
      | post q dst tag v rs hq h he =>
        by_cases hqp : p = q
        · subst hqp
          rw [h] at ih2
          simp only [Function.update_self]
          rcases List.mem_cons.1 ih2 with h0 | h0
          · obtain ⟨d, t, w⟩ := e
            simp only [boSendAct, BoAct.send.injEq] at h0
            rw [← h0.2.2] at he
            rw [he] at hne; cases hne
          · exact h0
        · simp only [Function.update_of_ne hqp]; exact ih2
      | meet a b tag v tgt rs rs' ha hb hne' h h' hno =>
        rw [(g1 b hb).2] at h'
        rcases phase1_head h' with ⟨-, h0, -⟩ | ⟨_, _, _, h0, -⟩ <;> cases h0
      | barrier rs h =>
        have h0 := h p hp
        rw [(g1 p hp).2] at h0
        rcases phase1_head h0 with ⟨h2, -, -⟩ | ⟨_, _, _, h2, -⟩
        · rw [(g1 p hp).2, h2] at ih2
          exact absurd ih2 hR
        · cases h2
      | recv q a tag v tgt rs pre post hq h hn hno =>
        rw [(g1 q hq).2] at h
        rcases phase1_head h with ⟨-, h0, -⟩ | ⟨_, _, _, h0, -⟩ <;> cases h0
      | copy q tgt v rs hq h =>
        rw [(g1 q hq).2] at h
        rcases phase1_head h with ⟨-, h0, -⟩ | ⟨_, _, _, h0, -⟩ <;> cases h0
    · rw [h1 p hp] at ih2
      exact absurd ih2 hR

/-! ## The programs of the code match -/

/-- The sends of process `p`. -/
def boS (locals : List (List κ)) (conns : List (κ × κ)) (srcv : κ → α) (p : Nat) : List (Nat × Nat × α) :=
  conns.zipIdx.flatMap fun c => if (owningRanks locals).lookup c.1.2 = some p then (locals.zipIdx.filter fun l => decide (l.2 ≠ p ∧ c.1.2 ∉ l.1 ∧ c.1.1 ∈ l.1)).map fun l => (l.2, c.2, srcv c.1.2) else []

theorem boProg_eq (locals : List (List κ)) (conns : List (κ × κ)) (hsrc : ∀ c ∈ conns, ∃ q, BoHolds locals c.2 q) (hne : conns ≠ []) (srcv : κ → α) (p : Nat) :
    boProg locals conns srcv p = (boS locals conns srcv p).map boSendAct ++ .barrier :: conns.zipIdx.flatMap (boRecvs locals srcv p) := by
  have h0 : conns.isEmpty = false := by cases conns <;> simp at hne ⊢
  simp only [boProg, h0, Bool.false_eq_true, if_false, boS, List.map_flatMap]
  congr 1
  rw [List.flatMap_def, List.flatMap_def]
  congr 1
  refine List.map_congr_left fun c hc => ?_
  obtain ⟨q, T, hT, hv⟩ := hsrc c.1 (List.fst_mem_of_mem_zipIdx hc)
  obtain ⟨r, hr⟩ := (C59_owner_exists locals c.1.2).2 ⟨T, List.mem_of_getElem? hT, hv⟩
  simp only [boSends, hr, Option.some.injEq]
  by_cases hpr : p = r
  · subst hpr
    simp [boSendAct, Function.comp_def]
  · rw [if_neg hpr, if_neg (fun h => hpr h.symm)]; rfl

theorem mem_boS {locals : List (List κ)} {conns : List (κ × κ)} {srcv : κ → α} {p d t : Nat} {v : α} :
    (d, t, v) ∈ boS locals conns srcv p ↔ ∃ c, conns[t]? = some c ∧ (owningRanks locals).lookup c.2 = some p ∧ d ≠ p ∧ (∃ T, locals[d]? = some T ∧ c.2 ∉ T ∧ c.1 ∈ T) ∧ v = srcv c.2 := by
  simp only [boS, List.mem_flatMap]
  constructor
  · rintro ⟨⟨c, i⟩, hc, h⟩
    split at h
    · rename_i ho
      obtain ⟨⟨T, j⟩, hT, he⟩ := List.mem_map.1 h
      simp only [Prod.mk.injEq] at he
      obtain ⟨rfl, rfl, rfl⟩ := he
      obtain ⟨hT1, hT2⟩ := List.mem_filter.1 hT
      simp only [decide_eq_true_eq] at hT2
      exact ⟨c, List.mem_zipIdx_iff_getElem?.1 hc, ho, hT2.1, ⟨T, List.mem_zipIdx_iff_getElem?.1 hT1, hT2.2⟩, rfl⟩
    · cases h
  · rintro ⟨c, hc, ho, hd, ⟨T, hT, h1, h2⟩, rfl⟩
    refine ⟨(c, t), List.mem_zipIdx_iff_getElem?.2 hc, ?_⟩
    rw [if_pos ho]
    refine List.mem_map.2 ⟨(T, d), List.mem_filter.2 ⟨List.mem_zipIdx_iff_getElem?.2 hT, ?_⟩, rfl⟩
    simp [hd, h1, h2]

theorem getD_holds {locals : List (List κ)} {p : Nat} {x : κ} : x ∈ locals.getD p [] ↔ BoHolds locals x p := by
  rw [List.getD_eq_getElem?_getD]
  cases h : locals[p]? with
  | none => simp [BoHolds, h]
  | some T => simp [BoHolds, h]

/-- The receive list: for each connection whose target is here, a copy or a receive. -/
theorem mem_boR {locals : List (List κ)} {conns : List (κ × κ)} (hsrc : ∀ c ∈ conns, ∃ q, BoHolds locals c.2 q) {srcv : κ → α} {p : Nat} {a : BoAct κ α} :
    a ∈ conns.zipIdx.flatMap (boRecvs locals srcv p) ↔ ∃ c t, conns[t]? = some c ∧ BoHolds locals c.1 p ∧
      ((BoHolds locals c.2 p ∧ a = .copy c.1 (srcv c.2)) ∨ (¬ BoHolds locals c.2 p ∧ ∃ r, (owningRanks locals).lookup c.2 = some r ∧ a = .recv r t c.1)) := by
  simp only [List.mem_flatMap]
  constructor
  · rintro ⟨⟨c, i⟩, hc, h⟩
    refine ⟨c, i, List.mem_zipIdx_iff_getElem?.1 hc, ?_⟩
    simp only [boRecvs] at h
    split at h
    · rename_i h1
      refine ⟨getD_holds.1 h1, ?_⟩
      split at h
      · rename_i h2
        exact .inl ⟨getD_holds.1 h2, List.mem_singleton.1 h⟩
      · rename_i h2
        refine .inr ⟨fun h3 => h2 (getD_holds.2 h3), ?_⟩
        split at h
        · rename_i hn
          obtain ⟨q, T, hT, hv⟩ := hsrc c (List.fst_mem_of_mem_zipIdx hc)
          obtain ⟨r, hr⟩ := (C59_owner_exists locals c.2).2 ⟨T, List.mem_of_getElem? hT, hv⟩
          rw [hr] at hn; cases hn
        · rename_i r hr
          exact ⟨r, hr, List.mem_singleton.1 h⟩
    · cases h
  · rintro ⟨c, t, hc, h1, h⟩
    refine ⟨(c, t), List.mem_zipIdx_iff_getElem?.2 hc, ?_⟩
    simp only [boRecvs]
    rw [if_pos (getD_holds.2 h1)]
    rcases h with ⟨h2, rfl⟩ | ⟨h2, r, hr, rfl⟩
    · rw [if_pos (getD_holds.2 h2)]; simp
    · rw [if_neg (fun h3 => h2 (getD_holds.1 h3)), hr]; simp

theorem zipIdx_pairwise {β : Type} (l : List β) : l.zipIdx.Pairwise fun a b => a.2 ≠ b.2 := by
  have h : (l.zipIdx.map Prod.snd).Nodup := by
    rw [List.zipIdx_map_snd]
    exact List.nodup_range' ..
  exact List.pairwise_map.1 h

theorem boPlan (locals : List (List κ)) (conns : List (κ × κ)) (hsrc : ∀ c ∈ conns, ∃ q, BoHolds locals c.2 q) (htgt : (conns.map Prod.fst).Nodup) (hpos : locals ≠ []) (srcv : Nat → κ → α) :
    BoPlan locals.length (fun p => boS locals conns (srcv p) p) (fun p => conns.zipIdx.flatMap (boRecvs locals (srcv p) p)) := by
  have hlen : ∀ {q : Nat} {T}, locals[q]? = some T → q < locals.length := fun h => (List.getElem?_eq_some_iff.1 h).1
  have hsingle : ∀ (p : Nat) (c : (κ × κ) × Nat) (Q : BoAct κ α → BoAct κ α → Prop), (boRecvs locals (srcv p) p c).Pairwise Q := by
    intro p c Q
    unfold boRecvs
    split
    · split
      · simp
      · split <;> simp
    · simp
  have htargs : ∀ (p : Nat) (c : (κ × κ) × Nat) (a : BoAct κ α), c ∈ conns.zipIdx → a ∈ boRecvs locals (srcv p) p c → a.targ = some c.1.1 ∧ ∀ s t x, a = .recv s t x → t = c.2 := by
    intro p c a hc ha
    unfold boRecvs at ha
    split at ha
    · split at ha
      · rw [List.mem_singleton] at ha; subst ha
        exact ⟨rfl, fun s t x h => by cases h⟩
      · split at ha
        · rename_i hn
          obtain ⟨q, T, hT, hv⟩ := hsrc c.1 (List.fst_mem_of_mem_zipIdx hc)
          obtain ⟨r, hr⟩ := (C59_owner_exists locals c.1.2).2 ⟨T, List.mem_of_getElem? hT, hv⟩
          rw [hr] at hn; cases hn
        · rw [List.mem_singleton] at ha; subst ha
          exact ⟨rfl, fun s t x h => by simp only [BoAct.recv.injEq] at h; exact h.2.1.symm⟩
    · cases ha
  have hpwmem : ∀ {β : Type} (l : List β) (Q : β → β → Prop), l.Pairwise Q → l.Pairwise fun a b => a ∈ l ∧ b ∈ l ∧ Q a b := by
    intro β l Q h
    exact h.imp_of_mem fun ha hb hq => ⟨ha, hb, hq⟩
  refine ⟨?_, ?_, ?_, ?_, ?_, ?_⟩
  · exact List.length_pos_of_ne_nil hpos
  · intro p hp
    simp only [boS, List.map_flatMap]
    rw [List.nodup_flatMap]
    refine ⟨?_, ?_⟩
    · intro c hc
      split
      · rw [List.map_map]
        have : (locals.zipIdx.filter fun l => decide (l.2 ≠ p ∧ c.1.2 ∉ l.1 ∧ c.1.1 ∈ l.1)).Pairwise fun a b => a.2 ≠ b.2 := (zipIdx_pairwise locals).filter _
        rw [List.Nodup, List.pairwise_map]
        exact this.imp fun h h0 => h (Prod.mk.inj h0).1
      · simp
    · refine (zipIdx_pairwise conns).imp fun {a b} hab => ?_
      intro e he he'
      dsimp only at he he'
      split at he
      · split at he'
        · simp only [List.mem_map] at he he'
          obtain ⟨e1, ⟨_, _, rfl⟩, rfl⟩ := he
          obtain ⟨e2, ⟨_, _, rfl⟩, h2⟩ := he'
          simp only [Prod.mk.injEq] at h2
          exact hab h2.2.symm
        · cases he'
      · cases he
  · intro p hp a ha
    obtain ⟨c, t, hc, h1, h⟩ := (mem_boR hsrc).1 ha
    rcases h with ⟨h2, rfl⟩ | ⟨h2, r, hr, rfl⟩
    · exact .inl ⟨_, _, rfl⟩
    · refine .inr ⟨r, t, c.1, rfl, ?_, srcv r c.2, ?_⟩
      · obtain ⟨⟨T, hT, -⟩, -⟩ := (C59_owner locals c.2 r).1 hr
        exact hlen hT
      · rw [mem_boS]
        refine ⟨c, hc, hr, ?_, ?_, rfl⟩
        · rintro rfl
          exact h2 ((C59_owner locals c.2 _).1 hr).1
        · obtain ⟨T, hT, h3⟩ := h1
          exact ⟨T, hT, fun h4 => h2 ⟨T, hT, h4⟩, h3⟩
  · intro p hp d t v h
    obtain ⟨c, hc, ho, hd, ⟨T, hT, h1, h2⟩, rfl⟩ := mem_boS.1 h
    refine ⟨hlen hT, c.1, (mem_boR hsrc).2 ⟨c, t, hc, ⟨T, hT, h2⟩, .inr ⟨?_, p, ho, rfl⟩⟩⟩
    rintro ⟨T', hT', h3⟩
    rw [hT] at hT'
    cases hT'
    exact h1 h3
  · intro p hp
    rw [List.pairwise_flatMap]
    refine ⟨fun c _ => hsingle p c _, ?_⟩
    refine (hpwmem _ _ (zipIdx_pairwise conns)).imp fun {c c'} hcc a ha b hb s t x y h1 h2 => ?_
    have e1 := (htargs p c a hcc.1 ha).2 s t x h1
    have e2 := (htargs p c' b hcc.2.1 hb).2 s t y h2
    exact hcc.2.2 (e1.symm.trans e2)
  · intro p hp
    rw [List.pairwise_flatMap]
    refine ⟨fun c _ => hsingle p c _, ?_⟩
    have hpw : conns.zipIdx.Pairwise fun a b => a.1.1 ≠ b.1.1 := by
      have : (conns.zipIdx.map fun c => c.1.1).Nodup := by
        have h0 : (conns.zipIdx.map fun c => c.1.1) = conns.map Prod.fst := by
          rw [show (fun c : (κ × κ) × Nat => c.1.1) = Prod.fst ∘ Prod.fst from rfl, ← List.map_map, List.zipIdx_map_fst]
        rw [h0]; exact htgt
      exact List.pairwise_map.1 this
    refine (hpwmem _ _ hpw).imp fun {c c'} hcc a ha b hb h => ?_
    rw [(htargs p c a hcc.1 ha).1, (htargs p c' b hcc.2.1 hb).1, Option.some.injEq] at h
    exact hcc.2.2 h

theorem boStart_phase (locals : List (List κ)) (conns : List (κ × κ)) (hsrc : ∀ c ∈ conns, ∃ q, BoHolds locals c.2 q) (hne : conns ≠ []) (srcv tgtv : Nat → κ → α) :
    BoPhase1 locals.length (fun p => boS locals conns (srcv p) p) (fun p => conns.zipIdx.flatMap (boRecvs locals (srcv p) p)) tgtv (boStart locals conns srcv tgtv) := by
  refine ⟨fun _ => [], fun p => boS locals conns (srcv p) p, ?_, ?_, ?_, rfl⟩
  · intro p hp
    exact ⟨rfl, boProg_eq locals conns hsrc hne (srcv p) p⟩
  · intro m; simp [boStart]
  · simp [boStart]

theorem owner_from {locals : List (List κ)} {src : κ} {p q r : Nat} (hr : (owningRanks locals).lookup src = some r) (hn : ¬ BoHolds locals src p) (hq : BoFrom locals src p q) : q = r := by
  obtain ⟨h1, h2⟩ := (C59_owner locals src r).1 hr
  rcases Nat.lt_trichotomy q r with h | h | h
  · obtain ⟨T, hT, hv⟩ := hq.1
    exact absurd hv (h2 q h T hT)
  · exact h
  · exact absurd h1 (hq.2.2 hn r h)

/-- A run of a communicator in which no process has anything to do. -/
theorem boRun_done {eager : α → Bool} {n : Nat} (hn : 0 < n) {s s' : BoState κ α} (h : ∀ p, s.prog p = []) (hr : BoRun eager n s s') : s' = s := by
  rcases Relation.ReflTransGen.cases_head hr with rfl | ⟨t, hst, -⟩
  · rfl
  · cases hst with
    | post p _ _ _ _ _ h' => rw [h p] at h'; cases h'
    | meet p _ _ _ _ _ _ _ _ _ h' => rw [h p] at h'; cases h'
    | barrier _ h' => have := h' 0 hn; rw [h 0] at this; cases this
    | recv p _ _ _ _ _ _ _ _ h' => rw [h p] at h'; cases h'
    | copy p _ _ _ _ h' => rw [h p] at h'; cases h'

/-- **C163 (partial), delivery.** Let every value that has to go to another process be one that the MPI library buffers. Then in every interleaving of the processes no process waits for ever; and when all processes have returned, each target that is
local on a process has the value of its source, taken from the process itself if it has the source, otherwise from the lowest process that has it; every other entry of the target vectors is unchanged; and no message is left for a later transfer. -/
theorem C163_delivers_partial (eager : α → Bool) (locals : List (List κ)) (conns : List (κ × κ)) (hpos : locals ≠ []) (hsrc : ∀ c ∈ conns, ∃ q, BoHolds locals c.2 q) (htgt : (conns.map Prod.fst).Nodup) (srcv tgtv : Nat → κ → α)
    (he : ∀ p q c, BoNeeds locals conns p q c → eager (srcv q c.2) = true) (s : BoState κ α) (hrun : BoRun eager locals.length (boStart locals conns srcv tgtv) s) :
    (s.Done locals.length ∨ ∃ s', BoStep eager locals.length s s') ∧
    (s.Done locals.length → s.net = [] ∧ (∀ p < locals.length, ∀ c ∈ conns, BoHolds locals c.1 p → ∀ q, BoFrom locals c.2 p q → s.tgtv p c.1 = srcv q c.2) ∧
      ∀ p x, (BoHolds locals x p → x ∉ conns.map Prod.fst) → s.tgtv p x = tgtv p x) := by
  by_cases hne : conns = []
  · subst hne
    have hs : s = boStart locals [] srcv tgtv := boRun_done (List.length_pos_of_ne_nil hpos) (fun p => rfl) hrun
    subst hs
    exact ⟨.inl fun p _ => rfl, fun _ => ⟨rfl, fun p _ c hc => by simp at hc, fun p x _ => rfl⟩⟩
  · have hP := boPlan locals conns hsrc htgt hpos srcv
    have hph := phase_run hP (boStart_phase locals conns hsrc hne srcv tgtv) hrun
    refine ⟨phase_progress hP ?_ hph, fun hd => ?_⟩
    · rintro p hp ⟨d, t, v⟩ hev
      obtain ⟨c, hc, ho, hdp, ⟨T, hT, h1, h2⟩, rfl⟩ := mem_boS.1 hev
      have hnot : ¬ BoHolds locals c.2 d := by
        rintro ⟨T', hT', h3⟩
        rw [hT] at hT'
        cases hT'
        exact h1 h3
      obtain ⟨h3, h4⟩ := (C59_owner locals c.2 p).1 ho
      exact he d p c ⟨List.mem_of_getElem? hc, ⟨T, hT, h2⟩, hnot, h3, fun h => absurd h hnot, fun _ r hr ⟨T', hT', h5⟩ => h4 r hr T' hT' h5⟩
    · obtain ⟨h1, h2, h3⟩ := phase_done hP hph hd
      refine ⟨h1, ?_, ?_⟩
      · intro p hp c hc htl q hq
        obtain ⟨t, ht⟩ := List.getElem?_of_mem hc
        by_cases hs : BoHolds locals c.2 p
        · rw [hq.2.1 hs]
          exact h2 p hp (.copy c.1 (srcv p c.2)) ((mem_boR hsrc).2 ⟨c, t, ht, htl, .inl ⟨hs, rfl⟩⟩) _ _ (.inl rfl)
        · obtain ⟨q', T, hT, hv⟩ := hsrc c hc
          obtain ⟨r, hr⟩ := (C59_owner_exists locals c.2).2 ⟨T, List.mem_of_getElem? hT, hv⟩
          rw [owner_from hr hs hq]
          refine h2 p hp (.recv r t c.1) ((mem_boR hsrc).2 ⟨c, t, ht, htl, .inr ⟨hs, r, hr, rfl⟩⟩) _ _ (.inr ⟨r, t, rfl, mem_boS.2 ⟨c, ht, hr, ?_, ?_, rfl⟩⟩)
          · rintro rfl
            exact hs ((C59_owner locals c.2 _).1 hr).1
          · obtain ⟨T', hT', h5⟩ := htl
            exact ⟨T', hT', fun h6 => hs ⟨T', hT', h6⟩, h5⟩
      · intro p x hx
        refine h3 p x fun hp a ha hta => ?_
        obtain ⟨c, t, hc, htl, h⟩ := (mem_boR hsrc).1 ha
        have hcx : c.1 = x := by
          rcases h with ⟨-, rfl⟩ | ⟨-, r, -, rfl⟩ <;> · simp only [BoAct.targ, Option.some.injEq] at hta; exact hta
        subst hcx
        exact hx htl (List.mem_map_of_mem (List.mem_of_getElem? hc))

/-- The number of actions left. -/
def boLeft (n : Nat) (s : BoState κ α) : Nat := ((List.range n).map fun p => (s.prog p).length).sum

theorem sum_range_lt (n : Nat) (f g : Nat → Nat) (h : ∀ p < n, f p ≤ g p) (q : Nat) (hq : q < n) (hl : f q < g q) : ((List.range n).map f).sum < ((List.range n).map g).sum := by
  induction n with
  | zero => omega
  | succ n ih =>
    simp only [List.range_succ, List.map_append, List.map_cons, List.map_nil, List.sum_append, List.sum_cons, List.sum_nil, Nat.add_zero]
    have hle : ∀ m, m ≤ n → ((List.range m).map f).sum ≤ ((List.range m).map g).sum := by
      intro m
      induction m with
      | zero => intro _; simp
      | succ m ihm =>
        intro hm
        simp only [List.range_succ, List.map_append, List.map_cons, List.map_nil, List.sum_append, List.sum_cons, List.sum_nil, Nat.add_zero]
        have := ihm (by omega)
        have := h m (by omega)
        omega
    by_cases hqn : q = n
    · subst hqn
      have := hle q (le_refl _)
      omega
    · have := ih (fun p hp => h p (by omega)) (by omega)
      have := h n (by omega)
      omega

theorem boStep_left {eager : α → Bool} {n : Nat} (hn : 0 < n) {s s' : BoState κ α} (h : BoStep eager n s s') : boLeft n s' < boLeft n s := by
  have one : ∀ (p : Nat) (a : BoAct κ α) (rest : List (BoAct κ α)) (t : BoState κ α), p < n → s.prog p = a :: rest → t.prog = Function.update s.prog p rest → boLeft n t < boLeft n s := by
    intro p a rest t hp hs ht
    refine sum_range_lt n _ _ ?_ p hp ?_
    · intro q _
      by_cases hq : q = p
      · subst hq; rw [ht, Function.update_self, hs]; simp
      · rw [ht, Function.update_of_ne hq]
    · rw [ht, Function.update_self, hs]; simp
  cases h with
  | post p dst tag v rs hp h he => exact one p _ rs _ hp h rfl
  | meet p q tag v tgt rs rs' hp hq hne h h' hno =>
    refine sum_range_lt n _ _ ?_ p hp ?_
    · intro k _
      by_cases hk : k = q
      · subst hk; simp only [Function.update_self]; rw [h']; simp
      · by_cases hk2 : k = p
        · subst hk2; simp only [Function.update_of_ne hk, Function.update_self]; rw [h]; simp
        · simp only [Function.update_of_ne hk, Function.update_of_ne hk2]; exact le_refl _
    · simp only [Function.update_of_ne hne, Function.update_self]; rw [h]; simp
  | barrier rs h =>
    refine sum_range_lt n _ _ ?_ 0 hn ?_
    · intro k hk; simp only [if_pos hk]; rw [h k hk]; simp
    · simp only [if_pos hn]; rw [h 0 hn]; simp
  | recv q p tag v tgt rs pre post hq h hn' hno => exact one q _ rs _ hq h rfl
  | copy p tgt v rs hp h => exact one p _ rs _ hp h rfl

/-- **C163, termination.** No run of the communicator is infinite; with C163_delivers_partial every run comes to the state in which all processes have returned. -/
theorem C163_terminates (eager : α → Bool) (n : Nat) (hn : 0 < n) (f : Nat → BoState κ α) : ¬ ∀ k, BoStep eager n (f k) (f (k + 1)) := by
  intro h
  have : ∀ k, boLeft n (f k) + k ≤ boLeft n (f 0) := by
    intro k
    induction k with
    | zero => simp
    | succ k ih =>
      have := boStep_left hn (h k)
      omega
  have := this (boLeft n (f 0) + 1)
  omega

/-- **C163 is false for large objects.** If a value that has to go to another process is not buffered by the MPI library, so that its send waits for the receive, then no run ever ends: all receives come after the barrier, and the sender does not get to the barrier. -/
theorem C163_deadlock_refuted (eager : α → Bool) (locals : List (List κ)) (conns : List (κ × κ)) (hpos : locals ≠ []) (hsrc : ∀ c ∈ conns, ∃ q, BoHolds locals c.2 q) (htgt : (conns.map Prod.fst).Nodup) (srcv tgtv : Nat → κ → α)
    (p q : Nat) (c : κ × κ) (hc : BoNeeds locals conns p q c) (he : eager (srcv q c.2) = false) (s : BoState κ α) (hrun : BoRun eager locals.length (boStart locals conns srcv tgtv) s) :
    ¬ s.Done locals.length := by
  have hP := boPlan locals conns hsrc htgt hpos srcv
  have hne : conns ≠ [] := List.ne_nil_of_mem hc.1
  obtain ⟨t, ht⟩ := List.getElem?_of_mem hc.1
  obtain ⟨T, hT, hv⟩ := hc.2.2.2.1
  obtain ⟨r, hr⟩ := (C59_owner_exists locals c.2).2 ⟨T, List.mem_of_getElem? hT, hv⟩
  have hqr := owner_from hr hc.2.2.1 hc.2.2.2
  subst hqr
  have hq : q < locals.length := (List.getElem?_eq_some_iff.1 hT).1
  have hin : (p, t, srcv q c.2) ∈ boS locals conns (srcv q) q := by
    refine mem_boS.2 ⟨c, ht, hr, ?_, ?_, rfl⟩
    · rintro rfl
      exact hc.2.2.1 hc.2.2.2.1
    · obtain ⟨T', hT', h5⟩ := hc.2.1
      exact ⟨T', hT', fun h6 => hc.2.2.1 ⟨T', hT', h6⟩, h5⟩
  have hstart : (boSendAct (p, t, srcv q c.2) : BoAct κ α) ∈ (boStart locals conns srcv tgtv).prog q := by
    simp only [boStart]
    rw [boProg_eq locals conns hsrc hne]
    exact List.mem_append_left _ (List.mem_map_of_mem hin)
  have hst := phase_stuck hP hq (e := (p, t, srcv q c.2)) he (boStart_phase locals conns hsrc hne srcv tgtv) hstart hrun
  intro hd
  rw [hd q hq] at hst
  exact absurd hst.2 (by simp)

/-! ## The hypotheses are met -/

/-- Variables: 0 is a source on process 0, 1 a source on process 1 and 2; 10 is a target of 0 on processes 1 and 2, 11 a target of 1 on processes 0 and 1. -/
def boLocals : List (List Nat) := [[0, 11], [1, 10, 11], [1, 10]]

def boConns : List (Nat × Nat) := [(10, 0), (11, 1)]

example : boLocals ≠ [] ∧ (boConns.map Prod.fst).Nodup ∧ (∀ c ∈ boConns, ∃ q, BoHolds boLocals c.2 q) := by
  refine ⟨by simp [boLocals], by decide, ?_⟩
  intro c hc
  simp only [boConns, List.mem_cons, List.not_mem_nil, or_false] at hc
  rcases hc with rfl | rfl
  · exact ⟨0, [0, 11], rfl, by simp⟩
  · exact ⟨1, [1, 10, 11], rfl, by simp⟩

example : BoNeeds boLocals boConns 2 0 (10, 0) := by
  refine ⟨by simp [boConns], ⟨[1, 10], rfl, by simp⟩, ?_, ⟨[0, 11], rfl, by simp⟩, ?_, ?_⟩
  · rintro ⟨T, hT, h⟩
    simp only [boLocals, List.getElem?_cons_succ, List.getElem?_cons_zero, Option.some.injEq] at hT
    subst hT
    simp at h
  · rintro ⟨T, hT, h⟩
    simp only [boLocals, List.getElem?_cons_succ, List.getElem?_cons_zero, Option.some.injEq] at hT
    subst hT
    simp at h
  · intro _ r hr; omega

/-- A transfer under way: process 0 has sent its two messages. -/
example (srcv tgtv : Nat → Nat → String) : ∃ s, BoRun (fun _ => true) 3 (boStart boLocals boConns srcv tgtv) s ∧ s.net.map BoMsg.key = [(0, 1, 0), (0, 2, 0)] := by
  refine ⟨_, .tail (.tail .refl (.post _ 0 1 0 (srcv 0 0) [.send 2 0 (srcv 0 0), .barrier, .recv 1 1 11] (by decide) ?_ rfl)) (.post _ 0 2 0 (srcv 0 0) [.barrier, .recv 1 1 11] (by decide) ?_ rfl), rfl⟩
  · rfl
  · rfl

end OpenMDAO
