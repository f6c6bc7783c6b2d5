import Verif.Model.ParDoe
import Verif.Model.Doe
import Verif.Props.MpiDoe
import Mathlib.Algebra.BigOperators.Group.Finset.Basic
import Mathlib.Data.Fintype.BigOperators
import Mathlib.Tactic.Linarith
/-!
# Property C115: how a parallel design study ends
-/
namespace OpenMDAO
set_option linter.unusedSectionVars false

section
variable {P C : Type} [DecidableEq P] {lead : P → Bool} {procs : List P} {mode : RecMode} {out : C → P → COut}

/-- Where a process is within the run, with the number of its round. -/
inductive FxPos
  | top (i : Nat)
  | all (i : Nat)
  | any (i : Nat)
  | gather (i : Nat)
  | done
  | raised

/-- The state of a process at its position. -/
def FxPos.Is (cs : List C) (s : FxSt P C) (p : P) : FxPos → Prop
  | .top i => s.ph p = .top ∧ s.todo p = cs.drop i
  | .all i => s.ph p = .atAll cs[i]? ∧ s.todo p = cs.drop (i + 1)
  | .any i => s.ph p = .atAny cs[i]? ∧ s.todo p = cs.drop (i + 1)
  | .gather i => s.ph p = .atGather cs[i]? ∧ s.todo p = cs.drop (i + 1)
  | .done => s.ph p = .done
  | .raised => s.ph p = .raised

/-- The common position of the processes. -/
inductive FxStage
  | read (i : Nat)
  | run (i : Nat)
  | save (i : Nat)
  | fin
  | err

/-- A process that is not the first of its group, in round `i` out of `N`. -/
def FxFollow (N : Nat) (cs : List C) (s : FxSt P C) (p : P) (i : Nat) : Prop :=
  FxPos.Is cs s p (.top i) ∨ (i < N ∧ FxPos.Is cs s p (.any i)) ∨ (i = N ∧ FxPos.Is cs s p .done)

/-- The rounds before round `i` had no fatal error. -/
def FxClean (out : C → P → COut) (cases : P → List C) (i : Nat) : Prop := ∀ p j c, j < i → (cases p)[j]? = some c → out c p ≠ .fatal

/-- What was recorded in `i` rounds. -/
def FxRecs (lead : P → Bool) (mode : RecMode) (cases : P → List C) (records : List (P × C)) (i : Nat) : Prop :=
  match mode with
  | .none => records = []
  | .serial => ∀ p, (records.filter fun e => decide (e.1 = p)).map Prod.snd = if lead p then (cases p).take i else []
  | .parallel => ∀ p, (records.filter fun e => decide (e.1 = p)).map Prod.snd = (cases p).take i

/-- The invariant of a run. -/
def FxInv (lead : P → Bool) (mode : RecMode) (out : C → P → COut) (cases : P → List C) (N : Nat) (s : FxSt P C) : FxStage → Prop
  | .read i => i ≤ N ∧ FxClean out cases i ∧ FxRecs lead mode cases s.records i ∧
      ∀ p, if lead p then FxPos.Is (cases p) s p (.top i) ∨ FxPos.Is (cases p) s p (.all i) else FxFollow N (cases p) s p i
  | .run i => i < N ∧ FxClean out cases i ∧ FxRecs lead mode cases s.records i ∧
      ∀ p, if lead p then FxPos.Is (cases p) s p (.any i) else FxFollow N (cases p) s p i
  | .save i => i < N ∧ mode = .serial ∧ FxClean out cases (i + 1) ∧ FxRecs lead mode cases s.records i ∧
      ∀ p, if lead p then FxPos.Is (cases p) s p (.gather i) else FxFollow N (cases p) s p (i + 1)
  | .fin => FxClean out cases N ∧ FxRecs lead mode cases s.records N ∧ ∀ p, if lead p then FxPos.Is (cases p) s p .done else FxFollow N (cases p) s p N
  | .err => (∀ p, FxPos.Is (cases p) s p .raised) ∧ ∃ p, ∃ c ∈ cases p, out c p = .fatal

theorem next_other (s : FxSt P C) {p q : P} (h : q ≠ p) : (s.next lead p).ph q = s.ph q ∧ (s.next lead p).todo q = s.todo q := by
  unfold FxSt.next
  split <;> simp [Function.update_of_ne h]

theorem next_records (s : FxSt P C) (p : P) : (s.next lead p).records = s.records := by
  unfold FxSt.next
  split <;> rfl

theorem is_congr {cs : List C} {s s' : FxSt P C} {p : P} (h : s'.ph p = s.ph p ∧ s'.todo p = s.todo p) (x : FxPos) : FxPos.Is cs s' p x ↔ FxPos.Is cs s p x := by
  cases x <;> simp [FxPos.Is, h.1, h.2]

theorem follow_congr {N : Nat} {cs : List C} {s s' : FxSt P C} {p : P} {i : Nat} (h : s'.ph p = s.ph p ∧ s'.todo p = s.todo p) : FxFollow N cs s' p i ↔ FxFollow N cs s p i := by
  simp only [FxFollow, is_congr h]

/-- `next` for the first process of a group. -/
theorem next_lead (s : FxSt P C) (p : P) (hl : lead p = true) {cs : List C} {i : Nat} (h : FxPos.Is cs s p (.top i)) : FxPos.Is cs (s.next lead p) p (.all i) := by
  obtain ⟨h1, h2⟩ := h
  unfold FxSt.next
  cases ht : s.todo p with
  | nil =>
    rw [ht] at h2
    have hle := List.drop_eq_nil_iff.mp h2.symm
    refine ⟨?_, ?_⟩
    · simp [hl, List.getElem?_eq_none hle]
    · simp only [ht]; exact (List.drop_eq_nil_iff.mpr (by omega)).symm
  | cons c r =>
    rw [ht] at h2
    have hc : cs[i]? = some c := by rw [← List.head?_drop, ← h2]; rfl
    refine ⟨?_, ?_⟩
    · simp [hl, hc]
    · simp only [Function.update_self]; rw [← List.tail_drop, ← h2]; rfl

/-- `next` for another process. -/
theorem next_follow (s : FxSt P C) (p : P) (hl : lead p = false) {cs : List C} {i : Nat} {N : Nat} (hN : cs.length = N) (hi : i ≤ N) (h : FxPos.Is cs s p (.top i)) : FxFollow N cs (s.next lead p) p i := by
  obtain ⟨h1, h2⟩ := h
  unfold FxSt.next
  cases ht : s.todo p with
  | nil =>
    rw [ht] at h2
    have hle := List.drop_eq_nil_iff.mp h2.symm
    exact Or.inr (Or.inr ⟨by omega, by simp [FxPos.Is, hl]⟩)
  | cons c r =>
    rw [ht] at h2
    have hc : cs[i]? = some c := by rw [← List.head?_drop, ← h2]; rfl
    have hlt : i < cs.length := (List.getElem?_eq_some_iff.mp hc).1
    refine Or.inr (Or.inl ⟨by omega, ?_, ?_⟩)
    · simp [hl, hc]
    · simp only [Function.update_self]; rw [← List.tail_drop, ← h2]; rfl

theorem filter_recs_mem {procs : List P} (hn : procs.Nodup) (f : P → Option C) (p : P) (hp : p ∈ procs) :
    ((procs.filterMap fun q => (f q).map fun c => (q, c)).filter fun e => decide (e.1 = p)).map Prod.snd = (f p).toList := by
  have hnot : ∀ l : List P, p ∉ l → ((l.filterMap fun q => (f q).map fun c => (q, c)).filter fun e => decide (e.1 = p)).map Prod.snd = [] := by
    intro l hl
    rw [List.map_eq_nil_iff, List.filter_eq_nil_iff]
    rintro ⟨q, c⟩ he
    rw [List.mem_filterMap] at he
    obtain ⟨q', hq', h⟩ := he
    cases hf : f q' with
    | none => rw [hf] at h; cases h
    | some c' =>
      rw [hf] at h
      injection h with h; injection h with h1 h2
      subst h1
      simp only [decide_eq_true_eq]
      exact fun e => hl (e ▸ hq')
  obtain ⟨l1, l2, rfl⟩ := List.append_of_mem hp
  rw [List.nodup_append, List.nodup_cons] at hn
  have h1 : p ∉ l1 := fun h => hn.2.2 p h p List.mem_cons_self rfl
  rw [List.filterMap_append, List.filter_append, List.map_append, hnot l1 h1, List.nil_append, List.filterMap_cons]
  cases hf : f p with
  | none => simp only [Option.map_none]; exact hnot l2 hn.2.1.1
  | some c => simp only [Option.map_some]; rw [List.filter_cons_of_pos (by simp), List.map_cons, hnot l2 hn.2.1.1]; rfl

theorem take_snoc (l : List C) (i : Nat) : l.take (i + 1) = l.take i ++ l[i]?.toList := List.take_add_one

/-- What the run needs: some process is the first of its group; `procs` are the processes; a process that is not the first of its group has as many cases as any other (`N`). -/
structure FxWF (lead : P → Bool) (procs : List P) (cases : P → List C) (N : Nat) : Prop where
  nodup : procs.Nodup
  all : ∀ p, p ∈ procs
  ex : ∃ p, lead p = true
  le : ∀ p, (cases p).length ≤ N
  max : ∃ p, lead p = true ∧ (cases p).length = N
  follow : ∀ p, lead p = false → (cases p).length = N

/-- No dummies, or else no fatal error and no study with only parallel recorders. -/
def FxSafe (mode : RecMode) (out : C → P → COut) (cases : P → List C) (N : Nat) : Prop :=
  (∀ p, (cases p).length = N) ∨ (mode ≠ .parallel ∧ ∀ p, ∀ c ∈ cases p, out c p ≠ .fatal)

variable {cases : P → List C} {N : Nat}

theorem fx_next (hw : FxWF lead procs cases N) {s : FxSt P C} {st : FxStage} (h : FxInv lead mode out cases N s st) {p : P} (hp : s.ph p = .top) : FxInv lead mode out cases N (s.next lead p) st := by
  have hrec := next_records (lead := lead) s p
  have key : ∀ (i : Nat), i ≤ N → (∀ q, lead q = false → FxFollow N (cases q) s q i) → ∀ q, lead q = false → FxFollow N (cases q) (s.next lead p) q i := by
    intro i hi hf q hq
    by_cases hqp : q = p
    · subst hqp
      rcases hf q hq with h1 | ⟨h1, h2⟩ | ⟨h1, h2⟩
      · exact next_follow s q hq (hw.follow q hq) hi h1
      · rw [h2.1] at hp; cases hp
      · rw [show s.ph q = .done from h2] at hp; cases hp
    · exact (follow_congr (next_other s hqp)).mpr (hf q hq)
  have key2 : ∀ x : FxPos, (∀ q, lead q = true → FxPos.Is (cases q) s q x) → (∀ cs, ¬ (FxPos.Is cs s p x)) → ∀ q, lead q = true → FxPos.Is (cases q) (s.next lead p) q x := by
    intro x hx hne q hq
    have hqp : q ≠ p := fun e => hne _ (e ▸ hx q hq)
    exact (is_congr (next_other s hqp) x).mpr (hx q hq)
  have split : ∀ (A B : P → Prop), (∀ q, if lead q then A q else B q) → (∀ q, lead q = true → A q) ∧ (∀ q, lead q = false → B q) :=
    fun A B h => ⟨fun q hq => by have := h q; rwa [if_pos hq] at this, fun q hq => by have := h q; rwa [if_neg (by simp [hq])] at this⟩
  have join : ∀ (A B : P → Prop), (∀ q, lead q = true → A q) → (∀ q, lead q = false → B q) → (∀ q, if lead q then A q else B q) := by
    intro A B h1 h2 q
    split
    · rename_i hq; exact h1 q hq
    · rename_i hq; exact h2 q (by simpa using hq)
  cases st with
  | read i =>
    obtain ⟨h1, h2, h3, h4⟩ := h
    obtain ⟨ha, hb⟩ := split _ _ h4
    refine ⟨h1, h2, by rw [hrec]; exact h3, join _ _ ?_ (key i h1 hb)⟩
    intro q hq
    by_cases hqp : q = p
    · subst hqp
      rcases ha q hq with h5 | h5
      · exact Or.inr (next_lead s q hq h5)
      · rw [h5.1] at hp; cases hp
    · rw [is_congr (next_other s hqp), is_congr (next_other s hqp)]; exact ha q hq
  | run i =>
    obtain ⟨h1, h2, h3, h4⟩ := h
    obtain ⟨ha, hb⟩ := split _ _ h4
    exact ⟨h1, h2, by rw [hrec]; exact h3, join _ _ (key2 _ ha fun cs hx => by rw [hx.1] at hp; cases hp) (key i (by omega) hb)⟩
  | save i =>
    obtain ⟨h1, h0, h2, h3, h4⟩ := h
    obtain ⟨ha, hb⟩ := split _ _ h4
    exact ⟨h1, h0, h2, by rw [hrec]; exact h3, join _ _ (key2 _ ha fun cs hx => by rw [hx.1] at hp; cases hp) (key (i + 1) (by omega) hb)⟩
  | fin =>
    obtain ⟨h2, h3, h4⟩ := h
    obtain ⟨ha, hb⟩ := split _ _ h4
    exact ⟨h2, by rw [hrec]; exact h3, join _ _ (key2 _ ha fun cs hx => by rw [show s.ph p = .done from hx] at hp; cases hp) (key N (le_refl _) hb)⟩
  | err => rw [show s.ph p = .raised from h.1 p] at hp; cases hp

theorem fx_leads {A B : P → Prop} (h : ∀ q, if lead q then A q else B q) : (∀ q, lead q = true → A q) ∧ (∀ q, lead q = false → B q) :=
  ⟨fun q hq => by have := h q; rwa [if_pos hq] at this, fun q hq => by have := h q; rwa [if_neg (by simp [hq])] at this⟩

theorem fx_join {A B : P → Prop} (h1 : ∀ q, lead q = true → A q) (h2 : ∀ q, lead q = false → B q) : ∀ q, if lead q then A q else B q := by
  intro q
  split
  · rename_i hq; exact h1 q hq
  · rename_i hq; exact h2 q (by simpa using hq)

theorem fx_allreduce (hw : FxWF lead procs cases N) {s : FxSt P C} {st : FxStage} (h : FxInv lead mode out cases N s st) (ha : ∀ p, lead p = true → (s.ph p).isAll = true) :
    ∃ st', FxInv lead mode out cases N (s.allreduce lead procs) st' := by
  obtain ⟨p0, hp0⟩ := hw.ex
  have h0 := ha p0 hp0
  cases st with
  | read i =>
    obtain ⟨h1, h2, h3, h4⟩ := h
    obtain ⟨hl, hf⟩ := fx_leads h4
    have hall : ∀ p, lead p = true → FxPos.Is (cases p) s p (.all i) := by
      intro p hp
      rcases hl p hp with h5 | h5
      · have := ha p hp; rw [h5.1] at this; cases this
      · exact h5
    have hrem : (procs.any fun p => lead p && (s.ph p).case.isSome) = decide (i < N) := by
      rw [Bool.eq_iff_iff, List.any_eq_true, decide_eq_true_eq]
      constructor
      · rintro ⟨p, _, hp⟩
        rw [Bool.and_eq_true] at hp
        rw [(hall p hp.1).1] at hp
        simp only [FxPhase.case, Option.isSome_iff_exists] at hp
        obtain ⟨c, hc⟩ := hp.2
        have := (List.getElem?_eq_some_iff.mp hc).1
        have := hw.le p
        omega
      · intro hi
        obtain ⟨p, hp, hN⟩ := hw.max
        refine ⟨p, hw.all p, ?_⟩
        rw [(hall p hp).1, hp]
        simp [FxPhase.case]
        omega
    have hfo : ∀ q, lead q = false → (s.allreduce lead procs).ph q = s.ph q ∧ (s.allreduce lead procs).todo q = s.todo q := by
      intro q hq
      simp [FxSt.allreduce, hq]
    by_cases hi : i < N
    · refine ⟨.run i, hi, h2, h3, fx_join ?_ fun q hq => (follow_congr (hfo q hq)).mpr (hf q hq)⟩
      intro q hq
      refine ⟨?_, (hall q hq).2⟩
      simp only [FxSt.allreduce, hrem, hq, hi, decide_true, if_true]
      rw [(hall q hq).1]; rfl
    · have hiN : i = N := by omega
      subst hiN
      refine ⟨.fin, h2, h3, fx_join ?_ fun q hq => (follow_congr (hfo q hq)).mpr (hf q hq)⟩
      intro q hq
      simp only [FxPos.Is, FxSt.allreduce, hrem, hq, hi, decide_false, if_true]
      simp
  | run i => rw [((fx_leads h.2.2.2).1 p0 hp0).1] at h0; cases h0
  | save i => rw [((fx_leads h.2.2.2.2).1 p0 hp0).1] at h0; cases h0
  | fin => rw [show s.ph p0 = .done from (fx_leads h.2.2).1 p0 hp0] at h0; cases h0
  | err => rw [show s.ph p0 = .raised from h.1 p0] at h0; cases h0

theorem fx_any (hw : FxWF lead procs cases N) (hsafe : FxSafe mode out cases N) {s : FxSt P C} {st : FxStage} (h : FxInv lead mode out cases N s st) (ha : ∀ p, (s.ph p).isAny = true) :
    ∃ st', FxInv lead mode out cases N (s.anyTrue lead procs mode out) st' := by
  obtain ⟨p0, hp0⟩ := hw.ex
  have h0 := ha p0
  cases st with
  | run i =>
    obtain ⟨h1, h2, h3, h4⟩ := h
    obtain ⟨hl, hf⟩ := fx_leads h4
    have hall : ∀ p, FxPos.Is (cases p) s p (.any i) := by
      intro p
      cases hp : lead p with
      | true => exact hl p hp
      | false =>
        rcases hf p hp with h5 | ⟨_, h5⟩ | ⟨_, h5⟩
        · have := ha p; rw [h5.1] at this; cases this
        · exact h5
        · have := ha p; rw [show s.ph p = .done from h5] at this; cases this
    have hcase : ∀ p, (s.ph p).case = (cases p)[i]? := fun p => by rw [(hall p).1]; rfl
    cases hfl : procs.any fun p => termOf out p (s.ph p).case with
    | true =>
      rw [List.any_eq_true] at hfl
      obtain ⟨p, hpm, hp⟩ := hfl
      rw [hcase p] at hp
      cases hc : (cases p)[i]? with
      | none => rw [hc] at hp; cases hp
      | some c =>
        rw [hc] at hp
        have hfat : out c p = .fatal := of_decide_eq_true hp
        have hcm : c ∈ cases p := List.mem_of_getElem? hc
        have hlen : ∀ q, (cases q).length = N := by
          rcases hsafe with h6 | ⟨_, h6⟩
          · exact h6
          · exact absurd hfat (h6 p c hcm)
        have hfl : (procs.any fun p => termOf out p (s.ph p).case) = true := List.any_eq_true.mpr ⟨p, hpm, by rw [hcase p, hc]; exact hp⟩
        refine ⟨.err, ?_, p, c, hcm, hfat⟩
        intro q
        have hq : (cases q)[i]? = some ((cases q)[i]'(by rw [hlen]; exact h1)) := List.getElem?_eq_getElem _
        simp only [FxPos.Is, FxSt.anyTrue, hfl, hcase q, hq, afterAny]
        simp
    | false =>
      have hcl : FxClean out cases (i + 1) := by
        intro p j c hj hc
        rcases Nat.lt_succ_iff_lt_or_eq.mp hj with h6 | rfl
        · exact h2 p j c h6 hc
        · intro hfat
          rw [List.any_eq_false] at hfl
          apply hfl p (hw.all p)
          rw [hcase p, hc]
          exact decide_eq_true hfat
      have hph : ∀ p, (s.anyTrue lead procs mode out).ph p = if saveWaits mode (lead p) (cases p)[i]? then .atGather (cases p)[i]? else .top := by
        intro p
        simp only [FxSt.anyTrue, hfl, hcase p, afterAny, Bool.and_false, Bool.false_eq_true, if_false]
      have htd : ∀ p, (s.anyTrue lead procs mode out).todo p = (cases p).drop (i + 1) := fun p => (hall p).2
      have hnolead : ∀ p, saveWaits mode (lead p) (cases p)[i]? = false → FxPos.Is (cases p) (s.anyTrue lead procs mode out) p (.top (i + 1)) := by
        intro p hp
        refine ⟨?_, htd p⟩
        rw [hph p, hp]; rfl
      cases hm : mode with
      | serial =>
        subst hm
        refine ⟨.save i, h1, rfl, hcl, ?_, fx_join ?_ ?_⟩
        · simpa [FxSt.anyTrue] using h3
        · intro q hq
          refine ⟨?_, htd q⟩
          rw [hph q]; simp [saveWaits, hq]
        · intro q hq
          exact Or.inl (hnolead q (by simp [saveWaits, hq]))
      | none =>
        subst hm
        refine ⟨.read (i + 1), h1, hcl, ?_, fx_join ?_ ?_⟩
        · simpa [FxSt.anyTrue, FxRecs] using h3
        · intro q hq; exact Or.inl (hnolead q rfl)
        · intro q hq; exact Or.inl (hnolead q rfl)
      | parallel =>
        subst hm
        have hlen : ∀ q, (cases q).length = N := by
          rcases hsafe with h6 | ⟨h6, _⟩
          · exact h6
          · exact absurd rfl h6
        have hsome : ∀ q, ((cases q)[i]?).isNone = false := by
          intro q
          rw [List.getElem?_eq_getElem (by rw [hlen]; exact h1)]; rfl
        refine ⟨.read (i + 1), h1, hcl, ?_, fx_join ?_ ?_⟩
        · intro p
          have h3' : (s.records.filter fun e => decide (e.1 = p)).map Prod.snd = (cases p).take i := h3 p
          simp only [FxSt.anyTrue, hfl, if_true]
          rw [List.filter_append, List.map_append, h3', take_snoc]
          congr 1
          rw [← filter_recs_mem hw.nodup (fun q => (cases q)[i]?) p (hw.all p)]
          congr 2
          apply List.filterMap_congr
          intro q _
          rw [hcase q]
          cases (cases q)[i]? <;> rfl
        · intro q hq; exact Or.inl (hnolead q (by simp [saveWaits, hsome q]))
        · intro q hq; exact Or.inl (hnolead q (by simp [saveWaits, hsome q]))
  | read i =>
    rcases (fx_leads h.2.2.2).1 p0 hp0 with h5 | h5 <;> rw [h5.1] at h0 <;> cases h0
  | save i => rw [((fx_leads h.2.2.2.2).1 p0 hp0).1] at h0; cases h0
  | fin => rw [show s.ph p0 = .done from (fx_leads h.2.2).1 p0 hp0] at h0; cases h0
  | err => rw [show s.ph p0 = .raised from h.1 p0] at h0; cases h0

theorem fx_gather (hw : FxWF lead procs cases N) {s : FxSt P C} {st : FxStage} (h : FxInv lead mode out cases N s st) (ha : ∀ p, lead p = true → (s.ph p).isGather = true) :
    ∃ st', FxInv lead mode out cases N (s.gather lead procs) st' := by
  obtain ⟨p0, hp0⟩ := hw.ex
  have h0 := ha p0 hp0
  cases st with
  | save i =>
    obtain ⟨h1, h5, h2, h3, h4⟩ := h
    subst h5
    obtain ⟨hl, hf⟩ := fx_leads h4
    refine ⟨.read (i + 1), h1, h2, ?_, fx_join ?_ ?_⟩
    · intro p
      have h3' : (s.records.filter fun e => decide (e.1 = p)).map Prod.snd = if lead p then (cases p).take i else [] := h3 p
      simp only [FxSt.gather]
      rw [List.filter_append, List.map_append, h3']
      have he : (procs.filterMap fun q => leadRecord lead q (s.ph q).case) = procs.filterMap fun q => (if lead q then (cases q)[i]? else none).map fun c => (q, c) := by
        apply List.filterMap_congr
        intro q _
        unfold leadRecord
        cases hq : lead q with
        | true => rw [(hl q hq).1]; simp [FxPhase.case]
        | false => simp
      rw [he, filter_recs_mem hw.nodup (fun q => if lead q then (cases q)[i]? else none) p (hw.all p)]
      cases hp : lead p with
      | true => simp [take_snoc]
      | false => simp
    · intro q hq
      refine Or.inl ⟨?_, (hl q hq).2⟩
      simp [FxSt.gather, hq]
    · intro q hq
      exact (follow_congr (s := s) (s' := s.gather lead procs) ⟨by simp [FxSt.gather, hq], rfl⟩).mpr (hf q hq)
  | read i =>
    rcases (fx_leads h.2.2.2).1 p0 hp0 with h5 | h5 <;> rw [h5.1] at h0 <;> cases h0
  | run i => rw [((fx_leads h.2.2.2).1 p0 hp0).1] at h0; cases h0
  | fin => rw [show s.ph p0 = .done from (fx_leads h.2.2).1 p0 hp0] at h0; cases h0
  | err => rw [show s.ph p0 = .raised from h.1 p0] at h0; cases h0

theorem fx_reach (hw : FxWF lead procs cases N) (hsafe : FxSafe mode out cases N) {s : FxSt P C} (hr : FxReach lead procs mode out cases s) : ∃ st, FxInv lead mode out cases N s st := by
  unfold FxReach at hr
  induction hr with
  | refl =>
    refine ⟨.read 0, Nat.zero_le _, fun p j c hj => absurd hj (Nat.not_lt_zero _), ?_, fx_join ?_ ?_⟩
    · unfold FxRecs
      cases mode with
      | none => rfl
      | serial => intro p; simp [FxSt.init]
      | parallel => intro p; simp [FxSt.init]
    · intro q _; exact Or.inl ⟨rfl, rfl⟩
    · intro q _; exact Or.inl ⟨rfl, rfl⟩
  | tail _ hs ih =>
    obtain ⟨st, h⟩ := ih
    cases hs with
    | next p hp => exact ⟨st, fx_next hw h hp⟩
    | allreduce _ ha => exact fx_allreduce hw h ha
    | anyTrue ha => exact fx_any hw hsafe h ha
    | gather _ ha => exact fx_gather hw h ha

/-- C115 for a study with a fixed distribution, as long as (1) all processes but the first of a group have as many cases as any process has, and (2) no process ever gets a dummy, or no case raises a fatal error and the recorders are not
all parallel ones. A run that cannot go on has ended on every process: with an exception on every one, and then some case raised a fatal error; or without, and then no case did, and each case of each group was recorded
once, in order. -/
theorem C115_fixed_partial (hw : FxWF lead procs cases N) (hsafe : FxSafe mode out cases N) (s : FxSt P C) (hr : FxReach lead procs mode out cases s) (hs : ∀ s', ¬ FxStep lead procs mode out s s') :
    ((∀ p, s.ph p = .raised) ∧ ∃ p, ∃ c ∈ cases p, out c p = .fatal) ∨
    ((∀ p, s.ph p = .done) ∧ (∀ p, ∀ c ∈ cases p, out c p ≠ .fatal) ∧
      (mode = .serial → ∀ p, lead p = true → (s.records.filter fun e => decide (e.1 = p)).map Prod.snd = cases p) ∧
      (mode = .serial → ∀ e ∈ s.records, lead e.1 = true) ∧
      (mode = .parallel → ∀ p, (s.records.filter fun e => decide (e.1 = p)).map Prod.snd = cases p)) := by
  obtain ⟨st, h⟩ := fx_reach hw hsafe hr
  have hnt : ∀ p, s.ph p ≠ .top := fun p hp => hs _ (.next s p hp)
  have hfol : ∀ i, i < N → (∀ q, lead q = false → FxFollow N (cases q) s q i) → ∀ q, lead q = false → FxPos.Is (cases q) s q (.any i) := by
    intro i hi hf q hq
    rcases hf q hq with h5 | ⟨_, h5⟩ | ⟨h6, _⟩
    · exact absurd h5.1 (hnt q)
    · exact h5
    · omega
  cases st with
  | read i =>
    exfalso
    refine hs _ (.allreduce s hw.ex ?_)
    intro p hp
    rcases (fx_leads h.2.2.2).1 p hp with h5 | h5
    · exact absurd h5.1 (hnt p)
    · rw [h5.1]; rfl
  | run i =>
    exfalso
    obtain ⟨h1, _, _, h4⟩ := h
    obtain ⟨hl, hf⟩ := fx_leads h4
    refine hs _ (.anyTrue s ?_)
    intro p
    cases hp : lead p with
    | true => rw [(hl p hp).1]; rfl
    | false => rw [(hfol i h1 hf p hp).1]; rfl
  | save i =>
    exfalso
    exact hs _ (.gather s hw.ex fun p hp => by rw [((fx_leads h.2.2.2.2).1 p hp).1]; rfl)
  | fin =>
    right
    obtain ⟨h2, h3, h4⟩ := h
    obtain ⟨hl, hf⟩ := fx_leads h4
    refine ⟨?_, ?_, ?_, ?_, ?_⟩
    · intro p
      cases hp : lead p with
      | true => exact hl p hp
      | false =>
        rcases hf p hp with h5 | ⟨h5, _⟩ | ⟨_, h5⟩
        · exact absurd h5.1 (hnt p)
        · omega
        · exact h5
    · intro p c hc
      obtain ⟨j, hj, rfl⟩ := List.mem_iff_getElem.mp hc
      exact h2 p j _ (lt_of_lt_of_le hj (hw.le p)) (List.getElem?_eq_getElem hj)
    · intro hm p hp
      subst hm
      have := h3 p
      rw [this, if_pos hp, List.take_of_length_le (hw.le p)]
    · intro hm e he
      subst hm
      by_contra hl'
      have := h3 e.1
      rw [if_neg hl', List.map_eq_nil_iff, List.filter_eq_nil_iff] at this
      exact this e he (by simp)
    · intro hm p
      subst hm
      have := h3 p
      rw [this, List.take_of_length_le (hw.le p)]
  | err => exact Or.inl h

end

/-! ### Termination -/

section
variable {P C : Type} [DecidableEq P] [Fintype P] {lead : P → Bool} {procs : List P} {mode : RecMode} {out : C → P → COut}

/-- Weight of the place of a process. -/
def FxPhase.weight {C : Type} : FxPhase C → Nat
  | .atAny _ => 4
  | .atGather _ => 3
  | .top => 2
  | .atAll _ => 1
  | .done | .raised => 0

/-- A case in the `Allreduce` is still to be run. -/
def FxPhase.open {C : Type} : FxPhase C → Nat
  | .atAll (some _) => 1
  | _ => 0

/-- A number that every step lowers. -/
def fxMeasure (s : FxSt P C) : Nat :=
  (4 * Fintype.card P + 1) * (∑ p, ((s.todo p).length + (s.ph p).open)) + ∑ p, (s.ph p).weight

theorem fx_sum_lt {f f' : P → Nat} (p : P) (h : f' p < f p) (ho : ∀ q, q ≠ p → f' q = f q) : ∑ q, f' q < ∑ q, f q := by
  apply Finset.sum_lt_sum
  · intro q _
    by_cases hq : q = p
    · subst hq; exact h.le
    · exact (ho q hq).le
  · exact ⟨p, Finset.mem_univ _, h⟩

theorem weight_le (x : FxPhase C) : x.weight ≤ 4 := by cases x <;> simp [FxPhase.weight]

theorem sum_weight_le (s : FxSt P C) : ∑ p, (s.ph p).weight ≤ 4 * Fintype.card P := by
  refine (Finset.sum_le_sum fun p _ => weight_le (s.ph p)).trans ?_
  simp [Finset.card_univ, Nat.mul_comm]

/-- Fewer cases left. -/
theorem fx_lt_cases {s s' : FxSt P C} (h : (∑ p, ((s'.todo p).length + (s'.ph p).open)) < ∑ p, ((s.todo p).length + (s.ph p).open)) : fxMeasure s' < fxMeasure s := by
  unfold fxMeasure
  have h1 := sum_weight_le s'
  have h2 : (4 * Fintype.card P + 1) * ((∑ p, ((s'.todo p).length + (s'.ph p).open)) + 1) ≤ (4 * Fintype.card P + 1) * ∑ p, ((s.todo p).length + (s.ph p).open) := Nat.mul_le_mul_left _ h
  rw [Nat.mul_add] at h2
  omega

/-- As many cases left, and the places nearer to the end. -/
theorem fx_lt_places {s s' : FxSt P C} (h : (∑ p, ((s'.todo p).length + (s'.ph p).open)) ≤ ∑ p, ((s.todo p).length + (s.ph p).open)) (h2 : ∑ p, (s'.ph p).weight < ∑ p, (s.ph p).weight) : fxMeasure s' < fxMeasure s := by
  unfold fxMeasure
  have := Nat.mul_le_mul_left (4 * Fintype.card P + 1) h
  omega

theorem fxMeasure_step [Nonempty P] (hall : ∀ p, p ∈ procs) {s s' : FxSt P C} (h : FxStep lead procs mode out s s') : fxMeasure s' < fxMeasure s := by
  cases h with
  | next p hp =>
    cases ht : s.todo p with
    | nil =>
      have hs : s.next lead p = { s with ph := Function.update s.ph p (if lead p then .atAll none else .done) } := by unfold FxSt.next; rw [ht]
      rw [hs]
      apply fx_lt_places
      · apply Finset.sum_le_sum
        intro q _
        by_cases hq : q = p
        · subst hq
          simp only [Function.update_self]
          split <;> simp [FxPhase.open]
        · simp [Function.update_of_ne hq]
      · refine fx_sum_lt p ?_ fun q hq => by simp [Function.update_of_ne hq]
        simp only [Function.update_self, hp]
        split <;> simp [FxPhase.weight]
    | cons c r =>
      have hs : s.next lead p = { s with ph := Function.update s.ph p (if lead p then .atAll (some c) else .atAny (some c)), todo := Function.update s.todo p r } := by unfold FxSt.next; rw [ht]
      rw [hs]
      cases hl : lead p with
      | true =>
        apply fx_lt_places
        · apply Finset.sum_le_sum
          intro q _
          by_cases hq : q = p
          · subst hq
            simp [FxPhase.open, ht, hp]
          · simp [Function.update_of_ne hq]
        · refine fx_sum_lt p ?_ fun q hq => by simp [Function.update_of_ne hq]
          simp [FxPhase.weight, hp]
      | false =>
        apply fx_lt_cases
        refine fx_sum_lt p ?_ fun q hq => by simp [Function.update_of_ne hq]
        simp [FxPhase.open, ht, hp]
  | allreduce hex ha =>
    cases hrem : procs.any fun p => lead p && (s.ph p).case.isSome with
    | true =>
      apply fx_lt_cases
      apply Finset.sum_lt_sum
      · intro q _
        simp only [FxSt.allreduce, hrem]
        cases hq : lead q <;> simp [FxPhase.open]
      · rw [List.any_eq_true] at hrem
        obtain ⟨p, _, hp⟩ := hrem
        rw [Bool.and_eq_true] at hp
        have hpa := ha p hp.1
        refine ⟨p, Finset.mem_univ _, ?_⟩
        have hrem : (procs.any fun p => lead p && (s.ph p).case.isSome) = true := List.any_eq_true.mpr ⟨p, hall p, by simp [hp.1, hp.2]⟩
        simp only [FxSt.allreduce, hrem, hp.1, if_true]
        cases hph : s.ph p with
        | atAll c =>
          rw [hph] at hp
          cases c with
          | none => simp [FxPhase.case] at hp
          | some c => simp [FxPhase.open]
        | top => rw [hph] at hpa; cases hpa
        | atAny c => rw [hph] at hpa; cases hpa
        | atGather c => rw [hph] at hpa; cases hpa
        | done => rw [hph] at hpa; cases hpa
        | raised => rw [hph] at hpa; cases hpa
    | false =>
      obtain ⟨p, hp⟩ := hex
      apply fx_lt_places
      · apply Finset.sum_le_sum
        intro q _
        simp only [FxSt.allreduce, hrem]
        cases hq : lead q <;> simp [FxPhase.open]
      · apply Finset.sum_lt_sum
        · intro q _
          simp only [FxSt.allreduce, hrem]
          cases hq : lead q <;> simp [FxPhase.weight]
        · refine ⟨p, Finset.mem_univ _, ?_⟩
          have hpa := ha p hp
          simp only [FxSt.allreduce, hrem, hp]
          cases hph : s.ph p <;> rw [hph] at hpa <;> simp [FxPhase.isAll] at hpa
          simp [FxPhase.weight]
  | anyTrue ha =>
    have hw : ∀ p, (s.ph p).weight = 4 := by
      intro p
      have := ha p
      cases hph : s.ph p <;> rw [hph] at this <;> simp [FxPhase.isAny] at this
      rfl
    have hlt : ∀ p, ((s.anyTrue lead procs mode out).ph p).weight < (s.ph p).weight := by
      intro p
      rw [hw p]
      simp only [FxSt.anyTrue, afterAny]
      split
      · simp [FxPhase.weight]
      · split <;> simp [FxPhase.weight]
    apply fx_lt_places
    · apply Finset.sum_le_sum
      intro q _
      simp only [FxSt.anyTrue, afterAny]
      split
      · simp [FxPhase.open]
      · split <;> simp [FxPhase.open]
    · obtain ⟨p⟩ := ‹Nonempty P›
      exact Finset.sum_lt_sum (fun q _ => (hlt q).le) ⟨p, Finset.mem_univ _, hlt p⟩
  | gather hex ha =>
    obtain ⟨p, hp⟩ := hex
    have hw : ∀ p, lead p = true → (s.ph p).weight = 3 := by
      intro p hp
      have := ha p hp
      cases hph : s.ph p <;> rw [hph] at this <;> simp [FxPhase.isGather] at this
      rfl
    apply fx_lt_places
    · apply Finset.sum_le_sum
      intro q _
      simp only [FxSt.gather]
      cases hq : lead q <;> simp [FxPhase.open]
    · apply Finset.sum_lt_sum
      · intro q _
        simp only [FxSt.gather]
        cases hq : lead q
        · simp
        · simp only [if_true]; rw [hw q hq]; simp [FxPhase.weight]
      · refine ⟨p, Finset.mem_univ _, ?_⟩
        simp only [FxSt.gather, hp, if_true]
        rw [hw p hp]; simp [FxPhase.weight]

/-- C115. No run of the study goes on for ever. -/
theorem C115_fixed_terminates [Nonempty P] (hall : ∀ p, p ∈ procs) (f : Nat → FxSt P C) : ¬ ∀ n, FxStep lead procs mode out (f n) (f (n + 1)) := by
  intro h
  have : ∀ n, fxMeasure (f n) + n ≤ fxMeasure (f 0) := by
    intro n
    induction n with
    | zero => simp
    | succ n ih => have := fxMeasure_step hall (h n); omega
  have := this (fxMeasure (f 0) + 1)
  omega

end

/-! ### Where the claim fails -/

/-- Three cases over two groups of one process each, as `_distrib_build_runlist` deals them out. -/
def fxExCases : Fin 2 → List Nat := fun p => distribRunlist 2 p.val [0, 1, 2]

theorem fxExCases_eq : fxExCases 0 = [0, 2] ∧ fxExCases 1 = [1] := by decide

/-- C115 is false of a study whose last round has a dummy: the third of three cases raises a fatal error on the first process. That process raises, and the second, which holds a dummy, does not look at the result and waits for ever in the `gather`. -/
theorem C115_fatal_with_dummies_refuted : ∃ (out : Nat → Fin 2 → COut) (s : FxSt (Fin 2) Nat), FxReach (fun _ => true) [0, 1] .serial out fxExCases s ∧
    (∀ s', ¬ FxStep (fun _ => true) [0, 1] .serial out s s') ∧ s.ph 0 = .raised ∧ s.ph 1 = .atGather none := by
  refine ⟨fun c _ => if c = 2 then .fatal else .ok, ?_⟩
  have h0 : FxReach (fun _ => true) [0, 1] .serial (fun c _ => if c = 2 then .fatal else .ok) fxExCases (FxSt.init fxExCases) := .refl
  have h1 := h0.tail (FxStep.next _ 0 rfl)
  have h2 := h1.tail (FxStep.next _ 1 (by decide))
  have h3 := h2.tail (FxStep.allreduce _ ⟨0, rfl⟩ (by decide))
  have h4 := h3.tail (FxStep.anyTrue _ (by decide))
  have h5 := h4.tail (FxStep.gather _ ⟨0, rfl⟩ (by decide))
  have h6 := h5.tail (FxStep.next _ 0 (by decide))
  have h7 := h6.tail (FxStep.next _ 1 (by decide))
  have h8 := h7.tail (FxStep.allreduce _ ⟨0, rfl⟩ (by decide))
  have h9 := h8.tail (FxStep.anyTrue _ (by decide))
  refine ⟨_, h9, ?_, by decide, by decide⟩
  have hr : ∀ s : FxSt (Fin 2) Nat, s.ph 0 = .raised → s.ph 1 = .atGather none → ∀ s', ¬ FxStep (fun _ => true) [0, 1] .serial (fun c _ => if c = 2 then .fatal else .ok) s s' := by
    intro s e0 e1 s' h
    cases h with
    | next p hp => fin_cases p <;> simp [e0, e1] at hp
    | allreduce _ ha => have := ha 0 rfl; rw [e0] at this; cases this
    | anyTrue ha => have := ha 0; rw [e0] at this; cases this
    | gather _ ha => have := ha 0 rfl; rw [e0] at this; cases this
  exact hr _ (by decide) (by decide)

/-- C115 is false of a study with parallel recorders only and a dummy: no case raises anything, but the process with the dummy waits in a `gather` that the other one never calls. -/
theorem C115_parallel_recorder_refuted : ∃ (s : FxSt (Fin 2) Nat), FxReach (fun _ => true) [0, 1] .parallel (fun _ _ => .ok) fxExCases s ∧
    (∀ s', ¬ FxStep (fun _ => true) [0, 1] .parallel (fun _ _ => .ok) s s') ∧ s.ph 0 = .atAll none ∧ s.ph 1 = .atGather none := by
  have h0 : FxReach (fun _ => true) [0, 1] .parallel (fun _ _ => .ok) fxExCases (FxSt.init fxExCases) := .refl
  have h1 := h0.tail (FxStep.next _ 0 rfl)
  have h2 := h1.tail (FxStep.next _ 1 (by decide))
  have h3 := h2.tail (FxStep.allreduce _ ⟨0, rfl⟩ (by decide))
  have h4 := h3.tail (FxStep.anyTrue _ (by decide))
  have h6 := h4.tail (FxStep.next _ 0 (by decide))
  have h7 := h6.tail (FxStep.next _ 1 (by decide))
  have h8 := h7.tail (FxStep.allreduce _ ⟨0, rfl⟩ (by decide))
  have h9 := h8.tail (FxStep.anyTrue _ (by decide))
  have h10 := h9.tail (FxStep.next _ 0 (by decide))
  refine ⟨_, h10, ?_, by decide, by decide⟩
  have hr : ∀ s : FxSt (Fin 2) Nat, s.ph 0 = .atAll none → s.ph 1 = .atGather none → ∀ s', ¬ FxStep (fun _ => true) [0, 1] .parallel (fun _ _ => .ok) s s' := by
    intro s e0 e1 s' h
    cases h with
    | next p hp => fin_cases p <;> simp [e0, e1] at hp
    | allreduce _ ha => have := ha 1 rfl; rw [e1] at this; cases this
    | anyTrue ha => have := ha 0; rw [e0] at this; cases this
    | gather _ ha => have := ha 0 rfl; rw [e0] at this; cases this
  exact hr _ (by decide) (by decide)

/-- C115 is false with load balancing: a fatal error in the only case does not make any process raise. The run of the study ends on the master and on the worker as if nothing had happened, with nothing recorded. -/
theorem C115_load_balanced_refuted : ∃ s : LbSt (Fin 1) Nat Nat, LbReach (fun _ => 1) (fun _ _ => .fatal) [1] [7] s ∧ s.Finished ∧ s.records.length = 0 ∧ s.evals = [(0, 7)] := by
  have h0 : LbReach (fun _ : Fin 1 => 1) (fun _ _ => .fatal) [1] [7] (LbSt.init [1] [7]) := .refl
  have h1 := h0.tail (LbStep.seedSend _ 1 [] 7 [] rfl rfl)
  have h2 := h1.tail (LbStep.seedDone _ rfl)
  have h3 := h2.tail (LbStep.take _ 0 7 [] rfl rfl)
  have h4 := h3.tail (LbStep.reply _ 0 7 rfl)
  have h5 := h4.tail (LbStep.recv _ 0 7 [] [] rfl rfl)
  have h6 := h5.tail (LbStep.stop _ rfl)
  have h7 := h6.tail (LbStep.takeStop _ 0 [] rfl rfl)
  exact ⟨_, h7, ⟨trivial, fun w => by fin_cases w; rfl⟩, rfl, rfl⟩

/-- Non-trivial cases of the hypotheses of `C115_fixed_partial`: the three cases above with no fatal error; and four cases over two groups of two processes, with one. -/
example : FxWF (fun _ => true) [0, 1] fxExCases 2 ∧ FxSafe .serial (fun _ _ => .failed) fxExCases 2 :=
  ⟨⟨by decide, by decide, ⟨0, rfl⟩, by decide, ⟨0, by decide⟩, by decide⟩, Or.inr ⟨by decide, fun _ _ _ h => by cases h⟩⟩

example : FxWF (fun p : Fin 4 => p.val % 2 == 0) [0, 1, 2, 3] (fun p => distribRunlist 2 (p.val / 2) [0, 1, 2, 3]) 2 ∧
    FxSafe .serial (fun c (_ : Fin 4) => if c = 3 then .fatal else .ok) (fun p => distribRunlist 2 (p.val / 2) [0, 1, 2, 3]) 2 :=
  ⟨⟨by decide, by decide, ⟨0, by decide⟩, by decide, ⟨0, by decide⟩, by decide⟩, Or.inl (by decide)⟩

end OpenMDAO
