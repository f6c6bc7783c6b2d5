import Verif.Lemmas.MpiDoe
import Verif.Lemmas.ArrayUtil
import Verif.Lemmas.Connections
import Mathlib.Order.OrderIsoNat
import Mathlib.Tactic.FinCases
/-!
# Property C114: a load balanced design study over MPI
-/
namespace OpenMDAO
set_option linter.unusedSectionVars false

/-! ### Ranks and groups -/

theorem mem_color (S : List Nat) : ∀ (k r g : Nat), ((S.zipIdx k).flatMap fun e => List.replicate e.1 e.2)[r]? = some g ↔ ∃ i, i < S.length ∧ g = k + i ∧ (S.take i).sum ≤ r ∧ r < (S.take (i + 1)).sum := by
  induction S with
  | nil => simp
  | cons a S ih =>
    intro k r g
    rw [List.zipIdx_cons, List.flatMap_cons]
    by_cases hr : r < a
    · rw [List.getElem?_append_left (by simpa using hr)]
      rw [List.getElem?_replicate, if_pos hr]
      constructor
      · rintro h
        injection h with h
        exact ⟨0, by simp, by omega, by simp, by simpa using hr⟩
      · rintro ⟨i, _, h1, h2, _⟩
        cases i with
        | zero => rw [h1]; rfl
        | succ i =>
          rw [List.take_succ_cons, List.sum_cons] at h2
          omega
    · rw [List.getElem?_append_right (by simpa using hr), List.length_replicate, ih]
      constructor
      · rintro ⟨i, h1, h2, h3, h4⟩
        refine ⟨i + 1, by simpa using h1, by omega, ?_, ?_⟩
        · rw [List.take_succ_cons, List.sum_cons]; omega
        · rw [List.take_succ_cons, List.sum_cons]; omega
      · rintro ⟨i, h1, h2, h3, h4⟩
        cases i with
        | zero => simp at h4; omega
        | succ i =>
          rw [List.take_succ_cons, List.sum_cons] at h3 h4
          exact ⟨i, by simpa using h1, by omega, by omega, by omega⟩

theorem lookup_inner (off g r : Nat) (n : Nat) (d : List (Nat × Nat)) :
    ((List.range n).foldl (fun d i => dictSet d (i + off) g) d).lookup r = if off ≤ r ∧ r < off + n then some g else d.lookup r := by
  induction n with
  | zero => rw [if_neg (by omega)]; rfl
  | succ n ih =>
    rw [List.range_succ, List.foldl_append, List.foldl_cons, List.foldl_nil, lookup_dictSet, ih]
    by_cases h : r = n + off
    · subst h; rw [if_pos rfl, if_pos (by omega)]
    · rw [if_neg h]
      by_cases h2 : off ≤ r ∧ r < off + n
      · rw [if_pos h2, if_pos (by omega)]
      · rw [if_neg h2, if_neg (by omega)]

theorem lookup_outer (r g : Nat) (L : List ((Nat × Nat) × Nat)) : ∀ d : List (Nat × Nat), (∀ e ∈ L, e.1.2 ≤ r → r < e.1.2 + e.1.1 → e.2 = g) → ((∃ e ∈ L, e.1.2 ≤ r ∧ r < e.1.2 + e.1.1) ∨ d.lookup r = some g) →
    (L.foldl (fun d e => (List.range e.1.1).foldl (fun d i => dictSet d (i + e.1.2) e.2) d) d).lookup r = some g := by
  induction L with
  | nil => intro d _ h; rcases h with ⟨e, he, _⟩ | h; · cases he
           · exact h
  | cons e L ih =>
    intro d hu h
    rw [List.foldl_cons]
    apply ih _ fun e' he' => hu e' (List.mem_cons_of_mem _ he')
    rw [lookup_inner]
    by_cases hc : e.1.2 ≤ r ∧ r < e.1.2 + e.1.1
    · right; rw [if_pos hc, hu e List.mem_cons_self hc.1 hc.2]
    · rw [if_neg hc]
      rcases h with ⟨e', he', h1⟩ | h
      · rcases List.mem_cons.mp he' with rfl | he'
        · exact absurd h1 hc
        · exact Or.inl ⟨e', he', h1⟩
      · exact Or.inr h

/-- C114. The ranks: with at least as many processes as parallel studies (`Problem.setup` refuses fewer), rank 0 is the master, every other rank works for one of the groups `1 … numPar - 1`, the one
in which its communicator puts it, no group is without processes, and `_id_map` gives for every group the first of its ranks and their number. -/
theorem C114_ranks (numPar size : Nat) (h2 : 2 ≤ numPar) (hs : numPar ≤ size) :
    ∃ idMap color, lbIdMap numPar size = .ok (idMap, color) ∧
      (∀ r < size, ∃ g < numPar, color[r]? = some g ∧ (doeIds idMap).lookup r = some g ∧ (g = 0 ↔ r = 0)) ∧
      (∀ g < numPar, ∃ sz off, idMap[g]? = some (sz, off) ∧ 0 < sz ∧ ∀ r, color[r]? = some g ↔ off ≤ r ∧ r < off + sz) := by
  obtain ⟨sizes, offsets, he, hl1, hl2, hsz, hof⟩ := evenlyDistribIdxs_eq (numPar - 1) (size - 1) (by omega)
  have hpos : 1 ≤ (size - 1) / (numPar - 1) := (Nat.one_le_div_iff (by omega)).mpr (by omega)
  generalize hq : (size - 1) / (numPar - 1) = q at hsz hof hpos
  generalize hm : (size - 1) % (numPar - 1) = m at hsz hof
  have hqm : (numPar - 1) * q + m = size - 1 := by rw [← hq, ← hm]; exact Nat.div_add_mod _ _
  have hmlt : m < numPar - 1 := by rw [← hm]; exact Nat.mod_lt _ (by omega)
  have htake : ∀ i, i ≤ numPar - 1 → (sizes.take i).sum = i * q + min i m := by
    intro i
    induction i with
    | zero => simp
    | succ i ih =>
      intro hi
      rw [List.take_add_one, hsz i (by omega), List.sum_append, ih (by omega), Nat.succ_mul]
      simp only [Option.toList_some, List.sum_cons, List.sum_nil]
      split <;> omega
  have htake' : ∀ i, i ≤ numPar - 1 → ((1 :: sizes).take (i + 1)).sum = 1 + (i * q + min i m) := by
    intro i hi
    rw [List.take_succ_cons, List.sum_cons, htake i hi]
  have hcol : ∀ r g, (((1 :: sizes).zipIdx).flatMap fun e => List.replicate e.1 e.2)[r]? = some g ↔ (g = 0 ∧ r = 0) ∨ ∃ i, i < numPar - 1 ∧ g = i + 1 ∧ 1 + (i * q + min i m) ≤ r ∧ r < 1 + (i * q + min i m) + (q + if i < m then 1 else 0) := by
    intro r g
    rw [mem_color]
    constructor
    · rintro ⟨i, h1, h2', h3, h4⟩
      cases i with
      | zero => left; simp at h4; omega
      | succ i =>
        right
        have hi : i < numPar - 1 := by simp at h1; omega
        rw [htake' i (by omega)] at h3
        rw [htake' (i + 1) (by omega), Nat.succ_mul] at h4
        refine ⟨i, hi, by omega, h3, ?_⟩
        split <;> omega
    · rintro (⟨rfl, rfl⟩ | ⟨i, hi, rfl, h3, h4⟩)
      · exact ⟨0, by simp, rfl, by simp, by simp⟩
      · refine ⟨i + 1, by simp; omega, by omega, by rw [htake' i (by omega)]; exact h3, ?_⟩
        rw [htake' (i + 1) (by omega), Nat.succ_mul]
        split at h4 <;> omega
  have hid : ∀ g, g < numPar → ((1 :: sizes).zip (0 :: offsets.map (· + 1)))[g]? = some (if g = 0 then (1, 0) else (q + (if g - 1 < m then 1 else 0), 1 + ((g - 1) * q + min (g - 1) m))) := by
    intro g hg
    rw [List.getElem?_zip_eq_some]
    cases g with
    | zero => simp
    | succ i =>
      simp only [List.getElem?_cons_succ, List.getElem?_map, hof i (by omega), hsz i (by omega), Nat.add_one_sub_one, Nat.add_eq_zero_iff, one_ne_zero, and_false, if_false]
      refine ⟨trivial, ?_⟩
      simp only [Option.map_some, Option.some.injEq]; omega
  refine ⟨(1 :: sizes).zip (0 :: offsets.map (· + 1)), ((1 :: sizes).zipIdx).flatMap fun e => List.replicate e.1 e.2, by simp only [lbIdMap, he], ?_, ?_⟩
  · intro r hr
    have hex : ∃ g, g < numPar ∧ (((1 :: sizes).zipIdx).flatMap fun e => List.replicate e.1 e.2)[r]? = some g := by
      by_cases h0 : r = 0
      · exact ⟨0, by omega, (hcol r 0).mpr (Or.inl ⟨rfl, h0⟩)⟩
      · by_contra hno
        push Not at hno
        have hall : ∀ i, i ≤ numPar - 1 → 1 + (i * q + min i m) ≤ r := by
          intro i
          induction i with
          | zero => intro _; simp; omega
          | succ i ih =>
            intro hi
            have h1 := ih (by omega)
            have h3 := hno (i + 1) (by omega)
            rw [Ne, hcol] at h3
            push Not at h3
            have h4 := h3.2 i (by omega) rfl h1
            rw [Nat.succ_mul]
            split at h4 <;> omega
        have := hall (numPar - 1) (le_refl _)
        omega
    obtain ⟨g, hg, hc⟩ := hex
    refine ⟨g, hg, hc, ?_, ?_⟩
    · have hmem : ∀ e ∈ ((1 :: sizes).zip (0 :: offsets.map (· + 1))).zipIdx, e.1.2 ≤ r → r < e.1.2 + e.1.1 → e.2 = g := by
        rintro ⟨⟨sz, off⟩, g'⟩ hm1 h3 h4
        rw [List.mk_mem_zipIdx_iff_getElem?] at hm1
        have hg' : g' < numPar := by
          have := (List.getElem?_eq_some_iff.mp hm1).1
          simp at this
          omega
        rw [hid g' hg'] at hm1
        have hcg : (((1 :: sizes).zipIdx).flatMap fun e => List.replicate e.1 e.2)[r]? = some g' := by
          rw [hcol]
          by_cases h0 : g' = 0
          · rw [if_pos h0] at hm1
            injection hm1 with hm1; injection hm1 with e1 e2
            left; simp only at h3 h4; omega
          · rw [if_neg h0] at hm1
            injection hm1 with hm1; injection hm1 with e1 e2
            right
            refine ⟨g' - 1, by omega, by omega, ?_, ?_⟩
            · rw [e2]; exact h3
            · rw [e1, e2]; exact h4
        rw [hc] at hcg
        injection hcg with hcg
        exact hcg.symm
      refine lookup_outer r g _ [] hmem (Or.inl ?_)
      rw [hcol] at hc
      have hgi := hid g hg
      refine ⟨(_, g), (List.mk_mem_zipIdx_iff_getElem?).mpr hgi, ?_⟩
      rcases hc with ⟨rfl, rfl⟩ | ⟨i, hi, rfl, h3, h4⟩
      · simp
      · simp only [Nat.add_eq_zero_iff, one_ne_zero, and_false, if_false, Nat.add_one_sub_one]
        exact ⟨h3, h4⟩
    · rw [hcol] at hc
      rcases hc with ⟨rfl, rfl⟩ | ⟨i, hi, rfl, h3, h4⟩ <;> omega
  · intro g hg
    refine ⟨_, _, hid g hg |>.trans (by rw [← Prod.mk.eta (p := if g = 0 then (1, 0) else _)]), ?_, ?_⟩
    · split
      · simp
      · simp only; omega
    · intro r
      rw [hcol]
      by_cases h0 : g = 0
      · subst h0; simp
      · simp only [if_neg h0]
        constructor
        · rintro (⟨h, _⟩ | ⟨i, hi, rfl, h3, h4⟩)
          · exact absurd h h0
          · simp only [Nat.add_one_sub_one]; exact ⟨h3, h4⟩
        · rintro ⟨h3, h4⟩
          exact Or.inr ⟨g - 1, by omega, by omega, h3, h4⟩

/-! ### The run -/

section
variable {W G C : Type} [Fintype W] [DecidableEq W] [DecidableEq G] (grp : W → G) (out : C → W → COut) (order : List G) (cases : List C)

/-- The layout of `C114_ranks`: every process works for one of the groups, and no group is without processes. -/
structure GroupLayout : Prop where
  nodup : order.Nodup
  some_group : order ≠ []
  mem : ∀ w, grp w ∈ order
  nonempty : ∀ g ∈ order, ∃ w, grp w = g

/-- C114. The study does not hang: in each state that a run can reach some process can go on, unless the master and all workers are through. -/
theorem C114_no_deadlock (hl : GroupLayout grp order) (s : LbSt W G C) (hr : LbReach grp out order cases s) (hs : ∀ s', ¬ LbStep grp out s s') : s.Finished := by
  obtain ⟨cur, st, log, h⟩ := inv_reach_lb hl.nodup hl.some_group hl.mem hl.nonempty hr
  rcases lb_progress h with h1 | ⟨s', h1⟩
  · exact h1
  · exact absurd h1 (hs s')

/-- C114. The study ends: no run goes on for ever. -/
theorem C114_terminates (f : Nat → LbSt W G C) : ¬ ∀ n, LbStep grp out (f n) (f (n + 1)) := by
  intro h
  have : ∀ n, lbMeasure (f n) + n ≤ lbMeasure (f 0) := by
    intro n
    induction n with
    | zero => simp
    | succ n ih => have := lbMeasure_step (h n); omega
  have := this (lbMeasure (f 0) + 1)
  omega

/-- What is recorded for the case `c` by the group `g`: the values that each process of the group found in that case, the case marked as failed if and only if one of them did not succeed, and then the message of one that failed. -/
def RecordOf (r : G × LbInfo W C) (e : G × C) : Prop :=
  r.1 = e.1 ∧ (∀ w, grp w = e.1 → r.2.data w = some e.2) ∧ (r.2.md.success = true ↔ ∀ w, grp w = e.1 → out e.2 w = .ok) ∧
  (r.2.md.success = false → ∃ w, r.2.md.msg = some w ∧ grp w = e.1 ∧ out e.2 w ≠ .ok)

open Classical in
/-- C114. When the master is through, there is a list of the cases with the group that worked on each such that: these cases and those not sent are the run list, each case once; every process has run
the cases of its group and no others, each once; the records are those of the cases in which no process raised a fatal error, each recorded once and with the values of that case; and if cases were left out then some
process raised a fatal error. -/
theorem C114_outcome (hl : GroupLayout grp order) (s : LbSt W G C) (hr : LbReach grp out order cases s) (hf : s.Finished) :
    ∃ log : List (G × C), (log.map Prod.snd ++ s.remaining).Perm cases ∧
      (∀ w, (s.evals.filter fun e => decide (e.1 = w)).map Prod.snd = (log.filter fun e => decide (e.1 = grp w)).map Prod.snd) ∧
      List.Forall₂ (RecordOf grp out) s.records (log.filter fun e => decide (∀ w, grp w = e.1 → out e.2 w ≠ .fatal)) ∧
      (s.remaining ≠ [] → ∃ e ∈ log, ∃ w, grp w = e.1 ∧ out e.2 w = .fatal) := by
  obtain ⟨cur, st, log, h⟩ := inv_reach_lb hl.nodup hl.some_group hl.mem hl.nonempty hr
  have hc := h.core
  have hst : ∀ w, st w = .stopped := by
    intro w
    have h1 := hc.wst w
    rw [hf.2 w] at h1
    cases hx : st w <;> rw [hx] at h1 <;> simp [LStat.wst] at h1 ⊢
  have hcur : ∀ g ∈ order, cur g = none := by
    intro g hg
    obtain ⟨w, rfl⟩ := hl.nonempty g hg
    rw [← hc.cas w, hst w]; rfl
  have hfl : ∀ e ∈ log, e.2.2 = decide (∀ w, grp w = e.1 → out e.2.1 w ≠ .fatal) := by
    intro e he
    rw [eq_comm, Bool.eq_iff_iff, decide_eq_true_eq]
    exact (hc.flags e he).symm
  refine ⟨log.map fun e => (e.1, e.2.1), ?_, ?_, ?_, ?_⟩
  · have := hc.cons
    rw [List.filterMap_eq_nil_iff.mpr hcur, List.append_nil] at this
    rw [List.map_map]
    exact this
  · intro w
    rw [hc.evals w, hst w, List.filter_map, List.map_map]
    simp [LStat.started, Function.comp_def]
  · rw [List.filter_map, List.forall₂_map_right_iff]
    have : log.filter ((fun e : G × C => decide (∀ w, grp w = e.1 → out e.2 w ≠ .fatal)) ∘ fun e => (e.1, e.2.1)) = log.filter fun e => e.2.2 := by
      apply List.filter_congr
      intro e he
      rw [hfl e he]; rfl
    rw [this]
    exact hc.recs
  · intro hne
    have hph := h.ph
    have hd := hf.1
    cases hp : s.phase with
    | done =>
      rw [hp] at hph
      rcases hph.2.1 with h1 | ⟨e, he, h1⟩
      · exact absurd h1 hne
      · refine ⟨(e.1, e.2.1), List.mem_map.mpr ⟨e, he, rfl⟩, ?_⟩
        rw [hfl e he, decide_eq_false_iff_not] at h1
        push Not at h1
        exact h1
    | seed l => rw [hp] at hd; exact hd.elim
    | loop => rw [hp] at hd; exact hd.elim
    | stop => rw [hp] at hd; exact hd.elim

/-- C114. If no process raises a fatal error, then every case of the run list is recorded, and recorded once. -/
theorem C114_all_recorded (hl : GroupLayout grp order) (hok : ∀ c w, out c w ≠ .fatal) (s : LbSt W G C) (hr : LbReach grp out order cases s) (hf : s.Finished) :
    ∃ log : List (G × C), (log.map Prod.snd).Perm cases ∧ List.Forall₂ (RecordOf grp out) s.records log := by
  obtain ⟨log, h1, _, h3, h4⟩ := C114_outcome grp out order cases hl s hr hf
  have hrem : s.remaining = [] := by
    by_contra h
    obtain ⟨e, _, w, _, hw⟩ := h4 h
    exact hok _ _ hw
  rw [hrem, List.append_nil] at h1
  rw [List.filter_eq_self.mpr fun e _ => decide_eq_true fun w _ => hok _ w] at h3
  exact ⟨log, h1, h3⟩

end

/-- Two groups, the first of two processes: ranks 1, 2 and rank 3. -/
def lbExGrp : Fin 3 → Nat := fun w => if w = 2 then 2 else 1

/-- A non-trivial case of the hypotheses. -/
example : GroupLayout lbExGrp [1, 2] := by
  refine ⟨by decide, by decide, by decide, ?_⟩
  intro g hg
  fin_cases hg
  · exact ⟨0, rfl⟩
  · exact ⟨2, rfl⟩

/-- Four ranks, three parallel studies: the ranks 1 and 2 work for group 1 and rank 3 for group 2. -/
example : lbIdMap 3 4 = .ok ([(1, 0), (2, 1), (1, 3)], [0, 1, 1, 2]) := rfl
example : doeIds [(1, 0), (2, 1), (1, 3)] = [(0, 0), (1, 1), (2, 1), (3, 2)] := rfl

/-- A run of one case on one process, up to the end. -/
example : ∃ s : LbSt (Fin 1) Nat Nat, LbReach (fun _ => 1) (fun _ _ => .failed) [1] [7] s ∧ s.Finished ∧ s.records.length = 1 := by
  have h0 : LbReach (fun _ : Fin 1 => 1) (fun _ _ => .failed) [1] [7] (LbSt.init [1] [7]) := .refl
  have h1 := h0.tail (LbStep.seedSend _ 1 [] 7 [] rfl rfl)
  have h2 := h1.tail (LbStep.seedDone _ rfl)
  have h3 := h2.tail (LbStep.take _ 0 7 [] rfl rfl)
  have h4 := h3.tail (LbStep.reply _ 0 7 rfl)
  have h5 := h4.tail (LbStep.recv _ 0 7 [] [] rfl rfl)
  have h6 := h5.tail (LbStep.stop _ rfl)
  have h7 := h6.tail (LbStep.takeStop _ 0 [] rfl rfl)
  exact ⟨_, h7, ⟨trivial, fun w => by fin_cases w; rfl⟩, rfl⟩

end OpenMDAO
