import Verif.Spec.VoiSets
import Verif.Lemmas.Connections
import Mathlib.Data.List.Perm.Basic
import Mathlib.Data.List.Nodup
import Mathlib.Data.List.Dedup
import Mathlib.Data.List.Perm.Subperm
import Mathlib.Algebra.Order.Ring.Rat
import Mathlib.Algebra.Field.Rat
import Mathlib.Tactic.Ring
import Mathlib.Tactic.FieldSimp
/-!
# Properties C127 and C128 (groups of variables of interest, scaled derivatives)
-/
namespace OpenMDAO
set_option linter.unusedSectionVars false

variable {K : Type} [Field K] [DecidableEq K]

/-! ## C127 -/

theorem voiStep_fold (s : List String) (l : List String) (hn : l.Nodup) (cur rem : List String)
    (h : ∀ v ∈ l, v ∈ s → v ∈ rem) :
    l.foldlM (voiStep s) (cur, rem) = .ok (cur ++ l.filter (s.contains ·),
      rem.filter fun v => !(l.contains v && s.contains v)) := by
  induction l generalizing cur rem with
  | nil => simp [List.foldlM, pure, Except.pure]
  | cons v l ih =>
    rw [List.foldlM_cons]
    by_cases hv : v ∈ s
    · have hr : v ∈ rem := h v List.mem_cons_self hv
      have e : voiStep s (cur, rem) v = .ok (cur ++ [v], rem.filter (· ≠ v)) := by simp [voiStep, hv, hr]
      rw [e]
      show l.foldlM (voiStep s) (cur ++ [v], rem.filter (· ≠ v)) = _
      rw [ih (List.nodup_cons.mp hn).2]
      · congr 2
        · simp [hv]
        · rw [List.filter_filter]
          apply List.filter_congr
          intro w _
          by_cases hw : w = v
          · subst hw; simp [hv]
          · simp [hw]
      · intro w hw hws
        refine List.mem_filter.mpr ⟨h w (List.mem_cons_of_mem _ hw) hws, ?_⟩
        simp only [ne_eq, decide_not, Bool.not_eq_eq_eq_not, Bool.not_true, decide_eq_false_iff_not]
        rintro rfl
        exact (List.nodup_cons.mp hn).1 hw
    · have e : voiStep s (cur, rem) v = .ok (cur, rem) := by simp [voiStep, hv]
      rw [e]
      show l.foldlM (voiStep s) (cur, rem) = _
      rw [ih (List.nodup_cons.mp hn).2 _ _ (fun w hw => h w (List.mem_cons_of_mem _ hw))]
      congr 2
      · simp [hv]
      · apply List.filter_congr
        intro w _
        by_cases hw : w = v
        · subst hw; simp [hv]
        · simp [hw]

/-- Two sets have no name in common. -/
def NoCommon (a b : List String) : Prop := ∀ v ∈ a, v ∉ b

theorem setStep_fold (l : List String) (hn : l.Nodup) (sets : List (List String)) (hd : sets.Pairwise NoCommon)
    (acc : List (List String)) (rem : List String) (h : ∀ v ∈ l, ∀ s ∈ sets, v ∈ s → v ∈ rem) :
    sets.foldlM (setStep l) (acc, rem) = .ok (acc ++ sets.map fun s => l.filter (s.contains ·),
      rem.filter fun v => !(l.contains v && sets.any (·.contains v))) := by
  induction sets generalizing acc rem with
  | nil => simp [List.foldlM, pure, Except.pure]
  | cons s sets ih =>
    rw [List.foldlM_cons]
    have e : setStep l (acc, rem) s = .ok (acc ++ [l.filter (s.contains ·)],
        rem.filter fun v => !(l.contains v && s.contains v)) := by
      simp only [setStep]
      rw [voiStep_fold s l hn [] rem (fun v hv hs => h v hv s List.mem_cons_self hs)]
      simp
    rw [e]
    show sets.foldlM (setStep l) (acc ++ [l.filter (s.contains ·)],
        rem.filter fun v => !(l.contains v && s.contains v)) = _
    rw [ih (List.pairwise_cons.mp hd).2]
    · congr 2
      · simp
      · rw [List.filter_filter]
        apply List.filter_congr
        intro w _
        simp only [List.any_cons, List.contains_eq_mem]
        by_cases h1 : w ∈ l <;> by_cases h2 : w ∈ s <;> simp [h1, h2]
    · intro v hv t ht hvt
      refine List.mem_filter.mpr ⟨h v hv t (List.mem_cons_of_mem _ ht) hvt, ?_⟩
      have : v ∉ s := fun hs => (List.pairwise_cons.mp hd).1 t ht v hs hvt
      simp [this]

theorem voiOfInterest_splits (sets : List (List String)) (hd : sets.Pairwise NoCommon) (l : List String) (hn : l.Nodup) :
    ∃ r, voiOfInterest sets l = .ok r ∧ Splits sets l r := by
  have e := setStep_fold l hn sets hd [] l (fun v hv _ _ _ => hv)
  refine ⟨_, by simp only [voiOfInterest, e]; rfl, ?_⟩
  have hrest : ∀ v, (v ∈ l.filter fun v => (l.filter fun v => !(l.contains v && sets.any (·.contains v))).contains v) ↔
      v ∈ l ∧ ∀ s ∈ sets, v ∉ s := by
    intro v
    simp only [List.contains_eq_mem, List.mem_filter, Bool.not_eq_eq_eq_not, Bool.not_true, Bool.and_eq_false_imp,
      decide_eq_true_eq, List.any_eq_false]
    constructor
    · rintro ⟨h1, h2, h3⟩; exact ⟨h1, fun s hs => by simpa using h3 h1 s hs⟩
    · rintro ⟨h1, h2⟩; exact ⟨h1, h1, fun _ s hs => by simpa using h2 s hs⟩
  have hmem : ∀ t, t ∈ ((sets.map fun s => l.filter (s.contains ·)).filter (fun t => !t.isEmpty) ++
      (l.filter fun v => (l.filter fun v => !(l.contains v && sets.any (·.contains v))).contains v).map fun v => [v]) ↔
      ((∃ s ∈ sets, t = l.filter (s.contains ·)) ∧ t ≠ []) ∨ ∃ v ∈ l, (∀ s ∈ sets, v ∉ s) ∧ t = [v] := by
    intro t
    rw [List.mem_append, List.mem_filter, List.mem_map, List.mem_map]
    constructor
    · rintro (⟨⟨s, hs, rfl⟩, h2⟩ | ⟨v, hv, rfl⟩)
      · exact .inl ⟨⟨s, hs, rfl⟩, by simpa using h2⟩
      · exact .inr ⟨v, ((hrest v).mp hv).1, ((hrest v).mp hv).2, rfl⟩
    · rintro (⟨⟨s, hs, rfl⟩, h2⟩ | ⟨v, hv, h, rfl⟩)
      · exact .inl ⟨⟨s, hs, rfl⟩, by simpa using h2⟩
      · exact .inr ⟨v, (hrest v).mpr ⟨hv, h⟩, rfl⟩
  simp only [List.nil_append]
  constructor
  · -- permutation
    have hnd : (((sets.map fun s => l.filter (s.contains ·)).filter (fun t => !t.isEmpty) ++
      (l.filter fun v => (l.filter fun v => !(l.contains v && sets.any (·.contains v))).contains v).map
        fun v => [v]).flatten).Nodup := by
      rw [List.nodup_flatten]
      constructor
      · intro t ht
        rcases (hmem t).mp ht with ⟨⟨s, _, rfl⟩, _⟩ | ⟨v, _, _, rfl⟩
        · exact hn.filter _
        · simp
      · rw [List.pairwise_append]
        refine ⟨?_, ?_, ?_⟩
        · apply List.Pairwise.filter
          rw [List.pairwise_map]
          refine hd.imp ?_
          intro a b hab v hv1 hv2
          exact hab v (by simpa using (List.mem_filter.mp hv1).2) (by simpa using (List.mem_filter.mp hv2).2)
        · rw [List.pairwise_map]
          refine (hn.filter _).imp ?_
          intro a b hab v hv1 hv2
          rw [List.mem_singleton] at hv1 hv2
          exact hab (hv1.symm.trans hv2)
        · intro t ht t' ht' v hv1 hv2
          obtain ⟨w, hw, rfl⟩ := List.mem_map.mp ht'
          rw [List.mem_singleton] at hv2
          subst hv2
          obtain ⟨s, hs, rfl⟩ := List.mem_map.mp (List.mem_filter.mp ht).1
          exact ((hrest v).mp hw).2 s hs (by simpa using (List.mem_filter.mp hv1).2)
    refine (List.perm_ext_iff_of_nodup hnd hn).mpr ?_
    intro v
    rw [List.mem_flatten]
    constructor
    · rintro ⟨t, ht, hv⟩
      rcases (hmem t).mp ht with ⟨⟨s, _, rfl⟩, _⟩ | ⟨w, hw, _, rfl⟩
      · exact (List.mem_filter.mp hv).1
      · rw [List.mem_singleton] at hv; exact hv ▸ hw
    · intro hv
      by_cases h : ∃ s ∈ sets, v ∈ s
      · obtain ⟨s, hs, hvs⟩ := h
        have hm : v ∈ l.filter (s.contains ·) := List.mem_filter.mpr ⟨hv, by simpa using hvs⟩
        exact ⟨_, (hmem _).mpr (.inl ⟨⟨s, hs, rfl⟩, List.ne_nil_of_mem hm⟩), hm⟩
      · exact ⟨[v], (hmem _).mpr (.inr ⟨v, hv, fun s hs hvs => h ⟨s, hs, hvs⟩, rfl⟩), List.mem_singleton.mpr rfl⟩
  · intro h
    rcases (hmem _).mp h with ⟨_, h⟩ | ⟨v, _, _, h⟩
    · exact h rfl
    · exact absurd h (by simp)
  · intro a ha b hb
    constructor
    · rintro ⟨t, ht, h1, h2⟩
      rcases (hmem t).mp ht with ⟨⟨s, hs, rfl⟩, _⟩ | ⟨w, _, _, rfl⟩
      · exact .inr ⟨s, hs, by simpa using (List.mem_filter.mp h1).2, by simpa using (List.mem_filter.mp h2).2⟩
      · rw [List.mem_singleton] at h1 h2; exact .inl (h1.trans h2.symm)
    · have key : ∀ s ∈ sets, a ∈ s → b ∈ s → ∃ t ∈ _, a ∈ t ∧ b ∈ t := fun s hs h1 h2 =>
        ⟨l.filter (s.contains ·), (hmem _).mpr (.inl ⟨⟨s, hs, rfl⟩,
          List.ne_nil_of_mem (List.mem_filter.mpr ⟨ha, by simpa using h1⟩)⟩),
          List.mem_filter.mpr ⟨ha, by simpa using h1⟩, List.mem_filter.mpr ⟨hb, by simpa using h2⟩⟩
      rintro (rfl | ⟨s, hs, h1, h2⟩)
      · by_cases h : ∃ s ∈ sets, a ∈ s
        · obtain ⟨s, hs, h1⟩ := h
          exact key s hs h1 h1
        · exact ⟨[a], (hmem _).mpr (.inr ⟨a, ha, fun s hs hvs => h ⟨s, hs, hvs⟩, rfl⟩),
            List.mem_singleton.mpr rfl, List.mem_singleton.mpr rfl⟩
      · exact key s hs h1 h2

theorem hasName_iff (d : List (String × VoiMeta K)) (n : String) : hasName d n = true ↔ n ∈ d.map (·.1) := by
  simp only [hasName]
  rw [lookup_isSome_iff, List.mem_map]

/-- What holds for every driver that was built. -/
structure VoiInv (d : VoiDrv K) : Prop where
  desvars : (d.desvars.map (·.1)).Nodup
  objs : (d.objs.map (·.1)).Nodup
  cons : (d.cons.map (·.1)).Nodup
  sets : d.sets.Pairwise NoCommon

theorem nodup_snoc {l : List String} {n : String} (h : l.Nodup) (hn : n ∉ l) : (l ++ [n]).Nodup :=
  List.nodup_append.mpr ⟨h, List.nodup_singleton n, by
    intro a ha b hb; rw [List.mem_singleton] at hb; subst hb; rintro rfl; exact hn ha⟩

theorem built_inv {multi mpi : Bool} {d : VoiDrv K} (h : Built multi mpi d) : VoiInv d := by
  induction h with
  | init => exact ⟨.nil, .nil, .nil, .nil⟩
  | @desvar d d' n m _ h ih =>
    simp only [VoiDrv.addDesvar] at h
    split at h
    · cases h
    · rename_i hn
      rw [hasName_iff] at hn
      cases h
      exact ⟨by rw [List.map_append]; exact nodup_snoc ih.desvars hn, ih.objs, ih.cons, ih.sets⟩
  | @objective d d' n m _ h ih =>
    simp only [VoiDrv.addObjective] at h
    split at h
    · cases h
    · split at h
      · cases h
      · rename_i hn
        rw [hasName_iff] at hn
        split at h
        · cases h
        · cases h
          exact ⟨ih.desvars, by rw [List.map_append]; exact nodup_snoc ih.objs hn, ih.cons, ih.sets⟩
  | @constraint d d' n m _ h ih =>
    simp only [VoiDrv.addConstraint] at h
    split at h
    · cases h
    · rename_i hn
      rw [hasName_iff] at hn
      cases h
      exact ⟨ih.desvars, ih.objs, by rw [List.map_append]; exact nodup_snoc ih.cons hn, ih.sets⟩
  | @parallel d d' once l _ h ih =>
    simp only [VoiDrv.parallelDerivs] at h
    generalize (if once = true then [] else l) = left at h
    split at h
    · cases h
    · split at h
      · cases h
      · rename_i hs
        split at h
        · cases h
        · cases h
          cases mpi with
          | false => exact ih
          | true =>
            refine ⟨ih.desvars, ih.objs, ih.cons, ?_⟩
            simp only [if_true]
            rw [List.pairwise_append]
            refine ⟨ih.sets, List.pairwise_singleton _ _, ?_⟩
            intro a ha b hb v hva hvb
            rw [List.mem_singleton] at hb
            subst hb
            apply hs
            rw [List.any_eq_true]
            exact ⟨a, ha, List.any_eq_true.mpr ⟨v, hvb, by simpa using hva⟩⟩

/-- **C127.** However the driver was built, `desvars_of_interest` splits the design variables. -/
theorem C127_desvars (multi mpi : Bool) (d : VoiDrv K) (h : Built multi mpi d) :
    ∃ r, d.desvarsOfInterest = .ok r ∧ Splits d.sets (d.desvars.map (·.1)) r :=
  voiOfInterest_splits _ (built_inv h).sets _ (built_inv h).desvars

/-- **C127 (partial: no variable is objective and constraint, see `C127_both_refuted`).** `outputs_of_interest` splits
the objectives and constraints. -/
theorem C127_outputs_partial (multi mpi : Bool) (d : VoiDrv K) (h : Built multi mpi d)
    (hd : ∀ n ∈ d.objs.map (·.1), n ∉ d.cons.map (·.1)) :
    ∃ r, d.outputsOfInterest = .ok r ∧ Splits d.sets (d.objs.map (·.1) ++ d.cons.map (·.1)) r :=
  voiOfInterest_splits _ (built_inv h).sets _ (List.nodup_append.mpr ⟨(built_inv h).objs, (built_inv h).cons, by
    intro a ha b hb; rintro rfl; exact hd a ha hb⟩)

/-- **C127 (partial: names given as a list, see `C127_iterator_refuted`).** Under MPI `parallel_derivs` adds the names
as a set and leaves the other sets as they were; it is refused exactly if a name is not a design variable, objective
or constraint, if one is in another set, or if design variables are mixed with other variables or repeated. -/
theorem C127_declare_partial (d : VoiDrv K) (names : List String) :
    d.parallelDerivs true false names =
      if (∃ n ∈ names, n ∉ d.desvars.map (·.1) ∧ n ∉ d.objs.map (·.1) ∧ n ∉ d.cons.map (·.1)) ∨
        (∃ n ∈ names, ∃ g ∈ d.sets, n ∈ g) ∨
        ((∃ n ∈ names, n ∈ d.desvars.map (·.1)) ∧ ¬ ((∀ n ∈ names, n ∈ d.desvars.map (·.1)) ∧ names.Nodup))
      then .error .RuntimeError else .ok { d with sets := d.sets ++ [names] } := by
  have h1 : (names.any fun n => !(hasName d.desvars n || hasName d.objs n || hasName d.cons n)) = true ↔
      ∃ n ∈ names, n ∉ d.desvars.map (·.1) ∧ n ∉ d.objs.map (·.1) ∧ n ∉ d.cons.map (·.1) := by
    rw [List.any_eq_true]
    refine exists_congr fun n => and_congr_right fun _ => ?_
    rw [Bool.not_eq_true', Bool.or_eq_false_iff, Bool.or_eq_false_iff, ← Bool.not_eq_true, ← Bool.not_eq_true,
      ← Bool.not_eq_true, hasName_iff, hasName_iff, hasName_iff, and_assoc]
  have h2 : (d.sets.any fun g => names.any fun n => g.contains n) = true ↔ ∃ n ∈ names, ∃ g ∈ d.sets, n ∈ g := by
    simp only [List.any_eq_true, List.contains_eq_mem, decide_eq_true_eq]
    constructor
    · rintro ⟨g, hg, n, hn, h⟩; exact ⟨n, hn, g, hg, h⟩
    · rintro ⟨n, hn, g, hg, h⟩; exact ⟨g, hg, n, hn, h⟩
  have h3 : (!(names.dedup.filter (hasName d.desvars)).isEmpty &&
      decide ((names.dedup.filter (hasName d.desvars)).length ≠ names.length)) = true ↔
      ((∃ n ∈ names, n ∈ d.desvars.map (·.1)) ∧ ¬ ((∀ n ∈ names, n ∈ d.desvars.map (·.1)) ∧ names.Nodup)) := by
    have hsub := (List.filter_sublist (p := hasName d.desvars) (l := names.dedup)).trans (List.dedup_sublist names)
    have hlen : (names.dedup.filter (hasName d.desvars)).length = names.length ↔
        (∀ n ∈ names, n ∈ d.desvars.map (·.1)) ∧ names.Nodup := by
      constructor
      · intro h
        have he := hsub.eq_of_length h
        refine ⟨fun n hn => ?_, ?_⟩
        · rw [← he] at hn; exact (hasName_iff _ _).mp (List.mem_filter.mp hn).2
        · rw [← he]; exact (List.nodup_dedup names).filter _
      · rintro ⟨ha, hn⟩
        rw [List.dedup_eq_self.mpr hn, List.filter_eq_self.mpr fun n h => (hasName_iff _ _).mpr (ha n h)]
    have hne : (!(names.dedup.filter (hasName d.desvars)).isEmpty) = true ↔ ∃ n ∈ names, n ∈ d.desvars.map (·.1) := by
      rw [Bool.not_eq_true', ← Bool.not_eq_true, List.isEmpty_iff, ← ne_eq]
      constructor
      · intro h
        obtain ⟨n, hn⟩ := List.exists_mem_of_ne_nil _ h
        rw [List.mem_filter, List.mem_dedup, hasName_iff] at hn
        exact ⟨n, hn⟩
      · rintro ⟨n, hn⟩
        rw [← List.mem_dedup (a := n), ← hasName_iff, ← List.mem_filter] at hn
        exact List.ne_nil_of_mem hn
    rw [Bool.and_eq_true, hne, decide_eq_true_eq, ne_eq, hlen]
  simp only [VoiDrv.parallelDerivs, Bool.false_eq_true, if_false, if_true]
  by_cases g1 : (names.any fun n => !(hasName d.desvars n || hasName d.objs n || hasName d.cons n)) = true
  · rw [if_pos g1, if_pos (.inl (h1.mp g1))]
  · rw [if_neg g1]
    by_cases g2 : (d.sets.any fun g => names.any fun n => g.contains n) = true
    · rw [if_pos g2, if_pos (.inr (.inl (h2.mp g2)))]
    · rw [if_neg g2]
      by_cases g3 : (!(names.dedup.filter (hasName d.desvars)).isEmpty &&
        decide ((names.dedup.filter (hasName d.desvars)).length ≠ names.length)) = true
      · rw [if_pos g3, if_pos (.inr (.inr (h3.mp g3)))]
      · rw [if_neg g3, if_neg]
        rintro (h | h | h)
        · exact g1 (h1.mpr h)
        · exact g2 (h2.mpr h)
        · exact g3 (h3.mpr h)

/-- Metadata without scaling. -/
def plainMeta : VoiMeta ℚ := ⟨.s 0, .s 1, none⟩

/-- A driver with design variables `x`, `y`, `z`, an objective and two constraints; `x` and `z` and the constraints are
grouped. -/
def exVoi : VoiDrv ℚ where
  desvars := [("x", plainMeta), ("y", plainMeta), ("z", plainMeta)]
  objs := [("f", plainMeta)]
  cons := [("c", plainMeta), ("g", plainMeta)]
  sets := [["z", "x"], ["c", "g"]]

theorem exVoi_built : Built true true exVoi :=
  .parallel false ["c", "g"] (.parallel false ["z", "x"] (.constraint "g" plainMeta (.constraint "c" plainMeta
    (.objective "f" plainMeta (.desvar "z" plainMeta (.desvar "y" plainMeta (.desvar "x" plainMeta .init rfl) rfl) rfl)
      rfl) rfl) rfl) (by rfl)) (by rfl)

example : exVoi.desvarsOfInterest = .ok [["x", "z"], ["y"]] ∧ exVoi.outputsOfInterest = .ok [["c", "g"], ["f"]] :=
  ⟨by decide +kernel, by decide +kernel⟩

example : ∃ r, exVoi.outputsOfInterest = .ok r ∧ Splits exVoi.sets ["f", "c", "g"] r :=
  C127_outputs_partial true true exVoi exVoi_built (by decide)

/-- **C127 refuted (objective and constraint).** A variable may be an objective and a constraint. Then it is in two
tuples, and if it is in a set `outputs_of_interest`, which `setup` calls, raises `KeyError`. -/
theorem C127_both_refuted : ∃ d d' : VoiDrv ℚ, Built true true d ∧ d.outputsOfInterest = .ok [["f"], ["f"], ["c"]] ∧
    d.parallelDerivs true false ["f", "c"] = .ok d' ∧ d'.outputsOfInterest = .error .KeyError := by
  refine ⟨{ objs := [("f", plainMeta)], cons := [("f", plainMeta), ("c", plainMeta)] },
    { objs := [("f", plainMeta)], cons := [("f", plainMeta), ("c", plainMeta)], sets := [["f", "c"]] },
    .constraint "c" plainMeta (.constraint "f" plainMeta (.objective "f" plainMeta .init rfl) rfl) rfl,
    by decide +kernel, rfl, by decide +kernel⟩

/-- **C127 refuted (iterators).** The documentation allows any iterable; of a generator nothing is left when the set is
added, so that the variables are not grouped, also if they are in another set already. -/
theorem C127_iterator_refuted : exVoi.parallelDerivs true true ["x", "y"] = .ok { exVoi with sets := exVoi.sets ++ [[]] } ∧
    ({ exVoi with sets := exVoi.sets ++ [[]] } : VoiDrv ℚ).desvarsOfInterest = .ok [["x", "z"], ["y"]] :=
  ⟨rfl, by decide +kernel⟩

/-- **C127.** Without MPI `parallel_derivs` changes nothing. -/
theorem C127_serial (once : Bool) (d d' : VoiDrv K) (names : List String) (h : d.parallelDerivs false once names = .ok d') :
    d' = d := by
  simp only [VoiDrv.parallelDerivs] at h
  generalize (if once = true then [] else names) = left at h
  split at h
  · cases h
  · split at h
    · cases h
    · split at h
      · cases h
      · simpa using h.symm

/-! ## C128 -/

theorem conv_fold {M : Type} (f : M → Option (NumArr K)) (l : List (String × M)) (hn : (l.map (·.1)).Nodup)
    (acc : List (String × NumArr K)) (q : String) :
    (l.foldl (fun acc e => match f e.2 with | none => acc | some s => dictSet acc e.1 s) acc).lookup q =
      match (l.lookup q).bind f with
      | none => acc.lookup q
      | some s => some s := by
  induction l generalizing acc with
  | nil => rfl
  | cons e l ih =>
    rw [List.foldl_cons, ih (List.nodup_cons.mp hn).2]
    by_cases hq : q = e.1
    · have hl : l.lookup q = none := by
        cases h : l.lookup q with
        | none => rfl
        | some m =>
          exact absurd (List.mem_map.mpr ⟨_, lookup_mem h, hq⟩) (List.nodup_cons.mp hn).1
      rw [hl, List.lookup_cons, beq_iff_eq.mpr hq]
      cases hf : f e.2 with
      | none => simp [hf]
      | some s => simp [hf, lookup_dictSet, hq]
    · rw [List.lookup_cons, beq_eq_false_iff_ne.mpr hq]
      cases hf : f e.2 with
      | none => rfl
      | some s => simp only [lookup_dictSet, if_neg hq]

theorem voiLookup_of_mem {M : Type} {l : List (String × M)} (hn : (l.map (·.1)).Nodup) {q : String} {m : M}
    (h : (q, m) ∈ l) : l.lookup q = some m := (lookup_eq_some_iff_of_nodup l q m hn).mpr h

/-- The entry of a conversion dictionary for a scaler. -/
def convOf (s t : NumArr K) : Option (NumArr K) := if s.allOne then none else some t

theorem dvConv_lookup {multi mpi : Bool} {d : VoiDrv K} (h : Built multi mpi d) {p : String} {m : VoiMeta K}
    (hp : (p, m) ∈ d.desvars) : d.dvConversions.lookup p = convOf m.scaler m.scaler.recip := by
  have e : d.dvConversions = d.desvars.foldl (fun acc e => match convOf e.2.scaler e.2.scaler.recip with
      | none => acc | some s => dictSet acc e.1 s) [] := by
    simp only [VoiDrv.dvConversions]
    congr 1
    funext acc e
    simp only [convOf]
    split <;> rfl
  rw [e, conv_fold (fun m : VoiMeta K => convOf m.scaler m.scaler.recip) _ (built_inv h).desvars,
    voiLookup_of_mem (built_inv h).desvars hp]
  show (match convOf m.scaler m.scaler.recip with | none => _ | some s => some s) = _
  cases convOf m.scaler m.scaler.recip <;> rfl

theorem responses_nodup {multi mpi : Bool} {d : VoiDrv K} (h : Built multi mpi d)
    (hb : ∀ n ∈ d.objs.map (·.1), n ∉ d.cons.map (·.1)) : ((d.objs ++ d.cons).map (·.1)).Nodup := by
  rw [List.map_append]
  exact List.nodup_append.mpr ⟨(built_inv h).objs, (built_inv h).cons, by
    intro a ha b hb'; rintro rfl; exact hb a ha hb'⟩

theorem fnConv_lookup {multi mpi : Bool} {d : VoiDrv K} (h : Built multi mpi d)
    (hb : ∀ n ∈ d.objs.map (·.1), n ∉ d.cons.map (·.1)) {u : String} {m : VoiMeta K}
    (hu : (u, m) ∈ d.objs ++ d.cons) : d.fnConversions.lookup u = convOf m.scaler m.scaler := by
  have e : d.fnConversions = (d.objs ++ d.cons).foldl (fun acc e => match convOf e.2.scaler e.2.scaler with
      | none => acc | some s => dictSet acc e.1 s) [] := by
    simp only [VoiDrv.fnConversions]
    congr 1
    funext acc e
    simp only [convOf]
    split <;> rfl
  rw [e, conv_fold (fun m : VoiMeta K => convOf m.scaler m.scaler) _ (responses_nodup h hb),
    voiLookup_of_mem (responses_nodup h hb) hu]
  show (match convOf m.scaler m.scaler with | none => _ | some s => some s) = _
  cases convOf m.scaler m.scaler <;> rfl

theorem allOne_one {n : Nat} {f : Nat → K} {s : NumArr K} (h : ScalerIs n f s) (h1 : s.allOne = true) :
    ∀ i < n, f i = 1 := by
  intro i hi
  cases s with
  | s x => rw [h i hi]; simpa [NumArr.allOne] using h1
  | a l =>
    have := List.mem_of_getElem? (h.2 i hi)
    simp only [NumArr.allOne, List.all_eq_true, beq_iff_eq] at h1
    exact h1 _ this

theorem recip_is {n : Nat} {f : Nat → K} {s : NumArr K} (h : ScalerIs n f s) :
    ScalerIs n (fun i => (f i)⁻¹) s.recip := by
  cases s with
  | s x => intro i hi; show (f i)⁻¹ = x⁻¹; rw [h i hi]
  | a l => exact ⟨by simpa [NumArr.recip] using h.1, fun i hi => by simp [h.2 i hi]⟩

/-- A vector times the factors of its entries. -/
theorem imul_entries {n : Nat} {f : Nat → K} {s : NumArr K} (h : ScalerIs n f s) (g : Nat → K) :
    imul ((List.range n).map g) s = .ok ((List.range n).map fun i => g i * f i) := by
  cases s with
  | s x =>
    simp only [imul, List.map_map]
    congr 1
    apply List.map_congr_left
    intro i hi
    rw [h i (List.mem_range.mp hi)]; rfl
  | a l =>
    simp only [imul, List.length_map, List.length_range]
    rw [if_pos h.1]
    congr 1
    apply List.ext_getElem?
    intro i
    rw [List.getElem?_zipWith]
    by_cases hi : i < n
    · simp [hi, h.2 i hi]
    · have : l[i]? = none := List.getElem?_eq_none (by rw [h.1]; omega)
      simp [hi, this]

/-- A vector of any length times a single factor. -/
theorem imul_single {n : Nat} {f : Nat → K} {s : NumArr K} (h : ScalerIs n f s) (h1 : (∃ x, s = .s x) ∨ n = 1)
    (c : Nat) (hc : c < n) (v : List K) : imul v s = .ok (v.map (· * f c)) := by
  rcases h1 with ⟨x, rfl⟩ | rfl
  · simp only [imul, h c hc]
  · cases s with
    | s x => simp only [imul, h c hc]
    | a l =>
      obtain ⟨hl, h2⟩ := h
      match l, hl with
      | [x], _ =>
        have e : f c = x := by
          have h0 : c = 0 := by omega
          subst h0
          have := h2 0 hc
          simpa using this.symm
        simp only [imul, e, List.length_singleton]
        split
        · match v, ‹1 = v.length› with
          | [y], _ => rfl
        · rfl

theorem scaleName_entries {conv : List (String × NumArr K)} {q : String} {n : Nat} {f : Nat → K} {s t : NumArr K}
    (hq : conv.lookup q = convOf s t) (h : ScalerIs n f t) (h1 : s.allOne = true → ∀ i < n, f i = 1) (g : Nat → K) :
    scaleName conv q ((List.range n).map g) = .ok ((List.range n).map fun i => g i * f i) := by
  simp only [scaleName, hq, convOf]
  by_cases ho : s.allOne = true
  · rw [if_pos ho]
    show Except.ok _ = _
    congr 1
    apply List.map_congr_left
    intro i hi
    rw [h1 ho i (List.mem_range.mp hi), mul_one]
  · rw [if_neg ho]
    exact imul_entries h g

theorem scaleName_single {conv : List (String × NumArr K)} {q : String} {n : Nat} {f : Nat → K} {s t : NumArr K}
    (hq : conv.lookup q = convOf s t) (h : ScalerIs n f t) (h1 : s.allOne = true → ∀ i < n, f i = 1)
    (hs : (∃ x, t = .s x) ∨ n = 1) (c : Nat) (hc : c < n) (v : List K) :
    scaleName conv q v = .ok (v.map (· * f c)) := by
  simp only [scaleName, hq, convOf]
  by_cases ho : s.allOne = true
  · rw [if_pos ho, h1 ho c hc]
    simp
  · rw [if_neg ho]
    exact imul_single h hs c hc v

theorem mapM_range {α β : Type} (F : α → Except PyErr β) (a : Nat → α) (b : Nat → β) (n : Nat)
    (h : ∀ i < n, F (a i) = .ok (b i)) : ((List.range n).map a).mapM F = .ok ((List.range n).map b) := by
  have : ∀ l : List Nat, (∀ i ∈ l, i < n) → (l.map a).mapM F = .ok (l.map b) := by
    intro l
    induction l with
    | nil => intro _; rfl
    | cons i l ih =>
      intro hl
      rw [List.map_cons, List.mapM_cons, h i (hl i List.mem_cons_self), ih fun j hj => hl j (List.mem_cons_of_mem _ hj)]
      rfl
  exact this _ fun i hi => List.mem_range.mp hi

/-- **C128 (partial: the design variable has one scale factor, see `C128_fwd_refuted`; no variable is objective and
constraint, see `C128_both_refuted`).** In forward mode the driver gets the derivatives of the scaled response with
respect to the scaled design variable. -/
theorem C128_fwd_partial (multi mpi : Bool) (d : VoiDrv K) (h : Built multi mpi d)
    (hb : ∀ n ∈ d.objs.map (·.1), n ∉ d.cons.map (·.1)) (u p : String) (mu mp : VoiMeta K)
    (hu : (u, mu) ∈ d.objs ++ d.cons) (hp : (p, mp) ∈ d.desvars) (m n : Nat) (fu fp : Nat → K)
    (hfu : ScalerIs m fu mu.scaler) (hfp : ScalerIs n fp mp.scaler) (_hz : ∀ c < n, fp c ≠ 0)
    (h1 : (∃ x, mp.scaler = .s x) ∨ n = 1) (D : Nat → Nat → K) :
    d.blockFwd u p (matCols D m n) = .ok (matCols (fun r c => fu r * D r c / fp c) m n) := by
  simp only [VoiDrv.blockFwd, matCols]
  apply mapM_range
  intro c hc
  rw [scaleName_single (dvConv_lookup h hp) (recip_is hfp) (fun ho i hi => by rw [allOne_one hfp ho i hi, inv_one])
    (h1.imp (fun ⟨x, hx⟩ => ⟨x⁻¹, by rw [hx]; rfl⟩) id) c hc]
  show scaleName _ u _ = _
  rw [List.map_map]
  show scaleName _ u ((List.range m).map fun r => D r c * (fp c)⁻¹) = _
  rw [scaleName_entries (fnConv_lookup h hb hu) hfu (allOne_one hfu)]
  congr 1
  apply List.map_congr_left
  intro r _
  rw [div_eq_mul_inv]; ring

/-- **C128 (partial: the response has one scale factor, see `C128_rev_refuted`; no variable is objective and
constraint).** The same in reverse mode. -/
theorem C128_rev_partial (multi mpi : Bool) (d : VoiDrv K) (h : Built multi mpi d)
    (hb : ∀ n ∈ d.objs.map (·.1), n ∉ d.cons.map (·.1)) (u p : String) (mu mp : VoiMeta K)
    (hu : (u, mu) ∈ d.objs ++ d.cons) (hp : (p, mp) ∈ d.desvars) (m n : Nat) (fu fp : Nat → K)
    (hfu : ScalerIs m fu mu.scaler) (hfp : ScalerIs n fp mp.scaler) (_hz : ∀ c < n, fp c ≠ 0)
    (h1 : (∃ x, mu.scaler = .s x) ∨ m = 1) (D : Nat → Nat → K) :
    d.blockRev u p (matRowsOf D m n) = .ok (matRowsOf (fun r c => fu r * D r c / fp c) m n) := by
  simp only [VoiDrv.blockRev, matRowsOf]
  apply mapM_range
  intro r hr
  rw [scaleName_single (fnConv_lookup h hb hu) hfu (allOne_one hfu) h1 r hr]
  show scaleName _ p _ = _
  rw [List.map_map]
  show scaleName _ p ((List.range n).map fun c => D r c * fu r) = _
  rw [scaleName_entries (dvConv_lookup h hp) (recip_is hfp) (fun ho i hi => by rw [allOne_one hfp ho i hi, inv_one])]
  congr 1
  apply List.map_congr_left
  intro c _
  rw [div_eq_mul_inv]; ring

theorem getD_convOf {n : Nat} {f : Nat → K} {s t : NumArr K} (h : ScalerIs n f t) :
    ∃ v, imul (List.replicate n (0 : K)) ((convOf s t).getD (.s 1)) = .ok v := by
  have e : List.replicate n (0 : K) = (List.range n).map fun _ => 0 := by simp
  simp only [convOf]
  split
  · exact ⟨_, rfl⟩
  · rw [e, Option.getD_some, imul_entries h]; exact ⟨_, rfl⟩

/-- **C128 (partial: the response has one scale factor, see `C128_fd_refuted`; no variable is objective and
constraint).** The same by finite differences. -/
theorem C128_fd_partial (multi mpi : Bool) (d : VoiDrv K) (h : Built multi mpi d)
    (hb : ∀ n ∈ d.objs.map (·.1), n ∉ d.cons.map (·.1)) (u p : String) (mu mp : VoiMeta K)
    (hu : (u, mu) ∈ d.objs ++ d.cons) (hp : (p, mp) ∈ d.desvars) (m n : Nat) (fu fp : Nat → K)
    (hfu : ScalerIs m fu mu.scaler) (hfp : ScalerIs n fp mp.scaler) (_hz : ∀ c < n, fp c ≠ 0)
    (h1 : (∃ x, mu.scaler = .s x) ∨ m = 1) (D : Nat → Nat → K) :
    d.blockFd u p n (matRowsOf D m n) = .ok (matRowsOf (fun r c => fu r * D r c / fp c) m n) := by
  have e1 : scaleRows d.dvConversions p n (matRowsOf D m n) = .ok (matRowsOf (fun r c => D r c * (fp c)⁻¹) m n) := by
    obtain ⟨v, hv⟩ := getD_convOf (s := mp.scaler) (recip_is hfp)
    simp only [scaleRows, dvConv_lookup h hp, hv, matRowsOf]
    apply mapM_range
    intro r hr
    exact scaleName_entries (dvConv_lookup h hp) (recip_is hfp)
      (fun ho i hi => by rw [allOne_one hfp ho i hi, inv_one]) _
  simp only [VoiDrv.blockFd, e1, Except.bind]
  have e2 : ∃ v, imul (List.replicate n (0 : K)) ((convOf mu.scaler mu.scaler).getD (.s 1)) = .ok v := by
    simp only [convOf]
    split
    · exact ⟨_, rfl⟩
    · rw [Option.getD_some]
      rcases h1 with ⟨x, hx⟩ | h1
      · rw [hx]; exact ⟨_, rfl⟩
      · exact ⟨_, imul_single hfu (.inr h1) 0 (by omega) _⟩
  obtain ⟨v, hv⟩ := e2
  simp only [scaleRows, fnConv_lookup h hb hu, hv, matRowsOf]
  apply mapM_range
  intro r hr
  rw [scaleName_single (fnConv_lookup h hb hu) hfu (allOne_one hfu) h1 r hr, List.map_map]
  congr 1
  apply List.map_congr_left
  intro c _
  show D r c * (fp c)⁻¹ * fu r = _
  rw [div_eq_mul_inv]; ring

theorem idx_fold (l : List (String × VoiMeta K)) (hn : (l.map (·.1)).Nodup) (q : String) (m : VoiMeta K)
    (h : (q, m) ∈ l) : (l.foldl (fun acc e => match e.2.indices with | none => acc | some l => dictSet acc e.1 l)
      ([] : List (String × List Nat))).lookup q = m.indices := by
  suffices H : ∀ acc : List (String × List Nat), (l.foldl (fun acc e => match e.2.indices with
      | none => acc | some l => dictSet acc e.1 l) acc).lookup q =
      match (l.lookup q).bind VoiMeta.indices with | none => acc.lookup q | some s => some s by
    rw [H, voiLookup_of_mem hn h]
    show (match m.indices with | none => _ | some s => some s) = _
    cases m.indices <;> rfl
  clear h
  induction l with
  | nil => intro acc; rfl
  | cons e l ih =>
    intro acc
    rw [List.foldl_cons, ih (List.nodup_cons.mp hn).2]
    by_cases hq : q = e.1
    · have hl : l.lookup q = none := by
        cases h : l.lookup q with
        | none => rfl
        | some m =>
          exact absurd (List.mem_map.mpr ⟨_, lookup_mem h, hq⟩) (List.nodup_cons.mp hn).1
      rw [hl, List.lookup_cons, beq_iff_eq.mpr hq]
      cases hf : e.2.indices with
      | none => simp [hf]
      | some s => simp [hf, lookup_dictSet, hq]
    · rw [List.lookup_cons, beq_eq_false_iff_ne.mpr hq]
      cases hf : e.2.indices with
      | none => rfl
      | some s => simp only [lookup_dictSet, if_neg hq]

/-- **C128 (partial: no variable is objective and constraint).** The gradient is taken for the indices that were
declared with the variable. -/
theorem C128_indices_partial (multi mpi : Bool) (d : VoiDrv K) (h : Built multi mpi d)
    (hb : ∀ n ∈ d.objs.map (·.1), n ∉ d.cons.map (·.1)) :
    (∀ p m, (p, m) ∈ d.desvars → d.poiIndices.lookup p = m.indices) ∧
    (∀ u m, (u, m) ∈ d.objs ++ d.cons → d.qoiIndices.lookup u = m.indices) := by
  refine ⟨fun p m hp => idx_fold _ (built_inv h).desvars p m hp, fun u m hu => idx_fold _ ?_ u m ?_⟩
  · rw [List.map_append]
    exact List.nodup_append.mpr ⟨(built_inv h).cons, (built_inv h).objs, by
      intro a ha b hb'; rintro rfl; exact hb a hb' ha⟩
  · rw [List.mem_append] at hu ⊢; exact hu.symm

/-- A driver with a design variable `x` with the scalers 2 and 4 and a constraint `c` with the scalers 10 and 100. -/
def exScale (sx sc : NumArr ℚ) : VoiDrv ℚ where
  desvars := [("x", ⟨.s 0, sx, none⟩)]
  cons := [("c", ⟨.s 0, sc, none⟩)]

theorem exScale_built (sx sc : NumArr ℚ) : Built false false (exScale sx sc) :=
  .constraint "c" ⟨.s 0, sc, none⟩ (.desvar "x" ⟨.s 0, sx, none⟩ .init rfl) rfl

example : (exScale (.s 2) (.a [10, 100])).blockFwd "c" "x" (matCols (fun _ _ => 1) 2 3) =
    .ok (matCols (fun r c => (if r = 0 then 10 else 100) * 1 / (fun _ => 2) c) 2 3) :=
  C128_fwd_partial false false _ (exScale_built _ _) (by simp [exScale]) "c" "x" ⟨.s 0, .a [10, 100], none⟩
    ⟨.s 0, .s 2, none⟩ List.mem_cons_self List.mem_cons_self 2 3 (fun r => if r = 0 then 10 else 100) (fun _ => 2)
    ⟨rfl, by intro i hi; match i, hi with | 0, _ => rfl | 1, _ => rfl⟩ (fun _ _ => rfl) (fun _ _ => by norm_num) (.inl ⟨2, rfl⟩) _

example : (exScale (.a [2, 4]) (.s 10)).blockRev "c" "x" (matRowsOf (fun _ _ => 1) 3 2) =
      .ok [[5, 5 / 2], [5, 5 / 2], [5, 5 / 2]] ∧
    (exScale (.a [2, 4]) (.s 10)).blockFd "c" "x" 2 (matRowsOf (fun _ _ => 1) 3 2) =
      .ok [[5, 5 / 2], [5, 5 / 2], [5, 5 / 2]] := by constructor <;> decide +kernel

/-- **C128 refuted (forward mode).** With an array of scalers for a design variable every column is multiplied by the
whole array: with as many rows as columns the rows are scaled instead of the columns, otherwise `ValueError` is
raised. -/
theorem C128_fwd_refuted :
    (exScale (.a [2, 4]) (.s 1)).blockFwd "c" "x" (matCols (fun _ _ => 1) 2 2) = .ok [[1 / 2, 1 / 4], [1 / 2, 1 / 4]] ∧
    matCols (fun _ c => 1 * 1 / (if c = 0 then 2 else 4)) 2 2 = ([[1 / 2, 1 / 2], [1 / 4, 1 / 4]] : List (List ℚ)) ∧
    (exScale (.a [2, 4]) (.s 1)).blockFwd "c" "x" (matCols (fun _ _ => 1) 1 2) = .error .ValueError := by
  refine ⟨by decide +kernel, by decide +kernel, by decide +kernel⟩

/-- **C128 refuted (reverse mode).** The same with an array of scalers for a response. -/
theorem C128_rev_refuted :
    (exScale (.s 1) (.a [10, 100])).blockRev "c" "x" (matRowsOf (fun _ _ => 1) 2 2) = .ok [[10, 100], [10, 100]] ∧
    matRowsOf (fun r _ => (if r = 0 then 10 else 100) * 1 / 1) 2 2 = ([[10, 10], [100, 100]] : List (List ℚ)) ∧
    (exScale (.s 1) (.a [10, 100])).blockRev "c" "x" (matRowsOf (fun _ _ => 1) 2 1) = .error .ValueError := by
  refine ⟨by decide +kernel, by decide +kernel, by decide +kernel⟩

/-- **C128 refuted (finite differences).** The same with an array of scalers for a response. -/
theorem C128_fd_refuted :
    (exScale (.s 1) (.a [10, 100])).blockFd "c" "x" 2 (matRowsOf (fun _ _ => 1) 2 2) = .ok [[10, 100], [10, 100]] ∧
    (exScale (.s 1) (.a [10, 100])).blockFd "c" "x" 1 (matRowsOf (fun _ _ => 1) 2 1) = .error .ValueError := by
  refine ⟨by decide +kernel, by decide +kernel⟩

/-- **C128 refuted (objective and constraint).** The gradient of a constraint with scaler 1 is scaled by the scaler of
the objective of the same name, and the gradient of an objective without indices is taken for those of the
constraint. -/
theorem C128_both_refuted : ∃ d : VoiDrv ℚ, Built false false d ∧ ("f", ⟨.s 0, .s 1, some [1]⟩) ∈ d.cons ∧
    d.fnConversions.lookup "f" = some (.s 2) ∧ ("f", ⟨.s 0, .s 2, none⟩) ∈ d.objs ∧
    d.qoiIndices.lookup "f" = some [1] :=
  ⟨{ objs := [("f", ⟨.s 0, .s 2, none⟩)], cons := [("f", ⟨.s 0, .s 1, some [1]⟩)] },
    .constraint "f" ⟨.s 0, .s 1, some [1]⟩ (.objective "f" ⟨.s 0, .s 2, none⟩ .init rfl) rfl, by simp,
    by decide +kernel, by simp, by decide +kernel⟩

end OpenMDAO
