import Verif.Spec.ProfWrap
import Mathlib.Data.List.Nodup
/-!
# C187: what the profiler wraps
-/
namespace OpenMDAO

theorem wrapObj_apply (applies : Nat → Nat → Bool) (methods : List Nat) (o o' m : Nat) : ∀ st : Nat → Nat → Nat,
    wrapObj applies methods st o o' m = st o' m + (if o' = o ∧ applies o m = true then methods.count m else 0) := by
  induction methods with
  | nil => intro st; simp [wrapObj]
  | cons a methods ih =>
    intro st
    have := ih (if applies o a then fun o' m' => if o' = o ∧ m' = a then st o' m' + 1 else st o' m' else st)
    unfold wrapObj at this ⊢
    rw [List.foldl_cons, this, List.count_cons]
    by_cases ho : o' = o
    · by_cases hm : m = a
      · subst hm; cases ha : applies o m <;> simp [ho]; omega
      · have hm' : ¬ a = m := fun h => hm h.symm
        cases ha : applies o a <;> simp [ho, hm, hm']
    · cases ha : applies o a <;> simp [ho]

theorem wrapMethods_fold (applies : Nat → Nat → Bool) (methods objs : List Nat) (o m : Nat) : ∀ st : Nat → Nat → Nat,
    objs.foldl (wrapObj applies methods) st o m = st o m + (if applies o m = true then objs.count o * methods.count m else 0) := by
  induction objs with
  | nil => intro st; simp
  | cons a objs ih =>
    intro st
    rw [List.foldl_cons, ih, wrapObj_apply, List.count_cons]
    by_cases h : o = a
    · subst h; cases ha : applies o m <;> simp [Nat.add_mul]; omega
    · have h' : ¬ a = o := fun e => h e.symm
      simp [h, h']

theorem managers_count (s : ProfSolver) (o : Nat) : s.managers.count o = oneIf (s.records = true ∧ s.manager = o) := by
  unfold ProfSolver.managers oneIf
  cases s.records <;> simp [List.count_cons]

mutual
theorem objIterTree_count (o : Nat) : ∀ t : ProfTree, (objIterTree t).count o = t.places o
  | .comp o' => by
    unfold objIterTree ProfTree.places oneIf
    simp [List.count_cons]
  | .group o' ln nl subs => by
    unfold objIterTree ProfTree.places ProfSolver.places
    rw [List.count_append, List.count_append, List.count_append, managers_count, managers_count, objIterTrees_count o subs]
    simp only [List.count_cons, List.count_nil, beq_iff_eq, oneIf]
    omega

theorem objIterTrees_count (o : Nat) : ∀ ts : List ProfTree, (objIterTrees ts).count o = (ts.map (ProfTree.places o)).sum
  | [] => by unfold objIterTrees; simp
  | t :: ts => by
    unfold objIterTrees
    rw [List.count_append, objIterTree_count o t, objIterTrees_count o ts, List.map_cons, List.sum_cons]
end

theorem objIter_count (o problem : Nat) (driver : ProfSolver) (root : ProfTree) : (objIter problem driver root).count o = profPlaces o problem driver root := by
  unfold objIter profPlaces ProfSolver.places
  rw [List.count_append, List.count_append, managers_count, objIterTree_count]
  simp only [List.count_cons, List.count_nil, beq_iff_eq, oneIf]
  omega

/-- **C187 (how often).** A listed method that applies to an object is wrapped once for every place of the object in the model. So it is wrapped exactly once if the
object stands in one place, and not at all if the object is not in the model. -/
theorem C187_wraps_partial (applies : Nat → Nat → Bool) (methods : List Nat) (hm : methods.Nodup) (problem : Nat) (driver : ProfSolver) (root : ProfTree) (o m : Nat)
    (hmem : m ∈ methods) (ha : applies o m = true) :
    wrapMethods applies methods (objIter problem driver root) o m = profPlaces o problem driver root := by
  unfold wrapMethods
  rw [wrapMethods_fold, objIter_count, if_pos ha, List.count_eq_one_of_mem hm hmem]
  simp

/-- **C187 (nothing else).** A method that is not listed, or does not apply to the object, is not wrapped. -/
theorem C187_only (applies : Nat → Nat → Bool) (methods : List Nat) (problem : Nat) (driver : ProfSolver) (root : ProfTree) (o m : Nat)
    (h : m ∉ methods ∨ applies o m = false) : wrapMethods applies methods (objIter problem driver root) o m = 0 := by
  unfold wrapMethods
  rw [wrapMethods_fold]
  rcases h with h | h
  · simp [List.count_eq_zero_of_not_mem h]
  · simp [h]

/-- Two groups in a group; both use the solver number 5. -/
def sharedSolver : ProfTree :=
  .group 2 ⟨3, 13, false⟩ ⟨4, 14, false⟩ [.group 6 ⟨5, 15, false⟩ ⟨7, 17, true⟩ [.comp 8], .group 9 ⟨5, 15, false⟩ ⟨10, 20, false⟩ []]

/-- **Refutation: shared objects.** The solver of two groups is wrapped twice, so that each of its calls is recorded twice. -/
theorem C187_shared_refuted : ∃ (root : ProfTree) (o : Nat), wrapMethods (fun _ _ => true) [0] (objIter 0 ⟨1, 11, false⟩ root) o 0 = 2 :=
  ⟨sharedSolver, 5, by decide⟩

example : wrapMethods (fun _ _ => true) [0, 1] (objIter 0 ⟨1, 11, false⟩ sharedSolver) 17 1 = 1 ∧
    wrapMethods (fun _ _ => true) [0, 1] (objIter 0 ⟨1, 11, false⟩ sharedSolver) 20 1 = 0 ∧
    wrapMethods (fun _ _ => true) [0, 1] (objIter 0 ⟨1, 11, true⟩ sharedSolver) 11 0 = 1 ∧ [0, 1].Nodup := by decide

example : (2 : Nat) ∉ [0, 1] ∨ (fun (_ _ : Nat) => true) 5 2 = false := by decide

end OpenMDAO
