import Verif.Spec.Cleanup
/-!
# C185: cleanup closes the recorders
-/
namespace OpenMDAO

theorem closeRecs_iff (recs : List Nat) : ∀ (st : Nat → Bool) (r : Nat), closeRecs recs st r = true ↔ st r = true ∨ r ∈ recs := by
  induction recs with
  | nil => intro st r; simp [closeRecs]
  | cons a recs ih =>
    intro st r
    have := ih (Function.update st a true) r
    unfold closeRecs at this ⊢
    rw [List.foldl_cons, this]
    by_cases h : r = a
    · subst h; simp
    · simp [h]

theorem RecSolver.cleanup_iff (s : RecSolver) (st : Nat → Bool) (r : Nat) : s.cleanup st r = true ↔ st r = true ∨ s.Has false r := by
  cases s with
  | mk recs inner =>
    unfold RecSolver.cleanup RecSolver.recs
    rw [closeRecs_iff]
    refine or_congr Iff.rfl ⟨.own, fun h => ?_⟩
    cases h with
    | own h => exact h
    | inner h => cases h

mutual
theorem cleanupTree_iff : ∀ (t : CloseTree) (st : Nat → Bool) (r : Nat), cleanupTree t st r = true ↔ st r = true ∨ t.Has false r
  | .comp, st, r => by
    unfold cleanupTree
    exact ⟨.inl, fun h => h.elim id fun h => nomatch h⟩
  | .group ln nl subs, st, r => by
    unfold cleanupTree
    rw [cleanupTrees_iff subs, RecSolver.cleanup_iff, RecSolver.cleanup_iff]
    constructor
    · rintro (((h | h) | h) | ⟨t, ht, h⟩)
      · exact .inl h
      · exact .inr (.ln h)
      · exact .inr (.nl h)
      · exact .inr (.sub ht h)
    · rintro (h | h)
      · exact .inl (.inl (.inl h))
      · cases h with
        | ln h => exact .inl (.inl (.inr h))
        | nl h => exact .inl (.inr h)
        | sub ht h => exact .inr ⟨_, ht, h⟩
  | .sub driver root, st, r => by
    unfold cleanupTree
    rw [cleanupTree_iff root, closeRecs_iff]
    constructor
    · rintro ((h | h) | h)
      · exact .inl h
      · exact .inr (.driver h)
      · exact .inr (.root h)
    · rintro (h | h)
      · exact .inl (.inl h)
      · cases h with
        | driver h => exact .inl (.inr h)
        | root h => exact .inr h

theorem cleanupTrees_iff : ∀ (ts : List CloseTree) (st : Nat → Bool) (r : Nat), cleanupTrees ts st r = true ↔ st r = true ∨ ∃ t ∈ ts, t.Has false r
  | [], st, r => by unfold cleanupTrees; simp
  | t :: ts, st, r => by
    unfold cleanupTrees
    rw [cleanupTrees_iff ts, cleanupTree_iff t]
    simp only [List.mem_cons, exists_eq_or_imp, or_assoc]
end

/-- **C185 (what is closed).** After `cleanup` a recorder is closed exactly if it was closed before, or was added to the driver, to the linear or nonlinear solver
of a group at any depth, or to one of these in a sub-problem. Recorders of solvers inside solvers are not among them. -/
theorem C185_closed_partial (driver : List Nat) (root : CloseTree) (st : Nat → Bool) (r : Nat) :
    cleanupProb driver root st r = true ↔ st r = true ∨ r ∈ driver ∨ root.Has false r := by
  unfold cleanupProb
  rw [cleanupTree_iff, closeRecs_iff, or_assoc]

/-- **C185 (twice).** Another `cleanup` changes nothing. -/
theorem C185_again (driver : List Nat) (root : CloseTree) (st : Nat → Bool) :
    cleanupProb driver root (cleanupProb driver root st) = cleanupProb driver root st := by
  funext r
  rw [Bool.eq_iff_iff, C185_closed_partial, C185_closed_partial]
  exact ⟨fun h => h.elim id .inr, .inl⟩

theorem RecSolver.Has.deepen {s : RecSolver} {r : Nat} (h : s.Has false r) : s.Has true r := by
  cases h with
  | own h => exact .own h
  | inner h => cases h

theorem CloseTree.Has.deepen {t : CloseTree} {r : Nat} (h : t.Has false r) : t.Has true r := by
  induction h with
  | ln h => exact .ln h.deepen
  | nl h => exact .nl h.deepen
  | sub ht _ ih => exact .sub ht ih
  | driver h => exact .driver h
  | root _ ih => exact .root ih

/-- **C185 (nothing else).** No recorder is closed that is nowhere in the model. -/
theorem C185_only (driver : List Nat) (root : CloseTree) (st : Nat → Bool) (r : Nat) (hd : r ∉ driver) (hr : ¬ root.Has true r) :
    cleanupProb driver root st r = st r := by
  rw [Bool.eq_iff_iff, C185_closed_partial]
  exact ⟨fun h => h.elim id fun h => (h.elim (absurd · hd) fun h => absurd h.deepen hr), .inl⟩

theorem RecSolver.mem_recs (s : RecSolver) (r : Nat) : r ∈ s.recs ↔ s.Has false r := by
  cases s with
  | mk recs inner =>
    refine ⟨.own, fun h => ?_⟩
    cases h with
    | own h => exact h
    | inner h => cases h

mutual
theorem mem_starts : ∀ (t : CloseTree) (r : Nat), (r ∈ groupStarts t ∨ r ∈ subStarts t) ↔ t.Has false r
  | .comp, r => by
    unfold groupStarts subStarts
    exact ⟨fun h => h.elim (nomatch ·) (nomatch ·), fun h => nomatch h⟩
  | .group ln nl subs, r => by
    have ih := mem_startsAll subs r
    unfold groupStarts subStarts
    simp only [List.mem_append, RecSolver.mem_recs]
    constructor
    · rintro (((h | h) | h) | h)
      · exact .nl h
      · exact .ln h
      · obtain ⟨t, ht, h⟩ := ih.1 (.inl h); exact .sub ht h
      · obtain ⟨t, ht, h⟩ := ih.1 (.inr h); exact .sub ht h
    · intro h
      cases h with
      | nl h => exact .inl (.inl (.inl h))
      | ln h => exact .inl (.inl (.inr h))
      | sub ht h => exact (ih.2 ⟨_, ht, h⟩).elim (fun h => .inl (.inr h)) .inr
  | .sub driver root, r => by
    have ih := mem_starts root r
    unfold groupStarts subStarts
    simp only [List.mem_append, List.not_mem_nil, false_or]
    constructor
    · rintro (h | h | h)
      · exact .root (ih.1 (.inr h))
      · exact .driver h
      · exact .root (ih.1 (.inl h))
    · intro h
      cases h with
      | driver h => exact .inr (.inl h)
      | root h => exact (ih.2 h).elim (fun h => .inr (.inr h)) .inl

theorem mem_startsAll : ∀ (ts : List CloseTree) (r : Nat), (r ∈ groupStartsAll ts ∨ r ∈ subStartsAll ts) ↔ ∃ t ∈ ts, t.Has false r
  | [], r => by unfold groupStartsAll subStartsAll; simp
  | t :: ts, r => by
    have h1 := mem_starts t r
    have h2 := mem_startsAll ts r
    unfold groupStartsAll subStartsAll
    simp only [List.mem_append, List.mem_cons, exists_eq_or_imp, ← h1, ← h2]
    constructor
    · rintro ((h | h) | h | h)
      · exact .inl (.inl h)
      · exact .inr (.inl h)
      · exact .inl (.inr h)
      · exact .inr (.inr h)
    · rintro ((h | h) | h | h)
      · exact .inl (.inl h)
      · exact .inr (.inl h)
      · exact .inl (.inr h)
      · exact .inr (.inr h)
end

/-- **C185 (no recorder in use stays open).** If all recorders are open before, those closed by `cleanup` are exactly those that `setup` started. So a recorder that
stays open was never started. -/
theorem C185_started (driver : List Nat) (root : CloseTree) (r : Nat) :
    cleanupProb driver root (fun _ => false) r = true ↔ r ∈ setupStarts driver root := by
  rw [C185_closed_partial, ← mem_starts]
  unfold setupStarts
  simp only [List.mem_append, Bool.false_eq_true, false_or]
  constructor
  · rintro (h | h | h)
    · exact .inr (.inl h)
    · exact .inr (.inr h)
    · exact .inl h
  · rintro (h | h | h)
    · exact .inr (.inr h)
    · exact .inl h
    · exact .inr (.inl h)

/-- A group with a Newton solver that has a recorder, number 1, and a line search with another one, number 2; in it a sub-problem whose driver has number 3. -/
def closeModel : CloseTree := .group (.mk [] []) (.mk [1] [.mk [2] []]) [.comp, .sub [3] (.group (.mk [] []) (.mk [] []) [])]

/-- **Refutation: solvers in solvers.** The recorder of the line search is in the model, and `cleanup` leaves it open. -/
theorem C185_inner_refuted : ∃ (root : CloseTree) (r : Nat), root.Has true r ∧ cleanupProb [] root (fun _ => false) r = false :=
  ⟨closeModel, 2, .nl (.inner rfl (.head _) (.own (.head _))), by decide⟩

example : closeModel.Has false 1 ∧ closeModel.Has false 3 ∧ cleanupProb [] closeModel (fun _ => false) 3 = true ∧
    cleanupProb [7] closeModel (fun _ => false) 7 = true :=
  ⟨.nl (.own (.head _)), .sub (.tail _ (.head _)) (.driver (.head _)), by decide, by decide⟩

example : setupStarts [7] closeModel = [3, 7, 1] := by decide

example : (0 : Nat) ∉ [7] ∧ ¬ closeModel.Has true 0 := by
  refine ⟨by decide, fun h => ?_⟩
  have inner : ∀ {s : RecSolver}, s = .mk [] [] → ¬ s.Has true 0 := by
    rintro s rfl h
    cases h with
    | own h => cases h
    | inner _ h => cases h
  cases h with
  | ln h => exact inner rfl h
  | nl h =>
    cases h with
    | own h => cases h with | tail _ h => cases h
    | inner _ hs h =>
      cases hs with
      | head => cases h with
        | own h => cases h with | tail _ h => cases h
        | inner _ h => cases h
      | tail _ h => cases h
  | sub ht h =>
    cases ht with
    | head => cases h
    | tail _ ht =>
      cases ht with
      | head =>
        cases h with
        | driver h => cases h with | tail _ h => cases h
        | root h =>
          cases h with
          | ln h => exact inner rfl h
          | nl h => exact inner rfl h
          | sub h => cases h
      | tail _ h => cases h

end OpenMDAO
