import Verif.Model.Mode
import Mathlib.Data.List.Dedup
import Mathlib.Data.List.Nodup
/-! C60: derivative mode selection. -/
namespace OpenMDAO
set_option linter.unusedSectionVars false

/-- Total size of the variables with the given promoted names; every name counts once, with the size of the first variable that
has it. -/
def totalSize (vars : List (String × Nat)) (entries : List (List String)) : Nat :=
  (entries.flatten.dedup.map fun n => (vars.lookup n).getD 0).sum

/-- Every requested name is the promoted name of some variable. -/
def AllKnown (vars : List (String × Nat)) (entries : List (List String)) : Prop :=
  ∀ e ∈ entries, ∀ n ∈ e, n ∈ vars.map Prod.fst

theorem sum_erase (f : String → Nat) (l : List String) (n : String) (h : n ∈ l) :
    f n + ((l.erase n).map f).sum = (l.map f).sum := by
  have := (List.perm_cons_erase h).map f
  have := this.sum_nat
  simpa using this.symm

theorem sum_map_congr (f g : String → Nat) (l : List String) (h : ∀ x ∈ l, f x = g x) : (l.map f).sum = (l.map g).sum := by
  rw [List.map_congr_left h]

theorem modeStep_proj (st : ModeAcc) (v : String × Nat) :
    (modeStep st v).uset = st.uset.erase v.1 ∧ (modeStep st v).pset = st.pset.erase v.1 ∧
    (modeStep st v).ulen = st.ulen + (if v.1 ∈ st.uset then v.2 else 0) ∧
    (modeStep st v).plen = st.plen + (if v.1 ∈ st.pset then v.2 else 0) := by
  unfold modeStep
  by_cases h1 : v.1 ∈ st.uset <;> by_cases h2 : v.1 ∈ st.pset <;> simp [h1, h2, List.erase_of_not_mem]

theorem mode_fold (vars : List (String × Nat)) (st : ModeAcc) (hu : st.uset.Nodup) (hp : st.pset.Nodup) :
    let r := vars.foldl modeStep st
    (∀ n, n ∈ r.uset ↔ n ∈ st.uset ∧ n ∉ vars.map Prod.fst) ∧
    (∀ n, n ∈ r.pset ↔ n ∈ st.pset ∧ n ∉ vars.map Prod.fst) ∧
    r.ulen = st.ulen + (st.uset.map fun n => (vars.lookup n).getD 0).sum ∧
    r.plen = st.plen + (st.pset.map fun n => (vars.lookup n).getD 0).sum := by
  induction vars generalizing st with
  | nil => simp
  | cons v vars ih =>
    obtain ⟨e1, e2, e3, e4⟩ := modeStep_proj st v
    have := ih (modeStep st v) (by rw [e1]; exact hu.erase _) (by rw [e2]; exact hp.erase _)
    simp only [List.foldl_cons]
    obtain ⟨i1, i2, i3, i4⟩ := this
    have key : ∀ (l : List String), l.Nodup →
        (if v.1 ∈ l then v.2 else 0) + ((l.erase v.1).map fun n => (vars.lookup n).getD 0).sum =
          (l.map fun n => ((v :: vars).lookup n).getD 0).sum := by
      intro l hl
      have hne : ∀ m ∈ l.erase v.1, ((v :: vars).lookup m).getD 0 = (vars.lookup m).getD 0 := by
        intro m hm
        have : m ≠ v.1 := (hl.mem_erase_iff.mp hm).1
        obtain ⟨vn, vs⟩ := v
        rw [List.lookup_cons]
        have h0 : (m == vn) = false := by simpa using this
        simp [h0]
      have hv : ((v :: vars).lookup v.1).getD 0 = v.2 := by
        obtain ⟨vn, vs⟩ := v
        simp [List.lookup_cons]
      rw [← sum_map_congr _ _ _ hne]
      split
      · rename_i h
        rw [← sum_erase _ l v.1 h, hv]
      · rename_i h
        rw [List.erase_of_not_mem h]
        simp
    refine ⟨?_, ?_, ?_, ?_⟩
    · intro n
      rw [i1, e1, hu.mem_erase_iff]
      simp only [List.map_cons, List.mem_cons]; tauto
    · intro n
      rw [i2, e2, hp.mem_erase_iff]
      simp only [List.map_cons, List.mem_cons]; tauto
    · rw [i3, e3, e1, Nat.add_assoc, key _ hu]
    · rw [i4, e4, e2, Nat.add_assoc, key _ hp]

theorem mem_nameSet (entries : List (List String)) (n : String) : n ∈ nameSet entries ↔ ∃ e ∈ entries, n ∈ e := by
  simp [nameSet]

/-- **C60.** When every name is a variable, the mode is the requested one unless that is `auto`; then the linear solver's unless that
is `auto`; then reverse exactly when the design variables have more entries than the responses. -/
theorem C60_mode (mode lnMode : DMode) (indeps unknowns : List (List String)) (vars : List (String × Nat))
    (hi : AllKnown vars indeps) (hu : AllKnown vars unknowns) :
    ∃ m, chooseMode mode lnMode indeps unknowns vars = .ok m ∧ m ≠ .auto ∧
      (mode ≠ .auto → m = mode) ∧
      (mode = .auto → lnMode ≠ .auto → m = lnMode) ∧
      (mode = .auto → lnMode = .auto → (m = .rev ↔ totalSize vars unknowns < totalSize vars indeps)) := by
  obtain ⟨f1, f2, f3, f4⟩ := mode_fold vars ⟨nameSet unknowns, nameSet indeps, 0, 0⟩ (List.nodup_dedup _) (List.nodup_dedup _)
  have g1 : (vars.foldl modeStep ⟨nameSet unknowns, nameSet indeps, 0, 0⟩).uset = [] := by
    rw [List.eq_nil_iff_forall_not_mem]
    intro n hn
    obtain ⟨h1, h2⟩ := (f1 n).mp hn
    obtain ⟨e, he, hne⟩ := (mem_nameSet _ _).mp h1
    exact h2 (hu e he n hne)
  have g2 : (vars.foldl modeStep ⟨nameSet unknowns, nameSet indeps, 0, 0⟩).pset = [] := by
    rw [List.eq_nil_iff_forall_not_mem]
    intro n hn
    obtain ⟨h1, h2⟩ := (f2 n).mp hn
    obtain ⟨e, he, hne⟩ := (mem_nameSet _ _).mp h1
    exact h2 (hi e he n hne)
  simp only [Nat.zero_add] at f3 f4
  have hc : chooseMode mode lnMode indeps unknowns vars = .ok
      (if mode = .auto then (if lnMode = .auto then
        (if totalSize vars unknowns < totalSize vars indeps then DMode.rev else DMode.fwd) else lnMode) else mode) := by
    have t1 : totalSize vars unknowns = ((nameSet unknowns).map fun n => (vars.lookup n).getD 0).sum := rfl
    have t2 : totalSize vars indeps = ((nameSet indeps).map fun n => (vars.lookup n).getD 0).sum := rfl
    simp [chooseMode, g1, g2, f3, f4, t1, t2]
  refine ⟨_, hc, ?_, ?_, ?_, ?_⟩
  · split
    · split
      · split <;> simp
      · assumption
    · assumption
  · intro h; simp [h]
  · intro h1 h2; simp [h1, h2]
  · intro h1 h2; simp [h1, h2]

/-- **C60, error.** A name that is no variable of the model is a RuntimeError, whatever the options. -/
theorem C60_unknown_name (mode lnMode : DMode) (indeps unknowns : List (List String)) (vars : List (String × Nat))
    (h : ¬ (AllKnown vars indeps ∧ AllKnown vars unknowns)) :
    chooseMode mode lnMode indeps unknowns vars = .error .RuntimeError := by
  obtain ⟨f1, f2, _, _⟩ := mode_fold vars ⟨nameSet unknowns, nameSet indeps, 0, 0⟩ (List.nodup_dedup _) (List.nodup_dedup _)
  simp only [chooseMode]
  split
  · rfl
  · rename_i h1
    split
    · rfl
    · rename_i h2
      exfalso
      apply h
      constructor
      · intro e he n hn
        by_contra hc
        have := (f2 n).mpr ⟨(mem_nameSet _ _).mpr ⟨e, he, hn⟩, hc⟩
        rw [not_not.mp h2] at this
        simp at this
      · intro e he n hn
        by_contra hc
        have := (f1 n).mpr ⟨(mem_nameSet _ _).mpr ⟨e, he, hn⟩, hc⟩
        rw [not_not.mp h1] at this
        simp at this

/-- Two design variables with 2 + 3 entries, one response with 4: reverse mode; with 5 entries in the response: forward mode. -/
example : chooseMode .auto .auto [["x"], ["y"]] [["f"]] [("f", 4), ("x", 2), ("y", 3)] = .ok .rev ∧
    chooseMode .auto .auto [["x"], ["y"]] [["f"]] [("f", 5), ("x", 2), ("y", 3)] = .ok .fwd := by
  simp [chooseMode, nameSet, modeStep, List.dedup_cons_of_notMem]

example : AllKnown [("f", 4), ("x", 2), ("y", 3)] [["x", "y"], ["y"]] := by
  intro e he n hn; simp at he ⊢; rcases he with rfl | rfl <;> simp at hn <;> tauto

end OpenMDAO
