import Verif.Spec.PrintConv
/-!
# C180: which solvers print
-/
namespace OpenMDAO

theorem setPrint_get (level : Int) (o : Option Nat) (st : Nat → Int) (j : Nat) : setPrint level o st j = if o = some j then level else st j := by
  cases o with
  | none => simp [setPrint]
  | some i =>
    by_cases h : i = j
    · subst h; simp [setPrint]
    · simp [setPrint, h, Function.update_of_ne (Ne.symm h)]

theorem PSolver.has_id : ∀ s : PSolver, s.Has s.id
  | .plain _ => .plain
  | .krylov _ _ => .krylov
  | .newton0 _ _ => .newton0
  | .newton _ _ _ => .newton

/-- A solver changes only what is inside it, and only to the level. -/
theorem printAll_frame (level : Int) : ∀ (s : PSolver) (st : Nat → Int) (j : Nat),
    (s.printAll level st j = level ∧ s.Has j) ∨ s.printAll level st j = st j
  | .plain i, st, j => by
    by_cases h : j = i
    · subst h; exact Or.inl ⟨by simp [PSolver.printAll], .plain⟩
    · exact Or.inr (by simp [PSolver.printAll, h])
  | .krylov i p, st, j => by
    rcases printAll_frame level p (Function.update st i level) j with ⟨h1, h2⟩ | h1
    · exact Or.inl ⟨h1, .pre h2⟩
    · by_cases h : j = i
      · subst h; exact Or.inl ⟨by simpa [PSolver.printAll] using h1, .krylov⟩
      · exact Or.inr (by simpa [PSolver.printAll, h] using h1)
  | .newton0 i ls, st, j => by
    unfold PSolver.printAll
    rw [setPrint_get]
    by_cases h1 : ls = some j
    · subst h1; exact Or.inl ⟨by simp, .search0⟩
    · by_cases h : j = i
      · subst h; exact Or.inl ⟨by simp, .newton0⟩
      · exact Or.inr (by simp [h, h1])
  | .newton i ls ln, st, j => by
    unfold PSolver.printAll
    rw [setPrint_get, setPrint_get]
    by_cases h0 : ln.id = j
    · subst h0; exact Or.inl ⟨by simp, .linear ln.has_id⟩
    · by_cases h1 : ls = some j
      · subst h1; exact Or.inl ⟨by simp, .search⟩
      · by_cases h : j = i
        · subst h; exact Or.inl ⟨by simp, .newton⟩
        · exact Or.inr (by simp [h, h0, h1])

/-- What has the level keeps it. -/
theorem printAll_keeps (level : Int) (s : PSolver) (st : Nat → Int) (j : Nat) (h : st j = level) : s.printAll level st j = level := by
  rcases printAll_frame level s st j with ⟨h1, _⟩ | h1
  · exact h1
  · rw [h1, h]

/-- Everything inside is reached, if no linear solver of a `Newton` has solvers inside. -/
theorem printAll_reach (level : Int) : ∀ (s : PSolver), s.Flat → ∀ (st : Nat → Int) (j : Nat), s.Has j → s.printAll level st j = level
  | .plain i, _, st, j, h => by cases h; simp [PSolver.printAll]
  | .krylov i p, hf, st, j, h => by
    cases hf with
    | krylov hp =>
      unfold PSolver.printAll
      cases h with
      | krylov => exact printAll_keeps level p _ _ (by simp)
      | pre h => exact printAll_reach level p hp _ _ h
  | .newton0 i ls, _, st, j, h => by
    unfold PSolver.printAll
    rw [setPrint_get]
    cases h with
    | newton0 => simp
    | search0 => simp
  | .newton i ls ln, hf, st, j, h => by
    unfold PSolver.printAll
    rw [setPrint_get, setPrint_get]
    cases hf with
    | newton =>
      cases h with
      | newton => simp
      | search => simp
      | linear h => cases h; simp [PSolver.id]

theorem skip_iff (depth : Option Nat) (dots : Nat) :
    tooDeep depth dots = false ↔ DepthAsked depth (dots + 1) := by
  cases depth with
  | none => simp [tooDeep, DepthAsked]
  | some d => simp [tooDeep, DepthAsked]; omega

/-- What one group does to an object. -/
structure GroupFacts (level : Int) (depth : Option Nat) (dots : Nat) (f : (Nat → Int) → Nat → Int) (owns : Nat → PSolver → Prop) : Prop where
  frame : ∀ st j, (f st j = level ∧ ∃ k s, owns k s ∧ DepthAsked depth (dots + 1 + k) ∧ s.Has j) ∨ f st j = st j
  reach : ∀ st j k s, owns k s → DepthAsked depth (dots + 1 + k) → s.Flat → s.Has j → f st j = level

theorem GroupFacts.keeps {level depth dots f owns} (h : GroupFacts level depth dots f owns) (st : Nat → Int) (j : Nat) (hj : st j = level) : f st j = level := by
  rcases h.frame st j with ⟨h1, _⟩ | h1
  · exact h1
  · rw [h1, hj]

/-- The solvers of one group. -/
theorem pair_frame (level : Int) (a b : PSolver) (st : Nat → Int) (j : Nat) :
    (b.printAll level (a.printAll level st) j = level ∧ (a.Has j ∨ b.Has j)) ∨ b.printAll level (a.printAll level st) j = st j := by
  rcases printAll_frame level b (a.printAll level st) j with ⟨h1, h2⟩ | h1
  · exact Or.inl ⟨h1, Or.inr h2⟩
  · rcases printAll_frame level a st j with ⟨h3, h4⟩ | h3
    · exact Or.inl ⟨by rw [h1, h3], Or.inl h4⟩
    · exact Or.inr (by rw [h1, h3])

theorem pair_reach (level : Int) (a b : PSolver) (st : Nat → Int) (j : Nat) (s : PSolver) (hs : s = a ∨ s = b) (hf : s.Flat) (hj : s.Has j) :
    b.printAll level (a.printAll level st) j = level := by
  rcases hs with rfl | rfl
  · exact printAll_keeps level b _ _ (printAll_reach level s hf st j hj)
  · exact printAll_reach level s hf _ j hj

mutual
theorem printGroup_facts (level : Int) (depth : Option Nat) : ∀ (g : PGroup) (dots : Nat), GroupFacts level depth dots (printGroup level depth dots g) g.Owns
  | .node a b subs, dots => by
    have ih := printGroups_facts level depth subs (dots + 1)
    have hsk := skip_iff depth dots
    constructor
    · intro st j
      unfold printGroup
      rcases ih.frame (if tooDeep depth dots = true then st else b.printAll level (a.printAll level st)) j with
        ⟨h1, k, s, ⟨g, hg, ho⟩, ha, hh⟩ | h1
      · exact Or.inl ⟨h1, k + 1, s, .sub hg ho, by rwa [show dots + 1 + (k + 1) = dots + 1 + 1 + k by omega], hh⟩
      · by_cases hb : tooDeep depth dots = false
        · rw [hb] at h1
          simp only [Bool.false_eq_true, if_false] at h1
          rcases pair_frame level a b st j with ⟨h3, h4⟩ | h3
          · refine Or.inl ⟨by simp only [hb, Bool.false_eq_true, if_false]; exact h1.trans h3, 0, ?_⟩
            rcases h4 with h4 | h4
            · exact ⟨a, .ln, hsk.1 hb, h4⟩
            · exact ⟨b, .nl, hsk.1 hb, h4⟩
          · exact Or.inr (by rw [← h3, ← h1]; simp only [hb, Bool.false_eq_true, if_false])
        · rw [Bool.not_eq_false] at hb
          rw [hb] at h1
          simp only [if_true] at h1
          exact Or.inr (by rw [← h1]; simp only [hb, if_true])
    · intro st j k s ho ha hf hj
      unfold printGroup
      cases ho with
      | ln =>
        refine ih.keeps _ j ?_
        have hb := hsk.2 ha
        simp only [hb, Bool.false_eq_true, if_false]
        exact pair_reach level a b st j a (Or.inl rfl) hf hj
      | nl =>
        refine ih.keeps _ j ?_
        have hb := hsk.2 ha
        simp only [hb, Bool.false_eq_true, if_false]
        exact pair_reach level a b st j b (Or.inr rfl) hf hj
      | sub hg ho =>
        rename_i k
        exact ih.reach _ j k s ⟨_, hg, ho⟩ (by rwa [show dots + 1 + 1 + k = dots + 1 + (k + 1) by omega]) hf hj

theorem printGroups_facts (level : Int) (depth : Option Nat) : ∀ (gs : List PGroup) (dots : Nat),
    GroupFacts level depth dots (printGroups level depth dots gs) (fun k s => ∃ g ∈ gs, g.Owns k s)
  | [], dots => by
    constructor
    · intro st j; exact Or.inr rfl
    · rintro st j k s ⟨g, hg, _⟩; cases hg
  | g :: gs, dots => by
    have h1 := printGroup_facts level depth g dots
    have h2 := printGroups_facts level depth gs dots
    constructor
    · intro st j
      unfold printGroups
      rcases h2.frame (printGroup level depth dots g st) j with ⟨h3, k, s, ⟨g', hg, ho⟩, h4⟩ | h3
      · exact Or.inl ⟨h3, k, s, ⟨g', List.mem_cons_of_mem _ hg, ho⟩, h4⟩
      · rcases h1.frame st j with ⟨h5, k, s, ho, h6⟩ | h5
        · exact Or.inl ⟨by rw [h3, h5], k, s, ⟨g, List.mem_cons_self, ho⟩, h6⟩
        · exact Or.inr (by rw [h3, h5])
    · rintro st j k s ⟨g', hg, ho⟩ ha hf hj
      unfold printGroups
      rcases List.mem_cons.1 hg with rfl | hg
      · exact h2.keeps _ j (h1.reach st j k s ho ha hf hj)
      · exact h2.reach _ j k s ⟨g', hg, ho⟩ ha hf hj
end

theorem printAllConv_ok {setup : Bool} {level : Int} {depth : Option Nat} {a b : PSolver} {subs : List PGroup} {st st' : Nat → Int}
    (h : printAllConv setup level depth (.node a b subs) st = .ok st') : st' = printGroups level depth 0 subs (b.printAll level (a.printAll level st)) := by
  unfold printAllConv at h
  split at h
  · cases h
  · split at h
    · cases h
    · cases h; rfl

/-- **C180 (all solvers).** Every solver of every group down to the level asked for gets the level, and so do all solvers inside it. Missing: solvers inside the
linear solver of a `Newton` (see the refutation). -/
theorem C180_all_partial (setup : Bool) (level : Int) (depth : Option Nat) (root : PGroup) (st st' : Nat → Int)
    (h : printAllConv setup level depth root st = .ok st') (k : Nat) (s : PSolver) (ho : root.Owns k s) (ha : DepthAsked depth k) (hf : s.Flat) (j : Nat)
    (hj : s.Has j) : st' j = level := by
  obtain ⟨a, b, subs⟩ := root
  rw [printAllConv_ok h]
  have ih := printGroups_facts level depth subs 0
  cases ho with
  | ln => exact ih.keeps _ j (pair_reach level s b st j s (Or.inl rfl) hf hj)
  | nl => exact ih.keeps _ j (pair_reach level a s st j s (Or.inr rfl) hf hj)
  | sub hg ho =>
    rename_i k
    exact ih.reach _ j k s ⟨_, hg, ho⟩ (by rwa [show 0 + 1 + k = k + 1 by omega]) hf hj

/-- **C180 (no other).** A solver whose setting has changed is in a group down to the level asked for. -/
theorem C180_only (setup : Bool) (level : Int) (depth : Option Nat) (root : PGroup) (st st' : Nat → Int)
    (h : printAllConv setup level depth root st = .ok st') (j : Nat) (hj : st' j ≠ st j) : ∃ k s, root.Owns k s ∧ DepthAsked depth k ∧ s.Has j := by
  obtain ⟨a, b, subs⟩ := root
  rw [printAllConv_ok h] at hj
  rcases (printGroups_facts level depth subs 0).frame (b.printAll level (a.printAll level st)) j with ⟨_, k, s, ⟨g, hg, ho⟩, ha, hh⟩ | h1
  · exact ⟨k + 1, s, .sub hg ho, by rwa [show k + 1 = 0 + 1 + k by omega], hh⟩
  · rw [h1] at hj
    rcases pair_frame level a b st j with ⟨_, h4⟩ | h3
    · rcases h4 with h4 | h4
      · exact ⟨0, a, .ln, fun d _ => Nat.zero_le d, h4⟩
      · exact ⟨0, b, .nl, fun d _ => Nat.zero_le d, h4⟩
    · exact absurd h3 hj

/-- **C180 (refusal).** Before `setup` there is a `RuntimeError`, and for a level other than -1, 0, 1, 2 a `ValueError`; otherwise it works. -/
theorem C180_refused (setup : Bool) (level : Int) (depth : Option Nat) (root : PGroup) (st : Nat → Int) :
    (setup = false → printAllConv setup level depth root st = .error .RuntimeError) ∧
    (setup = true → ¬ (-1 ≤ level ∧ level ≤ 2) → printAllConv setup level depth root st = .error .ValueError) ∧
    (setup = true → -1 ≤ level ∧ level ≤ 2 → ∃ st', printAllConv setup level depth root st = .ok st') := by
  unfold printAllConv
  refine ⟨fun h => by simp [h], fun h hl => ?_, fun h hl => ?_⟩
  · simp only [h, Bool.true_eq_false, if_false]
    rw [if_pos]
    simp
    omega
  · simp only [h, Bool.true_eq_false, if_false]
    rw [if_neg]
    · obtain ⟨a, b, subs⟩ := root; exact ⟨_, rfl⟩
    · simp
      omega

/-! ## Concrete models -/

/-- The root: GMRES with a preconditioner, and a Newton with line search; a group in it, and a group in that one. -/
def printEx : PGroup := .node (.krylov 0 (.plain 1)) (.newton 2 (some 3) (.plain 4))
  [.node (.plain 5) (.plain 6) [.node (.plain 7) (.newton0 8 none) []]]

/-- Down to the first level: the innermost group keeps its setting. -/
example : printEx.Owns 0 (.newton 2 (some 3) (.plain 4)) ∧ (PSolver.newton 2 (some 3) (.plain 4)).Flat ∧ printEx.Owns 2 (.plain 7) ∧
    (printAllConv true 2 (some 1) printEx (fun _ => 0)).toOption.map (fun st => (List.range 9).map st) = some [2, 2, 2, 2, 2, 2, 2, 0, 0] :=
  ⟨.nl, .newton, .sub (List.mem_singleton.2 rfl) (.sub (List.mem_singleton.2 rfl) .ln), by decide⟩

example : (printAllConv true 1 none printEx (fun _ => 0)).toOption.map (fun st => (List.range 9).map st) = some [1, 1, 1, 1, 1, 1, 1, 1, 1] := by decide

/-- **Refutation: the preconditioner in the linear solver of a Newton.** The class `Newton` has the method twice, and the second one sets the option of its
linear solver without asking that one for its solvers. The preconditioner does not print. -/
theorem C180_newton_refuted : ∃ (root : PGroup) (st st' : Nat → Int) (s : PSolver), printAllConv true 2 none root st = .ok st' ∧ root.Owns 0 s ∧ s.Has 3 ∧
    st' 3 = 0 :=
  ⟨.node (.plain 0) (.newton 1 none (.krylov 2 (.plain 3))) [], fun _ => 0, _, _, rfl, .nl, .linear (.pre .plain), by decide⟩

end OpenMDAO
