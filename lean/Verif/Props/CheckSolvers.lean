import Verif.Spec.CheckSolvers
import Verif.Props.AutoOrder
import Verif.Props.Paths
import Verif.Lemmas.FiniteDiff
/-! C111 to C113: checks of linear solvers and execution order in `Problem.setup`. -/
namespace OpenMDAO
set_option linter.unusedSectionVars false

/-! ## C111: solvers -/

theorem anyIter_spec {d : List (List String × Bool)} (f : List String → Bool) : ∀ (ps : List (List String)), (∀ p ∈ ps, d.lookup p = some (f p)) → anyIter d ps = .ok (ps.any f) := by
  intro ps
  induction ps with
  | nil => intro _; rfl
  | cons p ps ih =>
    intro h
    have h1 := h p List.mem_cons_self
    have h2 := ih fun q hq => h q (List.mem_cons_of_mem _ hq)
    cases hf : f p <;> simp [anyIter, h1, h2, hf]

theorem stateStep_fold {needs : List String → Option Bool} : ∀ (l acc : List (List String)), (∀ s ∈ l, (needs s.dropLast).isSome) →
    ∃ it, l.foldlM (stateStep needs) acc = .ok it ∧ ∀ s, s ∈ it ↔ s ∈ acc ∨ s ∈ l ∧ needs s.dropLast = some false := by
  intro l
  induction l with
  | nil => intro acc _; exact ⟨acc, rfl, by simp⟩
  | cons s l ih =>
    intro acc h
    have hl : ∀ s ∈ l, (needs s.dropLast).isSome := fun q hq => h q (List.mem_cons_of_mem _ hq)
    rw [List.foldlM_cons]
    by_cases hs : s ∈ acc
    · obtain ⟨it, h1, h2⟩ := ih acc hl
      refine ⟨it, by simp only [stateStep, if_pos hs, bind, Except.bind]; exact h1, ?_⟩
      intro q
      rw [h2]
      constructor
      · rintro (h | ⟨h, h'⟩)
        · exact Or.inl h
        · exact Or.inr ⟨List.mem_cons_of_mem _ h, h'⟩
      · rintro (h | ⟨h, h'⟩)
        · exact Or.inl h
        · rcases List.mem_cons.mp h with rfl | h
          · exact Or.inl hs
          · exact Or.inr ⟨h, h'⟩
    · have hsome := h s List.mem_cons_self
      obtain ⟨b, hb⟩ := Option.isSome_iff_exists.mp hsome
      cases b with
      | true =>
        obtain ⟨it, h1, h2⟩ := ih acc hl
        refine ⟨it, by simp only [stateStep, if_neg hs, hb, bind, Except.bind]; exact h1, ?_⟩
        intro q
        rw [h2]
        constructor
        · rintro (h | ⟨h, h'⟩)
          · exact Or.inl h
          · exact Or.inr ⟨List.mem_cons_of_mem _ h, h'⟩
        · rintro (h | ⟨h, h'⟩)
          · exact Or.inl h
          · rcases List.mem_cons.mp h with rfl | h
            · rw [hb] at h'; simp at h'
            · exact Or.inr ⟨h, h'⟩
      | false =>
        obtain ⟨it, h1, h2⟩ := ih (acc ++ [s]) hl
        refine ⟨it, by simp only [stateStep, if_neg hs, hb, bind, Except.bind]; exact h1, ?_⟩
        intro q
        rw [h2]
        simp only [List.mem_append, List.mem_cons, List.not_mem_nil, or_false]
        constructor
        · rintro ((h | rfl) | ⟨h, h'⟩)
          · exact Or.inl h
          · exact Or.inr ⟨Or.inl rfl, hb⟩
          · exact Or.inr ⟨Or.inr h, h'⟩
        · rintro (h | ⟨rfl | h, h'⟩)
          · exact Or.inl (Or.inl h)
          · exact Or.inl (Or.inr rfl)
          · exact Or.inr ⟨h, h'⟩

theorem iterates_iff (k : LnKind) : k.iterates = true ↔ CanSolve k := by
  constructor
  · intro h
    cases k with
    | gs n => exact .gs n (of_decide_eq_true h)
    | krylov n => exact .krylov n (of_decide_eq_true h)
    | direct => exact .direct
  · rintro (⟨n, h⟩ | ⟨n, h⟩ | _)
    · exact decide_eq_true h
    · exact decide_eq_true h
    · rfl

/-- `SolvedAbove` in terms of the flag of the code. -/
def SolvedAboveB (groups : List SGroup) (g : SGroup) : Prop := ∃ a ∈ groups, a.path <+: g.path ∧ a.path ≠ g.path ∧ a.solver.iterates = true

theorem solvedAbove_eq : SolvedAbove = SolvedAboveB := by
  funext groups g
  simp only [SolvedAbove, SolvedAboveB, iterates_iff]

/-- `StateSolved` in terms of the flag of the code. -/
def StateSolvedB (groups : List SGroup) (needs : List String → Option Bool) (s : List String) : Prop :=
  needs s.dropLast = some false ∨ ∃ g ∈ groups, g.path <+: s ∧ g.solver.iterates = true

theorem stateSolved_eq : StateSolved = StateSolvedB := by
  funext groups needs s
  simp only [StateSolved, StateSolvedB, iterates_iff]

/-- The group is not looked at further: it is the root and iterates, or lies below a group that does. -/
def Covered (groups : List SGroup) (g : SGroup) : Prop := (g.path = [] ∧ g.solver.iterates = true) ∨ SolvedAboveB groups g

/-- What is known after the groups `pre`. -/
structure SolvInv (sccs : List String → List (String × String) → List (List String)) (needs : List String → Option Bool) (groups pre : List SGroup) (st : SolvSt) : Prop where
  iter : ∀ a ∈ pre, st.hasIter.lookup a.path = some a.solver.iterates
  errs : ∀ e, e ∈ st.errs ↔ ∃ g ∈ pre, e ∈ csErrs groups g ∨ (¬ Covered groups g ∧ e ∈ cycleErrs sccs g)
  grp : ∀ x, x ∈ st.grpStates ↔ ∃ g ∈ pre, ¬ Covered groups g ∧ g.states ≠ [] ∧ x = (g.path, g.states)
  itd : ∀ s, s ∈ st.iterated ↔ ∃ g ∈ pre, ¬ Covered groups g ∧ s ∈ g.states ∧ (g.solver.iterates = true ∨ needs s.dropLast = some false)

theorem path_inj {groups : List SGroup} (hd : (groups.map SGroup.path).Nodup) {a b : SGroup} (ha : a ∈ groups) (hb : b ∈ groups) (h : a.path = b.path) : a = b := List.inj_on_of_nodup_map hd ha hb h

theorem solverStep_inv {sccs : List String → List (String × String) → List (List String)} {needs : List String → Option Bool} {root : SGroup} {groups : List SGroup} (ht : GroupTree root groups) (hroot : root.path = [])
    (hneeds : ∀ s ∈ root.states, (needs s.dropLast).isSome) {pre post : List SGroup} {g : SGroup} (hg : groups = pre ++ g :: post) {st : SolvSt} (hi : SolvInv sccs needs groups pre st) :
    ∃ st', solverStep sccs needs groups st g = .ok st' ∧ SolvInv sccs needs groups (pre ++ [g]) st' := by
  have hgm : g ∈ groups := by rw [hg]; simp
  have hpre : ∀ a ∈ pre, a ∈ groups := fun a ha => by rw [hg]; exact List.mem_append_left _ ha
  have hne : ∀ a ∈ pre, a.path ≠ g.path := by
    intro a ha hp
    have hd := ht.distinct
    rw [hg, List.map_append, List.map_cons, List.nodup_append] at hd
    exact hd.2.2 _ (List.mem_map.mpr ⟨a, ha, rfl⟩) _ List.mem_cons_self hp
  -- the search above
  have hany : ∃ b, anyIter (dictSet st.hasIter g.path g.solver.iterates) (ancestorPaths g.path) = .ok b ∧ (b = true ↔ Covered groups g) := by
    by_cases hp : g.path = []
    · refine ⟨g.solver.iterates, ?_, ?_⟩
      · rw [ancestorPaths, if_pos hp]
        rw [anyIter_spec (fun _ => g.solver.iterates)]
        · simp
        · intro p hpm
          simp only [List.mem_singleton] at hpm
          rw [lookup_dictSet, hp, hpm]; simp
      · constructor
        · intro h; exact Or.inl ⟨hp, h⟩
        · rintro (⟨_, h⟩ | ⟨a, _, h1, h2, _⟩)
          · exact h
          · rw [hp] at h1 h2; exact absurd (List.prefix_nil.mp h1) h2
    · have hfind : ∀ p ∈ ancestorPaths g.path, ∃ a ∈ pre, a.path = p := by
        intro p hpm
        rw [ancestorPaths, if_neg hp] at hpm
        obtain ⟨i, hir, rfl⟩ := List.mem_map.mp hpm
        exact ht.parents pre g post hg i (by rw [hroot]; simp) (List.mem_range.mp hir)
      classical
      let f : List String → Bool := fun p => decide (∃ a ∈ pre, a.path = p ∧ a.solver.iterates = true)
      have hlook : ∀ p ∈ ancestorPaths g.path, (dictSet st.hasIter g.path g.solver.iterates).lookup p = some (f p) := by
        intro p hpm
        obtain ⟨a, ha, rfl⟩ := hfind p hpm
        rw [lookup_dictSet, if_neg (hne a ha), hi.iter a ha]
        congr 1
        have : f a.path = decide (∃ b ∈ pre, b.path = a.path ∧ b.solver.iterates = true) := rfl
        rw [this, Bool.eq_iff_iff, decide_eq_true_eq]
        constructor
        · intro h; exact ⟨a, ha, rfl, h⟩
        · rintro ⟨b, hb, hbp, h⟩
          rw [path_inj ht.distinct (hpre a ha) (hpre b hb) hbp.symm]
          exact h
      refine ⟨_, anyIter_spec f _ hlook, ?_⟩
      rw [List.any_eq_true]
      constructor
      · rintro ⟨p, hpm, hf⟩
        obtain ⟨a, ha, rfl, h⟩ := of_decide_eq_true hf
        refine Or.inr ⟨a, hpre a ha, ?_, hne a ha, h⟩
        rw [ancestorPaths, if_neg hp] at hpm
        obtain ⟨i, _, hi'⟩ := List.mem_map.mp hpm
        rw [← hi']
        exact List.take_prefix i _
      · rintro (⟨h, _⟩ | ⟨a, ha, h1, h2, h3⟩)
        · exact absurd h hp
        · have hlen : a.path.length < g.path.length := by
            rcases Nat.lt_or_ge a.path.length g.path.length with h | h
            · exact h
            · exact absurd (h1.eq_of_length (le_antisymm h1.length_le h)) h2
          have htake : a.path = g.path.take a.path.length := List.prefix_iff_eq_take.mp h1
          have hmem : a.path ∈ ancestorPaths g.path := by
            rw [ancestorPaths, if_neg hp]
            exact List.mem_map.mpr ⟨a.path.length, List.mem_range.mpr hlen, htake.symm⟩
          refine ⟨a.path, hmem, ?_⟩
          obtain ⟨b, hb, hbp⟩ := hfind _ hmem
          rw [path_inj ht.distinct (hpre b hb) ha hbp] at hb
          exact decide_eq_true ⟨a, hb, rfl, h3⟩
  obtain ⟨b, hb, hbc⟩ := hany
  have hiter' : ∀ a ∈ pre ++ [g], (dictSet st.hasIter g.path g.solver.iterates).lookup a.path = some a.solver.iterates := by
    intro a ha
    rcases List.mem_append.mp ha with ha | ha
    · rw [lookup_dictSet, if_neg (hne a ha)]; exact hi.iter a ha
    · rw [List.mem_singleton.mp ha, lookup_dictSet, if_pos rfl]
  unfold solverStep
  simp only [hb]
  cases b with
  | true =>
    have hcov : Covered groups g := hbc.mp rfl
    refine ⟨_, rfl, hiter', ?_, ?_, ?_⟩
    · intro e
      simp only [List.mem_append, hi.errs, List.mem_singleton]
      constructor
      · rintro (⟨a, ha, h⟩ | h)
        · exact ⟨a, Or.inl ha, h⟩
        · exact ⟨g, Or.inr rfl, Or.inl h⟩
      · rintro ⟨a, ha | rfl, h⟩
        · exact Or.inl ⟨a, ha, h⟩
        · rcases h with h | ⟨h, _⟩
          · exact Or.inr h
          · exact absurd hcov h
    · intro x
      simp only [hi.grp, List.mem_append, List.mem_singleton]
      constructor
      · rintro ⟨a, ha, h⟩; exact ⟨a, Or.inl ha, h⟩
      · rintro ⟨a, ha | rfl, h⟩
        · exact ⟨a, ha, h⟩
        · exact absurd hcov h.1
    · intro s
      simp only [hi.itd, List.mem_append, List.mem_singleton]
      constructor
      · rintro ⟨a, ha, h⟩; exact ⟨a, Or.inl ha, h⟩
      · rintro ⟨a, ha | rfl, h⟩
        · exact ⟨a, ha, h⟩
        · exact absurd hcov h.1
  | false =>
    have hcov : ¬ Covered groups g := fun h => by simpa using hbc.mpr h
    have herr : ∀ e, e ∈ st.errs ++ csErrs groups g ++ cycleErrs sccs g ↔ ∃ a ∈ pre ++ [g], e ∈ csErrs groups a ∨ (¬ Covered groups a ∧ e ∈ cycleErrs sccs a) := by
      intro e
      simp only [List.mem_append, hi.errs, List.mem_singleton]
      constructor
      · rintro ((⟨a, ha, h⟩ | h) | h)
        · exact ⟨a, Or.inl ha, h⟩
        · exact ⟨g, Or.inr rfl, Or.inl h⟩
        · exact ⟨g, Or.inr rfl, Or.inr ⟨hcov, h⟩⟩
      · rintro ⟨a, ha | rfl, h⟩
        · exact Or.inl (Or.inl ⟨a, ha, h⟩)
        · rcases h with h | ⟨_, h⟩
          · exact Or.inl (Or.inr h)
          · exact Or.inr h
    unfold addStates
    by_cases hs : g.states = []
    · rw [if_pos hs]
      refine ⟨_, rfl, hiter', herr, ?_, ?_⟩
      · intro x
        simp only [hi.grp, List.mem_append, List.mem_singleton]
        constructor
        · rintro ⟨a, ha, h⟩; exact ⟨a, Or.inl ha, h⟩
        · rintro ⟨a, ha | rfl, h⟩
          · exact ⟨a, ha, h⟩
          · exact absurd hs h.2.1
      · intro s
        simp only [hi.itd, List.mem_append, List.mem_singleton]
        constructor
        · rintro ⟨a, ha, h⟩; exact ⟨a, Or.inl ha, h⟩
        · rintro ⟨a, ha | rfl, h⟩
          · exact ⟨a, ha, h⟩
          · rw [hs] at h; simp at h
    · rw [if_neg hs]
      have hgrp : ∀ x, x ∈ st.grpStates ++ [(g.path, g.states)] ↔ ∃ a ∈ pre ++ [g], ¬ Covered groups a ∧ a.states ≠ [] ∧ x = (a.path, a.states) := by
        intro x
        simp only [hi.grp, List.mem_append, List.mem_singleton]
        constructor
        · rintro (⟨a, ha, h⟩ | rfl)
          · exact ⟨a, Or.inl ha, h⟩
          · exact ⟨g, Or.inr rfl, hcov, hs, rfl⟩
        · rintro ⟨a, ha | rfl, h⟩
          · exact Or.inl ⟨a, ha, h⟩
          · exact Or.inr h.2.2
      by_cases hit : g.solver.iterates = true
      · rw [if_pos hit]
        refine ⟨_, rfl, hiter', herr, hgrp, ?_⟩
        intro s
        simp only [hi.itd, List.mem_append, List.mem_singleton]
        constructor
        · rintro (⟨a, ha, h⟩ | h)
          · exact ⟨a, Or.inl ha, h⟩
          · exact ⟨g, Or.inr rfl, hcov, h, Or.inl hit⟩
        · rintro ⟨a, ha | rfl, h⟩
          · exact Or.inl ⟨a, ha, h⟩
          · exact Or.inr h.2.1
      · rw [if_neg hit]
        obtain ⟨it, h1, h2⟩ := stateStep_fold (needs := needs) g.states st.iterated (fun s hsm => hneeds s (((ht.states g hgm s).mp hsm).1))
        simp only [h1]
        refine ⟨_, rfl, hiter', herr, hgrp, ?_⟩
        intro s
        simp only [h2, hi.itd, List.mem_append, List.mem_singleton]
        constructor
        · rintro (⟨a, ha, h⟩ | ⟨h, h'⟩)
          · exact ⟨a, Or.inl ha, h⟩
          · exact ⟨g, Or.inr rfl, hcov, h, Or.inr h'⟩
        · rintro ⟨a, ha | rfl, h⟩
          · exact Or.inl ⟨a, ha, h⟩
          · exact Or.inr ⟨h.2.1, h.2.2.resolve_left hit⟩

theorem checkSolvers_inv {sccs : List String → List (String × String) → List (List String)} {needs : List String → Option Bool} {root : SGroup} {groups : List SGroup} (ht : GroupTree root groups) (hroot : root.path = [])
    (hneeds : ∀ s ∈ root.states, (needs s.dropLast).isSome) : ∃ st, checkSolvers sccs needs groups = .ok (st.errs ++ stateErrs st) ∧ SolvInv sccs needs groups groups st := by
  have key : ∀ (post pre : List SGroup) (st : SolvSt), groups = pre ++ post → SolvInv sccs needs groups pre st →
      ∃ st', post.foldlM (solverStep sccs needs groups) st = .ok st' ∧ SolvInv sccs needs groups groups st' := by
    intro post
    induction post with
    | nil => intro pre st hg hi; rw [List.append_nil] at hg; exact ⟨st, rfl, hg ▸ hi⟩
    | cons g post ih =>
      intro pre st hg hi
      obtain ⟨st1, h1, h2⟩ := solverStep_inv ht hroot hneeds hg hi
      obtain ⟨st', h3, h4⟩ := ih (pre ++ [g]) st1 (by rw [hg]; simp) h2
      exact ⟨st', by rw [List.foldlM_cons, h1]; exact h3, h4⟩
  obtain ⟨st, h1, h2⟩ := key groups [] ⟨[([], false)], [], [], []⟩ rfl ⟨by simp, by simp, by simp, by simp⟩
  exact ⟨st, by simp [checkSolvers, h1], h2⟩

theorem strong_iff {sccs : List String → List (String × String) → List (List String)} (hspec : SccSpec sccs) {nodes : List String} {edges : List (String × String)} (hn : nodes.Nodup) (hE : ∀ e ∈ edges, e.1 ∈ nodes ∧ e.2 ∈ nodes) :
    ((sccs nodes edges).filter fun s => decide (s.length > 1)) ≠ [] ↔ HasFeedback edges := by
  constructor
  · intro h
    obtain ⟨C, hC⟩ := List.exists_mem_of_ne_nil _ h
    rw [List.mem_filter, decide_eq_true_eq] at hC
    obtain ⟨hnd, v, hv, hcls⟩ := hspec.cls nodes edges hn hE C hC.1
    match C, hC.2, hnd, hcls with
    | [], h, _, _ => simp at h
    | [_], h, _, _ => simp at h
    | a :: b :: r, _, hnd, hcls =>
      have hab : a ≠ b := by
        rintro rfl
        simp at hnd
      obtain ⟨_, a1, a2⟩ := (hcls a).mp (by simp)
      obtain ⟨_, b1, b2⟩ := (hcls b).mp (by simp)
      have e1 := a2.trans b1
      have e2 := b2.trans a1
      refine ⟨a, b, hab, ?_, ?_⟩
      · rcases Relation.reflTransGen_iff_eq_or_transGen.mp e1 with h | h
        · exact absurd h.symm hab
        · exact h
      · rcases Relation.reflTransGen_iff_eq_or_transGen.mp e2 with h | h
        · exact absurd h hab
        · exact h
  · rintro ⟨a, b, hab, h1, h2⟩ hnil
    have mem_of : ∀ {x y}, Relation.TransGen (fun x y => (x, y) ∈ edges) x y → x ∈ nodes := by
      intro x y h
      induction h with
      | single h => exact (hE _ h).1
      | tail _ _ ih => exact ih
    have ha : a ∈ nodes := mem_of h1
    have hb : b ∈ nodes := mem_of h2
    obtain ⟨C, hC, haC⟩ := hspec.cover nodes edges hn hE a ha
    obtain ⟨hnd, v, hv, hcls⟩ := hspec.cls nodes edges hn hE C hC
    obtain ⟨_, a1, a2⟩ := (hcls a).mp haC
    have hbC : b ∈ C := (hcls b).mpr ⟨hb, a1.trans (Relation.TransGen.to_reflTransGen h1), (Relation.TransGen.to_reflTransGen h2).trans a2⟩
    have hlen : 1 < C.length := by
      match C, haC, hbC with
      | [], h, _ => simp at h
      | [c], h, h' => simp only [List.mem_singleton] at h h'; exact absurd (h.trans h'.symm) hab
      | _ :: _ :: _, _, _ => simp
    have : C ∈ (sccs nodes edges).filter fun s => decide (s.length > 1) := by rw [List.mem_filter]; exact ⟨hC, by simpa using hlen⟩
    rw [hnil] at this
    simp at this

/-- C111. The check of a problem (not a sub-problem) never fails itself, and it reports cycles in exactly those groups that have a `LinearGaussSeidel` with `maxiter` 1, no iterating or direct solver above, and children that depend on each other. -/
theorem C111_cycles_partial {sccs : List String → List (String × String) → List (List String)} (hspec : SccSpec sccs) {needs : List String → Option Bool} {root : SGroup} {groups : List SGroup} (ht : GroupTree root groups)
    (hroot : root.path = []) (hneeds : ∀ s ∈ root.states, (needs s.dropLast).isSome) (hgraph : ∀ g ∈ groups, g.nodes.Nodup ∧ ∀ e ∈ g.edges, e.1 ∈ g.nodes ∧ e.2 ∈ g.nodes) :
    ∃ errs, checkSolvers sccs needs groups = .ok errs ∧ ∀ g ∈ groups, (∃ strong, .cycles g.path strong ∈ errs) ↔ g.solver = .gs 1 ∧ ¬ SolvedAbove groups g ∧ HasFeedback g.edges := by
  rw [solvedAbove_eq]
  obtain ⟨st, h1, hi⟩ := checkSolvers_inv (sccs := sccs) ht hroot hneeds
  refine ⟨_, h1, ?_⟩
  intro g hg
  obtain ⟨hn, hE⟩ := hgraph g hg
  constructor
  · rintro ⟨strong, hm⟩
    rcases List.mem_append.mp hm with hm | hm
    · obtain ⟨a, ha, h | ⟨hc, h⟩⟩ := (hi.errs _).mp hm
      · unfold csErrs at h
        split at h
        · rcases List.mem_append.mp h with h | h
          · split at h <;> simp at h
          · obtain ⟨_, _, h⟩ := List.mem_map.mp h; simp at h
        · simp at h
      · unfold cycleErrs at h
        split at h
        · rename_i hsol
          simp only at h
          split at h
          · rename_i hst
            simp only [List.mem_singleton, SolverErr.cycles.injEq] at h
            rw [path_inj ht.distinct hg ha h.1]
            obtain ⟨hn', hE'⟩ := hgraph a ha
            exact ⟨hsol, fun hs => hc (Or.inr hs), (strong_iff hspec hn' hE').mp hst⟩
          · simp at h
        · simp at h
    · unfold stateErrs at hm
      obtain ⟨x, _, hx⟩ := List.mem_flatMap.mp hm
      simp only at hx
      split at hx <;> simp at hx
  · rintro ⟨hsol, hab, hf⟩
    have hst := (strong_iff hspec hn hE).mpr hf
    refine ⟨(sccs g.nodes g.edges).filter fun s => decide (s.length > 1), List.mem_append_left _ ((hi.errs _).mpr ⟨g, hg, Or.inr ⟨?_, ?_⟩⟩)⟩
    · rintro (⟨_, h⟩ | h)
      · rw [hsol] at h; simp [LnKind.iterates] at h
      · exact hab h
    · unfold cycleErrs
      rw [if_pos hsol]
      simp only
      rw [if_pos hst]
      simp

/-- C111. It reports states exactly when there is one that no group above solves for and whose component does not either, and names exactly those. -/
theorem C111_states_partial {sccs : List String → List (String × String) → List (List String)} {needs : List String → Option Bool} {root : SGroup} {groups : List SGroup} (ht : GroupTree root groups)
    (hroot : root.path = []) (hneeds : ∀ s ∈ root.states, (needs s.dropLast).isSome) :
    ∃ errs, checkSolvers sccs needs groups = .ok errs ∧ ((∃ p l, .states p l ∈ errs) ↔ ∃ s ∈ root.states, ¬ StateSolved groups needs s) ∧
      ∀ p l, .states p l ∈ errs → l ≠ [] ∧ ∃ g ∈ groups, g.path = p ∧ ∀ s, s ∈ l ↔ s ∈ g.states ∧ ¬ StateSolved groups needs s := by
  rw [stateSolved_eq]
  obtain ⟨st, h1, hi⟩ := checkSolvers_inv (sccs := sccs) ht hroot hneeds
  obtain ⟨rest, hrest⟩ := ht.first
  have hrm : root ∈ groups := by rw [hrest]; simp
  -- a state of a group that was looked at is in `iterated` exactly when it is solved for
  have hit : ∀ g ∈ groups, ¬ Covered groups g → ∀ s ∈ g.states, s ∈ st.iterated ↔ StateSolvedB groups needs s := by
    intro g hg hc s hs
    obtain ⟨hsr, hgs⟩ := (ht.states g hg s).mp hs
    constructor
    · intro h
      obtain ⟨a, ha, _, hsa, h | h⟩ := (hi.itd s).mp h
      · exact Or.inr ⟨a, ha, ((ht.states a ha s).mp hsa).2, h⟩
      · exact Or.inl h
    · rintro (h | ⟨a, ha, hp, h⟩)
      · exact (hi.itd s).mpr ⟨g, hg, hc, hs, Or.inr h⟩
      · -- the topmost iterating group that contains the state
        have hmin : ∀ (n : Nat) (a : SGroup), a.path.length = n → a ∈ groups → a.path <+: s → a.solver.iterates = true → s ∈ st.iterated := by
          intro n
          induction n using Nat.strong_induction_on with
          | _ n ih =>
            intro a hn ha hp h
            by_cases hca : Covered groups a
            · rcases hca with ⟨hnil, _⟩ | ⟨b, hb, hb1, hb2, hb3⟩
              · exfalso
                apply hc
                by_cases hgn : g.path = []
                · have : g = a := path_inj ht.distinct hg ha (hgn.trans hnil.symm)
                  exact Or.inl ⟨hgn, this ▸ h⟩
                · exact Or.inr ⟨a, ha, by rw [hnil]; exact List.nil_prefix, by rw [hnil]; exact Ne.symm hgn, h⟩
              · have hlt : b.path.length < n := by
                  rw [← hn]
                  rcases Nat.lt_or_ge b.path.length a.path.length with h' | h'
                  · exact h'
                  · exact absurd (hb1.eq_of_length (le_antisymm hb1.length_le h')) hb2
                exact ih _ hlt b rfl hb (hb1.trans hp) hb3
            · exact (hi.itd s).mpr ⟨a, ha, hca, (ht.states a ha s).mpr ⟨hsr, hp⟩, Or.inl h⟩
        exact hmin _ a rfl ha hp h
  have hstates : ∀ p l, SolverErr.states p l ∈ st.errs ++ stateErrs st ↔ ∃ g ∈ groups, ¬ Covered groups g ∧ g.path = p ∧ l = (g.states.filter fun s => decide (s ∉ st.iterated)) ∧ l ≠ [] := by
    intro p l
    rw [List.mem_append]
    constructor
    · rintro (h | h)
      · exfalso
        obtain ⟨a, _, h | ⟨_, h⟩⟩ := (hi.errs _).mp h
        · unfold csErrs at h
          split at h
          · rcases List.mem_append.mp h with h | h
            · split at h <;> simp at h
            · obtain ⟨_, _, h⟩ := List.mem_map.mp h; simp at h
          · simp at h
        · unfold cycleErrs at h
          split at h
          · simp only at h
            split at h <;> simp at h
          · simp at h
      · unfold stateErrs at h
        obtain ⟨x, hx, h⟩ := List.mem_flatMap.mp h
        obtain ⟨g, hg, hc, _, rfl⟩ := (hi.grp x).mp hx
        simp only at h
        split at h
        · rename_i hne
          simp only [List.mem_singleton, SolverErr.states.injEq] at h
          exact ⟨g, hg, hc, h.1.symm, h.2, by rw [h.2]; exact hne⟩
        · simp at h
    · rintro ⟨g, hg, hc, rfl, rfl, hne⟩
      right
      unfold stateErrs
      refine List.mem_flatMap.mpr ⟨(g.path, g.states), (hi.grp _).mpr ⟨g, hg, hc, ?_, rfl⟩, ?_⟩
      · intro h; rw [h] at hne; simp at hne
      · simp only
        rw [if_pos hne]
        simp
  refine ⟨_, h1, ?_, ?_⟩
  · constructor
    · rintro ⟨p, l, h⟩
      obtain ⟨g, hg, hc, rfl, hl, hne⟩ := (hstates p l).mp h
      obtain ⟨s, hs⟩ := List.exists_mem_of_ne_nil _ hne
      rw [hl, List.mem_filter, decide_eq_true_eq] at hs
      exact ⟨s, ((ht.states g hg s).mp hs.1).1, fun hsol => hs.2 ((hit g hg hc s hs.1).mpr hsol)⟩
    · rintro ⟨s, hs, hns⟩
      have hc : ¬ Covered groups root := by
        rintro (⟨_, h⟩ | ⟨a, _, ha1, ha2, _⟩)
        · exact hns (Or.inr ⟨root, hrm, by rw [hroot]; exact List.nil_prefix, h⟩)
        · rw [hroot] at ha1 ha2; exact ha2 (List.prefix_nil.mp ha1)
      refine ⟨root.path, _, (hstates _ _).mpr ⟨root, hrm, hc, rfl, rfl, ?_⟩⟩
      intro hnil
      have : s ∈ root.states.filter fun s => decide (s ∉ st.iterated) := by
        rw [List.mem_filter, decide_eq_true_eq]
        exact ⟨hs, fun h => hns ((hit root hrm hc s hs).mp h)⟩
      rw [hnil] at this
      simp at this
  · intro p l h
    obtain ⟨g, hg, hc, rfl, hl, hne⟩ := (hstates p l).mp h
    refine ⟨hne, g, hg, rfl, ?_⟩
    intro s
    rw [hl, List.mem_filter, decide_eq_true_eq]
    constructor
    · rintro ⟨h1, h2⟩; exact ⟨h1, fun h => h2 ((hit g hg hc s h1).mpr h)⟩
    · rintro ⟨h1, h2⟩; exact ⟨h1, fun h => h2 ((hit g hg hc s h1).mp h)⟩

/-- C111. Complex step is refused on groups other than the root, and together with nonlinear solvers that need derivatives. -/
theorem C111_complex_step_partial {sccs : List String → List (String × String) → List (List String)} {needs : List String → Option Bool} {root : SGroup} {groups : List SGroup} (ht : GroupTree root groups)
    (hroot : root.path = []) (hneeds : ∀ s ∈ root.states, (needs s.dropLast).isSome) :
    ∃ errs, checkSolvers sccs needs groups = .ok errs ∧ (∀ n, .csSubgroup n ∈ errs ↔ n ≠ "" ∧ ∃ g ∈ groups, g.cs = true ∧ g.name = n) ∧
      ∀ n, .csDerivs n ∈ errs ↔ (∃ g ∈ groups, g.cs = true) ∧ ∃ s ∈ groups, s.nlDerivs = true ∧ s.name = n := by
  obtain ⟨st, h1, hi⟩ := checkSolvers_inv (sccs := sccs) ht hroot hneeds
  have hcs : ∀ e, (∀ p l, e ≠ SolverErr.cycles p l) → (∀ p l, e ≠ SolverErr.states p l) → (e ∈ st.errs ++ stateErrs st ↔ ∃ g ∈ groups, e ∈ csErrs groups g) := by
    intro e hc hs
    rw [List.mem_append]
    constructor
    · rintro (h | h)
      · obtain ⟨a, ha, h | ⟨_, h⟩⟩ := (hi.errs _).mp h
        · exact ⟨a, ha, h⟩
        · unfold cycleErrs at h
          split at h
          · simp only at h
            split at h
            · exact absurd (List.mem_singleton.mp h) (hc _ _)
            · simp at h
          · simp at h
      · unfold stateErrs at h
        obtain ⟨x, hx, h⟩ := List.mem_flatMap.mp h
        simp only at h
        split at h
        · exact absurd (List.mem_singleton.mp h) (hs _ _)
        · simp at h
    · rintro ⟨g, hg, h⟩
      exact Or.inl ((hi.errs _).mpr ⟨g, hg, Or.inl h⟩)
  refine ⟨_, h1, ?_, ?_⟩
  · intro n
    rw [hcs _ (by simp) (by simp)]
    constructor
    · rintro ⟨g, hg, h⟩
      unfold csErrs at h
      split at h
      · rename_i hgc
        rcases List.mem_append.mp h with h | h
        · split at h
          · rename_i hne
            simp only [List.mem_singleton, SolverErr.csSubgroup.injEq] at h
            exact ⟨by rw [h]; exact hne, g, hg, hgc, h.symm⟩
          · simp at h
        · obtain ⟨_, _, h⟩ := List.mem_map.mp h; simp at h
      · simp at h
    · rintro ⟨hne, g, hg, hgc, rfl⟩
      refine ⟨g, hg, ?_⟩
      unfold csErrs
      rw [if_pos hgc, if_pos hne]
      simp
  · intro n
    rw [hcs _ (by simp) (by simp)]
    constructor
    · rintro ⟨g, hg, h⟩
      unfold csErrs at h
      split at h
      · rename_i hgc
        rcases List.mem_append.mp h with h | h
        · split at h <;> simp at h
        · obtain ⟨s, hs, h⟩ := List.mem_map.mp h
          rw [List.mem_filter] at hs
          exact ⟨⟨g, hg, hgc⟩, s, hs.1, hs.2, by simpa using h⟩
      · simp at h
    · rintro ⟨⟨g, hg, hgc⟩, s, hs, hsd, rfl⟩
      refine ⟨g, hg, ?_⟩
      unfold csErrs
      rw [if_pos hgc]
      exact List.mem_append_right _ (List.mem_map.mpr ⟨s, List.mem_filter.mpr ⟨hs, hsd⟩, rfl⟩)

/-- A root group with the child `c` only. -/
def plainGroup (path : List String) : SGroup := ⟨path, "", .gs 1, false, false, ["c"], [], []⟩

/-- C111 is false of the code for sub-problems in a group that are set up again: the path of the root is then that of the component (`subproblem.py:156`), `g.sub` say, and `KeyError` is raised for its first part. The same model passes the first time. -/
theorem C111_second_setup_refuted : checkSolvers sccList (fun _ => some false) [plainGroup []] = .ok [] ∧ checkSolvers sccList (fun _ => some false) [plainGroup ["g", "sub"]] = .error .KeyError := by decide +kernel

/-- C111 is false of the code for a component that is connected to itself: this feedback is not reported. -/
theorem C111_self_feedback_refuted : checkSolvers sccList (fun _ => some false) [{ plainGroup [] with edges := [("c", "c")] }] = .ok [] := by decide +kernel

/-- A root with a subgroup `g` in which `a` and `b` depend on each other, and a state `g.a.x`. -/
def loopGroups (top : LnKind) : List SGroup := [⟨[], "", top, false, false, ["g"], [], [["g", "a", "x"]]⟩, ⟨["g"], "g", .gs 1, false, false, ["a", "b"], [("a", "b"), ("b", "a")], [["g", "a", "x"]]⟩]

example : checkSolvers sccList (fun _ => some true) (loopGroups (.gs 1)) = .ok [.cycles ["g"] [["a", "b"]], .states [] [["g", "a", "x"]], .states ["g"] [["g", "a", "x"]]] ∧
    checkSolvers sccList (fun _ => some true) (loopGroups (.krylov 100)) = .ok [] := by decide +kernel

example : GroupTree ⟨[], "", .gs 1, false, false, ["g"], [], [["g", "a", "x"]]⟩ (loopGroups (.gs 1)) := by
  refine ⟨⟨_, rfl⟩, fun g _ => List.nil_prefix, by decide, ?_, ?_⟩
  · intro pre g post h i _ hi
    match pre, h with
    | [], h => simp only [loopGroups, List.nil_append, List.cons.injEq] at h; rw [← h.1] at hi; simp at hi
    | [a], h =>
      simp only [loopGroups, List.cons_append, List.nil_append, List.cons.injEq] at h
      rw [← h.2.1] at hi
      have : i = 0 := by simpa using hi
      subst this
      exact ⟨a, by simp, by rw [← h.1]; simp⟩
    | a :: b :: pre, h => simp [loopGroups] at h
  · intro g hg s
    simp only [loopGroups, List.mem_cons, List.not_mem_nil, or_false] at hg
    rcases hg with rfl | rfl
    · simp
    · simp only [List.mem_singleton]
      constructor
      · rintro rfl; exact ⟨rfl, by simp⟩
      · exact fun h => h.1

/-! ## C112: the report on execution order -/

section
variable {α : Type} [DecidableEq α]

/-- `sub` is among the subsystems after which `v` should run. -/
def Reported (d : List (α × List α)) (v sub : α) : Prop := ∃ l, d.lookup v = some l ∧ sub ∈ l

theorem reported_addOoo (d : List (α × List α)) (v sub v' sub' : α) : Reported (addOoo d v sub) v' sub' ↔ Reported d v' sub' ∨ (v' = v ∧ sub' = sub) := by
  unfold Reported addOoo
  cases h : d.lookup v with
  | none =>
    simp only
    rw [lookup_dictSet]
    by_cases hv : v' = v
    · subst hv
      simp [h]
    · simp [hv]
  | some l =>
    simp only
    split
    · rename_i hm
      by_cases hv : v' = v
      · subst hv
        simp only [h, Option.some.injEq, exists_eq_left', true_and]
        constructor
        · intro hx; exact Or.inl hx
        · rintro (hx | rfl)
          · exact hx
          · exact hm
      · simp [hv]
    · rw [lookup_dictSet]
      by_cases hv : v' = v
      · subst hv
        simp [h]
      · simp [hv]

theorem reported_oooSub (edges : List (α × α)) (visited : List α) (sub : α) (d : List (α × List α)) (v s : α) :
    Reported (oooSub edges visited sub d) v s ↔ Reported d v s ∨ (s = sub ∧ v ∈ visited ∧ Relation.TransGen (fun x y => (x, y) ∈ edges) sub v ∧ v ≠ sub) := by
  have key : ∀ (l : List (α × α)) (d : List (α × List α)), Reported (l.foldl (fun d e => if e.2 ∈ visited then addOoo d e.2 sub else d) d) v s ↔ Reported d v s ∨ (s = sub ∧ v ∈ visited ∧ v ∈ l.map Prod.snd) := by
    intro l
    induction l with
    | nil => intro d; simp
    | cons e l ih =>
      intro d
      rw [List.foldl_cons, ih, List.map_cons, List.mem_cons]
      split
      · rename_i hm
        rw [reported_addOoo]
        constructor
        · rintro ((h | ⟨rfl, rfl⟩) | ⟨h1, h2, h3⟩)
          · exact Or.inl h
          · exact Or.inr ⟨rfl, hm, Or.inl rfl⟩
          · exact Or.inr ⟨h1, h2, Or.inr h3⟩
        · rintro (h | ⟨h1, h2, h3 | h3⟩)
          · exact Or.inl (Or.inl h)
          · exact Or.inl (Or.inr ⟨h3, h1⟩)
          · exact Or.inr ⟨h1, h2, h3⟩
      · rename_i hm
        constructor
        · rintro (h | ⟨h1, h2, h3⟩)
          · exact Or.inl h
          · exact Or.inr ⟨h1, h2, Or.inr h3⟩
        · rintro (h | ⟨h1, h2, h3 | h3⟩)
          · exact Or.inl h
          · exact absurd (h3 ▸ h2) hm
          · exact Or.inr ⟨h1, h2, h3⟩
  unfold oooSub
  rw [key, mem_dfs_iff]
  rfl

theorem before_mem {l : List α} {a b : α} (h : Before l a b) : a ∈ l ∧ b ∈ l := by
  obtain ⟨p, q, r, rfl⟩ := h
  simp

theorem reported_loop (edges : List (α × α)) (v s : α) (hvs : v ≠ s) : ∀ (rest visited : List α) (d : List (α × List α)),
    Reported (oooLoop edges visited rest d) v s ↔ Reported d v s ∨ (Relation.TransGen (fun x y => (x, y) ∈ edges) s v ∧ ((v ∈ visited ∧ s ∈ rest) ∨ Before rest v s)) := by
  intro rest
  induction rest with
  | nil =>
    intro visited d
    simp only [oooLoop, List.not_mem_nil, and_false, false_or]
    constructor
    · exact Or.inl
    · rintro (h | ⟨_, h⟩)
      · exact h
      · exact absurd (before_mem h).1 (by simp)
  | cons sub rest ih =>
    intro visited d
    rw [oooLoop, ih, reported_oooSub]
    have hbef : Before (sub :: rest) v s ↔ (v = sub ∧ s ∈ rest) ∨ Before rest v s := by
      constructor
      · rintro ⟨p, q, r, h⟩
        cases p with
        | nil =>
          simp only [List.nil_append, List.cons_append, List.cons.injEq] at h
          left
          exact ⟨h.1.symm, by rw [h.2]; simp⟩
        | cons x p =>
          simp only [List.cons_append, List.cons.injEq] at h
          exact Or.inr ⟨p, q, r, h.2⟩
      · rintro (⟨rfl, h⟩ | ⟨p, q, r, h⟩)
        · obtain ⟨q, r, h⟩ := List.append_of_mem h
          exact ⟨[], q, r, by rw [h]; simp⟩
        · exact ⟨sub :: p, q, r, by rw [h]; simp⟩
    rw [hbef]
    constructor
    · rintro ((h | ⟨rfl, h1, h2, _⟩) | ⟨h1, ⟨h2, h3⟩ | h2⟩)
      · exact Or.inl h
      · refine Or.inr ⟨h2, Or.inl ⟨?_, List.mem_cons_self⟩⟩
        exact (List.mem_cons.mp h1).resolve_left hvs
      · rcases List.mem_cons.mp h2 with rfl | h2
        · exact Or.inr ⟨h1, Or.inr (Or.inl ⟨rfl, h3⟩)⟩
        · exact Or.inr ⟨h1, Or.inl ⟨h2, List.mem_cons_of_mem _ h3⟩⟩
      · exact Or.inr ⟨h1, Or.inr (Or.inr h2)⟩
    · rintro (h | ⟨h1, ⟨h2, h3⟩ | ⟨rfl, h3⟩ | h2⟩)
      · exact Or.inl (Or.inl h)
      · rcases List.mem_cons.mp h3 with rfl | h3
        · exact Or.inl (Or.inr ⟨rfl, List.mem_cons_of_mem _ h2, h1, hvs⟩)
        · exact Or.inr ⟨h1, Or.inl ⟨List.mem_cons_of_mem _ h2, h3⟩⟩
      · exact Or.inr ⟨h1, Or.inl ⟨List.mem_cons_self, h3⟩⟩
      · exact Or.inr ⟨h1, Or.inr h2⟩

/-- C112. The report says that `v` should run after `s` exactly when `v` runs before `s` and depends on it, in the graph without the broken connections. -/
theorem C112_reported_iff {order : List α} (hn : order.Nodup) (edges : List (α × α)) (v s : α) :
    (∃ l, (outOfOrder order edges).lookup v = some l ∧ s ∈ l) ↔ Before order v s ∧ Relation.TransGen (fun x y => (x, y) ∈ edges) s v := by
  by_cases hvs : v = s
  · subst hvs
    constructor
    · intro h
      exfalso
      have key : ∀ (rest visited : List α) (d : List (α × List α)), Reported (oooLoop edges visited rest d) v v → Reported d v v := by
        intro rest
        induction rest with
        | nil => intro _ d h; exact h
        | cons sub rest ih =>
          intro visited d h
          rw [oooLoop] at h
          rcases (reported_oooSub edges _ sub d v v).mp (ih _ _ h) with h | ⟨rfl, _, _, h⟩
          · exact h
          · exact absurd rfl h
      obtain ⟨l, h1, _⟩ := key order [] [] h
      simp at h1
    · rintro ⟨⟨p, q, r, h⟩, _⟩
      rw [h] at hn
      simp [List.nodup_append] at hn
  · have := reported_loop edges v s hvs order [] []
    unfold Reported at this
    unfold outOfOrder
    rw [this]
    simp only [List.lookup_nil, List.not_mem_nil, false_and, false_or]
    constructor
    · rintro (⟨l, h, _⟩ | ⟨h1, h2⟩)
      · simp at h
      · exact ⟨h2, h1⟩
    · rintro ⟨h1, h2⟩; exact Or.inr ⟨h2, h1⟩

theorem outOfOrder_nonempty (edges : List (α × α)) : ∀ (rest visited : List α) (d : List (α × List α)), (∀ e ∈ d, e.2 ≠ []) → ∀ e ∈ oooLoop edges visited rest d, e.2 ≠ [] := by
  have hadd : ∀ (d : List (α × List α)) (v sub : α), (∀ e ∈ d, e.2 ≠ []) → ∀ e ∈ addOoo d v sub, e.2 ≠ [] := by
    intro d v sub h e he
    unfold addOoo at he
    cases hl : d.lookup v with
    | none =>
      rw [hl] at he
      rcases mem_dictSet _ _ _ _ he with he | rfl
      · exact h e he
      · simp
    | some l =>
      rw [hl] at he
      simp only at he
      split at he
      · exact h e he
      · rcases mem_dictSet _ _ _ _ he with he | rfl
        · exact h e he
        · simp
  intro rest
  induction rest with
  | nil => intro _ d h; exact h
  | cons sub rest ih =>
    intro visited d h
    rw [oooLoop]
    apply ih
    unfold oooSub
    have : ∀ (l : List (α × α)) (d : List (α × List α)), (∀ e ∈ d, e.2 ≠ []) → ∀ e ∈ l.foldl (fun d e => if e.2 ∈ sub :: visited then addOoo d e.2 sub else d) d, e.2 ≠ [] := by
      intro l
      induction l with
      | nil => intro d h; exact h
      | cons x l ih2 =>
        intro d h
        rw [List.foldl_cons]
        apply ih2
        split
        · exact hadd d _ _ h
        · exact h
    exact this _ d h

theorem before_total {l : List α} {a b : α} (ha : a ∈ l) (hb : b ∈ l) (hab : a ≠ b) : Before l a b ∨ Before l b a := by
  obtain ⟨p, q, rfl⟩ := List.append_of_mem ha
  rcases List.mem_append.mp hb with h | h
  · obtain ⟨p1, p2, rfl⟩ := List.append_of_mem h
    exact Or.inr ⟨p1, p2, q, by simp⟩
  · rcases List.mem_cons.mp h with h | h
    · exact absurd h.symm hab
    · obtain ⟨q1, q2, rfl⟩ := List.append_of_mem h
      exact Or.inl ⟨p, q1, q2, by simp⟩

theorem before_iff_idxOf {l : List α} (hn : l.Nodup) {a b : α} (ha : a ∈ l) (hb : b ∈ l) : Before l a b ↔ l.idxOf a < l.idxOf b := by
  have fwd : ∀ {a b : α}, Before l a b → l.idxOf a < l.idxOf b := by
    rintro a b ⟨p, q, r, rfl⟩
    rw [List.nodup_append] at hn
    obtain ⟨h1, _, h3⟩ := hn
    have hap : a ∉ p := by
      rw [List.nodup_append] at h1
      exact fun h => h1.2.2 a h a List.mem_cons_self rfl
    have hbp : b ∉ p ++ a :: q := fun h => h3 b h b List.mem_cons_self rfl
    rw [List.idxOf_append_of_notMem hbp, List.idxOf_append_of_mem (by simp), List.idxOf_append_of_notMem hap]
    simp
  constructor
  · exact fwd
  · intro h
    rcases before_total ha hb (fun e => by rw [e] at h; omega) with h' | h'
    · exact h'
    · have := fwd h'; omega

/-- C112. Nothing is reported exactly when every connection that was not broken goes from an earlier to a later subsystem. -/
theorem C112_clean_iff {order : List α} (hn : order.Nodup) {edges : List (α × α)} (hE : ∀ e ∈ edges, e.1 ∈ order ∧ e.2 ∈ order) (hself : ∀ e ∈ edges, e.1 ≠ e.2) :
    outOfOrder order edges = [] ↔ ∀ e ∈ edges, Before order e.1 e.2 := by
  constructor
  · intro h e he
    obtain ⟨h1, h2⟩ := hE e he
    rcases before_total h1 h2 (hself e he) with hb | hb
    · exact hb
    · have := (C112_reported_iff hn edges e.2 e.1).mpr ⟨hb, Relation.TransGen.single he⟩
      rw [h] at this
      simp at this
  · intro h
    rw [List.eq_nil_iff_forall_not_mem]
    rintro ⟨v, l⟩ hm
    have hne := outOfOrder_nonempty edges order [] [] (by simp) _ hm
    -- some entry for `v` has a member
    have hlook : ∃ l', (outOfOrder order edges).lookup v = some l' := by
      cases hl : (outOfOrder order edges).lookup v with
      | some l' => exact ⟨l', rfl⟩
      | none => exact absurd (List.lookup_eq_none_iff.mp hl (v, l) hm) (by simp)
    obtain ⟨l', hl'⟩ := hlook
    have hne' := outOfOrder_nonempty edges order [] [] (by simp) _ (lookup_mem hl')
    obtain ⟨s, hs⟩ := List.exists_mem_of_ne_nil _ hne'
    obtain ⟨hb, hpath⟩ := (C112_reported_iff hn edges v s).mp ⟨l', hl', hs⟩
    have hmono : ∀ {x y}, Relation.TransGen (fun x y => (x, y) ∈ edges) x y → x ∈ order ∧ y ∈ order ∧ order.idxOf x < order.idxOf y := by
      intro x y hxy
      induction hxy with
      | single he => exact ⟨(hE _ he).1, (hE _ he).2, (before_iff_idxOf hn (hE _ he).1 (hE _ he).2).mp (h _ he)⟩
      | tail _ he ih => exact ⟨ih.1, (hE _ he).2, ih.2.2.trans ((before_iff_idxOf hn (hE _ he).1 (hE _ he).2).mp (h _ he))⟩
    obtain ⟨h1, h2, h3⟩ := hmono hpath
    have := (before_iff_idxOf hn h2 h1).mp hb
    omega

/-- C112. Both lists are empty exactly when every connection between two children goes forward in the execution order. -/
theorem C112_checkGraph_clean {lt : α → α → Bool} {wt : α × α → Nat} {sccs : List α → List (α × α) → List (List α)} (hspec : SccSpec sccs) {nodes order : List α} {edges : List (α × α)} (hperm : order.Perm nodes)
    (hV : nodes.Nodup) (hnd : edges.Nodup) (hself : ∀ e ∈ edges, e.1 ≠ e.2) (hE : ∀ e ∈ edges, e.1 ∈ nodes ∧ e.2 ∈ nodes) :
    checkGraph lt wt sccs nodes order edges = ([], []) ↔ ∀ e ∈ edges, Before order e.1 e.2 := by
  have hn : order.Nodup := hperm.nodup_iff.mpr hV
  have hE' : ∀ e ∈ edges, e.1 ∈ order ∧ e.2 ∈ order := fun e he => ⟨hperm.mem_iff.mpr (hE e he).1, hperm.mem_iff.mpr (hE e he).2⟩
  unfold checkGraph
  rw [Prod.mk.injEq]
  constructor
  · rintro ⟨h1, h2⟩
    have hb : breakCycles lt wt sccs nodes edges = (edges, []) := by
      unfold breakCycles
      have : (sccs nodes edges).filter (fun s => 1 < s.length) = [] := h1
      rw [this]
      rfl
    rw [hb] at h2
    exact (C112_clean_iff hn hE' hself).mp h2
  · intro h
    have hmono : ∀ {x y}, Relation.TransGen (fun x y => (x, y) ∈ edges) x y → order.idxOf x < order.idxOf y := by
      intro x y hxy
      induction hxy with
      | single he => exact (before_iff_idxOf hn (hE' _ he).1 (hE' _ he).2).mp (h _ he)
      | tail _ he ih => exact ih.trans ((before_iff_idxOf hn (hE' _ he).1 (hE' _ he).2).mp (h _ he))
    constructor
    · rw [List.filter_eq_nil_iff]
      intro C hC hlen
      rw [decide_eq_true_eq] at hlen
      obtain ⟨hnd', v, hv, hcls⟩ := hspec.cls nodes edges hV hE C hC
      match C, hlen, hnd', hcls with
      | [], h, _, _ => simp at h
      | [_], h, _, _ => simp at h
      | a :: b :: r, _, hnd', hcls =>
        have hab : a ≠ b := by
          rintro rfl
          simp at hnd'
        obtain ⟨_, a1, a2⟩ := (hcls a).mp (by simp)
        obtain ⟨_, b1, b2⟩ := (hcls b).mp (by simp)
        rcases Relation.reflTransGen_iff_eq_or_transGen.mp (a2.trans b1) with h1 | h1
        · exact hab h1.symm
        · rcases Relation.reflTransGen_iff_eq_or_transGen.mp (b2.trans a1) with h2 | h2
          · exact hab h2
          · have := hmono h1
            have := hmono h2
            omega
    · obtain ⟨hp, _, _, _⟩ := C18_break_cycles (lt := lt) (wt := wt) hspec hV hnd hself hE
      have hsub : ∀ e ∈ (breakCycles lt wt sccs nodes edges).1, e ∈ edges := fun e he => hp.mem_iff.mp (List.mem_append_left _ he)
      exact (C112_clean_iff hn (fun e he => hE' e (hsub e he)) (fun e he => hself e (hsub e he))).mpr fun e he => h e (hsub e he)

example : checkGraph (fun a b : String => decide (a < b)) (fun _ => 1) sccList ["a", "b", "c"] ["a", "b", "c"] [("a", "b"), ("b", "c")] = ([], []) := by decide +kernel

example : checkGraph (fun a b : String => decide (a < b)) (fun _ => 1) sccList ["a", "b", "c"] ["a", "c", "b"] [("a", "b"), ("b", "c")] = ([], [("c", ["b"])]) := by decide +kernel

end

/-! ## C113: the order that setup chooses -/

theorem before_heads {order : List (List String)} (h1 : ∀ x ∈ order, ∃ c, x = [c]) {a b : String} (hb : Before order [a] [b]) : Before (order.filterMap List.head?) a b := by
  obtain ⟨p, q, r, rfl⟩ := hb
  exact ⟨p.filterMap List.head?, q.filterMap List.head?, r.filterMap List.head?, by simp⟩

/-- C113 (partial). At its first setup, a group whose order the user has not set gets an order that lists every child once, and in which every connection between two children goes forward except for the broken ones, each of which lies on a cycle.
Missing: later setups, see `C113_second_setup_refuted`. -/
theorem C113_first_setup_partial {σ : Type} {lt : List String → List String → Bool} {sccs : List (List String) → List (List String × List String) → List (List (List String))} (hspec : SccSpec sccs) (path : List String)
    (nodes : List (List String)) (edges : List ((List String × List String) × Nat)) (hE : ∀ e ∈ edges, e.1.1 ∈ nodes ∧ e.1.2 ∈ nodes) (g : GroupOrder σ) (hset : g.orderSet = false) (hg : (g.subs.map Prod.fst).Nodup)
    (hsubs : ∀ c, c ∈ g.subs.map Prod.fst ↔ ∃ n ∈ nodes, InChild path n c) :
    ∃ (g' : GroupOrder σ) (broken : List (String × String)), setupOrder lt sccs path nodes edges g = (.ok (), g') ∧ g'.orderSet = true ∧ g'.subs.Perm g.subs ∧
      (∀ e ∈ broken, ∃ a b, e = (a, b) ∧ ChildEdge path edges a b ∧ Relation.ReflTransGen (ChildEdge path edges) b a) ∧
      ∀ a b, ChildEdge path edges a b → (a, b) ∈ broken ∨ Before ((runOrder g').map Prod.fst) a b := by
  obtain ⟨order, broken, h1, h2, h3, h4, h5, h6⟩ := C18_auto_order (lt := lt) hspec path nodes edges hE
  have hsing : ∀ x ∈ order, ∃ c, x = [c] := fun x hx => let ⟨c, hc, _⟩ := (h3 x).mp hx; ⟨c, hc⟩
  have hnames : ∀ c, c ∈ order.filterMap List.head? ↔ c ∈ g.subs.map Prod.fst := by
    intro c
    rw [hsubs, List.mem_filterMap]
    constructor
    · rintro ⟨x, hx, hh⟩
      obtain ⟨d, rfl, hd⟩ := (h3 x).mp hx
      simp only [List.head?_cons, Option.some.injEq] at hh
      exact hh ▸ hd
    · intro h
      exact ⟨[c], (h3 _).mpr ⟨c, rfl, h⟩, rfl⟩
  have hnd : (order.filterMap List.head?).Nodup := by
    have hback : ∀ l : List (List String), (∀ x ∈ l, ∃ c, x = [c]) → (l.filterMap List.head?).map (fun c => [c]) = l := by
      intro l
      induction l with
      | nil => intro _; rfl
      | cons x l ih =>
        intro h
        obtain ⟨c, rfl⟩ := h x List.mem_cons_self
        simp [ih fun y hy => h y (List.mem_cons_of_mem _ hy)]
    exact List.Nodup.of_map (fun c => [c]) (by rw [hback order hsing]; exact h2)
  have hperm : (order.filterMap List.head?).Perm (g.subs.map Prod.fst) := (List.perm_ext_iff_of_nodup hnd hg).mpr hnames
  have hok := (C17_accepted_iff g hg _).mpr hperm
  obtain ⟨hrun, hrp⟩ := C17_runs_in_order g hg _ hok
  refine ⟨(setOrder g (order.filterMap List.head?)).2, broken.filterMap fun e => match e.1.getLast?, e.2.getLast? with | some a, some b => some (a, b) | _, _ => none, ?_, ?_, hrp, ?_, ?_⟩
  · unfold setupOrder
    rw [hset, h1]
    simp only [Bool.false_eq_true, if_false]
    exact Prod.ext hok rfl
  · unfold setOrder at hok ⊢
    split_ifs at hok ⊢
    rfl
  · rintro e he
    obtain ⟨x, hx, hxe⟩ := List.mem_filterMap.mp he
    obtain ⟨a, b, rfl, h7, h8⟩ := h5 x hx
    simp at hxe
    exact ⟨a, b, hxe.symm, h7, h8⟩
  · intro a b hab
    rcases h6 a b hab with h | h
    · left
      exact List.mem_filterMap.mpr ⟨_, h, by simp⟩
    · right
      rw [show (runOrder (setOrder g (order.filterMap List.head?)).2).map Prod.fst = order.filterMap List.head? from hrun]
      exact before_heads hsing h

example : (setupOrder (fun a b : List String => decide (a < b)) sccList [] [["a"], ["b"], ["c"]] [((["b"], ["a"]), 1), ((["c"], ["b"]), 2)] (⟨[("a", 0), ("b", 1), ("c", 2)], [], false⟩ : GroupOrder Nat)).2.subs.map Prod.fst = ["c", "b", "a"] := by decide +kernel

/-- C113. An order set by the user stays as it is. -/
theorem C113_user_order {σ : Type} (lt : List String → List String → Bool) (sccs : List (List String) → List (List String × List String) → List (List (List String))) (path : List String) (nodes : List (List String))
    (edges : List ((List String × List String) × Nat)) (g : GroupOrder σ) (h : g.orderSet = true) : setupOrder lt sccs path nodes edges g = (.ok (), g) := by simp [setupOrder, h]

/-- C113 is false of the code at a second setup after the connections were changed: the automatic order of the first setup counts as set by the user, so `b` runs after `a` although `a` now depends on `b`. -/
theorem C113_second_setup_refuted : ∃ (edges1 edges2 : List ((List String × List String) × Nat)) (g : GroupOrder Unit), g.orderSet = false ∧
    (let lt := fun a b : List String => decide (a < b)
     let nodes := [["a"], ["b"]]
     let g1 := (setupOrder lt sccList [] nodes edges1 g).2
     let g2 := (setupOrder lt sccList [] nodes edges2 g1).2
     edges2.map Prod.fst = [(["b"], ["a"])] ∧ (runOrder g2).map Prod.fst = ["a", "b"]) :=
  ⟨[((["a"], ["b"]), 1)], [((["b"], ["a"]), 1)], ⟨[("b", ()), ("a", ())], [], false⟩, by decide, by decide +kernel⟩

end OpenMDAO
