import Verif.Lemmas.Recorder
import Verif.Lemmas.List
import Verif.Lemmas.FiniteDiff
/-!
# C42 to C46: what recorders write and what the reader finds
-/
namespace OpenMDAO
set_option linter.unusedSectionVars false

/-! ### C42 -/

theorem checkExcl_iff (fnm : Str → Str → Bool) (n : Str) (es : List Str) : checkExcl fnm n es = true ↔ ∀ e ∈ es, fnm n e = false := by
  induction es with
  | nil => simp [checkExcl]
  | cons e es ih =>
    simp only [checkExcl, List.forall_mem_cons]
    split_ifs with h
    · simp [h]
    · simp [h, ih]

theorem checkPath_iff (fnm : Str → Str → Bool) (n : Str) (es is : List Str) :
    checkPath fnm n es is = true ↔ (∃ i ∈ is, fnm n i = true) ∧ ∀ e ∈ es, fnm n e = false := by
  induction is with
  | nil => simp [checkPath]
  | cons i is ih =>
    simp only [checkPath]
    split_ifs with h
    · rw [checkExcl_iff]
      constructor
      · intro h2; exact ⟨⟨i, by simp, h⟩, h2⟩
      · exact fun h2 => h2.2
    · rw [ih]
      simp [h]

theorem mapM_vecItem {V : Type} (d : List (Str × V)) (names : List Str) (hn : ∀ n ∈ names, n ∈ d.map (·.1)) (hd : (d.map (·.1)).Nodup) :
    ∃ l, names.mapM (vecItem d) = .ok l ∧ l.map (·.1) = names ∧ ∀ x ∈ l, x ∈ d := by
  induction names with
  | nil => exact ⟨[], rfl, rfl, by simp⟩
  | cons n names ih =>
    obtain ⟨l, h1, h2, h3⟩ := ih (fun m hm => hn m (List.mem_cons_of_mem _ hm))
    obtain ⟨x, hx, rfl⟩ := List.mem_map.1 (hn n (by simp))
    have hl : d.lookup x.1 = some x.2 := by
      rw [lookup_eq_some_iff_of_nodup _ _ _ hd]; exact hx
    refine ⟨x :: l, ?_, by simp [h2], ?_⟩
    · rw [List.mapM_cons, h1]
      simp [vecItem, hl, bind, Except.bind, pure, Except.pure]
    · intro y hy
      rcases List.mem_cons.1 hy with rfl | hy
      · exact hx
      · exact h3 y hy

/-- what one vector writes for the names kept at startup -/
theorem filterVec_spec {V : Type} (fnm : Str → Str → Bool) (o : RecOpts) (d d' : List (Str × V)) (hk : d.map (·.1) = d'.map (·.1)) (hd : (d.map (·.1)).Nodup) :
    ∃ l, filterVec d ((d'.map (·.1)).filter fun n => checkPath fnm n o.excludes o.includes) = .ok l ∧
      l.map (·.1) = (d.map (·.1)).filter (fun n => checkPath fnm n o.excludes o.includes) ∧
      ∀ n x, (n, x) ∈ l ↔ (n, x) ∈ d ∧ Selected fnm o n := by
  rw [← hk]
  simp only [filterVec]
  split_ifs with h
  · rw [List.isEmpty_iff] at h
    subst h
    exact ⟨[], rfl, by simp, by simp⟩
  · obtain ⟨l, h1, h2, h3⟩ := mapM_vecItem d ((d.map (·.1)).filter fun n => checkPath fnm n o.excludes o.includes)
      (fun n hn => (List.mem_filter.1 hn).1) hd
    refine ⟨l, h1, h2, ?_⟩
    intro n x
    constructor
    · intro hm
      have : n ∈ l.map (·.1) := List.mem_map_of_mem (f := (·.1)) hm
      rw [h2, List.mem_filter, checkPath_iff] at this
      exact ⟨h3 _ hm, this.2⟩
    · rintro ⟨hm, hs⟩
      have : n ∈ l.map (·.1) := by
        rw [h2, List.mem_filter, checkPath_iff]
        exact ⟨List.mem_map_of_mem (f := (·.1)) hm, hs⟩
      obtain ⟨y, hy, rfl⟩ := List.mem_map.1 this
      have hl : d.lookup y.1 = some x := by rw [lookup_eq_some_iff_of_nodup _ _ _ hd]; exact hm
      have hl2 : d.lookup y.1 = some y.2 := by rw [lookup_eq_some_iff_of_nodup _ _ _ hd]; exact h3 y hy
      rw [hl] at hl2
      cases hl2
      exact hy

/-- What one vector contributes: nothing when it is switched off, otherwise the selected variables with the values they have now, in the order of the vector. -/
def WritesVec {V : Type} (fnm : Str → Str → Bool) (o : RecOpts) (on : Bool) (d : List (Str × V)) (w : Option (List (Str × V))) : Prop :=
  (on = false → w = none) ∧
  (on = true → ∃ l, w = some l ∧ (∀ n x, (n, x) ∈ l ↔ (n, x) ∈ d ∧ Selected fnm o n) ∧ (l.map (·.1)).Sublist (d.map (·.1)))

theorem recPart_spec {V : Type} (fnm : Str → Str → Bool) (o : RecOpts) (on : Bool) (d d' : List (Str × V)) (names : List Str)
    (hk : d.map (·.1) = d'.map (·.1)) (hd : (d.map (·.1)).Nodup)
    (hn : on = true → names = (d'.map (·.1)).filter fun n => checkPath fnm n o.excludes o.includes) :
    ∃ w, recPart on d names = .ok w ∧ WritesVec fnm o on d w := by
  simp only [recPart]
  split_ifs with h
  · rw [hn h]
    obtain ⟨l, h1, h2, h3⟩ := filterVec_spec fnm o d d' hk hd
    rw [h1]
    refine ⟨some l, rfl, by simp [h], fun _ => ⟨l, rfl, h3, ?_⟩⟩
    rw [h2]; exact List.filter_sublist
  · exact ⟨none, rfl, fun _ => rfl, fun h2 => absurd h2 h⟩

/-- **C42.** A recorder was started on a system with vectors `v₀` and is called, any number of solves later, for an iteration of that system with vectors `v` that hold the same variables. Then the call
succeeds and, for each of the three vectors that is switched on, writes exactly the variables of the vector whose name matches some include pattern and no exclude pattern, with their current values; a vector
that is switched off is not written. (`fnm` is pattern matching, about which nothing is assumed; residuals have the names of the unknowns.) -/
theorem C42_filter_exact {V : Type} (fnm : Str → Str → Bool) (o : RecOpts) (filtered : List (Str × Filt)) (c : Coord) (v₀ v : RecVecs V)
    (hstart : filtered.lookup (getPathname c) = some (recStartup fnm o v₀))
    (hp : v.params.map (·.1) = v₀.params.map (·.1)) (hu : v.unknowns.map (·.1) = v₀.unknowns.map (·.1))
    (hr : v.resids.map (·.1) = v.unknowns.map (·.1)) (hr₀ : v₀.resids.map (·.1) = v₀.unknowns.map (·.1))
    (np : (v.params.map (·.1)).Nodup) (nu : (v.unknowns.map (·.1)).Nodup) :
    ∃ d, recIteration o filtered c v = .ok d ∧ WritesVec fnm o o.recP v.params d.p ∧ WritesVec fnm o o.recU v.unknowns d.u ∧
      WritesVec fnm o o.recR v.resids d.r := by
  simp only [recIteration]
  split_ifs with h
  · rw [hstart]
    dsimp only
    obtain ⟨p, e1, w1⟩ := recPart_spec fnm o o.recP v.params v₀.params (recStartup fnm o v₀).p hp np (fun h => by simp [recStartup, h])
    obtain ⟨u, e2, w2⟩ := recPart_spec fnm o o.recU v.unknowns v₀.unknowns (recStartup fnm o v₀).u hu nu (fun h => by simp [recStartup, h])
    obtain ⟨r, e3, w3⟩ := recPart_spec fnm o o.recR v.resids v₀.unknowns (recStartup fnm o v₀).r (hr.trans hu) (hr ▸ nu) (fun h => by
      simp only [recStartup, h, if_true]
      split_ifs
      · rfl
      · rw [hr₀])
    rw [e1, e2, e3]
    exact ⟨⟨p, u, r⟩, rfl, w1, w2, w3⟩
  · simp only [Bool.or_eq_true, not_or, Bool.not_eq_true] at h
    refine ⟨_, rfl, ⟨fun _ => rfl, ?_⟩, ⟨fun _ => rfl, ?_⟩, ⟨fun _ => rfl, ?_⟩⟩
    · simp [h.1.1]
    · simp [h.1.2]
    · simp [h.2]

/-- The filter on one name, as a user reads the documentation. -/
theorem C42_name_selected (fnm : Str → Str → Bool) (n : Str) (excludes includes : List Str) :
    checkPath fnm n excludes includes = true ↔ (∃ i ∈ includes, fnm n i = true) ∧ ∀ e ∈ excludes, fnm n e = false :=
  checkPath_iff fnm n excludes includes

/-- Three unknowns of the root, pattern `x*` (matching by first letter), exclude `x2`: the hypotheses hold and exactly `x1` is written. -/
example :
    let fnm : Str → Str → Bool := fun n p => if p = ['x', '*'] then n.head? = some 'x' else n = p
    let o : RecOpts := ⟨false, true, true, false, [['x', '*']], [['x', '2']]⟩
    let v : RecVecs Nat := ⟨[(['p'], 1)], [(['x', '1'], 5), (['x', '2'], 6), (['y'], 7)], [(['x', '1'], 0), (['x', '2'], 0), (['y'], 3)]⟩
    recIteration o [([], recStartup fnm o v)] ⟨0, [(['D'], [1]), ("root".toList, [1])]⟩ v = .ok ⟨none, some [(['x', '1'], 5)], some [(['x', '1'], 0)]⟩ := by
  decide

/-! ### C43 -/

/-- **C43 (text form).** The text determines the coordinate, for all coordinates whose names have no bar and whose levels carry at least one number. -/
theorem C43_text_injective (a b : Coord) (ha : CoordOk a) (hb : CoordOk b) (h : formatCoord a = formatCoord b) : a = b := formatCoord_inj ha hb h

/-- Levels from number 2 on may have many numbers, and text forms of different tuples differ: (1,12) and (11,2). -/
example : CoordOk ⟨0, [(['D'], [1, 12])]⟩ ∧ CoordOk ⟨0, [(['D'], [11, 2])]⟩ ∧
    formatCoord ⟨0, [(['D'], [1, 12])]⟩ = "rank0:D|1-12".toList ∧ formatCoord ⟨0, [(['D'], [11, 2])]⟩ = "rank0:D|11-2".toList := by
  refine ⟨?_, ?_, by decide, by decide⟩ <;> simp [CoordOk]

theorem driverMeta (rank : Nat) (d : Str) (k : Nat) : updateMeta (createMeta rank none d) [k] = ⟨rank, [(d, [k])]⟩ := by
  simp [createMeta, updateMeta]

theorem driverRun_shape (rank : Nat) (d : Str) (hd : d ≠ []) : ∀ (ts : List (ETree × Bool)) (k : Nat), ∀ e ∈ driverRun rank d k ts,
    ∃ j rest, k ≤ j ∧ e.coord = ⟨rank, (d, [j]) :: rest⟩
  | [], _, e, he => by simp [driverRun] at he
  | (t, b) :: ts, k, e, he => by
    simp only [driverRun, driverMeta rank d, List.mem_append] at he
    rcases he with (he | he) | he
    · obtain ⟨kk, tup, rest, h⟩ := runGroup_shape t rank ⟨rank, [(d, [k])]⟩ [] e he
      exact ⟨k, (levLab ⟨rank, [(d, [k])]⟩ [] t.name kk, tup) :: rest, Nat.le_refl _, by simp [h]⟩
    · split_ifs at he
      · simp only [List.mem_singleton] at he
        subst he
        exact ⟨k, [], Nat.le_refl _, rfl⟩
      · simp at he
    · obtain ⟨j, rest, h1, h2⟩ := driverRun_shape rank d hd ts (k + 1) e he
      exact ⟨j, rest, by omega, h2⟩

theorem driverRun_nodup (rank : Nat) (d : Str) (hd : d ≠ []) : ∀ (ts : List (ETree × Bool)) (k : Nat), (∀ t ∈ ts, RootOk t.1) →
    ((driverRun rank d k ts).map (·.coord)).Nodup
  | [], _, _ => by simp [driverRun]
  | (t, b) :: ts, k, h => by
    simp only [driverRun, driverMeta rank d, List.map_append]
    have own : ∀ e ∈ (if b = true then [(⟨⟨rank, [(d, [k])]⟩, []⟩ : Event)] else []), e.coord = ⟨rank, [(d, [k])]⟩ := by
      intro e he; split_ifs at he
      · simp at he; rw [he]
      · simp at he
    rw [List.nodup_append', List.nodup_append']
    refine ⟨⟨runGroup_nodup t rank _ [] (.inr (h (t, b) (by simp))), by split_ifs <;> simp, ?_⟩,
      driverRun_nodup rank d hd ts (k + 1) (fun x hx => h x (List.mem_cons_of_mem _ hx)), ?_⟩
    · intro c h1 h2
      obtain ⟨e1, he1, rfl⟩ := List.mem_map.1 h1
      obtain ⟨e2, he2, h3⟩ := List.mem_map.1 h2
      obtain ⟨kk, tup, rest, h4⟩ := runGroup_shape t rank _ [] e1 he1
      rw [own e2 he2, h4] at h3
      simp at h3
    · intro c h1 h2
      obtain ⟨e2, he2, h3⟩ := List.mem_map.1 h2
      obtain ⟨j, rest, hj, h4⟩ := driverRun_shape rank d hd ts (k + 1) e2 he2
      rcases List.mem_append.1 h1 with h1 | h1
      · obtain ⟨e1, he1, rfl⟩ := List.mem_map.1 h1
        obtain ⟨kk, tup', rest', h6⟩ := runGroup_shape t rank _ [] e1 he1
        rw [h4, h6] at h3
        simp at h3
        omega
      · obtain ⟨e1, he1, rfl⟩ := List.mem_map.1 h1
        rw [h4, own e1 he1] at h3
        simp at h3
        omega

theorem driverRun_ok (rank : Nat) (d : Str) (hd : d ≠ []) (hb : '|' ∉ d) : ∀ (ts : List (ETree × Bool)) (k : Nat), (∀ t ∈ ts, RootOk t.1) →
    ∀ e ∈ driverRun rank d k ts, CoordOk e.coord
  | [], _, _, e, he => by simp [driverRun] at he
  | (t, b) :: ts, k, h, e, he => by
    simp only [driverRun, driverMeta rank d, List.mem_append] at he
    have ok : CoordOk ⟨rank, [(d, [k])]⟩ := by intro l hl; simp at hl; rw [hl]; exact ⟨hb, by simp⟩
    rcases he with (he | he) | he
    · exact runGroup_ok t rank _ [] (.inr (h (t, b) (by simp))) ok (by simp) e he
    · split_ifs at he
      · simp only [List.mem_singleton] at he
        subst he
        exact ok
      · simp at he
    · exact driverRun_ok rank d hd hb ts (k + 1) (fun x hx => h x (List.mem_cons_of_mem _ hx)) e he

/-- **C43 (keys), partial.** In one run of a driver all recorded iterations, of the driver and of the solvers at every depth, have pairwise different keys. Whatever the nesting, the kinds of solvers,
the numbers of iterations and of line search steps. Missing: runs of a group for finite differences, where the claim fails (`C43_fd_refuted`), and two runs of one problem into one file. -/
theorem C43_keys_distinct_partial (rank : Nat) (d : Str) (hd : d ≠ []) (hb : '|' ∉ d) (k : Nat) (ts : List (ETree × Bool)) (h : ∀ t ∈ ts, RootOk t.1) :
    ((driverRun rank d k ts).map fun e => formatCoord e.coord).Nodup := by
  have h1 := driverRun_nodup rank d hd ts k h
  have h2 := driverRun_ok rank d hd hb ts k h
  have e : (driverRun rank d k ts).map (fun e => formatCoord e.coord) = ((driverRun rank d k ts).map (·.coord)).map formatCoord := by simp
  rw [e]
  have hok : ∀ c ∈ (driverRun rank d k ts).map (·.coord), CoordOk c := by
    intro c hc
    obtain ⟨e, he, rfl⟩ := List.mem_map.1 hc
    exact h2 e he
  exact List.Nodup.map_on (fun x hx y hy hxy => formatCoord_inj (hok x hx) (hok y hy) hxy) h1

/-- A problem used below: the root iterates twice with Gauss-Seidel, below it the groups `a` (Newton with a line search) and `b`, and `c` in `b`. -/
def sampleTree : ETree :=
  .group [] .nlgs [sub, sub]
where sub : List ETree := [.group ['a'] (.newton [1]) [[], [], []], .group ['b'] (.runOnce 1) [[.group ['c'] .nlgs [[], []]]]]

theorem sampleTree_ok : RootOk sampleTree := by
  simp [RootOk, sampleTree, sampleTree.sub, StepsOk, SubsOk, ETree.Ok, GoodName, ETree.name]

example : (driverRun 0 ['D'] 1 [(sampleTree, true), (sampleTree, true)]).length = 26 ∧
    ((driverRun 0 ['D'] 1 [(sampleTree, true), (sampleTree, true)]).map fun e => formatCoord e.coord).Nodup :=
  ⟨by decide +kernel, C43_keys_distinct_partial 0 ['D'] (by simp) (by decide) 1 _ (by simp [sampleTree_ok])⟩

/-- **C43 (finite differences), refuted.** Every run of a group for a finite difference step starts a fresh coordinate: two runs record under the same keys. -/
theorem C43_fd_refuted : ¬ ∀ (rank : Nat) (chain : List (Str × Bool)) (ts : List ETree), (∀ t ∈ ts, t.Ok) → ((fdRuns rank chain ts).map fun e => formatCoord e.coord).Nodup := by
  intro h
  have := h 0 [([], true)] [.group ['g'] .nlgs [[]], .group ['g'] .nlgs [[]]] (by simp [ETree.Ok, GoodName, StepsOk, SubsOk])
  revert this
  decide +kernel

/-- Every finite-difference run of the same solve records the same keys again. -/
theorem C43_fd_repeats (rank : Nat) (chain : List (Str × Bool)) (t : ETree) (n : Nat) :
    fdRuns rank chain (List.replicate n t) = (List.replicate n (fdRuns rank chain [t])).flatten := by
  simp only [fdRuns, List.flatMap_replicate, List.flatMap_singleton]

/-! ### C44 -/

theorem count_join (ps : List Str) : (pyJoin '.' ps).count '.' = (ps.map (·.count '.')).sum + (ps.length - 1) := by
  induction ps with
  | nil => rfl
  | cons p ps ih =>
    cases ps with
    | nil => simp [pyJoin]
    | cons q ps =>
      simp only [pyJoin, List.count_append, List.count_cons, ih]
      simp
      omega

theorem names_count {xs : List (Str × Bool)} (h : ∀ x ∈ xs, GoodName x.1) : ((xs.map (·.1)).map (·.count '.')).sum = 0 := by
  induction xs with
  | nil => rfl
  | cons x xs ih =>
    simp only [List.map_cons, List.sum_cons, ih (fun y hy => h y (List.mem_cons_of_mem _ hy))]
    simpa using List.count_eq_zero.2 (h x (by simp)).2.1

/-- names from the second level on: no dot iff all solvers pass the bare name -/
theorem chainLabels_dots (rt : Str × Bool) : ∀ (xs pre : List (Str × Bool)), pre ≠ [] → (∀ x ∈ pre ++ xs, GoodName x.1) →
    (((chainLabels (rt :: pre) xs).map (·.count '.')).sum = 0 ↔ ∀ x ∈ xs, x.2 = true)
  | [], _, _, _ => by simp [chainLabels]
  | x :: xs, pre, hp, h => by
    have ih := chainLabels_dots rt xs (pre ++ [x]) (by simp) (by simpa using h)
    simp only [chainLabels, List.map_cons, List.sum_cons, Nat.add_eq_zero_iff, List.forall_mem_cons]
    rw [List.cons_append] 
    rw [ih]
    apply and_congr_left'
    have hx : GoodName x.1 := h x (by simp)
    constructor
    · intro h0
      by_contra hc
      rw [if_neg hc] at h0
      simp only [pathOf, List.tail_cons, count_join, List.length_map, List.length_append, List.length_singleton] at h0
      have : 0 < pre.length := List.length_pos_of_ne_nil hp
      omega
    · intro hc
      rw [if_pos hc]
      exact List.count_eq_zero.2 hx.2.1

theorem chainLabels_names : ∀ (xs pre : List (Str × Bool)), (∀ x ∈ xs, x.2 = true) → chainLabels pre xs = xs.map (·.1)
  | [], _, _ => rfl
  | x :: xs, pre, h => by
    simp only [chainLabels, h x (by simp), if_true, List.map_cons]
    rw [chainLabels_names xs _ (fun y hy => h y (List.mem_cons_of_mem _ hy))]

theorem chainLabels_length : ∀ (xs pre : List (Str × Bool)), (chainLabels pre xs).length = xs.length
  | [], _ => rfl
  | x :: xs, pre => by simp [chainLabels, chainLabels_length xs]

theorem labelled_pathname {d : Str} {e : Event} (h : Labelled d e) : getPathname e.coord = pathOf e.chain ↔ ∀ x ∈ e.chain.drop 2, x.2 = true := by
  obtain ⟨rt, xs, h1, h2, h3⟩ := h
  have h4 : (e.coord.levels.drop 2).map (·.1) = chainLabels [rt] xs := by
    rw [List.map_drop, h3]; rfl
  simp only [getPathname, h4, h1, pathOf, List.tail_cons, List.drop_succ_cons]
  rcases xs with _ | ⟨x, xs⟩
  · simp [chainLabels]
  · have hx1 : (if x.2 = true then x.1 else pathOf ([rt] ++ [x])) = x.1 := by
      split_ifs
      · rfl
      · simp [pathOf, pyJoin]
    simp only [chainLabels, hx1, List.map_cons]
    constructor
    · intro h
      have hc := congrArg (List.count '.') h
      rw [count_join, count_join, List.length_cons, List.length_cons, chainLabels_length, List.length_map] at hc
      have := names_count h2
      simp only [List.map_cons, List.sum_cons] at this hc
      refine (chainLabels_dots rt xs [x] (by simp) (by simpa using h2)).1 ?_
      simp only [List.cons_append, List.nil_append] at hc ⊢
      omega
    · intro h
      rw [chainLabels_names xs _ h]

theorem driverRun_labelled (rank : Nat) (d : Str) (hd : d ≠ []) : ∀ (ts : List (ETree × Bool)) (k : Nat), (∀ t ∈ ts, RootOk t.1) →
    ∀ e ∈ driverRun rank d k ts, Labelled d e ∨ (e.chain = [] ∧ ∃ j, e.coord = ⟨rank, [(d, [j])]⟩)
  | [], _, _, e, he => by simp [driverRun] at he
  | (t, b) :: ts, k, h, e, he => by
    simp only [driverRun, driverMeta rank d, List.mem_append] at he
    rcases he with (he | he) | he
    · exact .inl (rootGroup_labelled d t rank rank [k] (h (t, b) (by simp)) e he)
    · split_ifs at he
      · simp only [List.mem_singleton] at he
        subst he
        exact .inr ⟨rfl, k, rfl⟩
      · simp at he
    · exact driverRun_labelled rank d hd ts (k + 1) (fun x hx => h x (List.mem_cons_of_mem _ hx)) e he

/-- **C44, exact characterisation.** For a recorded iteration of a driver run the coordinate leads back to the system that recorded it if and only if every system on the way from the root, apart from the root and the
system directly below it, has the solver RunOnce. (`e.chain`: the systems from the root to the recording one, with the flag RunOnce; `pathOf`: the pathname, under which the filter was stored.) -/
theorem C44_pathname_iff (rank : Nat) (d : Str) (hd : d ≠ []) (k : Nat) (ts : List (ETree × Bool)) (h : ∀ t ∈ ts, RootOk t.1) :
    ∀ e ∈ driverRun rank d k ts, (getPathname e.coord = pathOf e.chain ↔ ∀ x ∈ e.chain.drop 2, x.2 = true) := by
  intro e he
  rcases driverRun_labelled rank d hd ts k h e he with h1 | ⟨h1, j, h2⟩
  · exact labelled_pathname h1
  · simp [h1, h2, getPathname, pathOf, pyJoin]

/-- **C44, partial.** As long as only the root and the groups directly below it have an iterative solver, recording finds the filter of the recording system. Missing: iterative solvers further down. -/
theorem C44_filter_found_partial (rank : Nat) (d : Str) (hd : d ≠ []) (k : Nat) (ts : List (ETree × Bool)) (h : ∀ t ∈ ts, RootOk t.1)
    (filtered : List (Str × Filt)) (f : Filt) :
    ∀ e ∈ driverRun rank d k ts, (∀ x ∈ e.chain.drop 2, x.2 = true) → filtered.lookup (pathOf e.chain) = some f →
      filtered.lookup (getPathname e.coord) = some f := by
  intro e he hx hf
  rw [(C44_pathname_iff rank d hd k ts h e he).2 hx, hf]

/-- **C44, refuted.** Gauss-Seidel in `c` inside `b`: the iteration of `b.c` is looked up as `b.b.c`, and recording raises KeyError although the recorder was started for the system. -/
theorem C44_filter_found_refuted : ∃ e ∈ driverRun 0 ['D'] 1 [(sampleTree, true)], pathOf e.chain = "b.c".toList ∧ getPathname e.coord = "b.b.c".toList ∧
    ∀ (o : RecOpts) (f : Filt) (v : RecVecs Nat), o.recU = true → recIteration o [(pathOf e.chain, f)] e.coord v = .error .KeyError := by
  refine ⟨⟨⟨0, [(['D'], [1]), ("root".toList, [1]), (['b'], [1]), ("b.c".toList, [1])]⟩, [([], false), (['b'], true), (['c'], false)]⟩, by decide +kernel, by decide, by decide, ?_⟩
  intro o f v ho
  simp only [recIteration, ho, Bool.or_true, Bool.true_or, if_true]
  rfl

/-- Finding: during finite differences the coordinate has a single level, so that the filter of the root is used for (or, if the root has none, KeyError is raised by) any group. -/
theorem finding_C44_fd (rank : Nat) (chain : List (Str × Bool)) (name : Str) (kind : SKind) :
    getPathname (createMeta rank none (levelName chain name kind)) = [] := by
  simp [createMeta, getPathname, pyJoin]

/-! ### C45 -/

/-- Calls for one system: the recorder was started on vectors `v₀` of that system, and every call passes vectors with the same variables. -/
def OneSystem {V D : Type} (fnm : Str → Str → Bool) (o : RecOpts) (filtered : List (Str × Filt)) (v₀ : RecVecs V) : RecOp V D → Prop
  | .iter c _ v => filtered.lookup (getPathname c) = some (recStartup fnm o v₀) ∧ v.params.map (·.1) = v₀.params.map (·.1) ∧
      v.unknowns.map (·.1) = v₀.unknowns.map (·.1) ∧ v.resids.map (·.1) = v₀.resids.map (·.1)
  | .derivs .. => True

/-- Calls that lead to a row. -/
def RecOp.written {V D : Type} (o : RecOpts) : RecOp V D → Bool
  | .iter .. => true
  | .derivs .. => o.recD

/-- The cell below a header entry: the value recorded for that name. -/
def CellUnder {V D : Type} (d : RecData V) (h : Str) (c : Cell V D) : Prop :=
  (∃ x, c = .val x ∧ ((h, x) ∈ d.p.getD [] ∨ (h, x) ∈ d.u.getD [] ∨ (h, x) ∈ d.r.getD [])) ∨ (h = "success".toList ∧ ∃ s, c = .flag s) ∨
    (h = "Derivatives".toList ∧ c = .empty)

/-- The row that a call must produce below the header `h`: as many cells as columns; an iteration has below every name the value that was recorded; derivatives stand below the last column,
which is called so, and between them and the flag all cells are empty. -/
def RowFor {V D : Type} (o : RecOpts) (filtered : List (Str × Filt)) (h : List Str) : RecOp V D → List (Cell V D) → Prop
  | .iter c s v, row => row.length = h.length ∧ row.head? = some (.flag s) ∧ ∃ d, recIteration o filtered c v = .ok d ∧ ∀ q ∈ h.zip row, CellUnder d q.1 q.2
  | .derivs _ s d, row => row.length = h.length ∧ h.getLast? = some "Derivatives".toList ∧ ∃ n, row = .flag s :: List.replicate n .empty ++ [.deriv d]

theorem csvRow_length {V D : Type} (o : RecOpts) (s : Nat) (d : RecData V) : (csvRow o s d : List (Cell V D)).length = (csvHeader o d).length := by
  simp only [csvRow, csvHeader, List.length_append, List.length_map]
  split_ifs <;> simp

theorem zip_map_mem {V D : Type} (l : List (Str × V)) : ∀ q ∈ (l.map (·.1)).zip (l.map fun x => (Cell.val x.2 : Cell V D)), ∃ x, q.2 = .val x ∧ (q.1, x) ∈ l := by
  induction l with
  | nil => simp
  | cons a l ih =>
    intro q hq
    simp only [List.map_cons, List.zip_cons_cons, List.mem_cons] at hq
    rcases hq with rfl | hq
    · exact ⟨a.2, rfl, by simp⟩
    · obtain ⟨x, h1, h2⟩ := ih q hq
      exact ⟨x, h1, List.mem_cons_of_mem _ h2⟩

theorem csvRow_cells {V D : Type} (o : RecOpts) (s : Nat) (d : RecData V) : ∀ q ∈ (csvHeader o d).zip (csvRow o s d : List (Cell V D)), CellUnder d q.1 q.2 := by
  intro q hq
  simp only [csvHeader, csvRow] at hq
  rw [List.zip_append (by simp), List.zip_append (by simp), List.zip_append (by simp), List.zip_append (by simp)] at hq
  simp only [List.mem_append] at hq
  rcases hq with (((hq | hq) | hq) | hq) | hq
  · simp at hq; subst hq; exact .inr (.inl ⟨rfl, s, rfl⟩)
  · obtain ⟨x, h1, h2⟩ := zip_map_mem _ q hq
    exact .inl ⟨x, h1, .inl h2⟩
  · obtain ⟨x, h1, h2⟩ := zip_map_mem _ q hq
    exact .inl ⟨x, h1, .inr (.inl h2)⟩
  · obtain ⟨x, h1, h2⟩ := zip_map_mem _ q hq
    exact .inl ⟨x, h1, .inr (.inr h2)⟩
  · split_ifs at hq
    · simp at hq; subst hq; exact .inr (.inr ⟨rfl, rfl⟩)
    · simp at hq

/-- names kept of a vector with given variable names -/
def keptNames (fnm : Str → Str → Bool) (o : RecOpts) (on : Bool) (names : List Str) : List Str :=
  if on then names.filter (fun n => checkPath fnm n o.excludes o.includes) else []

theorem recPart_names {V : Type} (fnm : Str → Str → Bool) (o : RecOpts) (on : Bool) (d d' : List (Str × V)) (names : List Str)
    (hk : d.map (·.1) = d'.map (·.1)) (hd : (d.map (·.1)).Nodup)
    (hn : on = true → names = (d'.map (·.1)).filter fun n => checkPath fnm n o.excludes o.includes) :
    ∃ w, recPart on d names = .ok w ∧ (w.getD []).map (·.1) = keptNames fnm o on (d'.map (·.1)) := by
  simp only [recPart, keptNames]
  split_ifs with h
  · rw [hn h]
    obtain ⟨l, h1, h2, h3⟩ := filterVec_spec fnm o d d' hk hd
    rw [h1]
    exact ⟨some l, rfl, by rw [← hk]; exact h2⟩
  · exact ⟨none, rfl, rfl⟩

/-- the header for a system -/
def sysHeader {V : Type} (fnm : Str → Str → Bool) (o : RecOpts) (v₀ : RecVecs V) : List Str :=
  ["success".toList] ++ keptNames fnm o o.recP (v₀.params.map (·.1)) ++ keptNames fnm o o.recU (v₀.unknowns.map (·.1)) ++
    keptNames fnm o o.recR (v₀.unknowns.map (·.1)) ++ if o.recD then ["Derivatives".toList] else []

theorem iter_header {V : Type} (fnm : Str → Str → Bool) (o : RecOpts) (filtered : List (Str × Filt)) (v₀ : RecVecs V)
    (hr₀ : v₀.resids.map (·.1) = v₀.unknowns.map (·.1)) (np : (v₀.params.map (·.1)).Nodup) (nu : (v₀.unknowns.map (·.1)).Nodup)
    (c : Coord) (v : RecVecs V) (h : filtered.lookup (getPathname c) = some (recStartup fnm o v₀)) (h1 : v.params.map (·.1) = v₀.params.map (·.1))
    (h2 : v.unknowns.map (·.1) = v₀.unknowns.map (·.1)) (h3 : v.resids.map (·.1) = v₀.resids.map (·.1)) :
    ∃ d, recIteration o filtered c v = .ok d ∧ csvHeader o d = sysHeader fnm o v₀ := by
  simp only [recIteration]
  split_ifs with h0
  · rw [h]
    dsimp only
    obtain ⟨p, e1, w1⟩ := recPart_names fnm o o.recP v.params v₀.params (recStartup fnm o v₀).p h1 (h1 ▸ np) (fun h => by simp [recStartup, h])
    obtain ⟨u, e2, w2⟩ := recPart_names fnm o o.recU v.unknowns v₀.unknowns (recStartup fnm o v₀).u h2 (h2 ▸ nu) (fun h => by simp [recStartup, h])
    obtain ⟨r, e3, w3⟩ := recPart_names fnm o o.recR v.resids v₀.unknowns (recStartup fnm o v₀).r (h3.trans hr₀) (by rw [h3, hr₀]; exact nu) (fun h => by
      simp only [recStartup, h, if_true]
      split_ifs
      · rfl
      · rw [hr₀])
    rw [e1, e2, e3]
    exact ⟨⟨p, u, r⟩, rfl, by simp only [csvHeader, sysHeader, w1, w2, w3]⟩
  · simp only [Bool.or_eq_true, not_or, Bool.not_eq_true] at h0
    refine ⟨⟨none, none, none⟩, rfl, ?_⟩
    simp only [csvHeader, sysHeader, keptNames, h0.1.1, h0.1.2, h0.2]
    rfl

theorem csvRun_ready {V D : Type} (fnm : Str → Str → Bool) (o : RecOpts) (filtered : List (Str × Filt)) (v₀ : RecVecs V)
    (hr₀ : v₀.resids.map (·.1) = v₀.unknowns.map (·.1)) (np : (v₀.params.map (·.1)).Nodup) (nu : (v₀.unknowns.map (·.1)).Nodup) :
    ∀ (ops : List (RecOp V D)) (s : CsvSt V D), (∀ op ∈ ops, OneSystem fnm o filtered v₀ op) → s.header = some (sysHeader fnm o v₀) →
      s.ncol = (sysHeader fnm o v₀).length →
      ∃ rows, ops.foldlM (csvStep o filtered) s = .ok ⟨some (sysHeader fnm o v₀), s.ncol, s.rows ++ rows⟩ ∧
        List.Forall₂ (RowFor o filtered (sysHeader fnm o v₀)) (ops.filter (RecOp.written o)) rows
  | [], s, _, h1, _ => ⟨[], by cases s; simp at h1; simp [h1, pure, Except.pure], by simp⟩
  | op :: ops, s, h, h1, h2 => by
    have hop := h op (by simp)
    have hrest : ∀ q ∈ ops, OneSystem fnm o filtered v₀ q := fun q hq => h q (List.mem_cons_of_mem _ hq)
    rw [List.foldlM_cons]
    cases op with
    | iter c suc v =>
      obtain ⟨d, e1, e2⟩ := iter_header fnm o filtered v₀ hr₀ np nu c v hop.1 hop.2.1 hop.2.2.1 hop.2.2.2
      obtain ⟨rows, e3, e4⟩ := csvRun_ready fnm o filtered v₀ hr₀ np nu ops (csvIter o s suc d) hrest (by simp [csvIter, h1]) (by simp [csvIter, h1, h2])
      refine ⟨csvRow o suc d :: rows, ?_, ?_⟩
      · simp only [csvStep, e1, bind, Except.bind]
        rw [e3]
        simp [csvIter, h1]
      · simp only [RecOp.written, List.filter_cons, if_true]
        refine List.Forall₂.cons ⟨?_, ?_, d, e1, ?_⟩ e4
        · rw [csvRow_length, e2]
        · simp [csvRow]
        · rw [← e2]; exact csvRow_cells o suc d
    | derivs c suc d =>
      by_cases hD : o.recD = true
      · obtain ⟨n, hn⟩ : ∃ n, s.ncol = n + 2 := by
          rw [h2]
          simp only [sysHeader, hD, if_true, List.length_append, List.length_singleton]
          exact ⟨(keptNames fnm o o.recP (v₀.params.map (·.1))).length + (keptNames fnm o o.recU (v₀.unknowns.map (·.1))).length +
            (keptNames fnm o o.recR (v₀.unknowns.map (·.1))).length, by omega⟩
        have hstep : csvStep o filtered s (.derivs c suc d) = .ok { s with rows := s.rows ++ [.flag suc :: List.replicate n .empty ++ [.deriv d]] } := by
          simp only [csvStep, hD, if_true, csvDerivs, hn]
          rfl
        obtain ⟨rows, e3, e4⟩ := csvRun_ready fnm o filtered v₀ hr₀ np nu ops { s with rows := s.rows ++ [.flag suc :: List.replicate n .empty ++ [.deriv d]] } hrest h1 h2
        refine ⟨(.flag suc :: List.replicate n .empty ++ [.deriv d]) :: rows, ?_, ?_⟩
        · simp only [hstep, bind, Except.bind]
          rw [e3]
          simp
        · simp only [RecOp.written, List.filter_cons, hD, if_true]
          refine List.Forall₂.cons ⟨?_, ?_, n, rfl⟩ e4
          · simp only [List.length_append, List.length_cons, List.length_replicate, List.length_nil]
            omega
          · simp only [sysHeader, hD, if_true]
            exact List.getLast?_concat
      · obtain ⟨rows, e3, e4⟩ := csvRun_ready fnm o filtered v₀ hr₀ np nu ops s hrest h1 h2
        refine ⟨rows, ?_, ?_⟩
        · simp only [csvStep, hD, bind, Except.bind]
          exact e3
        · simp only [RecOp.written, List.filter_cons, hD]
          exact e4

/-- **C45, partial.** All calls are for one system and the first is an iteration. Then recording succeeds and the file has one row for each call (derivatives only if they are switched on), in order, each with exactly the columns
of the header and each value below the name of its variable. Missing: several systems with one recorder and derivatives before the first iteration, where the claim fails. -/
theorem C45_rows_match_header_partial {V D : Type} (fnm : Str → Str → Bool) (o : RecOpts) (filtered : List (Str × Filt)) (v₀ : RecVecs V)
    (hr₀ : v₀.resids.map (·.1) = v₀.unknowns.map (·.1)) (np : (v₀.params.map (·.1)).Nodup) (nu : (v₀.unknowns.map (·.1)).Nodup)
    (c : Coord) (suc : Nat) (v : RecVecs V) (ops : List (RecOp V D)) (h : ∀ op ∈ RecOp.iter c suc v :: ops, OneSystem fnm o filtered v₀ op) :
    ∃ s hd, csvRun o filtered (RecOp.iter c suc v :: ops) = .ok s ∧ s.header = some hd ∧
      List.Forall₂ (RowFor o filtered hd) ((RecOp.iter c suc v :: ops).filter (RecOp.written o)) s.rows := by
  have h0 := h _ (List.mem_cons_self)
  obtain ⟨d, e1, e2⟩ := iter_header fnm o filtered v₀ hr₀ np nu c v h0.1 h0.2.1 h0.2.2.1 h0.2.2.2
  obtain ⟨rows, e3, e4⟩ := csvRun_ready fnm o filtered v₀ hr₀ np nu ops ⟨some (csvHeader o d), (csvHeader o d).length, [csvRow o suc d]⟩
    (fun q hq => h q (List.mem_cons_of_mem _ hq)) (by simp [e2]) (by simp [e2])
  refine ⟨⟨some (sysHeader fnm o v₀), (csvHeader o d).length, csvRow o suc d :: rows⟩, sysHeader fnm o v₀, ?_, rfl, ?_⟩
  · simp only [csvRun, List.foldlM_cons, csvStep, e1, bind, Except.bind]
    exact e3
  · simp only [RecOp.written, List.filter_cons, if_true]
    refine List.Forall₂.cons ⟨?_, ?_, d, e1, ?_⟩ e4
    · rw [csvRow_length, e2]
    · simp [csvRow]
    · rw [← e2]; exact csvRow_cells o suc d

/-- Sample: two unknowns of the root, two iterations and derivatives. -/
def csvSampleOpts : RecOpts := ⟨false, true, false, true, [['*']], []⟩
def csvSampleVecs (a b : Nat) : RecVecs Nat := ⟨[], [(['x'], a), (['y'], b)], [(['x'], 0), (['y'], 0)]⟩
def csvSampleFilt : List (Str × Filt) := [([], recStartup (fun _ _ => true) csvSampleOpts (csvSampleVecs 0 0))]

example : (∀ op ∈ ([.iter ⟨0, []⟩ 1 (csvSampleVecs 1 2), .derivs ⟨0, []⟩ 1 9, .iter ⟨0, []⟩ 1 (csvSampleVecs 3 4)] : List (RecOp Nat Nat)),
      OneSystem (fun _ _ => true) csvSampleOpts csvSampleFilt (csvSampleVecs 0 0) op) ∧
    csvRun csvSampleOpts csvSampleFilt ([.iter ⟨0, []⟩ 1 (csvSampleVecs 1 2), .derivs ⟨0, []⟩ 1 9, .iter ⟨0, []⟩ 1 (csvSampleVecs 3 4)] : List (RecOp Nat Nat)) =
      .ok ⟨some ["success".toList, ['x'], ['y'], "Derivatives".toList], 4,
        [[.flag 1, .val 1, .val 2, .empty], [.flag 1, .empty, .empty, .deriv 9], [.flag 1, .val 3, .val 4, .empty]]⟩ := by
  constructor
  · intro op hop
    simp only [List.mem_cons, List.not_mem_nil, or_false] at hop
    rcases hop with rfl | rfl | rfl
    · refine ⟨by decide, rfl, rfl, rfl⟩
    · trivial
    · refine ⟨by decide, rfl, rfl, rfl⟩
  · decide

/-- **C45, refuted.** A recorder on the root (two unknowns) and on the group `g` (one unknown): the header is that of the first iteration, the other rows do not have its columns. -/
theorem C45_rows_match_header_refuted : ∃ (o : RecOpts) (filtered : List (Str × Filt)) (ops : List (RecOp Nat Nat)) (s : CsvSt Nat Nat) (hd : List Str),
    csvRun o filtered ops = .ok s ∧ s.header = some hd ∧ ∃ row ∈ s.rows, row.length ≠ hd.length := by
  refine ⟨csvSampleOpts, ([([], ⟨[], [['x'], ['y']], []⟩), (['g'], ⟨[], [['y']], []⟩)]),
    [.iter ⟨0, [(['D'], [1]), ("root".toList, [1]), (['g'], [1])]⟩ 1 ⟨[], [(['y'], 2)], []⟩, .iter ⟨0, [(['D'], [1]), ("root".toList, [1])]⟩ 1 (csvSampleVecs 1 2)],
    ⟨some ["success".toList, ['y'], "Derivatives".toList], 3, [[.flag 1, .val 2, .empty], [.flag 1, .val 1, .val 2, .empty]]⟩,
    ["success".toList, ['y'], "Derivatives".toList], by decide, rfl, [.flag 1, .val 1, .val 2, .empty], by decide, by decide⟩

/-- **C45, refuted (derivatives first).** Derivatives recorded before the first iteration raise IndexError. -/
theorem C45_derivs_first_refuted {V D : Type} (o : RecOpts) (hD : o.recD = true) (filtered : List (Str × Filt)) (c : Coord) (s : Nat) (d : D) (ops : List (RecOp V D)) :
    csvRun o filtered (.derivs c s d :: ops) = .error .IndexError := by
  simp [csvRun, List.foldlM_cons, csvStep, hD, csvDerivs, bind, Except.bind]

/-! ### C46 -/

/-- The data an iteration call records under a key. -/
def iterFor {V D : Type} (o : RecOpts) (filtered : List (Str × Filt)) (key : Str) : RecOp V D → Option (Nat × RecData V)
  | .iter c s v => if formatCoord c = key then (recIteration o filtered c v).toOption.map fun d => (s, d) else none
  | .derivs .. => none

/-- The derivatives a call records under a key. -/
def derivFor {V D : Type} (o : RecOpts) (key : Str) : RecOp V D → Option (Nat × D)
  | .iter .. => none
  | .derivs c s d => if o.recD ∧ formatCoord c = key then some (s, d) else none

/-- Key of an iteration call. -/
def iterKey {V D : Type} : RecOp V D → Option Str
  | .iter c _ _ => some (formatCoord c)
  | .derivs .. => none

/-- Keys in the order of their last use. -/
def lastUse : List Str → List Str
  | [] => []
  | k :: ks => if k ∈ ks then lastUse ks else k :: lastUse ks

theorem lookup_replace {X : Type} (t : Table X) (k k' : Str) (x : X) : (t.replace k x).lookup k' = if k' = k then some x else t.lookup k' := by
  simp only [Table.replace]
  induction t with
  | nil =>
    simp only [List.filter_nil, List.nil_append, List.lookup]
    by_cases h : k' = k
    · simp [h]
    · rw [if_neg h, beq_eq_false_iff_ne.2 h]
  | cons e t ih =>
    obtain ⟨a, b⟩ := e
    by_cases ha : a = k
    · subst ha
      simp only [List.filter_cons, ne_eq, not_true, decide_false]
      rw [if_neg (by simp)]
      rw [ih]
      split_ifs with h
      · rfl
      · rw [List.lookup_cons, beq_eq_false_iff_ne.2 h]
    · simp only [List.filter_cons, ne_eq, ha, not_false_eq_true, decide_true, if_true, List.cons_append, List.lookup_cons]
      by_cases h : k' = a
      · subst h
        simp [ha]
      · rw [beq_eq_false_iff_ne.2 h]
        exact ih

theorem mem_lastUse (k : Str) (ks : List Str) : k ∈ lastUse ks ↔ k ∈ ks := by
  induction ks with
  | nil => simp [lastUse]
  | cons a ks ih =>
    simp only [lastUse]
    split_ifs with h
    · rw [ih]
      constructor
      · exact List.mem_cons_of_mem _
      · intro h2
        rcases List.mem_cons.1 h2 with rfl | h2
        · exact h
        · exact h2
    · simp [ih]

theorem lastUse_snoc (ks : List Str) (k : Str) : lastUse (ks ++ [k]) = (lastUse ks).filter (fun a => a ≠ k) ++ [k] := by
  induction ks with
  | nil => simp [lastUse]
  | cons a ks ih =>
    simp only [List.cons_append, lastUse, List.mem_append, List.mem_singleton]
    by_cases h1 : a ∈ ks
    · simp [h1, ih]
    · by_cases h2 : a = k
      · subst h2
        simp [h1, ih]
      · simp [h1, h2, ih]

/-- invariant of the file after any history -/
theorem sqlRun_spec {V D : Type} (o : RecOpts) (filtered : List (Str × Filt)) (ops : List (RecOp V D)) :
    ∀ f, sqlRun o filtered ops = .ok f →
      (∀ key, f.iterations.lookup key = ops.reverse.findSome? (iterFor o filtered key)) ∧
      (∀ key, f.derivs.lookup key = ops.reverse.findSome? (derivFor o key)) ∧
      f.iterations.map (·.1) = lastUse (ops.filterMap iterKey) := by
  induction ops using List.reverseRecOn with
  | nil =>
    intro f h
    simp only [sqlRun, List.foldlM_nil, pure, Except.pure, Except.ok.injEq] at h
    subst h
    simp [lastUse]
  | append_singleton ops op ih =>
    intro f h
    simp only [sqlRun, List.foldlM_append, bind, Except.bind] at h
    cases hf : ops.foldlM (sqlStep o filtered) (⟨[], []⟩ : SqlFile V D) with
    | error e => rw [hf] at h; simp at h
    | ok f0 =>
      rw [hf] at h
      simp only [List.foldlM_cons, List.foldlM_nil, bind, Except.bind] at h
      obtain ⟨i1, i2, i3⟩ := ih f0 hf
      cases op with
      | iter c s v =>
        simp only [sqlStep] at h
        cases hr : recIteration o filtered c v with
        | error e => simp [hr] at h
        | ok d =>
          simp only [hr, pure, Except.pure, Except.ok.injEq] at h
          subst h
          refine ⟨?_, ?_, ?_⟩
          · intro key
            dsimp only
            rw [lookup_replace, i1]
            simp only [List.reverse_append, List.reverse_cons, List.reverse_nil, List.nil_append, List.singleton_append, List.findSome?_cons, iterFor, hr]
            by_cases hk : key = formatCoord c
            · subst hk; simp [Except.toOption]
            · rw [if_neg hk, if_neg (fun e => hk e.symm)]
          · intro key
            simp only [i2, List.reverse_append, List.reverse_cons, List.reverse_nil, List.nil_append, List.singleton_append, List.findSome?_cons, derivFor]
          · simp only [Table.replace, List.map_append, List.map_cons, List.map_nil, List.filterMap_append, List.filterMap_cons, iterKey, List.filterMap_nil]
            rw [lastUse_snoc, ← i3, List.filter_map]
            rfl
      | derivs c s d =>
        by_cases hD : o.recD = true
        · simp only [sqlStep, hD, if_true, pure, Except.pure, Except.ok.injEq] at h
          subst h
          refine ⟨?_, ?_, ?_⟩
          · intro key
            simp only [i1, List.reverse_append, List.reverse_cons, List.reverse_nil, List.nil_append, List.singleton_append, List.findSome?_cons, iterFor]
          · intro key
            dsimp only
            rw [lookup_replace, i2]
            simp only [List.reverse_append, List.reverse_cons, List.reverse_nil, List.nil_append, List.singleton_append, List.findSome?_cons, derivFor, hD, true_and]
            by_cases hk : key = formatCoord c
            · subst hk; simp
            · rw [if_neg hk, if_neg (fun e => hk e.symm)]
          · rw [List.filterMap_append]
            simpa [List.filterMap_cons, iterKey] using i3
        · simp only [sqlStep, hD, pure, Except.pure] at h
          simp only [Bool.false_eq_true, if_false, Except.ok.injEq] at h
          subst h
          refine ⟨?_, ?_, ?_⟩
          · intro key
            simp only [i1, List.reverse_append, List.reverse_cons, List.reverse_nil, List.nil_append, List.singleton_append, List.findSome?_cons, iterFor]
          · intro key
            simp [i2, derivFor, hD]
          · rw [List.filterMap_append]
            simpa [List.filterMap_cons, iterKey] using i3

/-- **C46 (iterations).** After any history of calls, reading a case by its key gives the data recorded last under that key; a key that was never recorded raises KeyError.
Partial, because of the derivatives: they are read back only into the attribute `_derivs`; see `C46_derivs_refuted`. -/
theorem C46_last_recorded_partial {V D : Type} (o : RecOpts) (filtered : List (Str × Filt)) (ops : List (RecOp V D)) (f : SqlFile V D) (h : sqlRun o filtered ops = .ok f) (key : Str) :
    (ops.reverse.findSome? (iterFor o filtered key) = none → getCase f key = .error .KeyError) ∧
    (∀ s d, ops.reverse.findSome? (iterFor o filtered key) = some (s, d) →
      ∃ c, getCase f key = .ok c ∧ c.success = s ∧ c.data = d ∧ c.hiddenDerivs = (ops.reverse.findSome? (derivFor o key)).map (·.2)) := by
  obtain ⟨i1, i2, -⟩ := sqlRun_spec o filtered ops f h
  constructor
  · intro hn
    simp only [getCase, i1, hn]
  · intro s d hs
    simp only [getCase, i1, hs, i2]
    exact ⟨_, rfl, rfl, rfl, rfl⟩

/-- **C46 (by number).** `get_case(i)` reads the `i`-th of the recorded keys, counted from the end for negative numbers, where the keys are in the order in which they were recorded last;
a number outside raises IndexError. -/
theorem C46_by_number {V D : Type} (o : RecOpts) (filtered : List (Str × Filt)) (ops : List (RecOp V D)) (f : SqlFile V D) (h : sqlRun o filtered ops = .ok f) (i : Nat) :
    let keys := lastUse (ops.filterMap iterKey)
    (∀ k, keys[i]? = some k → getCaseAt f i = getCase f k ∧ getCaseAt f ((i : Int) - keys.length) = getCase f k) ∧
    (keys[i]? = none → getCaseAt f i = .error .IndexError ∧ getCaseAt f (-(i : Int) - 1) = .error .IndexError) := by
  intro keys
  have i3 : f.iterations.map (·.1) = keys := (sqlRun_spec o filtered ops f h).2.2
  have hlen : f.iterations.length = keys.length := by rw [← i3]; simp
  constructor
  · intro k hk
    have hk2 := hk
    rw [← i3, List.getElem?_map] at hk
    obtain ⟨e, he, rfl⟩ := Option.map_eq_some_iff.1 hk
    have hi : i < keys.length := (List.getElem?_eq_some_iff.1 hk2).1
    constructor
    · simp only [getCaseAt]
      rw [if_neg (by omega : ¬ ((i : Int) < 0))]
      rw [if_neg (by omega)]
      simp [he]
    · simp only [getCaseAt]
      rw [if_pos (by omega : ((i : Int) - keys.length < 0)), if_neg (by omega)]
      have : ((i : Int) - keys.length + f.iterations.length).toNat = i := by omega
      rw [this, he]
  · intro hk
    have hi : keys.length ≤ i := List.getElem?_eq_none_iff.1 hk
    constructor
    · simp only [getCaseAt]
      rw [if_neg (by omega : ¬ ((i : Int) < 0))]
      rw [if_neg (by omega)]
      have : f.iterations[(i : Int).toNat]? = none := List.getElem?_eq_none_iff.2 (by omega)
      rw [this]
    · simp only [getCaseAt]
      rw [if_pos (by omega : (-(i : Int) - 1 < 0)), if_pos (by omega)]

/-- **C46 (latest).** `get_case(-1)` returns the data of the most recent iteration. -/
theorem C46_latest {V D : Type} (o : RecOpts) (filtered : List (Str × Filt)) (pre : List (RecOp V D)) (c : Coord) (s : Nat) (v : RecVecs V) (post : List (RecOp V D))
    (hpost : post.filterMap iterKey = []) (f : SqlFile V D) (h : sqlRun o filtered (pre ++ .iter c s v :: post) = .ok f) :
    ∃ d case, recIteration o filtered c v = .ok d ∧ getCaseAt f (-1) = .ok case ∧ case.success = s ∧ case.data = d := by
  have hkeys : lastUse ((pre ++ .iter c s v :: post).filterMap iterKey) = (lastUse (pre.filterMap iterKey)).filter (fun a => a ≠ formatCoord c) ++ [formatCoord c] := by
    rw [List.filterMap_append, List.filterMap_cons]
    simp only [iterKey, hpost]
    exact lastUse_snoc _ _
  obtain ⟨d, hd⟩ : ∃ d, recIteration o filtered c v = .ok d := by
    simp only [sqlRun, List.foldlM_append, bind, Except.bind] at h
    cases hf : pre.foldlM (sqlStep o filtered) (⟨[], []⟩ : SqlFile V D) with
    | error e => rw [hf] at h; simp at h
    | ok f0 =>
      rw [hf] at h
      simp only [List.foldlM_cons, sqlStep, bind, Except.bind] at h
      cases hr : recIteration o filtered c v with
      | error e => simp [hr] at h
      | ok d => exact ⟨d, rfl⟩
  have hnum := (C46_by_number o filtered _ f h ((lastUse (pre.filterMap iterKey)).filter (fun a => a ≠ formatCoord c)).length).1 (formatCoord c) (by rw [hkeys]; simp)
  have hlast := hnum.2
  rw [hkeys] at hlast
  simp only [List.length_append, List.length_singleton] at hlast
  rw [show ((((lastUse (pre.filterMap iterKey)).filter (fun a => a ≠ formatCoord c)).length : Nat) : Int) -
    ((((lastUse (pre.filterMap iterKey)).filter (fun a => a ≠ formatCoord c)).length + 1 : Nat) : Int) = -1 by omega] at hlast
  have hp : post.reverse.findSome? (iterFor o filtered (formatCoord c)) = none := by
    rw [List.findSome?_eq_none_iff]
    intro op hop
    cases op with
    | derivs _ _ _ => rfl
    | iter c' s' v' =>
      exfalso
      have : formatCoord c' ∈ post.filterMap iterKey := List.mem_filterMap.2 ⟨_, List.mem_reverse.1 hop, rfl⟩
      rw [hpost] at this
      simp at this
  obtain ⟨case, h1, h2, h3, -⟩ := (C46_last_recorded_partial o filtered _ f h (formatCoord c)).2 s d (by
    simp only [List.reverse_append, List.reverse_cons, List.append_assoc, List.findSome?_append, hp]
    simp [iterFor, hd, Except.toOption])
  exact ⟨d, case, hd, by rw [hlast, h1], h2, h3⟩

/-- **C46 (derivatives), refuted.** The attribute `derivs` of a case that is read back is `None` for every history, also when derivatives were recorded under its key. -/
theorem C46_derivs_refuted : (∀ (f : SqlFile Nat Nat) (key : Str) (c : CaseObj Nat Nat), getCase f key = .ok c → c.derivs = none) ∧
    ∃ f, sqlRun csvSampleOpts csvSampleFilt [.iter ⟨0, []⟩ 1 (csvSampleVecs 1 2), .derivs ⟨0, []⟩ 1 (9 : Nat)] = .ok f ∧
      getCase f (formatCoord ⟨0, []⟩) = .ok ⟨1, ⟨none, some [(['x'], 1), (['y'], 2)], none⟩, none, some 9⟩ := by
  constructor
  · intro f key c h
    simp only [getCase] at h
    split at h
    · simp at h
    · simp only [Except.ok.injEq] at h
      rw [← h]
  · exact ⟨_, rfl, by decide⟩

/-- Three keys, the first recorded again at the end: the hypotheses of the theorems above hold, the order is by last use. -/
example : (sqlRun csvSampleOpts csvSampleFilt ([.iter ⟨0, [(['D'], [1])]⟩ 1 (csvSampleVecs 1 2), .iter ⟨0, [(['D'], [2])]⟩ 1 (csvSampleVecs 3 4),
    .iter ⟨0, [(['D'], [1])]⟩ 0 (csvSampleVecs 5 6)] : List (RecOp Nat Nat))).toOption.map (fun f => (f.iterations.map (·.1), (getCaseAt f (-1)).toOption.map (·.data.u))) =
    some (["rank0:D|2".toList, "rank0:D|1".toList], some (some [(['x'], 5), (['y'], 6)])) := by decide

end OpenMDAO
