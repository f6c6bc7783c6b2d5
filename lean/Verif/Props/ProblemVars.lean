import Verif.Spec.ProblemVars
import Verif.Props.Connections
import Mathlib.Data.List.Basic
/-!
# C95 to C97: variables of a problem

`ProbSt.get` and `ProbSt.set` are `prob[name]` and `prob[name] = value`; `PTree.recGet` is what the component that holds a param reads.
-/
namespace OpenMDAO
set_option linter.unusedSectionVars false

variable {K : Type}

/-! ## C95 -/

theorem recGet_recSet (t t' : PTree) (p : Path) (a : Nat) (h : t.recSet p a = .ok t') : t'.recGet p = .ok a ∧ ∀ q, q ≠ p → t'.recGet q = t.recGet q := by
  induction p generalizing t t' with
  | nil => cases t <;> simp [PTree.recSet] at h
  | cons x rest ih =>
    cases rest with
    | nil =>
      cases t with
      | group subs => simp [PTree.recSet] at h
      | comp ps =>
        simp only [PTree.recSet] at h
        split at h
        · simp only [Except.ok.injEq] at h
          subst h
          refine ⟨by simp [PTree.recGet, lookup_dictSet], ?_⟩
          intro q hq
          match q with
          | [] => rfl
          | [y] =>
            have : y ≠ x := fun h => hq (by rw [h])
            simp [PTree.recGet, lookup_dictSet, this]
          | _ :: _ :: _ => rfl
        · cases h
    | cons y rest =>
      cases t with
      | comp ps => simp [PTree.recSet] at h
      | group subs =>
        simp only [PTree.recSet] at h
        split at h
        · rename_i s hs
          split at h
          · rename_i s' hs'
            simp only [Except.ok.injEq] at h
            subst h
            obtain ⟨h1, h2⟩ := ih s s' hs'
            refine ⟨by simp [PTree.recGet, lookup_dictSet, h1], ?_⟩
            intro q hq
            match q with
            | [] => rfl
            | [_] => rfl
            | z :: w :: r =>
              by_cases hz : z = x
              · subst hz
                have : w :: r ≠ y :: rest := fun h => hq (by rw [h])
                simp [PTree.recGet, lookup_dictSet, hs, h2 _ this]
              · simp [PTree.recGet, lookup_dictSet, hz]
          · cases h
        · cases h

theorem recSet_ok (t : PTree) (p : Path) (a b : Nat) (h : t.recGet p = .ok b) : ∃ t', t.recSet p a = .ok t' := by
  induction p generalizing t with
  | nil => cases t <;> simp [PTree.recGet] at h
  | cons x rest ih =>
    cases rest with
    | nil =>
      cases t with
      | group subs => simp [PTree.recGet] at h
      | comp ps =>
        simp only [PTree.recGet] at h
        split at h
        · rename_i c hc
          exact ⟨.comp (dictSet ps x a), by simp only [PTree.recSet, hc]⟩
        · cases h
    | cons y rest =>
      cases t with
      | comp ps => simp [PTree.recGet] at h
      | group subs =>
        simp only [PTree.recGet] at h
        split at h
        · rename_i s hs
          obtain ⟨t', ht'⟩ := ih s h
          exact ⟨_, by simp only [PTree.recSet, hs, ht']; rfl⟩
        · cases h

theorem setParams_spec (split : String → Path) (a : Nat) (ps : List String) (t : PTree) (hv : ∀ p ∈ ps, ∃ b, t.recGet (split p) = .ok b) :
    ∃ t', ps.foldlM (setParamStep split a) t = .ok t' ∧ (∀ p ∈ ps, t'.recGet (split p) = .ok a) ∧ ∀ q, q ∉ ps.map split → t'.recGet q = t.recGet q := by
  induction ps generalizing t with
  | nil => exact ⟨t, rfl, by simp, fun _ _ => rfl⟩
  | cons p ps ih =>
    obtain ⟨b, hb⟩ := hv p List.mem_cons_self
    obtain ⟨t1, ht1⟩ := recSet_ok t (split p) a b hb
    obtain ⟨h1, h2⟩ := recGet_recSet t t1 _ a ht1
    obtain ⟨t2, h3, h4, h5⟩ := ih t1 (by
      intro q hq
      by_cases he : split q = split p
      · exact ⟨a, by rw [he]; exact h1⟩
      · rw [h2 _ he]; exact hv q (List.mem_cons_of_mem _ hq))
    refine ⟨t2, ?_, ?_, ?_⟩
    · rw [List.foldlM_cons]
      simp only [setParamStep, ht1, Bind.bind, Except.bind]
      exact h3
    · intro q hq
      rcases List.mem_cons.1 hq with rfl | hq
      · by_cases hm : split q ∈ ps.map split
        · obtain ⟨r, hr, he⟩ := List.mem_map.1 hm
          rw [← he]; exact h4 r hr
        · rw [h5 _ hm]; exact h1
      · exact h4 q hq
    · intro q hq
      simp only [List.map_cons, List.mem_cons, not_or] at hq
      rw [h5 q hq.2, h2 q hq.1]

/-- **C95, unknowns.** Assigning an array of the right size to an unknown succeeds, reads back, and changes no other unknown and no param. -/
theorem C95_unknown (split : String → Path) (st : ProbSt K) (name : String) (a : Nat) (old v : List K) (hu : st.unknowns.lookup name = some old) (hv : st.heap[a]? = some v) (hl : v.length = old.length) :
    ∃ st', st.set split name a = .ok st' ∧ st'.get split name = .ok v ∧ (∀ other, other ≠ name → st'.get split other = st.get split other) ∧ ∀ p, st'.tree.recGet p = st.tree.recGet p := by
  refine ⟨{ st with unknowns := dictSet st.unknowns name v }, ?_, ?_, ?_, fun _ => rfl⟩
  · simp [ProbSt.set, hu, hv, assignArr, hl]
  · simp [ProbSt.get, lookup_dictSet]
  · intro other ho
    simp only [ProbSt.get, lookup_dictSet, ho, if_false]

/-- **C95, sizes.** An array of another size is refused, except that a single entry is given to all. -/
theorem C95_unknown_size (split : String → Path) (st : ProbSt K) (name : String) (a : Nat) (old v : List K) (hu : st.unknowns.lookup name = some old) (hv : st.heap[a]? = some v) (hl : v.length ≠ old.length) :
    (v.length ≠ 1 ∧ st.set split name a = .error .ValueError) ∨
      ∃ x st', v = [x] ∧ st.set split name a = .ok st' ∧ st'.get split name = .ok (List.replicate old.length x) := by
  match v with
  | [] => left; simp only [ProbSt.set, hu, hv, assignArr, hl, if_false]; simp
  | [x] =>
    right
    refine ⟨x, { st with unknowns := dictSet st.unknowns name (old.map fun _ => x) }, rfl, ?_, ?_⟩
    · simp only [ProbSt.set, hu, hv, assignArr, hl, if_false]
    · simp [ProbSt.get, lookup_dictSet]
  | x :: y :: r => left; simp only [ProbSt.set, hu, hv, assignArr, hl, if_false]; simp

/-- **C95, unconnected inputs.** Assigning to an input that has no source reaches every input recorded under the name and nothing else, and reads back. -/
theorem C95_unconnected (split : String → Path) (st : ProbSt K) (name : String) (a : Nat) (ps : List String) (hu : st.unknowns.lookup name = none) (hd : st.dangling.lookup name = some ps)
    (hv : ∀ p ∈ ps, ∃ b, st.tree.recGet (split p) = .ok b) :
    ∃ st', st.set split name a = .ok st' ∧ (∀ p ∈ ps, st'.tree.recGet (split p) = .ok a) ∧ (∀ q, q ∉ ps.map split → st'.tree.recGet q = st.tree.recGet q) ∧ st'.unknowns = st.unknowns ∧
      ∀ p l v, st.rootParams.lookup name = none → st.toAbsP.lookup name = some (p :: l) → p ∈ ps → st.heap[a]? = some v → st'.get split name = .ok v := by
  obtain ⟨t', h1, h2, h3⟩ := setParams_spec split a ps st.tree hv
  refine ⟨{ st with tree := t' }, by simp only [ProbSt.set, hu, hd, h1], h2, h3, rfl, ?_⟩
  intro p l v hr ha hp hh
  simp only [ProbSt.get, hu, hr, ha, h2 p hp, hh]

/-- **C95, connected inputs and unknown names are refused** with `KeyError`. -/
theorem C95_refused (split : String → Path) (st : ProbSt K) (name : String) (a : Nat) (hu : st.unknowns.lookup name = none) (hd : st.dangling.lookup name = none) : st.set split name a = .error .KeyError := by
  simp only [ProbSt.set, hu, hd]

/-- A name that is neither an unknown nor an input cannot be read. -/
theorem C95_get_unknown_name (split : String → Path) (st : ProbSt K) (name : String) (hu : st.unknowns.lookup name = none) (hr : st.rootParams.lookup name = none) (ha : st.toAbsP.lookup name = none)
    (hd : st.dangling.lookup name = none) : st.get split name = .error .KeyError := by
  simp only [ProbSt.get, hu, hr, ha, hd]

/-- A name that is neither an unknown nor a param gives no value, even if it is the promoted name of an input without a source: `prob[name]` fails. -/
theorem C95_get_no_value (split : String → Path) (st : ProbSt K) (name : String) (hu : st.unknowns.lookup name = none) (hr : st.rootParams.lookup name = none) (ha : st.toAbsP.lookup name = none) : ∃ e, st.get split name = .error e := by
  simp only [ProbSt.get, hu, hr, ha]
  cases st.dangling.lookup name <;> exact ⟨_, rfl⟩

/-- **C95, an unknown is a copy**: changing the array afterwards has no effect on the problem. -/
theorem C95_unknown_is_copy (split : String → Path) (st st' : ProbSt K) (name : String) (a : Nat) (w : List K) (hu : (st.unknowns.lookup name).isSome) (h : st.set split name a = .ok st') :
    ({ st' with heap := st'.heap.set a w } : ProbSt K).get split name = st'.get split name := by
  obtain ⟨old, ho⟩ := Option.isSome_iff_exists.1 hu
  simp only [ProbSt.set, ho] at h
  split at h
  · cases h
  · split at h
    · simp only [Except.ok.injEq] at h
      subst h
      simp [ProbSt.get, lookup_dictSet]
    · cases h

section
variable {isUnk : String → Prop} {toAbsU : List (String × String)} {toAbsP : List (String × List String)} {explicit : ConnDict}
  {usrcs : List String} {toProm : String → String} {r : ConnResult}

/-- The table of unconnected inputs, for inputs that all hang on one `root` (see C16). -/
theorem dangling_is_group (hs : ConnSetting isUnk toAbsU toAbsP explicit usrcs) (h : setupConnections toAbsU toAbsP explicit toProm usrcs = .ok r) {root p : String}
    (hpar : ∃ pp ∈ toAbsP, p ∈ pp.2) (hroot : ∀ s, ¬ Joined toAbsU toAbsP explicit s root)
    (hall : ∀ q, Together toAbsU toAbsP explicit p q → Relation.ReflTransGen (Joined toAbsU toAbsP explicit) root q)
    (hfree : ∀ q, Together toAbsU toAbsP explicit p q → ¬ isUnk q) (hprom : ∀ q, toProm q = toProm p → Together toAbsU toAbsP explicit p q) :
    ∃ l, r.dangling.lookup (toProm p) = some l ∧ ∀ q, q ∈ l ↔ Together toAbsU toAbsP explicit p q := by
  obtain ⟨_, _, l, hl, _⟩ := C16_unconnected_reported_partial hs h hpar hroot hall hfree
  refine ⟨l, hl, ?_⟩
  obtain ⟨g, nc, st, hg, hedge, hn, hd1, hd2, hmem, hnd, rfl⟩ := setupConnections_inv hs h
  obtain ⟨⟨n, hn1, hn2⟩, root', hr', hq'⟩ := hd2.dang _ _ hl
  rw [hedge] at hq'
  have hp' := (hq' n).mp hn1
  have hrp : Relation.ReflTransGen (Joined toAbsU toAbsP explicit) root p := hall p (.refl _)
  have hpr : Together toAbsU toAbsP explicit p root := .symm _ _ (reflTransGen_eqvGen hrp)
  have heq : root' = root := by
    have := hall root' (.trans _ _ _ (hprom n hn2) (.symm _ _ (reflTransGen_eqvGen hp')))
    rcases Relation.ReflTransGen.cases_tail this with rfl | ⟨z, -, hz⟩
    · rfl
    · exact absurd ((hg.arcs z root').mpr hz) (hr' z)
  subst heq
  intro q
  rw [hq']
  exact ⟨fun hq => .trans _ _ _ hpr (reflTransGen_eqvGen hq), hall q⟩

/-- **C95, inputs connected with each other** (partial: all of them hang on one input that is not itself the target of a connection, see C16). Assigning to the promoted name of any of them gives the value to all of them and to no other input. -/
theorem C95_linked_inputs_partial (hs : ConnSetting isUnk toAbsU toAbsP explicit usrcs) (h : setupConnections toAbsU toAbsP explicit toProm usrcs = .ok r) {root p : String}
    (hpar : ∃ pp ∈ toAbsP, p ∈ pp.2) (hroot : ∀ s, ¬ Joined toAbsU toAbsP explicit s root)
    (hall : ∀ q, Together toAbsU toAbsP explicit p q → Relation.ReflTransGen (Joined toAbsU toAbsP explicit) root q)
    (hfree : ∀ q, Together toAbsU toAbsP explicit p q → ¬ isUnk q) (hprom : ∀ q, toProm q = toProm p → Together toAbsU toAbsP explicit p q)
    (split : String → Path) (hinj : Function.Injective split) (st : ProbSt K) (hd : st.dangling = r.dangling) (hu : st.unknowns.lookup (toProm p) = none)
    (hv : ∀ q, Together toAbsU toAbsP explicit p q → ∃ b, st.tree.recGet (split q) = .ok b) (a : Nat) :
    ∃ st', st.set split (toProm p) a = .ok st' ∧ (∀ q, Together toAbsU toAbsP explicit p q → st'.tree.recGet (split q) = .ok a) ∧
      ∀ q, ¬ Together toAbsU toAbsP explicit p q → st'.tree.recGet (split q) = st.tree.recGet (split q) := by
  obtain ⟨l, hl, hq⟩ := dangling_is_group hs h hpar hroot hall hfree hprom
  obtain ⟨st', h1, h2, h3, _⟩ := C95_unconnected split st (toProm p) a l hu (by rw [hd]; exact hl) fun q hm => hv q ((hq q).1 hm)
  refine ⟨st', h1, fun q hm => h2 q ((hq q).2 hm), fun q hm => h3 _ ?_⟩
  intro hc
  obtain ⟨q', hq1, hq2⟩ := List.mem_map.1 hc
  exact hm ((hq q).1 (by rw [← hinj hq2]; exact hq1))

end

/-- Names of the example. -/
def pvSplit (s : String) : Path := if s = "a.x" then ["a", "x"] else if s = "b.x" then ["b", "x"] else if s = "c.x" then ["c", "x"] else [s]

/-- A problem with the unknown `u` of two entries and the unconnected inputs `a.x`, `b.x` (both promoted as `x`) and `c.x`. -/
def pvSt : ProbSt Int :=
  { heap := [[0, 0], [1, 2], [5]], unknowns := [("u", [7, 8])], rootParams := [], toAbsP := [("x", ["a.x", "b.x"]), ("c.x", ["c.x"])], dangling := [("x", ["a.x", "b.x"]), ("c.x", ["c.x"])],
    tree := .group [("a", .comp [("x", 0)]), ("b", .comp [("x", 0)]), ("c", .comp [("x", 0)])] }

example : ∃ st', pvSt.set pvSplit "x" 1 = .ok st' ∧ st'.get pvSplit "x" = .ok [1, 2] ∧ st'.tree.recGet ["b", "x"] = .ok 1 ∧ st'.tree.recGet ["c", "x"] = .ok 0 := ⟨_, rfl, rfl, rfl, rfl⟩

example : ∃ st', pvSt.set pvSplit "u" 1 = .ok st' ∧ st'.get pvSplit "u" = .ok [1, 2] := ⟨_, rfl, rfl⟩

example : ∃ st', pvSt.set pvSplit "u" 2 = .ok st' ∧ st'.get pvSplit "u" = .ok [5, 5] := ⟨_, rfl, rfl⟩

/-- **C95, an unconnected input is not a copy**: the array given by the user is shared, so changing it later changes the problem. -/
theorem C95_input_is_copy_refuted : ∃ (st st' : ProbSt Int) (split : String → Path) (name : String) (a : Nat) (w : List Int), st.set split name a = .ok st' ∧
    ({ st' with heap := st'.heap.set a w } : ProbSt Int).get split name ≠ st'.get split name :=
  ⟨pvSt, _, pvSplit, "x", 1, [9, 9], rfl, by decide +kernel⟩

/-- **C95 is false for inputs that hang on two others**: `c.x` is connected from `a.x` and from `b.x`, so all three are one variable; assigning to `c.x` leaves `a.x` unchanged. -/
theorem C95_two_roots_refuted : ∃ (toAbsP : List (String × List String)) (explicit : ConnDict) (r : ConnResult) (st st' : ProbSt Int),
    ConnSetting (fun _ => False) [] toAbsP explicit [] ∧ setupConnections [] toAbsP explicit id [] = .ok r ∧ r.errors = [] ∧ st.dangling = r.dangling ∧
    Together [] toAbsP explicit "c.x" "a.x" ∧ st.set pvSplit "c.x" 1 = .ok st' ∧ st'.tree.recGet ["c", "x"] = .ok 1 ∧ st'.tree.recGet ["a", "x"] = .ok 0 := by
  refine ⟨[("a.x", ["a.x"]), ("b.x", ["b.x"]), ("c.x", ["c.x"])], [("c.x", [("a.x", none), ("b.x", none)])],
    { connections := [], errors := [], dangling := [("a.x", ["a.x", "c.x"]), ("c.x", ["b.x", "c.x"]), ("b.x", ["b.x", "c.x"])],
      inputInputs := [("a.x", ["a.x", "c.x"]), ("c.x", ["b.x", "c.x"]), ("b.x", ["b.x", "c.x"])] },
    { pvSt with dangling := [("a.x", ["a.x", "c.x"]), ("c.x", ["b.x", "c.x"]), ("b.x", ["b.x", "c.x"])] }, _,
    ⟨List.nodup_nil, by simp, by simp⟩, by decide +kernel, rfl, rfl, .symm _ _ (.rel _ _ (.inl ⟨none, _, List.mem_cons_self, by simp⟩)), rfl, rfl, rfl⟩

/-- **C95 is false for inputs connected in a circle**: they are inputs without a source, but cannot be assigned. -/
theorem C95_cycle_refuted : ∃ (toAbsP : List (String × List String)) (explicit : ConnDict) (r : ConnResult),
    ConnSetting (fun _ => False) [] toAbsP explicit [] ∧ setupConnections [] toAbsP explicit id [] = .ok r ∧ r.errors = [] ∧ (∃ pp ∈ toAbsP, "a.x" ∈ pp.2) ∧
    (∀ c, ("a.x", c) ∉ r.connections) ∧ ∀ (st : ProbSt Int) (split : String → Path) (a : Nat), st.dangling = r.dangling → st.unknowns.lookup "a.x" = none → st.set split "a.x" a = .error .KeyError := by
  refine ⟨[("a.x", ["a.x"]), ("b.x", ["b.x"])], [("a.x", [("b.x", none)]), ("b.x", [("a.x", none)])],
    { connections := [], errors := [], dangling := [], inputInputs := [] }, ⟨List.nodup_nil, by simp, by simp⟩, by decide +kernel, rfl,
    ⟨("a.x", ["a.x"]), by simp, by simp⟩, by simp, ?_⟩
  intro st split a hd hu
  exact C95_refused split st "a.x" a hu (by rw [hd]; rfl)

/-- Inputs of the example for linked inputs: `b.x` is connected from `a.x`. -/
def pvP : List (String × List String) := [("a.x", ["a.x"]), ("b.x", ["b.x"]), ("c.x", ["c.x"])]
def pvC : ConnDict := [("b.x", [("a.x", none)])]

theorem pv_joined (s t : String) : Joined [] pvP pvC s t ↔ s = "a.x" ∧ t = "b.x" := by
  constructor
  · rintro (⟨i, l, hl, hm⟩ | ⟨pp, hpp, ht, hu⟩ | ⟨pp, hpp, -, -, ht⟩)
    · simp only [pvC, List.mem_singleton, Prod.mk.injEq] at hl
      obtain ⟨rfl, rfl⟩ := hl
      simp at hm
      exact ⟨hm.1, rfl⟩
    · simp at hu
    · simp only [pvP, List.mem_cons, List.not_mem_nil, or_false] at hpp
      rcases hpp with rfl | rfl | rfl <;> simp at ht
  · rintro ⟨rfl, rfl⟩
    exact .inl ⟨none, _, List.mem_cons_self, by simp⟩

theorem pv_together (q : String) (h : Together [] pvP pvC "a.x" q) : q = "a.x" ∨ q = "b.x" := by
  have key : ∀ s t, Together [] pvP pvC s t → ((s = "a.x" ∨ s = "b.x") ↔ (t = "a.x" ∨ t = "b.x")) := by
    intro s t h
    induction h with
    | rel s t h => obtain ⟨rfl, rfl⟩ := (pv_joined s t).1 h; simp
    | refl => rfl
    | symm _ _ _ ih => exact ih.symm
    | trans _ _ _ _ _ ih1 ih2 => exact ih1.trans ih2
  exact (key _ _ h).1 (Or.inl rfl)

theorem pv_reach (q : String) (h : Together [] pvP pvC "a.x" q) : Relation.ReflTransGen (Joined [] pvP pvC) "a.x" q := by
  rcases pv_together q h with rfl | rfl
  · exact .refl
  · exact .single ((pv_joined _ _).2 ⟨rfl, rfl⟩)

/-- The hypotheses of `C95_linked_inputs_partial` hold in the example. -/
example : ∃ r, ConnSetting (fun _ => False) [] pvP pvC [] ∧ setupConnections [] pvP pvC id [] = .ok r ∧ (∃ pp ∈ pvP, "a.x" ∈ pp.2) ∧ (∀ s, ¬ Joined [] pvP pvC s "a.x") ∧
    (∀ q, Together [] pvP pvC "a.x" q → Relation.ReflTransGen (Joined [] pvP pvC) "a.x" q) ∧ (∀ q, id q = id "a.x" → Together [] pvP pvC "a.x" q) ∧
    (∀ q, Together [] pvP pvC "a.x" q → ∃ b, pvSt.tree.recGet (pvSplit q) = .ok b) ∧
    ∃ st', ({ pvSt with dangling := r.dangling } : ProbSt Int).set pvSplit "b.x" 2 = .ok st' ∧ st'.tree.recGet ["a", "x"] = .ok 2 ∧ st'.tree.recGet ["b", "x"] = .ok 2 ∧ st'.tree.recGet ["c", "x"] = .ok 0 := by
  refine ⟨{ connections := [], errors := [], dangling := [("a.x", ["a.x", "b.x"]), ("b.x", ["a.x", "b.x"]), ("c.x", ["c.x"])], inputInputs := [("a.x", ["a.x", "b.x"]), ("b.x", ["a.x", "b.x"]), ("c.x", ["c.x"])] }, ⟨List.nodup_nil, by simp, by simp⟩, by decide +kernel, ⟨_, List.mem_cons_self, by simp⟩, ?_, pv_reach, ?_, ?_, _, rfl, rfl, rfl, rfl⟩
  · intro s h
    have := ((pv_joined _ _).1 h).2
    revert this; decide
  · intro q h
    rw [show q = "a.x" from h]; exact .refl _
  · intro q h
    rcases pv_together q h with rfl | rfl <;> exact ⟨0, rfl⟩

/-! ## C96 -/

theorem Flt.eq_iff [DecidableEq K] (x y : Flt K) : Flt.eq x y = true ↔ x = y ∧ y.isnan = false := by
  cases x <;> cases y <;> simp [Flt.eq, Flt.isnan]

theorem zip_eq_iff [DecidableEq K] (d d' : List (Flt K)) (hl : d'.length = d.length) : (List.zipWith Flt.eq d' d).all id = true ↔ d = d' ∧ ∀ x ∈ d, x.isnan = false := by
  induction d generalizing d' with
  | nil => simp at hl; subst hl; simp
  | cons x d ih =>
    cases d' with
    | nil => simp at hl
    | cons y d' =>
      simp only [List.length_cons, Nat.add_right_cancel_iff] at hl
      rw [List.zipWith_cons_cons, List.all_cons, Bool.and_eq_true, ih d' hl, id, Flt.eq_iff]
      simp only [List.cons.injEq, List.mem_cons, forall_eq_or_imp]
      constructor
      · rintro ⟨⟨h1, h2⟩, h3, h4⟩; exact ⟨⟨h1.symm, h3⟩, h2, h4⟩
      · rintro ⟨⟨h1, h3⟩, h2, h4⟩; exact ⟨⟨h1.symm, h2⟩, h3, h4⟩

theorem differs_iff [DecidableEq K] (t v : InitVal K) (ht : t.WF) (hv : v.WF) : t.differs v = false ↔ t.Same v := by
  cases t with
  | arr s d =>
    cases v with
    | arr s' d' =>
      simp only [InitVal.differs, InitVal.Same, Bool.not_eq_false', Bool.and_eq_true, decide_eq_true_eq]
      simp only [InitVal.WF] at ht hv
      constructor
      · rintro ⟨h1, h2⟩
        subst h1
        exact ⟨rfl, (zip_eq_iff d d' (by rw [ht, hv])).1 h2⟩
      · rintro ⟨h1, h2⟩
        subst h1
        exact ⟨rfl, (zip_eq_iff d d' (by rw [ht, hv])).2 h2⟩
    | obj ty x => simp [InitVal.differs, InitVal.Same]
  | obj ty x =>
    cases v with
    | arr s' d' => simp [InitVal.differs, InitVal.Same]
    | obj ty' x' =>
      simp only [InitVal.differs, InitVal.Same, Bool.or_eq_false_iff, decide_eq_false_iff_not, ne_eq, Decidable.not_not, Bool.not_eq_false', Flt.eq_iff]
      constructor
      · rintro ⟨h1, h2, h3⟩; exact ⟨h1, h2.symm, h3⟩
      · rintro ⟨h1, h2, h3⟩; exact ⟨h1, h2.symm, h3⟩

theorem checkInputDiffs_nil [DecidableEq K] (units : String → Option String) (val : String → InitVal K) (ii : List (String × List String)) :
    checkInputDiffs units val ii = [] ↔ ∀ e ∈ ii, unitsDiff units e.1 e.2 = false ∧ ∀ n ∈ e.2, (val e.1).differs (val n) = false := by
  simp only [checkInputDiffs, List.flatMap_eq_nil_iff, diffStep, List.append_eq_nil_iff]
  refine forall₂_congr fun e _ => and_congr ?_ ?_
  · cases unitsDiff units e.1 e.2 <;> simp
  · cases h : e.2.any fun n => (val e.1).differs (val n)
    · simp only [Bool.false_eq_true, if_false, true_iff]
      rw [List.any_eq_false] at h
      intro n hn
      simpa using h n hn
    · simp only [if_true, List.cons_ne_nil, false_iff]
      rw [List.any_eq_true] at h
      obtain ⟨n, h1, h2⟩ := h
      intro hc
      rw [hc n h1] at h2
      cases h2

/-- **C96.** `setup` reports nothing about inputs connected with each other without a source exactly if in each set all units are equal (an input without units counts as different from one with units) and all initial values are the same and free of NaN. -/
theorem C96_no_errors_iff [DecidableEq K] (units : String → Option String) (val : String → InitVal K) (ii : List (String × List String)) (hg : Grouped ii) (hw : ∀ n, (val n).WF) :
    checkInputDiffs units val ii = [] ↔ ∀ e ∈ ii, ∀ n ∈ e.2, units n = units e.1 ∧ (val e.1).Same (val n) := by
  rw [checkInputDiffs_nil]
  constructor
  · intro h e he n hn
    refine ⟨?_, (differs_iff _ _ (hw _) (hw _)).1 ((h e he).2 n hn)⟩
    by_contra hc
    have h1 := (h e he).1
    simp only [unitsDiff, List.any_eq_false] at h1
    have h1 := h1 n hn
    simp only [ne_eq, hc, not_false_eq_true, decide_true, Bool.true_and, Bool.not_eq_true] at h1
    obtain ⟨l, hl, hm⟩ := (hg e he).2 n hn
    have h2 := (h _ hl).1
    simp only [unitsDiff, List.any_eq_false] at h2
    have h2 := h2 e.1 hm
    have hc' : ¬ units e.1 = units n := fun h => hc h.symm
    simp only [ne_eq, hc', not_false_eq_true, decide_true, Bool.true_and, Bool.not_eq_true] at h2
    rw [Option.isSome_eq_false_iff, Option.isNone_iff_eq_none] at h1 h2
    exact hc (by rw [h1, h2])
  · intro h e he
    refine ⟨?_, fun n hn => (differs_iff _ _ (hw _) (hw _)).2 (h e he n hn).2⟩
    simp only [unitsDiff, List.any_eq_false]
    intro n hn
    simp [(h e he n hn).1]

/-- **C96, values** (partial: no initial value is NaN): an error about initial values names exactly the inputs connected with an input of another initial value. -/
theorem C96_value_errors_partial [DecidableEq K] (units : String → Option String) (val : String → InitVal K) (ii : List (String × List String)) (hw : ∀ n, (val n).WF) (hnan : ∀ n, (val n).Same (val n)) (t : String) :
    DiffErr.vals t ∈ checkInputDiffs units val ii ↔ ∃ l, (t, l) ∈ ii ∧ ∃ n ∈ l, val n ≠ val t := by
  have hsame : ∀ n m, (val n).differs (val m) = false ↔ val m = val n := by
    intro n m
    rw [differs_iff _ _ (hw n) (hw m)]
    constructor
    · intro h
      revert h
      cases val n <;> cases val m <;> simp only [InitVal.Same, false_imp_iff]
      · rintro ⟨rfl, rfl, _⟩; rfl
      · rintro ⟨rfl, rfl, _⟩; rfl
    · intro h; rw [h]; exact hnan n
  simp only [checkInputDiffs, List.mem_flatMap, diffStep, List.mem_append]
  constructor
  · rintro ⟨⟨s, l⟩, he, h | h⟩
    · split at h <;> simp at h
    · split at h
      · rename_i hany
        simp only [List.mem_singleton, DiffErr.vals.injEq] at h
        subst h
        obtain ⟨n, h1, h2⟩ := List.any_eq_true.1 hany
        refine ⟨l, he, n, h1, fun hc => ?_⟩
        rw [(hsame t n).2 hc] at h2
        cases h2
      · simp at h
  · rintro ⟨l, he, n, h1, h2⟩
    refine ⟨(t, l), he, Or.inr ?_⟩
    rw [if_pos (List.any_eq_true.2 ⟨n, h1, ?_⟩)]
    · simp
    · cases hd : (val t).differs (val n)
      · exact absurd ((hsame t n).1 hd) h2
      · rfl

/-- **C96 is false with NaN**: a single unconnected input whose initial value is NaN is reported as having a different initial value. -/
theorem C96_nan_refuted : ∃ (val : String → InitVal Int), (∀ n, (val n).WF) ∧ DiffErr.vals "c.x" ∈ checkInputDiffs (fun _ => none) val [("c.x", ["c.x"])] :=
  ⟨fun _ => .obj "float" .nan, fun _ => trivial, by decide⟩

/-- **C96 against the comment in the code** ("units MUST match, unless one of them is None"): an input without units connected with one with units is reported. -/
theorem finding_none_units_reported : checkInputDiffs (K := Int) (fun n => if n = "a" then some "m" else none) (fun _ => .obj "float" (.fin 1)) [("a", ["a", "b"]), ("b", ["a", "b"])] = [DiffErr.units "b"] := by decide

/-- **C96 is false for inputs that hang on two others** (see C16): `a` and `b` are both connected to `x`, `a` has units, `b` and `x` have none. The list of `x` lacks `a`, so nothing is reported. -/
theorem C96_two_roots_refuted : ∃ (toAbsP : List (String × List String)) (explicit : ConnDict) (r : ConnResult) (units : String → Option String) (val : String → InitVal Int),
    ConnSetting (fun _ => False) [] toAbsP explicit [] ∧ setupConnections [] toAbsP explicit id [] = .ok r ∧ Together [] toAbsP explicit "a" "x" ∧ units "a" ≠ units "x" ∧ checkInputDiffs units val r.inputInputs = [] := by
  refine ⟨[("a", ["a"]), ("b", ["b"]), ("x", ["x"])], [("x", [("a", none), ("b", none)])],
    { connections := [], errors := [], dangling := [("a", ["a", "x"]), ("x", ["b", "x"]), ("b", ["b", "x"])],
      inputInputs := [("a", ["a", "x"]), ("x", ["b", "x"]), ("b", ["b", "x"])] }, fun n => if n = "a" then some "m" else none, fun _ => .obj "float" (.fin 1),
    ⟨List.nodup_nil, by simp, by simp⟩, by decide +kernel, .rel _ _ (.inl ⟨none, _, List.mem_cons_self, by simp⟩), by decide, by decide⟩

section
variable {isUnk : String → Prop} {toAbsU : List (String × String)} {toAbsP : List (String × List String)} {explicit : ConnDict}
  {usrcs : List String} {toProm : String → String} {r : ConnResult}

/-- **C96, end to end** (partial: the inputs all hang on one input, see C16, and are all params of the problem): if `setup` reports nothing, inputs connected with each other and without a source have the same units and the same initial value. -/
theorem C96_linked_inputs_partial [DecidableEq K] (hs : ConnSetting isUnk toAbsU toAbsP explicit usrcs) (h : setupConnections toAbsU toAbsP explicit toProm usrcs = .ok r) {root p : String}
    (hpar : ∀ q, Together toAbsU toAbsP explicit p q → ∃ pp ∈ toAbsP, q ∈ pp.2) (hroot : ∀ s, ¬ Joined toAbsU toAbsP explicit s root)
    (hall : ∀ q, Together toAbsU toAbsP explicit p q → Relation.ReflTransGen (Joined toAbsU toAbsP explicit) root q)
    (hfree : ∀ q, Together toAbsU toAbsP explicit p q → ¬ isUnk q) (units : String → Option String) (val : String → InitVal K) (hw : ∀ n, (val n).WF)
    (hno : checkInputDiffs units val r.inputInputs = []) (q : String) (hq : Together toAbsU toAbsP explicit p q) : units q = units p ∧ (val p).Same (val q) := by
  have hent : ∀ q, Together toAbsU toAbsP explicit p q → ∃ l, (q, l) ∈ r.inputInputs ∧ ∀ z, z ∈ l ↔ Together toAbsU toAbsP explicit p z := by
    intro q hq
    obtain ⟨_, ⟨l, h1, h2⟩, _⟩ := C16_unconnected_reported_partial hs h (p := q) (hpar q hq) hroot (fun z hz => hall z (.trans _ _ _ hq hz)) fun z hz => hfree z (.trans _ _ _ hq hz)
    exact ⟨l, lookup_mem h1, fun z => (h2 z).trans ⟨fun hz => .trans _ _ _ hq hz, fun hz => .trans _ _ _ (.symm _ _ hq) hz⟩⟩
  rw [checkInputDiffs_nil] at hno
  obtain ⟨lp, hlp, hp⟩ := hent p (.refl _)
  obtain ⟨lq, hlq, hq'⟩ := hent q hq
  have h1 := hno _ hlp
  have h2 := hno _ hlq
  refine ⟨?_, (differs_iff _ _ (hw _) (hw _)).1 (h1.2 q ((hp q).2 hq))⟩
  by_contra hc
  have h3 := h1.1
  have h4 := h2.1
  simp only [unitsDiff, List.any_eq_false] at h3 h4
  have h3 := h3 q ((hp q).2 hq)
  have h4 := h4 p ((hq' p).2 (.refl _))
  have hc' : ¬ units p = units q := fun h => hc h.symm
  simp only [ne_eq, hc, not_false_eq_true, decide_true, Bool.true_and, Bool.not_eq_true] at h3
  simp only [ne_eq, hc', not_false_eq_true, decide_true, Bool.true_and, Bool.not_eq_true] at h4
  rw [Option.isSome_eq_false_iff, Option.isNone_iff_eq_none] at h3 h4
  exact hc (by rw [h3, h4])

end

example : Grouped [("a", ["a", "b"]), ("b", ["a", "b"])] := by
  intro e he
  simp only [List.mem_cons, List.not_mem_nil, or_false] at he
  rcases he with rfl | rfl <;> simp

example : checkInputDiffs (K := Int) (fun _ => some "m") (fun n => .arr [2] [.fin 1, .fin (if n = "a" then 1 else 2)]) [("a", ["a", "b"]), ("b", ["a", "b"])] = [DiffErr.vals "a", DiffErr.vals "b"] := by decide

example : checkInputDiffs (K := Int) (fun _ => some "m") (fun _ => .arr [2] [.fin 1, .fin 1]) [("a", ["a", "b"]), ("b", ["a", "b"])] = [] := by decide

/-! ## C97 -/

theorem order_lookup (systems : List Path) (hn : systems.Nodup) (p : Path) :
    ((systems.zipIdx).foldl (fun d e => dictSet d e.1 e.2) ([] : List (Path × Nat))).lookup p = if p ∈ systems then some (systems.idxOf p) else none := by
  have key : ∀ (l : List Path) (k : Nat) (d : List (Path × Nat)), l.Nodup →
      ((l.zipIdx k).foldl (fun d e => dictSet d e.1 e.2) d).lookup p = if p ∈ l then some (k + l.idxOf p) else d.lookup p := by
    intro l
    induction l with
    | nil => intro k d _; rfl
    | cons x l ih =>
      intro k d hd
      rw [List.nodup_cons] at hd
      rw [List.zipIdx_cons, List.foldl_cons, ih _ _ hd.2]
      by_cases hx : p = x
      · subst hx
        simp [hd.1, lookup_dictSet]
      · have hx' : ¬ x = p := fun h => hx h.symm
        by_cases hp : p ∈ l
        · simp [hp, List.idxOf_cons, hx']; omega
        · simp [hp, hx, lookup_dictSet]
  have := key systems 0 [] hn
  simpa using this

theorem ownerIdx_spec (systems : List Path) (order : List (Path × Nat)) (ho : ∀ p, order.lookup p = if p ∈ systems then some (systems.idxOf p) else none) (v : Path) (n : Nat) (hn : n < v.length ∨ v.length = 0 ∧ n = 0)
    (hmax : ∀ sys ∈ systems, sys <+: v → sys.length < v.length → sys.length ≤ n) :
    (∃ sys, IsOwner systems v sys ∧ ownerIdx order v n = .ok (sys, systems.idxOf sys)) ∨ ((∀ sys, ¬ IsOwner systems v sys) ∧ ownerIdx order v n = .error .RuntimeError) := by
  induction n with
  | zero =>
    right
    refine ⟨fun sys h => ?_, rfl⟩
    have := hmax sys h.1 h.2.2.1 h.2.2.2.1
    exact h.2.1 (List.length_eq_zero_iff.1 (Nat.le_zero.1 this))
  | succ n ih =>
    have hlt : n + 1 < v.length := by omega
    simp only [ownerIdx, ho]
    have hlen : (v.take (n + 1)).length = n + 1 := by rw [List.length_take]; omega
    by_cases hm : v.take (n + 1) ∈ systems
    · left
      refine ⟨v.take (n + 1), ⟨hm, ?_, List.take_prefix _ _, by omega, fun sys' h1 h2 h3 => by rw [hlen]; exact hmax sys' h1 h2 h3⟩, by simp [hm]⟩
      intro h
      rw [h] at hlen
      simp at hlen
    · simp only [hm, if_false]
      refine ih (Or.inl (by omega)) fun sys h1 h2 h3 => ?_
      have h4 := hmax sys h1 h2 h3
      rcases Nat.lt_or_ge sys.length (n + 1) with h5 | h5
      · omega
      · have : sys.length = n + 1 := by omega
        rw [List.prefix_iff_eq_take, this] at h2
        exact absurd (h2 ▸ h1) hm

theorem owner_unique {systems : List Path} {v s s' : Path} (h : IsOwner systems v s) (h' : IsOwner systems v s') : s = s' := by
  have h1 := h.2.2.2.2 s' h'.1 h'.2.2.1 h'.2.2.2.1
  have h2 := h'.2.2.2.2 s h.1 h.2.2.1 h.2.2.2.1
  have h3 := List.prefix_iff_eq_take.1 h.2.2.1
  have h4 := List.prefix_iff_eq_take.1 h'.2.2.1
  rw [h3, h4, show s.length = s'.length by omega]

theorem ubc_fold (systems : List Path) (order : List (Path × Nat)) (ho : ∀ p, order.lookup p = if p ∈ systems then some (systems.idxOf p) else none) (conns : List (Path × Path)) (st : List Path × List Path) :
    match conns.foldlM (ubcStep order) st with
    | .ok r => (∀ c ∈ conns, (∃ s, IsOwner systems c.1 s) ∧ ∃ s, IsOwner systems c.2 s) ∧
        (∀ t, t ∈ r.1 ↔ t ∈ st.1 ∨ ∃ c ∈ conns, c.1 = t ∧ RunsLate systems c) ∧
        ∀ s, s ∈ r.2 ↔ s ∈ st.2 ∨ ∃ c ∈ conns, IsOwner systems c.1 s ∧ RunsLate systems c
    | .error e => e = .RuntimeError ∧ ∃ c ∈ conns, (∀ s, ¬ IsOwner systems c.1 s) ∨ ∀ s, ¬ IsOwner systems c.2 s := by
  induction conns generalizing st with
  | nil => simp [pure, Except.pure]
  | cons c conns ih =>
    rw [List.foldlM_cons]
    have hA := ownerIdx_spec systems order ho c.1 (c.1.length - 1) (by omega) (fun sys _ _ h => by omega)
    have hB := ownerIdx_spec systems order ho c.2 (c.2.length - 1) (by omega) (fun sys _ _ h => by omega)
    simp only [ubcStep]
    rcases hA with ⟨ts, hts, hA⟩ | ⟨hno, hA⟩
    · rcases hB with ⟨ss, hss, hB⟩ | ⟨hno, hB⟩
      · simp only [hA, hB]
        have hlate : RunsLate systems c ↔ systems.idxOf ts < systems.idxOf ss := by
          constructor
          · rintro ⟨ts', ss', h1, h2, h3⟩
            rw [owner_unique hts h1, owner_unique hss h2]; exact h3
          · intro h; exact ⟨ts, ss, hts, hss, h⟩
        by_cases hgt : systems.idxOf ss > systems.idxOf ts
        · rw [if_pos hgt]
          simp only [Bind.bind, Except.bind]
          have := ih (st.1 ++ [c.1], if ts ∈ st.2 then st.2 else st.2 ++ [ts])
          revert this
          cases conns.foldlM (ubcStep order) (st.1 ++ [c.1], if ts ∈ st.2 then st.2 else st.2 ++ [ts]) with
          | error e => rintro ⟨h1, c', h2, h3⟩; exact ⟨h1, c', List.mem_cons_of_mem _ h2, h3⟩
          | ok r =>
            rintro ⟨h1, h2, h3⟩
            refine ⟨?_, ?_, ?_⟩
            · intro c' hc'
              rcases List.mem_cons.1 hc' with rfl | hc'
              · exact ⟨⟨ts, hts⟩, ss, hss⟩
              · exact h1 c' hc'
            · intro t
              rw [h2]
              simp only [List.mem_append, List.mem_cons, List.not_mem_nil, or_false, exists_eq_or_imp]
              constructor
              · rintro ((h | h) | h)
                · exact Or.inl h
                · exact Or.inr (Or.inl ⟨h.symm, hlate.2 hgt⟩)
                · exact Or.inr (Or.inr h)
              · rintro (h | h | h)
                · exact Or.inl (Or.inl h)
                · exact Or.inl (Or.inr h.1.symm)
                · exact Or.inr h
            · intro s
              rw [h3]
              have hm : s ∈ (if ts ∈ st.2 then st.2 else st.2 ++ [ts]) ↔ s ∈ st.2 ∨ s = ts := by
                split
                · rename_i hin
                  constructor
                  · exact Or.inl
                  · rintro (h | rfl)
                    · exact h
                    · exact hin
                · simp
              rw [hm]
              simp only [List.mem_cons, exists_eq_or_imp]
              constructor
              · rintro ((h | h) | h)
                · exact Or.inl h
                · subst h; exact Or.inr (Or.inl ⟨hts, hlate.2 hgt⟩)
                · exact Or.inr (Or.inr h)
              · rintro (h | h | h)
                · exact Or.inl (Or.inl h)
                · exact Or.inl (Or.inr (owner_unique h.1 hts))
                · exact Or.inr h
        · rw [if_neg hgt]
          simp only [Bind.bind, Except.bind]
          have hnl : ¬ RunsLate systems c := fun h => hgt (hlate.1 h)
          have := ih st
          revert this
          cases conns.foldlM (ubcStep order) st with
          | error e => rintro ⟨h1, c', h2, h3⟩; exact ⟨h1, c', List.mem_cons_of_mem _ h2, h3⟩
          | ok r =>
            rintro ⟨h1, h2, h3⟩
            refine ⟨?_, ?_, ?_⟩
            · intro c' hc'
              rcases List.mem_cons.1 hc' with rfl | hc'
              · exact ⟨⟨ts, hts⟩, ss, hss⟩
              · exact h1 c' hc'
            · intro t; rw [h2]; simp [hnl]
            · intro s; rw [h3]; simp [hnl]
      · simp only [hA, hB, Bind.bind, Except.bind]
        exact ⟨trivial, c, List.mem_cons_self, Or.inr hno⟩
    · simp only [hA, Bind.bind, Except.bind]
      exact ⟨trivial, c, List.mem_cons_self, Or.inl hno⟩

/-- **C97.** The inputs reported as used before they are set, and the components rerun when residuals are evaluated, are exactly those with a connection from a system that runs later. -/
theorem C97_used_before_set (systems : List Path) (hn : systems.Nodup) (conns : List (Path × Path)) (ubcs comps : List Path) (h : getUbcVars systems conns = .ok (ubcs, comps)) :
    (∀ t, t ∈ ubcs ↔ ∃ s, (t, s) ∈ conns ∧ RunsLate systems (t, s)) ∧ ∀ c, c ∈ comps ↔ ∃ t s, (t, s) ∈ conns ∧ IsOwner systems t c ∧ RunsLate systems (t, s) := by
  have := ubc_fold systems _ (order_lookup systems hn) conns ([], [])
  unfold getUbcVars at h
  rw [h] at this
  obtain ⟨_, h2, h3⟩ := this
  constructor
  · intro t
    rw [h2]
    constructor
    · rintro (h | ⟨⟨t', s⟩, hc, rfl, hl⟩)
      · cases h
      · exact ⟨s, hc, hl⟩
    · rintro ⟨s, hc, hl⟩; exact Or.inr ⟨(t, s), hc, rfl, hl⟩
  · intro c
    rw [h3]
    constructor
    · rintro (h | ⟨⟨t, s⟩, hc, ho, hl⟩)
      · cases h
      · exact ⟨t, s, hc, ho, hl⟩
    · rintro ⟨t, s, hc, ho, hl⟩; exact Or.inr ⟨(t, s), hc, ho, hl⟩

/-- **C97, failure.** The computation fails exactly if a connected variable belongs to no system. -/
theorem C97_error_iff (systems : List Path) (hn : systems.Nodup) (conns : List (Path × Path)) :
    getUbcVars systems conns = .error .RuntimeError ↔ ∃ c ∈ conns, (∀ s, ¬ IsOwner systems c.1 s) ∨ ∀ s, ¬ IsOwner systems c.2 s := by
  have := ubc_fold systems _ (order_lookup systems hn) conns ([], [])
  unfold getUbcVars
  revert this
  cases conns.foldlM (ubcStep ((systems.zipIdx).foldl (fun d e => dictSet d e.1 e.2) [])) ([], []) with
  | ok r =>
    rintro ⟨h1, _⟩
    simp only [reduceCtorEq, false_iff]
    rintro ⟨c, hc, h | h⟩
    · obtain ⟨s, hs⟩ := (h1 c hc).1; exact h s hs
    · obtain ⟨s, hs⟩ := (h1 c hc).2; exact h s hs
  | error e =>
    rintro ⟨h1, h2⟩
    subst h1
    simp only [true_iff]
    exact h2

/-- **C97, in terms of the order of execution** (partial: no connection from a component to itself): an input is reported, and its component rerun, exactly if its source has not been computed when the component runs. -/
theorem C97_not_yet_run_partial (systems : List Path) (hn : systems.Nodup) (conns : List (Path × Path)) (ubcs comps : List Path) (h : getUbcVars systems conns = .ok (ubcs, comps))
    (hself : ∀ c ∈ conns, ∀ s, IsOwner systems c.1 s → ¬ IsOwner systems c.2 s) :
    (∀ t, t ∈ ubcs ↔ ∃ s, (t, s) ∈ conns ∧ NotYetRun systems (t, s)) ∧ ∀ c, c ∈ comps ↔ ∃ t s, (t, s) ∈ conns ∧ IsOwner systems t c ∧ NotYetRun systems (t, s) := by
  have key : ∀ c ∈ conns, RunsLate systems c ↔ NotYetRun systems c := by
    intro c hc
    constructor
    · rintro ⟨ts, ss, h1, h2, h3⟩; exact ⟨ts, ss, h1, h2, h3.le⟩
    · rintro ⟨ts, ss, h1, h2, h3⟩
      refine ⟨ts, ss, h1, h2, lt_of_le_of_ne h3 fun he => ?_⟩
      have := (List.idxOf_inj h1.1).1 he
      subst this
      exact hself c hc _ h1 h2
  obtain ⟨h1, h2⟩ := C97_used_before_set systems hn conns ubcs comps h
  constructor
  · intro t
    rw [h1]
    exact exists_congr fun s => and_congr_right fun hc => key _ hc
  · intro c
    rw [h2]
    exact exists_congr fun t => exists_congr fun s => and_congr_right fun hc => and_congr_right fun _ => key _ hc

/-- **C97 is false for a component connected to itself**: its input is used before it is set, but is not reported and the component is not rerun. -/
theorem C97_self_connection_refuted : ∃ (systems : List Path) (conns : List (Path × Path)), systems.Nodup ∧ (∃ c ∈ conns, NotYetRun systems c) ∧ getUbcVars systems conns = .ok ([], []) := by
  refine ⟨[["c"]], [(["c", "x"], ["c", "y"])], by decide, ⟨_, List.mem_cons_self, ["c"], ["c"], ?_, ?_, le_rfl⟩, by decide +kernel⟩ <;>
    exact ⟨by simp, by simp, ⟨_, rfl⟩, by simp, fun s hs _ _ => by simp at hs; subst hs; simp⟩

/-- Systems `g`, `g.a`, `g.b`, `d`; `g.a` reads from `g.b`, which runs later, and `d` from `g.a`. -/
example : getUbcVars [["g"], ["g", "a"], ["g", "b"], ["d"]] [(["g", "a", "x"], ["g", "b", "y"]), (["d", "x"], ["g", "a", "y"])] = .ok ([["g", "a", "x"]], [["g", "a"]]) := by decide +kernel

example : getUbcVars [["g"]] [(["h", "x"], ["g", "y"])] = .error .RuntimeError := by decide +kernel

end OpenMDAO
