import Verif.Spec.DriverSetup
import Verif.Lemmas.Connections
/-!
# Properties C151 and C152: variables a driver may use
-/
namespace OpenMDAO

theorem hasGradients_iff (m : DrvMode) : m.hasGradients = true ↔ m.UsesGradients := by
  unfold DrvMode.hasGradients DrvMode.UsesGradients
  cases m.derived <;> simp

theorem umeta_unique {unknowns : List (Str × UMeta)} (hn : (unknowns.map Prod.fst).Nodup) {n : Str} {u v : UMeta} (h1 : (n, u) ∈ unknowns) (h2 : (n, v) ∈ unknowns) : u = v :=
  (Prod.mk.inj (List.inj_on_of_nodup_map hn h1 h2 rfl)).2

theorem umeta_none {unknowns : List (Str × UMeta)} {n : Str} (h : unknowns.lookup n = none) (u : UMeta) : (n, u) ∉ unknowns := by
  intro hc
  have := (lookup_isSome_iff_mem_keys unknowns n).mpr (List.mem_map.mpr ⟨_, hc, rfl⟩)
  rw [h] at this
  cases this

theorem setupVar_ok (m : DrvMode) {unknowns : List (Str × UMeta)} (hn : (unknowns.map Prod.fst).Nodup) (b : Bool) (e : Str × Option (List Nat)) :
    match setupVar m unknowns b e with
    | .ok r => UsableVar m unknowns b e.1 ∧ SizeOf unknowns e r
    | .error er => ¬ UsableVar m unknowns b e.1 ∧ RefusedWith m unknowns b e.1 er := by
  unfold setupVar
  cases h : unknowns.lookup e.1 with
  | none =>
    have hno := umeta_none h
    exact ⟨fun ⟨u, hu, _⟩ => hno u hu, .inl ⟨hno, rfl⟩⟩
  | some u =>
    have hu := lookup_mem h
    simp only
    by_cases h1 : (b && !u.canset) = true
    · rw [if_pos h1]
      rw [Bool.and_eq_true, Bool.not_eq_true'] at h1
      refine ⟨?_, .inr ⟨u, hu, .inl ⟨h1.1, h1.2, rfl⟩⟩⟩
      rintro ⟨v, hv, hc, _⟩
      rw [umeta_unique hn hv hu, h1.2] at hc
      exact absurd (hc h1.1) (by simp)
    · rw [if_neg h1]
      have h1' : b = true → u.canset = true := by
        intro hb
        by_contra hc
        rw [Bool.not_eq_true] at hc
        exact h1 (by rw [hb, hc]; rfl)
      by_cases h2 : (m.mpi && u.distrib) = true
      · rw [if_pos h2]
        rw [Bool.and_eq_true] at h2
        refine ⟨?_, .inr ⟨u, hu, .inr (.inl ⟨h1', h2.1, h2.2, rfl⟩)⟩⟩
        rintro ⟨v, hv, _, hc, _⟩
        rw [umeta_unique hn hv hu] at hc
        exact hc h2
      · rw [if_neg h2]
        rw [Bool.and_eq_true] at h2
        by_cases h3 : (m.hasGradients && u.pbo) = true
        · rw [if_pos h3]
          rw [Bool.and_eq_true, hasGradients_iff] at h3
          refine ⟨?_, .inr ⟨u, hu, .inr (.inr ⟨h1', h2, h3.1, h3.2, rfl⟩)⟩⟩
          rintro ⟨v, hv, _, _, hc⟩
          rw [umeta_unique hn hv hu] at hc
          exact hc h3
        · rw [if_neg h3]
          rw [Bool.and_eq_true, hasGradients_iff] at h3
          refine ⟨⟨u, hu, h1', h2, h3⟩, rfl, ?_, ?_⟩
          · intro l hl; simp only [hl]; rfl
          · intro hl; exact ⟨u, hu, by simp only [hl]; rfl⟩

theorem setupVars_spec (m : DrvMode) {unknowns : List (Str × UMeta)} (hn : (unknowns.map Prod.fst).Nodup) (b : Bool) (l : List (Str × Option (List Nat))) :
    match l.mapM (setupVar m unknowns b) with
    | .ok r => (∀ e ∈ l, UsableVar m unknowns b e.1) ∧ List.Forall₂ (SizeOf unknowns) l r
    | .error er => ∃ pre e post, l = pre ++ e :: post ∧ (∀ x ∈ pre, UsableVar m unknowns b x.1) ∧ ¬ UsableVar m unknowns b e.1 ∧ RefusedWith m unknowns b e.1 er := by
  induction l with
  | nil => exact ⟨fun e he => (by cases he), .nil⟩
  | cons e l ih =>
    have h := setupVar_ok m hn b e
    rw [List.mapM_cons]
    cases hs : setupVar m unknowns b e with
    | error er =>
      rw [hs] at h
      exact ⟨[], e, l, rfl, fun x hx => (by cases hx), h.1, h.2⟩
    | ok r =>
      rw [hs] at h
      cases hl : l.mapM (setupVar m unknowns b) with
      | error er =>
        rw [hl] at ih
        obtain ⟨pre, x, post, h1, h2, h3⟩ := ih
        refine ⟨e :: pre, x, post, by rw [h1]; rfl, fun y hy => ?_, h3⟩
        rcases List.mem_cons.mp hy with rfl | hy
        · exact h.1
        · exact h2 y hy
      | ok rs =>
        rw [hl] at ih
        refine ⟨fun y hy => ?_, .cons h.2 ih.2⟩
        rcases List.mem_cons.mp hy with rfl | hy
        · exact h.1
        · exact ih.1 y hy

/-- C151. Setup succeeds exactly if every variable given to the driver may be used; it then stores the sizes. Otherwise the first one that may not be used, in the order design variables, objectives, constraints, decides the error. -/
theorem C151_setup (m : DrvMode) (unknowns : List (Str × UMeta)) (hn : (unknowns.map Prod.fst).Nodup) (d : DrvVars) :
    match driverSetup m unknowns d with
    | .ok r => (∀ e ∈ d.all, UsableVar m unknowns e.1 e.2) ∧ List.Forall₂ (SizeOf unknowns) d.desvars r.1 ∧ List.Forall₂ (SizeOf unknowns) d.objs r.2.1 ∧ List.Forall₂ (SizeOf unknowns) d.cons r.2.2
    | .error er => ∃ pre e post, d.all = pre ++ e :: post ∧ (∀ x ∈ pre, UsableVar m unknowns x.1 x.2) ∧ ¬ UsableVar m unknowns e.1 e.2 ∧ RefusedWith m unknowns e.1 e.2 er := by
  have h1 := setupVars_spec m hn true d.desvars
  have h2 := setupVars_spec m hn false d.objs
  have h3 := setupVars_spec m hn false d.cons
  unfold driverSetup DrvVars.all
  cases hd : d.desvars.mapM (setupVar m unknowns true) with
  | error er =>
    rw [hd] at h1
    obtain ⟨pre, e, post, a1, a2, a3, a4⟩ := h1
    refine ⟨pre.map (fun e => (true, e.1)), (true, e.1), post.map (fun e => (true, e.1)) ++ d.objs.map (fun e => (false, e.1)) ++ d.cons.map fun e => (false, e.1), by rw [a1]; simp, ?_, a3, a4⟩
    intro x hx
    obtain ⟨y, hy, rfl⟩ := List.mem_map.mp hx
    exact a2 y hy
  | ok dv =>
    rw [hd] at h1
    cases ho : d.objs.mapM (setupVar m unknowns false) with
    | error er =>
      rw [ho] at h2
      obtain ⟨pre, e, post, a1, a2, a3, a4⟩ := h2
      refine ⟨d.desvars.map (fun e => (true, e.1)) ++ pre.map (fun e => (false, e.1)), (false, e.1), post.map (fun e => (false, e.1)) ++ d.cons.map fun e => (false, e.1), by rw [a1]; simp, ?_, a3, a4⟩
      intro x hx
      rcases List.mem_append.mp hx with hx | hx
      · obtain ⟨y, hy, rfl⟩ := List.mem_map.mp hx
        exact h1.1 y hy
      · obtain ⟨y, hy, rfl⟩ := List.mem_map.mp hx
        exact a2 y hy
    | ok ob =>
      rw [ho] at h2
      cases hc : d.cons.mapM (setupVar m unknowns false) with
      | error er =>
        rw [hc] at h3
        obtain ⟨pre, e, post, a1, a2, a3, a4⟩ := h3
        refine ⟨d.desvars.map (fun e => (true, e.1)) ++ d.objs.map (fun e => (false, e.1)) ++ pre.map (fun e => (false, e.1)), (false, e.1), post.map fun e => (false, e.1), by rw [a1]; simp, ?_, a3, a4⟩
        intro x hx
        rcases List.mem_append.mp hx with hx | hx
        · rcases List.mem_append.mp hx with hx | hx
          · obtain ⟨y, hy, rfl⟩ := List.mem_map.mp hx
            exact h1.1 y hy
          · obtain ⟨y, hy, rfl⟩ := List.mem_map.mp hx
            exact h2.1 y hy
        · obtain ⟨y, hy, rfl⟩ := List.mem_map.mp hx
          exact a2 y hy
      | ok co =>
        rw [hc] at h3
        refine ⟨?_, h1.2, h2.2, h3.2⟩
        intro x hx
        rcases List.mem_append.mp hx with hx | hx
        · rcases List.mem_append.mp hx with hx | hx
          · obtain ⟨y, hy, rfl⟩ := List.mem_map.mp hx
            exact h1.1 y hy
          · obtain ⟨y, hy, rfl⟩ := List.mem_map.mp hx
            exact h2.1 y hy
        · obtain ⟨y, hy, rfl⟩ := List.mem_map.mp hx
          exact h3.1 y hy

/-- C152. The result: if the driver uses derivatives and the root's are not finite differences, all unknowns passed by object that are relevant to some variable of interest; without variables of interest, to the model. -/
theorem C152_result (m : DrvMode) (user : Bool) (unknowns : List (Str × UMeta)) (relevant : List (Option Str × List Str)) (v : Str) :
    v ∈ relevantPbos m user unknowns relevant ↔ m.UsesGradients ∧ user = true ∧ (∃ u, (v, u) ∈ unknowns ∧ u.pbo = true) ∧
      ∃ k s, (k, s) ∈ relevant ∧ v ∈ s ∧ (k = none → relevant.length = 1) := by
  have hrel : v ∈ allRelevant relevant ↔ ∃ k s, (k, s) ∈ relevant ∧ v ∈ s ∧ (k = none → relevant.length = 1) := by
    unfold allRelevant
    rw [List.mem_flatMap]
    constructor
    · rintro ⟨⟨k, s⟩, he, hv⟩
      split at hv
      · cases hv
      · rename_i hc
        refine ⟨k, s, he, hv, fun hk => ?_⟩
        have := List.length_pos_of_mem he
        have : ¬ 1 < relevant.length := fun h => hc ⟨hk, h⟩
        omega
    · rintro ⟨k, s, he, hv, hk⟩
      refine ⟨(k, s), he, ?_⟩
      rw [if_neg]
      · exact hv
      · rintro ⟨h1, h2⟩
        have := hk h1
        omega
  unfold relevantPbos DrvMode.UsesGradients
  by_cases h : (!m.derived || !m.gradients || !user) = true
  · rw [if_pos h]
    simp only [List.not_mem_nil, false_iff]
    rintro ⟨⟨h1, h2⟩, h3, _⟩
    rw [h1, h2, h3] at h
    exact absurd h (by decide)
  · rw [if_neg h]
    have hb : m.derived = true ∧ m.gradients = true ∧ user = true := by
      revert h
      cases m.derived <;> cases m.gradients <;> cases user <;> simp
    rw [← hrel]
    simp only [hb.1, hb.2.1, hb.2.2, true_and, List.mem_map, List.mem_filter, Bool.and_eq_true, decide_eq_true_eq]
    constructor
    · rintro ⟨⟨n, u⟩, ⟨h1, h2, h3⟩, rfl⟩
      exact ⟨⟨u, h1, h2⟩, h3⟩
    · rintro ⟨⟨u, h1, h2⟩, h3⟩
      exact ⟨(v, u), ⟨h1, h2, h3⟩, rfl⟩

/-- C152, the report, what holds: a connection is named exactly if the absolute name of its source is one of the variables and the absolute name of its target is relevant, that is, for variables that are not promoted. -/
theorem C152_report_partial (conns : List (Str × Str)) (rels pbos : List Str) (s t : Str) : (s, t) ∈ relevantConns conns rels pbos ↔ s ∈ pbos ∧ t ∈ rels ∧ (t, s) ∈ conns := by
  unfold relevantConns
  simp only [List.mem_flatMap, List.mem_map, List.mem_filter, decide_eq_true_eq]
  constructor
  · rintro ⟨src, h1, ⟨t', s'⟩, ⟨h2, h3, h4⟩, h5⟩
    cases h5
    simp only at h3
    subst h3
    exact ⟨h1, h4, h2⟩
  · rintro ⟨h1, h2, h3⟩
    exact ⟨s, h1, (t, s), ⟨h3, rfl, h2⟩, rfl⟩

/-- C152 refuted for the report: the text `x` that component `a` passes to component `b` is promoted by both. It is found to be relevant, but neither the connection nor the variable is named in the report. -/
theorem C152_report_refuted : relevantPbos ⟨false, true, true⟩ true [("x".toList, ⟨false, true, false, 0⟩), ("y".toList, ⟨false, false, false, 1⟩)] [(none, ["x".toList, "y".toList]), (some "y".toList, ["x".toList, "y".toList])] = ["x".toList] ∧
    pboLines [("b.x".toList, "a.x".toList)] ["x".toList, "y".toList] ["x".toList] = [] := by decide +kernel

/-! ## Examples -/

example : driverSetup ⟨false, true, true⟩ [("x".toList, ⟨true, false, false, 3⟩), ("f".toList, ⟨false, false, false, 5⟩)] ⟨[("x".toList, none)], [("f".toList, some [0])], []⟩ = .ok ([("x".toList, 3)], [("f".toList, 1)], []) := by rfl
example : driverSetup ⟨false, true, true⟩ [("x".toList, ⟨true, false, false, 3⟩), ("f".toList, ⟨false, false, false, 5⟩)] ⟨[("f".toList, none)], [("g".toList, some [0])], []⟩ = .error .RuntimeError := by rfl

end OpenMDAO
