import Verif.Lemmas.CheckPartials
import Mathlib.Algebra.Field.Rat
import Mathlib.Algebra.Order.BigOperators.Ring.Finset
/-! # C89 and C90: `check_partial_derivatives` -/
namespace OpenMDAO
set_option linter.unusedSectionVars false

section
variable {K : Type} [CommRing K]

theorem chk_lookup_of_mem_nodup (l : List (String × Nat)) (hn : (l.map Prod.fst).Nodup) (e : String × Nat) (he : e ∈ l) : l.lookup e.1 = some e.2 := by
  induction l with
  | nil => simp at he
  | cons b l ih =>
    obtain ⟨k, v⟩ := b
    simp only [List.map_cons, List.nodup_cons] at hn
    rcases List.mem_cons.1 he with h | h
    · subst h; simp
    · have : (e.1 == k) = false := by
        simp only [beq_eq_false_iff_ne]
        intro h2
        exact hn.1 (h2 ▸ List.mem_map_of_mem h)
      rw [List.lookup_cons, this]
      exact ih hn.2 h

theorem mem_of_lookup (l : List (String × Nat)) (n : String) (s : Nat) (h : l.lookup n = some s) : (n, s) ∈ l := by
  induction l with
  | nil => simp at h
  | cons b l ih =>
    obtain ⟨k, v⟩ := b
    rw [List.lookup_cons] at h
    by_cases hk : n = k
    · subst hk
      simp only [beq_self_eq_true] at h
      cases h
      simp
    · have : (n == k) = false := by simpa using hk
      rw [this] at h
      exact List.mem_cons_of_mem _ (ih h)

theorem dvDot_comm' (a b : DVec K) : dvDot a b = dvDot b a := by
  unfold dvDot
  rw [List.zipWith_comm]
  congr 1
  congr 1
  funext x y
  exact dot_comm' _ _

theorem chk_wf (c : LinComp K) (dp du : List (String × Nat)) (jac : List ((String × String) × Mat K)) (hc : c.Sound dp du jac) (hs : ShapesMatch jac c.states dp du) : (c.chk dp du).WellFormed where
  dpN := hc.params
  duN := hc.unknowns
  st := hc.states
  fwd := by
    intro xp xu hp hu
    obtain ⟨dr, h1, h2, _⟩ := jacFwd_fold c xp xu (zerosOf du) jac (zerosOf du) rfl (by rw [hp, layout_zerosOf]; exact hs) (by rw [hu, layout_zerosOf]; rfl)
    refine ⟨dr, ?_, h2.trans (layout_zerosOf du)⟩
    show applyLinearJacFwd c xp xu (zerosOf du) = _
    unfold applyLinearJacFwd
    rw [hc.supplied]
    exact h1
  rev := by
    intro dr hr
    obtain ⟨r, h1, h2, h3, _⟩ := jacRev_fold c dr (zerosOf dp) (zerosOf du) jac (zerosOf dp) (zerosOf du) rfl rfl (by rw [hr, layout_zerosOf]; exact hs) (by rw [hr, layout_zerosOf]; rfl)
    refine ⟨r.1, r.2, ?_, h2.trans (layout_zerosOf dp), h3.trans (layout_zerosOf du)⟩
    show applyLinearJacRev c dr (zerosOf dp) (zerosOf du) = _
    unfold applyLinearJacRev
    rw [hc.supplied]
    exact h1

theorem input_lookup (c : LinComp K) (dp du : List (String × Nat)) (jac : List ((String × String) × Mat K)) (hc : c.Sound dp du jac) (p : String) (m : Nat) :
    InputSize c dp du p m ↔ ((c.chk dp du).inputs p).lookup p = some m ∧ p ∈ (c.chk dp du).paramList := by
  show _ ↔ (if c.states.contains p then du else dp).lookup p = some m ∧ p ∈ dp.map Prod.fst ++ c.states
  constructor
  · rintro (⟨h1, h2⟩ | ⟨h1, h2⟩)
    · rw [if_pos (by simpa using h1)]
      exact ⟨chk_lookup_of_mem_nodup du hc.unknowns _ h2, by simp [h1]⟩
    · rw [if_neg (by simpa using h1)]
      exact ⟨chk_lookup_of_mem_nodup dp hc.params _ h2, List.mem_append_left _ (List.mem_map_of_mem (f := Prod.fst) h2)⟩
  · rintro ⟨h1, h2⟩
    by_cases hs : p ∈ c.states
    · rw [if_pos (by simpa using hs)] at h1
      exact Or.inl ⟨hs, mem_of_lookup _ _ _ h1⟩
    · rw [if_neg (by simpa using hs)] at h1
      exact Or.inr ⟨hs, mem_of_lookup _ _ _ h1⟩

theorem unitAt_isSome (f : String → Option K) (l : List (String × Nat)) (n : String) (s i : Nat) (h : l.lookup n = some s) : ((scaleBy f (unitAt l n i : DVec K)).lookup n).isSome := by
  rw [lookup_scaleBy, lookup_unitAt, h]
  rfl

theorem unitAt_isSome' (l : List (String × Nat)) (n : String) (s i : Nat) (h : l.lookup n = some s) : ((unitAt l n i : DVec K).lookup n).isSome := by
  rw [lookup_unitAt, h]
  rfl

theorem entries_expected (c : LinComp K) (dp du : List (String × Nat)) (jac : List ((String × String) × Mat K)) (hc : c.Sound dp du jac) (hs : ShapesMatch jac c.states dp du) (u p : String) (n m i j : Nat)
    (hu : du.lookup u = some n) (hp : (if p ∈ c.states then du else dp).lookup p = some m) (hi : i < n) (hj : j < m) (bp bu : DVec K)
    (hst : p ∈ c.states → bp.Peak p j 0 ∧ bu.Peak p j 1 ∧ (bu.lookup p).isSome) (hpa : p ∉ c.states → bu.Peak p j 0 ∧ bp.Peak p j ((c.unitFactor p).getD 1) ∧ (bp.lookup p).isSome) :
    (jac.map (entryTerm c (scaleBy c.residFactor (unitAt du u i)) bp bu)).sum = c.expected jac u p i j := by
  rw [sum_entries c jac hc.keys hc.noFilter _ bp bu u p i j ((c.residFactor u).getD 1) (if p ∈ c.states then 1 else (c.unitFactor p).getD 1) (peak_unit _ du u n i hu hi) (unitAt_isSome _ du u n i hu)
    (by intro h; rw [if_pos h]; exact hst h) (by intro h; rw [if_neg h]; exact hpa h) (by
      intro J hJ
      obtain ⟨h1, h2⟩ := hs _ hJ n m hu hp
      exact ⟨h1 ▸ hi, h2 ▸ hj⟩)]
  unfold LinComp.expected
  cases jac.lookup (u, p) with
  | none => rfl
  | some J =>
    simp only
    congr 1
    by_cases h1 : p ∈ c.states
    · simp [h1]
    · cases h2 : c.derivUnits
      · simp [h1, LinComp.unitFactor, h2]
      · simp [h1, LinComp.unitFactor, h2, hc.noFilter, chkFactor]

theorem fwdVal_expected (c : LinComp K) (dp du : List (String × Nat)) (jac : List ((String × String) × Mat K)) (hc : c.Sound dp du jac) (hs : ShapesMatch jac c.states dp du) (u p : String) (n m i j : Nat)
    (hu : du.lookup u = some n) (hp : (if p ∈ c.states then du else dp).lookup p = some m) (hi : i < n) (hj : j < m) : (c.chk dp du).fwdVal p j u i = c.expected jac u p i j := by
  obtain ⟨dr, h1, h2, h3⟩ := jacFwd_fold c (scaleBy c.unitFactor (if c.states.contains p then zerosOf dp else unitAt dp p j)) (if c.states.contains p then unitAt du p j else zerosOf du)
    (scaleBy c.residFactor (unitAt du u i)) jac (zerosOf du) (by rw [layout_scaleBy, layout_unitAt, layout_zerosOf])
    (by rw [layout_scaleBy, layout_zerosOf]; split <;> [rw [layout_zerosOf]; rw [layout_unitAt]] <;> exact hs) (by rw [layout_zerosOf]; split <;> [exact layout_unitAt _ _ _; exact layout_zerosOf _])
  unfold ChkComp.fwdVal
  have hr : (c.chk dp du).fwd (scaleBy (c.chk dp du).unitF (if (c.chk dp du).states.contains p then zerosOf (c.chk dp du).dp else unitAt (c.chk dp du).dp p j))
      (if (c.chk dp du).states.contains p then unitAt (c.chk dp du).du p j else zerosOf (c.chk dp du).du) (zerosOf (c.chk dp du).du) = .ok dr := by
    show applyLinearJacFwd c _ _ _ = _
    unfold applyLinearJacFwd
    rw [hc.supplied]
    exact h1
  rw [hr]
  show (scaleBy c.residFactor dr).valueAt u i = _
  rw [← dvDot_unitAt _ du (by rw [layout_scaleBy, h2, layout_zerosOf]), dvDot_comm', dvDot_scaleBy _ _ _ (by rw [layout_unitAt, h2, layout_zerosOf]), h3]
  have hz : dvDot (scaleBy c.residFactor (unitAt du u i)) (zerosOf du : DVec K) = 0 := by
    have := dvDot_zeroVec (scaleBy c.residFactor (unitAt du u i)) (zerosOf du : DVec K)
    rwa [← zerosOf_eq, layout_zerosOf] at this
  rw [hz, zero_add]
  refine entries_expected c dp du jac hc hs u p n m i j hu hp hi hj _ _ ?_ ?_
  · intro h
    have h' : c.states.contains p = true := by simpa using h
    rw [if_pos h] at hp
    simp only [h', if_true]
    exact ⟨peak_zeros _ _ _ _, peak_unit' du p m j hp hj, unitAt_isSome' du p m j hp⟩
  · intro h
    have h' : ¬ c.states.contains p = true := by simpa using h
    rw [if_neg h] at hp
    simp only [h']
    exact ⟨peak_zeros' _ _ _, peak_unit _ dp p m j hp hj, unitAt_isSome _ dp p m j hp⟩

theorem revVal_expected (c : LinComp K) (dp du : List (String × Nat)) (jac : List ((String × String) × Mat K)) (hc : c.Sound dp du jac) (hs : ShapesMatch jac c.states dp du) (u p : String) (n m i j : Nat)
    (hu : du.lookup u = some n) (hp : (if p ∈ c.states then du else dp).lookup p = some m) (hi : i < n) (hj : j < m) : (c.chk dp du).revVal u i p j = c.expected jac u p i j := by
  have key : ∀ bp bu : DVec K, bp.layout = dp → bu.layout = du →
      ∃ r, jac.foldlM (jacStepRev c (scaleBy c.residFactor (unitAt du u i))) (zerosOf dp, zerosOf du) = .ok r ∧ r.1.layout = dp ∧ r.2.layout = du ∧
        dvDot bp r.1 + dvDot bu r.2 = (jac.map (entryTerm c (scaleBy c.residFactor (unitAt du u i)) bp bu)).sum := by
    intro bp bu hbp hbu
    obtain ⟨r, h1, h2, h3, h4⟩ := jacRev_fold c (scaleBy c.residFactor (unitAt du u i)) bp bu jac (zerosOf dp) (zerosOf du) (by rw [hbp, layout_zerosOf]) (by rw [hbu, layout_zerosOf])
      (by rw [layout_scaleBy, layout_unitAt, layout_zerosOf]; exact hs) (by rw [layout_scaleBy, layout_unitAt, layout_zerosOf])
    refine ⟨r, h1, h2.trans (layout_zerosOf _), h3.trans (layout_zerosOf _), ?_⟩
    rw [h4]
    have hz : ∀ (b : DVec K) (l : List (String × Nat)), dvDot b (zerosOf l : DVec K) = 0 := by
      intro b l
      have := dvDot_zeroVec b (zerosOf l : DVec K)
      rwa [← zerosOf_eq, layout_zerosOf] at this
    rw [hz, hz]
    simp
  have hz : ∀ (b : DVec K) (l : List (String × Nat)), dvDot (zerosOf l : DVec K) b = 0 := by
    intro b l
    rw [dvDot_comm']
    have := dvDot_zeroVec b (zerosOf l : DVec K)
    rwa [← zerosOf_eq, layout_zerosOf] at this
  have hrun : ∀ r, jac.foldlM (jacStepRev c (scaleBy c.residFactor (unitAt du u i))) (zerosOf dp, zerosOf du) = .ok r →
      (c.chk dp du).revVal u i p j = (if c.states.contains p then r.2 else scaleBy c.unitFactor r.1).valueAt p j := by
    intro r h1
    unfold ChkComp.revVal
    have hr : (c.chk dp du).rev (zerosOf (c.chk dp du).dp) (zerosOf (c.chk dp du).du) (scaleBy (c.chk dp du).residF (unitAt (c.chk dp du).du u i)) = .ok (r.1, r.2) := by
      show applyLinearJacRev c _ _ _ = _
      unfold applyLinearJacRev
      rw [hc.supplied]
      exact h1
    rw [hr]
    rfl
  by_cases hst : p ∈ c.states
  · have h' : c.states.contains p = true := by simpa using hst
    obtain ⟨r, h1, h2, h3, h4⟩ := key (zerosOf dp) (unitAt du p j) (layout_zerosOf _) (layout_unitAt _ _ _)
    rw [hrun r h1, if_pos h', ← dvDot_unitAt _ du h3, dvDot_comm']
    rw [hz, zero_add] at h4
    rw [h4]
    have hp' := hp
    rw [if_pos hst] at hp'
    exact entries_expected c dp du jac hc hs u p n m i j hu hp hi hj _ _ (fun _ => ⟨peak_zeros' _ _ _, peak_unit' du p m j hp' hj, unitAt_isSome' du p m j hp'⟩) (fun h => absurd hst h)
  · have h' : ¬ c.states.contains p = true := by simpa using hst
    obtain ⟨r, h1, h2, h3, h4⟩ := key (scaleBy c.unitFactor (unitAt dp p j)) (zerosOf du) (by rw [layout_scaleBy, layout_unitAt]) (layout_zerosOf _)
    rw [hrun r h1, if_neg h', ← dvDot_unitAt _ dp (by rw [layout_scaleBy, h2]), dvDot_comm', dvDot_scaleBy _ _ _ (by rw [layout_unitAt, h2])]
    rw [hz, add_zero] at h4
    rw [h4]
    have hp' := hp
    rw [if_neg hst] at hp'
    exact entries_expected c dp du jac hc hs u p n m i j hu hp hi hj _ _ (fun h => absurd h hst) (fun _ => ⟨peak_zeros' _ _ _, peak_unit _ dp p m j hp' hj, unitAt_isSome _ dp p m j hp'⟩)

theorem shapes_lookup (jac : List ((String × String) × Mat K)) (k : String × String) : ((jac.map fun e => (e.1, [e.2.m, e.2.n])).lookup k : Option (List Nat)) = (jac.lookup k).map fun J => [J.m, J.n] := by
  induction jac with
  | nil => rfl
  | cons e jac ih =>
    obtain ⟨q, J⟩ := e
    simp only [List.map_cons, List.lookup_cons]
    cases k == q
    · exact ih
    · rfl

theorem jmem_of_lookup (jac : List ((String × String) × Mat K)) (k : String × String) (J : Mat K) (h : jac.lookup k = some J) : (k, J) ∈ jac := by
  induction jac with
  | nil => simp at h
  | cons b l ih =>
    obtain ⟨q, v⟩ := b
    rw [List.lookup_cons] at h
    by_cases hk : k = q
    · subst hk
      simp only [beq_self_eq_true] at h
      cases h
      simp
    · have : (k == q) = false := by simpa using hk
      rw [this] at h
      exact List.mem_cons_of_mem _ (ih h)

theorem jlookup_of_mem (jac : List ((String × String) × Mat K)) (hn : (jac.map Prod.fst).Nodup) (e : (String × String) × Mat K) (he : e ∈ jac) : jac.lookup e.1 = some e.2 := by
  induction jac with
  | nil => simp at he
  | cons b l ih =>
    obtain ⟨k, v⟩ := b
    simp only [List.map_cons, List.nodup_cons] at hn
    rcases List.mem_cons.1 he with h | h
    · subst h; simp
    · have : (e.1 == k) = false := by
        simp only [beq_eq_false_iff_ne]
        intro h2
        exact hn.1 (h2 ▸ List.mem_map_of_mem h)
      rw [List.lookup_cons, this]
      exact ih hn.2 h

theorem mem_cellsOf (l : List (String × Nat)) (n : String) (i : Nat) : (n, i) ∈ cellsOf l ↔ ∃ s, (n, s) ∈ l ∧ i < s := by
  unfold cellsOf
  simp only [List.mem_flatMap, List.mem_map, List.mem_range]
  constructor
  · rintro ⟨e, he, i', hi, heq⟩
    obtain ⟨rfl, rfl⟩ := Prod.mk.inj heq
    exact ⟨e.2, he, hi⟩
  · rintro ⟨s, hs, hi⟩
    exact ⟨(n, s), hs, i, hi, rfl⟩

/-- **C89.** For every component with a Jacobian whose arrays have the sizes of the variables, `check_partial_derivatives` finds the same two Jacobians in forward and reverse mode: for every unknown and every param or state an array of the right shape, with entries the partials supplied times the unit
factor of the param and the scaling of the residual, and zeros where no partial was supplied. -/
theorem C89_jacobians (c : LinComp K) (dp du : List (String × Nat)) (jac : List ((String × String) × Mat K)) (hc : c.Sound dp du jac) (hs : ShapesMatch jac c.states dp du) :
    ∃ jf jr, (c.chk dp du).jacs = .ok (jf, jr) ∧ ∀ u n p m, (u, n) ∈ du → InputSize c dp du p m →
      ∃ A B, jf.lookup (u, p) = some A ∧ jr.lookup (u, p) = some B ∧ A.Is n m (c.expected jac u p) ∧ B.Is n m (c.expected jac u p) := by
  have hwf := chk_wf c dp du jac hc hs
  have hun : ∀ u, u ∈ du.map Prod.fst → ∃ n, du.lookup u = some n := chk_lookup_of_mem_keys du
  obtain ⟨d0, ha, hd0⟩ := alloc_params (c.chk dp du) (c.chk dp du).paramList (by
    intro p hp
    obtain ⟨m, hm⟩ := inputs_lookup _ hwf p hp
    refine ⟨m, hm, fun u hu => ?_⟩
    obtain ⟨n, hn⟩ := hun u hu
    refine ⟨n, hn, fun s hsh => ?_⟩
    have hsh' : ((c.jac.getD []).map fun e => (e.1, [e.2.m, e.2.n])).lookup (u, p) = some s := hsh
    rw [hc.supplied, Option.getD_some, shapes_lookup] at hsh'
    cases hJ : jac.lookup (u, p) with
    | none => rw [hJ] at hsh'; simp at hsh'
    | some J =>
      rw [hJ] at hsh'
      simp only [Option.map_some, Option.some.injEq] at hsh'
      subst hsh'
      have hm' : (if p ∈ c.states then du else dp).lookup p = some m := by
        have h1 : (if c.states.contains p = true then du else dp).lookup p = some m := hm
        by_cases h : p ∈ c.states
        · rw [if_pos (by simpa using h)] at h1; rw [if_pos h]; exact h1
        · rw [if_neg (by simpa using h)] at h1; rw [if_neg h]; exact h1
      obtain ⟨h1, h2⟩ := hs _ (jmem_of_lookup _ _ _ hJ) n m hn hm'
      simp only at h1 h2
      simp [userShape, h1, h2]) []
  have hall : (c.chk dp du).Allocated d0 := by
    intro u hu p hp
    obtain ⟨m, hm⟩ := inputs_lookup _ hwf p hp
    obtain ⟨n, hn⟩ := hun u hu
    exact ⟨_, hd0 u p n m hp hu hn hm⟩
  obtain ⟨jr, hr1, _, hr2⟩ := chk_rev_fold (c.chk dp du) hwf (cellsOf du) (by
    rintro ⟨u, i⟩ he
    obtain ⟨s, h1, _⟩ := (mem_cellsOf _ _ _).1 he
    exact List.mem_map.2 ⟨(u, s), h1, rfl⟩) d0 hall
  obtain ⟨jf, hf1, _, hf2⟩ := chk_fwd_fold (c.chk dp du) hwf (cellsOf (c.chk dp du).paramSizes) (by
    rintro ⟨p, i⟩ he
    obtain ⟨s, h1, _⟩ := (mem_cellsOf _ _ _).1 he
    unfold ChkComp.paramSizes at h1
    obtain ⟨q, hq, heq⟩ := List.mem_map.1 h1
    obtain ⟨rfl, _⟩ := Prod.mk.inj heq
    exact hq) d0 hall
  refine ⟨jf, jr, ?_, ?_⟩
  · unfold ChkComp.jacs
    have : (c.chk dp du).alloc = .ok d0 := ha
    rw [this]
    have h1 : (cellsOf (c.chk dp du).du).foldlM (c.chk dp du).revCell d0 = .ok jr := hr1
    simp only [h1, hf1]
  · intro u n p m hu hp
    obtain ⟨hm, hpl⟩ := (input_lookup c dp du jac hc p m).1 hp
    have hn := chk_lookup_of_mem_nodup du hc.unknowns _ hu
    have hul : u ∈ (c.chk dp du).unknList := List.mem_map_of_mem (f := Prod.fst) hu
    have hm' : (if p ∈ c.states then du else dp).lookup p = some m := by
      have h1 : (if c.states.contains p = true then du else dp).lookup p = some m := hm
      by_cases h : p ∈ c.states
      · rw [if_pos (by simpa using h)] at h1; rw [if_pos h]; exact h1
      · rw [if_neg (by simpa using h)] at h1; rw [if_neg h]; exact h1
    have h0 := hd0 u p n m hpl hul hn hm
    obtain ⟨A, a1, a2, a3, a4⟩ := hf2 u p _ hul h0
    obtain ⟨B, b1, b2, b3, b4⟩ := hr2 u p _ hpl h0
    refine ⟨A, B, a1, b1, ⟨a2, a3, fun i hi j hj => ?_⟩, ⟨b2, b3, fun i hi j hj => ?_⟩⟩
    · rw [a4, if_pos]
      · exact fwdVal_expected c dp du jac hc hs u p n m i j hn hm' hi hj
      · rw [mem_cellsOf]
        refine ⟨m, ?_, hj⟩
        unfold ChkComp.paramSizes
        exact List.mem_map.2 ⟨p, hpl, by rw [hm]; rfl⟩
    · rw [b4, if_pos]
      · exact revVal_expected c dp du jac hc hs u p n m i j hn hm' hi hj
      · rw [mem_cellsOf]
        exact ⟨n, hu, hi⟩

/-- **C89 (wrong sizes).** If a supplied array has not the sizes of its variables the check raises `ValueError`. -/
theorem C89_wrong_size (c : LinComp K) (dp du : List (String × Nat)) (jac : List ((String × String) × Mat K)) (hc : c.Sound dp du jac) (hs : ¬ ShapesMatch jac c.states dp du) :
    (c.chk dp du).jacs = .error .ValueError := by
  unfold ShapesMatch at hs
  push Not at hs
  obtain ⟨e, he, m, n, hm, hn, hbad⟩ := hs
  obtain ⟨⟨u, p⟩, J⟩ := e
  have hJ := jlookup_of_mem jac hc.keys _ he
  simp only at hm hn hbad hJ
  have hn' : ((c.chk dp du).inputs p).lookup p = some n := by
    show (if c.states.contains p = true then du else dp).lookup p = some n
    by_cases h : p ∈ c.states
    · rw [if_pos (by simpa using h)]; rw [if_pos h] at hn; exact hn
    · rw [if_neg (by simpa using h)]; rw [if_neg h] at hn; exact hn
  have hpl : p ∈ (c.chk dp du).paramList := by
    refine ((input_lookup c dp du jac hc p n).1 ?_).2
    by_cases h : p ∈ c.states
    · rw [if_pos h] at hn; exact Or.inl ⟨h, mem_of_lookup _ _ _ hn⟩
    · rw [if_neg h] at hn; exact Or.inr ⟨h, mem_of_lookup _ _ _ hn⟩
  have hshape : ∀ q, (c.chk dp du).shapes.lookup q = (jac.lookup q).map fun J => [J.m, J.n] := by
    intro q
    show ((c.jac.getD []).map fun e => (e.1, [e.2.m, e.2.n])).lookup q = _
    rw [hc.supplied, Option.getD_some, shapes_lookup]
  have hstep : ∀ (p : String) (m : Nat) (s : JDict K) (u : String) (e : PyErr), u ∈ (c.chk dp du).unknList → (c.chk dp du).allocStep p m s u = .error e → e = .ValueError := by
    intro p m s u e hu h
    obtain ⟨n, hn⟩ := chk_lookup_of_mem_keys du u hu
    unfold ChkComp.allocStep sizeIn at h
    have hn2 : (c.chk dp du).du.lookup u = some n := hn
    rw [hn2, hshape] at h
    cases hJ : jac.lookup (u, p) with
    | none => rw [hJ] at h; simp at h
    | some J =>
      rw [hJ] at h
      simp only [Option.map_some, userShape] at h
      split at h
      · cases h
      · cases h; rfl
  have hparam : ∀ (s : JDict K) (p : String) (e : PyErr), p ∈ (c.chk dp du).paramList → (c.chk dp du).allocParam s p = .error e → e = .ValueError := by
    intro s p e hp h
    unfold ChkComp.allocParam sizeIn at h
    have hin : ∃ m, ((c.chk dp du).inputs p).lookup p = some m := by
      show ∃ m, (if c.states.contains p = true then du else dp).lookup p = some m
      apply chk_lookup_of_mem_keys
      split
      · rename_i h
        exact (hc.states p (by simpa using h)).1
      · rename_i h
        have hp' : p ∈ dp.map Prod.fst ++ c.states := hp
        rcases List.mem_append.1 hp' with h1 | h1
        · exact h1
        · exact absurd (by simpa using h1) h
    obtain ⟨m, hm⟩ := hin
    rw [hm] at h
    exact fold_error_inv (· = .ValueError) _ _ _ (fun s u e hu h => hstep p m s u e hu h) e h
  obtain ⟨e, h1, h2⟩ := fold_error (· = .ValueError) (c.chk dp du).allocParam (c.chk dp du).paramList [] (fun s a e ha h => hparam s a e ha h) p hpl (by
    intro s
    unfold ChkComp.allocParam sizeIn
    rw [hn']
    obtain ⟨e, h1, _⟩ := fold_error (· = .ValueError) ((c.chk dp du).allocStep p n) (c.chk dp du).unknList s (fun s u e hu h => hstep p n s u e hu h) u (List.mem_map_of_mem (f := Prod.fst) (mem_of_lookup _ _ _ hm)) (by
      intro s
      refine ⟨.ValueError, ?_⟩
      unfold ChkComp.allocStep sizeIn
      have hm2 : (c.chk dp du).du.lookup u = some m := hm
      rw [hm2, hshape, hJ]
      simp only [Option.map_some, userShape]
      rw [if_neg]
      intro h
      obtain ⟨h1, h2⟩ := Prod.mk.inj h
      exact hbad h1 h2)
    exact ⟨e, h1⟩)
  unfold ChkComp.jacs
  have : (c.chk dp du).alloc = .error .ValueError := by rw [← h2]; exact h1
  rw [this]

/-- The reverse mode of a matrix-free component is the transpose of its forward mode. -/
def ChkComp.Adjoint (c : ChkComp K) : Prop := ∀ xp xu y dr rp ru, xp.layout = c.dp → xu.layout = c.du → y.layout = c.du →
  c.fwd xp xu (zerosOf c.du) = .ok dr → c.rev (zerosOf c.dp) (zerosOf c.du) y = .ok (rp, ru) → dvDot y dr = dvDot xp rp + dvDot xu ru

theorem zeros_dvDot (b : DVec K) (l : List (String × Nat)) : dvDot (zerosOf l : DVec K) b = 0 := by
  rw [dvDot_comm']
  have := dvDot_zeroVec b (zerosOf l : DVec K)
  rwa [← zerosOf_eq, layout_zerosOf] at this

theorem adjoint_vals (c : ChkComp K) (hc : c.WellFormed) (ha : c.Adjoint) (u p : String) (i j : Nat) : c.fwdVal p j u i = c.revVal u i p j := by
  obtain ⟨dr, h1, h2⟩ := hc.fwd (scaleBy c.unitF (if c.states.contains p then zerosOf c.dp else unitAt c.dp p j)) (if c.states.contains p then unitAt c.du p j else zerosOf c.du)
    (by rw [layout_scaleBy]; split <;> [exact layout_zerosOf _; exact layout_unitAt _ _ _]) (by split <;> [exact layout_unitAt _ _ _; exact layout_zerosOf _])
  obtain ⟨rp, ru, h3, h4, h5⟩ := hc.rev (scaleBy c.residF (unitAt c.du u i)) (by rw [layout_scaleBy, layout_unitAt])
  have h6 := ha _ _ _ _ _ _ (by rw [layout_scaleBy]; split <;> [exact layout_zerosOf _; exact layout_unitAt _ _ _]) (by split <;> [exact layout_unitAt _ _ _; exact layout_zerosOf _]) (by rw [layout_scaleBy, layout_unitAt]) h1 h3
  unfold ChkComp.fwdVal ChkComp.revVal
  rw [h1, h3]
  simp only
  rw [← dvDot_unitAt _ c.du (by rw [layout_scaleBy, h2]), dvDot_comm', dvDot_scaleBy _ _ _ (by rw [layout_unitAt, h2]), h6]
  by_cases hs : c.states.contains p = true
  · simp only [hs, if_true]
    rw [← dvDot_unitAt _ c.du h5, dvDot_comm' ru, ← dvDot_scaleBy _ _ _ (by rw [layout_zerosOf, h4]), zeros_dvDot, zero_add]
  · simp only [hs, Bool.false_eq_true, if_false]
    rw [← dvDot_unitAt _ c.dp (by rw [layout_scaleBy, h4]), dvDot_comm' (scaleBy c.unitF rp), dvDot_scaleBy _ _ _ (by rw [layout_unitAt, h4])]
    simp [zeros_dvDot]

/-- **C89 (matrix-free components).** For every component with its own `apply_linear` whose reverse mode is the transpose of the forward mode, the two Jacobians found are equal, whatever the units and scalings. -/
theorem C89_matrix_free (c : ChkComp K) (hc : c.WellFormed) (ha : c.Adjoint) (hsh : c.shapes = []) :
    ∃ jf jr, c.jacs = .ok (jf, jr) ∧ ∀ u n p m, (u, n) ∈ c.du → p ∈ c.dp.map Prod.fst ++ c.states → ((if p ∈ c.states then c.du else c.dp).lookup p = some m) →
      ∃ A B f, jf.lookup (u, p) = some A ∧ jr.lookup (u, p) = some B ∧ A.Is n m f ∧ B.Is n m f := by
  have hun : ∀ u, u ∈ c.du.map Prod.fst → ∃ n, c.du.lookup u = some n := chk_lookup_of_mem_keys c.du
  obtain ⟨d0, hal, hd0⟩ := alloc_params c c.paramList (by
    intro p hp
    obtain ⟨m, hm⟩ := inputs_lookup _ hc p hp
    refine ⟨m, hm, fun u hu => ?_⟩
    obtain ⟨n, hn⟩ := hun u hu
    refine ⟨n, hn, fun s hs => ?_⟩
    rw [hsh] at hs
    cases hs) []
  have hall : c.Allocated d0 := by
    intro u hu p hp
    obtain ⟨m, hm⟩ := inputs_lookup _ hc p hp
    obtain ⟨n, hn⟩ := hun u hu
    exact ⟨_, hd0 u p n m hp hu hn hm⟩
  obtain ⟨jr, hr1, _, hr2⟩ := chk_rev_fold c hc (cellsOf c.du) (by
    rintro ⟨u, i⟩ he
    obtain ⟨s, h1, _⟩ := (mem_cellsOf _ _ _).1 he
    exact List.mem_map.2 ⟨(u, s), h1, rfl⟩) d0 hall
  obtain ⟨jf, hf1, _, hf2⟩ := chk_fwd_fold c hc (cellsOf c.paramSizes) (by
    rintro ⟨p, i⟩ he
    obtain ⟨s, h1, _⟩ := (mem_cellsOf _ _ _).1 he
    unfold ChkComp.paramSizes at h1
    obtain ⟨q, hq, heq⟩ := List.mem_map.1 h1
    obtain ⟨rfl, _⟩ := Prod.mk.inj heq
    exact hq) d0 hall
  refine ⟨jf, jr, ?_, ?_⟩
  · unfold ChkComp.jacs
    have : c.alloc = .ok d0 := hal
    rw [this]
    simp only [hr1, hf1]
  · intro u n p m hu hpl hm
    have hn := chk_lookup_of_mem_nodup c.du hc.duN _ hu
    have hul : u ∈ c.unknList := List.mem_map_of_mem (f := Prod.fst) hu
    have hm' : (c.inputs p).lookup p = some m := by
      unfold ChkComp.inputs
      by_cases h : p ∈ c.states
      · rw [if_pos h] at hm; rw [if_pos (by simpa using h)]; exact hm
      · rw [if_neg h] at hm; rw [if_neg (by simpa using h)]; exact hm
    have h0 := hd0 u p n m hpl hul hn hm'
    obtain ⟨A, a1, a2, a3, a4⟩ := hf2 u p _ hul h0
    obtain ⟨B, b1, b2, b3, b4⟩ := hr2 u p _ hpl h0
    refine ⟨A, B, fun i j => c.fwdVal p j u i, a1, b1, ⟨a2, a3, fun i hi j hj => ?_⟩, ⟨b2, b3, fun i hi j hj => ?_⟩⟩
    · rw [a4, if_pos]
      rw [mem_cellsOf]
      refine ⟨m, ?_, hj⟩
      unfold ChkComp.paramSizes
      exact List.mem_map.2 ⟨p, hpl, by rw [hm']; rfl⟩
    · rw [b4, if_pos]
      · exact (adjoint_vals c hc ha u p i j).symm
      · rw [mem_cellsOf]
        exact ⟨n, hu, hi⟩


end

/-! ## C90: the errors reported -/

theorem frob_nonneg (M : Mat ℝ) : 0 ≤ frob M := Real.sqrt_nonneg _

theorem frob_zero_iff (M : Mat ℝ) : frob M = 0 ↔ ∀ i < M.m, ∀ j < M.n, M.a i j = 0 := by
  unfold frob
  rw [Real.sqrt_eq_zero (Finset.sum_nonneg fun i _ => Finset.sum_nonneg fun j _ => sq_nonneg _), Finset.sum_eq_zero_iff_of_nonneg fun i _ => Finset.sum_nonneg fun j _ => sq_nonneg _]
  constructor
  · intro h i hi j hj
    have h1 := h i (Finset.mem_range.2 hi)
    rw [Finset.sum_eq_zero_iff_of_nonneg fun j _ => sq_nonneg _] at h1
    exact pow_eq_zero_iff (two_ne_zero) |>.1 (h1 j (Finset.mem_range.2 hj))
  · intro h i hi
    apply Finset.sum_eq_zero
    intro j hj
    rw [h i (Finset.mem_range.1 hi) j (Finset.mem_range.1 hj)]
    simp

theorem entry_le_frob (M : Mat ℝ) (i j : Nat) (hi : i < M.m) (hj : j < M.n) : |M.a i j| ≤ frob M := by
  unfold frob
  rw [← Real.sqrt_sq_eq_abs]
  apply Real.sqrt_le_sqrt
  calc M.a i j ^ 2 ≤ ∑ s ∈ Finset.range M.n, M.a i s ^ 2 := Finset.single_le_sum (f := fun s => M.a i s ^ 2) (fun s _ => sq_nonneg _) (Finset.mem_range.2 hj)
    _ ≤ _ := Finset.single_le_sum (f := fun r => ∑ s ∈ Finset.range M.n, M.a r s ^ 2) (fun r _ => Finset.sum_nonneg fun s _ => sq_nonneg _) (Finset.mem_range.2 hi)

theorem frob_congr (A B : Mat ℝ) (h1 : A.m = B.m) (h2 : A.n = B.n) (h : ∀ i < A.m, ∀ j < A.n, A.a i j = B.a i j) : frob A = frob B := by
  unfold frob
  rw [← h1, ← h2]
  congr 1
  apply Finset.sum_congr rfl
  intro i hi
  apply Finset.sum_congr rfl
  intro j hj
  rw [h i (Finset.mem_range.1 hi) j (Finset.mem_range.1 hj)]

theorem sub_ok (A B : Mat ℝ) (h1 : A.m = B.m) (h2 : A.n = B.n) : A.sub? B = .ok ⟨A.m, A.n, fun i j => A.a i j - B.a i j⟩ := by
  unfold Mat.sub?
  rw [if_pos ⟨h1, h2⟩]

/-- What is reported for a pair. -/
theorem asmPair_spec (jf jr fd : JDict ℝ) (k : String × String) (n m : Nat) (f : Nat → Nat → ℝ) (A B F : Mat ℝ) (hA : jf.lookup k = some A) (hB : jr.lookup k = some B) (hF : fd.lookup k = some F)
    (hAi : A.Is n m f) (hBi : B.Is n m f) (hn : F.m = n) (hm : F.n = m) :
    asmPair jf jr fd k = .ok (some ⟨[frob ⟨n, m, f⟩, frob ⟨n, m, f⟩, frob F], [frob ⟨n, m, fun i j => f i j - F.a i j⟩, frob ⟨n, m, fun i j => f i j - F.a i j⟩, 0],
      if frob F = 0 then [none, none, none, none] else [some (frob ⟨n, m, fun i j => f i j - F.a i j⟩ / frob F), some (frob ⟨n, m, fun i j => f i j - F.a i j⟩ / frob F), some 0]⟩) := by
  obtain ⟨a1, a2, a3⟩ := hAi
  obtain ⟨b1, b2, b3⟩ := hBi
  have h1 : frob A = frob ⟨n, m, f⟩ := frob_congr _ _ a1 a2 (by rw [a1, a2]; exact a3)
  have h2 : frob B = frob ⟨n, m, f⟩ := frob_congr _ _ b1 b2 (by rw [b1, b2]; exact b3)
  have h3 : frob ⟨A.m, A.n, fun i j => A.a i j - F.a i j⟩ = frob ⟨n, m, fun i j => f i j - F.a i j⟩ := frob_congr _ _ a1 a2 (by
    simp only [a1, a2]
    intro i hi j hj
    rw [a3 i hi j hj])
  have h4 : frob ⟨B.m, B.n, fun i j => B.a i j - F.a i j⟩ = frob ⟨n, m, fun i j => f i j - F.a i j⟩ := frob_congr _ _ b1 b2 (by
    simp only [b1, b2]
    intro i hi j hj
    rw [b3 i hi j hj])
  have h5 : frob ⟨A.m, A.n, fun i j => A.a i j - B.a i j⟩ = 0 := by
    rw [frob_zero_iff]
    simp only [a1, a2]
    intro i hi j hj
    rw [a3 i hi j hj, b3 i hi j hj, sub_self]
  unfold asmPair getJ
  rw [hF]
  simp only [hA, hB, bind, Except.bind]
  rw [sub_ok A F (a1.trans hn.symm) (a2.trans hm.symm), sub_ok B F (b1.trans hn.symm) (b2.trans hm.symm), sub_ok A B (a1.trans b1.symm) (a2.trans b2.symm)]
  simp only [h1, h2, h3, h4, h5, zero_div]

theorem asm_fold (jf jr fd : JDict ℝ) (g : String × String → Option DerivData) (ks : List (String × String)) (h : ∀ k ∈ ks, asmPair jf jr fd k = .ok (g k)) (d : List ((String × String) × DerivData)) :
    ∃ d', ks.foldlM (asmStep jf jr fd) d = .ok d' ∧ ∀ k, d'.lookup k = if k ∈ ks ∧ (g k).isSome then g k else d.lookup k := by
  induction ks generalizing d with
  | nil => exact ⟨d, rfl, fun k => by simp⟩
  | cons k0 ks ih =>
    have hk0 := h k0 (by simp)
    cases hg : g k0 with
    | none =>
      obtain ⟨d', h1, h2⟩ := ih (fun k hk => h k (by simp [hk])) d
      refine ⟨d', ?_, fun k => ?_⟩
      · rw [List.foldlM_cons]
        have : asmStep jf jr fd d k0 = .ok d := by unfold asmStep; rw [hk0, hg]
        rw [this]
        exact h1
      · rw [h2]
        by_cases hk : k = k0
        · subst hk; simp [hg]
        · simp [hk]
    | some x =>
      obtain ⟨d', h1, h2⟩ := ih (fun k hk => h k (by simp [hk])) (dictSet d k0 x)
      refine ⟨d', ?_, fun k => ?_⟩
      · rw [List.foldlM_cons]
        have : asmStep jf jr fd d k0 = .ok (dictSet d k0 x) := by unfold asmStep; rw [hk0, hg]
        rw [this]
        exact h1
      · rw [h2, lookup_dictSet]
        by_cases hk : k = k0
        · subst hk; simp [hg]
        · simp [hk]

/-- The root of the sum of the squared differences between the partials expected and the finite differences. -/
noncomputable def gap (n m : Nat) (f g : Nat → Nat → ℝ) : ℝ := Real.sqrt (∑ i ∈ Finset.range n, ∑ j ∈ Finset.range m, (f i j - g i j) ^ 2)

/-- **C90.** The report of a component with a Jacobian has exactly the pairs the finite difference has. The absolute errors of a pair are the distance of the partials supplied (in the units of the source and scaled) to the finite difference, in both modes, and zero between the modes. The relative errors
are these divided by the magnitude of the finite difference, and not a number when that is zero. -/
theorem C90_report (c : LinComp ℝ) (dp du : List (String × Nat)) (jac : List ((String × String) × Mat ℝ)) (hc : c.Sound dp du jac) (hs : ShapesMatch jac c.states dp du) (fd : JDict ℝ)
    (hfd : ∀ u n p m F, (u, n) ∈ du → InputSize c dp du p m → fd.lookup (u, p) = some F → F.m = n ∧ F.n = m) :
    ∃ jf jr data, (c.chk dp du).jacs = .ok (jf, jr) ∧ assembleData (dp.map Prod.fst ++ c.states) (du.map Prod.fst) jf jr fd = .ok data ∧
      ∀ u n p m, (u, n) ∈ du → InputSize c dp du p m →
        (fd.lookup (u, p) = none → data.lookup (u, p) = none) ∧
        ∀ F, fd.lookup (u, p) = some F → ∃ D, data.lookup (u, p) = some D ∧
          D.abs = [gap n m (c.expected jac u p) F.a, gap n m (c.expected jac u p) F.a, 0] ∧
          (gap n m F.a (fun _ _ => 0) ≠ 0 → D.rel = [some (gap n m (c.expected jac u p) F.a / gap n m F.a (fun _ _ => 0)), some (gap n m (c.expected jac u p) F.a / gap n m F.a (fun _ _ => 0)), some 0]) ∧
          (gap n m F.a (fun _ _ => 0) = 0 → ∀ r ∈ D.rel, r = none) := by
  obtain ⟨jf, jr, hj, hspec⟩ := C89_jacobians c dp du jac hc hs
  have hpair : ∀ u n p m, (u, n) ∈ du → InputSize c dp du p m → ∃ o, asmPair jf jr fd (u, p) = .ok o ∧ (fd.lookup (u, p) = none → o = none) ∧ ∀ F, fd.lookup (u, p) = some F → ∃ D, o = some D ∧
          D.abs = [gap n m (c.expected jac u p) F.a, gap n m (c.expected jac u p) F.a, 0] ∧
          (gap n m F.a (fun _ _ => 0) ≠ 0 → D.rel = [some (gap n m (c.expected jac u p) F.a / gap n m F.a (fun _ _ => 0)), some (gap n m (c.expected jac u p) F.a / gap n m F.a (fun _ _ => 0)), some 0]) ∧
          (gap n m F.a (fun _ _ => 0) = 0 → ∀ r ∈ D.rel, r = none) := by
    intro u n p m hu hp
    cases hF : fd.lookup (u, p) with
    | none =>
      refine ⟨none, ?_, fun _ => rfl, fun F h => by cases h⟩
      unfold asmPair
      rw [hF]
    | some F =>
      obtain ⟨A, B, hA, hB, hAi, hBi⟩ := hspec u n p m hu hp
      obtain ⟨hn, hm⟩ := hfd u n p m F hu hp hF
      refine ⟨_, asmPair_spec jf jr fd (u, p) n m _ A B F hA hB hF hAi hBi hn hm, fun h => (by cases h), fun F' h => ?_⟩
      cases h
      have hmag : frob F = gap n m F.a (fun _ _ => 0) := by simp [frob, gap, hn, hm]
      refine ⟨_, rfl, rfl, fun h => ?_, fun h => ?_⟩
      · rw [← hmag] at h
        rw [← hmag]
        exact if_neg h
      · rw [← hmag] at h
        simp only [h, if_true]
        simp
  have hin : ∀ k ∈ (dp.map Prod.fst ++ c.states).flatMap fun p => (du.map Prod.fst).map fun u => (u, p), ∃ n m, (k.1, n) ∈ du ∧ InputSize c dp du k.2 m := by
    intro k hk
    obtain ⟨p, hp, hk⟩ := List.mem_flatMap.1 hk
    obtain ⟨u, hu, rfl⟩ := List.mem_map.1 hk
    obtain ⟨e, he, rfl⟩ := List.mem_map.1 hu
    have hwf := chk_wf c dp du jac hc hs
    obtain ⟨m, hm⟩ := inputs_lookup _ hwf p hp
    exact ⟨e.2, m, he, (input_lookup c dp du jac hc p m).2 ⟨hm, hp⟩⟩
  obtain ⟨data, h1, h2⟩ := asm_fold jf jr fd (fun k => match asmPair jf jr fd k with | .ok o => o | .error _ => none) _ (by
    intro k hk
    obtain ⟨n, m, h1, h2⟩ := hin k hk
    obtain ⟨o, ho, _⟩ := hpair k.1 n k.2 m h1 h2
    have ho' : asmPair jf jr fd k = .ok o := ho
    simp only [ho']) []
  refine ⟨jf, jr, data, hj, h1, ?_⟩
  intro u n p m hu hp
  obtain ⟨o, ho, h3, h4⟩ := hpair u n p m hu hp
  have hmem : (u, p) ∈ (dp.map Prod.fst ++ c.states).flatMap fun p => (du.map Prod.fst).map fun u => (u, p) := by
    refine List.mem_flatMap.2 ⟨p, ((input_lookup c dp du jac hc p m).1 hp).2, ?_⟩
    exact List.mem_map.2 ⟨u, List.mem_map.2 ⟨(u, n), hu, rfl⟩, rfl⟩
  have h5 : data.lookup (u, p) = o := by
    rw [h2]
    simp only [ho]
    cases o with
    | none => simp
    | some D => simp only [hmem, Option.isSome_some, and_self, if_true]
  refine ⟨fun h => by rw [h5]; exact h3 h, fun F hF => ?_⟩
  obtain ⟨D, hD, rest⟩ := h4 F hF
  exact ⟨D, by rw [h5]; exact hD, rest⟩

/-- **C90 (any component).** Whatever Jacobians `jf` and `jr` the two modes give, also when they disagree, the entry of a pair has the three magnitudes and the distances between forward and finite difference, reverse and finite difference, and forward and reverse. -/
theorem C90_differences (params resids : List String) (jf jr fd : JDict ℝ) (n m : String → Nat) (A B : String → String → Nat → Nat → ℝ)
    (hA : ∀ u ∈ resids, ∀ p ∈ params, jf.lookup (u, p) = some ⟨n u, m p, A u p⟩) (hB : ∀ u ∈ resids, ∀ p ∈ params, jr.lookup (u, p) = some ⟨n u, m p, B u p⟩)
    (hfd : ∀ u ∈ resids, ∀ p ∈ params, ∀ F, fd.lookup (u, p) = some F → F.m = n u ∧ F.n = m p) :
    ∃ data, assembleData params resids jf jr fd = .ok data ∧ ∀ u ∈ resids, ∀ p ∈ params,
      (fd.lookup (u, p) = none → data.lookup (u, p) = none) ∧
      ∀ F, fd.lookup (u, p) = some F → ∃ D, data.lookup (u, p) = some D ∧
        D.magnitude = [gap (n u) (m p) (A u p) (fun _ _ => 0), gap (n u) (m p) (B u p) (fun _ _ => 0), gap (n u) (m p) F.a (fun _ _ => 0)] ∧
        D.abs = [gap (n u) (m p) (A u p) F.a, gap (n u) (m p) (B u p) F.a, gap (n u) (m p) (A u p) (B u p)] ∧
        (gap (n u) (m p) F.a (fun _ _ => 0) ≠ 0 → D.rel = D.abs.map fun x => some (x / gap (n u) (m p) F.a (fun _ _ => 0))) ∧
        (gap (n u) (m p) F.a (fun _ _ => 0) = 0 → ∀ r ∈ D.rel, r = none) := by
  have hpair : ∀ u ∈ resids, ∀ p ∈ params, ∃ o, asmPair jf jr fd (u, p) = .ok o ∧ (fd.lookup (u, p) = none → o = none) ∧ ∀ F, fd.lookup (u, p) = some F → ∃ D, o = some D ∧
        D.magnitude = [gap (n u) (m p) (A u p) (fun _ _ => 0), gap (n u) (m p) (B u p) (fun _ _ => 0), gap (n u) (m p) F.a (fun _ _ => 0)] ∧
        D.abs = [gap (n u) (m p) (A u p) F.a, gap (n u) (m p) (B u p) F.a, gap (n u) (m p) (A u p) (B u p)] ∧
        (gap (n u) (m p) F.a (fun _ _ => 0) ≠ 0 → D.rel = D.abs.map fun x => some (x / gap (n u) (m p) F.a (fun _ _ => 0))) ∧
        (gap (n u) (m p) F.a (fun _ _ => 0) = 0 → ∀ r ∈ D.rel, r = none) := by
    intro u hu p hp
    cases hF : fd.lookup (u, p) with
    | none =>
      refine ⟨none, ?_, fun _ => rfl, fun F h => by cases h⟩
      unfold asmPair
      rw [hF]
    | some F =>
      obtain ⟨hn, hm⟩ := hfd u hu p hp F hF
      have hmag : frob F = gap (n u) (m p) F.a (fun _ _ => 0) := by simp [frob, gap, hn, hm]
      refine ⟨some { magnitude := [gap (n u) (m p) (A u p) (fun _ _ => 0), gap (n u) (m p) (B u p) (fun _ _ => 0), frob F], abs := [gap (n u) (m p) (A u p) F.a, gap (n u) (m p) (B u p) F.a, gap (n u) (m p) (A u p) (B u p)], rel := if frob F = 0 then [none, none, none, none] else [some (gap (n u) (m p) (A u p) F.a / frob F), some (gap (n u) (m p) (B u p) F.a / frob F), some (gap (n u) (m p) (A u p) (B u p) / frob F)] }, ?_, fun h => (by cases h), ?_⟩
      · unfold asmPair getJ
        rw [hF]
        simp only [hA u hu p hp, hB u hu p hp, bind, Except.bind]
        rw [sub_ok ⟨n u, m p, A u p⟩ F hn.symm hm.symm, sub_ok ⟨n u, m p, B u p⟩ F hn.symm hm.symm, sub_ok ⟨n u, m p, A u p⟩ ⟨n u, m p, B u p⟩ rfl rfl]
        have e0 : ∀ f : Nat → Nat → ℝ, frob ⟨n u, m p, f⟩ = gap (n u) (m p) f fun _ _ => 0 := fun f => by simp only [gap, frob, sub_zero]
        rw [e0 (A u p), e0 (B u p)]
        rfl
      · intro F' h
        cases h
        refine ⟨_, rfl, by rw [hmag], rfl, fun h => ?_, fun h => ?_⟩
        · rw [← hmag] at h ⊢
          exact if_neg h
        · rw [← hmag] at h
          simp only [h, if_true]
          simp
  obtain ⟨data, h1, h2⟩ := asm_fold jf jr fd (fun k => match asmPair jf jr fd k with | .ok o => o | .error _ => none) (params.flatMap fun p => resids.map fun u => (u, p)) (by
    intro k hk
    obtain ⟨p, hp, hk⟩ := List.mem_flatMap.1 hk
    obtain ⟨u, hu, rfl⟩ := List.mem_map.1 hk
    obtain ⟨o, ho, _⟩ := hpair u hu p hp
    simp only [ho]) []
  refine ⟨data, h1, ?_⟩
  intro u hu p hp
  obtain ⟨o, ho, h3, h4⟩ := hpair u hu p hp
  have hmem : (u, p) ∈ params.flatMap fun p => resids.map fun u => (u, p) := List.mem_flatMap.2 ⟨p, hp, List.mem_map.2 ⟨u, hu, rfl⟩⟩
  have h5 : data.lookup (u, p) = o := by
    rw [h2]
    simp only [ho]
    cases o with
    | none => simp
    | some D => simp only [hmem, Option.isSome_some, and_self, if_true]
  refine ⟨fun h => by rw [h5]; exact h3 h, fun F hF => ?_⟩
  obtain ⟨D, hD, rest⟩ := h4 F hF
  exact ⟨D, by rw [h5]; exact hD, rest⟩

/-- A component whose reverse mode is wrong: forward 1, reverse 3, finite difference 1. -/
example : ∃ data D, assembleData ["x"] ["y"] [(("y", "x"), ⟨1, 1, fun _ _ => 1⟩)] [(("y", "x"), ⟨1, 1, fun _ _ => 3⟩)] [(("y", "x"), ⟨1, 1, fun _ _ => 1⟩)] = .ok data ∧ data.lookup ("y", "x") = some D ∧ D.abs = [0, 2, 2] := by
  obtain ⟨data, h1, h2⟩ := C90_differences ["x"] ["y"] [(("y", "x"), ⟨1, 1, fun _ _ => 1⟩)] [(("y", "x"), ⟨1, 1, fun _ _ => 3⟩)] [(("y", "x"), ⟨1, 1, fun _ _ => 1⟩)] (fun _ => 1) (fun _ => 1)
    (fun _ _ _ _ => 1) (fun _ _ _ _ => 3) (by simp) (by simp) (by simp)
  obtain ⟨_, h3⟩ := h2 "y" (by simp) "x" (by simp)
  obtain ⟨D, h4, _, h5, _⟩ := h3 _ rfl
  refine ⟨data, D, h1, h4, h5.trans ?_⟩
  have e : Real.sqrt 4 = 2 := by
    rw [show (4 : ℝ) = 2 ^ 2 by norm_num]
    exact Real.sqrt_sq (by norm_num)
  have e1 : gap 1 1 (fun _ _ => (1 : ℝ)) (fun _ _ => 1) = 0 := by simp [gap]
  have e2 : gap 1 1 (fun _ _ => (3 : ℝ)) (fun _ _ => 1) = 2 := by
    simp only [gap, Finset.range_one, Finset.sum_singleton]; norm_num [e]
  have e3 : gap 1 1 (fun _ _ => (1 : ℝ)) (fun _ _ => 3) = 2 := by
    simp only [gap, Finset.range_one, Finset.sum_singleton]; norm_num [e]
  rw [e1, e2, e3]

/-- **C89 (shapes).** A derivative supplied by the component is accepted exactly if its shape is that of the pair; a one-dimensional array counts as a column. -/
theorem C89_shape_accepted {K : Type} [CommRing K] (c : ChkComp K) (p : String) (m : Nat) (d : JDict K) (u : String) (n : Nat) (s : List Nat) (hu : sizeIn c.du u = .ok n) (hs : c.shapes.lookup (u, p) = some s) :
    (∃ d', c.allocStep p m d u = .ok d') ↔ (s = [n] ∧ m = 1) ∨ ∃ rest, s = n :: m :: rest := by
  unfold ChkComp.allocStep
  rw [hu, hs]
  match s with
  | [] => simp [userShape]
  | [a] =>
    by_cases h : (a, 1) = (n, m)
    · simp only [userShape, h, if_true]
      simp only [Prod.mk.injEq] at h
      simp [h.1, h.2.symm]
    · simp only [userShape, h, if_false]
      simp only [Prod.mk.injEq, not_and] at h
      simp only [reduceCtorEq, exists_false, List.cons.injEq, and_true, false_iff, not_or, not_and, not_exists]
      exact ⟨fun h1 h2 => h h1 h2.symm, by simp⟩
  | a :: b :: r =>
    by_cases h : (a, b) = (n, m)
    · simp only [userShape, h, if_true]
      simp only [Prod.mk.injEq] at h
      simp [h.1, h.2]
    · simp only [userShape, h, if_false]
      simp only [Prod.mk.injEq, not_and] at h
      simp only [reduceCtorEq, exists_false, false_iff, not_or, not_and, not_exists, List.cons.injEq]
      exact ⟨by simp, fun _ h1 h2 => absurd h2 (h h1)⟩

/-- **C90 (what an error means).** The distance is zero exactly if every partial equals the finite difference, and it is at least the difference of any single entry. -/
theorem C90_gap (n m : Nat) (f g : Nat → Nat → ℝ) : (gap n m f g = 0 ↔ ∀ i < n, ∀ j < m, f i j = g i j) ∧ ∀ i < n, ∀ j < m, |f i j - g i j| ≤ gap n m f g := by
  constructor
  · have := frob_zero_iff ⟨n, m, fun i j => f i j - g i j⟩
    simp only [sub_eq_zero] at this
    exact this
  · intro i hi j hj
    exact entry_le_frob ⟨n, m, fun i j => f i j - g i j⟩ i j hi hj

/-- **C90 (flags).** A pair is flagged if some partial is off by the tolerance or more, and it is not flagged if all partials are right. -/
theorem C90_flags (n m : Nat) (f g : Nat → Nat → ℝ) (tol : ℝ) :
    ((∃ i < n, ∃ j < m, tol ≤ |f i j - g i j|) → starAbs tol (gap n m f g) = true) ∧ ((∀ i < n, ∀ j < m, f i j = g i j) → 0 < tol → starAbs tol (gap n m f g) = false) ∧
      (starAbs tol (gap n m f g) = true ↔ tol ≤ gap n m f g) := by
  have hiff : starAbs tol (gap n m f g) = true ↔ tol ≤ gap n m f g := by simp [starAbs]
  refine ⟨?_, ?_, hiff⟩
  · rintro ⟨i, hi, j, hj, h⟩
    rw [hiff]
    exact le_trans h ((C90_gap n m f g).2 i hi j hj)
  · intro h ht
    rw [(C90_gap n m f g).1.2 h]
    simp [starAbs, ht]

/-- **C90 (relative flags).** The flag of a relative error tells whether it reaches the tolerance; an error that is not a number has no flag, so a wrong partial of a zero derivative is flagged by the absolute error only. -/
theorem C90_relative_flags (tol x : ℝ) : (starRel tol (some x) = true ↔ tol ≤ x) ∧ starRel tol none = false := by simp [starRel]

/-! ## A component: `y = 2 x` in other units and with a scaled residual, and a state -/

/-- Sizes 2 and 1; the unit factor of `x` is 10, the residual of `y` is scaled by 3. -/
def chkToy : LinComp ℚ where
  jac := some [(("y", "x"), ⟨2, 2, fun i j => if i = j then 2 else 0⟩), (("z", "z"), ⟨1, 1, fun _ _ => 5⟩)]
  states := ["z"]
  relInputs := []
  units := [("x", 10)]
  derivUnits := true
  scales := [("y", 3)]
  forceFd := false
  doApply := true
  gsOuts := none

theorem chkToy_sound : chkToy.Sound [("x", 2)] [("y", 2), ("z", 1)] [(("y", "x"), ⟨2, 2, fun i j => if i = j then 2 else 0⟩), (("z", "z"), ⟨1, 1, fun _ _ => 5⟩)] where
  supplied := rfl
  keys := by simp
  params := by simp
  unknowns := by simp
  states := by simp [chkToy]
  noFilter := rfl

theorem chkToy_shapes : ShapesMatch [(("y", "x"), (⟨2, 2, fun i j => if i = j then 2 else 0⟩ : Mat ℚ)), (("z", "z"), ⟨1, 1, fun _ _ => 5⟩)] chkToy.states [("x", 2)] [("y", 2), ("z", 1)] := by
  intro e he m n hm hn
  simp only [List.mem_cons, List.not_mem_nil, or_false] at he
  rcases he with rfl | rfl
  · simp [chkToy, List.lookup] at hm hn
    exact ⟨hm, hn⟩
  · simp [chkToy, List.lookup] at hm hn
    exact ⟨hm, hn⟩

example : ∃ jf jr A B, (chkToy.chk [("x", 2)] [("y", 2), ("z", 1)]).jacs = .ok (jf, jr) ∧ jf.lookup ("y", "x") = some A ∧ jr.lookup ("y", "x") = some B ∧ A.a 1 1 = 60 ∧ B.a 1 1 = 60 := by
  obtain ⟨jf, jr, h1, h2⟩ := C89_jacobians chkToy _ _ _ chkToy_sound chkToy_shapes
  obtain ⟨A, B, h3, h4, ⟨_, _, h5⟩, ⟨_, _, h6⟩⟩ := h2 "y" 2 "x" 2 (by simp) (Or.inr ⟨by simp [chkToy], by simp⟩)
  have hv : chkToy.expected [(("y", "x"), (⟨2, 2, fun i j => if i = j then 2 else 0⟩ : Mat ℚ)), (("z", "z"), ⟨1, 1, fun _ _ => 5⟩)] "y" "x" 1 1 = 60 := by
    simp [LinComp.expected, List.lookup, chkFactor, chkToy]
    norm_num
  exact ⟨jf, jr, A, B, h1, h3, h4, by rw [h5 1 (by simp) 1 (by simp)]; exact hv, by rw [h6 1 (by simp) 1 (by simp)]; exact hv⟩

example : ({ chkToy with jac := some [(("y", "x"), ⟨2, 1, fun _ _ => 2⟩)] }.chk [("x", 2)] [("y", 2), ("z", 1)]).jacs = .error .ValueError :=
  C89_wrong_size _ _ _ [(("y", "x"), ⟨2, 1, fun _ _ => 2⟩)] ⟨rfl, by simp, by simp, by simp, by simp [chkToy], rfl⟩ (by
    intro h
    have := h _ (List.mem_singleton.2 rfl) 2 2 rfl rfl
    simp at this)

example : starAbs (1 / 10) (gap 1 1 (fun _ _ => 3) (fun _ _ => 2)) = true := (C90_flags 1 1 _ _ _).1 ⟨0, by simp, 0, by simp, by norm_num⟩

/-- A matrix-free component: `y` gets three times `x`, in reverse mode `x` gets three times `y`. -/
def freeToy : ChkComp ℚ where
  dp := [("x", 1)]
  du := [("y", 1)]
  states := []
  shapes := []
  fwd := fun dp _ _ => .ok [("y", [3 * (DVec.valueAt dp "x" 0)])]
  rev := fun _ du dr => .ok ([("x", [3 * (DVec.valueAt dr "y" 0)])], du)
  unitF := fun _ => some 7
  residF := fun _ => none

theorem layout_one (d : DVec ℚ) (n : String) (h : d.layout = [(n, 1)]) : ∃ x, d = [(n, [x])] := by
  cases d with
  | nil => simp [DVec.layout] at h
  | cons e d =>
    obtain ⟨k, v⟩ := e
    simp only [DVec.layout, List.map_cons, List.cons.injEq, Prod.mk.injEq, List.map_eq_nil_iff] at h
    obtain ⟨⟨rfl, h2⟩, rfl⟩ := h
    obtain ⟨x, rfl⟩ := List.length_eq_one_iff.1 h2
    exact ⟨x, rfl⟩

theorem freeToy_wf : freeToy.WellFormed where
  dpN := by simp [freeToy]
  duN := by simp [freeToy]
  st := by simp [freeToy]
  fwd := fun dp du _ _ => ⟨_, rfl, rfl⟩
  rev := fun dr _ => ⟨_, _, rfl, rfl, layout_zerosOf _⟩

example : ∃ jf jr A B f, freeToy.jacs = .ok (jf, jr) ∧ jf.lookup ("y", "x") = some A ∧ jr.lookup ("y", "x") = some B ∧ A.Is 1 1 f ∧ B.Is 1 1 f := by
  obtain ⟨jf, jr, h1, h2⟩ := C89_matrix_free freeToy freeToy_wf (by
    intro xp xu y dr rp ru hp hu hy h1 h2
    obtain ⟨a, rfl⟩ := layout_one xp "x" hp
    obtain ⟨b, rfl⟩ := layout_one y "y" hy
    obtain ⟨e, rfl⟩ := layout_one xu "y" hu
    simp only [freeToy, Except.ok.injEq, Prod.mk.injEq] at h1 h2
    obtain ⟨rfl, rfl⟩ := h2
    subst h1
    simp [dvDot, dot, DVec.valueAt, zerosOf, List.lookup]
    ring) rfl
  obtain ⟨A, B, f, h3, h4, h5, h6⟩ := h2 "y" 1 "x" 1 (by simp [freeToy]) (by simp [freeToy]) (by simp [freeToy])
  exact ⟨jf, jr, A, B, f, h1, h3, h4, h5, h6⟩

/-- `y = 2 x`, and the check finds the slope 3. -/
noncomputable def reportToy : LinComp ℝ where
  jac := some [(("y", "x"), ⟨1, 1, fun _ _ => 2⟩)]
  states := []
  relInputs := []
  units := []
  derivUnits := true
  scales := []
  forceFd := false
  doApply := true
  gsOuts := none

example : ∃ jf jr data D, (reportToy.chk [("x", 1)] [("y", 1)]).jacs = .ok (jf, jr) ∧ assembleData ["x"] ["y"] jf jr [(("y", "x"), ⟨1, 1, fun _ _ => 3⟩)] = .ok data ∧ data.lookup ("y", "x") = some D ∧ D.abs = [1, 1, 0] := by
  obtain ⟨jf, jr, data, h1, h2, h3⟩ := C90_report reportToy [("x", 1)] [("y", 1)] [(("y", "x"), ⟨1, 1, fun _ _ => 2⟩)] ⟨rfl, by simp, by simp, by simp, by simp [reportToy], rfl⟩ (by
    intro e he m n hm hn
    simp only [List.mem_singleton] at he
    subst he
    simp [reportToy, List.lookup] at hm hn
    exact ⟨hm, hn⟩) [(("y", "x"), ⟨1, 1, fun _ _ => 3⟩)] (by
    intro u n p m F hu hp hF
    simp only [List.mem_singleton, Prod.mk.injEq] at hu
    obtain ⟨rfl, rfl⟩ := hu
    rcases hp with ⟨h, _⟩ | ⟨_, h⟩
    · simp [reportToy] at h
    · simp only [List.mem_singleton, Prod.mk.injEq] at h
      obtain ⟨rfl, rfl⟩ := h
      simp [List.lookup] at hF
      subst hF
      exact ⟨rfl, rfl⟩)
  obtain ⟨D, h4, h5, _⟩ := (h3 "y" 1 "x" 1 (by simp) (Or.inr ⟨by simp [reportToy], by simp⟩)).2 _ rfl
  refine ⟨jf, jr, data, D, h1, h2, h4, ?_⟩
  rw [h5]
  norm_num [gap, LinComp.expected, reportToy, List.lookup, chkFactor]

end OpenMDAO
