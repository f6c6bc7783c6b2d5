import Verif.Lemmas.Relevance
import Verif.Lemmas.RelMatrix
/-!
# C52: soundness of relevance reduction
-/
namespace OpenMDAO
set_option linter.unusedSectionVars false

/-- What `setup` guarantees about the data given to the relevance computation. -/
structure RelWF (M : ModelVars) (R : RelInput) : Prop where
  /-- sources are unknowns and targets parameters, and nothing is both -/
  target : ∀ c ∈ R.conns, M.params c.1
  source : ∀ c ∈ R.conns, M.unknowns c.2
  disjoint : ∀ v, M.params v → ¬ M.unknowns v
  named : ∀ v, M.params v ∨ M.unknowns v → v ≠ []
  /-- variables of interest are unknowns of subsystems, given by their promoted names -/
  voi : ∀ n, n ∈ R.inputs.flatten ∨ n ∈ R.outputs.flatten → M.unknowns (R.absU n) ∧ R.prom (R.absU n) = n ∧ compPath (R.absU n) ∈ R.systems

theorem compPath_ne_nil {v : Path} (h : v ≠ []) : compPath v ≠ [] := by
  unfold compPath
  split
  · exact h
  · rename_i hl
    intro h0
    have := congrArg List.length h0
    simp at this; omega

theorem flow_comp {M : ModelVars} {R : RelInput} {a b : Path} (h : FlowStep M R.conns a b) : Relation.ReflTransGen (CompStep R) (compPath a) (compPath b) := by
  cases h with
  | conn h => exact Relation.ReflTransGen.single ⟨_, h, rfl, rfl⟩
  | inner _ _ h => rw [h]

theorem coup_comp {M : ModelVars} {R : RelInput} {a b : Path} (h : CoupStep M R.conns a b) : Relation.ReflTransGen (CompStep R) (compPath a) (compPath b) := by
  cases h with
  | flow h => exact flow_comp h
  | state _ _ h => rw [h]

theorem coup_path_comp {M : ModelVars} {R : RelInput} {a b : Path} (h : Relation.ReflTransGen (CoupStep M R.conns) a b) : Relation.ReflTransGen (CompStep R) (compPath a) (compPath b) := by
  induction h with
  | refl => exact .refl
  | tail _ h2 ih => exact ih.trans (coup_comp h2)

theorem flow_path_coup {M : ModelVars} {conns : List (Path × Path)} {a b : Path} (h : Relation.ReflTransGen (FlowStep M conns) a b) : Relation.ReflTransGen (CoupStep M conns) a b :=
  Relation.ReflTransGen.mono (fun _ _ h => CoupStep.flow h) _ _ h

theorem wf_inSysGraph {M : ModelVars} {R : RelInput} (wf : RelWF M R) {n : Path} (h : n ∈ R.inputs.flatten ∨ n ∈ R.outputs.flatten) : inSysGraph R (compPath (R.absU n)) = true := by
  unfold inSysGraph
  simp [(wf.voi n h).2.2]

theorem between_of_path {M : ModelVars} {R : RelInput} (wf : RelWF M R) {d r v : Path} (hd : d ∈ R.inputs.flatten) (hr : r ∈ R.outputs.flatten)
    (h : OnPath (CoupStep M R.conns) (R.absU d) v (R.absU r)) : Between R d r (compPath v) :=
  ⟨wf_inSysGraph wf (Or.inl hd), wf_inSysGraph wf (Or.inr hr), coup_path_comp h.1, coup_path_comp h.2⟩

theorem mem_ancestors {s q : Path} : q ∈ ancestors s ↔ q ≠ [] ∧ q <+: s.dropLast := by
  unfold ancestors
  simp only [List.mem_map, List.mem_range]
  constructor
  · rintro ⟨i, hi, rfl⟩
    refine ⟨?_, List.take_prefix _ _⟩
    intro h0
    have := congrArg List.length h0
    rw [List.length_take] at this
    simp only [List.length_nil] at this
    omega
  · rintro ⟨hne, hp⟩
    obtain ⟨n, rfl⟩ : ∃ n, n = q.length := ⟨_, rfl⟩
    have hl : 0 < q.length := List.length_pos_of_ne_nil hne
    have := hp.length_le
    refine ⟨q.length - 1, by omega, ?_⟩
    rw [show q.length - 1 + 1 = q.length by omega]
    exact (List.prefix_iff_eq_take.mp hp).symm

theorem encloses_iff {s q : Path} (hs : s ≠ []) : Encloses q s ↔ q = s ∨ q ∈ ancestors s := by
  rw [mem_ancestors]
  unfold Encloses
  constructor
  · rintro ⟨h1, h2⟩
    by_cases hq : q = s
    · exact Or.inl hq
    · right
      refine ⟨h1, ?_⟩
      have hlen : q.length < s.length := by
        rcases Nat.lt_or_eq_of_le h2.length_le with h | h
        · exact h
        · exact absurd (h2.eq_of_length h) hq
      rw [List.prefix_iff_eq_take] at h2 ⊢
      rw [List.dropLast_eq_take, List.take_take, Nat.min_eq_left (by omega)]
      exact h2
  · rintro (rfl | ⟨h1, h2⟩)
    · exact ⟨hs, List.prefix_rfl⟩
    · exact ⟨h1, h2.trans (List.dropLast_prefix s)⟩

theorem relSystems_mem {R : RelInput} {n : Path} {l : List Path} (h : (relComps R).lookup n = some l) (q : Path) :
    isRelevantSystem R (some n) q = .ok (decide (q ∈ l ++ l.flatMap ancestors)) := by
  have h2 := lookup_map_val (fun _ (l : List Path) => l ++ l.flatMap ancestors) (relComps R) n
  rw [h] at h2
  unfold isRelevantSystem relSystems
  simp only
  rw [h2]
  rfl

theorem system_of_inTable {R : RelInput} {n s q : Path} (h : InTable (relComps R) n s) (hs : s ≠ []) (hq : Encloses q s) : isRelevantSystem R (some n) q = .ok true := by
  obtain ⟨l, hl, hm⟩ := h
  rw [relSystems_mem hl]
  congr 1
  rw [decide_eq_true_eq, List.mem_append, List.mem_flatMap]
  rcases (encloses_iff hs).mp hq with rfl | h
  · exact Or.inl hm
  · exact Or.inr ⟨s, hm, h⟩

theorem path_named {M : ModelVars} {R : RelInput} (wf : RelWF M R) {a b : Path} (ha : a ≠ []) (h : Relation.ReflTransGen (CoupStep M R.conns) a b) : b ≠ [] := by
  induction h with
  | refl => exact ha
  | tail _ h2 _ =>
    cases h2 with
    | flow h2 => cases h2 with
      | conn h => exact wf.named _ (Or.inl (wf.target _ h))
      | inner _ h _ => exact wf.named _ (Or.inr h)
    | state _ h _ => exact wf.named _ (Or.inr h)

/-- C52, systems. A system that contains a variable on a path from a design variable to a response (couplings between the states of a component included) is relevant for the response. -/
theorem C52_systems_response {M : ModelVars} {R : RelInput} (wf : RelWF M R) {d r v q : Path} (hd : d ∈ R.inputs.flatten) (hr : r ∈ R.outputs.flatten)
    (h : OnPath (CoupStep M R.conns) (R.absU d) v (R.absU r)) (hq : Encloses q (compPath v)) : isRelevantSystem R (some r) q = .ok true := by
  have hb := between_of_path wf hd hr h
  have hv : v ≠ [] := path_named wf (wf.named _ (Or.inr (wf.voi d (Or.inl hd)).1)) h.1
  exact system_of_inTable ((relComps_spec R).2.2 r hr d hd _ hb).1 (compPath_ne_nil hv) hq

/-- C52, systems (partial). The same for the design variable. Missing: a design variable that is a response too, see `C52_desvar_as_response_refuted`. -/
theorem C52_systems_desvar_partial {M : ModelVars} {R : RelInput} (wf : RelWF M R) {d r v q : Path} (hd : d ∈ R.inputs.flatten) (hr : r ∈ R.outputs.flatten) (hdr : d ∉ R.outputs.flatten)
    (h : OnPath (CoupStep M R.conns) (R.absU d) v (R.absU r)) (hq : Encloses q (compPath v)) : isRelevantSystem R (some d) q = .ok true := by
  have hb := between_of_path wf hd hr h
  have hv : v ≠ [] := path_named wf (wf.named _ (Or.inr (wf.voi d (Or.inl hd)).1)) h.1
  exact system_of_inTable (((relComps_spec R).2.2 r hr d hd _ hb).2 hdr) (compPath_ne_nil hv) hq

/-- C52, systems: nothing else is relevant. A system other than the root is relevant for a design variable only if it contains a component on a path from it to some response. -/
theorem C52_systems_exact {M : ModelVars} {R : RelInput} (wf : RelWF M R) {d q : Path} (hd : d ∈ R.inputs.flatten) (hdr : d ∉ R.outputs.flatten) :
    isRelevantSystem R (some d) q = .ok true ↔ ∃ r ∈ R.outputs.flatten, ∃ c : Path, Encloses q c ∧
      Relation.ReflTransGen (CompStep R) (compPath (R.absU d)) c ∧ Relation.ReflTransGen (CompStep R) c (compPath (R.absU r)) := by
  obtain ⟨k1, k2, k3⟩ := relComps_spec R
  have hne : ∀ c, Relation.ReflTransGen (CompStep R) (compPath (R.absU d)) c → c ≠ [] := by
    intro c hc
    induction hc with
    | refl => exact compPath_ne_nil (wf.named _ (Or.inr (wf.voi d (Or.inl hd)).1))
    | tail _ h _ =>
      obtain ⟨e, he, -, rfl⟩ := h
      exact compPath_ne_nil (wf.named _ (Or.inl (wf.target e he)))
  constructor
  · intro h
    obtain ⟨l, hl⟩ := Option.isSome_iff_exists.mp ((k1 d).mpr (Or.inr hd))
    rw [relSystems_mem hl] at h
    simp only [Except.ok.injEq, decide_eq_true_eq, List.mem_append, List.mem_flatMap] at h
    have hc : ∃ s ∈ l, q = s ∨ q ∈ ancestors s := by
      rcases h with h | ⟨s, hs, h⟩
      · exact ⟨q, h, Or.inl rfl⟩
      · exact ⟨s, hs, Or.inr h⟩
    obtain ⟨s, hs, hq⟩ := hc
    obtain ⟨o, ho, i, hi, ⟨_, _, b1, b2⟩, hdi⟩ := k2 d s ⟨l, hl, hs⟩
    have : d = i := by
      rcases hdi with rfl | h
      · exact absurd ho hdr
      · exact h
    subst this
    exact ⟨o, ho, s, (encloses_iff (hne s b1)).mpr hq, b1, b2⟩
  · rintro ⟨r, hr, c, hq, h1, h2⟩
    exact system_of_inTable ((k3 r hr d hd c ⟨wf_inSysGraph wf (Or.inl hd), wf_inSysGraph wf (Or.inr hr), h1, h2⟩).2 hdr) (hne c h1) hq

/-! ## Variables -/

theorem relevant_of_comps {R : RelInput} {n : Path} {l : List Path} (hl : (relComps R).lookup n = some l) {q : Path} (h : q ∈ relVois R (relComps R) l ++ relConnVars R l) : isRelevant R (some n) q = true := by
  have h2 := lookup_map_val (fun _ (l : List Path) => relVois R (relComps R) l ++ relConnVars R l) (relComps R) n
  rw [hl] at h2
  unfold isRelevant relVars
  simp only
  rw [h2]
  simpa using h

/-- A variable on a path is a response, or it is the source or the target of a connection on the path. -/
theorem on_path_cases {M : ModelVars} {R : RelInput} (wf : RelWF M R) {d r v : Path} (hd : M.unknowns d) (h : OnPath (FlowStep M R.conns) d v r) :
    v = r ∨ (∃ w, (w, v) ∈ R.conns ∧ OnPath (FlowStep M R.conns) d w r) ∨ ∃ w, (v, w) ∈ R.conns ∧ OnPath (FlowStep M R.conns) d w r := by
  obtain ⟨h1, h2⟩ := h
  rcases Relation.ReflTransGen.cases_head h2 with rfl | ⟨w, hw, h3⟩
  · exact Or.inl rfl
  · right
    cases hw with
    | conn hc => exact Or.inl ⟨w, hc, h1.tail (.conn hc), h3⟩
    | inner hp hu he =>
      right
      rcases Relation.ReflTransGen.cases_tail h1 with rfl | ⟨x, hx, h4⟩
      · exact absurd hd (wf.disjoint _ hp)
      · cases h4 with
        | conn hc => exact ⟨x, hc, hx, (Relation.ReflTransGen.single (.conn hc)).trans h2⟩
        | inner _ hu' _ => exact absurd hu' (wf.disjoint _ hp)

theorem var_of_inTable {M : ModelVars} {R : RelInput} (wf : RelWF M R) {d r v n : Path} (hd : d ∈ R.inputs.flatten) (hr : r ∈ R.outputs.flatten)
    (h : OnPath (FlowStep M R.conns) (R.absU d) v (R.absU r)) (hn : ∀ w, OnPath (FlowStep M R.conns) (R.absU d) w (R.absU r) → InTable (relComps R) n (compPath w)) :
    isRelevant R (some n) (R.prom v) = true := by
  obtain ⟨l, hl, hm⟩ := hn v h
  have hin : ∀ w, OnPath (FlowStep M R.conns) (R.absU d) w (R.absU r) → compPath w ∈ l := by
    intro w hw
    obtain ⟨l', hl', hm'⟩ := hn w hw
    rw [hl] at hl'; simp only [Option.some.injEq] at hl'; subst hl'; exact hm'
  refine relevant_of_comps hl ?_
  rw [List.mem_append]
  rcases on_path_cases wf (wf.voi d (Or.inl hd)).1 h with rfl | ⟨w, hc, hw⟩ | ⟨w, hc, hw⟩
  · left
    rw [(wf.voi r (Or.inr hr)).2.1]
    unfold relVois
    rw [List.mem_filter]
    refine ⟨?_, by simpa using hm⟩
    have := ((relComps_spec R).1 r).mpr (Or.inl hr)
    exact (lookup_isSome_iff_mem_keys _ _).mp this
  · right
    unfold relConnVars
    rw [List.mem_flatMap]
    exact ⟨(w, v), hc, by rw [if_pos ⟨hin w hw, hm⟩]; simp⟩
  · right
    unfold relConnVars
    rw [List.mem_flatMap]
    exact ⟨(v, w), hc, by rw [if_pos ⟨hm, hin w hw⟩]; simp⟩

/-- C52 (partial). Every variable on a path from a design variable to a response, along connections and from parameters to unknowns inside components, is relevant for the response.
Missing: paths through the coupling of states, see `C52_state_refuted`. -/
theorem C52_variables_response_partial {M : ModelVars} {R : RelInput} (wf : RelWF M R) {d r v : Path} (hd : d ∈ R.inputs.flatten) (hr : r ∈ R.outputs.flatten)
    (h : OnPath (FlowStep M R.conns) (R.absU d) v (R.absU r)) : isRelevant R (some r) (R.prom v) = true :=
  var_of_inTable wf hd hr h fun _ hw =>
    ((relComps_spec R).2.2 r hr d hd _ (between_of_path wf hd hr ⟨flow_path_coup hw.1, flow_path_coup hw.2⟩)).1

/-- C52 (partial). The same for the design variable, when it is not a response too. -/
theorem C52_variables_desvar_partial {M : ModelVars} {R : RelInput} (wf : RelWF M R) {d r v : Path} (hd : d ∈ R.inputs.flatten) (hr : r ∈ R.outputs.flatten) (hdr : d ∉ R.outputs.flatten)
    (h : OnPath (FlowStep M R.conns) (R.absU d) v (R.absU r)) : isRelevant R (some d) (R.prom v) = true :=
  var_of_inTable wf hd hr h fun _ hw =>
    ((relComps_spec R).2.2 r hr d hd _ (between_of_path wf hd hr ⟨flow_path_coup hw.1, flow_path_coup hw.2⟩)).2 hdr

/-- C52: without a variable of interest, and for names that are neither design variable nor response, no variable is left out; without one no system is. -/
theorem C52_no_voi (R : RelInput) (q : Path) : isRelevant R none q = true ∧ isRelevantSystem R none q = .ok true ∧
    ∀ n, n ∉ R.inputs.flatten → n ∉ R.outputs.flatten → isRelevant R (some n) q = true := by
  refine ⟨rfl, rfl, ?_⟩
  intro n h1 h2
  have hnone : (relComps R).lookup n = none := by
    cases h : (relComps R).lookup n with
    | none => rfl
    | some l =>
      rcases ((relComps_spec R).1 n).mp (by unfold HasKey; rw [h]; rfl) with h3 | h3
      · exact absurd h3 h2
      · exact absurd h3 h1
  have h4 := lookup_map_val (fun _ (l : List Path) => relVois R (relComps R) l ++ relConnVars R l) (relComps R) n
  rw [hnone] at h4
  unfold isRelevant relVars
  simp only
  rw [h4]
  rfl

/-! ## Derivatives -/

open Matrix in
/-- C52 (partial). Forward mode: solving the linear system only for the variables that are relevant for the design variable gives the same derivative of the response as solving it for all
variables. Entry `A b a` is the dependence of residual `b` on variable `a`. -/
theorem C52_forward_derivative_partial {M : ModelVars} {R : RelInput} (wf : RelWF M R) {K : Type} [Field K] {V : Type} [Fintype V] [DecidableEq V] (abs : V → Path) (A : Matrix V V K)
    (hdep : ∀ a b : V, a ≠ b → A b a ≠ 0 → FlowStep M R.conns (abs a) (abs b)) {d r : Path} (hd : d ∈ R.inputs.flatten) (hr : r ∈ R.outputs.flatten) (hdr : d ∉ R.outputs.flatten)
    (vd vr : V) (hvd : abs vd = R.absU d) (hvr : abs vr = R.absU r) (hA : A.det ≠ 0) (c : K) (u : V → K) (hu : A *ᵥ u = Pi.single vd c)
    (hR : (toSquareBlockProp A fun v => isRelevant R (some d) (R.prom (abs v)) = true).det ≠ 0) :
    (∀ (h1 : isRelevant R (some d) (R.prom (abs vd)) = true) (h2 : isRelevant R (some d) (R.prom (abs vr)) = true) (x : {v : V // isRelevant R (some d) (R.prom (abs v)) = true} → K),
      (toSquareBlockProp A fun v => isRelevant R (some d) (R.prom (abs v)) = true) *ᵥ x = Pi.single ⟨vd, h1⟩ c → x ⟨vr, h2⟩ = u vr) ∧
    (isRelevant R (some d) (R.prom (abs vr)) = false → u vr = 0) := by
  have hpath : ∀ a b, Relation.ReflTransGen (Dep A) a b → Relation.ReflTransGen (FlowStep M R.conns) (abs a) (abs b) := by
    intro a b h
    induction h with
    | refl => exact .refl
    | @tail x y _ h2 ih =>
      by_cases he : x = y
      · subst he; exact ih
      · exact ih.tail (hdep x y he h2)
  constructor
  · intro h1 h2 x hx
    refine reduced_solution A _ vd vr ?_ h1 h2 hA hR c u hu x hx
    intro v p1 p2
    have q1 := hpath _ _ p1
    have q2 := hpath _ _ p2
    rw [hvd] at q1; rw [hvr] at q2
    exact C52_variables_desvar_partial wf hd hr hdr ⟨q1, q2⟩
  · intro hirr
    refine no_path_zero A vd vr ?_ hA c u hu
    intro hp
    have q := hpath _ _ hp
    rw [hvd] at q
    have := C52_variables_desvar_partial wf hd hr hdr (v := abs vr) ⟨q, by rw [hvr]⟩
    rw [hirr] at this
    exact absurd this (by simp)

open Matrix in
/-- C52 (partial). Reverse mode: the same with the transposed system and the variables that are relevant for the response. -/
theorem C52_reverse_derivative_partial {M : ModelVars} {R : RelInput} (wf : RelWF M R) {K : Type} [Field K] {V : Type} [Fintype V] [DecidableEq V] (abs : V → Path) (A : Matrix V V K)
    (hdep : ∀ a b : V, a ≠ b → A b a ≠ 0 → FlowStep M R.conns (abs a) (abs b)) {d r : Path} (hd : d ∈ R.inputs.flatten) (hr : r ∈ R.outputs.flatten)
    (vd vr : V) (hvd : abs vd = R.absU d) (hvr : abs vr = R.absU r) (hA : A.det ≠ 0) (c : K) (u : V → K) (hu : Aᵀ *ᵥ u = Pi.single vr c)
    (hR : (toSquareBlockProp Aᵀ fun v => isRelevant R (some r) (R.prom (abs v)) = true).det ≠ 0) :
    (∀ (h1 : isRelevant R (some r) (R.prom (abs vd)) = true) (h2 : isRelevant R (some r) (R.prom (abs vr)) = true) (x : {v : V // isRelevant R (some r) (R.prom (abs v)) = true} → K),
      (toSquareBlockProp Aᵀ fun v => isRelevant R (some r) (R.prom (abs v)) = true) *ᵥ x = Pi.single ⟨vr, h2⟩ c → x ⟨vd, h1⟩ = u vd) ∧
    (isRelevant R (some r) (R.prom (abs vd)) = false → u vd = 0) := by
  have hpath : ∀ a b, Relation.ReflTransGen (Dep Aᵀ) a b → Relation.ReflTransGen (FlowStep M R.conns) (abs b) (abs a) := by
    intro a b h
    induction h with
    | refl => exact .refl
    | @tail x y _ h2 ih =>
      by_cases he : y = x
      · subst he; exact ih
      · exact Relation.ReflTransGen.head (hdep y x he h2) ih
  have hdT : Aᵀ.det ≠ 0 := by rwa [det_transpose]
  constructor
  · intro h1 h2 x hx
    refine reduced_solution Aᵀ _ vr vd ?_ h2 h1 hdT hR c u hu x hx
    intro v p1 p2
    have q1 := hpath _ _ p1
    have q2 := hpath _ _ p2
    rw [hvr] at q1; rw [hvd] at q2
    exact C52_variables_response_partial wf hd hr ⟨q2, q1⟩
  · intro hirr
    refine no_path_zero Aᵀ vr vd ?_ hdT c u hu
    intro hp
    have q := hpath _ _ hp
    rw [hvr] at q
    have := C52_variables_response_partial wf hd hr (v := abs vd) ⟨by rw [hvd], q⟩
    rw [hirr] at this
    exact absurd this (by simp)

/-! ## Cases -/

/-- `p.x` feeds `c.x`, and `c` computes `f`; `x` is a design variable, `f` and `x` are responses. -/
def relExample (outs : List (List Path)) : RelInput where
  systems := [["p"], ["c"]]
  conns := [(["c", "x"], ["p", "x"])]
  absU n := if n = ["x"] then ["p", "x"] else ["c", "f"]
  prom n := if n = ["p", "x"] then ["x"] else if n = ["c", "f"] then ["f"] else n
  inputs := [[["x"]]]
  outputs := outs

/-- The variables of the example. -/
def relExampleVars : ModelVars where
  params v := v = ["c", "x"]
  unknowns v := v = ["p", "x"] ∨ v = ["c", "f"]
  states _ := False

theorem relExample_wf (outs : List (List Path)) (h : ∀ n ∈ outs.flatten, n = ["x"] ∨ n = ["f"]) : RelWF relExampleVars (relExample outs) where
  target := by intro c hc; simp only [relExample, List.mem_singleton] at hc; subst hc; rfl
  source := by intro c hc; simp only [relExample, List.mem_singleton] at hc; subst hc; exact Or.inl rfl
  disjoint := by rintro v rfl h; simp [relExampleVars] at h
  named := by rintro v (rfl | rfl | rfl) <;> simp
  voi := by
    intro n hn
    have : n = ["x"] ∨ n = ["f"] := by
      rcases hn with hn | hn
      · left; simpa [relExample] using hn
      · exact h n hn
    rcases this with rfl | rfl
    · refine ⟨Or.inl (by simp [relExample]), by simp [relExample], by simp [relExample, compPath]⟩
    · refine ⟨Or.inr (by simp [relExample]), by simp [relExample], by simp [relExample, compPath]⟩

theorem relExample_path (outs : List (List Path)) : OnPath (FlowStep relExampleVars (relExample outs).conns) ["p", "x"] ["c", "x"] ["c", "f"] :=
  ⟨.single (.conn (by simp [relExample])), .single (.inner rfl (Or.inr rfl) (by simp [compPath]))⟩

example : RelWF relExampleVars (relExample [[["f"]]]) ∧ ["x"] ∈ (relExample [[["f"]]]).inputs.flatten ∧ ["f"] ∈ (relExample [[["f"]]]).outputs.flatten ∧
    ["x"] ∉ (relExample [[["f"]]]).outputs.flatten ∧ OnPath (FlowStep relExampleVars (relExample [[["f"]]]).conns) ["p", "x"] ["c", "x"] ["c", "f"] :=
  ⟨relExample_wf _ (by simp), by simp [relExample], by simp [relExample], by simp [relExample], relExample_path _⟩

/-- C52 is false of the code: when the design variable `x` is also a response, listed after the response `f`, the component that computes `f` and all its variables become irrelevant for `x`. -/
theorem C52_desvar_as_response_refuted : ∃ (M : ModelVars) (R : RelInput) (d r v : Path), RelWF M R ∧ d ∈ R.inputs.flatten ∧ r ∈ R.outputs.flatten ∧
    OnPath (FlowStep M R.conns) (R.absU d) v (R.absU r) ∧ isRelevant R (some d) (R.prom v) = false ∧ isRelevantSystem R (some d) (compPath v) = .ok false := by
  refine ⟨relExampleVars, relExample [[["f"]], [["x"]]], ["x"], ["f"], ["c", "x"], relExample_wf _ (by simp), by simp [relExample], by simp [relExample], ?_, by decide +kernel, by decide +kernel⟩
  have := relExample_path [[["f"]], [["x"]]]
  simpa [relExample] using this

/-- In the other order it is relevant. -/
example : isRelevant (relExample [[["x"]], [["f"]]]) (some ["x"]) ["c", "x"] = true := by decide +kernel

/-- `p.x` feeds the implicit component `c` with the states `s` and `t`; only `t` is connected, to `e`, which computes `f`. -/
def relStateExample : RelInput where
  systems := [["p"], ["c"], ["e"]]
  conns := [(["c", "x"], ["p", "x"]), (["e", "t"], ["c", "t"])]
  absU n := if n = ["x"] then ["p", "x"] else ["e", "f"]
  prom n := if n = ["p", "x"] then ["x"] else if n = ["e", "f"] then ["f"] else n
  inputs := [[["x"]]]
  outputs := [[["f"]]]

/-- The variables of the example. -/
def relStateVars : ModelVars where
  params v := v = ["c", "x"] ∨ v = ["e", "t"]
  unknowns v := v = ["p", "x"] ∨ v = ["c", "s"] ∨ v = ["c", "t"] ∨ v = ["e", "f"]
  states v := v = ["c", "s"] ∨ v = ["c", "t"]

/-- C52 is false of the code: the state `s` of a relevant implicit component, on which the state `t` depends, is not relevant when it is not connected itself. Its row and column of the linear
system are dropped. -/
theorem C52_state_refuted : ∃ (M : ModelVars) (R : RelInput) (d r v : Path), RelWF M R ∧ d ∈ R.inputs.flatten ∧ r ∈ R.outputs.flatten ∧ d ∉ R.outputs.flatten ∧
    OnPath (CoupStep M R.conns) (R.absU d) v (R.absU r) ∧ isRelevant R (some d) (R.prom v) = false ∧ isRelevant R (some r) (R.prom v) = false := by
  refine ⟨relStateVars, relStateExample, ["x"], ["f"], ["c", "s"], ?_, by simp [relStateExample], by simp [relStateExample], by simp [relStateExample], ?_, by decide +kernel, by decide +kernel⟩
  · constructor
    · intro c hc
      simp only [relStateExample, List.mem_cons, List.not_mem_nil, or_false] at hc
      rcases hc with rfl | rfl <;> simp [relStateVars]
    · intro c hc
      simp only [relStateExample, List.mem_cons, List.not_mem_nil, or_false] at hc
      rcases hc with rfl | rfl <;> simp [relStateVars]
    · rintro v (rfl | rfl) h <;> simp [relStateVars] at h
    · rintro v ((rfl | rfl) | (rfl | rfl | rfl | rfl)) <;> simp
    · intro n hn
      have : n = ["x"] ∨ n = ["f"] := by simpa [relStateExample] using hn
      rcases this with rfl | rfl <;> simp [relStateExample, relStateVars, compPath]
  · have e1 : relStateExample.absU ["x"] = ["p", "x"] := by simp [relStateExample]
    have e2 : relStateExample.absU ["f"] = ["e", "f"] := by simp [relStateExample]
    rw [e1, e2]
    constructor
    · refine Relation.ReflTransGen.tail (.single (.flow (.conn (t := ["c", "x"]) (by simp [relStateExample])))) (.flow (.inner ?_ ?_ ?_)) <;> simp [relStateVars, compPath]
    · refine Relation.ReflTransGen.head (b := ["c", "t"]) (.state ?_ ?_ ?_) (Relation.ReflTransGen.head (b := ["e", "t"]) (.flow (.conn ?_)) (.single (.flow (.inner ?_ ?_ ?_)))) <;>
        simp [relStateVars, relStateExample, compPath]

/-- The root system, whose pathname is empty, is never relevant. -/
theorem finding_C52_root {M : ModelVars} {R : RelInput} (wf : RelWF M R) {d : Path} (hd : d ∈ R.inputs.flatten) (hdr : d ∉ R.outputs.flatten) : isRelevantSystem R (some d) [] ≠ .ok true := by
  intro h
  obtain ⟨r, _, c, he, _⟩ := (C52_systems_exact wf hd hdr).mp h
  exact he.1 rfl

end OpenMDAO
