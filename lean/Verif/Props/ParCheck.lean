import Verif.Spec.ParCheck
/-!
# C178: the check for parallel derivatives
-/
namespace OpenMDAO

mutual
theorem PdTree.groups_iff : ∀ (t g : PdTree), g ∈ t.groups ↔ PdTree.Below g t
  | .node n l m subs, g => by
    have h := pdGroups_iff subs g
    unfold PdTree.groups
    rw [h]
    constructor
    · rintro ⟨t, ht, rfl | hb⟩
      · exact .sub ht
      · exact .deep ht hb
    · intro h
      cases h with
      | sub ht => exact ⟨g, ht, Or.inl rfl⟩
      | deep ht hb => exact ⟨_, ht, Or.inr hb⟩

theorem pdGroups_iff : ∀ (ts : List PdTree) (g : PdTree), g ∈ pdGroups ts ↔ ∃ t ∈ ts, g = t ∨ PdTree.Below g t
  | [], g => by unfold pdGroups; simp
  | t :: ts, g => by
    have h1 := PdTree.groups_iff t g
    have h2 := pdGroups_iff ts g
    unfold pdGroups
    rw [List.cons_append, List.mem_cons, List.mem_append, h1, h2]
    simp [or_assoc]
end

theorem voiLoop_ok (known : List String) (vs : List (List String)) : ∀ par b, voiLoop known par vs = .ok b →
    (∀ g ∈ vs, ∀ v ∈ g, v ∈ known) ∧ (b = true ↔ par = true ∨ ∃ g ∈ vs, 1 < g.length) := by
  induction vs with
  | nil => intro par b h; cases h; simp
  | cons g vs ih =>
    intro par b h
    unfold voiLoop at h
    split at h
    · rename_i ha
      obtain ⟨h1, h2⟩ := ih _ _ h
      refine ⟨fun g' hg => ?_, ?_⟩
      · rcases List.mem_cons.1 hg with rfl | hg
        · simpa using ha
        · exact h1 g' hg
      · rw [h2]
        by_cases hl : 1 < g.length <;> simp [hl]
    · cases h

theorem voiLoop_error (known : List String) (vs : List (List String)) : ∀ par e, voiLoop known par vs = .error e →
    e = .NameError ∧ ∃ g ∈ vs, ∃ v ∈ g, v ∉ known := by
  induction vs with
  | nil => intro par e h; cases h
  | cons g vs ih =>
    intro par e h
    unfold voiLoop at h
    split at h
    · obtain ⟨h1, g', hg, h2⟩ := ih _ _ h
      exact ⟨h1, g', List.mem_cons_of_mem _ hg, h2⟩
    · rename_i ha
      cases h
      simp only [List.all_eq_true, decide_eq_true_eq, not_forall] at ha
      obtain ⟨v, hv, hn⟩ := ha
      exact ⟨rfl, g, List.mem_cons_self, v, hv, hn⟩

/-- What is known when the check is passed. -/
theorem setupVois_ok {P : PdProb} {m : DMode} {errs : List (String × DMode)} (h : setupVois P = .ok (m, errs)) :
    (∀ g ∈ P.pois ++ P.oois, ∀ v ∈ g, v ∈ P.unknowns) ∧ chooseMode .auto P.root.mode P.pois P.oois P.vars = .ok m ∧
    ∀ n sm, (n, sm) ∈ errs ↔ P.root.lgs = true ∧ P.reduction = true ∧ (∃ grp ∈ P.seeds m, 1 < grp.length) ∧
      ∃ g, PdTree.Below g P.root ∧ g.Against m ∧ g.name = n ∧ g.mode = sm := by
  unfold setupVois at h
  cases hp : voiLoop P.unknowns false P.pois with
  | error e => rw [hp] at h; cases h
  | ok parP =>
    cases hu : voiLoop P.unknowns false P.oois with
    | error e => rw [hp, hu] at h; cases h
    | ok parU =>
      rw [hp, hu] at h
      obtain ⟨p1, p2⟩ := voiLoop_ok _ _ _ _ hp
      obtain ⟨u1, u2⟩ := voiLoop_ok _ _ _ _ hu
      unfold checkParDerivs at h
      cases hm : chooseMode .auto P.root.mode P.pois P.oois P.vars with
      | error e => rw [hm] at h; cases h
      | ok m' =>
        rw [hm] at h
        cases h
        refine ⟨?_, rfl, fun n sm => ?_⟩
        · intro g hg
          rcases List.mem_append.1 hg with hg | hg
          · exact p1 g hg
          · exact u1 g hg
        · have hpar : (if m = .fwd then parP else parU) = true ↔ ∃ grp ∈ P.seeds m, 1 < grp.length := by
            unfold PdProb.seeds
            by_cases hf : m = .fwd
            · simp only [hf, if_true]; rw [p2]; simp
            · simp only [hf, if_false]; rw [u2]; simp
          generalize (if m = .fwd then parP else parU) = par at hpar ⊢
          split
          · rename_i hc
            rw [hpar] at hc
            simp only [hc.1, hc.2.1, hc.2.2, true_and, List.mem_map, List.mem_filter, PdTree.groups_iff, Prod.mk.injEq]
            constructor
            · rintro ⟨g, ⟨hb, ha⟩, rfl, rfl⟩
              refine ⟨g, hb, ?_, rfl, rfl⟩
              simp at ha
              exact ⟨ha.1, ha.2.2, ha.2.1⟩
            · rintro ⟨g, hb, ha, rfl, rfl⟩
              refine ⟨g, ⟨hb, ?_⟩, rfl, rfl⟩
              simp [ha.1, ha.2.1, ha.2.2]
          · rename_i hc
            rw [hpar] at hc
            simp only [List.not_mem_nil, false_iff]
            rintro ⟨h1, h2, h3, _⟩
            exact hc ⟨h1, h2, h3⟩

/-- **C178 (what is reported).** With the option `single_voi_relevance_reduction` exactly the groups are reported whose solver is set to the other
mode, at any depth, if variables are seeded together in the mode of the problem. Missing: the problem without the option (see the refutation). -/
theorem C178_reported_partial (P : PdProb) (hr : P.reduction = true) (m : DMode) (errs : List (String × DMode)) (h : setupVois P = .ok (m, errs))
    (n : String) (sm : DMode) :
    (n, sm) ∈ errs ↔ P.root.lgs = true ∧ (∃ grp ∈ P.seeds m, 1 < grp.length) ∧
      ∃ g, PdTree.Below g P.root ∧ g.Against m ∧ g.name = n ∧ g.mode = sm := by
  rw [(setupVois_ok h).2.2 n sm]
  simp [hr]

/-- **C178 (no false alarm).** Whatever the options, a group that is reported is set to the other mode, and variables are seeded together. -/
theorem C178_sound (P : PdProb) (m : DMode) (errs : List (String × DMode)) (h : setupVois P = .ok (m, errs)) (n : String) (sm : DMode)
    (hn : (n, sm) ∈ errs) : P.root.lgs = true ∧ (∃ grp ∈ P.seeds m, 1 < grp.length) ∧
      ∃ g, PdTree.Below g P.root ∧ g.Against m ∧ g.name = n ∧ g.mode = sm := by
  obtain ⟨h1, _, h2⟩ := ((setupVois_ok h).2.2 n sm).1 hn
  exact ⟨h1, h2⟩

theorem seedGroup_mem {P : PdProb} {m : DMode} {grp : List String} {keys : List (Option String)} (h : seedGroup P m grp = .ok keys) (v : String)
    (hv : v ∈ grp) (k : String) (hk : pdVoiKey P v grp = some k) : k ∈ (P.seeds m).flatten := by
  unfold seedGroup at h
  obtain ⟨y, hy⟩ : ∃ y, (match pdVoiKey P v grp with
    | none => .ok none
    | some k => if k ∈ (if m = .fwd then P.pois else P.oois).flatten then .ok (some k) else .error PyErr.KeyError : Except PyErr (Option String)) = .ok y := by
    clear hk
    generalize hg : grp = full at h ⊢
    have hsub : v ∈ full := hg ▸ hv
    clear hg hv
    suffices H : ∀ (l : List String) (ks : List (Option String)), v ∈ l → (l.mapM fun voi => (match pdVoiKey P voi full with
      | none => .ok none
      | some k => if k ∈ (if m = .fwd then P.pois else P.oois).flatten then .ok (some k) else .error PyErr.KeyError : Except PyErr (Option String))) = .ok ks →
      ∃ y, (match pdVoiKey P v full with
      | none => .ok none
      | some k => if k ∈ (if m = .fwd then P.pois else P.oois).flatten then .ok (some k) else .error PyErr.KeyError : Except PyErr (Option String)) = .ok y from
      H full keys hsub h
    intro l
    induction l with
    | nil => intro ks hl; cases hl
    | cons w l ih =>
      intro ks hl h
      rw [List.mapM_cons] at h
      generalize hw : (match pdVoiKey P w full with
        | none => .ok none
        | some k => if k ∈ (if m = .fwd then P.pois else P.oois).flatten then .ok (some k) else .error PyErr.KeyError : Except PyErr (Option String)) = r at h
      cases r with
      | error e => cases h
      | ok y =>
        rcases List.mem_cons.1 hl with rfl | hl
        · exact ⟨y, hw⟩
        · generalize hr : (l.mapM fun voi => (match pdVoiKey P voi full with
            | none => .ok none
            | some k => if k ∈ (if m = .fwd then P.pois else P.oois).flatten then .ok (some k) else .error PyErr.KeyError :
              Except PyErr (Option String))) = r at h
          cases r with
          | error e => cases h
          | ok ys => exact ih ys hl hr
  rw [hk] at hy
  by_contra hn
  have hn' : k ∉ (if m = .fwd then P.pois else P.oois).flatten := hn
  dsimp only at hy
  rw [if_neg hn'] at hy
  cases hy

theorem chooseMode_known {ln : DMode} {a b : List (List String)} {vars : List (String × Nat)} {m : DMode} (h : chooseMode .auto ln a b vars = .ok m) :
    m = .fwd ∨ m = .rev := by
  unfold chooseMode at h
  dsimp only at h
  split at h
  · cases h
  · split at h
    · cases h
    · cases h
      cases ln
      · simp
      · simp
      · simp only [if_true]
        split <;> simp

/-- **C178 (solved together).** Suppose `setup` reports nothing, and a gradient in any mode seeds more than one variable together, with keys of their
own. Then no group is set to the other mode. No variable is both a design variable and a response. Missing: the problem without the option (see the refutation). -/
theorem C178_together_partial (P : PdProb) (hr : P.reduction = true) (m : DMode) (h : setupVois P = .ok (m, []))
    (hdis : ∀ v ∈ P.pois.flatten, v ∉ P.oois.flatten) (c : DMode) (hc : c = .fwd ∨ c = .rev)
    (grp : List String) (hg : grp ∈ P.seeds c) (hl : 1 < grp.length) (keys : List (Option String)) (hk : seedGroup P m grp = .ok keys)
    (v : String) (hv : v ∈ grp) (hs : pdVoiKey P v grp = some v) (g : PdTree) (hb : PdTree.Below g P.root) : ¬ g.Against c := by
  have hin := seedGroup_mem hk v hv v hs
  have hm := chooseMode_known (setupVois_ok h).2.1
  have hvc : v ∈ (P.seeds c).flatten := List.mem_flatten.2 ⟨grp, hg, hv⟩
  have hcm : c = m := by
    rcases hc with rfl | rfl <;> rcases hm with rfl | rfl
    · rfl
    · exact absurd hin (hdis v hvc)
    · exact absurd hvc (hdis v hin)
    · rfl
  subst hcm
  intro ha
  have hlgs : P.root.lgs = true := by
    unfold pdVoiKey at hs
    split at hs
    · rename_i hc; exact hc.2
    · cases hs
  have := ((setupVois_ok h).2.2 g.name g.mode).2 ⟨hlgs, hr, ⟨grp, hg, hl⟩, g, hb, ha, rfl, rfl⟩
  cases this

/-- **C178 (names).** A variable of interest that is not an unknown is a `NameError`; otherwise the mode is the one `_mode` chooses. -/
theorem C178_names (P : PdProb) :
    ((∃ g ∈ P.pois ++ P.oois, ∃ v ∈ g, v ∉ P.unknowns) → setupVois P = .error .NameError) ∧
    (∀ m errs, setupVois P = .ok (m, errs) → chooseMode .auto P.root.mode P.pois P.oois P.vars = .ok m) := by
  refine ⟨?_, fun m errs h => (setupVois_ok h).2.1⟩
  rintro ⟨g, hg, v, hv, hn⟩
  unfold setupVois
  cases hp : voiLoop P.unknowns false P.pois with
  | error e => rw [(voiLoop_error _ _ _ _ hp).1]
  | ok parP =>
    cases hu : voiLoop P.unknowns false P.oois with
    | error e => rw [(voiLoop_error _ _ _ _ hu).1]
    | ok parU =>
      rcases List.mem_append.1 hg with hg | hg
      · exact absurd ((voiLoop_ok _ _ _ _ hp).1 g hg v hv) hn
      · exact absurd ((voiLoop_ok _ _ _ _ hu).1 g hg v hv) hn

/-! ## Concrete problems -/

/-- Two parameters `x`, `y` in one group, an output `z` with two entries; a group `h` in the group `g` is set to `rev`. -/
def pdEx (reduction : Bool) : PdProb where
  root := .node "" true .fwd [.node "g" true .auto [.node "h" true .rev []]]
  reduction := reduction
  unknowns := ["x", "y", "z"]
  vars := [("x", 1), ("y", 1), ("z", 2)]
  pois := [["x", "y"]]
  oois := [["z"]]

theorem pdEx_mode (b : Bool) : chooseMode .auto (pdEx b).root.mode (pdEx b).pois (pdEx b).oois (pdEx b).vars = .ok .fwd := by
  simp [chooseMode, pdEx, nameSet, modeStep, PdTree.mode, List.dedup_cons_of_notMem]

theorem pdEx_setup (b : Bool) : setupVois (pdEx b) = .ok (.fwd, if b then [("h", .rev)] else []) := by
  have hp : voiLoop (pdEx b).unknowns false (pdEx b).pois = .ok true := by simp [voiLoop, pdEx]
  have hu : voiLoop (pdEx b).unknowns false (pdEx b).oois = .ok false := by simp [voiLoop, pdEx]
  unfold setupVois
  rw [hp, hu]
  dsimp only
  unfold checkParDerivs
  rw [pdEx_mode]
  cases b <;> simp [pdEx, PdTree.lgs, PdTree.groups, pdGroups, PdTree.mode, PdTree.name]

/-- With the option the group `h` is reported. -/
example : (pdEx true).reduction = true ∧ setupVois (pdEx true) = .ok (.fwd, [("h", .rev)]) := ⟨rfl, pdEx_setup true⟩

/-- The same problem with no mode given for `h`. -/
def pdGood : PdProb := { pdEx true with root := .node "" true .fwd [.node "g" true .auto [.node "h" true .auto []]] }

example : setupVois pdGood = .ok (.fwd, []) ∧ ["x", "y"] ∈ pdGood.seeds .fwd ∧ pdVoiKey pdGood "x" ["x", "y"] = some "x" ∧
    seedGroup pdGood .fwd ["x", "y"] = .ok [some "x", some "y"] := by
  refine ⟨?_, by simp [PdProb.seeds, pdGood, pdEx], by simp [pdVoiKey, pdGood, pdEx, PdTree.lgs],
    by simp [seedGroup, List.mapM_cons, pdVoiKey, pdGood, pdEx, PdTree.lgs]; rfl⟩
  have hm : chooseMode .auto pdGood.root.mode pdGood.pois pdGood.oois pdGood.vars = .ok .fwd := pdEx_mode true
  have hp : voiLoop pdGood.unknowns false pdGood.pois = .ok true := by simp [voiLoop, pdGood, pdEx]
  have hu : voiLoop pdGood.unknowns false pdGood.oois = .ok false := by simp [voiLoop, pdGood, pdEx]
  unfold setupVois
  rw [hp, hu]
  dsimp only
  unfold checkParDerivs
  rw [hm]
  simp [pdGood, pdEx, PdTree.lgs, PdTree.groups, pdGroups, PdTree.mode]

/-- An output that does not exist. -/
example : setupVois { pdEx true with oois := [["w"]] } = .error .NameError :=
  (C178_names _).1 ⟨["w"], by simp, "w", by simp, by simp [pdEx]⟩

/-- **Refutation: without the option.** By default `single_voi_relevance_reduction` is off. Then nothing is reported, but the variables of a group are
solved for together all the same. -/
theorem C178_option_refuted : ∃ (P : PdProb) (g : PdTree), setupVois P = .ok (.fwd, []) ∧ ["x", "y"] ∈ P.seeds .fwd ∧
    seedGroup P .fwd ["x", "y"] = .ok [some "x", some "y"] ∧ PdTree.Below g P.root ∧ g.Against .fwd := by
  refine ⟨pdEx false, .node "h" true .rev [], pdEx_setup false, ?_, ?_, ?_, rfl, ?_, ?_⟩
  · simp [PdProb.seeds, pdEx]
  · simp [seedGroup, List.mapM_cons, pdVoiKey, pdEx, PdTree.lgs]
    rfl
  · exact .deep (List.mem_singleton.2 rfl) (.sub (List.mem_singleton.2 rfl))
  · simp [PdTree.mode]
  · simp [PdTree.mode]

/-- Outputs `x`, `y` in one group, a parameter `z`; the group `g` is set to `fwd`. -/
def pdCall : PdProb where
  root := .node "" true .fwd [.node "g" true .fwd []]
  reduction := true
  unknowns := ["x", "y", "z"]
  vars := [("x", 1), ("y", 1), ("z", 2)]
  pois := [["z"]]
  oois := [["x", "y"]]

/-- A finding: a mode given to `calc_gradient` that is not the one found by `setup`. There are no vectors for a group of two outputs, and the call ends
with a `KeyError`. -/
theorem finding_other_mode : setupVois pdCall = .ok (.fwd, []) ∧ chooseMode .rev pdCall.root.mode pdCall.pois pdCall.oois pdCall.vars = .ok .rev ∧
    ["x", "y"] ∈ pdCall.seeds .rev ∧ seedGroup pdCall .fwd ["x", "y"] = .error .KeyError := by
  refine ⟨?_, ?_, ?_, ?_⟩
  · have hm : chooseMode .auto pdCall.root.mode pdCall.pois pdCall.oois pdCall.vars = .ok .fwd := by
      simp [chooseMode, pdCall, nameSet, modeStep, PdTree.mode, List.dedup_cons_of_notMem]
    have hp : voiLoop pdCall.unknowns false pdCall.pois = .ok false := by simp [voiLoop, pdCall]
    have hu : voiLoop pdCall.unknowns false pdCall.oois = .ok true := by simp [voiLoop, pdCall]
    unfold setupVois
    rw [hp, hu]
    dsimp only
    unfold checkParDerivs
    rw [hm]
    simp
  · simp [chooseMode, pdCall, nameSet, modeStep, List.dedup_cons_of_notMem]
  · simp [PdProb.seeds, pdCall]
  · simp [seedGroup, List.mapM_cons, pdVoiKey, pdCall, PdTree.lgs]
    rfl

end OpenMDAO
