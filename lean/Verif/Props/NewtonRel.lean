import Verif.Spec.NewtonRel
import Verif.Lemmas.ApplyLinear
import Mathlib.Algebra.Ring.Rat
import Mathlib.Algebra.Field.Rat
import Mathlib.Tactic.NormNum
/-!
# C169: the linear solve of a Newton solver in a group only depends on the group
-/
namespace OpenMDAO

set_option linter.unusedSectionVars false

theorem newtonRel_iff (name path : Str) (params : List Str) (conns : List (Str × Str)) (srcs : List Str) (rel : List Str)
    (hp : ∀ s ∈ srcs, path <+: s) (h : newtonRel name path params conns srcs = some rel) (v : Str) :
    v ∈ rel ↔ InScope params conns srcs v := by
  unfold newtonRel at h
  split at h
  · cases h
  · injection h with h
    rw [← h, List.mem_filter]
    unfold InScope
    refine and_congr_right fun _ => ?_
    cases hl : conns.lookup v with
    | none => simp
    | some s =>
      simp only [Bool.and_eq_true, List.contains_iff_mem, Option.some.injEq, exists_eq_left']
      exact ⟨fun hh => hh.2, fun hh => ⟨List.isPrefixOf_iff_prefix.mpr (hp s hh), hh⟩⟩

/-- **C169 (names).** What a component takes out of the list is exactly its own params that are connected to a source in the group,
although the test of the pathname is a test of a mere prefix. -/
theorem C169_names (name path : Str) (comps params : List Str) (conns : List (Str × Str)) (srcs : List Str) (rel : List Str)
    (hp : ∀ s ∈ srcs, path <+: s) (hw : ParamPaths comps params) (h : newtonRel name path params conns srcs = some rel)
    (c : Str) (hc : c ∈ comps) (n : Str) (hn : '.' ∉ n) :
    n ∈ compRel c (some rel) ↔ InScope params conns srcs (varPath c n) := by
  rw [← newtonRel_iff name path params conns srcs rel hp h]
  have hne := hw.nonempty c hc
  have hs : pathStart c = c.length + 1 := by simp [pathStart, hne]
  unfold compRel nameRelativeTo
  simp only [Option.getD_some, List.mem_map, List.mem_filter, hs]
  constructor
  · rintro ⟨v, ⟨hv, hpre⟩, hd⟩
    have hin := (newtonRel_iff name path params conns srcs rel hp h v).mp hv
    obtain ⟨q, hq, m, hm, rfl⟩ := hw.var v hin.1
    obtain ⟨t, ht⟩ := List.isPrefixOf_iff_prefix.mp hpre
    cases t with
    | nil =>
      rw [List.append_nil] at ht
      exact absurd ht (hw.leaf c hc q hq m)
    | cons ch t =>
      have hd' : t = n := by
        rw [← hd, ← ht, ← List.drop_drop, List.drop_left]
        rfl
      subst hd'
      by_cases hch : ch = '.'
      · subst hch
        unfold varPath
        rw [ht]
        exact hv
      · exfalso
        -- the last dot lies in `c`
        have ht2 : c ++ (ch :: t) = q ++ '.' :: m := ht
        have hnd : '.' ∉ ch :: t := by
          intro hh
          rcases List.mem_cons.mp hh with hh | hh
          · exact hch hh.symm
          · exact hn hh
        rcases List.append_eq_append_iff.mp ht2 with ⟨x, h1, h2⟩ | ⟨x, h1, h2⟩
        · exact hnd (h2 ▸ (by simp : '.' ∈ x ++ '.' :: m))
        · cases x with
          | nil =>
            simp only [List.nil_append] at h2
            injection h2 with h2 _
            exact hch h2.symm
          | cons y x =>
            injection h2 with h2 _
            subst h2
            exact hw.leaf c hc q hq x h1
  · intro hv
    refine ⟨varPath c n, ⟨hv, ?_⟩, ?_⟩
    · exact List.isPrefixOf_iff_prefix.mpr ⟨'.' :: n, rfl⟩
    · unfold varPath
      rw [← List.drop_drop, List.drop_left]
      rfl

variable {K : Type} [CommRing K]

theorem iadd_length (v d w : List K) (h : iadd v d = .ok w) : w.length = v.length := by
  unfold iadd at h
  split at h
  · rename_i hl
    injection h with h
    rw [← h]
    simp [hl]
  · split at h
    · injection h with h
      rw [← h]
      simp
    · cases h

theorem jacTerm_layout (J : Mat K) (out arg out' : DVec K) (o a : String) (h : jacTerm J out o arg a = .ok out') :
    out'.layout = out.layout := by
  unfold jacTerm at h
  cases ho : out.lookup o with
  | none => rw [ho] at h; injection h with h; rw [← h]
  | some v =>
    cases ha : arg.lookup a with
    | none => rw [ho, ha] at h; injection h with h; rw [← h]
    | some x =>
      rw [ho, ha] at h
      simp only at h
      cases hd : J.dot x with
      | error e => rw [hd] at h; cases h
      | ok d =>
        rw [hd] at h
        simp only at h
        cases hi : iadd v d with
        | error e => rw [hi] at h; cases h
        | ok w =>
          rw [hi] at h
          injection h with h
          rw [← h]
          exact layout_put out o v w ho (iadd_length v d w hi)

theorem jacStepFwd_layout (c : LinComp K) (dp du dr dr' : DVec K) (e : (String × String) × Mat K)
    (h : jacStepFwd c dp du dr e = .ok dr') : dr'.layout = dr.layout := by
  unfold jacStepFwd at h
  split at h
  · injection h with h; rw [← h]
  · split at h
    · exact jacTerm_layout _ _ _ _ _ _ h
    · exact jacTerm_layout _ _ _ _ _ _ h

theorem jac_fold_congr (c1 c2 : LinComp K) (dp1 dp2 du : DVec K) (L : List (String × Nat))
    (jac : List ((String × String) × Mat K))
    (h : ∀ e ∈ jac, ∀ dr : DVec K, dr.layout = L → jacStepFwd c1 dp1 du dr e = jacStepFwd c2 dp2 du dr e) :
    ∀ dr : DVec K, dr.layout = L → jac.foldlM (jacStepFwd c1 dp1 du) dr = jac.foldlM (jacStepFwd c2 dp2 du) dr := by
  induction jac with
  | nil => intro dr _; rfl
  | cons e jac ih =>
    intro dr hl
    rw [List.foldlM_cons, List.foldlM_cons, h e (by simp) dr hl]
    cases hs : jacStepFwd c2 dp2 du dr e with
    | error er => rfl
    | ok dr1 => exact ih (fun e' he' => h e' (by simp [he'])) dr1 ((jacStepFwd_layout c2 dp2 du dr dr1 e hs).trans hl)

theorem lookup_scaleBy_rel (f : String → Option K) (d : DVec K) (n : String) :
    (scaleBy f d).lookup n = (d.lookup n).map fun v => match f n with
      | none => v
      | some k => v.map (· * k) := by
  induction d with
  | nil => rfl
  | cons e d ih =>
    unfold scaleBy at ih ⊢
    rw [List.map_cons, List.lookup_cons, List.lookup_cons]
    by_cases hk : n = e.1
    · subst hk
      simp only [beq_self_eq_true, Option.map_some]
      cases f e.1 <;> rfl
    · have : (n == e.1) = false := by simpa using hk
      simp only [this]
      exact ih

/-- The result only depends on what the steps of the product see. -/
theorem sysApplyFwd_congr (c1 c2 : LinComp K) (dp1 dp2 du dr : DVec K) (hjac : c1.jac = c2.jac) (hst : c1.states = c2.states)
    (hsc : c1.scales = c2.scales) (hfd : c1.forceFd = c2.forceFd) (hdo : c1.doApply = c2.doApply) (hgs : c1.gsOuts = c2.gsOuts)
    (h0 : c2.forceFd = true → ∀ jac, c2.jac = some jac → ∀ e ∈ jac, ∀ d : DVec K, d.layout = dr.layout →
      jacStepFwd c1 dp1 du d e = jacStepFwd c2 dp2 du d e)
    (h1 : c2.forceFd = false → ∀ jac, c2.jac = some jac → ∀ e ∈ jac, ∀ d : DVec K, d.layout = dr.layout →
      jacStepFwd c1 (scaleBy c1.unitFactor dp1) du d e = jacStepFwd c2 (scaleBy c2.unitFactor dp2) du d e) :
    (sysApplyFwd c1 dp1 du dr).map LinOut.dr = (sysApplyFwd c2 dp2 du dr).map LinOut.dr := by
  have hres : c1.residFactor = c2.residFactor := by funext n; unfold LinComp.residFactor; rw [hsc]
  have hident : subIdent c1 = subIdent c2 := by
    funext acc frm
    unfold subIdent
    congr 1
    funext a e
    unfold subIdentStep LinComp.ident
    rw [hgs, hst]
  have key : ∀ r1 r2 : Except PyErr (DVec K × DVec K), r1.map Prod.snd = r2.map Prod.snd →
      ((match r1 with
        | .error e => .error e
        | .ok (dp1', dr1) => (subIdent c1 dr1 du).map fun dr2 => (⟨dp1', du, dr2⟩ : LinOut K)) : Except PyErr (LinOut K)).map LinOut.dr =
      ((match r2 with
        | .error e => .error e
        | .ok (dp1', dr1) => (subIdent c2 dr1 du).map fun dr2 => (⟨dp1', du, dr2⟩ : LinOut K)) : Except PyErr (LinOut K)).map LinOut.dr := by
    intro r1 r2 hr
    rw [hident]
    cases r1 with
    | error e =>
      cases r2 with
      | error e' => injection hr with hr; rw [hr]
      | ok v => cases hr
    | ok v =>
      cases r2 with
      | error e' => cases hr
      | ok w =>
        injection hr with hr
        dsimp only
        rw [hr]
        cases subIdent c2 w.2 du <;> rfl
  unfold sysApplyFwd
  refine key _ _ ?_
  unfold applyPartFwd
  rw [hdo, hfd]
  have hz : (zeroVec dr).layout = dr.layout := layout_zeroVec dr
  cases hd : c2.doApply with
  | false => rfl
  | true =>
    cases hf : c2.forceFd with
    | true =>
      dsimp only
      unfold applyLinearJacFwd
      rw [hjac]
      cases hj : c2.jac with
      | none => rfl
      | some jac =>
        dsimp only
        rw [jac_fold_congr c1 c2 dp1 dp2 du dr.layout jac (h0 hf jac hj) _ hz]
        cases List.foldlM (jacStepFwd c2 dp2 du) (zeroVec dr) jac <;> rfl
    | false =>
      dsimp only
      unfold applyLinearJacFwd
      rw [hjac, hres]
      cases hj : c2.jac with
      | none => rfl
      | some jac =>
        dsimp only
        rw [jac_fold_congr c1 c2 _ _ du dr.layout jac (h1 hf jac hj) _ hz]
        cases List.foldlM (jacStepFwd c2 (scaleBy c2.unitFactor dp2) du) (zeroVec dr) jac <;> rfl

theorem jacTerm_congr (J : Mat K) (out : DVec K) (o : String) (arg arg' : DVec K) (a : String)
    (h : arg.lookup a = arg'.lookup a) : jacTerm J out o arg a = jacTerm J out o arg' a := by
  unfold jacTerm
  rw [h]

/-- **C169 (scope).** A component with at least one param that is connected to a source in the group: the product that Newton's
linear solve computes for it is the same for all vectors `dp` that agree on those params. So it does not depend on what linear
solves of groups further up have left in the others. -/
theorem C169_scope_partial (name path : Str) (comps params : List Str) (conns : List (Str × Str)) (srcs : List Str) (rel : List Str)
    (hp : ∀ s ∈ srcs, path <+: s) (hw : ParamPaths comps params) (h : newtonRel name path params conns srcs = some rel)
    (c : Str) (hc : c ∈ comps) (lc : LinComp K) (hdot : ∀ jac, lc.jac = some jac → ∀ e ∈ jac, '.' ∉ e.1.2.toList)
    (hsome : ∃ n, '.' ∉ n ∧ InScope params conns srcs (varPath c n)) (dp dp' du dr : DVec K)
    (hag : AgreeOn (fun n => InScope params conns srcs (varPath c n.toList)) dp dp') :
    (newtonApply lc c (some rel) dp du dr).map LinOut.dr = (newtonApply lc c (some rel) dp' du dr).map LinOut.dr := by
  have hnames := C169_names name path comps params conns srcs rel hp hw h c hc
  obtain ⟨n0, hn0, hin0⟩ := hsome
  have hne : ((compRel c (some rel)).map String.ofList).isEmpty = false := by
    have : n0 ∈ compRel c (some rel) := (hnames n0 hn0).mpr hin0
    cases hl : compRel c (some rel) with
    | nil => rw [hl] at this; cases this
    | cons a l => rfl
  have hstep : ∀ (d1 d2 : DVec K), (∀ n : String, '.' ∉ n.toList → InScope params conns srcs (varPath c n.toList) → d1.lookup n = d2.lookup n) →
      ∀ jac, lc.jac = some jac → ∀ e ∈ jac, ∀ d : DVec K,
      jacStepFwd { lc with relInputs := (compRel c (some rel)).map String.ofList } d1 du d e =
      jacStepFwd { lc with relInputs := (compRel c (some rel)).map String.ofList } d2 du d e := by
    intro d1 d2 hd jac hj e he d
    unfold jacStepFwd
    split
    · rfl
    · split
      · rfl
      · rename_i hskip hstate
        refine jacTerm_congr _ _ _ _ _ _ (hd _ (hdot jac hj e he) ?_)
        rw [← hnames _ (hdot jac hj e he)]
        unfold LinComp.skips at hskip
        simp only [hne, Bool.not_false, Bool.and_true, Bool.and_eq_true, Bool.not_eq_true', not_and, Bool.not_eq_false] at hskip hstate
        have := hskip (by simpa using hstate)
        simp only [List.contains_iff_mem, List.mem_map] at this
        obtain ⟨m, hm, hme⟩ := this
        rw [← hme, String.toList_ofList]
        exact hm
  unfold newtonApply
  refine sysApplyFwd_congr _ _ dp dp' du dr rfl rfl rfl rfl rfl rfl ?_ ?_
  · intro _ jac hj e he d _
    exact hstep dp dp' (fun n _ hi => hag n hi) jac hj e he d
  · intro _ jac hj e he d _
    refine hstep _ _ (fun n _ hi => ?_) jac hj e he d
    rw [lookup_scaleBy_rel, lookup_scaleBy_rel, hag n hi]

theorem put_same (d : DVec K) (n : String) (v : List K) (h : d.lookup n = some v) : d.put n v = d := by
  induction d with
  | nil => rfl
  | cons e d ih =>
    obtain ⟨k, u⟩ := e
    unfold DVec.put
    rw [List.lookup_cons] at h
    by_cases hk : n = k
    · subst hk
      simp only [beq_self_eq_true] at h
      injection h with h
      simp [h]
    · have hkf : (n == k) = false := by simpa using hk
      rw [hkf] at h
      simp [hk, ih h]

theorem zipWith_add_zero (v d : List K) (hl : d.length = v.length) (hd : ∀ x ∈ d, x = 0) : List.zipWith (· + ·) v d = v := by
  induction v generalizing d with
  | nil => simp
  | cons a v ih =>
    cases d with
    | nil => cases hl
    | cons b d =>
      rw [List.zipWith_cons_cons, hd b (by simp), add_zero, ih d (by simpa using hl) (fun x hx => hd x (by simp [hx]))]

/-- The product with a zero vector of the right size changes nothing. -/
theorem jacTerm_zero (J : Mat K) (out arg : DVec K) (o a : String)
    (hs : ∀ m n, out.layout.lookup o = some m → arg.layout.lookup a = some n → J.m = m ∧ J.n = n)
    (hz : ∀ v, arg.lookup a = some v → ∀ x ∈ v, x = 0) : jacTerm J out o arg a = .ok out := by
  unfold jacTerm
  cases ho : out.lookup o with
  | none => rfl
  | some v =>
    cases ha : arg.lookup a with
    | none => rfl
    | some x =>
      obtain ⟨hm, hn⟩ := hs v.length x.length (by rw [lookup_layout, ho]; rfl) (by rw [lookup_layout, ha]; rfl)
      have hx : ∀ j : Nat, x.getD j 0 = 0 := by
        intro j
        rw [List.getD_eq_getElem?_getD]
        cases hj : x[j]? with
        | none => rfl
        | some y => exact hz x ha y (List.mem_of_getElem? hj)
      have hd : J.dot x = .ok ((List.range J.m).map fun _ => (0 : K)) := by
        unfold Mat.dot
        rw [if_pos hn.symm]
        congr 1
        refine List.map_congr_left fun i _ => ?_
        exact Finset.sum_eq_zero fun j _ => by rw [hx j, mul_zero]
      have hi : iadd v ((List.range J.m).map fun _ => (0 : K)) = .ok v := by
        unfold iadd
        rw [if_pos (by simp [hm])]
        congr 1
        exact zipWith_add_zero v _ (by simp [hm]) (by simp)
      simp only [hd, hi]
      rw [put_same out o v ho]

/-- **C169 (nothing of the group is left out).** When the params that are connected to sources outside are zero, the product is the
one without any restriction: for every component, shapes of partials as declared. -/
theorem C169_complete (name path : Str) (comps params : List Str) (conns : List (Str × Str)) (srcs : List Str) (rel : List Str)
    (hp : ∀ s ∈ srcs, path <+: s) (hw : ParamPaths comps params) (h : newtonRel name path params conns srcs = some rel)
    (c : Str) (hc : c ∈ comps) (lc : LinComp K) (jac : List ((String × String) × Mat K)) (hjac : lc.jac = some jac)
    (hdot : ∀ e ∈ jac, '.' ∉ e.1.2.toList) (dp du dr : DVec K)
    (hs : ShapesMatch jac lc.states dp.layout dr.layout)
    (hz : ∀ n v, ¬ InScope params conns srcs (varPath c (String.toList n)) → dp.lookup n = some v → ∀ x ∈ v, x = 0) :
    (newtonApply lc c (some rel) dp du dr).map LinOut.dr =
      (sysApplyFwd { lc with relInputs := [] } dp du dr).map LinOut.dr := by
  have hnames := C169_names name path comps params conns srcs rel hp hw h c hc
  unfold newtonApply
  generalize hR : (compRel c (some rel)).map String.ofList = R
  have hin : ∀ n : String, '.' ∉ n.toList → (n ∈ R ↔ InScope params conns srcs (varPath c n.toList)) := by
    intro n hn
    rw [← hnames _ hn, ← hR, List.mem_map]
    constructor
    · rintro ⟨m, hm, rfl⟩
      rw [String.toList_ofList]; exact hm
    · intro hm
      exact ⟨n.toList, hm, String.ofList_toList⟩
  have hstep : ∀ d1 d2 : DVec K, d2.layout = dp.layout →
      (∀ n : String, (R = [] ∨ n ∈ R) → d1.lookup n = d2.lookup n) →
      (∀ (n : String) v, ¬ InScope params conns srcs (varPath c n.toList) → d2.lookup n = some v → ∀ x ∈ v, x = 0) →
      ∀ e ∈ jac, ∀ d : DVec K, d.layout = dr.layout →
      jacStepFwd { lc with relInputs := R } d1 du d e = jacStepFwd { lc with relInputs := [] } d2 du d e := by
    intro d1 d2 hl hag hzz e he d hd
    unfold jacStepFwd
    have h2 : LinComp.skips { lc with relInputs := ([] : List String) } e.1.2 = false := by simp [LinComp.skips]
    rw [h2]
    simp only [Bool.false_eq_true, if_false]
    by_cases hst : lc.states.contains e.1.2 = true
    · have h1 : LinComp.skips { lc with relInputs := R } e.1.2 = false := by simp only [LinComp.skips, hst]; rfl
      rw [h1]
      simp only [Bool.false_eq_true, if_false, hst, if_true]
    · have hst' : e.1.2 ∉ lc.states := by simpa using hst
      simp only [hst, Bool.false_eq_true, if_false]
      by_cases hr : R = [] ∨ e.1.2 ∈ R
      · have h1 : LinComp.skips { lc with relInputs := R } e.1.2 = false := by
          rcases hr with hr | hr
          · simp [LinComp.skips, hr]
          · simp [LinComp.skips, hr]
        rw [h1]
        simp only [Bool.false_eq_true, if_false]
        exact jacTerm_congr _ _ _ _ _ _ (hag _ hr)
      · push Not at hr
        have h1 : LinComp.skips { lc with relInputs := R } e.1.2 = true := by
          simp [LinComp.skips, hr.1, hr.2, hst']
        rw [h1]
        simp only [if_true]
        symm
        refine jacTerm_zero _ _ _ _ _ (fun m n hm hn => ?_) (fun v hv => hzz _ v ?_ hv)
        · refine hs e he m n (by rw [← hd]; exact hm) ?_
          rw [if_neg hst', ← hl]; exact hn
        · rw [← hin _ (hdot e he)]; exact hr.2
  refine sysApplyFwd_congr _ _ dp dp du dr rfl rfl rfl rfl rfl rfl ?_ ?_
  · intro _ jac' hj e he d hd
    have hj' : lc.jac = some jac' := hj
    rw [hjac] at hj'
    injection hj' with hj'
    subst hj'
    exact hstep dp dp rfl (fun _ _ => rfl) hz e he d hd
  · intro _ jac' hj e he d hd
    have hj' : lc.jac = some jac' := hj
    rw [hjac] at hj'
    injection hj' with hj'
    subst hj'
    refine hstep _ _ (layout_scaleBy _ _) (fun n hn => ?_) (fun n v hn hv x hx => ?_) e he d hd
    · rw [lookup_scaleBy_rel, lookup_scaleBy_rel]
      have : LinComp.unitFactor { lc with relInputs := R } n = LinComp.unitFactor { lc with relInputs := [] } n := by
        unfold LinComp.unitFactor
        rcases hn with hn | hn
        · rw [hn]
        · simp [hn]
      rw [this]
    · rw [lookup_scaleBy_rel] at hv
      cases hl : dp.lookup n with
      | none => rw [hl] at hv; cases hv
      | some w =>
        rw [hl] at hv
        have hw0 := hz n w hn hl
        injection hv with hv
        split at hv
        · rw [← hv] at hx; exact hw0 x hx
        · rw [← hv] at hx
          obtain ⟨y, hy, rfl⟩ := List.mem_map.mp hx
          rw [hw0 y hy, zero_mul]

/-! ## Concrete cases and refutations -/

/-- Group `g` with components `d` (`y = 3 x`, `x` from outside the group) and `e` (`z = 2 y + 5 w`, `w` from outside). -/
def nrParams : List Str := [['g', '.', 'd', '.', 'x'], ['g', '.', 'e', '.', 'y'], ['g', '.', 'e', '.', 'w']]

def exRConns : List (Str × Str) :=
  [(['g', '.', 'd', '.', 'x'], ['p', '.', 'x']), (['g', '.', 'e', '.', 'y'], ['g', '.', 'd', '.', 'y']),
   (['g', '.', 'e', '.', 'w'], ['p', '.', 'x'])]

def nrSrcs : List Str := [['g', '.', 'd', '.', 'y'], ['g', '.', 'e', '.', 'z']]

def nrRel : List Str := [['g', '.', 'e', '.', 'y']]

def nrD : LinComp ℚ := ⟨some [(("y", "x"), ⟨1, 1, fun _ _ => 3⟩)], [], [], [], true, [], false, true, none⟩

def nrE : LinComp ℚ :=
  ⟨some [(("z", "y"), ⟨1, 1, fun _ _ => 2⟩), (("z", "w"), ⟨1, 1, fun _ _ => 5⟩)], [], [], [], true, [], false, true, none⟩

example : newtonRel ['g'] ['g'] nrParams exRConns nrSrcs = some nrRel := by decide

theorem ex_paths : ParamPaths [['g', '.', 'd'], ['g', '.', 'e']] nrParams := by
  refine ⟨?_, by decide, ?_⟩
  · intro v hv
    simp only [nrParams, List.mem_cons, List.not_mem_nil, or_false] at hv
    rcases hv with rfl | rfl | rfl
    · exact ⟨['g', '.', 'd'], by simp, ['x'], by decide, rfl⟩
    · exact ⟨['g', '.', 'e'], by simp, ['y'], by decide, rfl⟩
    · exact ⟨['g', '.', 'e'], by simp, ['w'], by decide, rfl⟩
  · intro a ha b hb m h
    have hl := congrArg List.length h
    simp only [List.mem_cons, List.not_mem_nil, or_false] at ha hb
    rcases ha with rfl | rfl <;> rcases hb with rfl | rfl <;> simp [varPath] at hl

/-- The component `e` meets the hypothesis of `C169_scope_partial`, the component `d` does not. -/
example : (∃ n, '.' ∉ n ∧ InScope nrParams exRConns nrSrcs (varPath ['g', '.', 'e'] n)) :=
  ⟨['y'], by decide, by decide, ['g', '.', 'd', '.', 'y'], by decide, by decide⟩

/-- The out-of-scope input `w` of `e` is left out: whatever is in it, the product is the same. -/
example : (newtonApply nrE ['g', '.', 'e'] (some nrRel) [("y", [1]), ("w", [7])] [("z", [0])] [("z", [0])]).map LinOut.dr =
    .ok [("z", [2])] := by decide +kernel

/-- **Refutation.** A component whose inputs all come from outside the group: its list is empty, which the code takes for "no
restriction". With a value left in `dp` by a linear solve further up, the operator of Newton's linear solve maps the zero vector
to something else than zero. -/
theorem C169_outside_refuted : ∃ (name path : Str) (comps params : List Str) (conns : List (Str × Str)) (srcs rel : List Str)
    (c : Str) (lc : LinComp ℚ) (dp : DVec ℚ),
    (∀ s ∈ srcs, path <+: s) ∧ ParamPaths comps params ∧ newtonRel name path params conns srcs = some rel ∧ c ∈ comps ∧
    (∀ n, ¬ InScope params conns srcs (varPath c n)) ∧
    (newtonApply lc c (some rel) dp [("y", [0])] [("y", [0])]).map LinOut.dr = .ok [("y", [3])] := by
  refine ⟨['g'], ['g'], [['g', '.', 'd'], ['g', '.', 'e']], nrParams, exRConns, nrSrcs, nrRel, ['g', '.', 'd'], nrD, [("x", [1])],
    ?_, ex_paths, by decide, by decide, ?_, by decide +kernel⟩
  · intro s hs
    simp only [nrSrcs, List.mem_cons, List.not_mem_nil, or_false] at hs
    rcases hs with rfl | rfl <;> exact ⟨_, rfl⟩
  · rintro n ⟨hm, s, hs, hi⟩
    simp only [nrParams, List.mem_cons, List.not_mem_nil, or_false, varPath] at hm
    rcases hm with hm | hm | hm
    · rw [show varPath ['g', '.', 'd'] n = ['g', '.', 'd', '.', 'x'] from hm] at hs
      have : (exRConns.lookup ['g', '.', 'd', '.', 'x']) = some ['p', '.', 'x'] := by decide
      rw [this] at hs
      injection hs with hs
      subst hs
      exact absurd hi (by decide)
    · simp at hm
    · simp at hm

/-- **Refutation.** A child group that is finite-differenced does not get the list at all: `w` counts although it comes from outside
the group and the list names `y` only. -/
theorem C169_fd_group_refuted : ∃ (lc : LinComp ℚ) (dp dp' : DVec ℚ), lc.relInputs = ["y"] ∧
    AgreeOn (fun n => InScope nrParams exRConns nrSrcs (varPath ['g', '.', 'e'] n.toList)) dp dp' ∧
    (newtonApplyFd lc dp [("z", [0])] [("z", [0])]).map LinOut.dr ≠ (newtonApplyFd lc dp' [("z", [0])] [("z", [0])]).map LinOut.dr := by
  refine ⟨{ nrE with relInputs := ["y"] }, [("y", [1]), ("w", [0])], [("y", [1]), ("w", [7])], rfl, ?_, by decide +kernel⟩
  rintro n ⟨hm, s, hs, hi⟩
  by_cases hn : n = "y"
  · subst hn; rfl
  · exfalso
    simp only [nrParams, List.mem_cons, List.not_mem_nil, or_false, varPath, List.cons_append, List.nil_append, List.cons.injEq,
      true_and] at hm
    rcases hm with hm | hm | hm
    · simp at hm
    · exact hn (String.toList_injective hm)
    · have hv : varPath ['g', '.', 'e'] n.toList = ['g', '.', 'e', '.', 'w'] := by rw [hm]; rfl
      rw [hv] at hs
      have : (exRConns.lookup ['g', '.', 'e', '.', 'w']) = some ['p', '.', 'x'] := by decide
      rw [this] at hs
      injection hs with hs
      subst hs
      exact absurd hi (by decide)

end OpenMDAO
