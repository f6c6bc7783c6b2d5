import Verif.Spec.GradFd
import Verif.Props.FiniteDiff
import Verif.Lemmas.List
import Verif.Lemmas.Connections
import Verif.Props.Promotes
import Mathlib.Data.List.Nodup
/-! # C116: `calc_gradient` by finite differences -/
namespace OpenMDAO
set_option linter.unusedSectionVars false

variable {K : Type} [Field K] [LinearOrder K] [IsStrictOrderedRing K]

/-- A block as delivered by `fd_jacobian` for the pair `u`, `x`. -/
def RawBlock (G : GradEnv K) (F : FdSt K → Nat → K) (s : FdSt K) (v : FdVar K) (u x : String) (M : TMat K) : Prop :=
  M.m = (gradSel G.fd.uslices G.fd.qoi u).length ∧ M.n = (gradSel G.fd.uslices G.fd.poi x).length ∧
  ∀ (a b o q : Nat), (gradSel G.fd.uslices G.fd.qoi u)[a]? = some o → (gradSel G.fd.uslices G.fd.poi x)[b]? = some q →
    M.a a b = diffQuot v.form F s s.u .unknowns q (stepFor v (s.u q)) o

theorem firstTarget_spec (conns : List (String × String)) (a : String) (h : ∃ c ∈ conns, c.2 = a) :
    ∃ t, firstTarget conns a = some t ∧ (t, a) ∈ conns := by
  unfold firstTarget
  cases hf : conns.find? fun c => c.2 == a with
  | none =>
    rw [List.find?_eq_none] at hf
    obtain ⟨c, hc, he⟩ := h
    exact absurd (by simp [he]) (hf c hc)
  | some c =>
    have h1 := List.find?_some hf
    have h2 := List.mem_of_find?_eq_some hf
    simp only [beq_iff_eq] at h1
    refine ⟨c.1, rfl, ?_⟩
    rw [← h1]
    exact h2

theorem firstTarget_none (conns : List (String × String)) (a : String) (h : ∀ c ∈ conns, c.2 ≠ a) : firstTarget conns a = none := by
  unfold firstTarget
  rw [List.find?_eq_none.2]
  · rfl
  · intro c hc
    simpa using h c hc

theorem paramOfProm_spec (toProm : List (String × String)) (k : String) : ∀ (keys : List String),
    (∀ key ∈ keys, ∃ p, toProm.lookup key = some p ∧ (p = k → key = p)) → paramOfProm toProm k keys = .ok k := by
  intro keys
  induction keys with
  | nil => intro _; rfl
  | cons key rest ih =>
    intro h
    obtain ⟨p, h1, h2⟩ := h key List.mem_cons_self
    unfold paramOfProm
    rw [h1]
    by_cases hp : p = k
    · simp only [hp, if_true]
      rw [h2 hp, hp]
    · simp only [hp, if_false]
      exact ih fun x hx => h x (List.mem_cons_of_mem _ hx)

/-- The key of a target is the target itself. -/
theorem fdIkey_target (G : GradEnv K) (inP inU : Nat → Prop) (F : FdSt K → Nat → K) (indep unknown : List String)
    (h : GradOk G inP inU F indep unknown) (t a : String) (ht : (t, a) ∈ G.fd.conns) : fdIkey G t = .ok t := by
  unfold fdIkey
  by_cases hp : (G.fd.pslices.lookup t).isSome
  · rw [if_pos hp]
  · rw [if_neg hp, firstTarget_none _ _ fun c hc => (h.targets.2 (t, a) ht c hc).symm]
    simp only [Option.getD_none]
    rw [if_neg hp]
    apply paramOfProm_spec
    intro key hkey
    obtain ⟨p, h1, h2⟩ := h.params key hkey
    exact ⟨p, h1, fun e => h2 (t, a) ht e⟩

theorem picked_qoi (E : FdEnv K) (u : String) : gradSel E.uslices E.qoi u = rowsOf E u := rfl

/-- What the names of the request resolve to. -/
theorem resolve_spec (G : GradEnv K) (inP inU : Nat → Prop) (F : FdSt K → Nat → K) (indep unknown : List String)
    (h : GradOk G inP inU F indep unknown) (x : String) (hx : x ∈ indep) :
    ∃ v, absParam G x = .ok v.name ∧ PerturbedBy G x v ∧ v.sel = .unknowns ∧ 0 < v.fdstep ∧ fdIkey G v.name = .ok v.name ∧
      gradSel G.fd.uslices G.fd.poi x = (fdIdxs G.fd v).map (v.start + ·) ∧ ∀ i ∈ fdIdxs G.fd v, i < v.size ∧ inU (v.start + i) := by
  obtain ⟨s, n, a, h1, h2, h3, h4, h5, h6⟩ := h.indep x hx
  obtain ⟨t, t1, t2⟩ := firstTarget_spec G.fd.conns a h3
  have hlook : G.fd.conns.lookup t = some a := (lookup_eq_some_iff_of_nodup G.fd.conns t a h.targets.1).2 t2
  have hkey : fdSrcKey G.fd a = .ok x := by
    unfold fdSrcKey
    rcases h4 with rfl | ⟨h4, h4'⟩
    · rw [h1]; rfl
    · rw [h4, h4']; rfl
  have hvar : fdVar G.fd t = .ok ⟨t, .unknowns, s, n, some x, (fdOpts G.fd t).1, (fdOpts G.fd t).2.1, (fdOpts G.fd t).2.2⟩ := by
    unfold fdVar
    rw [hlook]
    simp only [hkey, fdSlice, h1]
    rfl
  have hpick : gradSel G.fd.uslices G.fd.poi x =
      (fdIdxs G.fd ⟨t, .unknowns, s, n, some x, (fdOpts G.fd t).1, (fdOpts G.fd t).2.1, (fdOpts G.fd t).2.2⟩).map (s + ·) := by
    unfold gradSel fdIdxs
    simp only [h1, Option.bind_some]
    cases G.fd.poi.lookup x with
    | none => simp only [List.range_eq_range']; rw [List.map_add_range']; simp
    | some l => simp only; apply List.map_congr_left; intro k _; omega
  refine ⟨⟨t, .unknowns, s, n, some x, (fdOpts G.fd t).1, (fdOpts G.fd t).2.1, (fdOpts G.fd t).2.2⟩, ?_, ⟨a, h2, t2, hvar, rfl⟩, rfl, ?_, fdIkey_target G inP inU F indep unknown h t a t2, hpick, ?_⟩
  · unfold absParam
    rw [h1, h2]
    simp [t1]
  · simp only [fdOpts]
    cases ho : G.fd.overrides.lookup t with
    | none => exact h.steps.1
    | some e =>
      obtain ⟨o1, o2, o3⟩ := e
      cases o1 with
      | none => exact h.steps.1
      | some o => exact h.steps.2 t o o2 o3 ho
  · intro i hi
    refine ⟨?_, h6 _ (by rw [hpick]; exact List.mem_map_of_mem hi)⟩
    simp only [fdIdxs, Option.bind_some] at hi
    cases hl : G.fd.poi.lookup x with
    | none => rw [hl] at hi; simpa using hi
    | some l => rw [hl] at hi; exact h5 l hl i hi

/-- `abs_params` and the blocks. -/
theorem gradJfd_spec (G : GradEnv K) (inP inU : Nat → Prop) (F : FdSt K → Nat → K) (indep unknown : List String)
    (h : GradOk G inP inU F indep unknown) (hi : indep.Nodup) (hdis : ∀ x ∈ indep, x ∉ unknown) (s : FdSt K) :
    ∃ (ps : List String) (Jfd : FdJac K) (s' : FdSt K), gradJfd G indep unknown s = .ok (ps, Jfd, s') ∧ ps.length = indep.length ∧ ps.Nodup ∧
      ((∀ k, inP k → s'.p k = s.p k) ∧ s'.u = s.u) ∧
      ∀ (j : Nat) (x p : String), indep[j]? = some x → ps[j]? = some p → fdIkey G p = .ok p ∧
        ∃ v, v.name = p ∧ PerturbedBy G x v ∧ ∀ u ∈ unknown, ∃ M, Jfd u p = some M ∧ RawBlock G F s v u x M := by
  obtain ⟨ps, p1, p2, p3⟩ := mapM_ok (absParam G) indep fun x hx => by
    obtain ⟨v, hv, _⟩ := resolve_spec G inP inU F indep unknown h x hx
    exact ⟨v.name, hv⟩
  have hps : ∀ (j : Nat) (x p : String), indep[j]? = some x → ps[j]? = some p → absParam G x = .ok p := by
    intro j x p hx hp
    obtain ⟨y, y1, y2⟩ := p3 j x hx
    rw [hp] at y1
    injection y1 with y1
    rw [y1]
    exact y2
  have hmem : ∀ (j : Nat) (p : String), ps[j]? = some p → ∃ x, indep[j]? = some x := by
    intro j p hp
    have := (List.getElem?_eq_some_iff.mp hp).1
    exact ⟨_, List.getElem?_eq_getElem (by omega)⟩
  have hnod : ps.Nodup := by
    rw [List.nodup_iff_getElem?_ne_getElem?]
    intro i j hij hj he
    obtain ⟨p, hp⟩ : ∃ p, ps[j]? = some p := ⟨_, List.getElem?_eq_getElem hj⟩
    rw [hp] at he
    obtain ⟨x, hx⟩ := hmem i p he
    obtain ⟨y, hy⟩ := hmem j p hp
    obtain ⟨v, v1, ⟨a, _, v2, v3, v4⟩, _⟩ := resolve_spec G inP inU F indep unknown h x (List.mem_of_getElem? hx)
    obtain ⟨w, w1, ⟨b, _, w2, w3, w4⟩, _⟩ := resolve_spec G inP inU F indep unknown h y (List.mem_of_getElem? hy)
    rw [hps i x p hx he] at v1
    rw [hps j y p hy hp] at w1
    injection v1 with v1
    injection w1 with w1
    rw [← v1] at v3
    rw [← w1, v3] at w3
    injection w3 with w3
    rw [w3, w4] at v4
    injection v4 with v4
    subst v4
    have := List.Nodup.getElem_inj_iff (i := i) (j := j) hi (hi := (List.getElem?_eq_some_iff.mp hx).1) (hj := (List.getElem?_eq_some_iff.mp hy).1)
    rw [(List.getElem?_eq_some_iff.mp hx).2, (List.getElem?_eq_some_iff.mp hy).2] at this
    have := this.1 rfl
    omega
  obtain ⟨vars, q1, q2, q3⟩ := mapM_ok (fdVar G.fd) ps fun p hp => by
    obtain ⟨j, hj⟩ := List.mem_iff_getElem?.1 hp
    obtain ⟨x, hx⟩ := hmem j p hj
    obtain ⟨v, v1, ⟨a, _, v2, v3, v4⟩, _⟩ := resolve_spec G inP inU F indep unknown h x (List.mem_of_getElem? hx)
    rw [hps j x p hx hj] at v1
    injection v1 with v1
    rw [v1]
    exact ⟨v, v3⟩
  have hvar : ∀ (j : Nat) (v : FdVar K), vars[j]? = some v → ∃ x p, indep[j]? = some x ∧ ps[j]? = some p ∧ v.name = p ∧ PerturbedBy G x v ∧ v.sel = .unknowns ∧
      0 < v.fdstep ∧ fdIkey G p = .ok p ∧ gradSel G.fd.uslices G.fd.poi x = (fdIdxs G.fd v).map (v.start + ·) ∧
      ∀ i ∈ fdIdxs G.fd v, i < v.size ∧ inU (v.start + i) := by
    intro j v hv
    have hj := (List.getElem?_eq_some_iff.mp hv).1
    obtain ⟨p, hp⟩ : ∃ p, ps[j]? = some p := ⟨_, List.getElem?_eq_getElem (by omega)⟩
    obtain ⟨x, hx⟩ := hmem j p hp
    obtain ⟨v', r1, r2, r3, r4, r5, r6, r7⟩ := resolve_spec G inP inU F indep unknown h x (List.mem_of_getElem? hx)
    rw [hps j x p hx hp] at r1
    injection r1 with r1
    obtain ⟨v'', w1, w2⟩ := q3 j p hp
    rw [hv] at w1
    injection w1 with w1
    obtain ⟨a, a1, a2, a3, a4⟩ := r2
    have hvv : v' = v := by
      rw [← r1, w2] at a3
      injection a3 with a3
      rw [← a3, w1]
    subst hvv
    exact ⟨x, p, hx, hp, r1.symm, ⟨a, a1, a2, a3, a4⟩, r3, r4, by rw [r1]; exact r5, r6, r7⟩
  have hfdU : (unknown.filter fun u => !indep.contains u) = unknown := by
    rw [List.filter_eq_self]
    intro u hu
    have : u ∉ indep := fun hh => hdis u hh hu
    simpa using this
  have hpassU : (unknown.filter fun u => indep.contains u) = [] := by
    rw [List.filter_eq_nil_iff]
    intro u hu
    have : u ∉ indep := fun hh => hdis u hh hu
    simpa using this
  have hok : FdOk G.fd inP inU F unknown [] vars := by
    refine ⟨h.exact, h.model, ?_, ?_, ?_, by simp⟩
    · have : vars.map (·.name) = ps := by
        apply List.ext_getElem?
        intro j
        rw [List.getElem?_map]
        cases hv : vars[j]? with
        | none =>
          have := List.getElem?_eq_none_iff.1 hv
          rw [List.getElem?_eq_none (by omega)]
          rfl
        | some v =>
          obtain ⟨x, p, _, hp, he, _⟩ := hvar j v hv
          rw [hp, Option.map_some, he]
      rw [this]
      exact hnod
    · intro v hv
      obtain ⟨j, hj⟩ := List.mem_iff_getElem?.1 hv
      obtain ⟨x, p, _, _, _, _, e1, e2, _, _, e3⟩ := hvar j v hj
      rw [e1]
      exact ⟨e2, e3⟩
    · intro u hu
      obtain ⟨s, n, u1, u2, u3⟩ := h.unknown u hu
      exact ⟨s, n, u1, u2, fun _ => u3⟩
  obtain ⟨L, l1, l2⟩ := C35_quotients G.fd inP inU F unknown [] vars hok h.serial.1 h.serial.2 s
  have hres : (ps ++ (if G.fd.total then [] else G.fd.states)).mapM (fdVar G.fd) = .ok vars := by
    rw [h.total]
    simpa using q1
  have hjac : fdJacobian G.fd ps unknown [] s = .ok L := by
    unfold fdJacobian
    rw [hres]
    exact l1
  obtain ⟨L', m1, m2, m3, m4⟩ := C35_restores_partial G.fd inP inU F ps unknown [] vars hres hok s
  rw [hjac] at m1
  injection m1 with m1
  subst m1
  refine ⟨ps, L.jac, L.st, ?_, p2, hnod, ⟨m2, ?_⟩, ?_⟩
  · unfold gradJfd
    rw [p1, hfdU, hpassU]
    simp only [hjac]
  · rw [h.total] at m4
    exact m4
  · intro j x p hx hp
    have hj := (List.getElem?_eq_some_iff.mp hp).1
    obtain ⟨v, hv⟩ : ∃ v, vars[j]? = some v := ⟨_, List.getElem?_eq_getElem (by omega)⟩
    obtain ⟨x', p', hx', hp', e1, e2, e3, e4, e5, e6, e7⟩ := hvar j v hv
    rw [hx] at hx'
    rw [hp] at hp'
    injection hx' with hx'
    injection hp' with hp'
    subst hx' hp'
    refine ⟨e5, v, e1, e2, ?_⟩
    intro u hu
    obtain ⟨M, n1, n2, n3, n4⟩ := l2 v (List.mem_of_getElem? hv) u hu
    rw [e1] at n1
    refine ⟨M, n1, n2, by rw [n3, e6, List.length_map], ?_⟩
    intro a b o q ho hq
    rw [e6, List.getElem?_map] at hq
    cases hb : (fdIdxs G.fd v)[b]? with
    | none => rw [hb] at hq; cases hq
    | some i =>
      rw [hb, Option.map_some] at hq
      injection hq with hq
      rw [n4 a b o i ho hb, e3, hq, h.total]
      rfl

/-! ### Array format -/

theorem entries_append (sl : List (String × (Nat × Nat))) (d : List (String × List Nat)) (l1 l2 : List String) :
    entries sl d (l1 ++ l2) = entries sl d l1 ++ entries sl d l2 := by
  simp [entries]

theorem entries_single (sl : List (String × (Nat × Nat))) (d : List (String × List Nat)) (x : String) :
    entries sl d [x] = (gradSel sl d x).map fun o => (x, o) := by
  simp [entries]

theorem entries_at (sl : List (String × (Nat × Nat))) (d : List (String × List Nat)) (pre post : List String) (x : String) (i : Nat)
    (y : String) (o : Nat) (h : (entries sl d (pre ++ x :: post))[i]? = some (y, o)) (h1 : (entries sl d pre).length ≤ i)
    (h2 : i < (entries sl d pre).length + (gradSel sl d x).length) : y = x ∧ (gradSel sl d x)[i - (entries sl d pre).length]? = some o := by
  rw [show pre ++ x :: post = pre ++ ([x] ++ post) from rfl, entries_append, entries_append, entries_single, List.getElem?_append_right h1,
    List.getElem?_append_left (by simp only [List.length_map]; omega), List.getElem?_map] at h
  cases hp : (gradSel sl d x)[i - (entries sl d pre).length]? with
  | none => rw [hp] at h; cases h
  | some o' =>
    rw [hp, Option.map_some] at h
    injection h with h
    injection h with e1 e2
    exact ⟨e1.symm, by rw [e2]⟩

theorem entries_le (sl : List (String × (Nat × Nat))) (d : List (String × List Nat)) (pre post : List String) (x : String) :
    (entries sl d pre).length + (gradSel sl d x).length ≤ (entries sl d (pre ++ x :: post)).length := by
  rw [show pre ++ x :: post = pre ++ ([x] ++ post) from rfl, entries_append, entries_append, entries_single]
  simp only [List.length_append, List.length_map]
  omega

theorem gradSizes_spec (sl : List (String × (Nat × Nat))) (d : List (String × List Nat)) (names : List String)
    (h : ∀ x ∈ names, ∃ s n, sl.lookup x = some (s, n)) : gradSizes sl d names = .ok (entries sl d names).length := by
  unfold gradSizes
  obtain ⟨r, h1, h2⟩ := foldlM_prefix (fun n x => (gradSize sl d x).map (n + ·)) names
    (fun pre n => n = (entries sl d pre).length) (by
      intro pre x post n hl hn
      obtain ⟨s, k, hs⟩ := h x (by rw [hl]; simp)
      have : gradSize sl d x = .ok (gradSel sl d x).length := by
        unfold gradSize gradSel fdSlice
        rw [hs]
        cases d.lookup x with
        | none => simp [Except.map]
        | some l => simp
      refine ⟨_, by rw [this]; rfl, ?_⟩
      rw [entries_append, entries_single, hn]
      simp) 0 (by simp [entries])
  rw [h1, h2]

theorem setBlock_fit (J : TMat K) (r0 c0 : Nat) (M : TMat K) (hr : r0 + M.m ≤ J.m) (hc : c0 + M.n ≤ J.n) :
    J.setBlock r0 c0 M = .ok { J with a := fun i j => if r0 ≤ i ∧ i < r0 + M.m ∧ c0 ≤ j ∧ j < c0 + M.n then M.a (i - r0) (j - c0) else J.a i j } := by
  have e1 : min (r0 + M.m) J.m - min r0 J.m = M.m := by omega
  have e2 : min (c0 + M.n) J.n - min c0 J.n = M.n := by omega
  unfold TMat.setBlock
  simp only [e1, e2, true_or, true_and, if_true]

theorem scaleBlock_spec (scale : List (String × K)) (x : String) (r0 c0 m n : Nat) (J : TMat K) :
    (J.scaleBlock scale x r0 c0 m n).m = J.m ∧ (J.scaleBlock scale x r0 c0 m n).n = J.n ∧ ∀ i j,
      (J.scaleBlock scale x r0 c0 m n).a i j = if r0 ≤ i ∧ i < r0 + m ∧ c0 ≤ j ∧ j < c0 + n then J.a i j * scaleOf scale x else J.a i j := by
  unfold TMat.scaleBlock scaleOf
  cases scale.lookup x with
  | none => simp
  | some f => simp

theorem blockKey_self (G : GradEnv K) (Jfd : FdJac K) (u p : String) (M : TMat K) (hk : fdIkey G p = .ok p) (hM : Jfd u p = some M) :
    blockKey G Jfd u p = .ok p := by
  unfold blockKey
  rw [hk]
  simp [hM]

theorem gradArrCell_spec (G : GradEnv K) (Jfd : FdJac K) (u x p : String) (ui : Nat) (S : GradArr K) (M : TMat K) (hk : fdIkey G p = .ok p)
    (hM : Jfd u p = some M) (hr : ui + M.m ≤ S.J.m) (hc : S.pi + M.n ≤ S.J.n) :
    ∃ S', gradArrCell G Jfd u ui S (x, p) = .ok S' ∧ S'.J.m = S.J.m ∧ S'.J.n = S.J.n ∧ S'.pi = S.pi + M.n ∧ S'.rows = some M.m ∧
      ∀ i j, S'.J.a i j = if ui ≤ i ∧ i < ui + M.m ∧ S.pi ≤ j ∧ j < S.pi + M.n
        then M.a (i - ui) (j - S.pi) * scaleOf G.dvScale x * scaleOf G.cnScale u else S.J.a i j := by
  unfold gradArrCell
  simp only [blockKey_self G Jfd u p M hk hM, hM, setBlock_fit S.J ui S.pi M hr hc]
  refine ⟨_, rfl, ?_, ?_, rfl, rfl, ?_⟩
  · simp only [(scaleBlock_spec _ _ _ _ _ _ _).1]
  · simp only [(scaleBlock_spec _ _ _ _ _ _ _).2.1]
  · intro i j
    simp only [(scaleBlock_spec _ _ _ _ _ _ _).2.2]
    by_cases hb : ui ≤ i ∧ i < ui + M.m ∧ S.pi ≤ j ∧ j < S.pi + M.n
    · simp only [if_pos hb]
    · simp only [if_neg hb]

/-- Cell `(i, j)` of the array holds what it should. -/
def CellOk (G : GradEnv K) (F : FdSt K → Nat → K) (s : FdSt K) (indep unknown : List String) (J : TMat K) (i j : Nat) : Prop :=
  ∀ u x o q, (entries G.fd.uslices G.fd.qoi unknown)[i]? = some (u, o) → (entries G.fd.uslices G.fd.poi indep)[j]? = some (x, q) →
    ∃ v, PerturbedBy G x v ∧ J.a i j = gradEntry G F s v u x o q

/-- **C116 (array format).** For every list of independent variables and of unknowns the finite difference gradient in array format has one row per selected entry of every requested unknown and one column per selected
entry of every independent variable, both in the order of the lists, and each entry is the difference quotient of the model with the step and the form of the variable, times the scale factors of the two variables. The values of the model are left as they were.
Missing with respect to the full statement: a variable that is both independent variable and unknown (`C116_overlap_refuted`) and an independent variable that is connected to nothing (`C116_unconnected_refuted`). -/
theorem C116_array_partial (G : GradEnv K) (inP inU : Nat → Prop) (F : FdSt K → Nat → K) (indep unknown : List String)
    (h : GradOk G inP inU F indep unknown) (hi : indep.Nodup) (hne : indep ≠ []) (hdis : ∀ x ∈ indep, x ∉ unknown) (s : FdSt K) :
    ∃ J s', gradArr G indep unknown s = .ok (J, s') ∧ (∀ k, inP k → s'.p k = s.p k) ∧ s'.u = s.u ∧
      J.m = (entries G.fd.uslices G.fd.qoi unknown).length ∧ J.n = (entries G.fd.uslices G.fd.poi indep).length ∧
      ∀ (i j : Nat) (u x : String) (o q : Nat), (entries G.fd.uslices G.fd.qoi unknown)[i]? = some (u, o) →
        (entries G.fd.uslices G.fd.poi indep)[j]? = some (x, q) → ∃ v, PerturbedBy G x v ∧ J.a i j = gradEntry G F s v u x o q := by
  obtain ⟨ps, Jfd, s', g1, g2, g3, g4, g5⟩ := gradJfd_spec G inP inU F indep unknown h hi hdis s
  have hm := gradSizes_spec G.fd.uslices G.fd.qoi unknown fun u hu => by
    obtain ⟨a, n, h1, _⟩ := h.unknown u hu
    exact ⟨a, n, h1⟩
  have hn := gradSizes_spec G.fd.uslices G.fd.poi indep fun x hx => by
    obtain ⟨a, n, _, h1, _⟩ := h.indep x hx
    exact ⟨a, n, h1⟩
  have hfst : (indep.zip ps).map (·.1) = indep := List.map_fst_zip (by omega)
  have hcell : ∀ (x p : String), (x, p) ∈ indep.zip ps → fdIkey G p = .ok p ∧
      ∃ v, v.name = p ∧ PerturbedBy G x v ∧ ∀ u ∈ unknown, ∃ M, Jfd u p = some M ∧ RawBlock G F s v u x M := by
    intro x p hxp
    obtain ⟨j, hj⟩ := List.mem_iff_getElem?.1 hxp
    rw [List.getElem?_zip_eq_some] at hj
    exact g5 j x p hj.1 hj.2
  obtain ⟨st, r1, r2⟩ := foldlM_prefix (gradArrRow G Jfd (indep.zip ps)) unknown
    (fun pre st => st.1.m = (entries G.fd.uslices G.fd.qoi unknown).length ∧ st.1.n = (entries G.fd.uslices G.fd.poi indep).length ∧
      st.2.1 = (entries G.fd.uslices G.fd.qoi pre).length ∧ ∀ i < st.2.1, ∀ j < st.1.n, CellOk G F s indep unknown st.1 i j) (by
    intro pre u post st hl ⟨a1, a2, a3, a4⟩
    have hu : u ∈ unknown := by rw [hl]; simp
    have hle := entries_le G.fd.uslices G.fd.qoi pre post u
    rw [← hl] at hle
    obtain ⟨S, b1, b2, b3, b4, b5, b6, b7⟩ := foldlM_prefix (gradArrCell G Jfd u st.2.1) (indep.zip ps)
      (fun pr S => S.J.m = (entries G.fd.uslices G.fd.qoi unknown).length ∧ S.J.n = (entries G.fd.uslices G.fd.poi indep).length ∧
        S.pi = (entries G.fd.uslices G.fd.poi (pr.map (·.1))).length ∧
        (pr ≠ [] → S.rows = some (gradSel G.fd.uslices G.fd.qoi u).length) ∧
        (∀ i < st.2.1, ∀ j < S.J.n, CellOk G F s indep unknown S.J i j) ∧
        ∀ i, st.2.1 ≤ i → i < st.2.1 + (gradSel G.fd.uslices G.fd.qoi u).length → ∀ j < S.pi, CellOk G F s indep unknown S.J i j) (by
      intro pr xp po S hz ⟨c1, c2, c3, _, c4, c5⟩
      obtain ⟨x, p⟩ := xp
      have hind : indep = pr.map (·.1) ++ x :: po.map (·.1) := by
        rw [← hfst, hz]
        simp
      obtain ⟨k1, v, _, k2, k3⟩ := hcell x p (by rw [hz]; simp)
      obtain ⟨M, k4, k5, k6, k7⟩ := k3 u hu
      have hcl := entries_le G.fd.uslices G.fd.poi (pr.map (·.1)) (po.map (·.1)) x
      rw [← hind] at hcl
      obtain ⟨S', d1, d2, d3, d4, d5, d6⟩ := gradArrCell_spec G Jfd u x p st.2.1 S M k1 k4 (by rw [c1, k5, a3]; exact hle) (by rw [c2, k6, c3]; exact hcl)
      refine ⟨S', d1, by rw [d2, c1], by rw [d3, c2], ?_, fun _ => by rw [d5, k5], ?_, ?_⟩
      · rw [d4, c3, k6, List.map_append, entries_append, List.length_append, List.map_singleton, entries_single, List.length_map]
      · intro i hi' j hj'
        rw [d3] at hj'
        intro u' x' o q ho hq
        rw [d6, if_neg (by omega)]
        exact c4 i hi' j hj' u' x' o q ho hq
      · intro i h1 h2 j hj'
        rw [d4] at hj'
        intro u' x' o q ho hq
        rw [d6]
        by_cases hjp : j < S.pi
        · rw [if_neg (by omega)]
          exact c5 i h1 h2 j hjp u' x' o q ho hq
        · rw [if_pos ⟨h1, by rw [k5]; exact h2, by omega, hj'⟩]
          rw [hl] at ho
          rw [hind] at hq
          obtain ⟨rfl, ho'⟩ := entries_at _ _ pre post u i u' o ho (by omega) (by omega)
          obtain ⟨rfl, hq'⟩ := entries_at _ _ _ _ x j x' q hq (by omega) (by omega)
          refine ⟨v, k2, ?_⟩
          rw [← a3] at ho'
          rw [← c3] at hq'
          rw [k7 _ _ o q ho' hq']
          rfl) ⟨st.1, 0, st.2.2⟩ ⟨a1, a2, by simp [entries], by simp, a4, by simp⟩
    have hne' : indep.zip ps ≠ [] := by
      intro e
      rw [e] at hfst
      exact hne hfst.symm
    refine ⟨(S.J, st.2.1 + (gradSel G.fd.uslices G.fd.qoi u).length, some (gradSel G.fd.uslices G.fd.qoi u).length), ?_, b2, b3, ?_, ?_⟩
    · unfold gradArrRow
      simp only [b1, b5 hne']
    · simp only
      rw [entries_append, List.length_append, entries_single, List.length_map, a3]
    · intro i hi' j hj'
      simp only at hi' hj' ⊢
      by_cases hlt : i < st.2.1
      · exact b6 i hlt j hj'
      · refine b7 i (by omega) hi' j ?_
        rw [b4, hfst, ← b3]
        exact hj') (⟨(entries G.fd.uslices G.fd.qoi unknown).length, (entries G.fd.uslices G.fd.poi indep).length, fun _ _ => 0⟩, 0, none)
    ⟨rfl, rfl, by simp [entries], by simp⟩
  obtain ⟨r3, r4, r5, r6⟩ := r2
  refine ⟨st.1, s', ?_, g4.1, g4.2, r3, r4, ?_⟩
  · unfold gradArr
    simp only [g1, hm, hn, r1]
    rfl
  · intro i j u x o q ho hq
    refine r6 i ?_ j ?_ u x o q ho hq
    · rw [r5]
      exact (List.getElem?_eq_some_iff.mp ho).1
    · rw [r4]
      exact (List.getElem?_eq_some_iff.mp hq).1

/-! ### Dict format -/

theorem spAllows_spec (sp : Option (List (String × List String))) (unknown : List String)
    (hsp : ∀ m, sp = some m → ∀ u ∈ unknown, ∃ l, m.lookup u = some l) (u x : String) (hu : u ∈ unknown) :
    (Wanted sp u x ∧ spAllows sp u x = .ok true) ∨ (¬ Wanted sp u x ∧ spAllows sp u x = .ok false) := by
  cases sp with
  | none => exact Or.inl ⟨fun m hm => (by cases hm), rfl⟩
  | some m =>
    obtain ⟨l, hl⟩ := hsp m rfl u hu
    by_cases hx : x ∈ l
    · left
      refine ⟨fun m' hm' => ?_, by simp [spAllows, hl, hx]⟩
      injection hm' with hm'
      subst hm'
      exact ⟨l, hl, hx⟩
    · right
      refine ⟨fun hw => ?_, by simp [spAllows, hl, hx]⟩
      obtain ⟨l', h1, h2⟩ := hw m rfl
      rw [hl] at h1
      injection h1 with h1
      subst h1
      exact hx h2

/-- A block times the two scale factors. -/
def scaledBlock (G : GradEnv K) (u x : String) (M : TMat K) : TMat K := ⟨M.m, M.n, fun i j => M.a i j * scaleOf G.dvScale x * scaleOf G.cnScale u⟩

theorem scaleBy_spec (G : GradEnv K) (u x : String) (M : TMat K) : (M.scaleBy G.dvScale x).scaleBy G.cnScale u = scaledBlock G u x M := by
  unfold scaledBlock TMat.scaleBy scaleOf
  cases G.dvScale.lookup x <;> cases G.cnScale.lookup u <;> simp

/-- **C116 (dict format).** `J[u][x]` holds the difference quotients of all selected entries of `u` with respect to all selected entries of `x`, times the scale factors of the two variables; with a sparsity pattern only the pairs in the pattern are present.
Missing: as for the array format, and unknowns that are listed twice, whose blocks are scaled twice (`C116_repeated_refuted`). -/
theorem C116_dict_partial (G : GradEnv K) (inP inU : Nat → Prop) (F : FdSt K → Nat → K) (indep unknown : List String)
    (h : GradOk G inP inU F indep unknown) (hi : indep.Nodup) (hu : unknown.Nodup) (hdis : ∀ x ∈ indep, x ∉ unknown)
    (sp : Option (List (String × List String))) (hsp : ∀ m, sp = some m → ∀ u ∈ unknown, ∃ l, m.lookup u = some l) (s : FdSt K) :
    ∃ D s', gradDict G sp indep unknown s = .ok (D, s') ∧ (∀ k, inP k → s'.p k = s.p k) ∧ s'.u = s.u ∧
      (∀ u x M, D.get u x = some M → u ∈ unknown ∧ x ∈ indep ∧ Wanted sp u x) ∧
      ∀ u ∈ unknown, ∀ x ∈ indep, Wanted sp u x → ∃ M v, D.get u x = some M ∧ PerturbedBy G x v ∧
        M.m = (gradSel G.fd.uslices G.fd.qoi u).length ∧ M.n = (gradSel G.fd.uslices G.fd.poi x).length ∧
        ∀ (a b o q : Nat), (gradSel G.fd.uslices G.fd.qoi u)[a]? = some o → (gradSel G.fd.uslices G.fd.poi x)[b]? = some q →
          M.a a b = gradEntry G F s v u x o q := by
  obtain ⟨ps, Jfd, s', g1, g2, g3, g4, g5⟩ := gradJfd_spec G inP inU F indep unknown h hi hdis s
  have hfst : (indep.zip ps).map (·.1) = indep := List.map_fst_zip (by omega)
  have hsnd : (indep.zip ps).map (·.2) = ps := List.map_snd_zip (by omega)
  have hcell : ∀ (x p : String), (x, p) ∈ indep.zip ps → fdIkey G p = .ok p ∧
      ∃ v, v.name = p ∧ PerturbedBy G x v ∧ ∀ u ∈ unknown, ∃ M, Jfd u p = some M ∧ RawBlock G F s v u x M := by
    intro x p hxp
    obtain ⟨j, hj⟩ := List.mem_iff_getElem?.1 hxp
    rw [List.getElem?_zip_eq_some] at hj
    exact g5 j x p hj.1 hj.2
  -- the state after some of the pairs of one unknown
  have inner : ∀ u ∈ unknown, ∀ D0 : GradDict K, (∀ p, D0.mem u p = Jfd u p) →
      ∃ D, gradDictRow G sp (indep.zip ps) D0 u = .ok D ∧
        (∀ u', u' ≠ u → D.refs.lookup u' = D0.refs.lookup u' ∧ ∀ p, D.mem u' p = D0.mem u' p) ∧
        ∃ row, D.refs.lookup u = some row ∧ (∀ x r, row.lookup x = some r → x ∈ indep ∧ Wanted sp u x) ∧
          ∀ x p, (x, p) ∈ indep.zip ps → Wanted sp u x → row.lookup x = some (u, p) ∧ ∀ M, Jfd u p = some M → D.mem u p = some (scaledBlock G u x M) := by
    intro u huu D0 hD0
    obtain ⟨D, d1, d2, row, d3, d4, d5, _⟩ := foldlM_prefix (gradDictCell G sp u) (indep.zip ps)
      (fun pr D => (∀ u', u' ≠ u → D.refs.lookup u' = D0.refs.lookup u' ∧ ∀ p, D.mem u' p = D0.mem u' p) ∧
        ∃ row, D.refs.lookup u = some row ∧ (∀ x r, row.lookup x = some r → x ∈ indep ∧ Wanted sp u x) ∧
          (∀ x p, (x, p) ∈ pr → Wanted sp u x → row.lookup x = some (u, p) ∧ ∀ M, Jfd u p = some M → D.mem u p = some (scaledBlock G u x M)) ∧
          ∀ p, p ∉ pr.map (·.2) → D.mem u p = Jfd u p) (by
      intro pr xp po D hz ⟨a1, row, a2, a3, a4, a5⟩
      obtain ⟨x, p⟩ := xp
      have hx : x ∈ indep := by rw [← hfst, hz]; simp
      have hxn : ∀ p', (x, p') ∉ pr := by
        intro p' hp'
        have hnd := hfst ▸ hi
        rw [hz, List.map_append, List.nodup_append] at hnd
        exact hnd.2.2 x (List.mem_map_of_mem (f := (·.1)) hp') x (by simp) rfl
      have hpn : p ∉ pr.map (·.2) := by
        intro hp'
        have hnd := hsnd ▸ g3
        rw [hz, List.map_append, List.nodup_append] at hnd
        exact hnd.2.2 p hp' p (by simp) rfl
      rcases spAllows_spec sp unknown hsp u x huu with ⟨w1, w2⟩ | ⟨w1, w2⟩
      · obtain ⟨k1, v, _, k2, k3⟩ := hcell x p (by rw [hz]; simp)
        obtain ⟨M, k4, _⟩ := k3 u huu
        have hmem : D.mem u p = some M := by rw [a5 p hpn, k4]
        refine ⟨⟨dictSet D.refs u (dictSet row x (u, p)), D.mem.set u p (scaledBlock G u x M)⟩, ?_, ?_, dictSet row x (u, p), ?_, ?_, ?_, ?_⟩
        · unfold gradDictCell
          simp only [w2, blockKey_self G D.mem u p M k1 hmem, hmem, a2, Option.getD_some, scaleBy_spec]
        · intro u' hu'
          simp only [lookup_dictSet, if_neg hu', FdJac.set]
          refine ⟨(a1 u' hu').1, fun p' => ?_⟩
          rw [if_neg (fun e => hu' e.1)]
          exact (a1 u' hu').2 p'
        · simp [lookup_dictSet]
        · intro x' r hr
          rw [lookup_dictSet] at hr
          by_cases hxx : x' = x
          · subst hxx
            exact ⟨hx, w1⟩
          · rw [if_neg hxx] at hr
            exact a3 x' r hr
        · intro x' p' hm' hw
          rw [List.mem_append, List.mem_singleton] at hm'
          rcases hm' with hm' | hm'
          · have hxx : x' ≠ x := fun e => hxn p' (e ▸ hm')
            have hpp : p' ≠ p := fun e => hpn (e ▸ List.mem_map_of_mem (f := (·.2)) hm')
            obtain ⟨b1, b2⟩ := a4 x' p' hm' hw
            rw [lookup_dictSet, if_neg hxx]
            refine ⟨b1, fun M' hM' => ?_⟩
            simp only [FdJac.set]
            rw [if_neg (fun e => hpp e.2)]
            exact b2 M' hM'
          · injection hm' with e1 e2
            subst e1 e2
            rw [lookup_dictSet, if_pos rfl]
            refine ⟨rfl, fun M' hM' => ?_⟩
            rw [k4] at hM'
            injection hM' with hM'
            simp [FdJac.set, hM']
        · intro p' hp'
          simp only [FdJac.set]
          rw [List.map_append, List.mem_append] at hp'
          rw [if_neg (fun e => hp' (Or.inr (by simp [e.2])))]
          exact a5 p' fun hh => hp' (Or.inl hh)
      · refine ⟨D, ?_, a1, row, a2, a3, ?_, ?_⟩
        · unfold gradDictCell
          simp only [w2]
        · intro x' p' hm' hw
          rw [List.mem_append, List.mem_singleton] at hm'
          rcases hm' with hm' | hm'
          · exact a4 x' p' hm' hw
          · injection hm' with e1 e2
            subst e1
            exact absurd hw w1
        · intro p' hp'
          rw [List.map_append, List.mem_append] at hp'
          exact a5 p' fun hh => hp' (Or.inl hh)) { D0 with refs := dictSet D0.refs u [] }
      ⟨fun u' hu' => by simp [lookup_dictSet, hu'], [], by simp [lookup_dictSet], by simp, by simp, fun p _ => hD0 p⟩
    exact ⟨D, d1, d2, row, d3, d4, d5⟩
  obtain ⟨D, e1, e2, e3, e4⟩ := foldlM_prefix (gradDictRow G sp (indep.zip ps)) unknown
    (fun pre D => (∀ u, u ∉ pre → D.refs.lookup u = none ∧ ∀ p, D.mem u p = Jfd u p) ∧
      (∀ u row, D.refs.lookup u = some row → u ∈ unknown ∧ ∀ x r, row.lookup x = some r → x ∈ indep ∧ Wanted sp u x) ∧
      ∀ u ∈ pre, ∃ row, D.refs.lookup u = some row ∧ ∀ x p, (x, p) ∈ indep.zip ps → Wanted sp u x →
        row.lookup x = some (u, p) ∧ ∀ M, Jfd u p = some M → D.mem u p = some (scaledBlock G u x M)) (by
    intro pre u post D0 hl ⟨a1, a2, a3⟩
    have huu : u ∈ unknown := by rw [hl]; simp
    have hnot : u ∉ pre := by
      intro hp
      rw [hl, List.nodup_append] at hu
      exact hu.2.2 u hp u (by simp) rfl
    obtain ⟨D, b1, b2, row, b3, b4, b5⟩ := inner u huu D0 (a1 u hnot).2
    refine ⟨D, b1, ?_, ?_, ?_⟩
    · intro u' hu'
      simp only [List.mem_append, List.mem_singleton, not_or] at hu'
      rw [(b2 u' hu'.2).1]
      exact ⟨(a1 u' hu'.1).1, fun p => by rw [(b2 u' hu'.2).2, (a1 u' hu'.1).2]⟩
    · intro u' row' hr
      by_cases he : u' = u
      · subst he
        rw [b3] at hr
        injection hr with hr
        subst hr
        exact ⟨huu, b4⟩
      · rw [(b2 u' he).1] at hr
        exact a2 u' row' hr
    · intro u' hu'
      rw [List.mem_append, List.mem_singleton] at hu'
      by_cases he : u' = u
      · subst he
        exact ⟨row, b3, b5⟩
      · rcases hu' with hu' | hu'
        · obtain ⟨row', c1, c2⟩ := a3 u' hu'
          refine ⟨row', by rw [(b2 u' he).1, c1], fun x p hxp hw => ?_⟩
          obtain ⟨c3, c4⟩ := c2 x p hxp hw
          exact ⟨c3, fun M hM => by rw [(b2 u' he).2, c4 M hM]⟩
        · exact absurd hu' he) ⟨[], Jfd⟩ ⟨fun u _ => ⟨rfl, fun _ => rfl⟩, fun u row hr => by simp at hr, by simp⟩
  refine ⟨D, s', ?_, g4.1, g4.2, ?_, ?_⟩
  · unfold gradDict
    simp only [g1, e1]
    rfl
  · intro u x M hM
    unfold GradDict.get at hM
    cases hr : D.refs.lookup u with
    | none => rw [hr] at hM; cases hM
    | some row =>
      rw [hr, Option.bind_some] at hM
      cases hx : row.lookup x with
      | none => rw [hx] at hM; cases hM
      | some r =>
        obtain ⟨f1, f2⟩ := e3 u row hr
        exact ⟨f1, f2 x r hx⟩
  · intro u huu x hx hw
    obtain ⟨row, f1, f2⟩ := e4 u huu
    obtain ⟨j, hj⟩ := List.mem_iff_getElem?.1 hx
    have hjl := (List.getElem?_eq_some_iff.mp hj).1
    obtain ⟨p, hp⟩ : ∃ p, ps[j]? = some p := ⟨_, List.getElem?_eq_getElem (by omega)⟩
    have hxp : (x, p) ∈ indep.zip ps := List.mem_iff_getElem?.2 ⟨j, List.getElem?_zip_eq_some.2 ⟨hj, hp⟩⟩
    obtain ⟨f3, f4⟩ := f2 x p hxp hw
    obtain ⟨_, v, _, k2, k3⟩ := hcell x p hxp
    obtain ⟨M, k4, k5, k6, k7⟩ := k3 u huu
    refine ⟨scaledBlock G u x M, v, ?_, k2, k5, k6, ?_⟩
    · unfold GradDict.get
      rw [f1, Option.bind_some, f3, Option.bind_some]
      exact f4 M k4
    · intro a b o q ho hq
      simp only [scaledBlock, k7 a b o q ho hq]
      rfl

/-! ### Affine models, choice of the method -/

theorem perturbedBy_step (G : GradEnv K) (inP inU : Nat → Prop) (F : FdSt K → Nat → K) (indep unknown : List String)
    (h : GradOk G inP inU F indep unknown) (x : String) (v : FdVar K) (hv : PerturbedBy G x v) : 0 < v.fdstep := by
  obtain ⟨a, _, _, h3, _⟩ := hv
  obtain ⟨_, o1, o2⟩ := C35_options G.fd v.name v h3
  cases ho : G.fd.overrides.lookup v.name with
  | none =>
    have := o1 ho
    rw [show v.fdstep = G.fd.defaults.1 from congrArg Prod.fst this]
    exact h.steps.1
  | some e =>
    obtain ⟨e1, e2, e3⟩ := e
    obtain ⟨q1, q2, _⟩ := o2 e1 e2 e3 ho
    cases e1 with
    | none => rw [q2 rfl]; exact h.steps.1
    | some f => rw [q1 f rfl]; exact h.steps.2 v.name f e2 e3 ho

/-- **C116 (exactness).** For a model that is affine in the independent variables the finite difference gradient of an evaluated model is the exact one, whatever the step and the form: the total derivatives times the scale factors, in the layout
that the linear solver returns (`C34_array_partial`). -/
theorem C116_affine_partial (G : GradEnv K) (inP inU : Nat → Prop) (F : FdSt K → Nat → K) (D : Nat → FdSel → Nat → K) (indep unknown : List String)
    (h : GradOk G inP inU F indep unknown) (hi : indep.Nodup) (hne : indep ≠ []) (hdis : ∀ x ∈ indep, x ∉ unknown) (haff : AffineIn F D) (s : FdSt K)
    (hcur : ∀ u ∈ unknown, ∀ o ∈ gradSel G.fd.uslices G.fd.qoi u, s.u o = F s o) :
    ∃ J s', gradArr G indep unknown s = .ok (J, s') ∧
      J.m = (entries G.fd.uslices G.fd.qoi unknown).length ∧ J.n = (entries G.fd.uslices G.fd.poi indep).length ∧
      ∀ (i j : Nat) (u x : String) (o q : Nat), (entries G.fd.uslices G.fd.qoi unknown)[i]? = some (u, o) →
        (entries G.fd.uslices G.fd.poi indep)[j]? = some (x, q) → J.a i j = D o .unknowns q * scaleOf G.dvScale x * scaleOf G.cnScale u := by
  obtain ⟨J, s', h1, _, _, h2, h3, h4⟩ := C116_array_partial G inP inU F indep unknown h hi hne hdis s
  refine ⟨J, s', h1, h2, h3, ?_⟩
  intro i j u x o q ho hq
  obtain ⟨v, hv, he⟩ := h4 i j u x o q ho hq
  have hmem : u ∈ unknown ∧ o ∈ gradSel G.fd.uslices G.fd.qoi u := by
    have := List.mem_of_getElem? ho
    unfold entries at this
    rw [List.mem_flatMap] at this
    obtain ⟨y, hy, hm⟩ := this
    rw [List.mem_map] at hm
    obtain ⟨o', ho', hee⟩ := hm
    injection hee with e1 e2
    subst e1 e2
    exact ⟨hy, ho'⟩
  have hstep := stepFor_ne v (s.u q) (perturbedBy_step G inP inU F indep unknown h x v hv)
  rw [he]
  unfold gradEntry
  congr 2
  generalize stepFor v (s.u q) = step at hstep
  have hc := hcur u hmem.1 o hmem.2
  unfold diffQuot
  cases v.form with
  | forward =>
    simp only
    rw [haff, hc]
    field_simp
    ring
  | backward =>
    simp only
    rw [haff, hc]
    field_simp
    ring
  | central =>
    simp only
    rw [haff, haff]
    field_simp
    ring

/-- **C116 (choice of the method).** An unknown mode or format is a ValueError; finite differences are used exactly when the mode asks for them or when root has a derivative option other than 'user'. -/
theorem C116_method (mode fmt rootType : String) :
    ((∃ e, gradMethod mode fmt rootType = .error e) ↔ mode ∉ ["auto", "fwd", "rev", "fd"] ∨ fmt ∉ ["array", "dict"]) ∧
    (gradMethod mode fmt rootType = .ok .fd ↔ mode ∈ ["auto", "fwd", "rev", "fd"] ∧ fmt ∈ ["array", "dict"] ∧ (rootType = "user" → mode = "fd")) ∧
    (∀ m, gradMethod mode fmt rootType = .ok (.linear m) ↔ m = mode ∧ mode ∈ ["auto", "fwd", "rev"] ∧ fmt ∈ ["array", "dict"] ∧ rootType = "user") := by
  have hm : mode ∈ ["auto", "fwd", "rev", "fd"] ↔ mode ∈ ["auto", "fwd", "rev"] ∨ mode = "fd" := by simp [or_assoc]
  have h3 : mode = "fd" → mode ∉ ["auto", "fwd", "rev"] := by rintro rfl; decide
  unfold gradMethod
  by_cases h1 : mode ∈ ["auto", "fwd", "rev", "fd"]
  · rw [if_neg (fun e => e h1)]
    by_cases h2 : fmt ∈ ["array", "dict"]
    · rw [if_neg (fun e => e h2)]
      by_cases h4 : mode = "fd" ∨ rootType ≠ "user"
      · rw [if_pos h4]
        refine ⟨⟨fun ⟨e, he⟩ => (by cases he), fun e => by tauto⟩, ⟨fun _ => ⟨h1, h2, by tauto⟩, fun _ => rfl⟩, fun m => ⟨fun e => (by cases e), fun e => ?_⟩⟩
        exfalso
        tauto
      · rw [if_neg h4]
        refine ⟨⟨fun ⟨e, he⟩ => (by cases he), fun e => by tauto⟩, ⟨fun e => (by cases e), fun e => by tauto⟩, fun m => ⟨fun e => ?_, fun e => by rw [e.1]⟩⟩
        injection e with e
        injection e with e
        refine ⟨e.symm, ?_, h2, ?_⟩ <;> tauto
    · rw [if_pos h2]
      exact ⟨⟨fun _ => Or.inr h2, fun _ => ⟨_, rfl⟩⟩, ⟨fun e => (by cases e), fun e => absurd e.2.1 h2⟩, fun m => ⟨fun e => (by cases e), fun e => absurd e.2.2.1 h2⟩⟩
  · rw [if_pos h1]
    exact ⟨⟨fun _ => Or.inl h1, fun _ => ⟨_, rfl⟩⟩, ⟨fun e => (by cases e), fun e => absurd e.1 h1⟩, fun m => ⟨fun e => (by cases e), fun e => absurd (hm.2 (Or.inl e.2.1)) h1⟩⟩

/-! ### Instances and refutations -/

/-- `p.x` of size 2, promoted to `x`, is the input of a component with output `y` of size 2; `y = (2 x0 + 5 x1, x0 - x1)`. -/
def exGrad : GradEnv ℚ where
  fd := {
    rnd := id, total := true
    run := fun s => .ok { s with u := fun k => if k = 2 then 2 * s.u 0 + 5 * s.u 1 else if k = 3 then s.u 0 - s.u 1 else s.u k }
    conns := [("c.x", "p.x")], pslices := [("c.x", (0, 2))], uslices := [("x", (0, 2)), ("y", (2, 2))]
    toProm := [("p.x", "x"), ("c.x", "c.x"), ("c.y", "y")], states := []
    defaults := (1/1000, false, .forward), overrides := [], poi := [], qoi := [], npar := 1, parId := 0 }
  toAbsU := [("x", "p.x"), ("y", "c.y")]
  toAbsP := [("c.x", ["c.x"])]
  dvScale := [("x", 10)]
  cnScale := [("y", 2)]

def exGradF (s : FdSt ℚ) (k : Nat) : ℚ := if k = 2 then 2 * s.u 0 + 5 * s.u 1 else if k = 3 then s.u 0 - s.u 1 else s.u k

theorem exGrad_ok : GradOk exGrad (fun _ => False) (fun k => k ≠ 2 ∧ k ≠ 3) exGradF ["x"] ["y"] := by
  refine ⟨rfl, rfl, ⟨rfl, rfl⟩, ⟨?_, ?_⟩, ⟨by simp [exGrad], by simp [exGrad]⟩, ?_, ⟨by norm_num [exGrad], by simp [exGrad]⟩, ?_, ?_⟩
  · intro s
    refine ⟨_, rfl, rfl, by simp, ?_⟩
    intro k hk
    simp only
    rw [if_neg hk.1, if_neg hk.2]
  · intro s t h
    funext k
    unfold exGradF
    rw [h.2 0 (by decide), h.2 1 (by decide)]
    by_cases h2 : k = 2
    · simp [h2]
    · by_cases h3 : k = 3
      · simp [h3]
      · simp [h2, h3, h.2 k ⟨h2, h3⟩]
  · intro key hkey
    simp only [exGrad, List.map_cons, List.map_nil, List.mem_singleton] at hkey
    subst hkey
    exact ⟨"c.x", by decide, by simp⟩
  · intro x hx
    simp only [List.mem_singleton] at hx
    subst hx
    refine ⟨0, 2, "p.x", by decide, by decide, by decide, Or.inr (by decide), by intro l hl; simp [exGrad] at hl, ?_⟩
    have : gradSel exGrad.fd.uslices exGrad.fd.poi "x" = [0, 1] := by decide
    rw [this]
    simp
  · intro u hu
    simp only [List.mem_singleton] at hu
    subst hu
    refine ⟨2, 2, by decide, by intro l hl; simp [exGrad] at hl, ?_⟩
    have : gradSel exGrad.fd.uslices exGrad.fd.qoi "y" = [2, 3] := by decide
    rw [this]
    simp

/-- The model at `x = (1, 1)`. -/
def exGradS : FdSt ℚ := ⟨fun _ => 1, fun k => if k = 2 then 7 else if k = 3 then 0 else 1, fun _ => 0⟩

/-- First `m` rows and `n` columns of a matrix. -/
def rowsOfMat (m n : Nat) (J : TMat ℚ) : List (List ℚ) := (List.range m).map fun i => (List.range n).map (J.a i)

/-- Scaled by 10 and 2. -/
example : (gradArr exGrad ["x"] ["y"] exGradS).map (fun r => rowsOfMat 2 2 r.1) = .ok [[40, 100], [20, -20]] := by decide +kernel
example : (gradDict exGrad none ["x"] ["y"] exGradS).map (fun r => (r.1.get "y" "x").map (rowsOfMat 2 2)) = .ok (some [[40, 100], [20, -20]]) := by decide +kernel

/-- Non-trivial instance of `C116_affine_partial`. -/
example : AffineIn exGradF fun k sel q => if sel = .unknowns then (if k = 2 then (if q = 0 then 2 else if q = 1 then 5 else 0) else if k = 3 then (if q = 0 then 1 else if q = 1 then -1 else 0)
    else if k = q then 1 else 0) else 0 := by
  intro s sel q d k
  cases sel with
  | params => simp [exGradF, FdSt.shift, FdSt.bump]
  | unknowns =>
    simp only [exGradF, FdSt.shift, FdSt.bump, id_eq, if_true]
    by_cases h2 : k = 2
    · subst h2
      by_cases q0 : q = 0
      · subst q0; simp; ring
      · by_cases q1 : q = 1
        · subst q1; simp; ring
        · simp [q0, q1, Ne.symm q0, Ne.symm q1]
    · by_cases h3 : k = 3
      · subst h3
        by_cases q0 : q = 0
        · subst q0; simp; ring
        · by_cases q1 : q = 1
          · subst q1; simp; ring
          · simp [q0, q1, Ne.symm q0, Ne.symm q1]
      · by_cases hq : k = q
        · subst hq; simp [h2, h3]
        · simp [h2, h3, hq]

/-- **C116 is false for a design variable that is requested as an unknown too**, as it is when a driver has it as an objective or a constraint: the block of `x` with respect to itself has one row
instead of two, so that the rows of `y` start one row too early and the last row stays zero. The right matrix has the rows 10·I of `x` and then the two rows of `y`. -/
theorem C116_overlap_refuted : (gradArr exGrad ["x"] ["x", "y"] exGradS).map (fun r => (r.1.m, rowsOfMat 4 2 r.1)) =
    .ok (4, [[10, 0], [40, 100], [20, -20], [0, 0]]) := by decide +kernel

/-- **C116 is false for an unknown that is listed twice**, as it is when a driver has it as an objective and as a constraint: in the dict format the block is scaled twice, since the entries of the dict are the arrays of the finite difference itself;
in the array format it is scaled once. -/
theorem C116_repeated_refuted : (gradDict exGrad none ["x"] ["y", "y"] exGradS).map (fun r => (r.1.get "y" "x").map (rowsOfMat 2 2)) = .ok (some [[800, 2000], [400, -400]]) ∧
    (gradArr exGrad ["x"] ["y", "y"] exGradS).map (fun r => rowsOfMat 4 2 r.1) = .ok [[40, 100], [20, -20], [40, 100], [20, -20]] := by
  constructor <;> decide +kernel

/-- **C116 is false for an independent variable that is connected to nothing**: the derivatives are zero, but the request is a KeyError. -/
theorem C116_unconnected_refuted : ((gradArr { exGrad with fd := { exGrad.fd with conns := [], pslices := [] } } ["x"] ["y"] exGradS).map (fun r => rowsOfMat 2 2 r.1) = .error .KeyError) ∧
    ∀ s t : FdSt ℚ, (∀ k, k ≠ 2 ∧ k ≠ 3 → s.u k = t.u k) → exGradF s = exGradF t := by
  refine ⟨by decide +kernel, ?_⟩
  intro s t h
  funext k
  unfold exGradF
  rw [h 0 (by decide), h 1 (by decide)]
  by_cases h2 : k = 2
  · simp [h2]
  · by_cases h3 : k = 3
    · simp [h3]
    · simp [h2, h3, h k ⟨h2, h3⟩]

end OpenMDAO
