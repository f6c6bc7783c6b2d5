import Verif.Spec.ComplexStep
import Verif.Lemmas.Connections
import Verif.Lemmas.FiniteDiff
import Verif.Lemmas.Totals
/-! # Lemmas about the complex step linearization -/
namespace OpenMDAO
set_option linter.unusedSectionVars false

/-- The stored object of a computed value. -/
def rhsVal : CsRhs → CsVal
  | .calc l => .own l
  | .bare _ => .view

theorem fold_assign (st : CsSt) (ps : List (Str × CsParam)) (asg : List (Str × CsRhs)) (hc : ∀ a ∈ asg, ∃ l, a.2 = .calc l) (d : List (Str × CsVal)) :
    ∃ d', asg.foldlM (st.assign ps) d = .ok d' ∧ ∀ n, d'.lookup n = ((asg.reverse.lookup n).map rhsVal).or (d.lookup n) := by
  induction asg generalizing d with
  | nil => exact ⟨d, rfl, fun n => by simp⟩
  | cons a asg ih =>
    obtain ⟨l, hl⟩ := hc a (by simp)
    obtain ⟨d', h1, h2⟩ := ih (fun x hx => hc x (by simp [hx])) (dictSet d a.1 (.own l))
    refine ⟨d', ?_, ?_⟩
    · rw [List.foldlM_cons]
      have : st.assign ps d a = .ok (dictSet d a.1 (.own l)) := by
        unfold CsSt.assign
        rw [hl]
        rfl
      rw [this]
      exact h1
    · intro n
      rw [h2 n, List.reverse_cons, List.lookup_append, lookup_dictSet]
      cases hr : asg.reverse.lookup n with
      | some x => simp
      | none =>
        obtain ⟨k, v⟩ := a
        simp only at hl
        subst hl
        simp only [Option.map_none, Option.none_or, List.lookup_cons, List.lookup_nil]
        by_cases hn : n = k
        · subst hn; simp [rhsVal]
        · have : (n == k) = false := by simpa using hn
          simp [this, hn]

/-- No view of `step_val` among the values. -/
def NoView (d : List (Str × CsVal)) : Prop := ∀ n v, d.lookup n = some v → ∃ l, v = .own l

theorem noView_or (d d' : List (Str × CsVal)) (asg : List (Str × CsRhs)) (hc : ∀ a ∈ asg, ∃ l, a.2 = .calc l) (hd : NoView d)
    (h : ∀ n, d'.lookup n = ((asg.reverse.lookup n).map rhsVal).or (d.lookup n)) : NoView d' := by
  intro n v hv
  rw [h n] at hv
  cases hr : asg.reverse.lookup n with
  | none => rw [hr] at hv; exact hd n v (by simpa using hv)
  | some x =>
    have hm : (n, x) ∈ asg := by
      have := lookup_mem hr
      simpa using this
    obtain ⟨l, hl⟩ := hc _ hm
    simp only at hl
    rw [hr, hl] at hv
    exact ⟨l, by simpa [rhsVal] using hv.symm⟩

/-- A value divided by the residual scaler of its name. -/
noncomputable def scaledList (sc : List (Str × ℝ)) (n : Str) (l : List ℂ) : List ℂ :=
  match sc.lookup n with
  | none => l
  | some s => l.map fun z => z * ((1 / s : ℝ) : ℂ)

theorem fold_scale (sc : List (Str × ℝ)) (hnd : (sc.map Prod.fst).Nodup) (st : CsSt) (hv : NoView st.csr) (hk : ∀ ns ∈ sc, (st.csr.lookup ns.1).isSome) :
    ∃ d', sc.foldlM CsSt.scale st = .ok { st with csr := d' } ∧ NoView d' ∧ (∀ n, (d'.lookup n).isSome = (st.csr.lookup n).isSome) ∧
      ∀ n l, st.csr.lookup n = some (.own l) → d'.lookup n = some (.own (scaledList sc n l)) := by
  induction sc generalizing st with
  | nil => exact ⟨st.csr, rfl, hv, fun _ => rfl, fun n l h => h⟩
  | cons ns sc ih =>
    obtain ⟨k, s⟩ := ns
    rw [List.map_cons, List.nodup_cons] at hnd
    obtain ⟨v, hkv⟩ := Option.isSome_iff_exists.mp (hk (k, s) (by simp))
    simp only at hkv
    obtain ⟨l0, rfl⟩ := hv k v hkv
    have hstep : st.scale (k, s) = .ok { st with csr := dictSet st.csr k (.own (l0.map fun z => z * ((1 / s : ℝ) : ℂ))) } := by
      unfold CsSt.scale
      simp only [hkv]
    obtain ⟨d', h1, h2, h3, h4⟩ := ih hnd.2 { st with csr := dictSet st.csr k (.own (l0.map fun z => z * ((1 / s : ℝ) : ℂ))) }
      (by
        intro n v hn
        simp only [lookup_dictSet] at hn
        split at hn
        · exact ⟨_, (Option.some.inj hn).symm⟩
        · exact hv n v hn)
      (by
        intro x hx
        simp only [lookup_dictSet]
        split
        · rfl
        · exact hk x (by simp [hx]))
    refine ⟨d', ?_, h2, ?_, ?_⟩
    · rw [List.foldlM_cons, hstep]
      exact h1
    · intro n
      rw [h3 n]
      simp only [lookup_dictSet]
      by_cases hn : n = k
      · subst hn; simp [hkv]
      · simp [hn]
    · intro n l hl
      by_cases hn : n = k
      · subst hn
        rw [hkv] at hl
        cases hl
        have hnone : sc.lookup n = none := by
          cases hh : sc.lookup n with
          | none => rfl
          | some y => exact absurd (List.mem_map_of_mem (f := Prod.fst) (lookup_mem hh)) hnd.1
        rw [h4 n _ (by simp only [lookup_dictSet, if_true]; rfl)]
        simp [scaledList, hnone]
      · rw [h4 n l (by simp only [lookup_dictSet, if_neg hn]; exact hl)]
        have : (n == k) = false := by simpa using hn
        simp [scaledList, List.lookup_cons, this]

/-! ### The vectors of the model -/

/-- Names and sizes. -/
def layoutOf (v : List (Str × List ℝ)) : List (Str × Nat) := v.map fun kv => (kv.1, kv.2.length)

/-- The vector of zeros with this layout. -/
def zeroed (v : List (Str × List ℝ)) : List (Str × List ℝ) := v.map fun kv => (kv.1, kv.2.map fun _ => 0)

theorem zipWith_map_snd {α : Type} (f : ℝ → ℝ → ℝ) (a : List α) (g : α → ℝ) (k : α → ℝ) : List.zipWith f (a.map g) (a.map k) = a.map fun x => f (g x) (k x) := by
  induction a with
  | nil => rfl
  | cons x a ih => simp [ih]

theorem vecOp_neg (r u : List (Str × List ℝ)) (h : layoutOf r = layoutOf u) : vecOp (fun _ x => -x) r u = u.map fun kv => (kv.1, kv.2.map fun x => -x) := by
  induction u generalizing r with
  | nil => cases r with
    | nil => rfl
    | cons _ _ => simp [layoutOf] at h
  | cons x u ih =>
    cases r with
    | nil => simp [layoutOf] at h
    | cons y r =>
      simp only [layoutOf, List.map_cons, List.cons.injEq, Prod.mk.injEq] at h
      have := ih r h.2
      unfold vecOp at this ⊢
      rw [List.zipWith_cons_cons, this, List.map_cons, h.1.1]
      congr 2
      have hl := h.1.2
      clear this ih h
      generalize y.2 = a at hl
      generalize x.2 = b at hl
      induction a generalizing b with
      | nil => cases b with
        | nil => rfl
        | cons _ _ => simp at hl
      | cons p a ih => cases b with
        | nil => simp at hl
        | cons q b => simp at hl; simp [ih b hl]

theorem vecOp_map (f : ℝ → ℝ → ℝ) (g k : ℝ → ℝ) (u : List (Str × List ℝ)) :
    vecOp f (u.map fun kv => (kv.1, kv.2.map g)) (u.map fun kv => (kv.1, kv.2.map k)) = u.map fun kv => (kv.1, kv.2.map fun x => f (g x) (k x)) := by
  unfold vecOp
  induction u with
  | nil => rfl
  | cons x u ih => simp only [List.map_cons, List.zipWith_cons_cons, ih, zipWith_map_snd]

theorem map_id_vec (u : List (Str × List ℝ)) : (u.map fun kv => (kv.1, kv.2.map fun x => x)) = u := by
  induction u with
  | nil => rfl
  | cons x u ih => simp

theorem explicit_vectors (r u : List (Str × List ℝ)) (h : layoutOf r = layoutOf u) :
    vecOp (· + ·) (vecOp (fun _ x => -x) r u) u = zeroed u ∧ vecOp (· - ·) u (vecOp (· + ·) (vecOp (fun _ x => -x) r u) u) = u := by
  have h1 : vecOp (· + ·) (vecOp (fun _ x => -x) r u) u = zeroed u := by
    rw [vecOp_neg r u h]
    have := vecOp_map (· + ·) (fun x => -x) (fun x => x) u
    rw [map_id_vec] at this
    rw [this]
    simp [zeroed]
  refine ⟨h1, ?_⟩
  rw [h1]
  have := vecOp_map (· - ·) (fun x => x) (fun _ => 0) u
  rw [map_id_vec] at this
  unfold zeroed
  rw [this]
  simp

theorem layout_zero (u : List (Str × List ℝ)) : layoutOf (zeroed u) = layoutOf u := by
  simp [layoutOf, zeroed]

/-! ### What the code reads -/

/-- Parameters as read during a step: the stored entries of the stepped parameter, the converted entries of the others. -/
noncomputable def rawParams (ps : List (Str × CsParam)) (d : Displ) : CsReader := fun n =>
  (ps.lookup n).map fun q => if d.isState = false ∧ d.name = n then d.apply false n q.val else q.get.map fun x : ℝ => (x : ℂ)

theorem get_length (q : CsParam) : q.get.length = q.val.length := by
  unfold CsParam.get
  split <;> simp

theorem apply_length (d : Displ) (b : Bool) (n : Str) (l : List ℝ) : (d.apply b n l).length = l.length := by
  unfold Displ.apply
  split <;> simp

theorem rawParams_shaped (ps : List (Str × CsParam)) (d : Displ) : Shaped (rawParams ps d) (paramSize ps) := by
  intro n
  unfold rawParams paramSize
  cases ps.lookup n with
  | none => rfl
  | some q =>
    simp only [Option.map_some, Option.some.injEq]
    split
    · rw [apply_length]
    · rw [List.length_map, get_length]

theorem unknownsAt_shaped (u : List (Str × List ℝ)) (d : Displ) : Shaped (unknownsAt u d) (unknownSize u) := by
  intro n
  unfold unknownsAt unknownSize
  cases u.lookup n with
  | none => rfl
  | some q => simp [apply_length]

theorem rawParams_eq (ps : List (Str × CsParam)) (d : Displ) (h : d.isState = false → ∀ q, ps.lookup d.name = some q → q.conv = none) : rawParams ps d = paramsAt ps d := by
  funext n
  unfold rawParams paramsAt
  cases hq : ps.lookup n with
  | none => rfl
  | some q =>
    simp only [Option.map_some, Option.some.injEq]
    by_cases hn : d.isState = false ∧ d.name = n
    · rw [if_pos hn, h hn.1 q (by rw [hn.2]; exact hq)]
      rfl
    · rw [if_neg hn]
      unfold Displ.apply
      rw [if_neg hn]
      unfold CsParam.get convert
      cases q.conv with
      | none => rfl
      | some so => simp [Function.comp_def]

/-! ### One evaluation -/

/-- What holds of the state whenever the code is called. -/
structure CsInv (c : CsComp) (u0 : List (Str × List ℝ)) (st : CsSt) : Prop where
  uvec : st.uvec = u0
  rvec : layoutOf st.rvec = layoutOf u0
  noView : NoView st.csr
  keys : ∀ ns ∈ c.scalers, (st.csr.lookup ns.1).isSome
  csu : c.states ≠ [] → st.csu = csCopy u0

theorem lookup_csCopy (u : List (Str × List ℝ)) (n : Str) : (csCopy u).lookup n = (u.lookup n).map fun v => .own (v.map fun x : ℝ => (x : ℂ)) := by
  unfold csCopy
  induction u with
  | nil => rfl
  | cons x u ih =>
    obtain ⟨k, v⟩ := x
    simp only [List.map_cons, List.lookup_cons]
    cases n == k
    · exact ih
    · rfl

theorem readU_eq (u : List (Str × List ℝ)) (st : CsSt) (d : Displ) (v : List ℝ) (hs : st.step = some (d.isState, d.name)) (hv : d.isState = true → u.lookup d.name = some v)
    (hsv : st.stepVal = (v.map fun x : ℝ => (x : ℂ)).modify d.entry fun z => z + d.by') (hu : st.csu = csCopy u) : st.readU = unknownsAt u d := by
  funext n
  unfold CsSt.readU unknownsAt
  rw [hs]
  by_cases hn : d.isState = true ∧ d.name = n
  · rw [if_pos (by rw [hn.1, hn.2]), ← hn.2, hv hn.1]
    simp [Displ.apply, hn.1, hsv]
  · rw [if_neg (by simpa using hn), hu, lookup_csCopy]
    cases u.lookup n with
    | none => rfl
    | some w => simp [CsVal.read, Displ.apply, hn]

theorem readP_eq (ps : List (Str × CsParam)) (st : CsSt) (d : Displ) (q : CsParam) (v : List ℝ) (hs : st.step = some (d.isState, d.name)) (hv : d.isState = false → ps.lookup d.name = some q ∧ q.val = v)
    (hsv : st.stepVal = (v.map fun x : ℝ => (x : ℂ)).modify d.entry fun z => z + d.by') : st.readP ps = rawParams ps d := by
  funext n
  unfold CsSt.readP rawParams
  rw [hs]
  by_cases hn : d.isState = false ∧ d.name = n
  · rw [if_pos (by rw [hn.1, hn.2]), ← hn.2, (hv hn.1).1]
    simp [Displ.apply, hn.1, hsv, (hv hn.1).2]
  · rw [if_neg (by simpa using hn)]
    cases ps.lookup n with
    | none => rfl
    | some w => simp [hn]

/-- The dictionary the results are read from. -/
def CsSt.res (st : CsSt) (c : CsComp) : List (Str × CsVal) := if c.states = [] then st.csu else st.csr

theorem sysApply_spec (c : CsComp) (ps : List (Str × CsParam)) (u0 : List (Str × List ℝ)) (hsc : ∀ ns ∈ c.scalers, ns.1 ∈ c.states) (hnd : (c.scalers.map Prod.fst).Nodup)
    (st : CsSt) (hi : CsInv c u0 st) (asg : List (Str × CsRhs)) (hrun : c.code (st.readP ps) st.readU = .ok asg) (hc : ∀ a ∈ asg, ∃ l, a.2 = .calc l) :
    ∃ st', st.sysApply ps c = .ok st' ∧ CsInv c u0 st' ∧ st'.step = st.step ∧ st'.stepVal = st.stepVal ∧
      (st'.rvec = if c.states = [] then zeroed u0 else st.rvec) ∧
      ∀ u l, asg.reverse.lookup u = some (.calc l) → (st'.res c).lookup u = some (.own (scaledList c.scalers u l)) := by
  by_cases hs : c.states = []
  · have hsc0 : c.scalers = [] := by
      cases hcs : c.scalers with
      | nil => rfl
      | cons x _ => exact absurd (hsc x (by rw [hcs]; simp)) (by simp [hs])
    obtain ⟨d', h1, h2⟩ := fold_assign { st with rvec := vecOp (fun _ u => -u) st.rvec st.uvec } ps asg hc st.csu
    rw [hi.uvec] at h1
    have hex := explicit_vectors st.rvec u0 hi.rvec
    refine ⟨{ st with rvec := zeroed u0, uvec := u0, csu := d' }, ?_, ?_, rfl, rfl, by rw [if_pos hs], ?_⟩
    · unfold CsSt.sysApply CsSt.applyNl CsSt.runCode
      rw [if_pos hs]
      have hr1 : c.code (CsSt.readP { st with rvec := vecOp (fun _ u => -u) st.rvec st.uvec } ps) (CsSt.readU { st with rvec := vecOp (fun _ u => -u) st.rvec st.uvec }) = .ok asg := hrun
      rw [hr1]
      simp only [bind, Except.bind, if_pos hs, hsc0, List.foldlM_nil, pure, Except.pure, hi.uvec]
      rw [h1]
      have h3 := hex.2
      rw [hex.1] at h3
      simp only [hex.1, h3]
    · exact ⟨rfl, layout_zero u0, hi.noView, hi.keys, fun h => absurd hs h⟩
    · intro u l hl
      unfold CsSt.res
      rw [if_pos hs]
      simp only [h2 u, hl, Option.map_some, rhsVal, Option.some_or, hsc0]
      rfl
  · obtain ⟨d', h1, h2⟩ := fold_assign st ps asg hc st.csr
    have hnv := noView_or st.csr d' asg hc hi.noView h2
    obtain ⟨d2, g1, g2, g3, g4⟩ := fold_scale c.scalers hnd { st with csr := d' } hnv (by
      intro ns hns
      have := hi.keys ns hns
      simp only [h2 ns.1]
      cases asg.reverse.lookup ns.1 with
      | none => simpa using this
      | some _ => simp)
    refine ⟨{ st with csr := d2 }, ?_, ⟨hi.uvec, hi.rvec, g2, ?_, hi.csu⟩, rfl, rfl, by rw [if_neg hs], ?_⟩
    · unfold CsSt.sysApply CsSt.applyNl CsSt.runCode
      rw [if_neg hs, hrun]
      simp only [bind, Except.bind, if_neg hs, h1, g1]
    · intro ns hns
      simp only [g3 ns.1, h2 ns.1]
      have := hi.keys ns hns
      cases asg.reverse.lookup ns.1 with
      | none => simpa using this
      | some _ => simp
    · intro u l hl
      unfold CsSt.res
      rw [if_neg hs]
      exact g4 u l (by simp only [h2 u, hl, Option.map_some, rhsVal, Option.some_or])

theorem step_back (st : CsSt) (i : Nat) (h : ℝ) (sv : List ℂ) (hsv : st.stepVal = sv.modify i fun z => z + Complex.I * (h : ℂ)) : (st.stepComplex i (-h)).stepVal = sv := by
  unfold CsSt.stepComplex
  simp only [hsv, List.modify_modify_eq]
  have : ((fun z : ℂ => z + Complex.I * ((-h : ℝ) : ℂ)) ∘ fun z => z + Complex.I * (h : ℂ)) = id := by
    funext z
    simp
  rw [this, List.modify_id]

/-! ### The loops -/

/-- The column of the Jacobian for a displacement by the step. -/
noncomputable def csCol (c : CsComp) (ps : List (Str × CsParam)) (u0 : List (Str × List ℝ)) (d : Displ) (h : ℝ) (u : Str) : List ℝ :=
  match c.code (rawParams ps d) (unknownsAt u0 d) with
  | .ok asg => match asg.reverse.lookup u with
    | some (.calc l) => (scaledList c.scalers u l).map fun z => z.im / h
    | _ => []
  | .error _ => []

/-- The block of an unknown with its first `k` columns. -/
def CBlk (J : CsJac) (u p : Str) (m n k : Nat) (col : Nat → List ℝ) : Prop :=
  ∃ b, J.lookup (u, p) = some b ∧ b.length = n ∧ (∀ x ∈ b, x.length = m) ∧ ∀ i < k, b[i]? = some (col i)

theorem setCols_spec (st : CsSt) (c : CsComp) (p : Str) (j n : Nat) (h : ℝ) (fdU : List Str) (size : Str → Nat) (col : Str → Nat → List ℝ) (hj : j < n)
    (hres : ∀ u ∈ fdU, ∃ l, (st.res c).lookup u = some (.own l) ∧ (l.map fun z => z.im / h) = col u j ∧ l.length = size u) (J : CsJac) (hJ : ∀ u ∈ fdU, CBlk J u p (size u) n j (col u)) :
    ∃ J', fdU.foldlM (csSetCol st c p j h) J = .ok J' ∧ (∀ u ∈ fdU, CBlk J' u p (size u) n (j + 1) (col u)) ∧ ∀ key, key.2 ≠ p → J'.lookup key = J.lookup key := by
  obtain ⟨J', h1, h2, h3, h4⟩ := foldlM_ok (csSetCol st c p j h) fdU
    (fun pre J' => (∀ u ∈ fdU, CBlk J' u p (size u) n j (col u)) ∧ (∀ u ∈ pre, u ∈ fdU → CBlk J' u p (size u) n (j + 1) (col u)) ∧ ∀ key, key.2 ≠ p → J'.lookup key = J.lookup key)
    (by
      rintro pre u J1 hu ⟨hb, hpre, hfr⟩
      obtain ⟨b, hb1, hb2, hb3, hb4⟩ := hb u hu
      obtain ⟨l, hl1, hl2, hl3⟩ := hres u hu
      have hjb : j < b.length := by omega
      have hold : b[j]? = some (b[j]'hjb) := List.getElem?_eq_getElem hjb
      have hcl : (col u j).length = size u := by rw [← hl2, List.length_map, hl3]
      have hset : csSetCol st c p j h J1 u = .ok (dictSet J1 (u, p) (b.set j (col u j))) := by
        unfold csSetCol
        have hl1' : (if c.states = [] then st.csu else st.csr).lookup u = some (.own l) := hl1
        simp only [hl1', hb1, hold, CsVal.read, hl2]
        unfold fitCol
        rw [if_pos (by rw [hcl]; exact (hb3 _ (List.getElem_mem hjb)).symm)]
        rfl
      have hnew : ∀ k ≤ j + 1, CBlk (dictSet J1 (u, p) (b.set j (col u j))) u p (size u) n k (col u) := by
        intro k hk
        refine ⟨b.set j (col u j), by rw [lookup_dictSet, if_pos rfl], by rw [List.length_set, hb2], ?_, ?_⟩
        · intro x hx
          rcases List.mem_or_eq_of_mem_set hx with hx | hx
          · exact hb3 x hx
          · rw [hx, hcl]
        · intro i hi
          by_cases hij : i = j
          · subst hij; rw [List.getElem?_set_self hjb]
          · rw [List.getElem?_set_ne (Ne.symm hij)]; exact hb4 i (by omega)
      have hoth : ∀ u', u' ≠ u → ∀ k, CBlk J1 u' p (size u') n k (col u') → CBlk (dictSet J1 (u, p) (b.set j (col u j))) u' p (size u') n k (col u') := by
        intro u' hne k hc
        unfold CBlk at hc ⊢
        rw [lookup_dictSet, if_neg (by simpa using hne)]
        exact hc
      refine ⟨_, hset, ?_, ?_, ?_⟩
      · intro u' hu'
        by_cases he : u' = u
        · subst he; exact hnew j (by omega)
        · exact hoth u' he j (hb u' hu')
      · intro u' hu' hm
        by_cases he : u' = u
        · subst he; exact hnew (j + 1) (le_refl _)
        · rcases List.mem_append.mp hu' with hu' | hu'
          · exact hoth u' he _ (hpre u' hu' hm)
          · exact absurd (List.mem_singleton.mp hu') he
      · intro key hkey
        rw [lookup_dictSet, if_neg (by rintro rfl; exact hkey rfl), hfr key hkey])
    J ⟨hJ, by simp, fun _ _ => rfl⟩
  exact ⟨J', h1, fun u hu => h3 u hu hu, h4⟩

theorem alloc_spec (u0 : List (Str × List ℝ)) (p : Str) (n : Nat) (fdU : List Str) (size : Str → Nat) (hsz : ∀ u ∈ fdU, unknownSize u0 u = some (size u)) (J : CsJac) (col : Str → Nat → List ℝ) :
    ∃ J', fdU.foldlM (csAlloc u0 p n) J = .ok J' ∧ (∀ u ∈ fdU, CBlk J' u p (size u) n 0 (col u)) ∧ ∀ key, key.2 ≠ p → J'.lookup key = J.lookup key := by
  obtain ⟨J', h1, h2, h3⟩ := foldlM_ok (csAlloc u0 p n) fdU
    (fun pre J' => (∀ u ∈ pre, u ∈ fdU → CBlk J' u p (size u) n 0 (col u)) ∧ ∀ key, key.2 ≠ p → J'.lookup key = J.lookup key)
    (by
      rintro pre u J1 hu ⟨hpre, hfr⟩
      have hs := hsz u hu
      unfold unknownSize at hs
      obtain ⟨v, hv1, hv2⟩ := Option.map_eq_some_iff.mp hs
      refine ⟨dictSet J1 (u, p) (List.replicate n (List.replicate v.length 0)), by unfold csAlloc; rw [hv1], ?_, ?_⟩
      · intro u' hu' hm
        unfold CBlk
        by_cases he : u' = u
        · subst he
          refine ⟨_, by rw [lookup_dictSet, if_pos rfl], by simp, ?_, by omega⟩
          intro x hx
          rw [List.eq_of_mem_replicate hx, List.length_replicate, hv2]
        · rw [lookup_dictSet, if_neg (by simpa using he)]
          rcases List.mem_append.mp hu' with hu' | hu'
          · exact hpre u' hu' hm
          · exact absurd (List.mem_singleton.mp hu') he
      · intro key hkey
        rw [lookup_dictSet, if_neg (by rintro rfl; exact hkey rfl), hfr key hkey])
    J ⟨by simp, fun _ _ => rfl⟩
  exact ⟨J', h1, fun u hu => h2 u hu hu, h3⟩

theorem map_freeze (sv : List ℂ) (d : List (Str × CsVal)) (n : Str) : (d.map fun kv => (kv.1, kv.2.freeze sv)).lookup n = (d.lookup n).map (CsVal.freeze sv) := by
  induction d with
  | nil => rfl
  | cons x d ih =>
    obtain ⟨k, v⟩ := x
    simp only [List.map_cons, List.lookup_cons]
    cases n == k
    · exact ih
    · rfl

theorem freeze_copy (sv : List ℂ) (u : List (Str × List ℝ)) : ((csCopy u).map fun kv => (kv.1, kv.2.freeze sv)) = csCopy u := by
  simp [csCopy, CsVal.freeze]

/-- Everything about the stepped variable. -/
structure Target (c : CsComp) (ps : List (Str × CsParam)) (u0 : List (Str × List ℝ)) (p : Str) (val : List ℝ) : Prop where
  param : p ∉ c.states → ∃ q, ps.lookup p = some q ∧ q.val = val
  state : p ∈ c.states → u0.lookup p = some val

theorem csVar_spec (c : CsComp) (ps : List (Str × CsParam)) (u0 r0 : List (Str × List ℝ)) (fdP fdU : List Str) (steps : List (Str × ℝ)) (h : ℝ) (hw : WellBehaved c ps u0 fdU) (hset : SetUp c ps u0 r0 fdP)
    (p : Str) (val : List ℝ) (ht : Target c ps u0 p val) (st : CsSt) (hi : CsInv c u0 st) (J : CsJac) :
    ∃ st' J', csVar c ps fdU steps h (st, J) p = .ok (st', J') ∧ CsInv c u0 st' ∧ (st'.rvec = if c.states = [] ∧ val ≠ [] then zeroed u0 else st.rvec) ∧
      (∀ u ∈ fdU, ∃ m, unknownSize u0 u = some m ∧ CBlk J' u p m val.length val.length
        (fun j => csCol c ps u0 ⟨decide (p ∈ c.states), p, j, Complex.I * (((steps.lookup p).getD h : ℝ) : ℂ)⟩ ((steps.lookup p).getD h) u)) ∧
      ∀ key, key.2 ≠ p → J'.lookup key = J.lookup key := by
  set fs := (steps.lookup p).getD h with hfs
  have hsz : ∀ u ∈ fdU, ∃ m, unknownSize u0 u = some m := by
    intro u hu
    obtain ⟨asg, _, _, h3⟩ := hw.runs (rawParams ps ⟨false, [], 0, 0⟩) (unknownsAt u0 ⟨false, [], 0, 0⟩) (rawParams_shaped _ _) (unknownsAt_shaped _ _)
    obtain ⟨l, _, hl⟩ := h3 u hu
    exact ⟨_, hl⟩
  let size : Str → Nat := fun u => (unknownSize u0 u).getD 0
  have hsize : ∀ u ∈ fdU, unknownSize u0 u = some (size u) := by
    intro u hu
    obtain ⟨m, hm⟩ := hsz u hu
    simp [size, hm]
  have htar : csTarget c ps st p = .ok val := by
    unfold csTarget
    by_cases hp : p ∈ c.states
    · rw [if_pos hp, hi.uvec, ht.state hp]
    · obtain ⟨q, hq, hv⟩ := ht.param hp
      rw [if_neg hp, hq, ← hv]
  let col : Str → Nat → List ℝ := fun u j => csCol c ps u0 ⟨decide (p ∈ c.states), p, j, Complex.I * (fs : ℂ)⟩ fs u
  obtain ⟨J1, a1, a2, a3⟩ := alloc_spec u0 p val.length fdU size hsize J col
  obtain ⟨s1, b1, ⟨⟨b2, b3, b4, b4'⟩, b5, b6⟩⟩ := foldlM_prefix (csColumn c ps fdU p fs) (List.range val.length)
    (fun pre s => (CsInv c u0 s.1 ∧ s.1.step = some (decide (p ∈ c.states), p) ∧ s.1.stepVal = (val.map fun x : ℝ => (x : ℂ)) ∧ (s.1.rvec = if c.states = [] ∧ pre ≠ [] then zeroed u0 else st.rvec)) ∧
      (∀ u ∈ fdU, CBlk s.2 u p (size u) val.length pre.length (col u)) ∧ ∀ key, key.2 ≠ p → s.2.lookup key = J1.lookup key)
    (by
      rintro pre j post ⟨st1, J2⟩ hsplit ⟨⟨hi1, hs1, hsv1, hr1⟩, hblk, hfr⟩
      simp only at hi1 hs1 hsv1 hr1 hblk hfr
      have hk : j = pre.length ∧ j < val.length := by
        have h1 : (List.range val.length)[pre.length]? = some j := by rw [hsplit]; simp
        rw [List.getElem?_range (by have := congrArg List.length hsplit; simp at this; omega)] at h1
        cases h1
        have := congrArg List.length hsplit
        simp at this
        exact ⟨rfl, by omega⟩
      obtain ⟨hkp, hkn⟩ := hk
      let d : Displ := ⟨decide (p ∈ c.states), p, j, Complex.I * (fs : ℂ)⟩
      have hi2 : CsInv c u0 (st1.stepComplex j fs) := ⟨hi1.uvec, hi1.rvec, hi1.noView, hi1.keys, hi1.csu⟩
      have hs2 : (st1.stepComplex j fs).step = some (d.isState, d.name) := hs1
      have hsv2 : (st1.stepComplex j fs).stepVal = (val.map fun x : ℝ => (x : ℂ)).modify d.entry fun z => z + d.by' := by
        show st1.stepVal.modify j _ = _
        rw [hsv1]
      have hrp : (st1.stepComplex j fs).readP ps = rawParams ps d := by
        by_cases hp : p ∈ c.states
        · exact readP_eq ps _ d ⟨[], none⟩ val hs2 (by intro hd; simp [d, hp] at hd) hsv2
        · obtain ⟨q, hq, hv⟩ := ht.param hp
          exact readP_eq ps _ d q val hs2 (fun _ => ⟨hq, hv⟩) hsv2
      obtain ⟨asg, g1, g2, g3⟩ := hw.runs (rawParams ps d) (unknownsAt u0 d) (rawParams_shaped _ _) (unknownsAt_shaped _ _)
      have hcode : c.code ((st1.stepComplex j fs).readP ps) (st1.stepComplex j fs).readU = .ok asg := by
        rw [hrp]
        by_cases hst : c.states = []
        · rw [hw.explicit hst _ _ (unknownsAt u0 d)]; exact g1
        · rw [readU_eq u0 _ d val hs2 (by intro hd; exact ht.state (by simpa [d] using hd)) hsv2 (hi1.csu hst)]; exact g1
      obtain ⟨st2, k1, k2, k3, k4, k5, k6⟩ := sysApply_spec c ps u0 (fun ns hns => (hset.scalers ns hns).1) hset.nodup _ hi2 asg hcode g2
      have hback := step_back st2 j fs (val.map fun x : ℝ => (x : ℂ)) (by rw [k4, hsv2])
      have hres : ∀ u ∈ fdU, ∃ l, ((st2.stepComplex j (-fs)).res c).lookup u = some (.own l) ∧ (l.map fun z => z.im / fs) = col u j ∧ l.length = size u := by
        intro u hu
        obtain ⟨l, hl1, hl2⟩ := g3 u hu
        refine ⟨scaledList c.scalers u l, k6 u l hl1, ?_, ?_⟩
        · show _ = csCol c ps u0 d fs u
          unfold csCol
          rw [g1]
          simp only [hl1]
        · have : (scaledList c.scalers u l).length = l.length := by
            unfold scaledList
            split <;> simp
          rw [this]
          have := hsize u hu
          rw [hl2] at this
          exact Option.some.inj this
      obtain ⟨J3, m1, m2, m3⟩ := setCols_spec (st2.stepComplex j (-fs)) c p j val.length fs fdU size col hkn hres J2 (by rw [hkp]; exact hblk)
      refine ⟨(st2.stepComplex j (-fs), J3), ?_, ⟨⟨k2.uvec, k2.rvec, k2.noView, k2.keys, k2.csu⟩, ?_, hback, ?_⟩, ?_, ?_⟩
      · unfold csColumn
        simp only [bind, Except.bind, k1, m1]
      · show st2.step = _
        rw [k3]
        exact hs1
      · show st2.rvec = _
        rw [k5]
        by_cases hst : c.states = []
        · simp [hst]
        · rw [if_neg hst, if_neg (fun hx => hst hx.1)]
          show st1.rvec = _
          rw [hr1, if_neg (fun hx => hst hx.1)]
      · intro u hu
        rw [List.length_append, List.length_singleton, ← hkp]
        exact m2 u hu
      · intro key hkey
        rw [m3 key hkey, hfr key hkey])
    (st.setVar (decide (p ∈ c.states)) p val, J1)
    ⟨⟨⟨hi.uvec, hi.rvec, hi.noView, hi.keys, hi.csu⟩, rfl, rfl, by simp [CsSt.setVar]⟩, by simpa using a2, fun _ _ => rfl⟩
  refine ⟨s1.1.clearVar, s1.2, ?_, ?_, ?_, ?_, ?_⟩
  · unfold csVar
    simp only [bind, Except.bind, htar, hi.uvec, a1, ← hfs, b1]
  · refine ⟨b2.uvec, b2.rvec, ?_, ?_, ?_⟩
    · intro n v hv
      unfold CsSt.clearVar at hv
      simp only [map_freeze] at hv
      obtain ⟨w, hw1, hw2⟩ := Option.map_eq_some_iff.mp hv
      obtain ⟨l, hl⟩ := b2.noView n w hw1
      exact ⟨l, by rw [← hw2, hl]; rfl⟩
    · intro ns hns
      unfold CsSt.clearVar
      simp only [map_freeze, Option.isSome_map]
      exact b2.keys ns hns
    · intro hst
      unfold CsSt.clearVar
      simp only [b2.csu hst, freeze_copy]
  · show s1.1.rvec = _
    rw [b4']
    have : (List.range val.length ≠ []) ↔ val ≠ [] := by
      rw [Ne, List.range_eq_nil, List.length_eq_zero_iff]
    simp only [this]
  · intro u hu
    refine ⟨size u, hsize u hu, ?_⟩
    have := b5 u hu
    rwa [List.length_range] at this
  · intro key hkey
    rw [b6 key hkey, a3 key hkey]

end OpenMDAO
