import Verif.Spec.PyOpt
import Verif.Props.Relevance
import Verif.Lemmas.Connections
import Verif.Lemmas.FiniteDiff
import Mathlib.Analysis.Calculus.Deriv.Add
import Mathlib.Analysis.Calculus.Deriv.Mul
import Mathlib.Tactic.NormNum
import Mathlib.Algebra.BigOperators.Fin
import Mathlib.Tactic.FieldSimp
import Mathlib.Tactic.Ring
import Mathlib.Tactic.Linarith
/-! C98 to C102: `pyOptSparseDriver`. -/
namespace OpenMDAO
set_option linter.unusedSectionVars false

variable {K : Type}

/-! ## C98: sparse Jacobians -/

theorem zip_block {α : Type} (i : Nat) (idx : List Nat) (f : Nat → α) :
    ((List.replicate idx.length i).zip idx).zip (idx.map f) = idx.map fun j => ((i, j), f j) := by
  induction idx with
  | nil => rfl
  | cons j idx ih => simp [List.replicate_succ, ih]

theorem zip_flat {α : Type} (L idx : List Nat) (a : Nat → Nat → α) :
    ((L.flatMap fun i => List.replicate idx.length i).zip (L.flatMap fun _ => idx)).zip (L.flatMap fun i => idx.map (a i)) = L.flatMap fun i => idx.map fun j => ((i, j), a i j) := by
  induction L with
  | nil => rfl
  | cons i L ih =>
    simp only [List.flatMap_cons]
    rw [List.zip_append (by simp), List.zip_append (by simp), ih, zip_block]

theorem sum_pick [AddCommMonoid K] (idx : List Nat) (hn : idx.Nodup) (j : Nat) (p : Prop) [Decidable p] (f : Nat → K) :
    (idx.map fun k => if p ∧ k = j then f k else 0).sum = if p ∧ j ∈ idx then f j else 0 := by
  induction idx with
  | nil => simp
  | cons k idx ih =>
    rw [List.nodup_cons] at hn
    rw [List.map_cons, List.sum_cons, ih hn.2]
    by_cases hp : p
    · by_cases hk : k = j
      · subst hk; simp [hp, hn.1]
      · simp [hp, hk, Ne.symm hk]
    · simp [hp]

theorem sum_flat_pick [AddCommMonoid K] (L idx : List Nat) (hL : L.Nodup) (hn : idx.Nodup) (a : Nat → Nat → K) (i j : Nat) :
    ((L.flatMap fun r => idx.map fun k => ((r, k), a r k)).map fun e => if e.1.1 = i ∧ e.1.2 = j then e.2 else 0).sum = if i ∈ L ∧ j ∈ idx then a i j else 0 := by
  induction L with
  | nil => simp
  | cons r L ih =>
    rw [List.nodup_cons] at hL
    rw [List.flatMap_cons, List.map_append, List.sum_append, ih hL.2, List.map_map]
    have h1 := sum_pick idx hn j (r = i) (a r)
    rw [show ((fun e : (Nat × Nat) × K => if e.1.1 = i ∧ e.1.2 = j then e.2 else 0) ∘ fun k => ((r, k), a r k)) = fun k => if r = i ∧ k = j then a r k else 0 from rfl, h1]
    by_cases hr : r = i
    · subst hr; simp [hL.1]
    · simp [hr, Ne.symm hr]

theorem gradCoo_dense [AddCommMonoid K] {jac : TMat K} {idx : List Nat} {c : Coo K} (hn : idx.Nodup) (h : gradCoo jac idx = .ok c) (i j : Nat) :
    c.dense i j = if i < jac.m ∧ j ∈ idx then jac.a i j else 0 := by
  unfold gradCoo at h
  split at h
  · exact absurd h (by simp)
  · rw [← Except.ok.inj h]
    unfold Coo.dense
    simp only
    rw [zip_flat, sum_flat_pick _ _ List.nodup_range hn]
    simp only [List.mem_range]

theorem gradCoo_ok {jac : TMat K} {idx : List Nat} (h : ∀ j ∈ idx, j < jac.n) : ∃ c, gradCoo jac idx = .ok c ∧ c.nrow = jac.m ∧ c.ncol = jac.n := by
  unfold gradCoo
  rw [if_neg]
  · exact ⟨_, rfl, rfl, rfl⟩
  · rintro ⟨-, h1⟩
    obtain ⟨j, hj, h2⟩ := List.any_eq_true.mp h1
    have := h j hj
    have := of_decide_eq_true h2
    omega

/-- C98. The pattern handed over with the constraint is the one of every later gradient: same shape, same rows and columns in the same order. -/
theorem C98_pattern [One K] {jac : TMat K} {idx : List Nat} {c : Coo K} (h : gradCoo jac idx = .ok c) :
    let p : Coo K := declareCoo jac.m jac.n idx
    p.nrow = c.nrow ∧ p.ncol = c.ncol ∧ p.row = c.row ∧ p.col = c.col ∧ p.data.length = c.data.length := by
  unfold gradCoo at h
  split at h
  · exact absurd h (by simp)
  · rw [← Except.ok.inj h]
    refine ⟨rfl, rfl, rfl, rfl, ?_⟩
    simp [declareCoo, List.length_flatMap]

theorem sparseIdx_some {sub : List (Path × List Nat)} {full : List Path} {rels : Path → Bool} {idx : List Nat} (h : sparseIdx sub full rels = some idx) :
    idx.Nodup ∧ (∀ t ∈ full, rels t = false) ∧ (∀ j, j ∈ idx ↔ ∃ e ∈ sub, rels e.1 = true ∧ j ∈ e.2) := by
  unfold sparseIdx at h
  split at h
  · simp at h
  · split at h
    · simp at h
    · rename_i hf
      simp only at h
      split at h
      · simp at h
      · rw [← Option.some.inj h]
        refine ⟨List.nodup_dedup _, ?_, ?_⟩
        · intro t ht
          by_contra hc
          exact hf (List.any_eq_true.mpr ⟨t, ht, by simpa using hc⟩)
        · intro j
          simp [and_assoc]

theorem mem_mapDvIdx {dvIdx : Option (List Nat)} {n : Nat} {l : List Nat} (hd : ∀ d, dvIdx = some d → d.Nodup) {j : Nat} (hj : j < dvSize dvIdx n) : j ∈ mapDvIdx dvIdx l ↔ dvPos dvIdx j ∈ l := by
  cases dvIdx with
  | none => simp [mapDvIdx, dvPos]
  | some d =>
    have hdn := hd d rfl
    have hjd : j < d.length := hj
    have hg : d.getD j 0 = d[j] := by simp [List.getD_eq_getElem?_getD, hjd]
    simp only [mapDvIdx, dvPos, hg, List.mem_map, List.mem_filter, List.mem_dedup, decide_eq_true_eq]
    constructor
    · rintro ⟨i, ⟨hi, hid⟩, hk⟩
      have : d[j] = i := by
        have h1 := List.getElem_idxOf (List.idxOf_lt_length_of_mem hid)
        subst hk
        exact h1
      rw [this]; exact hi
    · intro h
      exact ⟨d[j], ⟨h, List.getElem_mem hjd⟩, List.Nodup.idxOf_getElem hdn j hjd⟩

theorem mapDvIdx_lt {dvIdx : Option (List Nat)} {n : Nat} {l : List Nat} (hl : ∀ i ∈ l, i < n) {j : Nat} (hj : j ∈ mapDvIdx dvIdx l) : j < dvSize dvIdx n := by
  cases dvIdx with
  | none => exact hl j (by simpa [mapDvIdx] using hj)
  | some d =>
    simp only [mapDvIdx, List.mem_map, List.mem_filter, List.mem_dedup, decide_eq_true_eq] at hj
    obtain ⟨i, ⟨-, hid⟩, rfl⟩ := hj
    exact List.idxOf_lt_length_of_mem hid

theorem mem_subParamConns {conns : IdxConns} {src : Path} {dvIdx : Option (List Nat)} {t : Path} {l : List Nat} :
    (t, l) ∈ subParamConns conns src dvIdx ↔ ∃ idx, (t, (src, some idx)) ∈ conns ∧ l = mapDvIdx dvIdx idx := by
  unfold subParamConns
  rw [List.mem_filterMap]
  constructor
  · rintro ⟨⟨t', s, o⟩, hc, he⟩
    cases o with
    | none => simp [subConnOf] at he
    | some idx =>
      simp only [subConnOf] at he
      split at he
      · rename_i hs
        subst hs
        simp only [Option.some.injEq, Prod.mk.injEq] at he
        obtain ⟨rfl, rfl⟩ := he
        exact ⟨idx, hc, rfl⟩
      · simp at he
  · rintro ⟨idx, hc, rfl⟩
    exact ⟨_, hc, by simp [subConnOf]⟩

theorem mem_fullParamConns {conns : IdxConns} {src t : Path} : t ∈ fullParamConns conns src ↔ (t, (src, none)) ∈ conns := by
  unfold fullParamConns
  simp only [List.mem_map, List.mem_filter, Bool.and_eq_true, decide_eq_true_eq, Option.isNone_iff_eq_none]
  constructor
  · rintro ⟨⟨t', s, o⟩, ⟨hc, rfl, ho⟩, rfl⟩
    simp only at ho
    subst ho
    exact hc
  · intro h
    exact ⟨_, ⟨h, rfl, rfl⟩, rfl⟩

/-- C98 (partial). The sparse Jacobian of a constraint with respect to a design variable is the full one. `g` is the constraint as a function of the variable that holds the design variable (of size
`n`), `jac` its Jacobian with respect to the entries chosen by `indices`; the constraint depends on the variable only through the connected parameters on the way to it. Missing: parameters that are
promoted, see `C98_promoted_refuted`. -/
theorem C98_sparse_jacobian_partial {M : ModelVars} {R : RelInput} (wf : RelWF M R) {conns : IdxConns} {d r : Path}
    (hd : d ∈ R.inputs.flatten) (hr : r ∈ R.outputs.flatten) (hprom : ∀ c ∈ conns, c.2.1 = R.absU d → R.prom c.1 = c.1) {n : Nat} {dvIdx : Option (List Nat)}
    (hdv : ∀ l, dvIdx = some l → l.Nodup ∧ ∀ i ∈ l, i < n) (hidx : ∀ t idx, (t, (R.absU d, some idx)) ∈ conns → ∀ i ∈ idx, i < n)
    {g : (Nat → ℝ) → Nat → ℝ} (hg : DependsVia (fun t => OnPath (FlowStep M R.conns) (R.absU d) t (R.absU r)) conns (R.absU d) n g) (x : Nat → ℝ)
    {jac : TMat ℝ} (hn : jac.n = dvSize dvIdx n)
    (hjac : ∀ i < jac.m, ∀ j < jac.n, HasDerivAt (fun v : ℝ => g (Function.update x (dvPos dvIdx j) v) i) (jac.a i j) (x (dvPos dvIdx j)))
    {idx : List Nat} (hs : sparseIdx (subParamConns conns (R.absU d) dvIdx) (fullParamConns conns (R.absU d)) (isRelevant R (some r)) = some idx) :
    ∃ c, gradCoo jac idx = .ok c ∧ SensBlock.Same (.coo c) (.dense jac) := by
  obtain ⟨hnd, hfull, hmem⟩ := sparseIdx_some hs
  have hlt : ∀ j ∈ idx, j < jac.n := by
    intro j hj
    obtain ⟨⟨t, l⟩, he, -, hjl⟩ := (hmem j).mp hj
    obtain ⟨li, hc, rfl⟩ := mem_subParamConns.mp he
    rw [hn]
    exact mapDvIdx_lt (hidx t li hc) hjl
  obtain ⟨c, hc, h1, h2⟩ := gradCoo_ok hlt
  refine ⟨c, hc, by simp [SensBlock.shape, h1, h2], ?_⟩
  intro i hi j hj
  simp only [SensBlock.shape, h1, h2] at hi hj
  show c.dense i j = jac.a i j
  rw [gradCoo_dense hnd hc]
  by_cases hji : j ∈ idx
  · simp [hi, hji]
  · rw [if_neg (fun h => hji h.2)]
    have hrel : ∀ t o, (t, (R.absU d, o)) ∈ conns → OnPath (FlowStep M R.conns) (R.absU d) t (R.absU r) → isRelevant R (some r) t = true := by
      intro t o ht hp
      have := C52_variables_response_partial wf hd hr hp
      rwa [hprom _ ht rfl] at this
    have hconst : ∀ v, g (Function.update x (dvPos dvIdx j) v) = g x := by
      intro v
      apply hg
      rintro ⟨t, s, o⟩ ht hsrc hp
      simp only at hsrc hp
      subst hsrc
      have hr1 := hrel t o ht hp
      cases o with
      | none =>
        have := hfull t (mem_fullParamConns.mpr ht)
        rw [hr1] at this
        exact absurd this (by simp)
      | some li =>
        intro i' hi'
        apply Function.update_of_ne
        rintro rfl
        apply hji
        refine (hmem j).mpr ⟨(t, mapDvIdx dvIdx li), mem_subParamConns.mpr ⟨li, ht, rfl⟩, hr1, ?_⟩
        exact (mem_mapDvIdx (fun l hl => (hdv l hl).1) (by rw [← hn]; exact hj)).mpr hi'
    have h3 := hjac i hi j hj
    have h4 : (fun v : ℝ => g (Function.update x (dvPos dvIdx j) v) i) = fun _ => g x i := by
      funext v; rw [hconst v]
    rw [h4] at h3
    exact (hasDerivAt_const _ _).unique h3

/-! Cases. `p.x` has two entries. -/

/-- `c` with the parameters `a` and `b` computes `g`, and `e` with the parameter `b` computes `f`. -/
def sparseVars : ModelVars where
  params v := v = ["c", "a"] ∨ v = ["c", "b"] ∨ v = ["e", "b"]
  unknowns v := v = ["p", "x"] ∨ v = ["c", "g"] ∨ v = ["e", "f"]
  states _ := False

/-- `c.a` reads the first entry of `p.x`, and `t` the whole of it; `b` may be promoted. -/
def sparseConns (t : Path) : IdxConns := [(["c", "a"], (["p", "x"], some [0])), (t, (["p", "x"], none))]

/-- `x` is a design variable and `g` a constraint; `c.b` is promoted as `b`. -/
def sparseRel (t : Path) : RelInput where
  systems := [["p"], ["c"], ["e"]]
  conns := (sparseConns t).map fun c => (c.1, c.2.1)
  absU n := if n = ["x"] then ["p", "x"] else if n = ["g"] then ["c", "g"] else ["e", "f"]
  prom n := if n = ["p", "x"] then ["x"] else if n = ["c", "g"] then ["g"] else if n = ["e", "f"] then ["f"] else if n = ["c", "b"] then ["b"] else n
  inputs := [[["x"]]]
  outputs := [[["g"]], [["f"]]]

theorem sparseRel_wf (t : Path) (ht : t = ["c", "b"] ∨ t = ["e", "b"]) : RelWF sparseVars (sparseRel t) where
  target := by
    intro c hc
    simp only [sparseRel, sparseConns, List.map_cons, List.map_nil, List.mem_cons, List.not_mem_nil, or_false] at hc
    rcases hc with rfl | rfl
    · exact Or.inl rfl
    · exact Or.inr ht
  source := by
    intro c hc
    simp only [sparseRel, sparseConns, List.map_cons, List.map_nil, List.mem_cons, List.not_mem_nil, or_false] at hc
    rcases hc with rfl | rfl <;> exact Or.inl rfl
  disjoint := by rintro v (rfl | rfl | rfl) h <;> simp [sparseVars] at h
  named := by rintro v ((rfl | rfl | rfl) | (rfl | rfl | rfl)) <;> simp
  voi := by
    intro n hn
    have : n = ["x"] ∨ n = ["g"] ∨ n = ["f"] := by
      rcases hn with hn | hn
      · left; simpa [sparseRel] using hn
      · right; simpa [sparseRel] using hn
    rcases this with rfl | rfl | rfl <;> simp [sparseRel, sparseVars, compPath]

theorem sparseRel_path (t : Path) (v : Path) (hv : (v, ["p", "x"]) ∈ (sparseRel t).conns) (h1 : v = ["c", "a"] ∨ v = ["c", "b"]) :
    OnPath (FlowStep sparseVars (sparseRel t).conns) ["p", "x"] v ["c", "g"] :=
  ⟨.single (.conn hv), .single (.inner (by rcases h1 with rfl | rfl <;> simp [sparseVars]) (by simp [sparseVars]) (by rcases h1 with rfl | rfl <;> simp [compPath]))⟩

/-- The hypotheses of `C98_sparse_jacobian_partial` hold for `g = 3 a` with `f` depending on the whole variable, and the sparse Jacobian has one column. -/
example : ∃ c, gradCoo (⟨1, 2, fun _ j => if j = 0 then 3 else 0⟩ : TMat ℝ) [0] = .ok c ∧ SensBlock.Same (.coo c) (.dense ⟨1, 2, fun _ j => if j = 0 then 3 else 0⟩) := by
  have ex : (sparseRel ["e", "b"]).absU ["x"] = ["p", "x"] := by simp [sparseRel]
  have eg : (sparseRel ["e", "b"]).absU ["g"] = ["c", "g"] := by simp [sparseRel]
  refine C98_sparse_jacobian_partial (sparseRel_wf ["e", "b"] (Or.inr rfl)) (conns := sparseConns ["e", "b"]) (d := ["x"]) (r := ["g"]) (n := 2) (dvIdx := none) (g := fun x _ => 3 * x 0)
    (by simp [sparseRel]) (by simp [sparseRel]) ?_ (by simp) ?_ ?_ (fun _ => 0) rfl ?_ (by decide +kernel)
  · intro c hc _
    simp only [sparseConns, List.mem_cons, List.not_mem_nil, or_false] at hc
    rcases hc with rfl | rfl <;> simp [sparseRel]
  · intro t idx hc
    simp only [sparseConns, List.mem_cons, List.not_mem_nil, or_false, Prod.mk.injEq, Option.some.injEq, reduceCtorEq, and_false] at hc
    obtain ⟨-, -, rfl⟩ := hc
    simp
  · intro x y h
    have := h (["c", "a"], (["p", "x"], some [0])) (by simp [sparseConns]) ex.symm (by rw [ex, eg]; exact sparseRel_path _ _ (by simp [sparseRel, sparseConns]) (Or.inl rfl))
    simp only [List.mem_singleton, forall_eq] at this
    simp [this]
  · intro i hi j hj
    have hj2 : j = 0 ∨ j = 1 := by simp only at hj; omega
    rcases hj2 with rfl | rfl
    · simpa [dvPos] using HasDerivAt.const_mul (3 : ℝ) (hasDerivAt_id (0 : ℝ))
    · simpa [dvPos, Function.update] using hasDerivAt_const (0 : ℝ) (0 : ℝ)

/-- C98 is false of the code: when a parameter connected to the whole design variable is promoted, its absolute name is not found among the relevant names. With `g = a + b[0] + b[1]`, `a` reading the
first entry and the promoted `b` the whole variable, the derivative with respect to the second entry is lost. -/
theorem C98_promoted_refuted : ∃ (M : ModelVars) (R : RelInput) (conns : IdxConns) (d r : Path) (n : Nat) (g : (Nat → ℝ) → Nat → ℝ) (jac : TMat ℝ) (idx : List Nat) (c : Coo ℝ),
    RelWF M R ∧ R.conns = conns.map (fun c => (c.1, c.2.1)) ∧ d ∈ R.inputs.flatten ∧ r ∈ R.outputs.flatten ∧ jac.n = n ∧
    DependsVia (fun t => OnPath (FlowStep M R.conns) (R.absU d) t (R.absU r)) conns (R.absU d) n g ∧
    (∀ x : Nat → ℝ, ∀ i < jac.m, ∀ j < jac.n, HasDerivAt (fun v : ℝ => g (Function.update x j v) i) (jac.a i j) (x j)) ∧
    sparseIdx (subParamConns conns (R.absU d) none) (fullParamConns conns (R.absU d)) (isRelevant R (some r)) = some idx ∧ gradCoo jac idx = .ok c ∧
    jac.m = 1 ∧ n = 2 ∧ jac.a 0 1 = 1 ∧ c.dense 0 1 = 0 := by
  have ex : (sparseRel ["c", "b"]).absU ["x"] = ["p", "x"] := by simp [sparseRel]
  have eg : (sparseRel ["c", "b"]).absU ["g"] = ["c", "g"] := by simp [sparseRel]
  obtain ⟨c, hc, -, -⟩ := gradCoo_ok (jac := (⟨1, 2, fun _ j => if j = 0 then 2 else 1⟩ : TMat ℝ)) (idx := [0]) (by simp)
  refine ⟨sparseVars, sparseRel ["c", "b"], sparseConns ["c", "b"], ["x"], ["g"], 2, fun x _ => x 0 + (x 0 + x 1), ⟨1, 2, fun _ j => if j = 0 then 2 else 1⟩, [0], c,
    sparseRel_wf _ (Or.inl rfl), rfl, by simp [sparseRel], by simp [sparseRel], rfl, ?_, ?_, by decide +kernel, hc, rfl, rfl, by simp, ?_⟩
  · intro x y h
    have := h (["c", "b"], (["p", "x"], none)) (by simp [sparseConns]) ex.symm (by rw [ex, eg]; exact sparseRel_path _ _ (by simp [sparseRel, sparseConns]) (Or.inr rfl))
    simp only at this
    simp [this 0 (by omega), this 1 (by omega)]
  · intro x i hi j hj
    have hj2 : j = 0 ∨ j = 1 := by simp only at hj; omega
    rcases hj2 with rfl | rfl
    · have : HasDerivAt (fun v : ℝ => v + (v + x 1)) (1 + (1 + 0)) (x 0) := (hasDerivAt_id (x 0)).add ((hasDerivAt_id (x 0)).add (hasDerivAt_const (x 0) (x 1)))
      have e : (1 : ℝ) + (1 + 0) = 2 := by norm_num
      rw [e] at this
      exact this
    · have : HasDerivAt (fun v : ℝ => x 0 + (x 0 + v)) (0 + (0 + 1)) (x 1) := (hasDerivAt_const (x 1) (x 0)).add ((hasDerivAt_const (x 1) (x 0)).add (hasDerivAt_id (x 1)))
      have e : (0 : ℝ) + (0 + 1) = 1 := by norm_num
      rw [e] at this
      exact this
  · rw [gradCoo_dense (by simp) hc]
    simp

theorem block_dictSet (s : SensDict K) (blocks : List (String × SensBlock K)) (f d : String) (x : SensBlock K) (hf : s.lookup f = some blocks) (f' d' : String) :
    SensDict.block (dictSet s f (dictSet blocks d x)) f' d' = if f' = f ∧ d' = d then some x else SensDict.block s f' d' := by
  unfold SensDict.block
  rw [lookup_dictSet]
  by_cases h1 : f' = f
  · subst h1
    rw [if_pos rfl, Option.bind_some, lookup_dictSet, hf, Option.bind_some]
    by_cases h2 : d' = d <;> simp [h2]
  · simp [h1]

theorem sparsify_fold [AddCommMonoid K] (s : SensDict K) (sub : List ((String × String) × List Nat)) : ∀ s1 : SensDict K, (sub.map Prod.fst).Nodup → (∀ e ∈ sub, KeptColumns s e) →
    (∀ e ∈ sub, SensDict.block s1 e.1.1 e.1.2 = SensDict.block s e.1.1 e.1.2) → SameBlocks s s1 → ∃ s', sub.foldlM sparsifyStep s1 = .ok s' ∧ SameBlocks s s' := by
  induction sub with
  | nil => intro s1 _ _ _ h; exact ⟨s1, rfl, h⟩
  | cons e sub ih =>
    intro s1 hn hk he h
    obtain ⟨⟨f, d⟩, l⟩ := e
    rw [List.map_cons, List.nodup_cons] at hn
    obtain ⟨m, hm, hl, hlt, hz⟩ := hk _ List.mem_cons_self
    simp only at hm hl hlt hz
    have h1 := he _ List.mem_cons_self
    simp only at h1
    rw [hm] at h1
    obtain ⟨c, hc, hr, hcn⟩ := gradCoo_ok hlt
    cases hb : s1.lookup f with
    | none => simp [SensDict.block, hb] at h1
    | some blocks =>
      have hbl : blocks.lookup d = some (.dense m) := by simpa [SensDict.block, hb] using h1
      have hstep : sparsifyStep s1 ((f, d), l) = .ok (dictSet s1 f (dictSet blocks d (.coo c))) := by
        simp [sparsifyStep, hb, hbl, hc]
      have hset := block_dictSet s1 blocks f d (.coo c) hb
      rw [List.foldlM_cons, hstep]
      simp only [bind, Except.bind]
      apply ih _ hn.2 (fun e' h' => hk e' (List.mem_cons_of_mem _ h'))
      · intro e' h'
        rw [hset, if_neg]
        · exact he e' (List.mem_cons_of_mem _ h')
        · rintro ⟨h2, h3⟩
          apply hn.1
          exact List.mem_map.mpr ⟨e', h', by rw [← h2, ← h3]⟩
      · intro f' d'
        rw [hset]
        by_cases hfd : f' = f ∧ d' = d
        · obtain ⟨rfl, rfl⟩ := hfd
          rw [hm]
          refine ⟨.coo c, by simp, by simp [SensBlock.shape, hr, hcn], ?_⟩
          intro i hi j hj
          simp only [SensBlock.shape, hr, hcn] at hi hj
          show c.dense i j = m.a i j
          rw [gradCoo_dense hl hc]
          by_cases hji : j ∈ l
          · simp [hi, hji]
          · rw [if_neg (fun q => hji q.2), hz i hi j hj hji]
        · rw [if_neg hfd]
          exact h f' d'

theorem sameBlocks_refl [AddCommMonoid K] (s : SensDict K) : SameBlocks s s := by
  intro f d
  cases hb : SensDict.block s f d with
  | none => rfl
  | some b => exact ⟨b, rfl, rfl, fun _ _ _ _ => rfl⟩

/-- C98. When the gradient can be computed, the callback returns it unchanged but for the format: the columns that are not kept have to be zero, as `C98_sparse_jacobian_partial` states. -/
theorem C98_gradient_callback [AddCommMonoid K] {ina : List (String × List Nat)} {grad : List (String × List Nat) → Except PyErr (SensDict K)} {s : SensDict K} (hg : grad ina = .ok s)
    (funcs dvs : List (String × Nat)) {sub : List ((String × String) × List Nat)} (hn : (sub.map Prod.fst).Nodup) (hk : ∀ e ∈ sub, KeptColumns s e) :
    ∃ s', gradCallback (.ok ina) grad funcs dvs sub = (s', 0) ∧ SameBlocks s s' := by
  obtain ⟨s', h1, h2⟩ := sparsify_fold s sub s hn hk (fun _ _ => rfl) (sameBlocks_refl s)
  exact ⟨s', by simp [gradCallback, hg, gradOrZeros, h1], h2⟩

example : (([(("g", "x"), [0])] : List ((String × String) × List Nat)).map Prod.fst).Nodup ∧
    ∀ e ∈ [(("g", "x"), [0])], KeptColumns (K := ℚ) [("g", [("x", .dense ⟨1, 2, fun _ j => if j = 0 then 3 else 0⟩), ("y", .dense ⟨1, 1, fun _ _ => 4⟩)])] e := by
  refine ⟨by simp, ?_⟩
  intro e he
  simp only [List.mem_singleton] at he
  subst he
  refine ⟨_, rfl, by simp, by simp, ?_⟩
  intro i _ j _ hj
  simp only [List.mem_singleton] at hj
  simp [hj]

/-! ## C99: callbacks -/

variable {S V F : Type}

theorem setDvs_other {M : OptModel S V F} {dsg : S → String → V} (hs : SetsDesign M dsg) (dv : List (String × V)) (k : String) : ∀ (indep : List String) (s s1 : S), setDvs M dv indep s = (s1, none) →
    k ∉ indep → dsg s1 k = dsg s k := by
  intro indep
  induction indep with
  | nil => intro s s1 h _; simp only [setDvs, Prod.mk.injEq, and_true] at h; rw [h]
  | cons n rest ih =>
    intro s s1 h hk
    simp only [setDvs] at h
    cases hl : dv.lookup n with
    | none => rw [hl] at h; simp at h
    | some v =>
      rw [hl] at h
      simp only at h
      cases hv : M.setDv n v s with
      | error e => rw [hv] at h; simp at h
      | ok s' =>
        rw [hv] at h
        simp only at h
        rw [ih s' s1 h (fun q => hk (List.mem_cons_of_mem _ q))]
        exact hs.other hv (fun q => hk (by rw [q]; exact List.mem_cons_self))

theorem setDvs_design {M : OptModel S V F} {dsg : S → String → V} (hs : SetsDesign M dsg) (dv : List (String × V)) : ∀ (indep : List String) (s s1 : S), setDvs M dv indep s = (s1, none) →
    ∀ n ∈ indep, dv.lookup n = some (dsg s1 n) := by
  intro indep
  induction indep with
  | nil => intro s s1 _ n hn; simp at hn
  | cons n rest ih =>
    intro s s1 h k hk
    simp only [setDvs] at h
    cases hl : dv.lookup n with
    | none => rw [hl] at h; simp at h
    | some v =>
      rw [hl] at h
      simp only at h
      cases hv : M.setDv n v s with
      | error e => rw [hv] at h; simp at h
      | ok s' =>
        rw [hv] at h
        simp only at h
        by_cases hkr : k ∈ rest
        · exact ih s' s1 h k hkr
        · have hkn : k = n := by simpa [hkr] using hk
          subst hkn
          rw [setDvs_other hs dv k rest s' s1 h hkr, hs.same hv, hl]

/-- C99. Responses that are returned as valid are those of the model, run without error, at the design asked for; the other design variables of the state are as before. -/
theorem C99_valid_responses {M : OptModel S V F} {dsg : S → String → V} (hs : SetsDesign M dsg) {indep : List String} {dv : List (String × V)} {s s' : S} {f : Option F}
    (h : objCallback M indep dv s = (s', f, 0)) :
    ∃ s1 fs, (∀ n ∈ indep, dv.lookup n = some (dsg s1 n)) ∧ (∀ n, n ∉ indep → dsg s1 n = dsg s n) ∧ M.solve s1 = (s', none) ∧ M.vals s' = .ok fs ∧ f = some fs := by
  unfold objCallback at h
  rcases hd : setDvs M dv indep s with ⟨s1, _ | e⟩
  · rw [hd] at h
    simp only at h
    rcases hv : M.solve s1 with ⟨s2, _ | e⟩
    · rw [hv] at h
      simp only [objResult, objValues] at h
      cases hvals : M.vals s2 with
      | error e => rw [hvals] at h; simp at h
      | ok fs =>
        rw [hvals] at h
        simp only at h
        cases hrec : M.record s2 with
        | error e => rw [hrec] at h; simp at h
        | ok u =>
          rw [hrec] at h
          simp only [Prod.mk.injEq, and_true] at h
          obtain ⟨rfl, rfl⟩ := h
          exact ⟨s1, fs, setDvs_design hs dv indep s s1 hd, fun n hn => setDvs_other hs dv n indep s s1 hd hn, hv, hvals, rfl⟩
    · rw [hv] at h
      cases e <;> simp only [objResult, Prod.mk.injEq] at h <;> try (simp at h)
      cases hvals : objValues M s2 <;> rw [hvals] at h <;> simp at h
  · rw [hd] at h
    simp at h

theorem setDvs_iff {M : OptModel S V F} {dv : List (String × V)} : ∀ {indep : List String} {s s1 : S}, setDvs M dv indep s = (s1, none) ↔ DesignSet M dv indep s s1 := by
  intro indep
  induction indep with
  | nil =>
    intro s s1
    simp only [setDvs, Prod.mk.injEq, and_true]
    exact ⟨fun h => h ▸ .nil, fun h => by cases h; rfl⟩
  | cons n rest ih =>
    intro s s1
    constructor
    · intro h
      simp only [setDvs] at h
      cases hl : dv.lookup n with
      | none => rw [hl] at h; simp at h
      | some v =>
        rw [hl] at h
        simp only at h
        cases hv : M.setDv n v s with
        | error e => rw [hv] at h; simp at h
        | ok s' => rw [hv] at h; exact .cons hl hv (ih.mp h)
    · intro h
      cases h with
      | cons h1 h2 h3 => simp only [setDvs, h1, h2]; exact ih.mpr h3

open Classical in
theorem objResult_flag {M : OptModel S V F} (fail : Nat) (s : S) : (objResult M fail s).2.2 = if (∃ fs, M.vals s = .ok fs) ∧ M.record s = .ok () then fail else 1 := by
  unfold objResult objValues
  cases hvals : M.vals s with
  | error e => simp
  | ok fs => cases hrec : M.record s <;> simp

theorem objCallback_err {M : OptModel S V F} {indep : List String} {dv : List (String × V)} {s s1 s2 : S} {e : PyErr} (hd : setDvs M dv indep s = (s1, none)) (hv : M.solve s1 = (s2, some e)) :
    (objCallback M indep dv s).2.2 = 1 := by
  unfold objCallback
  rw [hd]
  simp only
  rw [hv]
  cases e <;> first | rfl | (simp only [objResult_flag]; split <;> rfl)

/-- C99. The flag is 0 or 1, and it is 0 exactly when the design could be set, the model ran and the responses could be read and recorded. -/
theorem C99_flag (M : OptModel S V F) (indep : List String) (dv : List (String × V)) (s : S) :
    ((objCallback M indep dv s).2.2 = 0 ∨ (objCallback M indep dv s).2.2 = 1) ∧
    ((objCallback M indep dv s).2.2 = 0 ↔ ∃ s1 s2 fs, DesignSet M dv indep s s1 ∧ M.solve s1 = (s2, none) ∧ M.vals s2 = .ok fs ∧ M.record s2 = .ok ()) := by
  simp only [← setDvs_iff]
  rcases hd : setDvs M dv indep s with ⟨s1, _ | e⟩
  · rcases hv : M.solve s1 with ⟨s2, _ | e⟩
    · have he : objCallback M indep dv s = objResult M 0 s2 := by simp [objCallback, hd, hv]
      rw [he]
      simp only [objResult_flag]
      split
      · rename_i h
        obtain ⟨⟨fs, h1⟩, h2⟩ := h
        exact ⟨Or.inl rfl, fun _ => ⟨s1, s2, fs, rfl, hv, h1, h2⟩, fun _ => rfl⟩
      · rename_i h
        refine ⟨Or.inr rfl, fun h3 => absurd h3 (by simp), ?_⟩
        rintro ⟨s1', s2', fs, h1, h2, h3, h4⟩
        obtain rfl : s1 = s1' := by simpa using h1
        rw [hv] at h2
        obtain rfl : s2 = s2' := by simpa using h2
        exact absurd ⟨⟨fs, h3⟩, h4⟩ h
    · rw [objCallback_err hd hv]
      refine ⟨Or.inr rfl, fun h => absurd h (by simp), ?_⟩
      rintro ⟨s1', s2', fs, h1, h2, -⟩
      obtain rfl : s1 = s1' := by simpa using h1
      rw [hv] at h2
      simp at h2
  · simp [objCallback, hd]

/-- C99. When the model raises `AnalysisError`, the optimizer gets the responses of the state that was reached, and the flag 1. -/
theorem C99_analysis_error {M : OptModel S V F} {indep : List String} {dv : List (String × V)} {s s1 s2 : S} {fs : F} (h1 : DesignSet M dv indep s s1)
    (h2 : M.solve s1 = (s2, some .AnalysisError)) (h3 : M.vals s2 = .ok fs) (h4 : M.record s2 = .ok ()) : objCallback M indep dv s = (s2, some fs, 1) := by
  simp [objCallback, setDvs_iff.mpr h1, h2, objResult, objValues, h3, h4]

/-- A model of one number `x` with the response `1 / x`; it fails at zero. -/
def optExample : OptModel (List (String × ℚ)) ℚ ℚ where
  setDv n v s := .ok (dictSet s n v)
  solve s := if s.lookup "x" = some 0 then (s, some .AnalysisError) else (s, none)
  vals s := match s.lookup "x" with
    | some v => .ok (1 / v)
    | none => .error .KeyError
  record _ := .ok ()

example : SetsDesign optExample fun s n => (s.lookup n).getD 0 :=
  ⟨fun h => by cases h; simp [lookup_dictSet], fun h hk => by cases h; simp [lookup_dictSet, hk]⟩

example : objCallback optExample ["x"] [("x", 4)] [("x", 1)] = ([("x", 4)], some (1 / 4), 0) ∧ (objCallback optExample ["x"] [("x", 0)] [("x", 1)]).2.2 = 1 := by
  constructor <;> decide +kernel

theorem zeroSens_block [Zero K] (funcs dvs : List (String × Nat)) (f d : String) :
    SensDict.block (zeroSens (K := K) funcs dvs) f d = (funcs.lookup f).bind fun m => (dvs.lookup d).map fun n => SensBlock.dense ⟨m, n, fun _ _ => 0⟩ := by
  unfold SensDict.block zeroSens
  have h1 : ∀ (l : List (String × Nat)) {γ : Type} (φ : Nat → γ) (k : String), (l.map fun o => (o.1, φ o.2)).lookup k = (l.lookup k).map φ := by
    intro l γ φ k
    induction l with
    | nil => rfl
    | cons o l ih =>
      obtain ⟨a, b⟩ := o
      simp only [List.map_cons, List.lookup_cons]
      cases k == a <;> simp [ih]
  rw [h1 funcs (fun m => dvs.map fun e => (e.1, SensBlock.dense (⟨m, e.2, fun _ _ => 0⟩ : TMat K))) f]
  cases funcs.lookup f with
  | none => rfl
  | some m => simp only [Option.map_some, Option.bind_some]; exact h1 dvs (fun n => SensBlock.dense (⟨m, n, fun _ _ => 0⟩ : TMat K)) d

/-- C99. When the gradient raises `AnalysisError`, the optimizer gets the flag 1 and zeros of the right shape for every response and design variable. -/
theorem C99_gradient_analysis_error [AddCommMonoid K] {ina : List (String × List Nat)} {grad : List (String × List Nat) → Except PyErr (SensDict K)} (hg : grad ina = .error .AnalysisError)
    {funcs dvs : List (String × Nat)} {sub : List ((String × String) × List Nat)} (hn : (sub.map Prod.fst).Nodup)
    (hk : ∀ e ∈ sub, e.2.Nodup ∧ ∃ m n, funcs.lookup e.1.1 = some m ∧ dvs.lookup e.1.2 = some n ∧ ∀ j ∈ e.2, j < n) :
    ∃ s', gradCallback (.ok ina) grad funcs dvs sub = (s', 1) ∧
      ∀ f d m n, funcs.lookup f = some m → dvs.lookup d = some n → ∃ b, SensDict.block s' f d = some b ∧ b.shape = (m, n) ∧ ∀ i < m, ∀ j < n, b.entry i j = 0 := by
  obtain ⟨s', h1, h2⟩ := sparsify_fold (zeroSens (K := K) funcs dvs) sub (zeroSens funcs dvs) hn
    (by
      intro e he
      obtain ⟨h3, m, n, h4, h5, h6⟩ := hk e he
      exact ⟨⟨m, n, fun _ _ => 0⟩, by rw [zeroSens_block, h4, h5]; rfl, h3, h6, fun _ _ _ _ _ => rfl⟩)
    (fun _ _ => rfl) (sameBlocks_refl _)
  refine ⟨s', by simp [gradCallback, hg, gradOrZeros, h1], ?_⟩
  intro f d m n hf hd
  have := h2 f d
  rw [zeroSens_block, hf, hd] at this
  obtain ⟨b, hb, hsh, hent⟩ := this
  refine ⟨b, hb, hsh, ?_⟩
  rw [hsh] at hent
  exact hent

example : (gradCallback (K := ℚ) (.ok []) (fun _ => .error .AnalysisError) [("g", 1)] [("x", 2)] [(("g", "x"), [0])]).2 = 1 := by decide +kernel

/-- C99 is false of the code: any other exception while the gradient is computed leaves the flag at 0, "successful", together with an empty gradient. -/
theorem C99_gradient_failure_refuted : ∃ (grad : List (String × List Nat) → Except PyErr (SensDict ℚ)), grad [] = .error .ValueError ∧
    (gradCallback (.ok []) grad [("f", 1)] [("x", 1)] []).2 = 0 ∧ (gradCallback (.ok []) grad [("f", 1)] [("x", 1)] []).1.length = 0 :=
  ⟨fun _ => .error .ValueError, rfl, rfl, rfl⟩

/-- C99 (partial). The flag of the gradient is 1 for an `AnalysisError`, and a non-empty gradient with the flag 0 was computed by the framework. Missing: other exceptions, see `C99_gradient_failure_refuted`. -/
theorem C99_gradient_flag_partial [AddCommMonoid K] {ina : Except PyErr (List (String × List Nat))} {grad : List (String × List Nat) → Except PyErr (SensDict K)} {funcs dvs : List (String × Nat)}
    {sub : List ((String × String) × List Nat)} {s' : SensDict K} (h : gradCallback ina grad funcs dvs sub = (s', 0)) (hne : s' ≠ []) : ∃ l s, ina = .ok l ∧ grad l = .ok s := by
  unfold gradCallback at h
  cases ina with
  | error e => simp only [Prod.mk.injEq, and_true] at h; exact absurd h.symm hne
  | ok l =>
    simp only at h
    cases hg : grad l with
    | ok s => exact ⟨l, s, rfl, hg⟩
    | error e =>
      rw [hg] at h
      cases e <;> simp only [gradOrZeros, Prod.mk.injEq] at h <;> try (exact absurd h.1.symm hne)
      split at h <;> simp at h

example : ∃ s', gradCallback (K := ℚ) (.ok []) (fun _ => .ok [("f", [("x", .dense ⟨1, 1, fun _ _ => 2⟩)])]) [("f", 1)] [("x", 1)] [] = (s', 0) ∧ s' ≠ [] := ⟨_, rfl, by simp⟩

/-! ## C100: inactive constraints -/

section Active
variable [Field K] [LinearOrder K]

theorem inactive_fold (tols : ActTol K) : ∀ (l : List (Nat × ConEntry K)) (acc r : List Nat), l.foldlM (inactiveStep tols) acc = .ok r →
    ∀ j, j ∈ r ↔ j ∈ acc ∨ ∃ e tol, (j, e) ∈ l ∧ tols.get j = .ok tol ∧ (pastLower e tol = true ∨ pastUpper e tol = true) := by
  intro l
  induction l with
  | nil =>
    intro acc r h j
    simp only [List.foldlM_nil, pure, Except.pure, Except.ok.injEq] at h
    subst h
    simp
  | cons je l ih =>
    intro acc r h j
    obtain ⟨k, e⟩ := je
    rw [List.foldlM_cons] at h
    cases ht : tols.get k with
    | error x => simp [inactiveStep, ht, bind, Except.bind] at h
    | ok tol =>
      simp only [inactiveStep, ht, bind, Except.bind] at h
      rw [ih _ _ h j]
      simp only [List.mem_append, List.mem_cons, Prod.mk.injEq]
      constructor
      · rintro (((h1 | h1) | h1) | ⟨e', tol', h1, h2⟩)
        · exact Or.inl h1
        · by_cases hp : pastLower e tol = true
          · rw [if_pos hp, List.mem_singleton] at h1
            subst h1
            exact Or.inr ⟨e, tol, Or.inl ⟨rfl, rfl⟩, ht, Or.inl hp⟩
          · rw [if_neg hp] at h1; simp at h1
        · by_cases hp : pastUpper e tol = true
          · rw [if_pos hp, List.mem_singleton] at h1
            subst h1
            exact Or.inr ⟨e, tol, Or.inl ⟨rfl, rfl⟩, ht, Or.inr hp⟩
          · rw [if_neg hp] at h1; simp at h1
        · exact Or.inr ⟨e', tol', Or.inr h1, h2⟩
      · rintro (h1 | ⟨e', tol', (⟨rfl, rfl⟩ | h1), h2, h3⟩)
        · exact Or.inl (Or.inl (Or.inl h1))
        · rw [ht] at h2
          obtain rfl : tol = tol' := by simpa using h2
          left
          rcases h3 with h3 | h3
          · left; right; simp [h3]
          · right; simp [h3]
        · exact Or.inr ⟨e', tol', h1, h2, h3⟩

theorem mem_inactiveIdx {tols : ActTol K} {con : List (ConEntry K)} {r : List Nat} (h : inactiveIdx tols con = .ok r) (j : Nat) :
    j ∈ r ↔ ∃ e tol, con[j]? = some e ∧ tols.get j = .ok tol ∧ (pastLower e tol = true ∨ pastUpper e tol = true) := by
  rw [inactive_fold tols _ _ _ h j]
  simp only [List.not_mem_nil, false_or]
  have hz : ∀ e, (j, e) ∈ (List.range con.length).zip con ↔ con[j]? = some e := by
    intro e
    rw [List.mem_iff_getElem?]
    constructor
    · rintro ⟨k, hk⟩
      rw [List.getElem?_zip_eq_some] at hk
      obtain ⟨h1, h2⟩ := hk
      have := (List.getElem?_eq_some_iff.mp h1).2
      simp only [List.getElem_range] at this
      subst this
      exact h2
    · intro h1
      refine ⟨j, ?_⟩
      rw [List.getElem?_zip_eq_some]
      have hj := (List.getElem?_eq_some_iff.mp h1).1
      exact ⟨by simp [hj], h1⟩
  simp only [hz]

theorem inactiveIdx_ok {tols : ActTol K} {con : List (ConEntry K)} (h : ∀ j < con.length, ∃ t, tols.get j = .ok t) : ∃ r, inactiveIdx tols con = .ok r := by
  have : ∀ (l : List (Nat × ConEntry K)) (acc : List Nat), (∀ je ∈ l, ∃ t, tols.get je.1 = .ok t) → ∃ r, l.foldlM (inactiveStep tols) acc = .ok r := by
    intro l
    induction l with
    | nil => intro acc _; exact ⟨acc, rfl⟩
    | cons je l ih =>
      intro acc hl
      obtain ⟨t, ht⟩ := hl je List.mem_cons_self
      rw [List.foldlM_cons]
      simp only [inactiveStep, ht, bind, Except.bind]
      exact ih _ fun x hx => hl x (List.mem_cons_of_mem _ hx)
  apply this
  intro je hje
  exact h je.1 (List.mem_range.mp (List.of_mem_zip hje).1)

/-- C100 (partial). For a constraint with one bound, the entries listed as inactive are those that satisfy it with a margin of more than the tolerance. Missing: constraints with both bounds, see
`C100_two_sided_refuted` and `C100_equality_refuted`. -/
theorem C100_one_bound_partial {tols : ActTol K} {con : List (ConEntry K)} {r : List Nat} (h : inactiveIdx tols con = .ok r) {j : Nat} {e : ConEntry K} (hj : con[j]? = some e)
    {tol : K} (ht : tols = .float tol ∨ ∃ l, tols = .array l ∧ l[j]? = some tol) (hone : (e.lower = none) ≠ (e.upper = none)) : j ∈ r ↔ e.FarFromLower tol ∧ e.FarFromUpper tol := by
  have hget : tols.get j = .ok tol := by
    rcases ht with rfl | ⟨l, rfl, hl⟩
    · rfl
    · simp [ActTol.get, hl]
  rw [mem_inactiveIdx h]
  unfold ConEntry.FarFromLower ConEntry.FarFromUpper
  have : (∃ e' tol', con[j]? = some e' ∧ tols.get j = .ok tol' ∧ (pastLower e' tol' = true ∨ pastUpper e' tol' = true)) ↔ (pastLower e tol = true ∨ pastUpper e tol = true) := by
    rw [hj, hget]
    constructor
    · rintro ⟨e', tol', h1, h2, h3⟩
      obtain rfl : e = e' := by simpa using h1
      obtain rfl : tol = tol' := by simpa using h2
      exact h3
    · intro h3; exact ⟨e, tol, rfl, rfl, h3⟩
  rw [this]
  unfold pastLower pastUpper
  cases hl : e.lower <;> cases hu : e.upper <;> simp_all

/-- C100. A float tolerance, or an array with an entry for every entry of the constraint, raises nothing; an integer raises `TypeError` as soon as the constraint has an entry. -/
theorem C100_tolerance_kinds (con : List (ConEntry K)) : (∀ t, ∃ r, inactiveIdx (.float t) con = .ok r) ∧ (∀ l : List K, con.length ≤ l.length → ∃ r, inactiveIdx (.array l) con = .ok r) ∧
    ∀ n, con ≠ [] → inactiveIdx (.int n) con = .error .TypeError := by
  refine ⟨fun t => inactiveIdx_ok fun j _ => ⟨t, rfl⟩, fun l hl => inactiveIdx_ok fun j hj => ⟨l[j], ?_⟩, ?_⟩
  · simp [ActTol.get, List.getElem?_eq_getElem (Nat.lt_of_lt_of_le hj hl)]
  · intro n hne
    cases con with
    | nil => exact absurd rfl hne
    | cons e con => simp [inactiveIdx, List.range_succ_eq_map, inactiveStep, ActTol.get, bind, Except.bind]

theorem inactives_fold : ∀ (cons : List (String × ActTol K × List (ConEntry K))) (acc r : List (String × List Nat)), cons.foldlM collectInactive acc = .ok r → (cons.map Prod.fst).Nodup →
    (∀ k ∈ cons.map Prod.fst, acc.lookup k = none) → (∀ k, k ∉ cons.map Prod.fst → r.lookup k = acc.lookup k) ∧
    ∀ c ∈ cons, ∃ l, inactiveIdx c.2.1 c.2.2 = .ok l ∧ r.lookup c.1 = if l = [] then none else some l := by
  intro cons
  induction cons with
  | nil =>
    intro acc r h _ _
    simp only [List.foldlM_nil, pure, Except.pure, Except.ok.injEq] at h
    subst h
    exact ⟨fun _ _ => rfl, by simp⟩
  | cons c cons ih =>
    intro acc r h hn ha
    rw [List.map_cons, List.nodup_cons] at hn
    rw [List.foldlM_cons] at h
    cases hi : inactiveIdx c.2.1 c.2.2 with
    | error x => simp [collectInactive, hi, bind, Except.bind] at h
    | ok l =>
      have hstep : collectInactive acc c = .ok (if l = [] then acc else dictSet acc c.1 l) := by
        cases l <;> simp [collectInactive, hi]
      rw [hstep] at h
      simp only [bind, Except.bind] at h
      have hlook : ∀ k, (if l = [] then acc else dictSet acc c.1 l).lookup k = if k = c.1 ∧ l ≠ [] then some l else acc.lookup k := by
        intro k
        by_cases hl : l = []
        · simp [hl]
        · simp [hl, lookup_dictSet]
      obtain ⟨h1, h2⟩ := ih _ _ h hn.2 (by
        intro k hk
        rw [hlook, if_neg, ha k (by simp [hk])]
        rintro ⟨rfl, -⟩
        exact hn.1 hk)
      refine ⟨?_, ?_⟩
      · intro k hk
        simp only [List.map_cons, List.mem_cons, not_or] at hk
        rw [h1 k hk.2, hlook, if_neg (fun q => hk.1 q.1)]
      · intro c' hc'
        rcases List.mem_cons.mp hc' with rfl | hc'
        · refine ⟨l, hi, ?_⟩
          rw [h1 _ hn.1, hlook, ha _ (by simp)]
          by_cases hl : l = [] <;> simp [hl]
        · exact h2 c' hc'

open Classical in
/-- C100 (partial). In reverse mode, the row of the gradient of a constraint with one bound that is not in a parallel group is the solution of the linear system, unless the constraint is satisfied with
a margin of more than its tolerance: then it is zero. -/
theorem C100_row_partial {cons : List (String × ActTol K × List (ConEntry K))} {ina : List (String × List Nat)} (h : inactives cons = .ok ina) (hn : (cons.map Prod.fst).Nodup)
    {name : String} {tol : K} {con : List (ConEntry K)} (hc : (name, ActTol.float tol, con) ∈ cons) {i : Nat} {e : ConEntry K} (hi : con[i]? = some e) (hone : (e.lower = none) ≠ (e.upper = none))
    (sol : String → Nat → K) (j : Nat) : solveOrZero ina false [name] i sol name j = if e.FarFromLower tol ∧ e.FarFromUpper tol then 0 else sol name j := by
  obtain ⟨l, h1, h2⟩ := (inactives_fold cons [] ina h hn (by simp)).2 _ hc
  simp only at h1 h2
  have h3 := C100_one_bound_partial h1 hi (Or.inl rfl) hone
  have h4 : skipSolve ina false [name] i = true ↔ i ∈ l := by
    simp only [skipSolve, List.getLast?_singleton, Bool.not_false, Bool.true_and, h2]
    by_cases hl : l = [] <;> simp [hl]
  unfold solveOrZero
  by_cases hf : e.FarFromLower tol ∧ e.FarFromUpper tol
  · rw [if_pos (h4.mpr (h3.mpr hf)), if_pos hf]
  · rw [if_neg (fun q => hf (h3.mp (h4.mp q))), if_neg hf]

/-- C100. Constraints without a tolerance, and everything in forward mode, are left as they are. -/
theorem C100_untouched {cons : List (String × ActTol K × List (ConEntry K))} {ina : List (String × List Nat)} (h : inactives cons = .ok ina) (hn : (cons.map Prod.fst).Nodup) (sol : String → Nat → K) (i : Nat) :
    (∀ name, name ∉ cons.map Prod.fst → solveOrZero ina false [name] i sol = sol) ∧ ∀ params, solveOrZero ina true params i sol = sol := by
  constructor
  · intro name hname
    have := (inactives_fold cons [] ina h hn (by simp)).1 name hname
    simp [solveOrZero, skipSolve, this]
  · intro params
    have : skipSolve ina true params i = false := by
      unfold skipSolve
      cases params.getLast? <;> rfl
    simp [solveOrZero, this]

end Active

/-- The hypotheses of `C100_row_partial`: the constraint `c ≤ 1` with tolerance 1/2, at the values 0 and 3/4; its first row is left out. -/
example : ∃ ina, inactives (K := ℚ) [("c", .float (1 / 2), [⟨0, none, some 1⟩, ⟨3 / 4, none, some 1⟩])] = .ok ina ∧ ina.lookup "c" = some [0] := ⟨[("c", [0])], by decide +kernel, by decide +kernel⟩

/-- C100 is false of the code for a constraint with two bounds: `0 ≤ c ≤ 1` at the value 1 is active, but it is listed as inactive, since it is far from the lower bound. -/
theorem C100_two_sided_refuted : ∃ (e : ConEntry ℚ) (tol : ℚ), 0 < tol ∧ e.upper = some e.val ∧ inactiveIdx (.float tol) [e] = .ok [0] :=
  ⟨⟨1, some 0, some 1⟩, 1 / 10, by norm_num, rfl, by decide +kernel⟩

/-- C100 is false of the code for equality constraints, whose two bounds are equal: one that is violated is listed as inactive. -/
theorem C100_equality_refuted : ∃ (e : ConEntry ℚ) (tol : ℚ), 0 < tol ∧ e.lower = some 0 ∧ e.upper = some 0 ∧ e.val ≠ 0 ∧ inactiveIdx (.float tol) [e] = .ok [0] :=
  ⟨⟨5, some 0, some 0⟩, 1 / 10, by norm_num, rfl, rfl, by norm_num, by decide +kernel⟩

/-- C100 is false of the code for parallel groups of constraints: whether a row is left out is decided by the last constraint of the group only. -/
theorem C100_group_refuted : ∃ (ina : List (String × List Nat)) (sol : String → Nat → ℚ), ina.lookup "c1" = none ∧ sol "c1" 0 ≠ 0 ∧ solveOrZero ina false ["c1", "c2"] 0 sol "c1" 0 = 0 :=
  ⟨[("c2", [0])], fun _ _ => 1, by decide, by norm_num, by decide +kernel⟩

/-! ## C101: linear constraints -/

section Linear
variable [Field K] [LinearOrder K] {κ D : Type}

theorem conGroup_satisfied (m : PyConMeta κ K) (wrt : List D) (jac : κ → D → K) (z : D → K) (v w : κ → K)
    (hw : ∀ i, (if m.linear then (wrt.map fun d => jac i d * z d).sum else v i) = w i) : (conGroup m wrt jac).Satisfied z v ↔ m.Holds w := by
  obtain ⟨eq, lo, up, lin⟩ := m
  cases lin <;> cases eq <;> simp only [if_true, Bool.false_eq_true, if_false] at hw <;> simp [conGroup, ConGroup.Satisfied, PyConMeta.Holds, hw, forall_and]
  · constructor
    · rintro ⟨h1, h2⟩ i; exact le_antisymm (h2 i) (h1 i)
    · intro h; exact ⟨fun i => (h i).ge, fun i => (h i).le⟩
  · constructor
    · rintro ⟨h1, h2⟩ i; exact le_antisymm (h2 i) (h1 i)
    · intro h; exact ⟨fun i => (h i).ge, fun i => (h i).le⟩

/-- C101. A constraint that is not declared linear is satisfied for the optimizer exactly when the value from the function callback satisfies the constraint of the user, be it an equality, one-sided or
two-sided. -/
theorem C101_nonlinear {m : PyConMeta κ K} (hl : m.linear = false) (wrt : List D) (jac : κ → D → K) (z : D → K) (v : κ → K) : (conGroup m wrt jac).Satisfied z v ↔ m.Holds v :=
  conGroup_satisfied m wrt jac z v v (by simp [hl])

variable [Fintype D]

/-- C101 (partial). A constraint declared linear, `∑ J i d · z d + c i` in the scaled variables, is satisfied for the optimizer exactly when it holds, if the constant `c` is zero; `wrt` are the relevant design
variables, on which alone it depends. Missing: constants, see `C101_offset_refuted`. -/
theorem C101_linear_partial {m : PyConMeta κ K} (hl : m.linear = true) {wrt : List D} (hn : wrt.Nodup) {jac : κ → D → K} (hrel : ∀ i d, d ∉ wrt → jac i d = 0) (h : (D → K) → κ → K) (c : κ → K)
    (haff : ∀ z i, h z i = ∑ d, jac i d * z d + c i) (hc : ∀ i, c i = 0) (z : D → K) (v : κ → K) : (conGroup m wrt jac).Satisfied z v ↔ m.Holds (h z) := by
  classical
  apply conGroup_satisfied
  intro i
  rw [if_pos hl, haff, hc, add_zero, ← List.sum_toFinset _ hn]
  apply Finset.sum_subset (Finset.subset_univ _)
  intro d _ hd
  rw [hrel i d (by simpa using hd), zero_mul]

/-- C101. Where the constant comes from: for `f x = A x + b` with the scalers and adders of the driver, the scaled constraint as a function of the scaled design has the scaled Jacobian and the constant
`sc (b + ac - A ax)`. Without adders and without `b` it is zero. -/
theorem C101_scaled_constant (A : κ → D → K) (b sc ac : κ → K) (sx ax : D → K) (hsx : ∀ d, sx d ≠ 0) (x : D → K) (i : κ) :
    (∑ d, A i d * x d + b i + ac i) * sc i = ∑ d, (sc i * A i d / sx d) * ((x d + ax d) * sx d) + sc i * (b i + ac i - ∑ d, A i d * ax d) := by
  have : ∀ d, (sc i * A i d / sx d) * ((x d + ax d) * sx d) = sc i * (A i d * x d) + sc i * (A i d * ax d) := by
    intro d
    have := hsx d
    field_simp
  rw [Finset.sum_congr rfl fun d _ => this d, Finset.sum_add_distrib, ← Finset.mul_sum, ← Finset.mul_sum]
  ring

end Linear

example : ∀ z i, (fun (z : Fin 2 → ℚ) (_ : Fin 1) => 2 * z 0 + 3 * z 1) z i = ∑ d, (fun _ d => if d = 0 then 2 else 3 : Fin 1 → Fin 2 → ℚ) i d * z d + (fun _ => 0 : Fin 1 → ℚ) i := by
  intro z i
  simp [Fin.sum_univ_two]

/-- C101 is false of the code when the linear constraint has a constant: for `x + 1 ≤ 0`, `x = 0` is accepted. -/
theorem C101_offset_refuted : ∃ (m : PyConMeta Unit ℚ) (h : (Unit → ℚ) → Unit → ℚ) (z : Unit → ℚ), m.linear = true ∧ (∀ z i, h z i = z () + 1) ∧
    (conGroup m [()] fun _ _ => 1).Satisfied z (h z) ∧ ¬ m.Holds (h z) := by
  refine ⟨⟨none, fun _ => none, fun _ => some 0, true⟩, fun z _ => z () + 1, fun _ => 0, rfl, fun _ _ => rfl, ?_, ?_⟩
  · simp [conGroup, ConGroup.Satisfied]
  · simp [PyConMeta.Holds]

/-! ## C102: the state after the optimization -/

/-- C102. When `run` returns, the design variables hold the optimizer's solution and the model has been run at it, without error. The exit flag is 1 exactly when the optimizer reported a status of at most 2. -/
theorem C102_final_state {M : OptModel S V F} {dsg : S → String → V} (hs : SetsDesign M dsg) {indep : List String} {dv : List (String × V)} {inform : Option Int} {s s' : S} {flag : Nat}
    (h : finishRun M indep dv inform s = .ok (s', flag)) :
    (∃ s1, (∀ n ∈ indep, dv.lookup n = some (dsg s1 n)) ∧ M.solve s1 = (s', none)) ∧ (flag = 1 ∨ flag = 0) ∧ (flag = 1 ↔ ∃ k, inform = some k ∧ k ≤ 2) := by
  unfold finishRun at h
  rcases hd : setDvs M dv indep s with ⟨s1, _ | e⟩
  · rw [hd] at h
    simp only at h
    rcases hv : M.solve s1 with ⟨s2, _ | e⟩
    · rw [hv] at h
      cases inform with
      | none =>
        simp only [Except.ok.injEq, Prod.mk.injEq] at h
        obtain ⟨rfl, rfl⟩ := h
        exact ⟨⟨s1, setDvs_design hs dv indep s s1 hd, hv⟩, Or.inr rfl, by simp⟩
      | some k =>
        simp only [Except.ok.injEq, Prod.mk.injEq] at h
        obtain ⟨rfl, rfl⟩ := h
        refine ⟨⟨s1, setDvs_design hs dv indep s s1 hd, hv⟩, ?_, ?_⟩
        · by_cases hk : k > 2 <;> simp [hk]
        · by_cases hk : k > 2
          · simp only [if_pos hk, Option.some.injEq, exists_eq_left']
            constructor
            · intro q; exact absurd q (by simp)
            · intro q; omega
          · simp only [if_neg hk, Option.some.injEq, exists_eq_left', true_iff]
            omega
    · rw [hv] at h
      simp at h
  · rw [hd] at h
    simp at h

/-- C102. It returns whenever the design can be set and the model runs. -/
theorem C102_returns {M : OptModel S V F} {indep : List String} {dv : List (String × V)} {s s1 s2 : S} (inform : Option Int) (h1 : DesignSet M dv indep s s1) (h2 : M.solve s1 = (s2, none)) :
    ∃ flag, finishRun M indep dv inform s = .ok (s2, flag) := by
  unfold finishRun
  rw [setDvs_iff.mpr h1]
  simp only
  rw [h2]
  cases inform with
  | none => exact ⟨0, rfl⟩
  | some k => exact ⟨_, rfl⟩

example : finishRun optExample ["x"] [("x", 4)] (some 1) [("x", 1)] = .ok ([("x", 4)], 1) := by decide +kernel

end OpenMDAO
