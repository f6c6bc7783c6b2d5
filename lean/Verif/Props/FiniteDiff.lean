import Verif.Lemmas.Connections
import Verif.Lemmas.List
import Verif.Lemmas.FiniteDiff
import Verif.Lemmas.ArrayUtil
import Mathlib.Algebra.Order.Ring.Rat
import Mathlib.Algebra.Order.Field.Rat
import Mathlib.Data.Rat.Floor
import Mathlib.Tactic.NormNum
/-!
# C35, C36: finite differences
-/
namespace OpenMDAO

set_option linter.unusedSectionVars false

variable {K : Type} [Field K] [LinearOrder K] [IsStrictOrderedRing K]

/-- **C35 (options).** Step size, relative flag and form of a perturbed variable are each the one declared on the variable, if
any, and otherwise the one of the system; a variable without declarations uses the options of the system. -/
theorem C35_options (E : FdEnv K) (p : String) (v : FdVar K) (h : fdVar E p = .ok v) :
    v.name = p ∧
    (E.overrides.lookup p = none → (v.fdstep, v.relative, v.form) = E.defaults) ∧
    (∀ a b c, E.overrides.lookup p = some (a, b, c) →
      (∀ x, a = some x → v.fdstep = x) ∧ (a = none → v.fdstep = E.defaults.1) ∧
      (∀ x, b = some x → v.relative = x) ∧ (b = none → v.relative = E.defaults.2.1) ∧
      (∀ x, c = some x → v.form = x) ∧ (c = none → v.form = E.defaults.2.2)) := by
  have key : ∀ sel src sl, fdMk E p sel src sl = .ok v → v.name = p ∧ v.fdstep = (fdOpts E p).1 ∧
      v.relative = (fdOpts E p).2.1 ∧ v.form = (fdOpts E p).2.2 := by
    intro sel src sl hk
    unfold fdMk at hk
    cases sl with
    | error e => cases hk
    | ok x => injection hk with hk; subst hk; exact ⟨rfl, rfl, rfl, rfl⟩
  have hv : v.name = p ∧ v.fdstep = (fdOpts E p).1 ∧ v.relative = (fdOpts E p).2.1 ∧ v.form = (fdOpts E p).2.2 := by
    unfold fdVar at h
    split at h
    · split at h
      · cases h
      · exact key _ _ _ h
    · split at h
      · exact key _ _ _ h
      · exact key _ _ _ h
  obtain ⟨h0, h1, h2, h3⟩ := hv
  refine ⟨h0, ?_, ?_⟩
  · intro hn
    rw [h1, h2, h3]
    simp [fdOpts, hn]
  · intro a b c hs
    rw [h1, h2, h3]
    simp only [fdOpts, hs]
    refine ⟨?_, ?_, ?_, ?_, ?_, ?_⟩ <;> intros <;> subst_vars <;> rfl

/-- **C35 (indices of interest).** The entries of a variable that are perturbed are the indices of interest declared for its
source, in that order, and all its entries if there are none. -/
theorem C35_indices (E : FdEnv K) (v : FdVar K) :
    (∀ src l, v.src = some src → E.poi.lookup src = some l → fdIdxs E v = l) ∧
    ((∀ src, v.src = some src → E.poi.lookup src = none) → fdIdxs E v = List.range v.size) := by
  constructor
  · intro src l h1 h2
    simp [fdIdxs, h1, h2]
  · intro h
    unfold fdIdxs
    cases hs : v.src with
    | none => rfl
    | some src => simp [h src hs]

/-- **C35 (restoration, exact arithmetic).** After `fd_jacobian` all inputs of the model (parameters and unknowns) and the whole result
vector hold the values they had before, whatever the model computes. For partial derivatives every position is an input, so nothing has
changed at all (`C35_restores_all`). Missing with respect to the full statement: parameters inside a group
(`C35_params_refuted`) and rounding (`C35_rounding_refuted`). -/
theorem C35_restores_partial (E : FdEnv K) (inP inU : Nat → Prop) (G : FdSt K → Nat → K) (fdParams fdU passU : List String)
    (vars : List (FdVar K)) (hres : (fdParams ++ (if E.total then [] else E.states)).mapM (fdVar E) = .ok vars)
    (h : FdOk E inP inU G fdU passU vars) (s : FdSt K) :
    ∃ L, fdJacobian E fdParams fdU passU s = .ok L ∧ (∀ k, inP k → L.st.p k = s.p k) ∧ (∀ k, inU k → L.st.u k = s.u k) ∧
      L.st.res E.total = s.res E.total := by
  obtain ⟨L, h1, h2⟩ := fdLocal_spec E inP inU G fdU passU vars h s
  refine ⟨L, ?_, h2.agree.1, h2.agree.2, h2.res⟩
  unfold fdJacobian
  rw [hres]
  exact h1

/-- Partial derivatives of a component: the residual evaluation leaves parameters and unknowns alone, and so does `fd_jacobian`; the
residuals are restored too. -/
theorem C35_restores_all (E : FdEnv K) (G : FdSt K → Nat → K) (fdParams fdU passU : List String)
    (vars : List (FdVar K)) (htot : E.total = false) (hres : (fdParams ++ E.states).mapM (fdVar E) = .ok vars)
    (h : FdOk E (fun _ => True) (fun _ => True) G fdU passU vars) (s : FdSt K) :
    ∃ L, fdJacobian E fdParams fdU passU s = .ok L ∧ L.st = s := by
  obtain ⟨L, h1, h2, h3, h4⟩ := C35_restores_partial E _ _ G fdParams fdU passU vars (by rw [htot]; simpa using hres) h s
  refine ⟨L, h1, ?_⟩
  have hr : L.st.r = s.r := by
    rw [htot] at h4
    exact h4
  have hp : L.st.p = s.p := funext fun k => h2 k trivial
  have hu : L.st.u = s.u := funext fun k => h3 k trivial
  cases hL : L.st
  cases s
  simp_all

/-- **C35 (value).** On one process every requested entry of the Jacobian is the difference quotient of the chosen form at the current
point, with the documented step; blocks have one row per requested entry of the unknown and one column per requested entry of the
input. No assumption on the model function. -/
theorem C35_quotients (E : FdEnv K) (inP inU : Nat → Prop) (G : FdSt K → Nat → K) (fdU passU : List String)
    (vars : List (FdVar K)) (h : FdOk E inP inU G fdU passU vars) (hpar : E.npar = 1) (hid : E.parId = 0) (s : FdSt K) :
    ∃ L, fdLocal E fdU passU vars s = .ok L ∧ ∀ v ∈ vars, ∀ u ∈ fdU, ∃ M, L.jac u v.name = some M ∧
      M.m = (rowsOf E u).length ∧ M.n = (fdIdxs E v).length ∧
      ∀ (a b k i : Nat), (rowsOf E u)[a]? = some k → (fdIdxs E v)[b]? = some i →
        M.a a b = diffQuot v.form G s (s.res E.total) v.sel (v.start + i) (stepFor v (s.get v.sel (v.start + i))) k := by
  obtain ⟨L, h1, h2⟩ := fdLocal_spec E inP inU G fdU passU vars h s
  refine ⟨L, h1, ?_⟩
  intro v hv u hu
  obtain ⟨M, m1, m2, m3⟩ := h2.shape v hv u hu
  refine ⟨M, m1, m2, m3, ?_⟩
  intro a b k i hk hi
  obtain ⟨c, hc⟩ := List.getElem?_of_mem ((mem_fdTasks E vars v b i).mpr ⟨hv, hi⟩)
  have := h2.done c v b i hc u hu
  unfold ColDone at this
  rw [if_pos (by rw [hpar, hid, Nat.mod_one])] at this
  obtain ⟨_, N, n1, n2⟩ := this
  rw [m1] at n1
  injection n1 with n1
  subst n1
  exact n2 a k hk

/-- **C35 (exactness).** For an affine model every form returns the exact Jacobian for every positive step size and both step
calculations; forward and backward differences need the result vector to be up to date (`C35_stale_refuted`), central differences do
not. -/
theorem C35_affine_exact_partial (E : FdEnv K) (inP inU : Nat → Prop) (G : FdSt K → Nat → K) (D : Nat → FdSel → Nat → K)
    (fdU passU : List String) (vars : List (FdVar K)) (h : FdOk E inP inU G fdU passU vars) (hpar : E.npar = 1) (hid : E.parId = 0)
    (haff : AffineIn G D) (s : FdSt K)
    (hcur : ∀ v ∈ vars, v.form ≠ .central → ∀ u ∈ fdU, ∀ k ∈ rowsOf E u, s.res E.total k = G s k) :
    ∃ L, fdLocal E fdU passU vars s = .ok L ∧ ∀ v ∈ vars, ∀ u ∈ fdU, ∃ M, L.jac u v.name = some M ∧
      M.m = (rowsOf E u).length ∧ M.n = (fdIdxs E v).length ∧
      ∀ (a b k i : Nat), (rowsOf E u)[a]? = some k → (fdIdxs E v)[b]? = some i → M.a a b = D k v.sel (v.start + i) := by
  obtain ⟨L, h1, h2⟩ := C35_quotients E inP inU G fdU passU vars h hpar hid s
  refine ⟨L, h1, ?_⟩
  intro v hv u hu
  obtain ⟨M, m1, m2, m3, m4⟩ := h2 v hv u hu
  refine ⟨M, m1, m2, m3, ?_⟩
  intro a b k i hk hi
  rw [m4 a b k i hk hi]
  have hne := stepFor_ne v (s.get v.sel (v.start + i)) (h.vars v hv).1
  generalize stepFor v (s.get v.sel (v.start + i)) = step at hne
  unfold diffQuot
  cases hf : v.form with
  | forward =>
    simp only
    rw [haff, hcur v hv (by rw [hf]; decide) u hu k (List.mem_of_getElem? hk)]
    field_simp
    ring
  | backward =>
    simp only
    rw [haff, hcur v hv (by rw [hf]; decide) u hu k (List.mem_of_getElem? hk)]
    field_simp
    ring
  | central =>
    simp only
    rw [haff, haff]
    field_simp
    ring

/-! ### C36 -/

theorem FdOk.withPar {E : FdEnv K} {inP inU : Nat → Prop} {G : FdSt K → Nat → K} {fdU passU : List String} {vars : List (FdVar K)}
    (h : FdOk E inP inU G fdU passU vars) (n c : Nat) : FdOk { E with npar := n, parId := c } inP inU G fdU passU vars :=
  ⟨h.exact, ⟨h.model.runs, h.model.reads⟩, h.names, h.vars, h.rows, h.pass⟩

theorem fdColors_cover (npar nranks : Nat) (hp : 0 < npar) (hle : npar ≤ nranks) :
    ∃ colors, fdColors npar nranks = .ok colors ∧ ∀ q, q ∈ colors ↔ q < npar := by
  obtain ⟨sizes, offsets, h1, _, _, h2, _⟩ := evenlyDistribIdxs_eq npar nranks hp
  refine ⟨_, by unfold fdColors; rw [h1], ?_⟩
  intro q
  rw [List.mem_flatMap]
  constructor
  · rintro ⟨i, hi, hq⟩
    rw [List.mem_replicate] at hq
    rw [hq.2]
    exact List.mem_range.mp hi
  · intro hq
    refine ⟨q, List.mem_range.mpr hq, ?_⟩
    rw [List.mem_replicate]
    refine ⟨?_, rfl⟩
    rw [List.getD_eq_getElem?_getD, h2 q hq, Option.getD_some]
    have : 1 ≤ nranks / npar := Nat.div_pos hle hp
    omega

/-- **C36 (each column once).** With the columns of all variables counted in order, the column of `(u, v, b)` is recorded by the local
computation of exactly one of the `N` groups of processes. -/
theorem C36_each_column_once (E : FdEnv K) (inP inU : Nat → Prop) (G : FdSt K → Nat → K) (fdU passU : List String)
    (vars : List (FdVar K)) (h : FdOk E inP inU G fdU passU vars) (hpar : 0 < E.npar) (s : FdSt K) (v : FdVar K) (hv : v ∈ vars)
    (b i : Nat) (hb : (fdIdxs E v)[b]? = some i) (u : String) (hu : u ∈ fdU) :
    ∃! q, q < E.npar ∧ ∃ L, fdLocal { E with parId := q } fdU passU vars s = .ok L ∧ (L.cols.lookup (u, v.name, b)).isSome := by
  obtain ⟨c, hc⟩ := List.getElem?_of_mem ((mem_fdTasks E vars v b i).mpr ⟨hv, hb⟩)
  have key : ∀ q, ∃ L, fdLocal { E with parId := q } fdU passU vars s = .ok L ∧
      ((L.cols.lookup (u, v.name, b)).isSome ↔ c % E.npar = q) := by
    intro q
    obtain ⟨L, h1, h2⟩ := fdLocal_spec { E with parId := q } inP inU G fdU passU vars (h.withPar E.npar q) s
    refine ⟨L, h1, ?_⟩
    have := h2.done c v b i hc u hu
    unfold ColDone at this
    by_cases hq : c % E.npar = q
    · rw [if_pos hq] at this
      rw [this.1]
      simp [hq]
    · rw [if_neg hq] at this
      rw [this]
      simp [hq]
  refine ⟨c % E.npar, ⟨Nat.mod_lt _ hpar, ?_⟩, ?_⟩
  · obtain ⟨L, h1, h2⟩ := key (c % E.npar)
    exact ⟨L, h1, h2.mpr rfl⟩
  · rintro q ⟨_, L, h1, h2⟩
    obtain ⟨L', h1', h2'⟩ := key q
    rw [h1] at h1'
    injection h1' with h1'
    subst h1'
    exact (h2'.mp h2).symm

/-- **C36 (merge).** With at least as many ranks as parallel differences, every rank ends up with the serial Jacobian. Missing with
respect to the full statement: unknowns that are themselves perturbed inputs (`C36_pass_refuted`) and too few ranks
(`C36_few_ranks_refuted`). -/
theorem C36_merged_partial (E : FdEnv K) (inP inU : Nat → Prop) (G : FdSt K → Nat → K) (fdU passU : List String)
    (vars : List (FdVar K)) (h : FdOk E inP inU G fdU passU vars) (nranks : Nat) (hpar : 0 < E.npar) (hr : E.npar ≤ nranks) (s : FdSt K) :
    ∃ colors S, fdColors E.npar nranks = .ok colors ∧ fdLocal { E with npar := 1, parId := 0 } fdU passU vars s = .ok S ∧
      ∀ rank < colors.length, ∃ L, fdParallel E colors rank fdU passU vars s = .ok L ∧
        ∀ v ∈ vars, ∀ u ∈ fdU, ∃ M N, L.jac u v.name = some M ∧ S.jac u v.name = some N ∧ M.m = N.m ∧ M.n = N.n ∧
          ∀ a < M.m, ∀ b < M.n, M.a a b = N.a a b := by
  obtain ⟨colors, hcol, hcov⟩ := fdColors_cover E.npar nranks hpar hr
  obtain ⟨S, hS, hSv⟩ := C35_quotients { E with npar := 1, parId := 0 } inP inU G fdU passU vars (h.withPar 1 0) rfl rfl s
  refine ⟨colors, S, hcol, hS, ?_⟩
  intro rank hrank
  have hloc : ∀ q, ∃ L, fdLocal { E with parId := q } fdU passU vars s = .ok L ∧
      VarInv { E with parId := q } inP inU G s fdU vars L :=
    fun q => fdLocal_spec { E with parId := q } inP inU G fdU passU vars (h.withPar E.npar q) s
  obtain ⟨locals, l1, l2, l3⟩ := mapM_ok (fun c => fdLocal { E with parId := c } fdU passU vars s) colors
    (fun q _ => by obtain ⟨L, hL, _⟩ := hloc q; exact ⟨L, hL⟩)
  have hlocal : ∀ (i : Nat) (L : FdLoop K), locals[i]? = some L → ∃ q, colors[i]? = some q ∧ VarInv { E with parId := q } inP inU G s fdU vars L := by
    intro i L hi
    have hlt := (List.getElem?_eq_some_iff.mp hi).1
    obtain ⟨y, y1, y2⟩ := l3 i colors[i] (List.getElem?_eq_getElem (by omega))
    rw [hi] at y1
    injection y1 with y1
    subst y1
    obtain ⟨L', g1, g2⟩ := hloc colors[i]
    rw [y2] at g1
    injection g1 with g1
    subst g1
    exact ⟨_, List.getElem?_eq_getElem (by omega), g2⟩
  obtain ⟨own, hown⟩ : ∃ own, locals[rank]? = some own := ⟨_, List.getElem?_eq_getElem (by omega)⟩
  obtain ⟨qr, hqr, hinv⟩ := hlocal rank own hown
  have hownM : MergeInv E G s fdU vars own own := by
    refine ⟨hinv.shape, rfl, fun _ h => h, ?_⟩
    intro v hv u hu b i hi hsome
    obtain ⟨c, hc⟩ := List.getElem?_of_mem ((mem_fdTasks E vars v b i).mpr ⟨hv, hi⟩)
    have := hinv.done c v b i hc u hu
    unfold ColDone at this
    by_cases hq : c % E.npar = qr
    · rw [if_pos hq] at this
      exact this.2
    · rw [if_neg hq] at this
      rw [this] at hsome
      cases hsome
  have hmemlocal : ∀ L ∈ locals.eraseIdx rank, ∃ q, VarInv { E with parId := q } inP inU G s fdU vars L := by
    intro L hL
    obtain ⟨i, hi⟩ := List.getElem?_of_mem (List.mem_of_mem_eraseIdx hL)
    obtain ⟨q, _, hq⟩ := hlocal i L hi
    exact ⟨q, hq⟩
  obtain ⟨L, m1, m2, m3⟩ := fdMerge_spec E G s fdU vars h.names own hownM ((locals.eraseIdx rank).map (·.cols)) (by
    intro cols hc
    obtain ⟨L, hL, rfl⟩ := List.mem_map.mp hc
    obtain ⟨q, hq⟩ := hmemlocal L hL
    exact hq.sound)
  refine ⟨L, ?_, ?_⟩
  · unfold fdParallel
    rw [l1]
    simp only [hown]
    exact m1
  · intro v hv u hu
    obtain ⟨M, a1, a2, a3⟩ := m2.shape v hv u hu
    obtain ⟨N, b1, b2, b3, b4⟩ := hSv v hv u hu
    refine ⟨M, N, a1, b1, a2.trans b2.symm, a3.trans b3.symm, ?_⟩
    intro a ha b hb
    obtain ⟨k, hk⟩ : ∃ k, (rowsOf E u)[a]? = some k := ⟨_, List.getElem?_eq_getElem (by omega)⟩
    obtain ⟨i, hi⟩ : ∃ i, (fdIdxs E v)[b]? = some i := ⟨_, List.getElem?_eq_getElem (by omega)⟩
    have hpresent : (L.cols.lookup (u, v.name, b)).isSome := by
      obtain ⟨c, hc⟩ := List.getElem?_of_mem ((mem_fdTasks E vars v b i).mpr ⟨hv, hi⟩)
      obtain ⟨j, hj⟩ := List.getElem?_of_mem ((hcov (c % E.npar)).mpr (Nat.mod_lt _ hpar))
      have hjlt := (List.getElem?_eq_some_iff.mp hj).1
      obtain ⟨Lj, hLj⟩ : ∃ Lj, locals[j]? = some Lj := ⟨_, List.getElem?_eq_getElem (by omega)⟩
      obtain ⟨q, hq, hinvj⟩ := hlocal j Lj hLj
      rw [hj] at hq
      injection hq with hq
      have hd := hinvj.done c v b i hc u hu
      unfold ColDone at hd
      rw [if_pos hq] at hd
      by_cases hjr : j = rank
      · subst hjr
        rw [hown] at hLj
        injection hLj with hLj
        subst hLj
        exact m2.mono _ (by rw [hd.1]; rfl)
      · refine m3 Lj.cols (List.mem_map.mpr ⟨Lj, ?_, rfl⟩) ((u, v.name, b), _) (lookup_mem hd.1)
        rw [List.mem_eraseIdx_iff_getElem?]
        exact ⟨j, hjr, hLj⟩
    obtain ⟨M', e1, e2⟩ := m2.cells v hv u hu b i hi hpresent
    rw [a1] at e1
    injection e1 with e1
    subst e1
    rw [e2 a k hk, b4 a b k i hk hi]
    rfl

/-! ### Non-vacuity -/

/-- A component with parameters `x` (two entries) and one output `y`; the residual is `2 x0 + 3 x1 - y`. -/
def exFd : FdEnv ℚ :=
  { rnd := id, total := false
    run := fun s => .ok { s with r := fun k => if k = 0 then 2 * s.p 0 + 3 * s.p 1 - s.u 0 else 0 }
    conns := [], pslices := [("x", (0, 2))], uslices := [("y", (0, 1))], toProm := [], states := []
    defaults := (1/1000, true, .forward), overrides := [("x", (none, none, some .central))]
    poi := [], qoi := [], npar := 1, parId := 0 }

def exFdG : FdSt ℚ → Nat → ℚ := fun s k => if k = 0 then 2 * s.p 0 + 3 * s.p 1 - s.u 0 else 0

def exFdD : Nat → FdSel → Nat → ℚ
  | 0, .params, 0 => 2
  | 0, .params, 1 => 3
  | 0, .unknowns, 0 => -1
  | _, _, _ => 0

def exFdVars : List (FdVar ℚ) := [⟨"x", .params, 0, 2, none, 1/1000, true, .central⟩]

example : ["x"].mapM (fdVar exFd) = .ok exFdVars := rfl

theorem exFd_ok : FdOk exFd (fun _ => True) (fun _ => True) exFdG ["y"] [] exFdVars where
  exact := rfl
  model := by
    refine ⟨fun s => ⟨_, rfl, rfl, fun _ _ => rfl, fun _ _ => rfl⟩, ?_⟩
    intro s t h
    funext k
    simp only [exFdG, h.1 0 trivial, h.1 1 trivial, h.2 0 trivial]
  names := by simp [exFdVars]
  vars := by
    intro v hv
    simp only [exFdVars, List.mem_singleton] at hv
    subst hv
    refine ⟨by norm_num, ?_⟩
    intro i hi
    have : i < 2 := by simpa [fdIdxs] using hi
    exact ⟨this, trivial⟩
  rows := by
    intro u hu
    simp only [List.mem_singleton] at hu
    subst hu
    exact ⟨0, 1, rfl, by intro l hl; simp [exFd] at hl, by intro h; simp [exFd] at h⟩
  pass := by simp

theorem exFd_affine : AffineIn exFdG exFdD := by
  intro s sel pos d k
  rcases k with _ | k
  · cases sel
    · rcases pos with _ | _ | pos
      · simp [exFdG, exFdD, FdSt.shift, FdSt.bump]; ring
      · simp [exFdG, exFdD, FdSt.shift, FdSt.bump]; ring
      · simp [exFdG, exFdD, FdSt.shift, FdSt.bump]
    · rcases pos with _ | pos
      · simp [exFdG, exFdD, FdSt.shift, FdSt.bump]; ring
      · simp [exFdG, exFdD, FdSt.shift, FdSt.bump]
  · simp [exFdG, exFdD]

/-- What can be read off a result: a block as a list of rows. -/
def fdBlock (L : FdLoop ℚ) (u p : String) : Option (List (List ℚ)) :=
  (L.jac u p).map fun M => (List.range M.m).map fun i => (List.range M.n).map fun j => M.a i j

example : (fdJacobian exFd ["x"] ["y"] [] ⟨fun _ => 5, fun _ => 7, fun _ => 0⟩).map (fdBlock · "y" "x") = .ok (some [[2, 3]]) := by
  decide +kernel

/-! ### Refutations -/

/-- A group at the root: `p.x` (unknown 0) feeds the parameter `c.x` (parameter 0), and `c.y = 2 c.x` (unknown 1). A run transfers
the value to the parameter and then computes `y`. -/
def exGrp : FdEnv ℚ :=
  { rnd := id, total := true
    run := fun s => .ok { s with p := fun k => if k = 0 then s.u 0 else s.p k, u := fun k => if k = 1 then 2 * s.u 0 else s.u k }
    conns := [("c.x", "p.x")], pslices := [("c.x", (0, 1))], uslices := [("p.x", (0, 1)), ("c.y", (1, 1))], toProm := [], states := []
    defaults := (1/1000, false, .forward), overrides := [], poi := [], qoi := [], npar := 1, parId := 0 }

example : (fdVar { exGrp with overrides := [("c.x", (some (1/2), none, some .central))], poi := [("p.x", [0])] } "c.x").map
    (fun v => (v.fdstep, v.relative, v.form, v.src)) = .ok (1/2, false, .central, some "p.x") := by decide +kernel

/-- **C35 is false for the parameters inside a group**: differencing the model leaves `c.x` at the perturbed value, although the model
had been run at the current point. -/
theorem C35_params_refuted : ∃ s : FdSt ℚ, exGrp.run s = .ok s ∧
    (fdJacobian exGrp ["c.x"] ["c.y"] [] s).map (fun L => (fdBlock L "c.y" "c.x", L.st.u 0, L.st.u 1, L.st.p 0)) =
      .ok (some [[2]], s.u 0, s.u 1, s.p 0 + 1/1000) := by
  refine ⟨⟨fun _ => 1, fun k => if k = 1 then 2 else 1, fun _ => 0⟩, ?_, by decide +kernel⟩
  simp only [exGrp, Except.ok.injEq, FdSt.mk.injEq, and_true]
  constructor
  · funext k; by_cases hk : k = 0 <;> simp [hk]
  · funext k; by_cases hk : k = 1 <;> simp [hk]

/-- Round to a multiple of `2^-52` from `1/2` on (the spacing of doubles in `[1, 2)`), exact below. -/
def rndQ (x : ℚ) : ℚ := if 1/2 ≤ |x| then (⌊x * 2 ^ 52 + 1/2⌋ : ℚ) / 2 ^ 52 else x

/-- **C35 is false in floating point**: a parameter is restored by subtracting the step, `(x + h) - h`, which loses the low order
bits: with `x = 2^-60` and `h = 1` the parameter is left at 0. -/
theorem C35_rounding_refuted : ∃ (x : ℚ), rndQ x = x ∧
    (fdJacobian { exFd with rnd := rndQ, defaults := (1, false, .forward), overrides := [] } ["x"] ["y"] []
      ⟨fun _ => x, fun _ => 0, fun _ => 0⟩).map (fun L => L.st.p 0) = .ok 0 ∧ x ≠ 0 := by
  refine ⟨1 / 2 ^ 60, by decide +kernel, by decide +kernel, by norm_num⟩

/-- **C35 is false when the residual vector is not up to date**: forward differences subtract whatever is stored there. The model is
affine with derivatives 2 and 3; with a stored residual of 0 at a point where the residual is 1 the result is off by `1/h`. -/
theorem C35_stale_refuted : AffineIn exFdG exFdD ∧ ∃ s : FdSt ℚ, s.r 0 = 0 ∧ exFdG s 0 = 1 ∧
    (fdJacobian { exFd with overrides := [], defaults := (1/1000, false, .forward) } ["x"] ["y"] [] s).map (fdBlock · "y" "x") =
      .ok (some [[1002, 1003]]) := by
  exact ⟨exFd_affine, ⟨fun _ => 1, fun _ => 4, fun _ => 0⟩, rfl, by norm_num [exFdG], by decide +kernel⟩

/-- **C35 is false for a design variable that is also an objective or constraint**: without indices the block is always the 1x1 matrix
`[[1.0]]`, whatever the size of the variable (here 2: the exact block is the 2x2 identity). -/
theorem C35_pass_refuted : ∃ s : FdSt ℚ,
    (fdJacobian { exGrp with uslices := [("p.x", (0, 2)), ("c.y", (2, 1))], run := fun s => .ok s } ["c.x"] ["c.y"] ["p.x"] s).map
      (fdBlock · "p.x" "c.x") = .ok (some [[1]]) :=
  ⟨⟨fun _ => 1, fun _ => 1, fun _ => 0⟩, by decide +kernel⟩

/-- A negative step size with relative steps divides by zero at a zero input, because the lower bound on the step is on the signed
value. -/
theorem finding_negative_relative_step : ∃ s : FdSt ℚ,
    (fdJacobian { exFd with overrides := [], defaults := (-1/1000, true, .forward) } ["x"] ["y"] [] s).map (fdBlock · "y" "x") =
      .error .ZeroDivisionError :=
  ⟨⟨fun _ => 0, fun _ => 0, fun _ => 0⟩, by decide +kernel⟩

/-- Root group with two design variables, for two parallel differences. -/
def exPar : FdEnv ℚ :=
  { exGrp with
    run := fun s => .ok { s with u := fun k => if k = 2 then 2 * s.u 0 + 5 * s.u 1 else s.u k }
    conns := [("c.x", "p.x"), ("c.z", "q.z")], pslices := [("c.x", (0, 1)), ("c.z", (1, 1))]
    uslices := [("p.x", (0, 1)), ("q.z", (1, 1)), ("c.y", (2, 1))], npar := 2 }

def exParVars : List (FdVar ℚ) :=
  [⟨"c.x", .unknowns, 0, 1, some "p.x", 1/1000, false, .forward⟩, ⟨"c.z", .unknowns, 1, 1, some "q.z", 1/1000, false, .forward⟩]

example : ["c.x", "c.z"].mapM (fdVar exPar) = .ok exParVars := by decide +kernel

/-- Non-trivial instance of `C36_merged_partial`: two differences on three ranks. -/
example : FdOk exPar (fun _ => False) (fun k => k ≠ 2) (fun s k => if k = 2 then 2 * s.u 0 + 5 * s.u 1 else s.u k)
    ["c.y"] [] exParVars ∧ fdColors 2 3 = .ok [0, 0, 1] := by
  refine ⟨⟨rfl, ⟨?_, ?_⟩, by simp [exParVars], ?_, ?_, by simp⟩, by decide⟩
  · intro s
    refine ⟨_, rfl, rfl, by simp, ?_⟩
    intro k hk
    simp [hk]
  · intro s t h
    funext k
    by_cases hk : k = 2
    · simp [hk, h.2 0 (by decide), h.2 1 (by decide)]
    · simp [hk, h.2 k hk]
  · intro v hv
    simp only [exParVars, List.mem_cons, List.not_mem_nil, or_false] at hv
    rcases hv with rfl | rfl <;> refine ⟨by norm_num, ?_⟩ <;> intro i hi <;>
      simp [fdIdxs, exPar, exGrp] at hi <;> subst hi <;> decide
  · intro u hu
    simp only [List.mem_singleton] at hu
    subst hu
    refine ⟨2, 1, by decide, by intro l hl; simp [exPar, exGrp] at hl, ?_⟩
    intro _ k hk
    have : k = 2 := by
      have : rowsOf exPar "c.y" = [2] := by decide
      rw [this] at hk
      simpa using hk
    simp [this]

/-- Both ranks obtain `dy/dx = 2` and `dy/dz = 5`. -/
example : ∀ rank ∈ [0, 1], (fdParallel exPar [0, 1] rank ["c.y"] [] exParVars ⟨fun _ => 1, fun k => if k = 2 then 7 else 1, fun _ => 0⟩).map
    (fun L => (fdBlock L "c.y" "c.x", fdBlock L "c.y" "c.z")) = .ok (some [[2]], some [[5]]) := by decide +kernel

/-- **C36 is false for an unknown that is itself a perturbed input**: the identity entries are not among the gathered columns, so a rank
that did not perturb `q.z` keeps a zero for d(q.z)/d(q.z). -/
theorem C36_pass_refuted : ∃ s : FdSt ℚ,
    (fdLocal { exPar with npar := 1 } ["c.y"] ["q.z"] exParVars s).map (fdBlock · "q.z" "c.z") = .ok (some [[1]]) ∧
    (fdParallel exPar [0, 1] 0 ["c.y"] ["q.z"] exParVars s).map (fdBlock · "q.z" "c.z") = .ok (some [[0]]) :=
  ⟨⟨fun _ => 1, fun k => if k = 2 then 7 else 1, fun _ => 0⟩, by decide +kernel, by decide +kernel⟩

/-- **C36 is false with fewer ranks than parallel differences**: nobody computes the second column and the derivative stays 0 without
an error. (`Problem.setup` checks the number of processes of the whole model, but a group may still be given fewer, see C51.) -/
theorem C36_few_ranks_refuted : ∃ s : FdSt ℚ, fdColors 2 1 = .ok [0] ∧
    (fdLocal { exPar with npar := 1 } ["c.y"] [] exParVars s).map (fdBlock · "c.y" "c.z") = .ok (some [[5]]) ∧
    (fdParallel exPar [0] 0 ["c.y"] [] exParVars s).map (fdBlock · "c.y" "c.z") = .ok (some [[0]]) :=
  ⟨⟨fun _ => 1, fun k => if k = 2 then 7 else 1, fun _ => 0⟩, by decide, by decide +kernel, by decide +kernel⟩

end OpenMDAO
