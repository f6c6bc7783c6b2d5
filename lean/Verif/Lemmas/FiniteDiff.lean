import Verif.Spec.FiniteDiff
import Verif.Lemmas.Totals
import Mathlib.Tactic.FieldSimp
import Mathlib.Tactic.Linarith
/-! Helper lemmas for C35 and C36. -/
namespace OpenMDAO

set_option linter.unusedSectionVars false

/-- Like `foldlM_ok`, but the step knows where in the list it is. -/
theorem foldlM_prefix {σ β : Type} (f : σ → β → Except PyErr σ) (l : List β) (P : List β → σ → Prop)
    (h : ∀ pre x post s, l = pre ++ x :: post → P pre s → ∃ s', f s x = .ok s' ∧ P (pre ++ [x]) s') :
    ∀ s, P [] s → ∃ s', l.foldlM f s = .ok s' ∧ P l s' := by
  have gen : ∀ (l2 pre : List β) (s : σ), l = pre ++ l2 → P pre s → ∃ s', l2.foldlM f s = .ok s' ∧ P l s' := by
    intro l2
    induction l2 with
    | nil => intro pre s hl hp; refine ⟨s, rfl, ?_⟩; rw [hl]; simpa using hp
    | cons x l2 ih =>
      intro pre s hl hp
      obtain ⟨s1, h1, h2⟩ := h pre x l2 s hl hp
      obtain ⟨s2, h3, h4⟩ := ih (pre ++ [x]) s1 (by simpa using hl) h2
      refine ⟨s2, ?_, h4⟩
      rw [List.foldlM_cons, h1]
      exact h3
  intro s hs
  exact gen l [] s rfl hs

variable {K : Type} [Field K] [LinearOrder K] [IsStrictOrderedRing K]

theorem AgreeIn.trans {inP inU : Nat → Prop} {s t w : FdSt K} (h1 : AgreeIn inP inU s t) (h2 : AgreeIn inP inU t w) :
    AgreeIn inP inU s w :=
  ⟨fun k hk => (h1.1 k hk).trans (h2.1 k hk), fun k hk => (h1.2 k hk).trans (h2.2 k hk)⟩

theorem AgreeIn.refl {inP inU : Nat → Prop} (s : FdSt K) : AgreeIn inP inU s s := ⟨fun _ _ => rfl, fun _ _ => rfl⟩

theorem AgreeIn.shift {inP inU : Nat → Prop} {s t : FdSt K} (h : AgreeIn inP inU s t) (sel : FdSel) (pos : Nat) (d : K) :
    AgreeIn inP inU (s.shift sel pos d) (t.shift sel pos d) := by
  cases sel with
  | params =>
    refine ⟨?_, h.2⟩
    intro k hk
    show (if k = pos then id (s.p k + d) else s.p k) = (if k = pos then id (t.p k + d) else t.p k)
    rw [h.1 k hk]
  | unknowns =>
    refine ⟨h.1, ?_⟩
    intro k hk
    show (if k = pos then id (s.u k + d) else s.u k) = (if k = pos then id (t.u k + d) else t.u k)
    rw [h.2 k hk]

theorem shift_neg (s : FdSt K) (sel : FdSel) (pos : Nat) (d : K) : (s.shift sel pos d).shift sel pos (-d) = s := by
  cases sel <;> simp only [FdSt.shift, FdSt.bump, id] <;> congr <;> funext k <;> split <;> simp

theorem shift_neg' (s : FdSt K) (sel : FdSel) (pos : Nat) (d : K) : (s.shift sel pos (-d)).shift sel pos d = s := by
  have := shift_neg s sel pos (-d)
  rwa [neg_neg] at this

/-- A shift changes the result vector only where the shifted variable is part of it. -/
theorem shift_res (s : FdSt K) (sel : FdSel) (pos : Nat) (d : K) (total : Bool) (k : Nat)
    (h : total = true → sel = .unknowns → k ≠ pos) : (s.shift sel pos d).res total k = s.res total k := by
  cases sel <;> cases total <;> simp only [FdSt.shift, FdSt.bump, FdSt.res, id] <;> simp
  intro hk
  exact absurd hk (h rfl rfl)

theorem setRes_res (s : FdSt K) (total : Bool) (v : Nat → K) : (s.setRes total v).res total = v := by
  cases total <;> rfl

/-- Writing the original result vector brings a state whose inputs agree up to the result vector back to agreement. -/
theorem setRes_agree {inP inU : Nat → Prop} (s s0 : FdSt K) (total : Bool)
    (hp : ∀ k, inP k → s.p k = s0.p k) (hu : total = false → ∀ k, inU k → s.u k = s0.u k) :
    AgreeIn inP inU (s.setRes total (s0.res total)) s0 := by
  cases total with
  | true => exact ⟨hp, fun _ _ => rfl⟩
  | false => exact ⟨hp, hu rfl⟩

theorem setRes_agree' {inP inU : Nat → Prop} (s s0 : FdSt K) (total : Bool) (h : AgreeIn inP inU s s0) :
    AgreeIn inP inU (s.setRes total (s0.res total)) s0 := setRes_agree s s0 total h.1 (fun _ => h.2)

theorem shift_p (s : FdSt K) (sel : FdSel) (pos : Nat) (d : K) (v : Nat → K) (total : Bool) :
    ((s.setRes total v).shift sel pos d).p = (s.shift sel pos d).p := by
  cases sel <;> cases total <;> rfl

theorem shift_u (s : FdSt K) (sel : FdSel) (pos : Nat) (d : K) (v : Nat → K) :
    ((s.setRes false v).shift sel pos d).u = (s.shift sel pos d).u := by
  cases sel <;> rfl

/-- One difference: the result vector holds the difference quotient; after writing the old result vector back all inputs are as before. -/
theorem fdDiff_spec (E : FdEnv K) (inP inU : Nat → Prop) (G : FdSt K → Nat → K) (hE : E.rnd = id) (hM : FdModel E inP inU G)
    (v : FdVar K) (s0 s : FdSt K) (hs : AgreeIn inP inU s s0) (pos : Nat) (step : K) (hstep : step ≠ 0) :
    ∃ s1, fdDiff E v (s0.res E.total) pos step s = .ok s1 ∧
      (∀ k, (E.total = true → v.sel = .unknowns → k ≠ pos) →
        s1.res E.total k = diffQuot v.form G s0 (s0.res E.total) v.sel pos step k) ∧
      AgreeIn inP inU (s1.setRes E.total (s0.res E.total)) s0 := by
  have hb : ∀ (t : FdSt K) d, t.bump E.rnd v.sel pos d = t.shift v.sel pos d := by intro t d; rw [hE]; rfl
  have hG : ∀ t d, AgreeIn inP inU t s0 → G (t.shift v.sel pos d) = G (s0.shift v.sel pos d) :=
    fun t d ht => hM.reads _ _ (ht.shift v.sel pos d)
  unfold fdDiff
  simp only [hb]
  cases hf : v.form with
  | forward =>
    obtain ⟨s1, h1, h2, h3⟩ := hM.runs (s.shift v.sel pos step)
    simp only [h1, if_neg hstep]
    have hag : AgreeIn inP inU (s1.shift v.sel pos (-step)) s0 := by
      have := h3.shift v.sel pos (-step)
      rw [shift_neg] at this
      exact this.trans hs
    refine ⟨_, rfl, ?_, ?_⟩
    · intro k hk
      unfold fdScale
      rw [setRes_res, shift_res _ _ _ _ _ _ hk, h2, hG s step hs, hE]
      simp only [id, diffQuot]
      field_simp
    · unfold fdScale
      apply setRes_agree
      · intro k hk
        rw [← hag.1 k hk]
        cases E.total <;> rfl
      · intro ht k hk
        rw [← hag.2 k hk, ht]
        rfl
  | backward =>
    obtain ⟨s1, h1, h2, h3⟩ := hM.runs (s.shift v.sel pos (-step))
    simp only [h1, if_neg hstep]
    have hag : AgreeIn inP inU (s1.shift v.sel pos step) s0 := by
      have := h3.shift v.sel pos step
      rw [shift_neg'] at this
      exact this.trans hs
    refine ⟨_, rfl, ?_, ?_⟩
    · intro k hk
      unfold fdScale
      rw [setRes_res, shift_res _ _ _ _ _ _ hk, h2, hG s (-step) hs, hE]
      simp only [id, diffQuot]
      field_simp
      ring
    · unfold fdScale
      apply setRes_agree
      · intro k hk
        rw [← hag.1 k hk]
        cases E.total <;> rfl
      · intro ht k hk
        rw [← hag.2 k hk, ht]
        rfl
  | central =>
    obtain ⟨s1, h1, h2, h3⟩ := hM.runs (s.shift v.sel pos step)
    simp only [h1]
    have hag : AgreeIn inP inU (s1.shift v.sel pos (-step)) s0 := by
      have := h3.shift v.sel pos (-step)
      rw [shift_neg] at this
      exact this.trans hs
    have hag2 := setRes_agree' _ _ E.total hag
    obtain ⟨s2, h4, h5, h6⟩ := hM.runs (((s1.shift v.sel pos (-step)).setRes E.total (s0.res E.total)).shift v.sel pos (-step))
    simp only [h4, if_neg hstep]
    have hag3 : AgreeIn inP inU (s2.shift v.sel pos step) s0 := by
      have := h6.shift v.sel pos step
      rw [shift_neg'] at this
      exact this.trans hag2
    refine ⟨_, rfl, ?_, ?_⟩
    · intro k hk
      rw [shift_res _ _ _ _ _ _ hk]
      unfold fdScale
      rw [setRes_res, h5, hG _ (-step) hag2, h2, hG s step hs, hE]
      simp only [id, diffQuot]
      field_simp
      ring
    · unfold fdScale
      apply setRes_agree
      · intro k hk
        rw [shift_p]
        exact hag3.1 k hk
      · intro ht k hk
        rw [ht, shift_u]
        exact hag3.2 k hk

theorem stepSize_spec (E : FdEnv K) (hE : E.rnd = id) (v : FdVar K) (x : K) : fdStepSize E v x = stepFor v x := by
  unfold fdStepSize stepFor
  rw [hE]
  simp only [id]
  cases v.relative with
  | false => rfl
  | true =>
    simp only [if_true]
    by_cases h : x * v.fdstep < v.fdstep
    · rw [if_pos h, max_eq_right h.le]
    · rw [if_neg h, max_eq_left (not_lt.mp h)]

theorem stepFor_ne (v : FdVar K) (x : K) (h : 0 < v.fdstep) : stepFor v x ≠ 0 := by
  unfold stepFor
  split
  · exact ne_of_gt (lt_of_lt_of_le h (le_max_right _ _))
  · exact ne_of_gt h

theorem fdRows_spec (E : FdEnv K) (u : String) (s n : Nat) (h : E.uslices.lookup u = some (s, n))
    (hq : ∀ l, E.qoi.lookup u = some l → ∀ k ∈ l, k < n) :
    fdRows E u = .ok (rowsOf E u) ∧ fdUSize E u = .ok (rowsOf E u).length := by
  unfold fdRows fdUSize rowsOf fdSlice
  rw [h]
  cases hl : E.qoi.lookup u with
  | none => simp [Except.map]
  | some l =>
    have : l.any (fun k => decide (n ≤ k)) = false := by
      rw [List.any_eq_false]
      intro k hk
      simp only [decide_eq_true_eq, not_le]
      exact hq l hl k hk
    simp [this]

theorem setCol_full (M : TMat K) (c : Nat) (vals : List K) (hm : vals.length = M.m) (hc : c < M.n) :
    ∃ M', M.setCol 0 M.m c vals = .ok M' ∧ M'.m = M.m ∧ M'.n = M.n ∧ (∀ a b, b ≠ c → M'.a a b = M.a a b) ∧
      ∀ (a : Nat) (x : K), vals[a]? = some x → M'.a a c = x := by
  have h := setCol_fits M 0 c vals (by omega) hc
  rw [Nat.zero_add, hm] at h
  refine ⟨_, h, rfl, rfl, ?_, ?_⟩
  · intro a b hb
    exact if_neg (fun hh => hb hh.1)
  · intro a x hx
    have hlt := (List.getElem?_eq_some_iff.mp hx).1
    show (if c = c ∧ 0 ≤ a ∧ a < M.m then vals.getD (a - 0) 0 else M.a a c) = x
    rw [if_pos ⟨rfl, Nat.zero_le _, by omega⟩, Nat.sub_zero, List.getD_eq_getElem?_getD, hx]
    rfl

theorem mem_dictSet {α β : Type} [DecidableEq α] (d : List (α × β)) (k : α) (v : β) (e : α × β) (h : e ∈ dictSet d k v) :
    e ∈ d ∨ e = (k, v) := by
  induction d with
  | nil => simp only [dictSet, List.mem_singleton] at h; exact Or.inr h
  | cons x d ih =>
    obtain ⟨a, b⟩ := x
    unfold dictSet at h
    by_cases ha : a = k
    · rw [if_pos ha] at h
      rcases List.mem_cons.mp h with h | h
      · right; rw [h, ha]
      · left; simp [h]
    · rw [if_neg ha] at h
      rcases List.mem_cons.mp h with h | h
      · left; simp [h]
      · rcases ih h with h | h
        · left; simp [h]
        · exact Or.inr h

/-- Storing one column for all unknowns. -/
theorem fdStore_fold (E : FdEnv K) (p : String) (col : Nat) (fdU : List String)
    (hr : ∀ u ∈ fdU, fdRows E u = .ok (rowsOf E u)) (L : FdLoop K)
    (hL : ∀ u ∈ fdU, ∃ M, L.jac u p = some M ∧ M.m = (rowsOf E u).length ∧ col < M.n) :
    ∃ L', fdU.foldlM (fdStore E p col) L = .ok L' ∧ L'.st = L.st ∧ L'.count = L.count ∧
      (∀ u p', ¬(u ∈ fdU ∧ p' = p) → L'.jac u p' = L.jac u p') ∧
      (∀ u ∈ fdU, ∃ M M', L.jac u p = some M ∧ L'.jac u p = some M' ∧ M'.m = M.m ∧ M'.n = M.n ∧
        (∀ a b, b ≠ col → M'.a a b = M.a a b) ∧ ∀ a k, (rowsOf E u)[a]? = some k → M'.a a col = L.st.res E.total k) ∧
      (∀ key, ¬(∃ u ∈ fdU, key = (u, p, col)) → L'.cols.lookup key = L.cols.lookup key) ∧
      (∀ u ∈ fdU, L'.cols.lookup (u, p, col) = some ((rowsOf E u).map (L.st.res E.total))) ∧
      ∀ kv ∈ L'.cols, kv ∈ L.cols ∨ ∃ u ∈ fdU, kv = ((u, p, col), (rowsOf E u).map (L.st.res E.total)) := by
  obtain ⟨L', h1, h2⟩ := foldlM_prefix (fdStore E p col) fdU
    (fun pre L' => L'.st = L.st ∧ L'.count = L.count ∧
      (∀ u p', ¬(u ∈ pre ∧ p' = p) → L'.jac u p' = L.jac u p') ∧
      (∀ u ∈ pre, ∃ M M', L.jac u p = some M ∧ L'.jac u p = some M' ∧ M'.m = M.m ∧ M'.n = M.n ∧
        (∀ a b, b ≠ col → M'.a a b = M.a a b) ∧ ∀ a k, (rowsOf E u)[a]? = some k → M'.a a col = L.st.res E.total k) ∧
      (∀ key, ¬(∃ u ∈ pre, key = (u, p, col)) → L'.cols.lookup key = L.cols.lookup key) ∧
      (∀ u ∈ pre, L'.cols.lookup (u, p, col) = some ((rowsOf E u).map (L.st.res E.total))) ∧
      ∀ kv ∈ L'.cols, kv ∈ L.cols ∨ ∃ u ∈ pre, kv = ((u, p, col), (rowsOf E u).map (L.st.res E.total)))
    (by
      intro pre u post L1 hl hP
      obtain ⟨p1, p2, p3, p4, p5, p6, p7⟩ := hP
      have hu : u ∈ fdU := by rw [hl]; simp
      obtain ⟨M, hM, hMm, hMn⟩ := hL u hu
      have hcur : ∃ M1, L1.jac u p = some M1 ∧ M1.m = M.m ∧ M1.n = M.n ∧ ∀ a b, b ≠ col → M1.a a b = M.a a b := by
        by_cases hup : u ∈ pre
        · obtain ⟨N, N', g1, g2, g3, g4, g5, g6⟩ := p4 u hup
          rw [hM] at g1
          injection g1 with g1
          subst g1
          exact ⟨N', g2, g3, g4, g5⟩
        · exact ⟨M, (p3 u p (fun hh => hup hh.1)).trans hM, rfl, rfl, fun _ _ _ => rfl⟩
      obtain ⟨M1, hM1, hM1m, hM1n, hM1a⟩ := hcur
      obtain ⟨M2, q1, q2, q3, q4, q5⟩ := setCol_full M1 col ((rowsOf E u).map (L1.st.res E.total)) (by simp [hM1m, hMm]) (by omega)
      unfold fdStore
      rw [hr u hu, hM1]
      simp only [q1]
      refine ⟨_, rfl, p1, p2, ?_, ?_, ?_, ?_, ?_⟩
      · intro u' p' hn
        have h' : ¬(u' = u ∧ p' = p) := fun hh => hn ⟨by simp [hh.1], hh.2⟩
        have h'' : ¬(u' ∈ pre ∧ p' = p) := fun hh => hn ⟨by simp [hh.1], hh.2⟩
        show FdJac.set L1.jac u p M2 u' p' = _
        unfold FdJac.set
        rw [if_neg h']
        exact p3 u' p' h''
      · intro u' hu'
        show ∃ M M', L.jac u' p = some M ∧ FdJac.set L1.jac u p M2 u' p = some M' ∧ _
        unfold FdJac.set
        by_cases huu : u' = u
        · subst huu
          refine ⟨M, M2, hM, if_pos ⟨rfl, rfl⟩, q2.trans hM1m, q3.trans hM1n, ?_, ?_⟩
          · intro a b hb
            rw [q4 a b hb, hM1a a b hb]
          · intro a k hk
            rw [← p1]
            apply q5
            rw [List.getElem?_map, hk]
            rfl
        · rw [if_neg (fun hh => huu hh.1)]
          have : u' ∈ pre := by
            rcases List.mem_append.mp hu' with h | h
            · exact h
            · simp only [List.mem_singleton] at h; exact absurd h huu
          exact p4 u' this
      · intro key hk
        show List.lookup key (dictSet L1.cols (u, p, col) _) = _
        rw [lookup_dictSet, if_neg (fun hh => hk ⟨u, by simp, hh⟩)]
        exact p5 key (fun ⟨w, hw, he⟩ => hk ⟨w, by simp [hw], he⟩)
      · intro u' hu'
        show List.lookup (u', p, col) (dictSet L1.cols (u, p, col) _) = _
        rw [lookup_dictSet]
        by_cases huu : u' = u
        · subst huu
          rw [if_pos rfl, p1]
        · rw [if_neg (fun hh => huu (by injection hh))]
          have : u' ∈ pre := by
            rcases List.mem_append.mp hu' with h | h
            · exact h
            · simp only [List.mem_singleton] at h; exact absurd h huu
          exact p6 u' this
      · intro kv hkv
        rcases mem_dictSet _ _ _ _ hkv with hk | hk
        · rcases p7 kv hk with h' | ⟨w, hw, he⟩
          · exact Or.inl h'
          · exact Or.inr ⟨w, by simp [hw], he⟩
        · right
          exact ⟨u, by simp, by rw [hk, p1]⟩)
    L ⟨rfl, rfl, fun _ _ _ => rfl, by simp, fun _ _ => rfl, by simp, fun _ h => Or.inl h⟩
  exact ⟨L', h1, h2⟩

/-- The identity entries touch only the blocks of the pass-through unknowns. -/
theorem fdPass_fold (E : FdEnv K) (v : FdVar K) (col idx : Nat) (passU : List String) (L : FdLoop K)
    (hL : ∀ u ∈ passU, (L.jac u v.name).isSome) :
    ∃ L', passU.foldlM (fdPass E v col idx) L = .ok L' ∧ L'.st = L.st ∧ L'.count = L.count ∧ L'.cols = L.cols ∧
      (∀ u p', ¬(u ∈ passU ∧ p' = v.name) → L'.jac u p' = L.jac u p') ∧ ∀ u ∈ passU, (L'.jac u v.name).isSome := by
  have hset : ∀ (J : FdJac K) (w : String) (M : TMat K) (u p' : String), ¬(u = w ∧ p' = v.name) → J.set w v.name M u p' = J u p' :=
    fun J w M u p' hn => if_neg hn
  have hsome : ∀ (J : FdJac K) (w : String) (M : TMat K) (u : String), (J u v.name).isSome → (J.set w v.name M u v.name).isSome := by
    intro J w M u hu
    unfold FdJac.set
    split
    · rfl
    · exact hu
  obtain ⟨L', h1, h2, h3, h4, h5, h6⟩ := foldlM_prefix (fdPass E v col idx) passU
    (fun _ L' => L'.st = L.st ∧ L'.count = L.count ∧ L'.cols = L.cols ∧
      (∀ u p', ¬(u ∈ passU ∧ p' = v.name) → L'.jac u p' = L.jac u p') ∧ ∀ u ∈ passU, (L'.jac u v.name).isSome)
    (by
      intro pre w post L1 hl hP
      obtain ⟨p1, p2, p3, p4, p5⟩ := hP
      have hw : w ∈ passU := by rw [hl]; simp
      unfold fdPass
      by_cases hs : v.src = some w
      · rw [if_pos hs]
        cases hq : E.qoi.lookup w with
        | none =>
          refine ⟨_, rfl, p1, p2, p3, ?_, fun u hu => hsome _ _ _ _ (p5 u hu)⟩
          intro u p' hn
          exact (hset _ _ _ _ _ (fun hh => hn ⟨by rw [hh.1]; exact hw, hh.2⟩)).trans (p4 u p' hn)
        | some q =>
          simp only
          by_cases hi : idx ∈ q
          · rw [if_pos hi]
            obtain ⟨M, hM⟩ := Option.isSome_iff_exists.mp (p5 w hw)
            rw [hM]
            refine ⟨_, rfl, p1, p2, p3, ?_, fun u hu => hsome _ _ _ _ (p5 u hu)⟩
            intro u p' hn
            exact (hset _ _ _ _ _ (fun hh => hn ⟨by rw [hh.1]; exact hw, hh.2⟩)).trans (p4 u p' hn)
          · rw [if_neg hi]
            exact ⟨L1, rfl, p1, p2, p3, p4, p5⟩
      · rw [if_neg hs]
        exact ⟨L1, rfl, p1, p2, p3, p4, p5⟩)
    L ⟨rfl, rfl, rfl, fun _ _ _ => rfl, hL⟩
  exact ⟨L', h1, h2, h3, h4, h5, h6⟩

/-- Allocation. -/
theorem fdAlloc_fold (E : FdEnv K) (p : String) (n : Nat) (us : List String)
    (hu : ∀ u ∈ us, ∃ m, fdUSize E u = .ok m) (J : FdJac K) :
    ∃ J', us.foldlM (fdAlloc E p n) J = .ok J' ∧ (∀ u p', ¬(u ∈ us ∧ p' = p) → J' u p' = J u p') ∧
      ∀ u ∈ us, ∀ m, fdUSize E u = .ok m → J' u p = some ⟨m, n, fun _ _ => 0⟩ := by
  obtain ⟨J', h1, h2, h3⟩ := foldlM_prefix (fdAlloc E p n) us
    (fun pre J' => (∀ u p', ¬(u ∈ pre ∧ p' = p) → J' u p' = J u p') ∧
      ∀ u ∈ pre, ∀ m, fdUSize E u = .ok m → J' u p = some ⟨m, n, fun _ _ => 0⟩)
    (by
      intro pre w post J1 hl hP
      obtain ⟨m, hm⟩ := hu w (by rw [hl]; simp)
      unfold fdAlloc
      rw [hm]
      refine ⟨_, rfl, ?_, ?_⟩
      · intro u p' hn
        show FdJac.set J1 w p _ u p' = _
        unfold FdJac.set
        rw [if_neg (fun hh => hn ⟨by simp [hh.1], hh.2⟩)]
        exact hP.1 u p' (fun hh => hn ⟨by simp [hh.1], hh.2⟩)
      · intro u hu' m' hm'
        show FdJac.set J1 w p _ u p = _
        unfold FdJac.set
        by_cases huw : u = w
        · subst huw
          rw [if_pos ⟨rfl, rfl⟩]
          rw [hm] at hm'
          injection hm' with hm'
          rw [hm']
        · rw [if_neg (fun hh => huw hh.1)]
          refine hP.2 u ?_ m' hm'
          rcases List.mem_append.mp hu' with h | h
          · exact h
          · simp only [List.mem_singleton] at h; exact absurd h huw)
    J ⟨fun _ _ _ => rfl, by simp⟩
  exact ⟨J', h1, h2, h3⟩

/-! ### The loops -/

/-- Difference quotient of one requested entry. -/
def fdQuot (E : FdEnv K) (G : FdSt K → Nat → K) (s0 : FdSt K) (v : FdVar K) (i k : Nat) : K :=
  diffQuot v.form G s0 (s0.res E.total) v.sel (v.start + i) (stepFor v (s0.get v.sel (v.start + i))) k

/-- The columns in the order in which they are counted: variable, column number, index within the variable. -/
def fdTasks (E : FdEnv K) (vars : List (FdVar K)) : List (FdVar K × Nat × Nat) :=
  vars.flatMap fun v => ((List.range (fdIdxs E v).length).zip (fdIdxs E v)).map fun bi => (v, bi.1, bi.2)

/-- Column number `c` (of `v`, column `b`, index `i`) has been computed here exactly when it is this process's turn. -/
def ColDone (E : FdEnv K) (G : FdSt K → Nat → K) (s0 : FdSt K) (L : FdLoop K) (c : Nat) (u : String) (v : FdVar K) (b i : Nat) : Prop :=
  if c % E.npar = E.parId then
    L.cols.lookup (u, v.name, b) = some ((rowsOf E u).map (fdQuot E G s0 v i)) ∧
      ∃ M, L.jac u v.name = some M ∧ ∀ a k, (rowsOf E u)[a]? = some k → M.a a b = fdQuot E G s0 v i k
  else L.cols.lookup (u, v.name, b) = none

/-- Every recorded column belongs to a requested unknown and variable and holds the difference quotients. -/
def ColsSound (E : FdEnv K) (G : FdSt K → Nat → K) (s0 : FdSt K) (fdU : List String) (vars : List (FdVar K))
    (cols : List ((String × String × Nat) × List K)) : Prop :=
  ∀ kv ∈ cols, ∃ u ∈ fdU, ∃ v ∈ vars, ∃ b i, (fdIdxs E v)[b]? = some i ∧
    kv = ((u, v.name, b), (rowsOf E u).map (fdQuot E G s0 v i))

/-- Invariant between columns. -/
structure ColInv (E : FdEnv K) (inP inU : Nat → Prop) (G : FdSt K → Nat → K) (s0 : FdSt K) (fdU passU : List String) (v : FdVar K)
    (L0 L : FdLoop K) (nb : Nat) : Prop where
  agree : AgreeIn inP inU L.st s0
  res : L.st.res E.total = s0.res E.total
  count : L.count = L0.count + nb
  shape : ∀ u ∈ fdU, ∃ M, L.jac u v.name = some M ∧ M.m = (rowsOf E u).length ∧ M.n = (fdIdxs E v).length
  pass : ∀ u ∈ passU, (L.jac u v.name).isSome
  jac : ∀ u p, p ≠ v.name → L.jac u p = L0.jac u p
  cols : ∀ key : String × String × Nat, key.2.1 ≠ v.name → L.cols.lookup key = L0.cols.lookup key
  absent : ∀ u b, nb ≤ b → L.cols.lookup (u, v.name, b) = none
  sound : ∀ vars, v ∈ vars → ColsSound E G s0 fdU vars L0.cols → ColsSound E G s0 fdU vars L.cols
  done : ∀ b i, b < nb → (fdIdxs E v)[b]? = some i → ∀ u ∈ fdU, ColDone E G s0 L (L0.count + b) u v b i

theorem zip_range_split (l : List Nat) (pre post : List (Nat × Nat)) (b i : Nat)
    (h : (List.range l.length).zip l = pre ++ (b, i) :: post) : b = pre.length ∧ l[b]? = some i := by
  have h1 : ((List.range l.length).zip l)[pre.length]? = some (b, i) := by rw [h]; simp
  rw [List.getElem?_zip_eq_some] at h1
  obtain ⟨h2, h3⟩ := h1
  have hlt := (List.getElem?_eq_some_iff.mp h3).1
  rw [List.getElem?_range hlt] at h2
  injection h2 with h2
  subst h2
  exact ⟨rfl, h3⟩

theorem fdColumn_step (E : FdEnv K) (inP inU : Nat → Prop) (G : FdSt K → Nat → K) (fdU passU : List String) (vars : List (FdVar K))
    (h : FdOk E inP inU G fdU passU vars) (s0 : FdSt K) (v : FdVar K) (hv : v ∈ vars) (L0 L : FdLoop K) (b i : Nat)
    (hi : (fdIdxs E v)[b]? = some i) (hL : ColInv E inP inU G s0 fdU passU v L0 L b) :
    ∃ L', fdColumn E fdU passU (s0.res E.total) v L (b, i) = .ok L' ∧ ColInv E inP inU G s0 fdU passU v L0 L' (b + 1) := by
  have hbn : b < (fdIdxs E v).length := (List.getElem?_eq_some_iff.mp hi).1
  unfold fdColumn
  by_cases hturn : L.count % E.npar = E.parId
  · rw [if_pos hturn]
    obtain ⟨hstep0, hidx⟩ := h.vars v hv
    obtain ⟨hlt, hin⟩ := hidx i (List.mem_of_getElem? hi)
    simp only [if_neg (not_le.mpr hlt)]
    have hget : L.st.get v.sel (v.start + i) = s0.get v.sel (v.start + i) := by
      cases hsel : v.sel with
      | params => rw [hsel] at hin; exact hL.agree.1 _ hin
      | unknowns => rw [hsel] at hin; exact hL.agree.2 _ hin
    rw [stepSize_spec E h.exact, hget]
    obtain ⟨s1, d1, d2, d3⟩ := fdDiff_spec E inP inU G h.exact h.model v s0 L.st hL.agree (v.start + i)
      (stepFor v (s0.get v.sel (v.start + i))) (stepFor_ne v _ hstep0)
    rw [d1]
    have hrows : ∀ u ∈ fdU, fdRows E u = .ok (rowsOf E u) := by
      intro u hu
      obtain ⟨s, n, e1, e2, _⟩ := h.rows u hu
      exact (fdRows_spec E u s n e1 e2).1
    obtain ⟨L1, f1, f2, f3, f4, f5, f6, f7, f8⟩ := fdStore_fold E v.name b fdU hrows { L with st := s1 } (by
      intro u hu
      obtain ⟨M, m1, m2, m3⟩ := hL.shape u hu
      exact ⟨M, m1, m2, by omega⟩)
    simp only [f1]
    obtain ⟨L2, g1, g2, g3, g4, g5, g6⟩ := fdPass_fold E v b i passU L1 (by
      intro u hu
      rw [f4 u v.name (fun hh => (h.pass u hu).1 hh.1)]
      exact hL.pass u hu)
    simp only [g1]
    have hval : ∀ u ∈ fdU, ∀ k ∈ rowsOf E u, s1.res E.total k = fdQuot E G s0 v i k := by
      intro u hu k hk
      apply d2
      intro ht hsel heq
      obtain ⟨_, _, _, _, e3⟩ := h.rows u hu
      rw [hsel] at hin
      exact e3 ht k hk (by rw [heq]; exact hin)
    have hpassno : ∀ u ∈ fdU, ∀ p', L2.jac u p' = L1.jac u p' := by
      intro u hu p'
      exact g5 u p' (fun hh => (h.pass u hh.1).1 hu)
    refine ⟨_, rfl, ?_⟩
    constructor
    · show AgreeIn inP inU (L2.st.setRes E.total (s0.res E.total)) s0
      rw [g2, f2]
      exact d3
    · exact setRes_res _ _ _
    · show L2.count + 1 = _
      rw [g3, f3]
      show L.count + 1 = _
      rw [hL.count]
      omega
    · intro u hu
      obtain ⟨M, M', m1, m2, m3, m4, _⟩ := f5 u hu
      obtain ⟨N, n1, n2, n3⟩ := hL.shape u hu
      have : N = M := by
        have := n1.symm.trans m1
        injection this
      subst this
      exact ⟨M', (hpassno u hu v.name).trans m2, m3.trans n2, m4.trans n3⟩
    · exact g6
    · intro u p hp
      show L2.jac u p = _
      rw [g5 u p (fun hh => hp hh.2), f4 u p (fun hh => hp hh.2)]
      exact hL.jac u p hp
    · intro key hk
      show L2.cols.lookup key = _
      rw [g4, f6 key (fun ⟨u, _, he⟩ => hk (by rw [he]))]
      exact hL.cols key hk
    · intro u b' hb'
      show L2.cols.lookup _ = _
      rw [g4, f6 _ (fun ⟨w, _, he⟩ => by
        have : b' = b := by injection he with _ he; injection he
        omega)]
      exact hL.absent u b' (by omega)
    · intro vars' hv' h0 kv hkv
      have hkv : kv ∈ L2.cols := hkv
      rw [g4] at hkv
      rcases f8 kv hkv with hk | ⟨u, hu, he⟩
      · exact hL.sound vars' hv' h0 kv hk
      · refine ⟨u, hu, v, hv', b, i, hi, ?_⟩
        rw [he]
        congr 1
        exact List.map_congr_left (fun k hk => hval u hu k hk)
    · intro b' i' hb' hi' u hu
      obtain ⟨M, M', m1, m2, m3, m4, m5, m6⟩ := f5 u hu
      unfold ColDone
      show if _ then L2.cols.lookup _ = _ ∧ ∃ M, L2.jac u v.name = some M ∧ _ else L2.cols.lookup _ = _
      rw [g4, hpassno u hu]
      by_cases hbb : b' = b
      · subst hbb
        rw [hi] at hi'
        injection hi' with hi'
        subst hi'
        rw [if_pos (by rw [← hL.count]; exact hturn), f7 u hu]
        refine ⟨?_, M', m2, ?_⟩
        · congr 1
          exact List.map_congr_left (fun k hk => hval u hu k hk)
        · intro a k hk
          rw [m6 a k hk]
          exact hval u hu k (List.mem_of_getElem? hk)
      · rw [f6 _ (fun ⟨w, _, he⟩ => hbb (by injection he with _ he; injection he))]
        have hold := hL.done b' i' (by omega) hi' u hu
        unfold ColDone at hold
        by_cases ht : (L0.count + b') % E.npar = E.parId
        · rw [if_pos ht] at hold ⊢
          refine ⟨hold.1, M', m2, ?_⟩
          obtain ⟨N, n1, n2⟩ := hold.2
          have : N = M := by
            have := n1.symm.trans m1
            injection this
          subst this
          intro a k hk
          rw [m5 a b' hbb, n2 a k hk]
        · rw [if_neg ht] at hold ⊢
          exact hold
  · rw [if_neg hturn]
    refine ⟨_, rfl, ?_⟩
    refine ⟨hL.agree, hL.res, ?_, hL.shape, hL.pass, hL.jac, hL.cols, fun u b' hb' => hL.absent u b' (by omega), hL.sound, ?_⟩
    · show L.count + 1 = _
      rw [hL.count]
      omega
    · intro b' i' hb' hi' u hu
      by_cases hbb : b' = b
      · subst hbb
        unfold ColDone
        rw [if_neg (by rw [← hL.count]; exact hturn)]
        exact hL.absent u b' (le_refl _)
      · exact hL.done b' i' (by omega) hi' u hu

/-- Invariant between variables. -/
structure VarInv (E : FdEnv K) (inP inU : Nat → Prop) (G : FdSt K → Nat → K) (s0 : FdSt K) (fdU : List String)
    (pre : List (FdVar K)) (L : FdLoop K) : Prop where
  agree : AgreeIn inP inU L.st s0
  res : L.st.res E.total = s0.res E.total
  count : L.count = (fdTasks E pre).length
  shape : ∀ v ∈ pre, ∀ u ∈ fdU, ∃ M, L.jac u v.name = some M ∧ M.m = (rowsOf E u).length ∧ M.n = (fdIdxs E v).length
  absent : ∀ key : String × String × Nat, key.2.1 ∉ pre.map (·.name) → L.cols.lookup key = none
  sound : ColsSound E G s0 fdU pre L.cols
  done : ∀ (c : Nat) (v : FdVar K) (b i : Nat), (fdTasks E pre)[c]? = some (v, b, i) → ∀ u ∈ fdU, ColDone E G s0 L c u v b i

theorem fdTasks_append (E : FdEnv K) (pre : List (FdVar K)) (v : FdVar K) :
    fdTasks E (pre ++ [v]) = fdTasks E pre ++ ((List.range (fdIdxs E v).length).zip (fdIdxs E v)).map fun bi => (v, bi.1, bi.2) := by
  simp [fdTasks]

theorem mem_fdTasks (E : FdEnv K) (vars : List (FdVar K)) (v : FdVar K) (b i : Nat) :
    (v, b, i) ∈ fdTasks E vars ↔ v ∈ vars ∧ (fdIdxs E v)[b]? = some i := by
  have henum : ∀ (l : List Nat), (b, i) ∈ (List.range l.length).zip l ↔ l[b]? = some i := by
    intro l
    rw [List.mem_iff_getElem?]
    constructor
    · rintro ⟨k, hk⟩
      rw [List.getElem?_zip_eq_some] at hk
      obtain ⟨h1, h2⟩ := hk
      rw [List.getElem?_range (List.getElem?_eq_some_iff.mp h2).1] at h1
      injection h1 with h1
      subst h1
      exact h2
    · intro h
      refine ⟨b, ?_⟩
      rw [List.getElem?_zip_eq_some]
      exact ⟨List.getElem?_range (List.getElem?_eq_some_iff.mp h).1, h⟩
  unfold fdTasks
  rw [List.mem_flatMap]
  constructor
  · rintro ⟨w, hw, hm⟩
    rw [List.mem_map] at hm
    obtain ⟨⟨b', i'⟩, h1, h2⟩ := hm
    injection h2 with e1 e2
    injection e2 with e2 e3
    subst e1
    simp only at e2 e3
    subst e2 e3
    exact ⟨hw, (henum _).mp h1⟩
  · rintro ⟨hv, hi⟩
    exact ⟨v, hv, List.mem_map.mpr ⟨(b, i), (henum _).mpr hi, rfl⟩⟩

theorem fdVarLoop_step (E : FdEnv K) (inP inU : Nat → Prop) (G : FdSt K → Nat → K) (fdU passU : List String) (vars : List (FdVar K))
    (h : FdOk E inP inU G fdU passU vars) (s0 : FdSt K) (pre post : List (FdVar K)) (v : FdVar K) (hvars : vars = pre ++ v :: post)
    (L : FdLoop K) (hL : VarInv E inP inU G s0 fdU pre L) :
    ∃ L', fdVarLoop E fdU passU (s0.res E.total) L v = .ok L' ∧ VarInv E inP inU G s0 fdU (pre ++ [v]) L' := by
  have hv : v ∈ vars := by rw [hvars]; simp
  have hfresh : v.name ∉ pre.map (·.name) := by
    have := h.names
    rw [hvars, List.map_append, List.nodup_append] at this
    intro hm
    exact this.2.2 _ hm _ (by simp) rfl
  have hsz : ∀ u ∈ fdU ++ passU, ∃ m, fdUSize E u = .ok m := by
    intro u hu
    rcases List.mem_append.mp hu with hu | hu
    · obtain ⟨s, n, e1, e2, _⟩ := h.rows u hu
      exact ⟨_, (fdRows_spec E u s n e1 e2).2⟩
    · obtain ⟨_, s, n, e1⟩ := h.pass u hu
      unfold fdUSize fdSlice
      rw [e1]
      cases E.qoi.lookup u with
      | none => exact ⟨_, rfl⟩
      | some l => exact ⟨_, rfl⟩
  obtain ⟨J, a1, a2, a3⟩ := fdAlloc_fold E v.name (fdIdxs E v).length (fdU ++ passU) hsz L.jac
  unfold fdVarLoop
  rw [a1]
  simp only
  obtain ⟨L', c1, c2⟩ := foldlM_prefix (fdColumn E fdU passU (s0.res E.total) v)
    ((List.range (fdIdxs E v).length).zip (fdIdxs E v))
    (fun done L1 => ColInv E inP inU G s0 fdU passU v { L with jac := J } L1 done.length)
    (by
      rintro done ⟨b, i⟩ post' L1 hl hP
      obtain ⟨hb, hi⟩ := zip_range_split _ _ _ _ _ hl
      rw [← hb] at hP
      obtain ⟨L2, g1, g2⟩ := fdColumn_step E inP inU G fdU passU vars h s0 v hv { L with jac := J } L1 b i hi hP
      refine ⟨L2, g1, ?_⟩
      rw [List.length_append, ← hb]
      exact g2)
    { L with jac := J }
    (by
      refine ⟨hL.agree, hL.res, rfl, ?_, ?_, fun _ _ _ => rfl, fun _ _ => rfl, ?_, fun _ _ h => h, ?_⟩
      · intro u hu
        obtain ⟨s, n, e1, e2, _⟩ := h.rows u hu
        exact ⟨_, a3 u (by simp [hu]) _ (fdRows_spec E u s n e1 e2).2, rfl, rfl⟩
      · intro u hu
        obtain ⟨m, hm⟩ := hsz u (by simp [hu])
        show (J u v.name).isSome
        rw [a3 u (by simp [hu]) m hm]
        rfl
      · intro u b _
        exact hL.absent _ hfresh
      · intro b i hb
        simp at hb)
  have hlen : ((List.range (fdIdxs E v).length).zip (fdIdxs E v)).length = (fdIdxs E v).length := by simp
  rw [hlen] at c2
  refine ⟨L', c1, ?_⟩
  refine ⟨c2.agree, c2.res, ?_, ?_, ?_, ?_, ?_⟩
  · rw [c2.count, fdTasks_append, List.length_append, List.length_map, hlen]
    show L.count + _ = _
    rw [hL.count]
  · intro w hw u hu
    rcases List.mem_append.mp hw with hw | hw
    · have hne : w.name ≠ v.name := fun he => hfresh (by rw [← he]; exact List.mem_map.mpr ⟨w, hw, rfl⟩)
      rw [c2.jac u w.name hne]
      show ∃ M, J u w.name = some M ∧ _
      rw [a2 u w.name (fun hh => hne hh.2)]
      exact hL.shape w hw u hu
    · simp only [List.mem_singleton] at hw
      subst hw
      exact c2.shape u hu
  · intro key hk
    rw [c2.cols key (fun he => hk (by rw [he]; simp))]
    exact hL.absent key (fun hh => hk (by rw [List.map_append, List.mem_append]; exact Or.inl hh))
  · apply c2.sound (pre ++ [v]) (by simp)
    intro kv hkv
    obtain ⟨u, hu, w, hw, b, i, e1, e2⟩ := hL.sound kv hkv
    exact ⟨u, hu, w, by simp [hw], b, i, e1, e2⟩
  · intro c w b i hc u hu
    rw [fdTasks_append] at hc
    by_cases hlt : c < (fdTasks E pre).length
    · rw [List.getElem?_append_left hlt] at hc
      have hold := hL.done c w b i hc u hu
      have hw : w ∈ pre := ((mem_fdTasks E pre w b i).mp (List.mem_of_getElem? hc)).1
      have hne : w.name ≠ v.name := fun he => hfresh (by rw [← he]; exact List.mem_map.mpr ⟨w, hw, rfl⟩)
      unfold ColDone at hold ⊢
      rw [c2.cols _ hne, c2.jac u w.name hne]
      show if _ then L.cols.lookup _ = _ ∧ ∃ M, J u w.name = some M ∧ _ else _
      rw [a2 u w.name (fun hh => hne hh.2)]
      exact hold
    · rw [List.getElem?_append_right (by omega), List.getElem?_map] at hc
      cases hz : ((List.range (fdIdxs E v).length).zip (fdIdxs E v))[c - (fdTasks E pre).length]? with
      | none => rw [hz] at hc; cases hc
      | some bi =>
        rw [hz] at hc
        simp only [Option.map_some, Option.some.injEq, Prod.mk.injEq] at hc
        obtain ⟨e1, e2, e3⟩ := hc
        subst e1
        rw [List.getElem?_zip_eq_some] at hz
        obtain ⟨z1, z2⟩ := hz
        have zlt := (List.getElem?_eq_some_iff.mp z2).1
        rw [List.getElem?_range zlt] at z1
        injection z1 with z1
        rw [e2] at z1
        rw [e3, z1] at z2
        rw [z1] at zlt
        have := c2.done b i zlt z2 u hu
        have hcc : ({ L with jac := J } : FdLoop K).count + b = c := by
          show L.count + b = c
          rw [hL.count]
          omega
        rw [hcc] at this
        exact this

/-- The local part of `fd_jacobian`. -/
theorem fdLocal_spec (E : FdEnv K) (inP inU : Nat → Prop) (G : FdSt K → Nat → K) (fdU passU : List String) (vars : List (FdVar K))
    (h : FdOk E inP inU G fdU passU vars) (s0 : FdSt K) :
    ∃ L, fdLocal E fdU passU vars s0 = .ok L ∧ VarInv E inP inU G s0 fdU vars L := by
  unfold fdLocal
  exact foldlM_prefix _ vars (VarInv E inP inU G s0 fdU)
    (fun pre v post L hl hP => fdVarLoop_step E inP inU G fdU passU vars h s0 pre post v hl L hP) _
    ⟨AgreeIn.refl _, rfl, rfl, by simp, fun _ _ => rfl, by intro kv hkv; simp at hkv,
      by intro c v b i hc; simp [fdTasks] at hc⟩

/-! ### Merging -/

/-- Invariant of the merge. -/
structure MergeInv (E : FdEnv K) (G : FdSt K → Nat → K) (s0 : FdSt K) (fdU : List String) (vars : List (FdVar K))
    (L0 L : FdLoop K) : Prop where
  shape : ∀ v ∈ vars, ∀ u ∈ fdU, ∃ M, L.jac u v.name = some M ∧ M.m = (rowsOf E u).length ∧ M.n = (fdIdxs E v).length
  st : L.st = L0.st
  mono : ∀ key, (L0.cols.lookup key).isSome → (L.cols.lookup key).isSome
  cells : ∀ v ∈ vars, ∀ u ∈ fdU, ∀ b i, (fdIdxs E v)[b]? = some i → (L.cols.lookup (u, v.name, b)).isSome →
    ∃ M, L.jac u v.name = some M ∧ ∀ a k, (rowsOf E u)[a]? = some k → M.a a b = fdQuot E G s0 v i k

theorem eq_of_name {vars : List (FdVar K)} (hn : (vars.map (·.name)).Nodup) {v w : FdVar K} (hv : v ∈ vars) (hw : w ∈ vars)
    (h : v.name = w.name) : v = w := List.inj_on_of_nodup_map hn hv hw h

theorem fdMergeCol_step (E : FdEnv K) (G : FdSt K → Nat → K) (s0 : FdSt K) (fdU : List String) (vars : List (FdVar K))
    (hn : (vars.map (·.name)).Nodup) (L0 L : FdLoop K) (hL : MergeInv E G s0 fdU vars L0 L)
    (kv : (String × String × Nat) × List K)
    (hkv : ∃ u ∈ fdU, ∃ v ∈ vars, ∃ b i, (fdIdxs E v)[b]? = some i ∧ kv = ((u, v.name, b), (rowsOf E u).map (fdQuot E G s0 v i))) :
    ∃ L', fdMergeCol L kv = .ok L' ∧ MergeInv E G s0 fdU vars L0 L' ∧ (L'.cols.lookup kv.1).isSome ∧
      ∀ key, (L.cols.lookup key).isSome → (L'.cols.lookup key).isSome := by
  obtain ⟨u, hu, v, hv, b, i, hi, rfl⟩ := hkv
  unfold fdMergeCol
  by_cases hs : (L.cols.lookup (u, v.name, b)).isSome
  · simp only [if_pos hs]
    exact ⟨L, rfl, hL, hs, fun _ h => h⟩
  · simp only [if_neg hs]
    obtain ⟨M, m1, m2, m3⟩ := hL.shape v hv u hu
    have hb := (List.getElem?_eq_some_iff.mp hi).1
    obtain ⟨M', q1, q2, q3, q4, q5⟩ := setCol_full M b ((rowsOf E u).map (fdQuot E G s0 v i)) (by simp [m2]) (by omega)
    rw [m1]
    simp only [q1]
    have hmono : ∀ key, (L.cols.lookup key).isSome →
        ((dictSet L.cols (u, v.name, b) ((rowsOf E u).map (fdQuot E G s0 v i))).lookup key).isSome := by
      intro key hk
      rw [lookup_dictSet]
      split
      · rfl
      · exact hk
    refine ⟨_, rfl, ⟨?_, hL.st, fun key hk => hmono key (hL.mono key hk), ?_⟩, ?_, hmono⟩
    · intro w hw u' hu'
      show ∃ N, FdJac.set L.jac u v.name M' u' w.name = some N ∧ _
      unfold FdJac.set
      by_cases hh : u' = u ∧ w.name = v.name
      · rw [if_pos hh]
        have hwv := eq_of_name hn hw hv hh.2
        obtain ⟨rfl, _⟩ := hh
        subst hwv
        exact ⟨M', rfl, q2.trans m2, q3.trans m3⟩
      · rw [if_neg hh]
        exact hL.shape w hw u' hu'
    · intro w hw u' hu' b' i' hi' hsome
      show ∃ N, FdJac.set L.jac u v.name M' u' w.name = some N ∧ _
      unfold FdJac.set
      have hsome : (List.lookup (u', w.name, b') (dictSet L.cols (u, v.name, b) _)).isSome := hsome
      rw [lookup_dictSet] at hsome
      by_cases hh : u' = u ∧ w.name = v.name
      · rw [if_pos hh]
        have hwv := eq_of_name hn hw hv hh.2
        obtain ⟨rfl, _⟩ := hh
        subst hwv
        refine ⟨M', rfl, ?_⟩
        intro a k hk
        by_cases hbb : b' = b
        · subst hbb
          rw [hi] at hi'
          injection hi' with hi'
          subst hi'
          apply q5
          rw [List.getElem?_map, hk]
          rfl
        · rw [if_neg (fun he => hbb (by injection he with _ he; injection he))] at hsome
          obtain ⟨N, n1, n2⟩ := hL.cells w hw u' hu' b' i' hi' hsome
          rw [m1] at n1
          injection n1 with n1
          subst n1
          rw [q4 a b' hbb]
          exact n2 a k hk
      · rw [if_neg hh]
        rw [if_neg (fun he => hh (by injection he with e1 e2; injection e2 with e2 _; exact ⟨e1, e2⟩))] at hsome
        exact hL.cells w hw u' hu' b' i' hi' hsome
    · show (List.lookup (u, v.name, b) (dictSet L.cols (u, v.name, b) _)).isSome
      rw [lookup_dictSet, if_pos rfl]
      rfl

/-- Merging sound column sets: everything received is present afterwards. -/
theorem fdMerge_spec (E : FdEnv K) (G : FdSt K → Nat → K) (s0 : FdSt K) (fdU : List String) (vars : List (FdVar K))
    (hn : (vars.map (·.name)).Nodup) (own : FdLoop K) (hown : MergeInv E G s0 fdU vars own own)
    (others : List (List ((String × String × Nat) × List K))) (ho : ∀ cols ∈ others, ColsSound E G s0 fdU vars cols) :
    ∃ L, fdMerge own others = .ok L ∧ MergeInv E G s0 fdU vars own L ∧
      ∀ cols ∈ others, ∀ kv ∈ cols, (L.cols.lookup kv.1).isSome := by
  unfold fdMerge
  exact foldlM_prefix _ others
    (fun pre L => MergeInv E G s0 fdU vars own L ∧ ∀ cols ∈ pre, ∀ kv ∈ cols, (L.cols.lookup kv.1).isSome)
    (by
      rintro pre cols post L hl ⟨hP1, hP2⟩
      obtain ⟨L', l1, l2, l3, l4⟩ := foldlM_prefix fdMergeCol cols
        (fun pre' L' => MergeInv E G s0 fdU vars own L' ∧ (∀ kv ∈ pre', (L'.cols.lookup kv.1).isSome) ∧
          ∀ key, (L.cols.lookup key).isSome → (L'.cols.lookup key).isSome)
        (by
          rintro pre' kv post' L1 hl' ⟨i1, i2, i3⟩
          obtain ⟨L2, g1, g2, g3, g4⟩ := fdMergeCol_step E G s0 fdU vars hn own L1 i1 kv
            (ho cols (by rw [hl]; simp) kv (by rw [hl']; simp))
          refine ⟨L2, g1, g2, ?_, fun key hk => g4 key (i3 key hk)⟩
          intro kv' hkv'
          rcases List.mem_append.mp hkv' with h | h
          · exact g4 _ (i2 kv' h)
          · simp only [List.mem_singleton] at h
            subst h
            exact g3)
        L ⟨hP1, by simp, fun _ h => h⟩
      refine ⟨L', l1, l2, ?_⟩
      intro cols' hc' kv hkv
      rcases List.mem_append.mp hc' with h | h
      · exact l4 _ (hP2 cols' h kv hkv)
      · simp only [List.mem_singleton] at h
        subst h
        exact l3 kv hkv)
    own ⟨hown, by simp⟩

end OpenMDAO
