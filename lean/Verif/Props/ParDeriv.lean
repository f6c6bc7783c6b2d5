import Verif.Lemmas.ParDeriv
import Mathlib.Tactic.NormNum
import Mathlib.Algebra.Order.Ring.Rat
import Mathlib.Algebra.Field.Rat
/-!
# C121: groups of variables of interest and relevance reduction do not change total derivatives; C122: `sparsity` and `inactives` only leave out
-/
namespace OpenMDAO

set_option linter.unusedSectionVars false

variable {K : Type} [Field K]

/-- The keys are the pairs that are asked for, and every stored block has one row for each entry of the unknown and one column for each entry of the parameter. -/
def PDShape (E : PDEnv K) (indep unknown : List String) (J : PDict K) : Prop :=
  (∀ u p, (J.lookup (u, p)).isSome ↔ u ∈ unknown ∧ p ∈ indep ∧ Asked E.sparsity u p) ∧
  ∀ u p M, J.lookup (u, p) = some (some M) → M.m = (askedEntries E.sizes E.qoi u).length ∧ M.n = (askedEntries E.sizes E.poi p).length

/-- What an entry of a block must be. -/
def PDEntry (E : PDEnv K) (mode : Mode) (D : String → Nat → String → Nat → K) (u p : String) (a b : Nat) (z : K) : Prop :=
  ∀ oa ob, (askedEntries E.sizes E.qoi u)[a]? = some oa → (askedEntries E.sizes E.poi p)[b]? = some ob →
    (mode = .rev ∧ Inactive E.inactives u a → z = 0) ∧
    (¬ (mode = .rev ∧ Inactive E.inactives u a) → z = D u oa p ob * factorOf E.dvScale p * factorOf E.cnScale u)

/-- A cell of the result is right. -/
def PDCell (E : PDEnv K) (mode : Mode) (D : String → Nat → String → Nat → K) (J : PDict K) (c : String × String × Nat × Nat) : Prop :=
  ∃ M, J.lookup (c.1, c.2.1) = some (some M) ∧ PDEntry E mode D c.1 c.2.1 c.2.2.1 c.2.2.2 (M.a c.2.2.1 c.2.2.2)

theorem putCol_eq (M : Option (TMat K)) (nin i : Nat) (vals : List K) :
    putCol M nin i vals = (M.getD ⟨vals.length, nin, fun _ _ => 0⟩).setCol 0 (M.getD ⟨vals.length, nin, fun _ _ => 0⟩).m i vals := by
  cases M <;> rfl

theorem putRow_eq (M : Option (TMat K)) (nin i : Nat) (vals : List K) :
    putRow M nin i vals = (M.getD ⟨nin, vals.length, fun _ _ => 0⟩).setRow i 0 (M.getD ⟨nin, vals.length, fun _ _ => 0⟩).n vals := by
  cases M <;> rfl

/-- Replacing a block by one that agrees with it outside some cells, which are right. -/
theorem dictSet_block (E : PDEnv K) (mode : Mode) (D : String → Nat → String → Nat → K) (indep unknown : List String) (J : PDict K) (hS : PDShape E indep unknown J)
    (u p : String) (M0 : Option (TMat K)) (hJ : J.lookup (u, p) = some M0) (M : TMat K)
    (hm : M.m = (askedEntries E.sizes E.qoi u).length) (hn : M.n = (askedEntries E.sizes E.poi p).length) (W : Nat → Nat → Prop)
    (hW : ∀ a b, W a b → PDEntry E mode D u p a b (M.a a b)) (hW' : ∀ M1, M0 = some M1 → ∀ a b, ¬ W a b → M.a a b = M1.a a b) :
    PDShape E indep unknown (dictSet J (u, p) (some M)) ∧ (∀ c, PDCell E mode D J c → PDCell E mode D (dictSet J (u, p) (some M)) c) ∧
      ∀ a b, W a b → PDCell E mode D (dictSet J (u, p) (some M)) (u, p, a, b) := by
  refine ⟨⟨?_, ?_⟩, ?_, ?_⟩
  · intro u' p'
    rw [lookup_dictSet, ← hS.1 u' p']
    by_cases hh : (u', p') = (u, p)
    · rw [if_pos hh, hh, hJ]; simp
    · rw [if_neg hh]
  · intro u' p' M' hM'
    rw [lookup_dictSet] at hM'
    by_cases hh : (u', p') = (u, p)
    · rw [if_pos hh] at hM'
      injection hM' with hM'
      injection hM' with hM'
      injection hh with e1 e2
      subst hM' e1 e2
      exact ⟨hm, hn⟩
    · rw [if_neg hh] at hM'
      exact hS.2 u' p' M' hM'
  · rintro ⟨u', p', a, b⟩ ⟨M1, hM1, hval⟩
    by_cases hh : (u', p') = (u, p)
    · injection hh with e1 e2
      subst e1 e2
      simp only at hM1 hval
      rw [hJ] at hM1
      injection hM1 with hM1
      refine ⟨M, by simp only [lookup_dictSet, if_true], ?_⟩
      simp only
      by_cases hw : W a b
      · exact hW a b hw
      · rw [hW' M1 hM1 a b hw]; exact hval
    · refine ⟨M1, ?_, hval⟩
      simp only at hM1 ⊢
      rw [lookup_dictSet, if_neg hh]
      exact hM1
  · intro a b hw
    exact ⟨M, by simp only [lookup_dictSet, if_true], hW a b hw⟩

/-- Storing a column in forward mode, a row in reverse mode. -/
theorem storePD_spec (E : PDEnv K) (mode : Mode) (D : String → Nat → String → Nat → K) (indep unknown : List String) (J : PDict K) (hS : PDShape E indep unknown J)
    (v item u p : String) (hk : pdKey mode v item = (u, p)) (hJ : (J.lookup (u, p)).isSome) (i t nin : Nat)
    (hi : (askedEntries E.sizes (E.inIndices mode) v)[i]? = some t) (hnin : nin = (askedEntries E.sizes (E.inIndices mode) v).length) (vals : List K)
    (hlen : vals.length = (askedEntries E.sizes (E.outIndices mode) item).length)
    (hvals : ∀ (a o : Nat), (askedEntries E.sizes (E.outIndices mode) item)[a]? = some o →
      (mode = .rev ∧ Inactive E.inactives v i → vals[a]? = some 0) ∧ (¬ (mode = .rev ∧ Inactive E.inactives v i) → vals[a]? = some (derivOf mode D v t item o))) :
    ∃ J', storePD E mode nin i v item vals J = .ok J' ∧ PDShape E indep unknown J' ∧ (∀ c, PDCell E mode D J c → PDCell E mode D J' c) ∧
      ∀ a, a < (askedEntries E.sizes (E.outIndices mode) item).length → PDCell E mode D J' (if mode = .fwd then (u, p, a, i) else (u, p, i, a)) := by
  obtain ⟨M0, hM0⟩ := Option.isSome_iff_exists.mp hJ
  have hil := (List.getElem?_eq_some_iff.mp hi).1
  have hsl : (scaleVals (E.unScale mode) item (scaleVals (E.inScale mode) v vals)).length = (askedEntries E.sizes (E.outIndices mode) item).length := by
    rw [scaleVals_length, scaleVals_length, hlen]
  have hsv : ∀ a : Nat, (scaleVals (E.unScale mode) item (scaleVals (E.inScale mode) v vals))[a]? =
      (vals[a]?).map fun z => z * factorOf (E.inScale mode) v * factorOf (E.unScale mode) item := by
    intro a
    rw [scaleVals_getElem, scaleVals_getElem, Option.map_map]
    rfl
  unfold storePD
  rw [hk, hM0]
  simp only
  generalize hvd : scaleVals (E.unScale mode) item (scaleVals (E.inScale mode) v vals) = w at hsl hsv ⊢
  cases mode with
  | fwd =>
    simp only [if_true] at hk ⊢
    simp only [pdKey, if_true] at hk
    injection hk with e1 e2
    subst e1 e2
    simp only [PDEnv.inIndices, PDEnv.outIndices, PDEnv.inScale, PDEnv.unScale, if_true] at *
    rw [putCol_eq]
    have hMs : (M0.getD ⟨w.length, nin, fun _ _ => 0⟩).m = w.length ∧ (M0.getD ⟨w.length, nin, fun _ _ => 0⟩).n = nin := by
      cases M0 with
      | none => exact ⟨rfl, rfl⟩
      | some M =>
        obtain ⟨q1, q2⟩ := hS.2 _ _ M hM0
        exact ⟨q1.trans hsl.symm, q2.trans hnin.symm⟩
    generalize hMd : M0.getD ⟨w.length, nin, fun _ _ => 0⟩ = M at hMs ⊢
    have hset := setCol_fits M 0 i w (by omega) (by omega)
    rw [Nat.zero_add] at hset
    rw [hMs.1, hset]
    refine ⟨_, rfl, ?_⟩
    obtain ⟨r1, r2, r3⟩ := dictSet_block E .fwd D indep unknown J hS item v M0 hM0
      { M with a := fun a b => if b = i ∧ 0 ≤ a ∧ a < w.length then w.getD (a - 0) 0 else M.a a b }
      (hMs.1.trans hsl) (hMs.2.trans hnin) (fun a b => b = i ∧ a < w.length)
      (by
        rintro a b ⟨rfl, ha⟩ oa ob hoa hob
        rw [hi] at hob
        injection hob with hob
        subst hob
        obtain ⟨k1, k2⟩ := hvals a oa hoa
        simp only [true_and, Nat.zero_le, ha, if_true]
        refine ⟨fun hc => by simp at hc, fun hc => ?_⟩
        rw [List.getD_eq_getElem?_getD, Nat.sub_zero, hsv, k2 (by simp)]
        simp [derivOf])
      (by
        intro M1 hM1 a b hw
        subst hM1
        rw [Option.getD_some] at hMd
        subst hMd
        simp only
        rw [if_neg]
        rintro ⟨q1, _, q2⟩
        exact hw ⟨q1, q2⟩)
    exact ⟨r1, r2, fun a ha => r3 a i ⟨rfl, by omega⟩⟩
  | rev =>
    simp only [reduceCtorEq, if_false] at hk ⊢
    simp only [pdKey, reduceCtorEq, if_false] at hk
    injection hk with e1 e2
    subst e1 e2
    simp only [PDEnv.inIndices, PDEnv.outIndices, PDEnv.inScale, PDEnv.unScale, reduceCtorEq, if_false] at *
    rw [putRow_eq]
    have hMs : (M0.getD ⟨nin, w.length, fun _ _ => 0⟩).n = w.length ∧ (M0.getD ⟨nin, w.length, fun _ _ => 0⟩).m = nin := by
      cases M0 with
      | none => exact ⟨rfl, rfl⟩
      | some M =>
        obtain ⟨q1, q2⟩ := hS.2 _ _ M hM0
        exact ⟨q2.trans hsl.symm, q1.trans hnin.symm⟩
    generalize hMd : M0.getD ⟨nin, w.length, fun _ _ => 0⟩ = M at hMs ⊢
    have hset := setCol_fits M.T 0 i w (by show _ ≤ M.n; omega) (by show _ < M.m; omega)
    rw [Nat.zero_add] at hset
    rw [hMs.1, TMat.setRow, hset]
    refine ⟨_, rfl, ?_⟩
    obtain ⟨r1, r2, r3⟩ := dictSet_block E .rev D indep unknown J hS v item M0 hM0
      (TMat.T { M.T with a := fun a b => if b = i ∧ 0 ≤ a ∧ a < w.length then w.getD (a - 0) 0 else M.T.a a b })
      (hMs.2.trans hnin) (hMs.1.trans hsl) (fun a b => a = i ∧ b < w.length)
      (by
        rintro a b ⟨rfl, hb⟩ oa ob hoa hob
        rw [hi] at hoa
        injection hoa with hoa
        subst hoa
        obtain ⟨k1, k2⟩ := hvals b ob hob
        simp only [TMat.T, true_and, Nat.zero_le, hb, if_true]
        rw [List.getD_eq_getElem?_getD, Nat.sub_zero, hsv]
        refine ⟨fun hc => by rw [k1 ⟨trivial, hc⟩]; simp, fun hc => ?_⟩
        rw [k2 (fun hh => hc hh.2)]
        simp only [derivOf, reduceCtorEq, if_false, Option.map_some, Option.getD_some]
        ring)
      (by
        intro M1 hM1 a b hw
        subst hM1
        rw [Option.getD_some] at hMd
        subst hMd
        simp only [TMat.T]
        rw [if_neg]
        rintro ⟨q1, _, q2⟩
        exact hw ⟨q1, q2⟩)
    exact ⟨r1, r2, fun a ha => r3 i a ⟨rfl, by omega⟩⟩

theorem sparseSkip_spec (E : PDEnv K) (u p : String) (h : ∀ sp, E.sparsity = some sp → (sp.lookup u).isSome) :
    (Asked E.sparsity u p ∧ sparseSkip E u p = .ok false) ∨ (¬ Asked E.sparsity u p ∧ sparseSkip E u p = .ok true) := by
  unfold Asked sparseSkip
  cases hs : E.sparsity with
  | none => exact Or.inl ⟨by simp, rfl⟩
  | some sp =>
    obtain ⟨l, hl⟩ := Option.isSome_iff_exists.mp (h sp hs)
    simp only [hl, Except.ok.injEq, Option.some.injEq, forall_eq']
    by_cases hp : p ∈ l
    · exact Or.inl ⟨⟨l, rfl, hp⟩, by simp [hp]⟩
    · refine Or.inr ⟨?_, by simp [hp]⟩
      rintro ⟨l', hl', hp'⟩
      exact hp (hl' ▸ hp')

/-- The dictionary before the first solve. -/
theorem pdInit_spec (E : PDEnv K) (indep unknown : List String) (h : ∀ sp, E.sparsity = some sp → ∀ u ∈ unknown, (sp.lookup u).isSome) :
    ∃ J : PDict K, unknown.foldlM (initRow E indep) [] = .ok J ∧ PDShape E indep unknown J := by
  have row : ∀ u ∈ unknown, ∀ (J : PDict K), (∀ c M, J.lookup c ≠ some (some M)) → ∃ J' : PDict K, initRow E indep J u = .ok J' ∧
      (∀ c M, J'.lookup c ≠ some (some M)) ∧
      ∀ u' p', (J'.lookup (u', p')).isSome ↔ (J.lookup (u', p')).isSome ∨ (u' = u ∧ p' ∈ indep ∧ Asked E.sparsity u' p') := by
    intro u hu J hJ
    obtain ⟨J', h1, h2, h3⟩ := foldlM_ok (initPair E u) indep
      (fun pre J' => (∀ c M, J'.lookup c ≠ some (some M)) ∧
        ∀ u' p', (J'.lookup (u', p')).isSome ↔ (J.lookup (u', p')).isSome ∨ (u' = u ∧ p' ∈ pre ∧ Asked E.sparsity u' p'))
      (by
        intro pre p J1 hp hP
        obtain ⟨q1, q2⟩ := hP
        rcases sparseSkip_spec E u p (fun sp hsp => h sp hsp u hu) with ⟨ha, hsk⟩ | ⟨ha, hsk⟩
        · refine ⟨dictSet J1 (u, p) none, by simp only [initPair, hsk], ?_, ?_⟩
          · intro c M
            rw [lookup_dictSet]
            split
            · simp
            · exact q1 c M
          · intro u' p'
            rw [lookup_dictSet]
            by_cases hh : (u', p') = (u, p)
            · rw [if_pos hh]
              injection hh with e1 e2
              subst e1 e2
              simp [ha]
            · rw [if_neg hh, q2, List.mem_append, List.mem_singleton]
              have hh' : ¬ (u' = u ∧ p' = p) := fun hc => hh (by rw [hc.1, hc.2])
              constructor
              · rintro (a | ⟨a, b, c⟩)
                · exact Or.inl a
                · exact Or.inr ⟨a, Or.inl b, c⟩
              · rintro (a | ⟨a, b | b, c⟩)
                · exact Or.inl a
                · exact Or.inr ⟨a, b, c⟩
                · exact absurd ⟨a, b⟩ hh'
        · refine ⟨J1, by simp only [initPair, hsk], q1, ?_⟩
          intro u' p'
          rw [q2, List.mem_append, List.mem_singleton]
          constructor
          · rintro (a | ⟨a, b, c⟩)
            · exact Or.inl a
            · exact Or.inr ⟨a, Or.inl b, c⟩
          · rintro (a | ⟨a, b | b, c⟩)
            · exact Or.inl a
            · exact Or.inr ⟨a, b, c⟩
            · subst a b; exact absurd c ha)
      J ⟨hJ, by simp⟩
    exact ⟨J', h1, h2, h3⟩
  obtain ⟨J, h1, h2, h3⟩ := foldlM_ok (initRow E indep) unknown
    (fun pre J => (∀ c M, J.lookup c ≠ some (some M)) ∧ ∀ u p, (J.lookup (u, p)).isSome ↔ u ∈ pre ∧ p ∈ indep ∧ Asked E.sparsity u p)
    (by
      intro pre u J1 hu hP
      obtain ⟨J', q1, q2, q3⟩ := row u hu J1 hP.1
      refine ⟨J', q1, q2, ?_⟩
      intro u' p'
      rw [q3, hP.2, List.mem_append, List.mem_singleton]
      constructor
      · rintro (⟨a, b⟩ | ⟨a, b⟩)
        · exact ⟨Or.inl a, b⟩
        · exact ⟨Or.inr a, b⟩
      · rintro ⟨a | a, b⟩
        · exact Or.inl ⟨a, b⟩
        · exact Or.inr ⟨a, b⟩)
    [] ⟨by simp, by simp⟩
  exact ⟨J, h1, h3, fun u p M hM => absurd hM (h2 _ _)⟩

/-- One output. -/
theorem itemStep_spec (E : PDEnv K) (mode : Mode) (n : Option String → Nat) (A Dm : Option String → Nat → Nat → K) (D : String → Nat → String → Nat → K)
    (h : Differentiated E mode n A Dm D) (indep unknown : List String) (inputs outputs g : List String)
    (hio : ∀ v ∈ inputs, ∀ w ∈ outputs, (pdKey mode v w).1 ∈ unknown ∧ (pdKey mode v w).2 ∈ indep)
    (hv : ValidEntries E.sizes (E.inIndices mode) inputs) (hg : GoodSet E mode inputs g) (ho : ValidEntries E.sizes (E.outIndices mode) outputs)
    (hsp : ∀ sp, E.sparsity = some sp → ∀ u ∈ unknown, (sp.lookup u).isSome) (st : AllocSt)
    (hst : st.idxs = g.map (fun v => (voiKey E v g, posOf E mode g v))) (v : String) (hvg : v ∈ g) (i t nin : Nat)
    (hnin : nin = (askedEntries E.sizes (E.inIndices mode) v).length)
    (hi : (askedEntries E.sizes (E.inIndices mode) v)[i]? = some t) (x : Nat → K) (hx : (voiKey E v g, x) ∈ dxMat E mode g st i) (item : String) (hitem : item ∈ outputs)
    (J : PDict K) (hS : PDShape E indep unknown J) :
    ∃ J', itemStep E mode nin i (voiKey E v g) v x J item = .ok J' ∧ PDShape E indep unknown J' ∧ (∀ c, PDCell E mode D J c → PDCell E mode D J' c) ∧
      ∀ c, (Asked E.sparsity (pdKey mode v item).1 (pdKey mode v item).2 ∧ ∃ a, a < (askedEntries E.sizes (E.outIndices mode) item).length ∧
        c = (if mode = .fwd then (item, v, a, i) else (v, item, i, a))) → PDCell E mode D J' c := by
  obtain ⟨hu, hp⟩ := hio v (hg.mem v hvg) item hitem
  unfold itemStep
  rcases sparseSkip_spec E (pdKey mode v item).1 (pdKey mode v item).2 (fun sp hs => hsp sp hs _ hu) with ⟨ha, hsk⟩ | ⟨ha, hsk⟩
  · rw [hsk]
    simp only
    obtain ⟨r, h1, h2⟩ := dxVals_spec E mode n A Dm D h inputs g hv hg outputs ho st hst v hvg i t hi x hx item hitem
    rw [h1]
    rcases h2 with ⟨rfl, h2⟩ | ⟨vals, rfl, h2, h3⟩
    · refine ⟨J, rfl, hS, fun _ hc => hc, ?_⟩
      rintro c ⟨_, a, hlt, _⟩
      rw [h2] at hlt
      simp at hlt
    · obtain ⟨J', k1, k2, k3, k4⟩ := storePD_spec E mode D indep unknown J hS v item (pdKey mode v item).1 (pdKey mode v item).2 rfl
        ((hS.1 _ _).mpr ⟨hu, hp, ha⟩) i t nin hi hnin vals h2 h3
      refine ⟨J', k1, k2, k3, ?_⟩
      rintro c ⟨_, a, hlt, rfl⟩
      have := k4 a hlt
      cases mode <;> exact this
  · rw [hsk]
    exact ⟨J, rfl, hS, fun _ hc => hc, fun c hc => absurd hc.1 ha⟩

/-- One set of variables of interest. -/
theorem groupStep_spec (E : PDEnv K) (mode : Mode) (n : Option String → Nat) (A Dm : Option String → Nat → Nat → K) (D : String → Nat → String → Nat → K)
    (h : Differentiated E mode n A Dm D) (indep unknown : List String) (inputs outputs g : List String)
    (hio : ∀ v ∈ inputs, ∀ w ∈ outputs, (pdKey mode v w).1 ∈ unknown ∧ (pdKey mode v w).2 ∈ indep)
    (hv : ValidEntries E.sizes (E.inIndices mode) inputs) (hg : GoodSet E mode inputs g) (ho : ValidEntries E.sizes (E.outIndices mode) outputs)
    (hsp : ∀ sp, E.sparsity = some sp → ∀ u ∈ unknown, (sp.lookup u).isSome) (J : PDict K) (hS : PDShape E indep unknown J) :
    ∃ J', groupStep E mode outputs J g = .ok J' ∧ PDShape E indep unknown J' ∧ (∀ c, PDCell E mode D J c → PDCell E mode D J' c) ∧
      ∀ c, (∃ v ∈ g, ∃ item ∈ outputs, Asked E.sparsity (pdKey mode v item).1 (pdKey mode v item).2 ∧
        ∃ a i, a < (askedEntries E.sizes (E.outIndices mode) item).length ∧ i < (askedEntries E.sizes (E.inIndices mode) v).length ∧
        c = (if mode = .fwd then (item, v, a, i) else (v, item, i, a))) → PDCell E mode D J' c := by
  obtain ⟨st, hst1, hst2, hst3⟩ := pdAlloc_spec E mode n A Dm D h inputs g hv hg
  unfold groupStep
  rw [hst1]
  simp only
  obtain ⟨J', k1, k2, k3, k4⟩ := fold_cells (solveStep E mode g outputs st) (PDShape E indep unknown) (PDCell E mode D)
    (fun i c => ∃ v ∈ g, ∃ item ∈ outputs, Asked E.sparsity (pdKey mode v item).1 (pdKey mode v item).2 ∧
        ∃ a, a < (askedEntries E.sizes (E.outIndices mode) item).length ∧ c = (if mode = .fwd then (item, v, a, i) else (v, item, i, a)))
    (List.range st.last.length)
    (by
      intro i hi J1 hS1
      rw [List.mem_range] at hi
      have hkeys : (dxMat E mode g st i).map Prod.fst = g.map fun v => voiKey E v g := by
        unfold dxMat
        have e1 : (st.idxs.map fun e => (e.1, rhsAt (K := K) e.2 i)).map Prod.fst = g.map fun v => voiKey E v g := by
          rw [hst2, List.map_map, List.map_map]; rfl
        split
        · rw [hst2, List.map_map, List.map_map]; rfl
        · rw [h.solver.keys mode _ (by rw [e1]; exact hg.keys), e1]
      unfold solveStep
      obtain ⟨J2, l1, l2, l3, l4⟩ := fold_cells (dxStep E mode g outputs st.last.length i) (PDShape E indep unknown) (PDCell E mode D)
        (fun e c => ∃ v ∈ g, e.1 = voiKey E v g ∧ ∃ item ∈ outputs, Asked E.sparsity (pdKey mode v item).1 (pdKey mode v item).2 ∧
          ∃ a, a < (askedEntries E.sizes (E.outIndices mode) item).length ∧ c = (if mode = .fwd then (item, v, a, i) else (v, item, i, a)))
        (dxMat E mode g st i)
        (by
          rintro ⟨k, x⟩ hkx J2 hS2
          have hk : k ∈ g.map fun v => voiKey E v g := by
            rw [← hkeys]
            exact List.mem_map.mpr ⟨(k, x), hkx, rfl⟩
          rw [List.mem_map] at hk
          obtain ⟨v, hvg, rfl⟩ := hk
          have hpar : dxParam E g (voiKey E v g) = .ok (voiKey E v g, v) := by
            rcases voiKey_cases E v g with hk | ⟨hk, _⟩
            · have hgv := hg.own v hvg hk
              rw [hk]
              unfold dxParam
              rw [hgv]
            · unfold dxParam
              rw [hk]
              simp only [hk]
          have hlt : i < (askedEntries E.sizes (E.inIndices mode) v).length := by rw [← hst3 v hvg]; exact hi
          unfold dxStep
          rw [hpar]
          simp only
          obtain ⟨J3, m1, m2, m3, m4⟩ := fold_cells (itemStep E mode st.last.length i (voiKey E v g) v x) (PDShape E indep unknown) (PDCell E mode D)
            (fun item c => Asked E.sparsity (pdKey mode v item).1 (pdKey mode v item).2 ∧ ∃ a, a < (askedEntries E.sizes (E.outIndices mode) item).length ∧
              c = (if mode = .fwd then (item, v, a, i) else (v, item, i, a))) outputs
            (fun item hitem J4 hS4 => itemStep_spec E mode n A Dm D h indep unknown inputs outputs g hio hv hg ho hsp st hst2 v hvg i _ _ (hst3 v hvg)
              (List.getElem?_eq_getElem hlt) x hkx item hitem J4 hS4) J2 hS2
          refine ⟨J3, m1, m2, m3, ?_⟩
          rintro c ⟨w, hwg, hwk, item, hitem, hA, a, ha, rfl⟩
          have hwv : w = v := by
            have := List.inj_on_of_nodup_map hg.keys hwg hvg hwk.symm
            exact this
          subst hwv
          exact m4 item hitem _ ⟨hA, a, ha, rfl⟩)
        J1 hS1
      refine ⟨J2, l1, l2, l3, ?_⟩
      rintro c ⟨v, hvg, item, hitem, hA, a, ha, rfl⟩
      have : voiKey E v g ∈ (dxMat E mode g st i).map Prod.fst := by
        rw [hkeys]; exact List.mem_map.mpr ⟨v, hvg, rfl⟩
      rw [List.mem_map] at this
      obtain ⟨e, he, hek⟩ := this
      exact l4 e he _ ⟨v, hvg, hek, item, hitem, hA, a, ha, rfl⟩)
    J hS
  refine ⟨J', k1, k2, k3, ?_⟩
  rintro c ⟨v, hvg, item, hitem, hA, a, i, ha, hi, rfl⟩
  exact k4 i (by rw [List.mem_range, hst3 v hvg]; exact hi) _ ⟨v, hvg, item, hitem, hA, a, ha, rfl⟩

/-- All together. -/
theorem pdTotals_spec (E : PDEnv K) (mode : Mode) (n : Option String → Nat) (A Dm : Option String → Nat → Nat → K) (D : String → Nat → String → Nat → K)
    (indep unknown : List String) (h : Differentiated E mode n A Dm D) (hp : ValidEntries E.sizes E.poi indep) (hu : ValidEntries E.sizes E.qoi unknown)
    (hG : GroupsOk E mode (if mode = .fwd then indep else unknown)) (hI : InactiveTogether E mode)
    (hsp : ∀ sp, E.sparsity = some sp → ∀ u ∈ unknown, (sp.lookup u).isSome) :
    ∃ J, pdTotals E mode indep unknown = .ok J ∧ PDShape E indep unknown J ∧
      ∀ u ∈ unknown, ∀ p ∈ indep, Asked E.sparsity u p → ∀ a b, a < (askedEntries E.sizes E.qoi u).length → b < (askedEntries E.sizes E.poi p).length →
        PDCell E mode D J (u, p, a, b) := by
  obtain ⟨J0, h1, h2⟩ := pdInit_spec E indep unknown hsp
  unfold pdTotals
  rw [h1]
  simp only
  have hin : ValidEntries E.sizes (E.inIndices mode) (if mode = .fwd then indep else unknown) := by
    cases mode
    · exact hp
    · exact hu
  have hout : ValidEntries E.sizes (E.outIndices mode) (if mode = .fwd then unknown else indep) := by
    cases mode
    · exact hu
    · exact hp
  obtain ⟨J, k1, k2, k3, k4⟩ := fold_cells (groupStep E mode (if mode = .fwd then unknown else indep)) (PDShape E indep unknown) (PDCell E mode D)
    (fun g c => ∃ v ∈ g, ∃ item ∈ (if mode = .fwd then unknown else indep), Asked E.sparsity (pdKey mode v item).1 (pdKey mode v item).2 ∧
        ∃ a i, a < (askedEntries E.sizes (E.outIndices mode) item).length ∧ i < (askedEntries E.sizes (E.inIndices mode) v).length ∧
        c = (if mode = .fwd then (item, v, a, i) else (v, item, i, a)))
    (voiSets E mode (if mode = .fwd then indep else unknown))
    (fun g hg J1 hS1 => groupStep_spec E mode n A Dm D h indep unknown (if mode = .fwd then indep else unknown) (if mode = .fwd then unknown else indep) g
      (by
        intro v hv w hw
        cases mode with
        | fwd => exact ⟨hw, hv⟩
        | rev => exact ⟨hv, hw⟩)
      hin (goodSet_of E mode _ hG hI g hg) hout hsp J1 hS1) J0 h2
  refine ⟨J, k1, k2, ?_⟩
  intro u hu' p hp' hA a b ha hb
  cases mode with
  | fwd =>
    obtain ⟨g, hg, hpg⟩ := mem_voiSets E .fwd indep p hp'
    exact k4 g hg _ ⟨p, hpg, u, hu', hA, a, b, ha, hb, rfl⟩
  | rev =>
    obtain ⟨g, hg, hug⟩ := mem_voiSets E .rev unknown u hu'
    exact k4 g hg _ ⟨u, hug, p, hp', hA, b, a, hb, ha, rfl⟩

/-! ### The statements -/

/-- **C122 (partial).** `calc_gradient` in dict format with a sparsity pattern and declared inactive constraints: the result has exactly the pairs that are asked for; each block has one row for
each requested entry of the unknown and one column for each requested entry of the parameter; in reverse mode the rows of inactive constraints are zero; all other entries are the scaled total
derivatives. Groups of variables of interest and relevance reduction (C121) are included. Missing: groups in which constraints are not inactive together (`C122_inactive_group_refuted`), the
restrictions of C121, and unknowns that the sparsity pattern does not list at all (`finding_sparsity_missing`). -/
theorem C122_leaves_out_partial (E : PDEnv K) (mode : Mode) (n : Option String → Nat) (A Dm : Option String → Nat → Nat → K) (D : String → Nat → String → Nat → K)
    (indep unknown : List String) (h : Differentiated E mode n A Dm D) (hp : ValidEntries E.sizes E.poi indep) (hu : ValidEntries E.sizes E.qoi unknown)
    (hG : GroupsOk E mode (if mode = .fwd then indep else unknown)) (hI : InactiveTogether E mode)
    (hsp : ∀ sp, E.sparsity = some sp → ∀ u ∈ unknown, (sp.lookup u).isSome) :
    ∃ J, pdTotals E mode indep unknown = .ok J ∧
      (∀ u p, (J.lookup (u, p)).isSome ↔ u ∈ unknown ∧ p ∈ indep ∧ Asked E.sparsity u p) ∧
      ∀ u ∈ unknown, ∀ p ∈ indep, Asked E.sparsity u p → ∀ (a b oa ob : Nat), (askedEntries E.sizes E.qoi u)[a]? = some oa →
        (askedEntries E.sizes E.poi p)[b]? = some ob →
        ∃ M, J.lookup (u, p) = some (some M) ∧ M.m = (askedEntries E.sizes E.qoi u).length ∧ M.n = (askedEntries E.sizes E.poi p).length ∧
          (mode = .rev ∧ Inactive E.inactives u a → M.a a b = 0) ∧
          (¬ (mode = .rev ∧ Inactive E.inactives u a) → M.a a b = D u oa p ob * factorOf E.dvScale p * factorOf E.cnScale u) := by
  obtain ⟨J, h1, h2, h3⟩ := pdTotals_spec E mode n A Dm D indep unknown h hp hu hG hI hsp
  refine ⟨J, h1, h2.1, ?_⟩
  intro u hu' p hp' hA a b oa ob hoa hob
  obtain ⟨M, hM, hval⟩ := h3 u hu' p hp' hA a b (List.getElem?_eq_some_iff.mp hoa).1 (List.getElem?_eq_some_iff.mp hob).1
  exact ⟨M, hM, (h2.2 u p M hM).1, (h2.2 u p M hM).2, hval oa ob hoa hob⟩

/-- **C121 (partial).** Whatever the groups of variables of interest and whatever the relevance reduction: `J[u][p]` exists for every requested pair and holds the scaled total derivatives.
Missing: groups without `LinearGaussSeidel` at the root (`C121_solver_refuted`), requests for a part of a group (`C121_part_refuted`) and a mode other than the one `setup` prepared
(`C121_mode_refuted`). -/
theorem C121_groups_partial (E : PDEnv K) (mode : Mode) (n : Option String → Nat) (A Dm : Option String → Nat → Nat → K) (D : String → Nat → String → Nat → K)
    (indep unknown : List String) (h : Differentiated E mode n A Dm D) (hp : ValidEntries E.sizes E.poi indep) (hu : ValidEntries E.sizes E.qoi unknown)
    (hG : GroupsOk E mode (if mode = .fwd then indep else unknown)) (hs : E.sparsity = none) (hi : E.inactives = []) :
    ∃ J, pdTotals E mode indep unknown = .ok J ∧ (∀ u p, (J.lookup (u, p)).isSome ↔ u ∈ unknown ∧ p ∈ indep) ∧
      ∀ u ∈ unknown, ∀ p ∈ indep, ∀ (a b oa ob : Nat), (askedEntries E.sizes E.qoi u)[a]? = some oa → (askedEntries E.sizes E.poi p)[b]? = some ob →
        ∃ M, J.lookup (u, p) = some (some M) ∧ M.m = (askedEntries E.sizes E.qoi u).length ∧ M.n = (askedEntries E.sizes E.poi p).length ∧
          M.a a b = D u oa p ob * factorOf E.dvScale p * factorOf E.cnScale u := by
  have hasked : ∀ u p, Asked E.sparsity u p := by
    intro u p sp hsp
    rw [hs] at hsp
    cases hsp
  have hina : ∀ u i, ¬ Inactive E.inactives u i := by
    rintro u i ⟨l, hl, _⟩
    rw [hi] at hl
    cases hl
  obtain ⟨J, h1, h2, h3⟩ := C122_leaves_out_partial E mode n A Dm D indep unknown h hp hu hG (fun _ _ _ v _ _ _ i hc => absurd hc (hina v i))
    (by intro sp hsp; rw [hs] at hsp; cases hsp)
  refine ⟨J, h1, ?_, ?_⟩
  · intro u p
    rw [h2]
    exact ⟨fun hc => ⟨hc.1, hc.2.1⟩, fun hc => ⟨hc.1, hc.2, hasked u p⟩⟩
  · intro u hu' p hp' a b oa ob hoa hob
    obtain ⟨M, k1, k2, k3, _, k5⟩ := h3 u hu' p hp' (hasked u p) a b oa ob hoa hob
    exact ⟨M, k1, k2, k3, k5 (fun hc => hina u a hc.2)⟩

/-- **C121 (partial).** Two set-ups of the same model that differ in groups, relevance reduction, solver and mode return the same gradient. -/
theorem C121_same_partial (E E' : PDEnv K) (mode mode' : Mode) (n n' : Option String → Nat) (A Dm A' Dm' : Option String → Nat → Nat → K)
    (D : String → Nat → String → Nat → K) (indep unknown : List String)
    (e1 : E'.sizes = E.sizes) (e2 : E'.poi = E.poi) (e3 : E'.qoi = E.qoi) (e4 : E'.dvScale = E.dvScale) (e5 : E'.cnScale = E.cnScale)
    (hs : E.sparsity = none) (hs' : E'.sparsity = none) (hi : E.inactives = []) (hi' : E'.inactives = [])
    (h : Differentiated E mode n A Dm D) (h' : Differentiated E' mode' n' A' Dm' D) (hp : ValidEntries E.sizes E.poi indep) (hu : ValidEntries E.sizes E.qoi unknown)
    (hG : GroupsOk E mode (if mode = .fwd then indep else unknown)) (hG' : GroupsOk E' mode' (if mode' = .fwd then indep else unknown)) :
    ∃ J J', pdTotals E mode indep unknown = .ok J ∧ pdTotals E' mode' indep unknown = .ok J' ∧
      (∀ u p, (J.lookup (u, p)).isSome ↔ (J'.lookup (u, p)).isSome) ∧
      ∀ u ∈ unknown, ∀ p ∈ indep, 0 < (askedEntries E.sizes E.qoi u).length → 0 < (askedEntries E.sizes E.poi p).length →
        ∃ M M', J.lookup (u, p) = some (some M) ∧ J'.lookup (u, p) = some (some M') ∧ M.m = M'.m ∧ M.n = M'.n ∧ ∀ a < M.m, ∀ b < M.n, M.a a b = M'.a a b := by
  obtain ⟨J, a1, a2, a3⟩ := C121_groups_partial E mode n A Dm D indep unknown h hp hu hG hs hi
  obtain ⟨J', b1, b2, b3⟩ := C121_groups_partial E' mode' n' A' Dm' D indep unknown h' (by rw [e1, e2]; exact hp) (by rw [e1, e3]; exact hu) hG' hs' hi'
  rw [e1, e2, e3, e4, e5] at b3
  refine ⟨J, J', a1, b1, fun u p => by rw [a2, b2], ?_⟩
  intro u hu' p hp' hlu hlp
  obtain ⟨M, k1, k2, k3, _⟩ := a3 u hu' p hp' 0 0 _ _ (List.getElem?_eq_getElem hlu) (List.getElem?_eq_getElem hlp)
  obtain ⟨M', l1, l2, l3, _⟩ := b3 u hu' p hp' 0 0 _ _ (List.getElem?_eq_getElem hlu) (List.getElem?_eq_getElem hlp)
  refine ⟨M, M', k1, l1, k2.trans l2.symm, k3.trans l3.symm, ?_⟩
  intro a ha b hb
  rw [k2] at ha
  rw [k3] at hb
  obtain ⟨N, m1, _, _, m4⟩ := a3 u hu' p hp' a b _ _ (List.getElem?_eq_getElem ha) (List.getElem?_eq_getElem hb)
  obtain ⟨N', n1, _, _, n4⟩ := b3 u hu' p hp' a b _ _ (List.getElem?_eq_getElem ha) (List.getElem?_eq_getElem hb)
  rw [k1] at m1
  rw [l1] at n1
  injection m1 with m1
  injection m1 with m1
  injection n1 with n1
  injection n1 with n1
  subst m1 n1
  rw [m4, n4]

/-- Groups of different sizes are refused. -/
theorem C121_size_error (E : PDEnv K) (mode : Mode) (n : Option String → Nat) (A Dm : Option String → Nat → Nat → K) (D : String → Nat → String → Nat → K)
    (h : Differentiated E mode n A Dm D) (v w : String) (hv : ValidEntries E.sizes (if mode = .fwd then E.poi else E.qoi) [v, w]) (outputs : List String)
    (hl : E.lgs = true) (hd : v ∈ E.driverVois ∧ w ∈ E.driverVois)
    (ho : ∀ x ∈ [v, w], ∃ s, E.vecs.lookup (some x) = some s ∧ (s.lookup x).isSome)
    (hne : (askedEntries E.sizes (if mode = .fwd then E.poi else E.qoi) v).length ≠ (askedEntries E.sizes (if mode = .fwd then E.poi else E.qoi) w).length) (J : PDict K) :
    groupStep E mode outputs J [v, w] = .error .RuntimeError := by
  have hk : ∀ x ∈ [v, w], voiKey E x [v, w] = some x := by
    intro x hx
    have hx' : x ∈ E.driverVois := by
      simp only [List.mem_cons, List.not_mem_nil, or_false] at hx
      rcases hx with rfl | rfl
      · exact hd.1
      · exact hd.2
    unfold voiKey
    simp [hx', hl]
  have hidx : ∀ x ∈ [v, w], ∃ s b, E.vecs.lookup (some x) = some s ∧
      inIdxs E.sizes s (E.inIndices mode) x = .ok ((askedEntries E.sizes (E.inIndices mode) x).map (b + ·)) := by
    intro x hx
    obtain ⟨s, hs, hsx⟩ := ho x hx
    obtain ⟨⟨b, e⟩, hb⟩ := Option.isSome_iff_exists.mp hsx
    exact ⟨s, b, hs, inIdxs_spec E mode n A Dm D h (E.inIndices mode) [v, w] hv x hx (some x) s hs b e hb⟩
  obtain ⟨s1, b1, p1, p2⟩ := hidx v (by simp)
  obtain ⟨s2, b2, q1, q2⟩ := hidx w (by simp)
  have st1 : allocStep E mode [v, w] ⟨[], none, []⟩ v = .ok ⟨[(some v, (askedEntries E.sizes (E.inIndices mode) v).map (b1 + ·))],
      some ((askedEntries E.sizes (E.inIndices mode) v).length), (askedEntries E.sizes (E.inIndices mode) v).map (b1 + ·)⟩ := by
    unfold allocStep
    rw [hk v (by simp), p1]
    simp only [p2, Option.any_none, Bool.false_eq_true, if_false, dictSet, Option.getD_none, List.length_map]
  have st2 : allocStep E mode [v, w] ⟨[(some v, (askedEntries E.sizes (E.inIndices mode) v).map (b1 + ·))],
      some ((askedEntries E.sizes (E.inIndices mode) v).length), (askedEntries E.sizes (E.inIndices mode) v).map (b1 + ·)⟩ w = .error .RuntimeError := by
    unfold allocStep
    rw [hk w (by simp), q1]
    simp only [q2, Option.any_some, List.length_map]
    have hne' : (askedEntries E.sizes (E.inIndices mode) v).length ≠ (askedEntries E.sizes (E.inIndices mode) w).length := hne
    simp [hne']
  unfold groupStep
  rw [List.foldlM_cons, st1]
  simp only [Bind.bind, Except.bind]
  rw [List.foldlM_cons, st2]
  rfl

/-! ### A concrete model: `f = 2 x + 5 y`, `g = 3 x + 7 y` -/

/-- Partial derivatives between the four variables. -/
def coefPD (u p : String) : ℚ :=
  if u = "f" ∧ p = "x" then 2 else if u = "f" ∧ p = "y" then 5 else if u = "g" ∧ p = "x" then 3 else if u = "g" ∧ p = "y" then 7 else 0

/-- Variables of each vector: all, or those relevant for the variable of interest. -/
def namesPD : Option String → List String
  | none => ["x", "y", "f", "g"]
  | some v => if v = "x" then ["x", "f", "g"] else if v = "y" then ["y", "f", "g"] else if v = "f" then ["x", "y", "f"] else ["x", "y", "g"]

def nPD (k : Option String) : Nat := (namesPD k).length
def cPD (k : Option String) (i j : Nat) : ℚ := coefPD ((namesPD k).getD i "") ((namesPD k).getD j "")
def aPD (k : Option String) (i j : Nat) : ℚ := cPD k i j - if i = j then 1 else 0
def dmPD (k : Option String) (i j : Nat) : ℚ := cPD k i j + if i = j then 1 else 0
def dPD (u : String) (_ : Nat) (p : String) (_ : Nat) : ℚ := coefPD u p + if u = p then 1 else 0

/-- Exact solution of the system with matrix `aPD k`. -/
def solvePD (mode : Mode) (rhs : List (Option String × (Nat → ℚ))) : List (Option String × (Nat → ℚ)) :=
  rhs.map fun e => (e.1, fun i : Nat => -(e.2 i + ∑ j ∈ Finset.range (nPD e.1), (if mode = .fwd then cPD e.1 i j else cPD e.1 j i) * e.2 j))

def slicesPD (k : Option String) : List (String × (Nat × Nat)) := (namesPD k).zipIdx.map fun e => (e.1, (e.2, e.2 + 1))

def keysPD : List (Option String) := [none, some "x", some "y", some "f", some "g"]

/-- Design variables `x`, `y` and responses `f`, `g`, each pair one group. -/
def exPD : PDEnv ℚ :=
  { vecs := keysPD.map fun k => (k, slicesPD k), sizes := [("x", 1), ("y", 1), ("f", 1), ("g", 1)], poi := [], qoi := [("f", [0])], dvScale := [("x", 10)], cnScale := [],
    vois := fun m => if m = .fwd then [["x", "y"]] else [["f", "g"]], driverVois := ["x", "y", "f", "g"], lgs := true, reduce := false,
    rel := keysPD.map fun k => (k, namesPD k), sparsity := none, inactives := [], solve := solvePD }

theorem coefPD_mul (u v w : String) : coefPD u v * coefPD v w = 0 := by
  unfold coefPD
  by_cases h1 : v = "x"
  · subst h1; simp
  · by_cases h2 : v = "y"
    · subst h2; simp
    · simp [h1, h2]

theorem coefPD_out (u p : String) (h : coefPD u p ≠ 0) : (u = "f" ∨ u = "g") ∧ (p = "x" ∨ p = "y") := by
  unfold coefPD at h
  split at h
  · rename_i hc; exact ⟨Or.inl hc.1, Or.inl hc.2⟩
  split at h
  · rename_i hc; exact ⟨Or.inl hc.1, Or.inr hc.2⟩
  split at h
  · rename_i hc; exact ⟨Or.inr hc.1, Or.inl hc.2⟩
  split at h
  · rename_i hc; exact ⟨Or.inr hc.1, Or.inr hc.2⟩
  exact absurd rfl h

theorem cPD_mul (k : Option String) (i j l : Nat) : cPD k i j * cPD k j l = 0 := coefPD_mul _ _ _

theorem totalPD (k : Option String) : IsTotalDeriv (nPD k) (aPD k) (dmPD k) := by
  have key : ∀ i < nPD k, ∀ q < nPD k, (∑ j ∈ Finset.range (nPD k), (cPD k i j * cPD k j q + (if j = q then cPD k i j else 0) - (if i = j then cPD k j q else 0) -
      (if i = j then (if j = q then 1 else 0) else 0))) = if i = q then -1 else 0 := by
    intro i hi q hq
    rw [Finset.sum_sub_distrib, Finset.sum_sub_distrib, Finset.sum_add_distrib, Finset.sum_ite_eq' _ q, Finset.sum_ite_eq _ i, Finset.sum_ite_eq _ i]
    simp only [cPD_mul, Finset.sum_const_zero, Finset.mem_range, hi, hq, if_true]
    split <;> ring
  constructor
  · intro i hi q hq
    rw [← key i hi q hq]
    refine Finset.sum_congr rfl fun j _ => ?_
    unfold aPD dmPD
    split <;> split <;> ring
  · intro i hi q hq
    have : (∑ j ∈ Finset.range (nPD k), dmPD k i j * aPD k j q) = ∑ j ∈ Finset.range (nPD k), (cPD k i j * cPD k j q - (if j = q then cPD k i j else 0) + (if i = j then cPD k j q else 0) -
      (if i = j then (if j = q then 1 else 0) else 0)) := by
      refine Finset.sum_congr rfl fun j _ => ?_
      unfold aPD dmPD
      split <;> split <;> ring
    rw [this, Finset.sum_sub_distrib, Finset.sum_add_distrib, Finset.sum_sub_distrib, Finset.sum_ite_eq' _ q, Finset.sum_ite_eq _ i, Finset.sum_ite_eq _ i]
    simp only [cPD_mul, Finset.sum_const_zero, Finset.mem_range, hi, hq, if_true]
    split <;> ring

theorem solverPD : ExactSolvers nPD aPD solvePD where
  keys := by
    intro mode rhs _
    unfold solvePD
    rw [List.map_map]
    rfl
  fwd := by
    intro rhs hn k r x hr hx i hi
    unfold solvePD at hx
    rw [List.mem_map] at hx
    obtain ⟨⟨k', r'⟩, he, hx⟩ := hx
    injection hx with e1 e2
    simp only at e1
    subst e1
    have : r' = r := by
      have := List.inj_on_of_nodup_map hn he hr rfl
      exact congrArg Prod.snd this
    subst this
    subst e2
    simp only [if_true, aPD, sub_mul, ite_mul, one_mul, zero_mul, Finset.sum_sub_distrib]
    rw [Finset.sum_ite_eq _ i, if_pos (Finset.mem_range.mpr hi)]
    have hz : (∑ j ∈ Finset.range (nPD k'), cPD k' i j * -(r' j + ∑ l ∈ Finset.range (nPD k'), cPD k' j l * r' l)) = - ∑ j ∈ Finset.range (nPD k'), cPD k' i j * r' j := by
      rw [← Finset.sum_neg_distrib]
      refine Finset.sum_congr rfl fun j _ => ?_
      rw [mul_neg, mul_add, Finset.mul_sum, Finset.sum_eq_zero, add_zero]
      intro l _
      rw [← mul_assoc, cPD_mul, zero_mul]
    rw [hz]
    ring
  rev := by
    intro rhs hn k r x hr hx i hi
    unfold solvePD at hx
    rw [List.mem_map] at hx
    obtain ⟨⟨k', r'⟩, he, hx⟩ := hx
    injection hx with e1 e2
    simp only at e1
    subst e1
    have : r' = r := by
      have := List.inj_on_of_nodup_map hn he hr rfl
      exact congrArg Prod.snd this
    subst this
    subst e2
    simp only [reduceCtorEq, if_false, aPD, sub_mul, ite_mul, one_mul, zero_mul, Finset.sum_sub_distrib]
    rw [Finset.sum_ite_eq' _ i, if_pos (Finset.mem_range.mpr hi)]
    have hz : (∑ j ∈ Finset.range (nPD k'), cPD k' j i * -(r' j + ∑ l ∈ Finset.range (nPD k'), cPD k' l j * r' l)) = - ∑ j ∈ Finset.range (nPD k'), cPD k' j i * r' j := by
      rw [← Finset.sum_neg_distrib]
      refine Finset.sum_congr rfl fun j _ => ?_
      rw [mul_neg, mul_add, Finset.mul_sum, Finset.sum_eq_zero, add_zero]
      intro l _
      rw [← mul_assoc, mul_comm (cPD k' j i), cPD_mul, zero_mul]
    rw [hz]
    ring

/-- Any choice of the vectors and other settings leaves the model differentiated. -/
theorem differentiatedPD (E : PDEnv ℚ) (mode : Mode) (hs : E.sizes = exPD.sizes) (hr : E.rel = exPD.rel) (hsol : E.solve = solvePD)
    (hv : ∀ k s, E.vecs.lookup k = some s → k ∈ keysPD ∧ s = slicesPD k) : Differentiated E mode nPD aPD dmPD dPD where
  layout := by
    intro k s hk x b e hx
    obtain ⟨h1, rfl⟩ := hv k s hk
    rw [hs]
    have hx := lookup_mem hx
    simp only [keysPD, List.mem_cons, List.not_mem_nil, or_false] at h1
    rcases h1 with rfl | h1
    · simp [slicesPD, namesPD, List.zipIdx] at hx
      rcases hx with ⟨rfl, rfl, rfl⟩ | ⟨rfl, rfl, rfl⟩ | ⟨rfl, rfl, rfl⟩ | ⟨rfl, rfl, rfl⟩ <;> decide
    · rcases h1 with rfl | rfl | rfl | rfl <;> simp [slicesPD, namesPD, List.zipIdx] at hx <;>
        rcases hx with ⟨rfl, rfl, rfl⟩ | ⟨rfl, rfl, rfl⟩ | ⟨rfl, rfl, rfl⟩ <;> decide
  total := fun k _ _ => totalPD k
  solver := by rw [hsol]; exact solverPD
  agree := by
    intro k s u bu eu p bp ep hk hu hp hc a b ha hb
    obtain ⟨h1, rfl⟩ := hv k s hk
    have hu := lookup_mem hu
    have hp := lookup_mem hp
    simp only [slicesPD, List.mem_map, Prod.exists, Prod.mk.injEq] at hu hp
    obtain ⟨u', iu, mu, rfl, rfl, rfl⟩ := hu
    obtain ⟨p', ip, mp, rfl, rfl, rfl⟩ := hp
    have ha : a = 0 := by omega
    have hb : b = 0 := by omega
    subst ha hb
    have gu : (namesPD k)[iu]? = some u' := by simpa [List.mem_zipIdx_iff_getElem?] using mu
    have gp : (namesPD k)[ip]? = some p' := by simpa [List.mem_zipIdx_iff_getElem?] using mp
    have hnd : (namesPD k).Nodup := by
      simp only [keysPD, List.mem_cons, List.not_mem_nil, or_false] at h1
      rcases h1 with rfl | rfl | rfl | rfl | rfl <;> decide
    have hiff : iu = ip ↔ u' = p' := by
      constructor
      · rintro rfl
        rw [gu] at gp
        exact Option.some.inj gp
      · rintro rfl
        obtain ⟨l1, l2⟩ := List.getElem?_eq_some_iff.mp gu
        obtain ⟨m1, m2⟩ := List.getElem?_eq_some_iff.mp gp
        exact (List.Nodup.getElem_inj_iff hnd).mp (l2.trans m2.symm)
    unfold dmPD dPD cPD
    rw [Nat.add_zero, Nat.add_zero, List.getD_eq_getElem?_getD, List.getD_eq_getElem?_getD, gu, gp]
    simp [hiff]
  relevant := by
    intro k s hk x hx hrel
    obtain ⟨h1, rfl⟩ := hv k s hk
    have hl : E.rel.lookup k = some (namesPD k) := by
      rw [hr]
      simp only [keysPD, List.mem_cons, List.not_mem_nil, or_false] at h1
      rcases h1 with rfl | rfl | rfl | rfl | rfl <;> decide
    have hm := hrel _ hl
    simp only [keysPD, List.mem_cons, List.not_mem_nil, or_false] at h1
    rcases h1 with rfl | rfl | rfl | rfl | rfl <;> simp [namesPD] at hm <;> rcases hm with rfl | rfl | rfl | rfl <;> decide
  all := by
    intro l hl x hx
    have : l = namesPD none := by
      rw [hr] at hl
      have h2 : exPD.rel.lookup none = some (namesPD none) := by decide
      rw [h2] at hl
      exact (Option.some.inj hl).symm
    subst this
    rw [hs] at hx
    obtain ⟨m, hm⟩ := Option.isSome_iff_exists.mp hx
    have hm := lookup_mem hm
    simp [exPD] at hm
    rcases hm with ⟨rfl, _⟩ | ⟨rfl, _⟩ | ⟨rfl, _⟩ | ⟨rfl, _⟩ <;> simp [namesPD]
  irrelevant := by
    intro v l hl x hx a b
    rw [hr] at hl
    have hm := lookup_mem hl
    simp [exPD, keysPD] at hm
    have hc1 : coefPD x v = 0 := by
      by_contra hc
      have := coefPD_out _ _ hc
      rcases hm with ⟨rfl, rfl⟩ | ⟨rfl, rfl⟩ | ⟨rfl, rfl⟩ | ⟨rfl, rfl⟩ <;> simp [namesPD] at hx <;> simp at this <;> simp [hx] at this
    have hc2 : coefPD v x = 0 := by
      by_contra hc
      have := coefPD_out _ _ hc
      rcases hm with ⟨rfl, rfl⟩ | ⟨rfl, rfl⟩ | ⟨rfl, rfl⟩ | ⟨rfl, rfl⟩ <;> simp [namesPD] at hx <;> simp at this <;> simp [hx] at this
    have hne : x ≠ v := by
      rintro rfl
      rcases hm with ⟨rfl, rfl⟩ | ⟨rfl, rfl⟩ | ⟨rfl, rfl⟩ | ⟨rfl, rfl⟩ <;> simp [namesPD] at hx
    unfold dPD
    rw [hc1, hc2, if_neg hne, if_neg (Ne.symm hne)]
    simp

theorem vecsPD (k : Option String) (s : List (String × (Nat × Nat))) (h : exPD.vecs.lookup k = some s) : k ∈ keysPD ∧ s = slicesPD k := by
  have hm := lookup_mem h
  simp only [exPD, List.mem_map, Prod.mk.injEq] at hm
  obtain ⟨k', hk', rfl, rfl⟩ := hm
  exact ⟨hk', rfl⟩

theorem validPD (d : List (String × List Nat)) (hd : d = [] ∨ d = [("f", [0])]) (names : List String) (hn : ∀ x ∈ names, x ∈ ["x", "y", "f", "g"]) :
    ValidEntries exPD.sizes d names := by
  intro x hx
  refine ⟨1, ?_, ?_⟩
  · have := hn x hx
    simp only [List.mem_cons, List.not_mem_nil, or_false] at this
    rcases this with rfl | rfl | rfl | rfl <;> decide
  · intro l hl
    rcases hd with rfl | rfl
    · cases hl
    · have := lookup_mem hl
      simp only [List.mem_singleton, Prod.mk.injEq] at this
      rw [this.2]
      simp

/-- The groups of the example are fine in both modes, whatever sparsity and inactive constraints are given. -/
theorem groupsPD (mode : Mode) (inputs : List String) (h : inputs = if mode = .fwd then ["x", "y"] else ["f", "g"]) (sp : Option (List (String × List String)))
    (ia : List (String × List Nat)) : GroupsOk { exPD with sparsity := sp, inactives := ia } mode inputs := by
  subst h
  have h0 : GroupsOk exPD mode (if mode = .fwd then ["x", "y"] else ["f", "g"]) := by
    cases mode with
    | fwd =>
      refine ⟨?_, ?_, by decide, by decide, by decide, by decide⟩
      · intro v hv
        exact ⟨slicesPD none, by decide, by revert v; decide⟩
      · intro v hv _ _ _
        refine ⟨slicesPD (some v), ?_, ?_⟩ <;> (revert v; decide)
    | rev =>
      refine ⟨?_, ?_, by decide, by decide, by decide, by decide⟩
      · intro v hv
        exact ⟨slicesPD none, by decide, by revert v; decide⟩
      · intro v hv _ _ _
        refine ⟨slicesPD (some v), ?_, ?_⟩ <;> (revert v; decide)
  exact ⟨h0.full, h0.own, h0.whole, h0.nodup, h0.sameSize, h0.parallel⟩

/-- The hypotheses of C121 hold for the example in both modes. -/
example (mode : Mode) : Differentiated exPD mode nPD aPD dmPD dPD ∧ ValidEntries exPD.sizes exPD.poi ["x", "y"] ∧ ValidEntries exPD.sizes exPD.qoi ["f", "g"] ∧
    GroupsOk exPD mode (if mode = .fwd then ["x", "y"] else ["f", "g"]) :=
  ⟨differentiatedPD exPD mode rfl rfl rfl vecsPD, validPD _ (Or.inl rfl) _ (by simp), validPD _ (Or.inr rfl) _ (by simp), groupsPD mode _ rfl none []⟩

/-- Block of a result at its first entry, for display. -/
def firstEntries (J : PDict ℚ) : List ((String × String) × Option ℚ) := J.map fun e => (e.1, e.2.map fun M => M.a 0 0)

example : (pdTotals exPD .fwd ["x", "y"] ["f", "g"]).map firstEntries =
    .ok [(("f", "x"), some 20), (("f", "y"), some 5), (("g", "x"), some 30), (("g", "y"), some 7)] := by decide +kernel

example : (pdTotals { exPD with sparsity := some [("f", ["y"]), ("g", ["x", "y"])], inactives := [("f", [0]), ("g", [0])] } .rev ["x", "y"] ["f", "g"]).map firstEntries =
    .ok [(("f", "y"), some 0), (("g", "x"), some 0), (("g", "y"), some 0)] := by decide +kernel

/-- **C121 is false of the code.** With a group of two design variables and a root solver other than `LinearGaussSeidel` (here with only the full vector, as `setup` allocates it) both members
share the key `None`: the system is solved for the last member only, the result is stored as derivative with respect to the first, and the other blocks stay `None`. Here `df/dx = 2` (scaled 20)
comes back as 50, ten times `df/dy`. -/
theorem C121_solver_refuted : ∃ E : PDEnv ℚ, Differentiated E .fwd nPD aPD dmPD dPD ∧ E.vois .fwd = [["x", "y"]] ∧ E.lgs = false ∧ E.sparsity = none ∧ E.inactives = [] ∧
    dPD "f" 0 "x" 0 * factorOf E.dvScale "x" = 20 ∧
    (pdTotals E .fwd ["x", "y"] ["f"]).map firstEntries = .ok [(("f", "x"), some 50), (("f", "y"), none)] := by
  refine ⟨{ exPD with lgs := false, vecs := [(none, slicesPD none)] }, differentiatedPD _ .fwd rfl rfl rfl ?_, rfl, rfl, rfl, rfl, by decide +kernel, by decide +kernel⟩
  intro k s h
  have := lookup_mem h
  simp only [List.mem_singleton, Prod.mk.injEq] at this
  exact ⟨by rw [this.1]; simp [keysPD], by rw [this.1, this.2]⟩

/-- **C121 is false of the code.** Asking for the derivatives with respect to one member of a group only is a `KeyError`: the whole group is solved for, and there is no place to store the
derivatives with respect to the others. -/
theorem C121_part_refuted : Differentiated exPD .fwd nPD aPD dmPD dPD ∧ (pdTotals exPD .fwd ["x"] ["f"]).map firstEntries = .error .KeyError ∧
    Differentiated exPD .rev nPD aPD dmPD dPD ∧ (pdTotals exPD .rev ["x"] ["f"]).map firstEntries = .error .KeyError :=
  ⟨differentiatedPD exPD .fwd rfl rfl rfl vecsPD, by decide +kernel, differentiatedPD exPD .rev rfl rfl rfl vecsPD, by decide +kernel⟩

/-- **C121 is false of the code.** Relevance reduction for single variables of interest prepares vectors for one mode only; the other mode is a `KeyError` (so `check_total_derivatives`, which uses
both modes, always fails). Here `setup` prepared the reverse mode. -/
theorem C121_mode_refuted : ∃ E : PDEnv ℚ, (∀ mode, Differentiated E mode nPD aPD dmPD dPD) ∧ E.lgs = true ∧ E.reduce = true ∧
    (pdTotals E .rev ["x", "y"] ["f", "g"]).map firstEntries = .ok [(("f", "x"), some 20), (("f", "y"), some 5), (("g", "x"), some 30), (("g", "y"), some 7)] ∧
    (pdTotals E .fwd ["x", "y"] ["f", "g"]).map firstEntries = .error .KeyError := by
  refine ⟨{ exPD with reduce := true, vois := fun m => if m = .fwd then [["x"], ["y"]] else [["f"], ["g"]],
                      vecs := [(none, slicesPD none), (some "f", slicesPD (some "f")), (some "g", slicesPD (some "g"))] },
    fun mode => differentiatedPD _ mode rfl rfl rfl ?_, rfl, rfl, by decide +kernel, by decide +kernel⟩
  intro k s h
  have := lookup_mem h
  simp only [List.mem_cons, List.not_mem_nil, or_false, Prod.mk.injEq] at this
  rcases this with ⟨rfl, rfl⟩ | ⟨rfl, rfl⟩ | ⟨rfl, rfl⟩ <;> simp [keysPD]

/-- **C122 is false of the code.** In a group of constraints only the last member is looked up in `inactives`; when it is inactive the rows of all members are zero. Here `f` is active and its
derivative 20 comes back as 0. -/
theorem C122_inactive_group_refuted : ∃ E : PDEnv ℚ, Differentiated E .rev nPD aPD dmPD dPD ∧ GroupsOk E .rev ["f", "g"] ∧ ¬ Inactive E.inactives "f" 0 ∧
    dPD "f" 0 "x" 0 * factorOf E.dvScale "x" * factorOf E.cnScale "f" = 20 ∧
    (pdTotals E .rev ["x"] ["f", "g"]).map firstEntries = .ok [(("f", "x"), some 0), (("g", "x"), some 0)] := by
  refine ⟨{ exPD with inactives := [("g", [0])] }, differentiatedPD _ .rev rfl rfl rfl vecsPD, groupsPD .rev _ rfl none _, ?_, by decide +kernel, by decide +kernel⟩
  rintro ⟨l, hl, _⟩
  cases hl

/-- The other way round an inactive constraint that is not the last of its group is solved for. -/
theorem C122_inactive_solved_refuted : ∃ E : PDEnv ℚ, Differentiated E .rev nPD aPD dmPD dPD ∧ GroupsOk E .rev ["f", "g"] ∧ Inactive E.inactives "f" 0 ∧
    (pdTotals E .rev ["x"] ["f", "g"]).map firstEntries = .ok [(("f", "x"), some 20), (("g", "x"), some 30)] :=
  ⟨{ exPD with inactives := [("f", [0])] }, differentiatedPD _ .rev rfl rfl rfl vecsPD, groupsPD .rev _ rfl none _, ⟨[0], rfl, by simp⟩, by decide +kernel⟩

/-- A sparsity pattern must have an entry for every requested unknown. -/
theorem finding_sparsity_missing (E : PDEnv K) (mode : Mode) (indep unknown : List String) (sp : List (String × List String)) (hs : E.sparsity = some sp) (u p : String)
    (hu : u ∈ unknown) (hp : p ∈ indep) (hn : sp.lookup u = none) : pdTotals E mode indep unknown = .error .KeyError := by
  have key : ∀ (l : List String), u ∈ l → ∀ J : PDict K, l.foldlM (initRow E indep) J = .error .KeyError := by
    have hrow : ∀ w (J : PDict K), sp.lookup w = none → initRow E indep J w = .error .KeyError := by
      intro w J hw
      cases hi : indep with
      | nil => rw [hi] at hp; simp at hp
      | cons q l =>
        unfold initRow
        rw [List.foldlM_cons]
        simp only [initPair, sparseSkip, hs, hw, Bind.bind, Except.bind]
    have hpair : ∀ w, (sp.lookup w).isSome → ∀ (l : List String) (J : PDict K), ∃ J', l.foldlM (initPair E w) J = .ok J' := by
      intro w hw l
      obtain ⟨lw, hlw⟩ := Option.isSome_iff_exists.mp hw
      induction l with
      | nil => intro J; exact ⟨J, rfl⟩
      | cons q l ih =>
        intro J
        rw [List.foldlM_cons]
        simp only [initPair, sparseSkip, hs, hlw]
        by_cases hq : lw.contains q = true
        · rw [hq]; exact ih _
        · rw [Bool.eq_false_iff.mpr hq]; exact ih _
    intro l
    induction l with
    | nil => intro h; simp at h
    | cons w l ih =>
      intro h J
      rw [List.foldlM_cons]
      cases hw : sp.lookup w with
      | none => rw [hrow w J hw]; rfl
      | some lw =>
        obtain ⟨J', hJ'⟩ := hpair w (by rw [hw]; rfl) indep J
        have hJ'' : initRow E indep J w = .ok J' := hJ'
        rw [hJ'']
        rcases List.mem_cons.mp h with rfl | h'
        · rw [hn] at hw; cases hw
        · exact ih h' J'
  unfold pdTotals
  rw [key unknown hu []]

end OpenMDAO
