import Verif.Lemmas.ExecLin
import Mathlib.Analysis.Calculus.Deriv.Polynomial
import Mathlib.Topology.Algebra.Polynomial
/-! # Properties of the linearization of `ExecComp` (C72) -/
namespace OpenMDAO
set_option linter.unusedSectionVars false

/-! ### The loops -/

section
variable {K : Type} [Field K] [DecidableEq K]

/-- The block of unknown `u` and parameter `p` after `k` columns. -/
def Blk (J : List ((Str × Str) × List (List K))) (u p : Str) (m n k : Nat) (col : Nat → List K) : Prop :=
  (k = 0 ∧ J.lookup (u, p) = none) ∨
  (0 < k ∧ ∃ b, J.lookup (u, p) = some b ∧ b.length = m ∧ (∀ row ∈ b, row.length = n) ∧ ∀ i < k, ∀ (r : Nat) (x : K), (col i)[r]? = some x → ∃ row, b[r]? = some row ∧ row[i]? = some x)

theorem linUnknown_spec (h : K) (p u : Str) (m n k : Nat) (col : Nat → List K) (cus : List (Str × EVal (Cx K))) (J : List ((Str × Str) × List (List K)))
    (hk : k < n) (v : EVal (Cx K)) (hv : cus.lookup u = some v) (hcol : (v.flat.map fun z => z.im / h) = col k) (hlen : v.flat.length = m) (hb : Blk J u p m n k col) :
    ∃ J', linUnknown h p n k cus J u = .ok J' ∧ Blk J' u p m n (k + 1) col ∧ ∀ key, key ≠ (u, p) → J'.lookup key = J.lookup key := by
  have hclen : (col k).length = m := by rw [← hcol, List.length_map, hlen]
  obtain ⟨b, hb0, hbm, hbr, hbe⟩ : ∃ b, (J.lookup (u, p)).getD (List.replicate (col k).length (List.replicate n 0)) = b ∧ b.length = m ∧ (∀ row ∈ b, row.length = n) ∧
      ∀ i < k, ∀ (r : Nat) (x : K), (col i)[r]? = some x → ∃ row, b[r]? = some row ∧ row[i]? = some x := by
    rcases hb with ⟨hk0, hn⟩ | ⟨_, b, h1, h2, h3, h4⟩
    · refine ⟨_, by rw [hn], by simp [hclen], ?_, by omega⟩
      intro row hrow
      rw [List.eq_of_mem_replicate hrow, List.length_replicate]
    · exact ⟨b, by rw [h1]; rfl, h2, h3, h4⟩
  refine ⟨dictSet J (u, p) (List.zipWith (fun row x => row.set k x) b (col k)), ?_, ?_, ?_⟩
  · unfold linUnknown
    rw [hv]
    simp only [hcol, hb0]
    unfold setColumn
    rw [if_pos (by rw [hbm, hclen])]
    rfl
  · right
    refine ⟨by omega, List.zipWith (fun row x => row.set k x) b (col k), by rw [lookup_dictSet, if_pos rfl], by simp [hbm, hclen], ?_, ?_⟩
    · intro row hrow
      rw [List.mem_iff_getElem?] at hrow
      obtain ⟨r, hr⟩ := hrow
      rw [List.getElem?_zipWith] at hr
      cases hbr' : b[r]? with
      | none => rw [hbr'] at hr; simp at hr
      | some row0 =>
        cases hc : (col k)[r]? with
        | none => rw [hbr', hc] at hr; simp at hr
        | some x =>
          rw [hbr', hc] at hr
          simp only [Option.some.injEq] at hr
          rw [← hr, List.length_set]
          exact hbr row0 (List.mem_of_getElem? hbr')
    · intro i hi r x hx
      have hrm : r < m := by
        by_cases hik : i = k
        · subst hik; rw [← hclen]; exact (List.getElem?_eq_some_iff.mp hx).1
        · obtain ⟨row, h1, _⟩ := hbe i (by omega) r x hx
          rw [← hbm]; exact (List.getElem?_eq_some_iff.mp h1).1
      have hbr0 : b[r]? = some (b[r]'(by omega)) := List.getElem?_eq_getElem _
      have hc0 : (col k)[r]? = some ((col k)[r]'(by omega)) := List.getElem?_eq_getElem _
      refine ⟨(b[r]'(by omega)).set k ((col k)[r]'(by omega)), by rw [List.getElem?_zipWith, hbr0, hc0], ?_⟩
      by_cases hik : i = k
      · subst hik
        rw [List.getElem?_set_self (by rw [hbr _ (List.getElem_mem _)]; exact hk), ← hc0, hx]
      · obtain ⟨row, h1, h2⟩ := hbe i (by omega) r x hx
        rw [hbr0] at h1
        cases h1
        rw [List.getElem?_set_ne (Ne.symm hik), h2]
  · intro key hkey
    rw [lookup_dictSet, if_neg hkey]

theorem linUnknowns_spec (h : K) (p : Str) (us : List (Str × Nat)) (hnd : (us.map Prod.fst).Nodup) (n k : Nat) (col : Str → Nat → List K) (cus : List (Str × EVal (Cx K))) (hk : k < n)
    (hv : ∀ uw ∈ us, ∃ v, cus.lookup uw.1 = some v ∧ (v.flat.map fun z => z.im / h) = col uw.1 k ∧ v.flat.length = uw.2) (J : List ((Str × Str) × List (List K)))
    (hb : ∀ uw ∈ us, Blk J uw.1 p uw.2 n k (col uw.1)) :
    ∃ J', (us.map Prod.fst).foldlM (linUnknown h p n k cus) J = .ok J' ∧ (∀ uw ∈ us, Blk J' uw.1 p uw.2 n (k + 1) (col uw.1)) ∧
      ∀ key : Str × Str, key.2 ≠ p ∨ key.1 ∉ us.map Prod.fst → J'.lookup key = J.lookup key := by
  induction us generalizing J with
  | nil => exact ⟨J, rfl, by simp, fun _ _ => rfl⟩
  | cons uw us ih =>
    rw [List.map_cons, List.nodup_cons] at hnd
    obtain ⟨v, h1, h2, h3⟩ := hv uw (by simp)
    obtain ⟨J1, e1, e2, e3⟩ := linUnknown_spec h p uw.1 uw.2 n k (col uw.1) cus J hk v h1 h2 h3 (hb uw (by simp))
    have hother : ∀ x ∈ us, x.1 ≠ uw.1 := fun x hx he => hnd.1 (List.mem_map.mpr ⟨x, hx, he⟩)
    obtain ⟨J', f1, f2, f3⟩ := ih hnd.2 (fun x hx => hv x (by simp [hx])) J1 (by
      intro x hx
      have := hb x (by simp [hx])
      unfold Blk at this ⊢
      rw [e3 (x.1, p) (by simp [hother x hx])]
      exact this)
    refine ⟨J', ?_, ?_, ?_⟩
    · rw [List.map_cons, List.foldlM_cons, e1]; exact f1
    · intro x hx
      rcases List.mem_cons.mp hx with rfl | hx
      · unfold Blk at e2 ⊢
        rw [f3 (x.1, p) (Or.inr hnd.1)]
        exact e2
      · exact f2 x hx
    · intro key hkey
      rw [f3 key (by
        rcases hkey with hkey | hkey
        · exact Or.inl hkey
        · exact Or.inr (fun hm => hkey (by simp only [List.map_cons, List.mem_cons]; exact Or.inr hm)))]
      apply e3
      intro he
      rcases hkey with hkey | hkey
      · exact hkey (by rw [he])
      · exact hkey (by rw [he]; simp)

/-- The sizes of the unknowns. -/
def sizesOf (us : List (Str × EVal K)) : List (Str × Nat) := us.map fun kv => (kv.1, kv.2.flat.length)

theorem sizesOf_keys (us : List (Str × EVal K)) : (sizesOf us).map Prod.fst = us.map Prod.fst := by
  simp [sizesOf, Function.comp_def]

theorem linearize_blocks (stmts : List (EAsg K)) (h : K) (ps us : List (Str × EVal K)) (hps : (ps.map Prod.fst).Nodup) (hus : (us.map Prod.fst).Nodup)
    (cus : Str → Nat → List (Str × EVal (Cx K))) (hcs : ∀ pv ∈ ps, ∀ i < pv.2.flat.length, csRun stmts h ps us pv.1 i = .ok (cus pv.1 i) ∧
      ∀ uw ∈ us, ∃ v, (cus pv.1 i).lookup uw.1 = some v ∧ v.flat.length = uw.2.flat.length) :
    ∃ J, execLinearize stmts h ps us = .ok J ∧ ∀ pv ∈ ps, ∀ uw ∈ us,
      Blk J uw.1 pv.1 uw.2.flat.length pv.2.flat.length pv.2.flat.length (fun i => (((cus pv.1 i).lookup uw.1).getD (.arr [])).flat.map fun z => z.im / h) := by
  have colEq : ∀ pv ∈ ps, ∀ i < pv.2.flat.length, ∀ uw ∈ sizesOf us, ∃ v, (cus pv.1 i).lookup uw.1 = some v ∧
      (v.flat.map fun z => z.im / h) = (fun (u : Str) i => (((cus pv.1 i).lookup u).getD (.arr [])).flat.map fun z => z.im / h) uw.1 i ∧ v.flat.length = uw.2 := by
    intro pv hpv i hi uw huw
    obtain ⟨x, hx, rfl⟩ := List.mem_map.mp huw
    obtain ⟨v, h1, h2⟩ := (hcs pv hpv i hi).2 x hx
    exact ⟨v, h1, by simp [h1], h2⟩
  have hsk := sizesOf_keys us
  -- one parameter
  have hparam : ∀ pv ∈ ps, ∀ J, (∀ uw ∈ us, J.lookup (uw.1, pv.1) = none) → ∃ J', linParam stmts h ps us J pv = .ok J' ∧
      (∀ uw ∈ us, Blk J' uw.1 pv.1 uw.2.flat.length pv.2.flat.length pv.2.flat.length (fun i => (((cus pv.1 i).lookup uw.1).getD (.arr [])).flat.map fun z => z.im / h)) ∧
      ∀ key : Str × Str, key.2 ≠ pv.1 → J'.lookup key = J.lookup key := by
    intro pv hpv J hJ
    unfold linParam
    obtain ⟨J', h1, h2⟩ := foldlM_prefix (linEntry stmts h ps us pv.1 pv.2.flat.length) (List.range pv.2.flat.length)
      (fun pre J' => (∀ uw ∈ sizesOf us, Blk J' uw.1 pv.1 uw.2 pv.2.flat.length pre.length (fun i => (((cus pv.1 i).lookup uw.1).getD (.arr [])).flat.map fun z => z.im / h)) ∧
        ∀ key : Str × Str, key.2 ≠ pv.1 → J'.lookup key = J.lookup key)
      (by
        rintro pre k post J1 hsplit ⟨hb, hfr⟩
        have hk : k = pre.length ∧ k < pv.2.flat.length := by
          have h1 : (List.range pv.2.flat.length)[pre.length]? = some k := by rw [hsplit]; simp
          rw [List.getElem?_range (by have := congrArg List.length hsplit; simp at this; omega)] at h1
          cases h1
          have := congrArg List.length hsplit
          simp at this
          exact ⟨rfl, by omega⟩
        obtain ⟨hkp, hkn⟩ := hk
        obtain ⟨J2, e1, e2, e3⟩ := linUnknowns_spec h pv.1 (sizesOf us) (by rw [hsk]; exact hus) pv.2.flat.length k
          (fun u i => (((cus pv.1 i).lookup u).getD (.arr [])).flat.map fun z => z.im / h) (cus pv.1 k) hkn (colEq pv hpv k hkn) J1 (by rw [hkp]; exact hb)
        refine ⟨J2, ?_, ?_, ?_⟩
        · unfold linEntry
          rw [(hcs pv hpv k hkn).1]
          rw [hsk] at e1
          exact e1
        · rw [List.length_append, List.length_singleton, ← hkp]; exact e2
        · intro key hkey
          rw [e3 key (Or.inl hkey), hfr key hkey])
      J ⟨by
        intro uw huw
        obtain ⟨x, hx, rfl⟩ := List.mem_map.mp huw
        exact Or.inl ⟨rfl, hJ x hx⟩, fun _ _ => rfl⟩
    refine ⟨J', h1, ?_, h2.2⟩
    intro uw huw
    have := h2.1 (uw.1, uw.2.flat.length) (List.mem_map.mpr ⟨uw, huw, rfl⟩)
    simpa using this
  -- all parameters
  unfold execLinearize
  obtain ⟨J, h1, h2⟩ := foldlM_prefix (linParam stmts h ps us) ps
    (fun pre J => (∀ pv ∈ pre, ∀ uw ∈ us, Blk J uw.1 pv.1 uw.2.flat.length pv.2.flat.length pv.2.flat.length (fun i => (((cus pv.1 i).lookup uw.1).getD (.arr [])).flat.map fun z => z.im / h)) ∧
      ∀ key : Str × Str, key.2 ∉ pre.map Prod.fst → J.lookup key = none)
    (by
      rintro pre pv post J1 hsplit ⟨hb, hfr⟩
      have hpv : pv ∈ ps := by rw [hsplit]; simp
      have hnot : pv.1 ∉ pre.map Prod.fst := by
        rw [hsplit, List.map_append, List.map_cons, List.nodup_append] at hps
        intro hm
        exact hps.2.2 _ hm _ (by simp) rfl
      obtain ⟨J2, e1, e2, e3⟩ := hparam pv hpv J1 (fun uw _ => hfr (uw.1, pv.1) hnot)
      refine ⟨J2, e1, ?_, ?_⟩
      · intro x hx uw huw
        rcases List.mem_append.mp hx with hx | hx
        · have := hb x hx uw huw
          unfold Blk at this ⊢
          have hne : x.1 ≠ pv.1 := fun he => hnot (by rw [← he]; exact List.mem_map_of_mem hx)
          rw [e3 (uw.1, x.1) hne]
          exact this
        · rw [List.mem_singleton.mp hx]; exact e2 uw huw
      · intro key hkey
        rw [List.map_append, List.mem_append, not_or] at hkey
        rw [e3 key (by simpa using hkey.2), hfr key hkey.1])
    [] ⟨by simp, fun _ _ => rfl⟩
  exact ⟨J, h1, h2.1⟩

end

/-! ### The steps as images of one run over polynomials -/

section
open Polynomial
variable {K : Type} [Field K] [DecidableEq K]

theorem dictSet_same {α : Type} (d : List (Str × α)) (k : Str) (v : α) (h : d.lookup k = some v) : dictSet d k v = d := by
  induction d with
  | nil => cases h
  | cons kv d ih =>
    obtain ⟨a, b⟩ := kv
    rw [List.lookup_cons] at h
    simp only [dictSet]
    by_cases hk : a = k
    · subst hk
      simp only [beq_self_eq_true] at h
      cases h
      rw [if_pos rfl]
    · have : (k == a) = false := by simpa using fun h => hk h.symm
      rw [this] at h
      rw [if_neg hk, ih h]

theorem stepAt_map {R S : Type} [CommRing R] [CommRing S] (g : R →+* S) (i : Nat) (d : R) (v : EVal R) : (stepAt i d v).map g = stepAt i (g d) (v.map g) := by
  cases v with
  | sc x => simp [stepAt, EVal.map]
  | arr l =>
    simp only [stepAt, EVal.map, EVal.arr.injEq]
    apply List.ext_getElem?
    intro j
    simp only [List.getElem?_map, List.getElem?_modify]
    cases l[j]? with
    | none => simp
    | some x => by_cases h : i = j <;> simp [h]

theorem stepAt_zero {R : Type} [CommRing R] (i : Nat) (v : EVal R) : stepAt i 0 v = v := by
  cases v with
  | sc x => simp [stepAt]
  | arr l =>
    simp only [stepAt, EVal.arr.injEq]
    apply List.ext_getElem?
    intro j
    simp only [List.getElem?_modify]
    cases l[j]? with
    | none => simp
    | some x => by_cases h : i = j <;> simp [h]

theorem bump_eq {R : Type} [CommRing R] (i : Nat) (t : R) (v : EVal R) : bumpVal i t v = stepAt i t v := by
  cases v with
  | sc x => rfl
  | arr l =>
    simp only [stepAt, bumpVal, EVal.arr.injEq]
    apply List.ext_getElem?
    intro j
    simp only [List.getElem?_modify, List.getElem?_mapIdx]
    cases l[j]? with
    | none => simp
    | some x => by_cases h : i = j
                · subst h; simp
                · simp [h, Ne.symm h]

theorem bumpDict_eq {R : Type} [CommRing R] (ps : List (Str × EVal R)) (hps : (ps.map Prod.fst).Nodup) (p : Str) (v : EVal R) (hv : (p, v) ∈ ps) (i : Nat) (t : R) :
    bumpDict ps p i t = dictSet ps p (stepAt i t v) := by
  induction ps with
  | nil => cases hv
  | cons kv ps ih =>
    obtain ⟨a, b⟩ := kv
    rw [List.map_cons, List.nodup_cons] at hps
    simp only [bumpDict, List.map_cons, dictSet] at ih ⊢
    by_cases ha : a = p
    · subst ha
      have hb : b = v := by
        rcases List.mem_cons.mp hv with h | h
        · simpa using h.symm
        · exact absurd (List.mem_map.mpr ⟨_, h, rfl⟩) hps.1
      subst hb
      rw [if_pos rfl, if_pos rfl, bump_eq]
      congr 1
      conv_rhs => rw [← List.map_id ps]
      apply List.map_congr_left
      intro kv hkv
      rw [if_neg (fun he => hps.1 (List.mem_map.mpr ⟨kv, hkv, he⟩))]
      rfl
    · have hv' : (p, v) ∈ ps := by
        rcases List.mem_cons.mp hv with h | h
        · exact absurd (by simpa using (congrArg Prod.fst h).symm) ha
        · exact h
      rw [if_neg ha, if_neg ha, ih hps.2 hv']

theorem mapVals_comp {α β γ : Type} (f : α → β) (g : β → γ) (d : List (Str × α)) : mapVals g (mapVals f d) = mapVals (fun x => g (f x)) d := by
  simp [mapVals, Function.comp_def]

theorem pmap_comp {α β γ : Type} (f : α → β) (g : β → γ) (v : EVal α) : (v.map f).map g = v.map fun x => g (f x) := by
  cases v <;> simp [EVal.map, Function.comp_def]

theorem pmap_id {α : Type} (v : EVal α) : v.map (fun x => x) = v := by cases v <;> simp [EVal.map]

theorem mapVals_id {α : Type} (d : List (Str × α)) (f : α → α) (h : ∀ x, f x = x) : mapVals f d = d := by
  simp only [mapVals, h]
  exact (List.map_congr_left (fun _ _ => rfl)).trans (List.map_id _)

theorem flat_map {α β : Type} (f : α → β) (v : EVal α) : (v.map f).flat = v.flat.map f := by cases v <;> simp [EVal.map, EVal.flat]

/-- The run over polynomials in the step, whose values give the runs with real and with imaginary step. -/
theorem poly_run (stmts : List (EAsg K)) (ps us us' : List (Str × EVal K)) (hps : (ps.map Prod.fst).Nodup) (hrun : execRun setStrict id stmts ps us = .ok us') (p : Str) (v : EVal K) (hv : (p, v) ∈ ps) (i : Nat) :
    ∃ W : List (Str × EVal K[X]), (∀ t, execRun setVec id stmts (bumpDict ps p i t) us = .ok (mapVals (EVal.map (Polynomial.eval t)) W)) ∧
      (∀ h, csRun stmts h ps us p i = .ok (mapVals (EVal.map (Polynomial.eval₂ toCxHom (imagU h))) W)) ∧
      ∀ uw ∈ us, (us.map Prod.fst).Nodup → ∃ w, W.lookup uw.1 = some w ∧ w.flat.length = uw.2.flat.length := by
  have hlk : ps.lookup p = some v := (lookup_eq_some_iff_of_nodup _ _ _ hps).mpr hv
  have hC : ∀ t : K, ∀ d : List (Str × EVal K), mapVals (EVal.map (Polynomial.evalRingHom t)) (mapVals (EVal.map (C : K → K[X])) d) = d := by
    intro t d
    rw [mapVals_comp]
    apply mapVals_id
    intro x
    rw [pmap_comp]
    simp [pmap_id]
  have hstart : ∀ t : K, mapVals (EVal.map (Polynomial.evalRingHom t)) (dictSet (mapVals (EVal.map (C : K → K[X])) ps) p (stepAt i X (v.map C))) = dictSet ps p (stepAt i t v) := by
    intro t
    rw [← dictSet_mapVals, hC]
    congr 1
    rw [stepAt_map, pmap_comp]
    simp [pmap_id]
  have hφ : ∀ t : K, (fun k => Polynomial.evalRingHom t (C k)) = (id : K → K) := by intro t; funext k; simp
  have h0 := execRun_nat (Polynomial.evalRingHom (0 : K)) (C : K → K[X]) setStrict setStrict (fun o v => setStrict_nat _ o v) stmts
    (dictSet (mapVals (EVal.map (C : K → K[X])) ps) p (stepAt i X (v.map C))) (mapVals (EVal.map (C : K → K[X])) us)
  rw [hφ, hstart, hC, stepAt_zero, dictSet_same ps p v hlk, hrun] at h0
  cases hW : execRun setStrict (C : K → K[X]) stmts (dictSet (mapVals (EVal.map (C : K → K[X])) ps) p (stepAt i X (v.map C))) (mapVals (EVal.map (C : K → K[X])) us) with
  | error e => rw [hW] at h0; cases h0
  | ok W =>
    refine ⟨W, ?_, ?_, ?_⟩
    · intro t
      apply execRun_strict setVec setVec_same
      have ht := execRun_nat (Polynomial.evalRingHom t) (C : K → K[X]) setStrict setStrict (fun o v => setStrict_nat _ o v) stmts
        (dictSet (mapVals (EVal.map (C : K → K[X])) ps) p (stepAt i X (v.map C))) (mapVals (EVal.map (C : K → K[X])) us)
      rw [hφ, hstart, hC, hW] at ht
      rw [bumpDict_eq ps hps p v hv, ht]
      rfl
    · intro h
      unfold csRun
      simp only
      rw [lookup_mapVals, hlk]
      simp only [Option.map_some]
      apply execRun_strict setTmp setTmp_same
      have hc := execRun_nat (Polynomial.eval₂RingHom toCxHom (imagU h)) (C : K → K[X]) setStrict setStrict (fun o v => setStrict_nat _ o v) stmts
        (dictSet (mapVals (EVal.map (C : K → K[X])) ps) p (stepAt i X (v.map C))) (mapVals (EVal.map (C : K → K[X])) us)
      have e1 : (fun k : K => Polynomial.eval₂RingHom toCxHom (imagU h) (C k)) = toCx := by funext k; simp [toCxHom]
      have e2 : ∀ d : List (Str × EVal K), mapVals (EVal.map (Polynomial.eval₂RingHom toCxHom (imagU h))) (mapVals (EVal.map (C : K → K[X])) d) = mapVals (EVal.map toCx) d := by
        intro d
        rw [mapVals_comp]
        congr 1
        funext x
        rw [pmap_comp, e1]
      rw [e1, ← dictSet_mapVals, e2, e2, hW] at hc
      rw [stepAt_map, pmap_comp, e1] at hc
      have e3 : Polynomial.eval₂RingHom toCxHom (imagU h) X = (⟨0, h⟩ : Cx K) := by simp [imagU]
      rw [e3] at hc
      rw [hc]
      rfl
    · intro uw huw hnd
      have hl : us.lookup uw.1 = some uw.2 := (lookup_eq_some_iff_of_nodup _ _ _ hnd).mpr huw
      obtain ⟨w, h1, h2⟩ := execRun_form _ _ _ _ _ hW uw.1 (uw.2.map C) (by rw [lookup_mapVals, hl]; rfl)
      refine ⟨w, h1, ?_⟩
      have : (uw.2.map (C : K → K[X])).flat.length = uw.2.flat.length := by rw [flat_map, List.length_map]
      rw [← this]
      revert h2
      cases uw.2.map (C : K → K[X]) <;> cases w <;> simp [SameForm, EVal.flat] <;> exact fun h => h.symm

end

/-! ### C72 -/

open Polynomial in
theorem poly_bound (q : ℝ[X]) : ∃ c : ℝ, ∀ h : ℝ, |h| ≤ 1 → |q.eval h| ≤ c := by
  obtain ⟨c, hc⟩ := (isCompact_Icc (a := (-1 : ℝ)) (b := 1)).exists_bound_of_continuousOn q.continuous.continuousOn
  exact ⟨c, fun h hh => by simpa using hc h (abs_le.mp hh)⟩

/-- **C72, the derivatives.** Let the statements run at the current point without storing a number in an array or an array in a number. Take an entry `i` of a parameter `p` and an entry `r` of an unknown `u`. Then the entry of the
unknown after `solve_nonlinear`, as a function of a change `t` of the entry of the parameter, has a derivative `D`, and for every step size up to one `linearize` succeeds and returns for `(u, p)` an
array with one row for every entry of the unknown and one column for every entry of the parameter, whose entry `(r, i)` differs from `D` by at most a constant times the square of the step size. Statements are
polynomial. -/
theorem C72_derivative_partial (stmts : List (EAsg ℝ)) (ps us us' : List (Str × EVal ℝ)) (hps : (ps.map Prod.fst).Nodup) (hus : (us.map Prod.fst).Nodup)
    (hrun : execRun setStrict id stmts ps us = .ok us') (p u : Str) (v w : EVal ℝ) (hp : (p, v) ∈ ps) (hu : (u, w) ∈ us) (i r : Nat) (hi : i < v.flat.length) (hr : r < w.flat.length) :
    ∃ (f : ℝ → ℝ) (D c : ℝ), (∀ t, ∃ ut wt, execRun setVec id stmts (bumpDict ps p i t) us = .ok ut ∧ ut.lookup u = some wt ∧ wt.flat[r]? = some (f t)) ∧ HasDerivAt f D 0 ∧
      ∀ h, h ≠ 0 → |h| ≤ 1 → ∃ J b row x, execLinearize stmts h ps us = .ok J ∧ J.lookup (u, p) = some b ∧ b.length = w.flat.length ∧ (∀ row ∈ b, row.length = v.flat.length) ∧
        b[r]? = some row ∧ row[i]? = some x ∧ |x - D| ≤ c * h ^ 2 := by
  classical
  obtain ⟨W, h1, h2, h3⟩ := poly_run stmts ps us us' hps hrun p v hp i
  obtain ⟨pw, hw1, hw2⟩ := h3 (u, w) hu hus
  have hrp : r < pw.flat.length := by rw [hw2]; exact hr
  obtain ⟨q, q', hq⟩ := poly_imag (pw.flat[r]'hrp)
  obtain ⟨c, hc⟩ := poly_bound q
  refine ⟨fun t => (pw.flat[r]'hrp).eval t, (pw.flat[r]'hrp).coeff 1, c, ?_, ?_, ?_⟩
  · intro t
    refine ⟨_, pw.map (Polynomial.eval t), h1 t, by rw [lookup_mapVals, hw1]; rfl, ?_⟩
    rw [flat_map, List.getElem?_map, List.getElem?_eq_getElem hrp]
    rfl
  · have := (pw.flat[r]'hrp).hasDerivAt (0 : ℝ)
    rwa [← Polynomial.coeff_zero_eq_eval_zero, Polynomial.coeff_derivative, show (((0 : ℕ) : ℝ) + 1) = 1 by norm_num, mul_one] at this
  · intro h hh0 hh1
    have hall : ∀ pv ∈ ps, ∀ j, ∃ cu, csRun stmts h ps us pv.1 j = .ok cu ∧ ∀ uw ∈ us, ∃ x, cu.lookup uw.1 = some x ∧ x.flat.length = uw.2.flat.length := by
      intro pv hpv j
      obtain ⟨W', _, g2, g3⟩ := poly_run stmts ps us us' hps hrun pv.1 pv.2 hpv j
      refine ⟨_, g2 h, fun uw huw => ?_⟩
      obtain ⟨y, y1, y2⟩ := g3 uw huw hus
      exact ⟨y.map (Polynomial.eval₂ toCxHom (imagU h)), by rw [lookup_mapVals, y1]; rfl, by rw [flat_map, List.length_map, y2]⟩
    have hex : ∀ (n : Str) (j : Nat), ∃ cu, ∀ pv ∈ ps, pv.1 = n → csRun stmts h ps us pv.1 j = .ok cu ∧ ∀ uw ∈ us, ∃ x, cu.lookup uw.1 = some x ∧ x.flat.length = uw.2.flat.length := by
      intro n j
      by_cases hn : ∃ pv ∈ ps, pv.1 = n
      · obtain ⟨pv, hpv, rfl⟩ := hn
        obtain ⟨cu, a, b⟩ := hall pv hpv j
        refine ⟨cu, fun pv' _ he => ?_⟩
        rw [he]; exact ⟨a, b⟩
      · exact ⟨[], fun pv hpv he => absurd ⟨pv, hpv, he⟩ hn⟩
    choose cus hcus using hex
    obtain ⟨J, j1, j2⟩ := linearize_blocks stmts h ps us hps hus cus (fun pv hpv j _ => hcus pv.1 j pv hpv rfl)
    have hci : cus p i = mapVals (EVal.map (Polynomial.eval₂ toCxHom (imagU h))) W := by
      have a := (hcus p i (p, v) hp rfl).1
      rw [h2 h] at a
      exact (Except.ok.inj a).symm
    rcases j2 (p, v) hp (u, w) hu with ⟨h0, _⟩ | ⟨_, b, b1, b2, b3, b4⟩
    · simp only at h0; omega
    · obtain ⟨row, r1, r2⟩ := b4 i hi r (((pw.flat[r]'hrp).eval₂ toCxHom (imagU h)).im / h) (by
        simp only [hci, lookup_mapVals, hw1, Option.map_some, Option.getD_some, flat_map, List.getElem?_map, List.getElem?_eq_getElem hrp])
      refine ⟨J, b, row, _, j1, b1, b2, b3, r1, r2, ?_⟩
      rw [(hq h).1]
      have : (h * (pw.flat[r]'hrp).coeff 1 + h ^ 3 * q.eval h) / h - (pw.flat[r]'hrp).coeff 1 = q.eval h * h ^ 2 := by
        field_simp; ring
      rw [this, abs_mul, abs_of_nonneg (sq_nonneg h)]
      exact mul_le_mul_of_nonneg_right (hc h hh1) (sq_nonneg h)

/-- `y = x*x*x; z = y + a; s = sum(a)` -/
def linStmts (K : Type) : List (EAsg K) :=
  [.whole ['y'] (.mul (.mul (.var ['x']) (.var ['x'])) (.var ['x'])), .whole ['z'] (.add (.var ['y']) (.var ['a'])), .whole ['s'] (.sum (.var ['a']))]

def linPs (K : Type) [Field K] : List (Str × EVal K) := [(['a'], .arr [1, 2]), (['x'], .sc 2)]
def linUs (K : Type) [Field K] : List (Str × EVal K) := [(['s'], .sc 0), (['y'], .sc 0), (['z'], .arr [0, 0])]

example : execRun setStrict id (linStmts ℚ) (linPs ℚ) (linUs ℚ) = .ok [(['s'], .sc 3), (['y'], .sc 8), (['z'], .arr [9, 10])] := by decide +kernel

example : ∃ us', execRun setStrict id (linStmts ℝ) (linPs ℝ) (linUs ℝ) = .ok us' := by
  refine ⟨[(['s'], .sc (1 + (2 + 0))), (['y'], .sc (2 * 2 * 2)), (['z'], .arr [2 * 2 * 2 + 1, 2 * 2 * 2 + 2])], ?_⟩
  simp [execRun, linStmts, linPs, linUs, execAsg, evalE, upGet, bcast, setWith, setStrict, SameForm, dictSet, sumVal, bind, Except.bind, pure, Except.pure, List.lookup]

/-- With step `1/10` the derivative of the cube is off by the square of the step. -/
example : execLinearize (linStmts ℚ) (1 / 10) (linPs ℚ) (linUs ℚ) = .ok
    [((['s'], ['a']), [[1, 1]]), ((['y'], ['a']), [[0, 0]]), ((['z'], ['a']), [[1, 0], [0, 1]]),
     ((['s'], ['x']), [[0]]), ((['y'], ['x']), [[12 - 1 / 100]]), ((['z'], ['x']), [[12 - 1 / 100], [12 - 1 / 100]])] := by decide +kernel

/-- **C72, a number stored in an array.** With `y = sum(x)` for an array `y` of three entries, `solve_nonlinear` fills the array, but `linearize` returns one row for `y` instead of three. -/
theorem C72_broadcast_refuted :
    execRun (R := ℚ) setVec id [.whole ['y'] (.sum (.var ['x']))] [(['x'], .arr [1, 2])] [(['y'], .arr [0, 0, 0])] = .ok [(['y'], .arr [3, 3, 3])] ∧
    execLinearize (K := ℚ) [.whole ['y'] (.sum (.var ['x']))] (1 / 1000000) [(['x'], .arr [1, 2])] [(['y'], .arr [0, 0, 0])] = .ok [((['y'], ['x']), [[1, 1]])] := by
  decide +kernel

/-- A parameter read by a statement before the statement that computes it: the value of the previous execution counts as a constant. -/
theorem finding_late_assignment :
    execLinearize (K := ℚ) [.whole ['y'] (.var ['z']), .whole ['z'] (.var ['x'])] (1 / 1000000) [(['x'], .sc 1)] [(['y'], .sc 0), (['z'], .sc 0)] =
      .ok [((['y'], ['x']), [[0]]), ((['z'], ['x']), [[1]])] := by decide +kernel


theorem entryAt_map {R S : Type} (f : R → S) (l : List R) (i : Nat) : entryAt (.arr (l.map f)) i = (entryAt (.arr l) i).map f := by
  match l with
  | [] => rfl
  | [x] => rfl
  | x :: y :: l => exact List.getElem?_map (f := f) (l := x :: y :: l)

theorem bcast_entry {R : Type} (f : R → R → R) (a b v : EVal R) (h : bcast f a b = .ok v) (i : Nat) : entryAt v i = (entryAt a i).bind fun x => (entryAt b i).map fun y => f x y := by
  cases a with
  | sc x =>
    cases b with
    | sc y => cases (Except.ok.inj h); rfl
    | arr m => cases (Except.ok.inj h); rw [entryAt_map]; rfl
  | arr l =>
    cases b with
    | sc y => cases (Except.ok.inj h); rw [entryAt_map]; cases entryAt (.arr l) i <;> rfl
    | arr m =>
      simp only [bcast] at h
      split_ifs at h with hl
      · cases (Except.ok.inj h)
        match l, m, hl with
        | [], [], _ => rfl
        | [x], [y], _ => rfl
        | x :: x' :: l, y :: y' :: m, _ =>
          simp only [entryAt, List.zipWith_cons_cons]
          rw [← List.zipWith_cons_cons, ← List.zipWith_cons_cons, List.getElem?_zipWith]
          cases (x :: x' :: l)[i]? <;> cases (y :: y' :: m)[i]? <;> rfl
      · match l, m, hl, h with
        | [x], m, _, h => cases (Except.ok.inj h); rw [entryAt_map]; rfl
        | [], [y], _, h => cases (Except.ok.inj h); rfl
        | x :: x' :: l, [y], _, h => cases (Except.ok.inj h); rw [entryAt_map]; cases entryAt (.arr (x :: x' :: l)) i <;> rfl

/-- **C72, what the statements mean.** Sums, differences and products of two values are taken entry by entry, a number or an array with one entry being used for every entry of the other value; so are signs; `sum` adds all entries. -/
theorem C72_elementwise {K R : Type} [CommRing R] (φ : K → R) (ps us : List (Str × EVal R)) (a b : EExpr K) (x y v : EVal R) (ha : evalE φ ps us a = .ok x) (hb : evalE φ ps us b = .ok y) :
    (evalE φ ps us (.add a b) = .ok v → ∀ i, entryAt v i = (entryAt x i).bind fun p => (entryAt y i).map fun q => p + q) ∧
    (evalE φ ps us (.sub a b) = .ok v → ∀ i, entryAt v i = (entryAt x i).bind fun p => (entryAt y i).map fun q => p - q) ∧
    (evalE φ ps us (.mul a b) = .ok v → ∀ i, entryAt v i = (entryAt x i).bind fun p => (entryAt y i).map fun q => p * q) ∧
    (∃ w, evalE φ ps us (.neg a) = .ok w ∧ ∀ i, entryAt w i = (entryAt x i).map fun p => -p) ∧
    evalE φ ps us (.sum a) = .ok (.sc x.flat.sum) := by
  refine ⟨?_, ?_, ?_, ?_, ?_⟩
  · intro h i; simp only [evalE, ha, hb, bind, Except.bind] at h; exact bcast_entry _ x y v h i
  · intro h i; simp only [evalE, ha, hb, bind, Except.bind] at h; exact bcast_entry _ x y v h i
  · intro h i; simp only [evalE, ha, hb, bind, Except.bind] at h; exact bcast_entry _ x y v h i
  · refine ⟨negVal x, by simp only [evalE, ha, bind, Except.bind], fun i => ?_⟩
    cases x with
    | sc x => rfl
    | arr l => exact entryAt_map _ l i
  · simp only [evalE, ha, bind, Except.bind]
    cases x with
    | sc x => simp [sumVal, EVal.flat]
    | arr l => rfl

/-- Two arrays of different lengths above one cannot be combined. -/
theorem C72_mismatch {K R : Type} [CommRing R] (φ : K → R) (ps us : List (Str × EVal R)) (a b : EExpr K) (l m : List R) (ha : evalE φ ps us a = .ok (.arr l)) (hb : evalE φ ps us b = .ok (.arr m))
    (h : l.length ≠ m.length) (hl : l.length ≠ 1) (hm : m.length ≠ 1) :
    evalE φ ps us (.add a b) = .error .ValueError ∧ evalE φ ps us (.sub a b) = .error .ValueError ∧ evalE φ ps us (.mul a b) = .error .ValueError := by
  have key : ∀ f : R → R → R, bcast f (.arr l) (.arr m) = .error .ValueError := by
    intro f
    simp only [bcast, if_neg h]
    match l, m, hl, hm with
    | [], [], _, _ => rfl
    | [], y :: y' :: m, _, _ => rfl
    | x :: x' :: l, [], _, _ => rfl
    | x :: x' :: l, y :: y' :: m, _, _ => rfl
  simp only [evalE, ha, hb, bind, Except.bind, key, and_self]

end OpenMDAO
