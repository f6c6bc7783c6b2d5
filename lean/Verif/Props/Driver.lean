import Verif.Lemmas.Driver
import Mathlib.Tactic.FieldSimp
import Mathlib.Tactic.Ring
import Mathlib.Tactic.Linarith
import Mathlib.Algebra.Order.Ring.Rat
/-!
# Properties C20 - C23 (driver scaling, bounds, registration)
-/
namespace OpenMDAO

variable {K : Type} [Field K] [LinearOrder K]

/-- Specification: positions of the model variable the driver works on. -/
def VoiMeta.positions (m : VoiMeta K) (n : Nat) : List Nat := m.indices.getD (List.range n)

/-- Specification: sensible design variable metadata for a variable of flat size `n`: scalers and adders are
floats or fit the selected entries, no scaler is zero, selected entries are distinct and exist. -/
structure VoiOk (m : VoiMeta K) (n : Nat) : Prop where
  adder : m.adder.Fits (m.positions n).length
  scaler : m.scaler.Fits (m.positions n).length
  nonzero : ∀ i x, m.scaler.at i = some x → x ≠ 0
  nodup : (m.positions n).Nodup
  bound : ∀ k ∈ m.positions n, k < n

theorem toModel_spec (m : VoiMeta K) {c : Nat} (h1 : m.adder.Fits c) (h2 : m.scaler.Fits c) (value : NumArr K)
    (hv : value.Fits c) : ∃ y z, divScaler m.scaler none value = .ok y ∧ subAdder m.adder none y = .ok z ∧ z.Fits c ∧
      ∀ i x sc ad, i < c → value.at i = some x → m.scaler.at i = some sc → m.adder.at i = some ad →
        z.at i = some (x / sc - ad) := by
  have e1 : ∃ z, divScaler m.scaler none value = .ok z ∧ z.Fits c ∧
      ∀ i x sc, i < c → value.at i = some x → m.scaler.at i = some sc → z.at i = some (x / sc) := by
    cases hs : m.scaler with
    | a l =>
      obtain ⟨z, z1, z2, z3, -⟩ := bc_spec (· / ·) hv (hs ▸ h2)
      exact ⟨z, z1, z2, fun i x sc hi hx hsc => z3 i x sc hi hx hsc⟩
    | s sc =>
      by_cases h : sc = 1
      · refine ⟨value, by simp [divScaler, h], hv, ?_⟩
        intro i x sc' hi hx hsc
        simp only [NumArr.at, Option.some.injEq] at hsc; subst hsc
        rw [hx, h, div_one]
      · obtain ⟨z, z1, z2, z3, -⟩ := bc_spec (· / ·) hv (hs ▸ h2)
        exact ⟨z, by simp only [divScaler, ne_eq, h, not_false_eq_true, if_true]; exact z1, z2,
          fun i x sc hi hx hsc => z3 i x sc hi hx hsc⟩
  obtain ⟨z, z1, z2, z3⟩ := e1
  refine ⟨z, ?_⟩
  cases hs : m.adder with
  | a l =>
    obtain ⟨y, y1, y2, y3, -⟩ := bc_spec (· - ·) z2 (hs ▸ h1)
    exact ⟨y, z1, y1, y2, fun i x sc ad hi hx hsc had => y3 i _ _ hi (z3 i x sc hi hx hsc) had⟩
  | s ad =>
    by_cases h : ad = 0
    · refine ⟨z, z1, by simp [subAdder, h], z2, ?_⟩
      intro i x sc ad' hi hx hsc had
      simp only [NumArr.at, Option.some.injEq] at had; subst had
      rw [z3 i x sc hi hx hsc, h, sub_zero]
    · obtain ⟨y, y1, y2, y3, -⟩ := bc_spec (· - ·) z2 (hs ▸ h1)
      exact ⟨y, z1, by simp only [subAdder, ne_eq, h, not_false_eq_true, if_true]; exact y1, y2,
        fun i x sc ad hi hx hsc had => y3 i _ _ hi (z3 i x sc hi hx hsc) had⟩

/-- reading: every selected entry, shifted and scaled -/
theorem getVoi_spec (m : VoiMeta K) (val : List K) (h : VoiOk m val.length) :
    ∃ l, getVoi m val = .ok (.a l) ∧ l.length = (m.positions val.length).length ∧
      ∀ (i p : Nat) x sc ad, (m.positions val.length)[i]? = some p → val[p]? = some x → m.scaler.at i = some sc →
        m.adder.at i = some ad → l[i]? = some ((x + ad) * sc) := by
  have flat : ∃ f, flatOf m val = .ok f ∧ f.length = (m.positions val.length).length ∧
      ∀ i p : Nat, (m.positions val.length)[i]? = some p → f[i]? = val[p]? := by
    cases hm : m.indices with
    | none =>
      refine ⟨val, by simp [flatOf, hm], by simp [VoiMeta.positions, hm], ?_⟩
      intro i p hp
      simp only [VoiMeta.positions, hm, Option.getD_none] at hp
      obtain ⟨h1, h2⟩ := List.getElem?_eq_some_iff.mp hp
      simp only [List.getElem_range] at h2
      rw [h2]
    | some ps =>
      have hp : m.positions val.length = ps := by simp [VoiMeta.positions, hm]
      obtain ⟨l, l1, l2, l3⟩ := npGet_positions val ps (fun k hk => h.bound k (by rw [hp]; exact hk))
      rw [hp]
      exact ⟨l, by simp only [flatOf, hm]; exact l1, l2, l3⟩
  obtain ⟨f, f1, f2, f3⟩ := flat
  obtain ⟨z, z1, z2, z3, z4⟩ := bc_spec (· + ·) (x := .a f) (m := (m.positions val.length).length) (.inl f2) h.adder
  obtain ⟨g, rfl, hg⟩ := z4 f rfl f2
  obtain ⟨y, y1, y2, y3, y4⟩ := bc_spec (· * ·) z2 h.scaler
  obtain ⟨k, rfl, hk⟩ := y4 g rfl hg
  have entry : ∀ (i p : Nat) x sc ad, (m.positions val.length)[i]? = some p → val[p]? = some x → m.scaler.at i = some sc →
        m.adder.at i = some ad → k[i]? = some ((x + ad) * sc) := by
    intro i p x sc ad hp hx hsc had
    have hi : i < (m.positions val.length).length := (List.getElem?_eq_some_iff.mp hp).1
    rw [← NumArr.at_full hk hi]
    exact y3 i _ _ hi (z3 i _ _ hi (by rw [NumArr.at_full f2 hi, f3 i p hp, hx]) had) hsc
  have full : applyScaling m f = .ok (.a k) := by
    unfold applyScaling; rw [z1]; exact y1
  unfold getVoi
  rw [f1]
  simp only [bind, Except.bind]
  by_cases hid : ∃ ad sc, m.scaler = .s sc ∧ m.adder = .s ad ∧ sc = 1 ∧ ad = 0
  · obtain ⟨ad, sc, e1, e2, rfl, rfl⟩ := hid
    refine ⟨f, by simp [e1, e2], f2, ?_⟩
    intro i p x sc ad hp hx hsc had
    rw [e1] at hsc; rw [e2] at had
    simp only [NumArr.at, Option.some.injEq] at hsc had; subst hsc had
    rw [f3 i p hp, hx]; simp
  · refine ⟨k, ?_, hk, entry⟩
    split
    · rename_i sc ad e1 e2
      rw [if_pos]
      · exact full
      · by_contra hc
        push Not at hc
        exact hid ⟨ad, sc, e1, e2, hc.1, hc.2⟩
    · exact full

theorem setDesvar_none (shape : VShape) (m : VoiMeta K) (value : NumArr K) (val : List K) (hne : val ≠ [])
    (hshape : m.indices ≠ none → shape = .d1) (h : VoiOk m val.length)
    (hv : value.Fits (m.positions val.length).length) :
    ∃ val', setDesvar shape m value none val = .ok val' ∧ val'.length = val.length ∧
      (∀ (i p : Nat) x sc ad, (m.positions val.length)[i]? = some p → value.at i = some x → m.scaler.at i = some sc →
        m.adder.at i = some ad → val'[p]? = some (x / sc - ad)) ∧
      (∀ p, p ∉ m.positions val.length → val'[p]? = val[p]?) := by
  obtain ⟨y, z, z0, z1, z2, z3⟩ := toModel_spec m h.adder h.scaler value hv
  have hn0 : val.length ≠ 0 := by simpa using hne
  have body : setDesvar shape m value none val = match m.indices with
      | some idx => assignIdx shape val idx z
      | none => assignWhole val z := by
    unfold setDesvar
    simp only [truthyIndex, hn0, if_false, setDesvarAt, z0, z1, bind, Except.bind]
    cases m.indices <;> rfl
  have fin : ∃ val', (match m.indices with
      | some idx => assignIdx shape val idx z
      | none => assignWhole val z) = .ok val' ∧ val'.length = val.length ∧
      (∀ i p : Nat, (m.positions val.length)[i]? = some p → val'[p]? = z.at i) ∧
      (∀ p, p ∉ m.positions val.length → val'[p]? = val[p]?) := by
    cases hm : m.indices with
    | none =>
      have hp : m.positions val.length = List.range val.length := by simp [VoiMeta.positions, hm]
      rw [hp] at z2 ⊢
      have := npAssign_fits val (.slice ⟨0, val.length, none⟩) (List.range val.length) (by
        have := window_positions (off := 0) (len := val.length) (n := val.length) (by omega)
        simpa [window] using this) List.nodup_range (by simp) z z2
      simp only [assignWhole]
      cases z <;> exact this
    | some ps =>
      have hp : m.positions val.length = ps := by simp [VoiMeta.positions, hm]
      have hnd := h.nodup; have hb := h.bound
      rw [hp] at z2 hnd hb ⊢
      have := npAssign_fits val (.arr ps) ps rfl hnd hb z z2
      rw [hshape (by simp [hm])]
      simp only [assignIdx]
      cases z <;> exact this
  obtain ⟨val', v1, v2, v3, v4⟩ := fin
  refine ⟨val', body.trans v1, v2, ?_, v4⟩
  intro i p x sc ad hp hx hsc had
  rw [v3 i p hp]
  exact z3 i x sc ad (List.getElem?_eq_some_iff.mp hp).1 hx hsc had

/-! ## C20 -/

/-- C20. Setting a design variable (1-D, or without index subset) to a driver value and reading it back gives
that driver value; the model receives `value/scaler - adder` in the selected entries and nothing else changes.
Missing for the full property: index subsets of two-dimensional variables, refuted below. -/
theorem C20_set_then_get_partial (shape : VShape) (m : VoiMeta K) (value : NumArr K) (val : List K) (hne : val ≠ [])
    (hshape : m.indices ≠ none → shape = .d1) (h : VoiOk m val.length)
    (hv : value.Fits (m.positions val.length).length) :
    ∃ val' l, setDesvar shape m value none val = .ok val' ∧ val'.length = val.length ∧
      getVoi m val' = .ok (.a l) ∧ l.length = (m.positions val.length).length ∧
      (∀ i, i < l.length → l[i]? = value.at i) ∧
      (∀ (i p : Nat) x sc ad, (m.positions val.length)[i]? = some p → value.at i = some x → m.scaler.at i = some sc →
        m.adder.at i = some ad → val'[p]? = some (x / sc - ad)) ∧
      (∀ p, p ∉ m.positions val.length → val'[p]? = val[p]?) := by
  obtain ⟨val', s1, s2, s3, s4⟩ := setDesvar_none shape m value val hne hshape h hv
  obtain ⟨l, g1, g2, g3⟩ := getVoi_spec m val' (by rw [s2]; exact h)
  rw [s2] at g2 g3
  refine ⟨val', l, s1, s2, g1, g2, ?_, s3, s4⟩
  intro i hi
  rw [g2] at hi
  obtain ⟨x, hx⟩ := NumArr.at_some hv hi
  obtain ⟨sc, hsc⟩ := NumArr.at_some h.scaler hi
  obtain ⟨ad, had⟩ := NumArr.at_some h.adder hi
  have hp : (m.positions val.length)[i]? = some (m.positions val.length)[i] := by simp [hi]
  rw [g3 i _ _ sc ad hp (s3 i _ x sc ad hp hx hsc had) hsc had, hx]
  have := h.nonzero i sc hsc
  congr 1
  field_simp
  ring

/-- C20. Setting the driver value that was just read leaves the model unchanged. Missing: as above. -/
theorem C20_get_then_set_partial (shape : VShape) (m : VoiMeta K) (val : List K) (hne : val ≠ [])
    (hshape : m.indices ≠ none → shape = .d1) (h : VoiOk m val.length) :
    ∃ l, getVoi m val = .ok l ∧ setDesvar shape m l none val = .ok val := by
  obtain ⟨l, g1, g2, g3⟩ := getVoi_spec m val h
  obtain ⟨val', s1, s2, s3, s4⟩ := setDesvar_none shape m (.a l) val hne hshape h (.inl g2)
  refine ⟨_, g1, ?_⟩
  rw [s1]
  congr 1
  apply List.ext_getElem?
  intro p
  by_cases hp : p ∈ m.positions val.length
  · obtain ⟨i, hi⟩ := List.mem_iff_getElem?.mp hp
    have hlt : i < (m.positions val.length).length := (List.getElem?_eq_some_iff.mp hi).1
    obtain ⟨sc, hsc⟩ := NumArr.at_some h.scaler hlt
    obtain ⟨ad, had⟩ := NumArr.at_some h.adder hlt
    have hpn := h.bound p hp
    have hx : val[p]? = some val[p] := by simp [hpn]
    have hl := g3 i p _ sc ad hi hx hsc had
    rw [s3 i p _ sc ad hi ((NumArr.at_full g2 hlt).trans hl) hsc had, hx]
    have := h.nonzero i sc hsc
    congr 1
    field_simp
    ring
  · exact s4 p hp

/-- C20 for index subsets of a two-dimensional variable is false of the code: reading picks flat entries
(`driver.py:419`), setting assigns rows (`driver.py:521`). -/
theorem C20_two_dim_indices_refuted : ∃ (m : VoiMeta ℚ) (val val' : List ℚ), VoiOk m val.length ∧
    getVoi m val = .ok (.a [1]) ∧ setDesvar (.d2 2) m (.a [1]) none val = .ok val' ∧ val' ≠ val := by
  refine ⟨⟨.s 0, .s 1, some [0]⟩, [1, 2, 3, 4], [1, 1, 3, 4], ⟨trivial, trivial, ?_, ?_, ?_⟩, ?_, ?_, ?_⟩
  · intro i x hx; simp only [NumArr.at, Option.some.injEq] at hx; subst hx; exact one_ne_zero
  · simp [VoiMeta.positions]
  · simp [VoiMeta.positions]
  · decide +kernel
  · decide +kernel
  · decide +kernel

example : VoiOk (⟨.s 1, .a [2, 4], some [0, 2]⟩ : VoiMeta ℚ) [5, 6, 7].length ∧
    setDesvar .d1 (⟨.s 1, .a [2, 4], some [0, 2]⟩ : VoiMeta ℚ) (.a [4, 12]) none [5, 6, 7] = .ok [1, 6, 2] := by
  refine ⟨⟨trivial, .inl rfl, ?_, by simp [VoiMeta.positions], by simp [VoiMeta.positions]⟩, by decide +kernel⟩
  intro i x hx
  simp only [NumArr.at] at hx
  match i, hx with
  | 0, hx => simp at hx; subst hx; norm_num
  | 1, hx => simp at hx; subst hx; norm_num
  | (n + 2), hx => simp at hx

/-! ## C21 -/

variable [IsStrictOrderedRing K]

/-- Specification: entry `i` of the declared bound, `d` where no bound was declared. -/
def declared (b : Option (NumArr K)) (d : K) (i : Nat) : Option K := (b.getD (.s d)).at i

omit [LinearOrder K] [IsStrictOrderedRing K] in
theorem scaleBound_spec {b ad sc : NumArr K} {c : Nat} (h1 : b.Fits c) (h2 : ad.Fits c) (h3 : sc.Fits c) :
    ∃ z, scaleBound b ad sc = .ok z ∧ ∀ i x y w, i < c → b.at i = some x → ad.at i = some y → sc.at i = some w →
      z.at i = some ((x + y) * w) := by
  obtain ⟨z, z1, z2, z3, -⟩ := bc_spec (· + ·) h1 h2
  obtain ⟨y, y1, y2, y3, -⟩ := bc_spec (· * ·) z2 h3
  refine ⟨y, by unfold scaleBound; rw [z1]; exact y1, ?_⟩
  intro i x y' w hi hx hy hw
  exact y3 i _ _ hi (z3 i _ _ hi hx hy) hw

/-- C21. For positive scalers, the selected model entries lie within the declared bounds (the largest float
standing for a bound that was not given) iff the driver value lies within the bounds stored for the
optimizer, entry by entry. Missing for the full property: non-positive scalers, refuted below. -/
theorem C21_desvar_bounds_partial (fmax : K) (desvars : List (String × DesvarMeta K)) (name : String)
    (hnew : desvars.lookup name = none) (lower upper : Option (NumArr K)) (indices : Option (List Nat))
    (adder scaler : NumArr K) (val : List K)
    (hok : VoiOk ⟨adder, scaler, truthyIndices indices⟩ val.length)
    (hpos : ∀ i x, scaler.at i = some x → 0 < x)
    (hlo : ∀ b, lower = some b → b.Fits ((VoiMeta.positions ⟨adder, scaler, truthyIndices indices⟩ val.length).length))
    (hup : ∀ b, upper = some b → b.Fits ((VoiMeta.positions ⟨adder, scaler, truthyIndices indices⟩ val.length).length)) :
    ∃ ds m l, addDesvar fmax desvars name lower upper indices adder scaler = .ok ds ∧ ds.lookup name = some m ∧
      m.toVoiMeta = ⟨adder, scaler, truthyIndices indices⟩ ∧ getVoi m.toVoiMeta val = .ok (.a l) ∧
      ∀ (i p : Nat) x lo up, (m.positions val.length)[i]? = some p → val[p]? = some x →
        declared lower (-fmax) i = some lo → declared upper fmax i = some up →
        ∃ y slo sup, l[i]? = some y ∧ m.lower.at i = some slo ∧ m.upper.at i = some sup ∧
          ((lo ≤ x ↔ slo ≤ y) ∧ (x ≤ up ↔ y ≤ sup)) := by
  have h1 : (lower.getD (.s (-fmax))).Fits
      ((VoiMeta.positions ⟨adder, scaler, truthyIndices indices⟩ val.length).length) := by
    cases lower with
    | none => trivial
    | some b => exact hlo b rfl
  have h2 : (upper.getD (.s fmax)).Fits
      ((VoiMeta.positions ⟨adder, scaler, truthyIndices indices⟩ val.length).length) := by
    cases upper with
    | none => trivial
    | some b => exact hup b rfl
  obtain ⟨slo, l1, l2⟩ := scaleBound_spec h1 hok.adder hok.scaler
  obtain ⟨sup, u1, u2⟩ := scaleBound_spec h2 hok.adder hok.scaler
  obtain ⟨l, g1, g2, g3⟩ := getVoi_spec _ val hok
  refine ⟨desvars ++ [(name, ⟨⟨adder, scaler, truthyIndices indices⟩, slo, sup⟩)], _, l, ?_,
    by rw [List.lookup_append, hnew]; simp; rfl, rfl, g1, ?_⟩
  · unfold addDesvar
    rw [hnew]
    simp only [Option.isSome_none, Bool.false_eq_true, if_false]
    rw [l1, u1]
    rfl
  · intro i p x lo up hp hx hlo' hup'
    have hi : i < _ := (List.getElem?_eq_some_iff.mp hp).1
    obtain ⟨sc, hsc⟩ := NumArr.at_some hok.scaler hi
    obtain ⟨ad, had⟩ := NumArr.at_some hok.adder hi
    have hp0 := hpos i sc hsc
    refine ⟨_, _, _, g3 i p x sc ad hp hx hsc had, l2 i lo ad sc hi hlo' had hsc, u2 i up ad sc hi hup' had hsc, ?_, ?_⟩
    · rw [mul_le_mul_iff_left₀ hp0, add_le_add_iff_right]
    · rw [mul_le_mul_iff_left₀ hp0, add_le_add_iff_right]

/-- C21 is false of the code for a negative scaler: the bounds are scaled but not exchanged, so every
legal model value violates the optimizer's bounds. -/
theorem C21_negative_scaler_refuted : ∃ (ds : List (String × DesvarMeta ℚ)) (m : DesvarMeta ℚ),
    addDesvar 1000 [] "x" (some (.s 0)) (some (.s 10)) none (.s 0) (.s (-1)) = .ok ds ∧
    ds.lookup "x" = some m ∧ m.lower = .s 0 ∧ m.upper = .s (-10) ∧
    ∀ x : ℚ, 0 < x → x < 10 → ∃ y, getVoi m.toVoiMeta [x] = .ok (.a [y]) ∧ ¬ (0 ≤ y) := by
  refine ⟨[("x", ⟨⟨.s 0, .s (-1), none⟩, .s 0, .s (-10)⟩)], ⟨⟨.s 0, .s (-1), none⟩, .s 0, .s (-10)⟩, ?_, ?_, rfl,
    rfl, ?_⟩
  · norm_num [addDesvar, scaleBound, NumArr.bc, bind, Except.bind, pure, Except.pure, truthyIndices]
  · rfl
  · intro x h1 h2
    refine ⟨-x, ?_, by linarith⟩
    norm_num [getVoi, flatOf, applyScaling, NumArr.bc, bind, Except.bind, pure, Except.pure]

/-- C21 for constraints with positive scalers: lower, upper and equality bounds are satisfied by the model
entries iff the scaled bounds are satisfied by the value the driver sees. -/
theorem C21_constraint_bounds_partial (sup : Supports) (cons cs : List (String × ConMeta K)) (name : String)
    (hnew : cons.lookup name = none) (lower upper equals : Option (NumArr K)) (linear : Bool)
    (indices : Option (List Nat)) (adder scaler : NumArr K) (val : List K)
    (hok : VoiOk ⟨adder, scaler, truthyIndices indices⟩ val.length)
    (hpos : ∀ i x, scaler.at i = some x → 0 < x)
    (hfit : ∀ b, lower = some b ∨ upper = some b ∨ equals = some b →
      b.Fits ((VoiMeta.positions ⟨adder, scaler, truthyIndices indices⟩ val.length).length))
    (hadd : addConstraint sup cons name lower upper equals linear indices adder scaler = .ok cs) :
    ∃ m l, cs.lookup name = some m ∧ getVoi m.toVoiMeta val = .ok (.a l) ∧
      m.lower.isSome = lower.isSome ∧ m.upper.isSome = upper.isSome ∧ m.equals.isSome = equals.isSome ∧
      ∀ (i p : Nat) x, (m.positions val.length)[i]? = some p → val[p]? = some x → ∃ y, l[i]? = some y ∧
        (∀ b c lo, lower = some b → m.lower = some c → b.at i = some lo → ∃ slo, c.at i = some slo ∧ (lo ≤ x ↔ slo ≤ y)) ∧
        (∀ b c up, upper = some b → m.upper = some c → b.at i = some up → ∃ sup, c.at i = some sup ∧ (x ≤ up ↔ y ≤ sup)) ∧
        (∀ b c e, equals = some b → m.equals = some c → b.at i = some e → ∃ se, c.at i = some se ∧ (x = e ↔ y = se)) := by
  have sopt : ∀ b : Option (NumArr K), (∀ x, b = some x → x.Fits
      ((VoiMeta.positions ⟨adder, scaler, truthyIndices indices⟩ val.length).length)) →
      ∃ z, scaleOpt b adder scaler = .ok z ∧ z.isSome = b.isSome ∧
        ∀ x w, b = some x → z = some w → ∀ i a c d,
          i < (VoiMeta.positions ⟨adder, scaler, truthyIndices indices⟩ val.length).length →
          x.at i = some a → adder.at i = some c → scaler.at i = some d → w.at i = some ((a + c) * d) := by
    intro b hb
    cases b with
    | none => exact ⟨none, rfl, rfl, by simp⟩
    | some b =>
      obtain ⟨z, z1, z2⟩ := scaleBound_spec (hb b rfl) hok.adder hok.scaler
      refine ⟨some z, by simp [scaleOpt, z1, bind, Except.bind, pure, Except.pure], rfl, ?_⟩
      rintro x w ⟨⟩ ⟨⟩ i a c d hi h1 h2 h3
      exact z2 i a c d hi h1 h2 h3
  obtain ⟨zl, l1, l2, l3⟩ := sopt lower (fun x hx => hfit x (.inl hx))
  obtain ⟨zu, u1, u2, u3⟩ := sopt upper (fun x hx => hfit x (.inr (.inl hx)))
  obtain ⟨ze, e1, e2, e3⟩ := sopt equals (fun x hx => hfit x (.inr (.inr hx)))
  obtain ⟨l, g1, g2, g3⟩ := getVoi_spec _ val hok
  have hcs : cs = cons ++ [(name, ⟨⟨adder, scaler, truthyIndices indices⟩, zl, zu, ze, linear⟩)] := by
    unfold addConstraint at hadd
    split_ifs at hadd
    rw [l1, u1, e1] at hadd
    simp only [bind, Except.bind, pure, Except.pure, Except.ok.injEq] at hadd
    exact hadd.symm
  refine ⟨⟨⟨adder, scaler, truthyIndices indices⟩, zl, zu, ze, linear⟩, l, by
    rw [hcs, List.lookup_append, hnew]; simp, g1, l2, u2, e2, ?_⟩
  intro i p x hp hx
  have hi : i < _ := (List.getElem?_eq_some_iff.mp hp).1
  obtain ⟨sc, hsc⟩ := NumArr.at_some hok.scaler hi
  obtain ⟨ad, had⟩ := NumArr.at_some hok.adder hi
  have hp0 := hpos i sc hsc
  refine ⟨_, g3 i p x sc ad hp hx hsc had, ?_, ?_, ?_⟩
  · intro b c lo hb hc hlo
    refine ⟨_, l3 b c hb hc i lo ad sc hi hlo had hsc, ?_⟩
    rw [mul_le_mul_iff_left₀ hp0, add_le_add_iff_right]
  · intro b c lo hb hc hlo
    refine ⟨_, u3 b c hb hc i lo ad sc hi hlo had hsc, ?_⟩
    rw [mul_le_mul_iff_left₀ hp0, add_le_add_iff_right]
  · intro b c lo hb hc hlo
    refine ⟨_, e3 b c hb hc i lo ad sc hi hlo had hsc, ?_⟩
    rw [mul_left_inj' hp0.ne', add_left_inj]

/-! ## C22 -/

/-- C22 is false of the code for index 0 (`if index:`): every entry is set. -/
theorem C22_index_zero_refuted : setDesvar .d1 (⟨.s 0, .s 1, none⟩ : VoiMeta ℚ) (.s 9) (some 0) [1, 2, 3] =
    .ok [9, 9, 9] := by
  decide +kernel

omit [IsStrictOrderedRing K] in
/-- C22, what holds: for an index `i > 0` of a 1-D variable exactly entry `i` is set, to
`value/scaler - adder` with that entry's scaler and adder; an index outside raises. Missing: index 0. -/
theorem C22_set_element_partial (m : VoiMeta K) (x : K) (i : Nat) (hi : 0 < i) (val : List K)
    (h1 : m.adder.Fits val.length) (h2 : m.scaler.Fits val.length)
    (h1' : ∀ l, m.adder = .a l → l.length = val.length) (h2' : ∀ l, m.scaler = .a l → l.length = val.length) :
    (val.length ≤ i → setDesvar .d1 m (.s x) (some i) val = .error .IndexError) ∧
    (i < val.length → ∃ sc ad, m.scaler.at i = some sc ∧ m.adder.at i = some ad ∧
      setDesvar .d1 m (.s x) (some i) val = .ok (val.set i (x / sc - ad))) := by
  have ht : truthyIndex (some i) = some i := by cases i with | zero => omega | succ n => rfl
  constructor
  · intro hle
    unfold setDesvar
    simp only [ht, hle, if_true]
  · intro hlt
    obtain ⟨sc, hsc⟩ := NumArr.at_some h2 hlt
    obtain ⟨ad, had⟩ := NumArr.at_some h1 hlt
    refine ⟨sc, ad, hsc, had, ?_⟩
    have hn0 : val.length ≠ 0 := by omega
    have hle : ¬ val.length ≤ i := by omega
    have e1 : divScaler m.scaler (some i) (.s x) = .ok (.s (x / sc)) := by
      cases hs : m.scaler with
      | s c =>
        rw [hs] at hsc
        simp only [NumArr.at, Option.some.injEq] at hsc; subst hsc
        by_cases hc : c = 1 <;> simp [divScaler, hc, NumArr.bc]
      | a l =>
        have hl := h2' l hs
        rw [hs, NumArr.at_full hl hlt] at hsc
        simp [divScaler, NumArr.index, hsc, NumArr.bc, bind, Except.bind]
    have e2 : subAdder m.adder (some i) (.s (x / sc)) = .ok (.s (x / sc - ad)) := by
      cases hs : m.adder with
      | s c =>
        rw [hs] at had
        simp only [NumArr.at, Option.some.injEq] at had; subst had
        by_cases hc : c = 0 <;> simp [subAdder, hc, NumArr.bc]
      | a l =>
        have hl := h1' l hs
        rw [hs, NumArr.at_full hl hlt] at had
        simp [subAdder, NumArr.index, had, NumArr.bc, bind, Except.bind]
    unfold setDesvar
    simp only [ht, hle, if_false, setDesvarAt, e1, e2, bind, Except.bind, assignIdx, npAssign, Idx.positions]
    simp [hle]

example : setDesvar .d1 (⟨.a [1, 2, 3], .s 2, none⟩ : VoiMeta ℚ) (.s 9) (some 2) [1, 2, 3] =
    .ok [1, 2, 3 / 2] := by decide +kernel

/-! ## C23 -/

omit [LinearOrder K] [IsStrictOrderedRing K] in
/-- C23. On a driver that supports all kinds of constraints, a constraint whose bounds fit is accepted exactly
when the name is new and it declares either `equals`, or `lower` and/or `upper`, but not both kinds; otherwise
`RuntimeError` is raised. -/
theorem C23_constraint_accepted_iff (cons : List (String × ConMeta K)) (name : String)
    (lower upper equals : Option K) (linear : Bool) (indices : Option (List Nat)) (adder scaler : K) :
    ((∃ cs, addConstraint {} cons name (lower.map .s) (upper.map .s) (equals.map .s) linear indices (.s adder)
        (.s scaler) = .ok cs) ↔
      (∀ p ∈ cons, p.1 ≠ name) ∧
      ((equals ≠ none ∧ lower = none ∧ upper = none) ∨ (equals = none ∧ (lower ≠ none ∨ upper ≠ none)))) ∧
    (∀ e, addConstraint {} cons name (lower.map .s) (upper.map .s) (equals.map .s) linear indices (.s adder)
        (.s scaler) = .error e → e = .RuntimeError) ∧
    (∀ cs, addConstraint {} cons name (lower.map .s) (upper.map .s) (equals.map .s) linear indices (.s adder)
        (.s scaler) = .ok cs → ∃ m, cs = cons ++ [(name, m)] ∧ m.linear = linear ∧
          m.equals.isSome = equals.isSome) := by
  have hl : (cons.lookup name).isSome = true ↔ ¬ ∀ p ∈ cons, p.1 ≠ name := by
    constructor
    · intro h hc
      have : cons.lookup name = none := by
        rw [List.lookup_eq_none_iff]
        intro p hp
        simpa using fun e => hc p hp e.symm
      rw [this] at h; cases h
    · intro h
      by_contra hn
      apply h
      have : cons.lookup name = none := Option.not_isSome_iff_eq_none.mp hn
      rw [List.lookup_eq_none_iff] at this
      intro p hp e
      simpa [e] using this p hp
  unfold addConstraint
  by_cases hnew : (cons.lookup name).isSome = true
  · have h' := hl.mp hnew
    simp only [hnew, if_true]
    refine ⟨Iff.intro (fun h => nomatch h.choose_spec) (fun h => absurd h.1 h'), fun e h => ?_, fun _ h => nomatch h⟩
    injection h with h; exact h.symm
  · have h' : ∀ p ∈ cons, p.1 ≠ name := by
      by_contra hc; exact hnew (hl.mpr hc)
    have hfalse : (cons.lookup name).isSome = false := Bool.eq_false_iff.mpr hnew
    simp only [hfalse, Bool.false_eq_true, if_false]
    cases lower <;> cases upper <;> cases equals <;>
      simp [scaleOpt, scaleBound, NumArr.bc, bind, Except.bind, pure, Except.pure] <;>
      exact fun a m hm => h' (a, m) hm

/-- C23. On any driver: a constraint is accepted exactly when it would be accepted by a driver supporting everything and the
driver supports its kind (equality for `equals`, inequality otherwise, two-sided for both bounds); otherwise
`RuntimeError`. -/
theorem C23_unsupported_rejected (sup : Supports) (cons : List (String × ConMeta K)) (name : String)
    (lower upper equals : Option K) (linear : Bool) (indices : Option (List Nat)) (adder scaler : K) :
    ((∃ cs, addConstraint sup cons name (lower.map .s) (upper.map .s) (equals.map .s) linear indices (.s adder)
        (.s scaler) = .ok cs) ↔
      (∀ p ∈ cons, p.1 ≠ name) ∧
      ((equals ≠ none ∧ lower = none ∧ upper = none ∧ sup.equality = true) ∨
       (equals = none ∧ (lower ≠ none ∨ upper ≠ none) ∧ sup.inequality = true ∧
        (lower ≠ none → upper ≠ none → sup.twoSided = true)))) ∧
    (∀ e, addConstraint sup cons name (lower.map .s) (upper.map .s) (equals.map .s) linear indices (.s adder)
        (.s scaler) = .error e → e = .RuntimeError) := by
  have hl : (cons.lookup name).isSome = true ↔ ¬ ∀ p ∈ cons, p.1 ≠ name := by
    constructor
    · intro h hc
      have : cons.lookup name = none := by
        rw [List.lookup_eq_none_iff]
        intro p hp
        simpa using fun e => hc p hp e.symm
      rw [this] at h; cases h
    · intro h
      by_contra hn
      apply h
      have : cons.lookup name = none := Option.not_isSome_iff_eq_none.mp hn
      rw [List.lookup_eq_none_iff] at this
      intro p hp e
      simpa [e] using this p hp
  obtain ⟨seq, sineq, stwo⟩ := sup
  unfold addConstraint
  by_cases hnew : (cons.lookup name).isSome = true
  · have h' := hl.mp hnew
    simp only [hnew, if_true]
    refine ⟨Iff.intro (fun h => nomatch h.choose_spec) (fun h => absurd h.1 h'), fun e h => ?_⟩
    injection h with h; exact h.symm
  · have h' : ∀ p ∈ cons, p.1 ≠ name := by
      by_contra hc; exact hnew (hl.mpr hc)
    have hfalse : (cons.lookup name).isSome = false := Bool.eq_false_iff.mpr hnew
    simp only [hfalse, Bool.false_eq_true, if_false]
    cases lower <;> cases upper <;> cases equals <;> cases seq <;> cases sineq <;> cases stwo <;>
      simp [scaleOpt, scaleBound, NumArr.bc, bind, Except.bind, pure, Except.pure] <;>
      exact fun a m hm => h' (a, m) hm

omit [Field K] [LinearOrder K] [IsStrictOrderedRing K] in
/-- C23. Filtering by kind and linearity partitions the registered constraints: every registered constraint
is returned by exactly one of the four combinations, and by the unrestricted call; nothing else is returned. -/
theorem C23_filters_partition (cons : List (String × ConMeta K)) (p : String × ConMeta K) :
    (p ∈ getConstraints cons .all .all ↔ p ∈ cons) ∧
    (p ∈ getConstraints cons .eq .all ↔ p ∈ cons ∧ p.2.equals ≠ none) ∧
    (p ∈ getConstraints cons .ineq .all ↔ p ∈ cons ∧ p.2.equals = none) ∧
    (p ∈ getConstraints cons .eq .linear ↔ p ∈ cons ∧ p.2.equals ≠ none ∧ p.2.linear = true) ∧
    (p ∈ getConstraints cons .eq .nonlinear ↔ p ∈ cons ∧ p.2.equals ≠ none ∧ p.2.linear = false) ∧
    (p ∈ getConstraints cons .ineq .linear ↔ p ∈ cons ∧ p.2.equals = none ∧ p.2.linear = true) ∧
    (p ∈ getConstraints cons .ineq .nonlinear ↔ p ∈ cons ∧ p.2.equals = none ∧ p.2.linear = false) ∧
    (getConstraints cons .eq .linear).length + (getConstraints cons .eq .nonlinear).length +
      (getConstraints cons .ineq .linear).length + (getConstraints cons .ineq .nonlinear).length = cons.length := by
  refine ⟨?_, ?_, ?_, ?_, ?_, ?_, ?_, ?_⟩
  all_goals first
    | (simp only [getConstraints, List.mem_filter]
       cases p.2.linear <;> cases p.2.equals <;> simp; done)
    | skip
  · unfold getConstraints
    induction cons with
    | nil => rfl
    | cons q cons ih =>
      cases h1 : q.2.linear <;> cases h2 : q.2.equals <;>
        simp only [List.filter_cons, h1, h2, Option.isNone_none, Option.isNone_some, Option.isSome_none, Option.isSome_some,
          Bool.not_true, Bool.not_false, Bool.and_true, Bool.and_false, if_true,
          Bool.false_eq_true, if_false, List.length_cons] <;>
        simp only [] at ih ⊢ <;> omega

example : ∃ cs : List (String × ConMeta ℚ), addConstraint {} [] "g" none (some (.s 3)) none true none (.s 0) (.s 2) =
    .ok cs ∧ (getConstraints cs .ineq .linear).length = 1 ∧ (getConstraints cs .eq .all).length = 0 := by
  exact ⟨_, rfl, by decide +kernel, by decide +kernel⟩

end OpenMDAO
