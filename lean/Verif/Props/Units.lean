import Verif.Model.Units
import Verif.Props.VecView
import Verif.Props.DataTransfer
import Mathlib.Tactic.FieldSimp
import Mathlib.Tactic.Ring
import Mathlib.Tactic.NormNum
import Mathlib.Data.Rat.Defs
/-!
# Properties C08 - C11 (units)
-/
namespace OpenMDAO

variable {K : Type} [Field K] [DecidableEq K] {β : Type}

/-- Specification: the quantity in base units denoted by the number `x` in unit `u`. -/
def PhysUnit.toBase (u : PhysUnit K) (x : K) : K := (x + u.offset) * u.factor

/-! ## C09 -/

/-- C09. A conversion between units with non-zero factors succeeds exactly when the dimensions agree, is
otherwise refused with `TypeError`, and yields the unique number that denotes the same base quantity. -/
theorem C09_convert_preserves_quantity (u v : PhysUnit K) (x : K) (hu : u.factor ≠ 0) (hv : v.factor ≠ 0) :
    (u.powers = v.powers → ∃ y, u.convert v x = .ok y ∧ ∀ z, v.toBase z = u.toBase x ↔ z = y) ∧
    (u.powers ≠ v.powers → u.convert v x = .error .TypeError) := by
  constructor
  · intro hp
    refine ⟨_, by simp only [PhysUnit.convert, PhysUnit.conversionTupleTo, hp, hu, hv, ne_eq,
      not_true_eq_false, if_false, or_self]; rfl, ?_⟩
    intro z
    simp only [PhysUnit.toBase]
    constructor
    · intro h
      have : z = (x + u.offset) * u.factor / v.factor - v.offset := by
        field_simp; rw [← h]; ring
      rw [this]; field_simp; ring
    · rintro rfl; field_simp; ring
  · intro hp
    simp only [PhysUnit.convert, PhysUnit.conversionTupleTo, hp, ne_eq, not_false_eq_true, if_true]
    rfl

/-- C09. Converting a value to its own unit returns it. -/
theorem C09_convert_self (u : PhysUnit K) (x : K) (hu : u.factor ≠ 0) : u.convert u x = .ok x := by
  obtain ⟨y, h1, h2⟩ := (C09_convert_preserves_quantity u u x hu hu).1 rfl
  rw [h1, (h2 x).mp rfl]

/-- C09. Converting there and back returns the original value. -/
theorem C09_convert_round_trip (u v : PhysUnit K) (x y : K) (hu : u.factor ≠ 0) (hv : v.factor ≠ 0)
    (h : u.convert v x = .ok y) : v.convert u y = .ok x := by
  have hp : u.powers = v.powers := by
    by_contra hc
    rw [(C09_convert_preserves_quantity u v x hu hv).2 hc] at h; cases h
  obtain ⟨y', h1, h2⟩ := (C09_convert_preserves_quantity u v x hu hv).1 hp
  rw [h1] at h; cases h
  obtain ⟨z, g1, g2⟩ := (C09_convert_preserves_quantity v u y hv hu).1 hp.symm
  rw [g1, (g2 x).mp ((h2 y).mpr rfl).symm]

/-- C09. Converting through an intermediate unit equals converting directly. -/
theorem C09_convert_transitive (u v w : PhysUnit K) (x y z : K) (hu : u.factor ≠ 0) (hv : v.factor ≠ 0)
    (hw : w.factor ≠ 0) (h1 : u.convert v x = .ok y) (h2 : v.convert w y = .ok z) : u.convert w x = .ok z := by
  have hp : u.powers = v.powers := by
    by_contra hc
    rw [(C09_convert_preserves_quantity u v x hu hv).2 hc] at h1; cases h1
  have hq : v.powers = w.powers := by
    by_contra hc
    rw [(C09_convert_preserves_quantity v w y hv hw).2 hc] at h2; cases h2
  obtain ⟨y', a1, a2⟩ := (C09_convert_preserves_quantity u v x hu hv).1 hp
  rw [a1] at h1; cases h1
  obtain ⟨z', b1, b2⟩ := (C09_convert_preserves_quantity v w y hv hw).1 hq
  rw [b1] at h2; cases h2
  obtain ⟨t, c1, c2⟩ := (C09_convert_preserves_quantity u w x hu hw).1 (hp.trans hq)
  rw [c1, (c2 z).mp (((b2 z).mpr rfl).trans ((a2 y).mpr rfl))]

/-- C09. Addition and subtraction (`s1`, `s2` are the signs) of quantities in units without offset give, in the units of the
first operand, the number denoting the sum of the two base quantities; quantities of different dimension are refused. -/
theorem C09_sum_preserves_quantity (s1 s2 x y : K) (u v : PhysUnit K) (hu : u.factor ≠ 0) (hou : u.offset = 0)
    (hov : v.offset = 0) :
    (u.powers = v.powers → ∃ z, sumQuantities s1 s2 x u y v = .ok (z, u) ∧
      u.toBase z = s1 * u.toBase x + s2 * v.toBase y) ∧
    (u.powers ≠ v.powers → sumQuantities s1 s2 x u y v = .error .TypeError) := by
  constructor
  · intro hp
    refine ⟨s1 * x + s2 * y * (v.factor / u.factor), by
      simp [sumQuantities, PhysUnit.conversionFactorTo, hp, hou, hov, hu, bind, Except.bind, pure, Except.pure], ?_⟩
    simp only [PhysUnit.toBase, hou, hov, add_zero]
    field_simp
  · intro hp
    simp [sumQuantities, PhysUnit.conversionFactorTo, Ne.symm hp, bind, Except.bind]

/-- degF, degC and kelvin as in `unit_library.ini` (one temperature exponent for brevity). -/
def degF : PhysUnit ℚ := ⟨5 / 9, [1], 45967 / 100⟩
def degC : PhysUnit ℚ := ⟨1, [1], 27315 / 100⟩
def degK : PhysUnit ℚ := ⟨1, [1], 0⟩
def foot : PhysUnit ℚ := ⟨3048 / 10000, [0], 0⟩

example : sumQuantities 1 (-1) (10 : ℚ) foot 1 (⟨1, [0], 0⟩ : PhysUnit ℚ) = .ok (10 - 10000 / 3048, foot) := by
  norm_num [foot, sumQuantities, PhysUnit.conversionFactorTo, bind, Except.bind, pure, Except.pure]
example : degF.convert degC 212 = .ok 100 ∧ degC.convert degF 100 = .ok 212 ∧
    degF.convert foot 212 = .error .TypeError := by
  norm_num [degF, degC, foot, PhysUnit.convert, PhysUnit.conversionTupleTo, bind, Except.bind, pure, Except.pure]

/-! ## C10 -/

/-- C10. Products: factors multiply, dimension exponents add; refused with an offset unit. -/
theorem C10_mul (u v : PhysUnit K) :
    (u.offset = 0 → v.offset = 0 → ∃ w, u.mul v = .ok w ∧ w.factor = u.factor * v.factor ∧ w.offset = 0 ∧
      ∀ (i : Nat) a b, u.powers[i]? = some a → v.powers[i]? = some b → w.powers[i]? = some (a + b)) ∧
    (u.offset ≠ 0 ∨ v.offset ≠ 0 → u.mul v = .error .TypeError) := by
  constructor
  · intro h1 h2
    have e : u.mul v = .ok ⟨u.factor * v.factor, List.zipWith (· + ·) u.powers v.powers, 0⟩ := by
      simp only [PhysUnit.mul, h1, h2, ne_eq, not_true_eq_false, or_self, if_false]
    refine ⟨_, e, rfl, rfl, ?_⟩
    intro i a b ha hb
    simp [List.getElem?_zipWith, ha, hb]
  · intro h; simp [PhysUnit.mul, h]

/-- C10. Quotients: factors divide, dimension exponents subtract; refused with an offset unit. -/
theorem C10_div (u v : PhysUnit K) (hv : v.factor ≠ 0) :
    (u.offset = 0 → v.offset = 0 → ∃ w, u.div v = .ok w ∧ w.factor = u.factor / v.factor ∧ w.offset = 0 ∧
      ∀ (i : Nat) a b, u.powers[i]? = some a → v.powers[i]? = some b → w.powers[i]? = some (a - b)) ∧
    (u.offset ≠ 0 ∨ v.offset ≠ 0 → u.div v = .error .TypeError) := by
  constructor
  · intro h1 h2
    have e : u.div v = .ok ⟨u.factor / v.factor, List.zipWith (· - ·) u.powers v.powers, 0⟩ := by
      simp only [PhysUnit.div, h1, h2, hv, ne_eq, not_true_eq_false, or_self, if_false]
    refine ⟨_, e, rfl, rfl, ?_⟩
    intro i a b ha hb
    simp [List.getElem?_zipWith, ha, hb]
  · intro h; simp [PhysUnit.div, h]

/-- C10. Integer powers: factors are raised to the power, dimension exponents scale; refused with an offset
unit. -/
theorem C10_pow (u : PhysUnit K) (n : Int) (hu : u.factor ≠ 0) :
    (u.offset = 0 → ∃ w, u.pow n = .ok w ∧ w.factor = u.factor ^ n ∧ w.offset = 0 ∧
      w.powers.length = u.powers.length ∧
      ∀ (i : Nat) a, u.powers[i]? = some a → w.powers[i]? = some (n * a)) ∧
    (u.offset ≠ 0 → u.pow n = .error .TypeError) := by
  constructor
  · intro h1
    have e : u.pow n = .ok ⟨u.factor ^ n, u.powers.map (· * n), 0⟩ := by
      simp only [PhysUnit.pow, h1, hu, ne_eq, not_true_eq_false, false_and, if_false]
    refine ⟨_, e, rfl, rfl, by simp, ?_⟩
    intro i a ha
    simp [ha, mul_comm]
  · intro h; simp [PhysUnit.pow, h]

/-- C10. Compatibility is equality of the dimension vectors, and is what decides convertibility. -/
theorem C10_compatible_iff (u v : PhysUnit K) (hu : u.factor ≠ 0) (hv : v.factor ≠ 0) :
    (u.isCompatible v = true ↔ u.powers = v.powers) ∧
    (u.isCompatible v = true ↔ ∃ c, u.conversionTupleTo v = .ok c) := by
  have h1 : u.isCompatible v = true ↔ u.powers = v.powers := by simp [PhysUnit.isCompatible]
  refine ⟨h1, ?_⟩
  rw [h1]
  constructor
  · intro h
    exact ⟨(u.factor / v.factor, u.offset - v.offset * v.factor / u.factor), by
      simp only [PhysUnit.conversionTupleTo, h, hu, hv, ne_eq, not_true_eq_false, if_false, or_self]⟩
  · rintro ⟨c, hc⟩
    by_contra h
    simp [PhysUnit.conversionTupleTo, h] at hc

/-- C10. Algebra is consistent with measurement for offset-free units: a product of converted factors
converts like the product unit (the conversion factor of a product is the product of the factors). -/
theorem C10_mul_conversion (u v u' v' w w' : PhysUnit K) (c d : K)
    (h1 : u.mul v = .ok w) (h2 : u'.mul v' = .ok w')
    (hl : u.powers = u'.powers) (hl' : v.powers = v'.powers)
    (hu : u'.factor ≠ 0) (hv : v'.factor ≠ 0)
    (h3 : u.conversionFactorTo u' = .ok c) (h4 : v.conversionFactorTo v' = .ok d) :
    w.conversionFactorTo w' = .ok (c * d) := by
  unfold PhysUnit.mul at h1 h2
  split at h1 <;> [cases h1; skip]
  split at h2 <;> [cases h2; skip]
  cases h1; cases h2
  rename_i o1 o2
  push Not at o1 o2
  simp only [PhysUnit.conversionFactorTo, hl, hl', o1.1, o2.1, o1.2, o2.2, hu, hv, ne_eq, not_true_eq_false, if_false,
    false_and, Except.ok.injEq] at h3 h4
  subst h3 h4
  simp only [PhysUnit.conversionFactorTo, hl, hl', hu, hv, ne_eq, not_true_eq_false, if_false, false_and,
    mul_eq_zero, or_self, Except.ok.injEq]
  field_simp

/-- C10 is only partly true: "any operation with an offset unit is refused" fails for dividing a number by
an offset unit (`__rdiv__`, `units.py:469-472`, has no check): `1/degF` is accepted and drops the offset. -/
theorem C10_rdiv_offset_refuted : ∃ u w : PhysUnit ℚ, u.offset ≠ 0 ∧ PhysUnit.rdivNum 1 u = .ok w := by
  exact ⟨degF, ⟨9 / 5, [-1], 0⟩, by norm_num [degF], by norm_num [degF, PhysUnit.rdivNum]⟩

/-- C10, what holds of `number / unit` without the offset claim. -/
theorem C10_rdiv_partial (c : K) (u : PhysUnit K) (hu : u.factor ≠ 0) :
    ∃ w, PhysUnit.rdivNum c u = .ok w ∧ w.factor = c / u.factor ∧ w.offset = 0 ∧
      ∀ (i : Nat) a, u.powers[i]? = some a → w.powers[i]? = some (-a) := by
  have e : PhysUnit.rdivNum c u = .ok ⟨c / u.factor, u.powers.map (- ·), 0⟩ := by
    simp only [PhysUnit.rdivNum, hu, if_false]
  refine ⟨_, e, rfl, rfl, ?_⟩
  intro i a ha
  simp [ha]

example : foot.pow 2 = .ok ⟨(3048 / 10000) ^ 2, [0], 0⟩ ∧ degF.pow 2 = .error .TypeError ∧
    (⟨2, [1, 0], 0⟩ : PhysUnit ℚ).mul ⟨3, [0, 1], 0⟩ = .ok ⟨6, [1, 1], 0⟩ := by
  norm_num [foot, degF, PhysUnit.pow, PhysUnit.mul]

/-! ## C11 -/

/-- C11 is false of the code: for degC and kelvin (equal factors, different offsets) a factor is returned
although conversion is not multiplication. -/
theorem C11_conversion_factor_refuted : ∃ (u v : PhysUnit ℚ) (f x y : ℚ), u.conversionFactorTo v = .ok f ∧
    u.convert v x = .ok y ∧ y ≠ f * x := by
  refine ⟨degC, degK, 1, 0, 27315 / 100, ?_, ?_, by norm_num⟩
  · norm_num [degC, degK, PhysUnit.conversionFactorTo]
  · norm_num [degC, degK, PhysUnit.convert, PhysUnit.conversionTupleTo, bind, Except.bind, pure, Except.pure]

/-- C11, what holds: if a factor `f` is returned, conversion is multiplication by `f` exactly when both zero
points coincide in base units, in particular when neither unit has an offset. Missing: the code should refuse
in every other case and does not. -/
theorem C11_conversion_factor_partial (u v : PhysUnit K) (f : K) (hu : u.factor ≠ 0) (hv : v.factor ≠ 0)
    (h : u.conversionFactorTo v = .ok f) :
    ((∀ x, u.convert v x = .ok (f * x)) ↔ u.offset * u.factor = v.offset * v.factor) ∧
    (u.offset = 0 → v.offset = 0 → ∀ x, u.convert v x = .ok (f * x)) := by
  unfold PhysUnit.conversionFactorTo at h
  split at h <;> [cases h; skip]
  split at h <;> [cases h; skip]
  rename_i hp _
  simp only [ne_eq, not_not] at hp
  simp only [Except.ok.injEq] at h
  have hc : ∀ x, u.convert v x = .ok ((x + (u.offset - v.offset * v.factor / u.factor)) * (u.factor / v.factor)) := by
    intro x
    simp only [PhysUnit.convert, PhysUnit.conversionTupleTo, hp, hu, hv, ne_eq, not_true_eq_false, if_false, or_self]
    rfl
  have key : (∀ x, u.convert v x = .ok (f * x)) ↔ u.offset * u.factor = v.offset * v.factor := by
    constructor
    · intro hx
      have h0 := hx 0
      rw [hc] at h0
      simp only [Except.ok.injEq, zero_add, mul_zero, mul_eq_zero, div_eq_zero_iff, hu, hv, or_self, or_false] at h0
      field_simp at h0
      rw [mul_zero] at h0
      exact sub_eq_zero.mp h0
    · intro he x
      rw [hc, ← h]
      congr 1
      rw [← he]
      field_simp
      ring
  exact ⟨key, fun h1 h2 => key.mpr (by rw [h1, h2]; ring)⟩

/-- C11, the refusing branches: incompatible dimensions, and different factors with different offsets. -/
theorem C11_conversion_factor_refused_partial (u v : PhysUnit K)
    (h : u.powers ≠ v.powers ∨ (u.factor ≠ v.factor ∧ u.offset ≠ v.offset)) :
    u.conversionFactorTo v = .error .TypeError := by
  unfold PhysUnit.conversionFactorTo
  rcases h with h | ⟨h1, h2⟩
  · simp [h]
  · split
    · rfl
    · simp [h1, h2]

/-! ## C08 -/

/-- The value a parameter shows: scalar or array. -/
def shown (scalar : Bool) (l : List K) : PyVal K β :=
  if scalar then match l with
    | x :: _ => .num x
    | [] => .arr []
  else .arr l

theorem unitConv_value (resolve : String → Except PyErr (PhysUnit K)) (su tu : String) (u v : PhysUnit K)
    (h1 : resolve su = .ok u) (h2 : resolve tu = .ok v) (hu : u.factor ≠ 0) (hv : v.factor ≠ 0)
    (hp : u.powers = v.powers) :
    ∃ c, unitConvFor resolve (some su) (some tu) = .ok c ∧
      ∀ x, u.convert v x = .ok (match c with | some c => convUnits c x | none => x) := by
  have ht : u.conversionTupleTo v = .ok (u.factor / v.factor, u.offset - v.offset * v.factor / u.factor) := by
    simp only [PhysUnit.conversionTupleTo, hp, hu, hv, ne_eq, not_true_eq_false, if_false, or_self]
  have hc : ∀ x, u.convert v x = .ok ((x + (u.offset - v.offset * v.factor / u.factor)) * (u.factor / v.factor)) := by
    intro x; simp only [PhysUnit.convert, ht]; rfl
  by_cases hid : u.factor / v.factor ≠ 1 ∨ u.offset - v.offset * v.factor / u.factor ≠ 0
  · exact ⟨some _, by simp only [unitConvFor, h1, h2, ht]; exact if_pos hid, fun x => by rw [hc]; rfl⟩
  · refine ⟨none, by simp only [unitConvFor, h1, h2, ht]; exact if_neg hid, fun x => ?_⟩
    push Not at hid
    rw [hc, hid.1, hid.2]; simp

/-- reading a stored variable whose window holds `xs` -/
theorem get_window {w : VecW K β} {m : Mem K β} (hw : GoodVec w m) {a : Acc K β} (ha : a ∈ w.dat)
    (hs : a.md.stored) {xs : List K} (hx : region m.buf a.off a.len = xs) (hdu : w.derivUnits = false) :
    w.get m a.name = .ok (shown a.md.scalar
      (match a.md.unitConv with | some c => xs.map (convUnits c) | none => xs)) := by
  have hb := hw.layout.bounds a ha hs
  simp only [VecW.get, find_eq hw.layout.names ha, hdu]
  rw [Acc.get_stored hs hb.1, hx]
  have hlen : xs.length = a.len := by rw [← hx]; exact region_length _ hb.1
  by_cases hsc : a.md.scalar = true
  · have h1 := (hw.layout.decl a ha).scalar hsc hs.1
    obtain ⟨x, rfl⟩ : ∃ x, xs = [x] := List.length_eq_one_iff.mp (by omega)
    cases a.md.unitConv <;> simp [shown, hsc]
  · cases a.md.unitConv <;> simp [shown, hsc]

/-- C08. After a data transfer, a parameter whose unit conversion was set up from the units of its source
and its own units reads as its source entries (picked by the connection's source indices) converted to the
parameter's units. -/
theorem C08_param_reads_in_own_units (resolve : String → Except PyErr (PhysUnit K)) (su tu : String)
    (u v : PhysUnit K) (h1 : resolve su = .ok u) (h2 : resolve tu = .ok v) (hu : u.factor ≠ 0)
    (hv : v.factor ≠ 0) (hp : u.powers = v.powers)
    (w : VecW K β) (m : Mem K β) (hw : GoodVec w m) (hdu : w.derivUnits = false) (a : Acc K β)
    (ha : a ∈ w.dat) (hs : a.md.stored)
    (hconv : unitConvFor resolve (some su) (some tu) = .ok a.md.unitConv)
    (src : List K) (mode : Mode) (conns : Conns) (hco : ConnsOk src.length m.buf.length conns)
    (hd : TargetsDistinct conns) (idxs : List Nat) (hlen : idxs.length = a.len)
    (hconn : (idxs, (List.range a.len).map (a.off + ·)) ∈ conns) :
    ∃ sc buf ys, mkTransfer mode conns = .ok sc ∧ transferFwdVec sc src m.buf = .ok buf ∧
      w.get { m with buf := buf } a.name = .ok (shown a.md.scalar ys) ∧ ys.length = idxs.length ∧
      ∀ (i k : Nat) (x : K), idxs[i]? = some k → src[k]? = some x →
        ∃ y, ys[i]? = some y ∧ u.convert v x = .ok y := by
  obtain ⟨sc, hsc, -, -⟩ := mkTransfer_ok mode conns hco.valid
  obtain ⟨buf, t1, t2, t3, -⟩ := fwdVec_spec mode conns src m.buf hco hd sc hsc
  obtain ⟨c, c1, c2⟩ := unitConv_value resolve su tu u v h1 h2 hu hv hp
  rw [c1] at hconv
  simp only [Except.ok.injEq] at hconv
  have hw' : GoodVec w { m with buf := buf } := ⟨by simp only [t2]; exact hw.layout, hw.coherent⟩
  have hb := (hw'.layout.bounds a ha hs).1
  have hg := get_window hw' ha hs rfl hdu
  refine ⟨sc, buf, _, hsc, t1, hg, ?_, ?_⟩
  · have hr := region_length _ hb
    cases a.md.unitConv <;> simp [hr, hlen]
  · intro i k x hi hk
    have hil : i < a.len := by rw [← hlen]; exact (List.getElem?_eq_some_iff.mp hi).1
    have hx : (region buf a.off a.len)[i]? = some x := by
      rw [region_getElem?, if_pos hil, ← hk]
      exact t3 k (a.off + i) ⟨_, hconn, i, hi, by simp [hil]⟩
    refine ⟨_, ?_, c2 x⟩
    rw [← hconv]
    cases c with
    | none => exact hx
    | some c => simp [hx]

/-- C08. With no units on one side, or with identical units on both sides, no conversion is set up and the
parameter reads as the transferred value. -/
theorem C08_no_conversion (resolve : String → Except PyErr (PhysUnit K)) (su tu : Option String)
    (h : su = none ∨ tu = none ∨ (su = tu ∧ ∀ s, su = some s → ∃ u, resolve s = .ok u ∧ u.factor ≠ 0))
    (w : VecW K β) (m : Mem K β) (hw : GoodVec w m) (hdu : w.derivUnits = false) (a : Acc K β)
    (ha : a ∈ w.dat) (hs : a.md.stored) (hconv : unitConvFor resolve su tu = .ok a.md.unitConv) :
    w.get m a.name = .ok (shown a.md.scalar (region m.buf a.off a.len)) := by
  have hn : a.md.unitConv = none := by
    rcases h with rfl | rfl | ⟨rfl, hr⟩
    · cases tu <;> simpa [unitConvFor] using hconv.symm
    · cases su <;> simpa [unitConvFor] using hconv.symm
    · cases su with
      | none => simpa [unitConvFor] using hconv.symm
      | some s =>
        obtain ⟨u, hu, hf⟩ := hr s rfl
        have : u.conversionTupleTo u = .ok (1, 0) := by
          simp [PhysUnit.conversionTupleTo, hf]
        simpa [unitConvFor, hu, this] using hconv.symm
  have := get_window hw ha hs rfl hdu
  rwa [hn] at this

/-- C08. Incompatible units are reported (a setup error is collected), never silently converted. -/
theorem C08_incompatible_reported (resolve : String → Except PyErr (PhysUnit K)) (su tu : String)
    (u v : PhysUnit K) (h1 : resolve su = .ok u) (h2 : resolve tu = .ok v) (hp : u.powers ≠ v.powers) :
    unitConvFor resolve (some su) (some tu) = .error none := by
  simp [unitConvFor, h1, h2, PhysUnit.conversionTupleTo, hp]

/-- scale of a parameter's conversion -/
def VarMeta.unitScale (md : VarMeta K β) : K := match md.unitConv with | some c => c.1 | none => 1

/-- C08. Derivative vectors apply the scale only: reading never converts, and applying the unit
derivatives multiplies every parameter's entries by its scale and nothing else. -/
theorem C08_derivatives_only_scale (w : VecW K β) (m : Mem K β) (hw : GoodVec w m)
    (hdu : w.derivUnits = true) (hall : ∀ a ∈ w.dat, a.md.stored) :
    (∀ a ∈ w.dat, w.get m a.name = .ok (shown a.md.scalar (region m.buf a.off a.len))) ∧
    ∃ m', applyUnitDerivatives w m = .ok m' ∧ m'.buf.length = m.buf.length ∧
      (∀ a ∈ w.dat, w.get m' a.name =
        .ok (shown a.md.scalar ((region m.buf a.off a.len).map (· * a.md.unitScale)))) ∧
      (∀ k, (∀ a ∈ w.dat, ¬ (a.off ≤ k ∧ k < a.off + a.len)) → m'.buf[k]? = m.buf[k]?) := by
  have hget : ∀ (m : Mem K β), GoodVec w m → ∀ a ∈ w.dat,
      w.get m a.name = .ok (shown a.md.scalar (region m.buf a.off a.len)) := by
    intro m hw a ha
    have hs := hall a ha
    have hb := hw.layout.bounds a ha hs
    simp only [VecW.get, find_eq hw.layout.names ha, hdu]
    rw [Acc.get_stored hs hb.1]
    have hlen := region_length m.buf hb.1
    by_cases hsc : a.md.scalar = true
    · have h1 := (hw.layout.decl a ha).scalar hsc hs.1
      obtain ⟨x, hx⟩ : ∃ x, region m.buf a.off a.len = [x] := List.length_eq_one_iff.mp (by omega)
      cases a.md.unitConv <;> simp [shown, hsc, hx]
    · cases a.md.unitConv <;> simp [shown, hsc]
  refine ⟨hget m hw, ?_⟩
  have fold : ∀ (l : List (Acc K β)) (buf : List K), l.Sublist w.dat → buf.length = m.buf.length →
      ∃ buf', l.foldlM scaleUnitStep buf = .ok buf' ∧ buf'.length = buf.length ∧
        (∀ a ∈ l, region buf' a.off a.len = (region buf a.off a.len).map (· * a.md.unitScale)) ∧
        (∀ k, (∀ a ∈ l, ¬ (a.off ≤ k ∧ k < a.off + a.len)) → buf'[k]? = buf[k]?) := by
    intro l
    induction l with
    | nil => intro buf _ _; exact ⟨buf, rfl, rfl, by simp, fun _ _ => rfl⟩
    | cons a l ih =>
      intro buf hsub hl
      have haw : a ∈ w.dat := hsub.subset (by simp)
      have hb := (hw.layout.bounds a haw (hall a haw)).1
      have step : ∃ b1, scaleUnitStep buf a = .ok b1 ∧ b1.length = buf.length ∧
          region b1 a.off a.len = (region buf a.off a.len).map (· * a.md.unitScale) ∧
          (∀ k, ¬ (a.off ≤ k ∧ k < a.off + a.len) → b1[k]? = buf[k]?) := by
        cases hc : a.md.unitConv with
        | none =>
          refine ⟨buf, by simp [scaleUnitStep, hc], rfl, ?_, fun _ _ => rfl⟩
          simp [VarMeta.unitScale, hc]
        | some c =>
          have hb' : a.off + a.len ≤ buf.length := by omega
          obtain ⟨b', e1, e2, e3, e4⟩ := (npAssign_window buf (off := a.off) (len := a.len)
            ((region buf a.off a.len).map (· * c.1)) hb').1 (by simp [region_length _ hb'])
          refine ⟨b', ?_, e2, by rw [e3]; simp [VarMeta.unitScale, hc], e4⟩
          simp only [scaleUnitStep, hc, npGet_window _ hb']
          exact e1
      obtain ⟨b1, s1, s2, s3, s4⟩ := step
      obtain ⟨b2, t1, t2, t3, t4⟩ := ih b1 (List.sublist_of_cons_sublist hsub) (by omega)
      have pw := hw.layout.disj.sublist hsub
      rw [List.pairwise_cons] at pw
      refine ⟨b2, by rw [List.foldlM_cons, s1]; exact t1, by omega, ?_, ?_⟩
      · intro b hbm
        rcases List.mem_cons.mp hbm with rfl | hbm
        · rw [← s3]
          apply region_congr
          intro k hk1 hk2
          apply t4
          intro c hc hk
          have := pw.1 c hc (hall _ haw) (hall _ (hsub.subset (by simp [hc])))
          unfold Disj at this; omega
        · rw [t3 b hbm]
          congr 1
          apply region_congr
          intro k hk1 hk2
          apply s4
          intro hk
          have := pw.1 b hbm (hall _ haw) (hall _ (hsub.subset (by simp [hbm])))
          unfold Disj at this; omega
      · intro k hk
        rw [t4 k (fun b hb => hk b (by simp [hb])), s4 k (hk a (by simp))]
  obtain ⟨buf', f1, f2, f3, f4⟩ := fold w.dat m.buf (List.Sublist.refl _) rfl
  refine ⟨{ m with buf := buf' }, by simp only [applyUnitDerivatives, hdu, if_true]; rw [f1]; rfl, f2, ?_, f4⟩
  intro a ha
  rw [hget _ ⟨by simp only [f2]; exact hw.layout, hw.coherent⟩ a ha, f3 a ha]

omit [DecidableEq K] in
/-- C08. The scale is the derivative of the conversion used for values. -/
theorem C08_scale_is_derivative (c : K × K) (x dx : K) :
    convUnits c (x + dx) - convUnits c x = c.1 * dx := by
  simp only [convUnits]; ring

/-- A library with two temperature units; a degF parameter fed by a degC source. -/
example : unitConvFor (fun s => if s = "degC" then .ok degC else .ok degF)
    (some "degC") (some "degF") = .ok (some (9 / 5, 160 / 9)) ∧ convUnits ((9 / 5 : ℚ), (160 / 9 : ℚ)) 100 = 212 := by
  norm_num [unitConvFor, show ("degF" = "degC") = False by decide, degF, degC, PhysUnit.conversionTupleTo, convUnits]
example : GoodVec (α := ℚ) (β := Unit)
    ⟨0, 1, [⟨"t", some (0, 1), 0, 1, 0, ⟨"t", 1, true, false, false, true, [0], .obj (), some (9 / 5, 160 / 9)⟩⟩], false⟩
    ⟨[100], []⟩ := by
  refine ⟨⟨by simp, ?_, ?_, by simp, by simp, by simp⟩, ?_⟩
  · intro a ha _; simp only [List.mem_singleton] at ha; subst ha; simp
  · intro a ha; simp only [List.mem_singleton] at ha; subst ha; exact ⟨by simp, by simp⟩
  · intro a ha _; simp only [List.mem_singleton] at ha; subst ha; exact ⟨0, by simp⟩

end OpenMDAO
