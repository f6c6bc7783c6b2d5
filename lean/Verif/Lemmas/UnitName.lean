import Verif.Lemmas.UnitStr
import Mathlib.Algebra.Group.Prod
import Mathlib.Algebra.Group.TypeTags.Basic
import Mathlib.Algebra.BigOperators.Group.List.Basic
import Mathlib.Algebra.GroupWithZero.Units.Basic
import Mathlib.Algebra.Group.Pi.Basic
import Mathlib.Data.List.OfFn
import Mathlib.Algebra.Group.Action.Defs
import Mathlib.Algebra.Group.Int.Defs
/-!
# Lemmas about the names of units (C125)
-/
namespace OpenMDAO
set_option linter.unusedSectionVars false

variable {K : Type} [Field K] [DecidableEq K]

/-- Factor and exponents of a unit without offset, as an element of a group. -/
abbrev UGrp (K : Type) [Field K] (N : Nat) := Kˣ × Multiplicative (Fin N → ℤ)

/-- The value `v` is the number or unit with this factor and these exponents. -/
def URep {N : Nat} (a : UGrp K N) : UVal K → Prop
  | .num c => c = a.1 ∧ a.2 = 1
  | .unit u => u.factor = a.1 ∧ u.powers = List.ofFn (Multiplicative.toAdd a.2) ∧ u.offset = 0

/-- Is the value a unit? -/
def UVal.isUnit : UVal K → Bool
  | .num _ => false
  | .unit _ => true

theorem URep.unique {N : Nat} {a : UGrp K N} {v w : UVal K} (hv : URep a v) (hw : URep a w)
    (h : v.isUnit = w.isUnit) : v = w := by
  cases v with
  | num c => cases w with
    | num d => rw [hv.1, hw.1]
    | unit u => cases h
  | unit u => cases w with
    | num d => cases h
    | unit u' =>
      obtain ⟨f, p, o⟩ := u
      obtain ⟨f', p', o'⟩ := u'
      obtain ⟨h1, h2, h3⟩ := hv
      obtain ⟨g1, g2, g3⟩ := hw
      simp only at h1 h2 h3 g1 g2 g3
      subst h1 h2 h3 g1 g2 g3
      rfl

theorem zipWith_ofFn {N : Nat} (f : ℤ → ℤ → ℤ) (g h : Fin N → ℤ) :
    List.zipWith f (List.ofFn g) (List.ofFn h) = List.ofFn fun i => f (g i) (h i) := by
  apply List.ext_getElem
  · simp
  · intro i h1 h2
    simp

theorem URep.mul {N : Nat} {a b : UGrp K N} {v w : UVal K} (hv : URep a v) (hw : URep b w) :
    ∃ z, v.mul w = .ok z ∧ URep (a * b) z ∧ z.isUnit = (v.isUnit || w.isUnit) := by
  cases v with
  | num c => cases w with
    | num d => exact ⟨_, rfl, ⟨by rw [hv.1, hw.1]; simp, by simp [hv.2, hw.2]⟩, rfl⟩
    | unit u =>
      obtain ⟨h1, h2, h3⟩ := hw
      refine ⟨.unit ⟨u.factor * c, u.powers, 0⟩, by simp [UVal.mul, PhysUnit.mulNum, h3, Except.map], ⟨?_, ?_, rfl⟩, rfl⟩
      · rw [h1, hv.1]; simp [mul_comm]
      · rw [h2]; simp [hv.2]
  | unit u => cases w with
    | num d =>
      obtain ⟨h1, h2, h3⟩ := hv
      refine ⟨.unit ⟨u.factor * d, u.powers, 0⟩, by simp [UVal.mul, PhysUnit.mulNum, h3, Except.map], ⟨?_, ?_, rfl⟩, rfl⟩
      · rw [h1, hw.1]; simp
      · rw [h2]; simp [hw.2]
    | unit u' =>
      obtain ⟨h1, h2, h3⟩ := hv
      obtain ⟨g1, g2, g3⟩ := hw
      refine ⟨.unit ⟨u.factor * u'.factor, List.zipWith (· + ·) u.powers u'.powers, 0⟩, by
        simp [UVal.mul, PhysUnit.mul, h3, g3, Except.map], ⟨?_, ?_, rfl⟩, rfl⟩
      · rw [h1, g1]; simp
      · rw [h2, g2, zipWith_ofFn]; rfl

theorem URep.div {N : Nat} {a b : UGrp K N} {v w : UVal K} (hv : URep a v) (hw : URep b w) :
    ∃ z, v.div w = .ok z ∧ URep (a / b) z ∧ z.isUnit = (v.isUnit || w.isUnit) := by
  cases v with
  | num c => cases w with
    | num d =>
      have hd : d ≠ 0 := by rw [hw.1]; exact b.1.ne_zero
      exact ⟨.num (c / d), by simp [UVal.div, hd], ⟨by rw [hv.1, hw.1]; simp, by simp [hv.2, hw.2]⟩, rfl⟩
    | unit u =>
      obtain ⟨h1, h2, h3⟩ := hw
      have hu : u.factor ≠ 0 := by rw [h1]; exact b.1.ne_zero
      refine ⟨.unit ⟨c / u.factor, u.powers.map (fun x => -x), 0⟩, by
        simp [UVal.div, PhysUnit.rdivNum, hu, Except.map], ⟨?_, ?_, rfl⟩, rfl⟩
      · rw [h1, hv.1]; simp
      · rw [h2, List.map_ofFn]; simp only [Prod.snd_div, hv.2, one_div]; rfl
  | unit u => cases w with
    | num d =>
      obtain ⟨h1, h2, h3⟩ := hv
      have hd : d ≠ 0 := by rw [hw.1]; exact b.1.ne_zero
      refine ⟨.unit ⟨u.factor / d, u.powers, 0⟩, by
        simp [UVal.div, PhysUnit.divNum, h3, hd, Except.map], ⟨?_, ?_, rfl⟩, rfl⟩
      · rw [h1, hw.1]; simp
      · rw [h2]; simp [hw.2]
    | unit u' =>
      obtain ⟨h1, h2, h3⟩ := hv
      obtain ⟨g1, g2, g3⟩ := hw
      have hu : u'.factor ≠ 0 := by rw [g1]; exact b.1.ne_zero
      refine ⟨.unit ⟨u.factor / u'.factor, List.zipWith (· - ·) u.powers u'.powers, 0⟩, by
        simp [UVal.div, PhysUnit.div, h3, g3, hu, Except.map], ⟨?_, ?_, rfl⟩, rfl⟩
      · rw [h1, g1]; simp
      · rw [h2, g2, zipWith_ofFn]; rfl

theorem URep.pow {N : Nat} {a : UGrp K N} {v : UVal K} (hv : URep a v) (n : ℤ) :
    ∃ z, v.pow n = .ok z ∧ URep (a ^ n) z ∧ z.isUnit = v.isUnit := by
  cases v with
  | num c =>
    have hc : c ≠ 0 := by rw [hv.1]; exact a.1.ne_zero
    refine ⟨.num (c ^ n), by simp [UVal.pow, hc], ⟨?_, ?_⟩, rfl⟩
    · rw [hv.1]; simp
    · simp [hv.2]
  | unit u =>
    obtain ⟨h1, h2, h3⟩ := hv
    have hu : u.factor ≠ 0 := by rw [h1]; exact a.1.ne_zero
    refine ⟨.unit ⟨u.factor ^ n, u.powers.map (fun x => x * n), 0⟩, by
      simp [UVal.pow, PhysUnit.pow, h3, hu, Except.map], ⟨?_, ?_, rfl⟩, rfl⟩
    · rw [h1]; simp
    · rw [h2, List.map_ofFn]
      refine congrArg List.ofFn ?_
      funext i
      show Multiplicative.toAdd a.2 i * n = (Multiplicative.toAdd (a.2 ^ n)) i
      rw [toAdd_zpow, Pi.smul_apply, mul_comm]; rfl

/-- The factor and exponents that the names of a unit stand for. -/
def NumDict.total {N : Nat} (q : UKey K → UGrp K N) (d : NumDict K) : UGrp K N :=
  (d.map fun kv => q kv.1 ^ kv.2).prod

theorem total_dictSet {N : Nat} (q : UKey K → UGrp K N) (d : NumDict K) (k : UKey K) (δ : ℤ) :
    NumDict.total q (dictSet d k ((d.lookup k).getD 0 + δ)) = NumDict.total q d * q k ^ δ := by
  induction d with
  | nil => simp [dictSet, NumDict.total]
  | cons e d ih =>
    obtain ⟨a, b⟩ := e
    by_cases h : a = k
    · subst h
      simp only [dictSet, List.lookup, beq_self_eq_true, Option.getD_some, if_true, NumDict.total, List.map_cons,
        List.prod_cons, zpow_add]
      rw [mul_right_comm]
    · have h' : (k == a) = false := by simpa using fun hc : k = a => h hc.symm
      simp only [dictSet, if_neg h, List.lookup, h', NumDict.total, List.map_cons, List.prod_cons] at ih ⊢
      rw [ih, mul_assoc]

theorem total_addAll {N : Nat} (q : UKey K → UGrp K N) (s : ℤ) (o d : NumDict K) :
    NumDict.total q (NumDict.addAll d s o) = NumDict.total q d * NumDict.total q o ^ s := by
  induction o generalizing d with
  | nil => simp [NumDict.addAll, NumDict.total]
  | cons e o ih =>
    have := ih (dictSet d e.1 ((d.lookup e.1).getD 0 + s * e.2))
    simp only [NumDict.addAll, List.foldl_cons] at this ⊢
    rw [this, total_dictSet]
    simp only [NumDict.total, List.map_cons, List.prod_cons, mul_zpow, ← zpow_mul]
    rw [mul_comm s e.2, mul_assoc]

theorem total_scale {N : Nat} (q : UKey K → UGrp K N) (d : NumDict K) (n : ℤ) :
    NumDict.total q (NumDict.scale d n) = NumDict.total q d ^ n := by
  induction d with
  | nil => simp [NumDict.scale, NumDict.total]
  | cons e d ih =>
    simp only [NumDict.scale, NumDict.total, List.map_cons, List.prod_cons, mul_zpow, ← zpow_mul] at ih ⊢
    rw [ih, mul_comm n e.2]

/-- All keys of the names satisfy `P`. -/
def NumDict.KeysOk (P : UKey K → Prop) (d : NumDict K) : Prop := ∀ kv ∈ d, P kv.1

theorem keys_dictSet {P : UKey K → Prop} {d : NumDict K} (h : NumDict.KeysOk P d) {k : UKey K} (hk : P k) (v : ℤ) :
    NumDict.KeysOk P (dictSet d k v) := by
  induction d with
  | nil => intro kv hkv; cases List.mem_singleton.mp hkv; exact hk
  | cons e d ih =>
    have hd : NumDict.KeysOk P d := fun kv hkv => h kv (List.mem_cons_of_mem _ hkv)
    intro kv hkv
    simp only [dictSet] at hkv
    split at hkv
    · rename_i he
      rcases List.mem_cons.mp hkv with rfl | hkv
      · exact he ▸ hk
      · exact hd kv hkv
    · rcases List.mem_cons.mp hkv with rfl | hkv
      · exact h _ List.mem_cons_self
      · exact ih hd kv hkv

theorem keys_addAll {P : UKey K → Prop} (s : ℤ) (o d : NumDict K) (hd : NumDict.KeysOk P d)
    (ho : NumDict.KeysOk P o) : NumDict.KeysOk P (NumDict.addAll d s o) := by
  induction o generalizing d with
  | nil => exact hd
  | cons e o ih =>
    exact ih _ (keys_dictSet hd (ho e List.mem_cons_self) _) (fun kv hkv => ho kv (List.mem_cons_of_mem _ hkv))

theorem keys_scale {P : UKey K → Prop} {d : NumDict K} (hd : NumDict.KeysOk P d) (n : ℤ) :
    NumDict.KeysOk P (NumDict.scale d n) := by
  intro kv hkv
  obtain ⟨e, he, rfl⟩ := List.mem_map.mp hkv
  exact hd e he

/-- The value without the names. -/
def NVal.erase : NVal K → UVal K
  | .num c => .num c
  | .unit u _ => .unit u

/-- The value is that of `a`, and its names stand for it. -/
def NRep {N : Nat} (P : UKey K → Prop) (q : UKey K → UGrp K N) (a : UGrp K N) : NVal K → Prop
  | .num c => URep a (.num c)
  | .unit u d => URep a (.unit u) ∧ NumDict.KeysOk P d ∧ NumDict.total q d = a

theorem NVal.erase_mul (x y : NVal K) : (x.mul y).map NVal.erase = x.erase.mul y.erase := by
  cases x with
  | num a => cases y with
    | num b => rfl
    | unit v d => simp only [NVal.mul, NVal.erase, UVal.mul]; cases v.mulNum a <;> rfl
  | unit u d => cases y with
    | num b => simp only [NVal.mul, NVal.erase, UVal.mul]; cases u.mulNum b <;> rfl
    | unit v d => simp only [NVal.mul, NVal.erase, UVal.mul]; cases u.mul v <;> rfl

theorem NVal.erase_div (x y : NVal K) : (x.div y).map NVal.erase = x.erase.div y.erase := by
  cases x with
  | num a => cases y with
    | num b => simp only [NVal.div, NVal.erase, UVal.div]; split <;> rfl
    | unit v d => simp only [NVal.div, NVal.erase, UVal.div]; cases PhysUnit.rdivNum a v <;> rfl
  | unit u d => cases y with
    | num b => simp only [NVal.div, NVal.erase, UVal.div]; cases u.divNum b <;> rfl
    | unit v d => simp only [NVal.div, NVal.erase, UVal.div]; cases u.div v <;> rfl

theorem NVal.erase_pow (x : NVal K) (n : ℤ) : (x.pow n).map NVal.erase = x.erase.pow n := by
  cases x with
  | num a => simp only [NVal.pow, NVal.erase, UVal.pow]; split <;> rfl
  | unit u d => simp only [NVal.pow, NVal.erase, UVal.pow]; cases u.pow n <;> rfl

theorem NRep.erase {N : Nat} {P : UKey K → Prop} {q : UKey K → UGrp K N} {a : UGrp K N} {x : NVal K}
    (h : NRep P q a x) : URep a x.erase := by
  cases x with
  | num c => exact h
  | unit u d => exact h.1

section
variable {N : Nat} {P : UKey K → Prop} {q : UKey K → UGrp K N}
  (hP : ∀ c, c ≠ 0 → P (.num c)) (hq : ∀ c, c ≠ 0 → URep (q (.num c)) (.num c))

include hq in
theorem q_num {a : UGrp K N} {c : K} (h : URep a (.num c)) : q (.num c) = a := by
  have hc : c ≠ 0 := by rw [h.1]; exact a.1.ne_zero
  have h1 := hq c hc
  refine Prod.ext ?_ ?_
  · apply Units.ext; rw [← h1.1, h.1]
  · rw [h1.2, h.2]

theorem erase_ok {x : Except PyErr (NVal K)} {z : NVal K} {w : Except PyErr (UVal K)} (h : x.map NVal.erase = w)
    (hz : x = .ok z) : w = .ok z.erase := by rw [← h, hz]; rfl

include hP hq in
theorem NRep.mul {a b : UGrp K N} {x y z : NVal K} (hx : NRep P q a x) (hy : NRep P q b y) (hz : x.mul y = .ok z) :
    NRep P q (a * b) z := by
  have hrep : URep (a * b) z.erase := by
    obtain ⟨w, h1, h2, -⟩ := URep.mul hx.erase hy.erase
    have := erase_ok (NVal.erase_mul x y) hz
    rw [h1] at this; cases this; exact h2
  cases x with
  | num c =>
    have hc : c ≠ 0 := by rw [hx.1]; exact a.1.ne_zero
    cases y with
    | num d => cases hz; exact hrep
    | unit v d =>
      simp only [NVal.mul] at hz
      cases hm : v.mulNum c with
      | error e => rw [hm] at hz; cases hz
      | ok w =>
        rw [hm] at hz; cases hz
        refine ⟨hrep, keys_addAll _ _ _ hy.2.1 ?_, ?_⟩
        · intro kv hkv; cases List.mem_singleton.mp hkv; exact hP c hc
        · rw [total_addAll, hy.2.2]
          simp only [NumDict.total, List.map_cons, List.map_nil, List.prod_cons, List.prod_nil, mul_one, zpow_one]
          rw [q_num hq hx, mul_comm]
  | unit u d =>
    cases y with
    | num c =>
      have hc : c ≠ 0 := by rw [hy.1]; exact b.1.ne_zero
      simp only [NVal.mul] at hz
      cases hm : u.mulNum c with
      | error e => rw [hm] at hz; cases hz
      | ok w =>
        rw [hm] at hz; cases hz
        refine ⟨hrep, keys_addAll _ _ _ hx.2.1 ?_, ?_⟩
        · intro kv hkv; cases List.mem_singleton.mp hkv; exact hP c hc
        · rw [total_addAll, hx.2.2]
          simp only [NumDict.total, List.map_cons, List.map_nil, List.prod_cons, List.prod_nil, mul_one, zpow_one]
          rw [q_num hq hy]
    | unit v d' =>
      simp only [NVal.mul] at hz
      cases hm : u.mul v with
      | error e => rw [hm] at hz; cases hz
      | ok w =>
        rw [hm] at hz; cases hz
        exact ⟨hrep, keys_addAll _ _ _ hx.2.1 hy.2.1, by rw [total_addAll, hx.2.2, hy.2.2, zpow_one]⟩

include hP hq in
theorem NRep.div {a b : UGrp K N} {x y z : NVal K} (hx : NRep P q a x) (hy : NRep P q b y) (hz : x.div y = .ok z) :
    NRep P q (a / b) z := by
  have hrep : URep (a / b) z.erase := by
    obtain ⟨w, h1, h2, -⟩ := URep.div hx.erase hy.erase
    have := erase_ok (NVal.erase_div x y) hz
    rw [h1] at this; cases this; exact h2
  cases x with
  | num c =>
    have hc : c ≠ 0 := by rw [hx.1]; exact a.1.ne_zero
    cases y with
    | num d =>
      simp only [NVal.div] at hz
      split at hz
      · cases hz
      · cases hz; exact hrep
    | unit v d =>
      simp only [NVal.div] at hz
      cases hm : PhysUnit.rdivNum c v with
      | error e => rw [hm] at hz; cases hz
      | ok w =>
        rw [hm] at hz; cases hz
        refine ⟨hrep, keys_addAll _ _ _ ?_ hy.2.1, ?_⟩
        · intro kv hkv; cases List.mem_singleton.mp hkv; exact hP c hc
        · rw [total_addAll, hy.2.2]
          simp only [NumDict.total, List.map_cons, List.map_nil, List.prod_cons, List.prod_nil, mul_one, zpow_one,
            zpow_neg]
          rw [q_num hq hx, div_eq_mul_inv]
  | unit u d =>
    cases y with
    | num c =>
      have hc : c ≠ 0 := by rw [hy.1]; exact b.1.ne_zero
      simp only [NVal.div] at hz
      cases hm : u.divNum c with
      | error e => rw [hm] at hz; cases hz
      | ok w =>
        rw [hm] at hz; cases hz
        refine ⟨hrep, keys_addAll _ _ _ hx.2.1 ?_, ?_⟩
        · intro kv hkv; cases List.mem_singleton.mp hkv; exact hP c hc
        · rw [total_addAll, hx.2.2]
          simp only [NumDict.total, List.map_cons, List.map_nil, List.prod_cons, List.prod_nil, mul_one, zpow_one,
            zpow_neg]
          rw [q_num hq hy, div_eq_mul_inv]
    | unit v d' =>
      simp only [NVal.div] at hz
      cases hm : u.div v with
      | error e => rw [hm] at hz; cases hz
      | ok w =>
        rw [hm] at hz; cases hz
        exact ⟨hrep, keys_addAll _ _ _ hx.2.1 hy.2.1, by
          rw [total_addAll, hx.2.2, hy.2.2, zpow_neg, zpow_one, div_eq_mul_inv]⟩

theorem NRep.pow {a : UGrp K N} {x z : NVal K} (hx : NRep P q a x) (n : ℤ) (hz : x.pow n = .ok z) :
    NRep P q (a ^ n) z := by
  have hrep : URep (a ^ n) z.erase := by
    obtain ⟨w, h1, h2, -⟩ := URep.pow hx.erase n
    have := erase_ok (NVal.erase_pow x n) hz
    rw [h1] at this; cases this; exact h2
  cases x with
  | num c =>
    simp only [NVal.pow] at hz
    split at hz
    · cases hz
    · cases hz; exact hrep
  | unit u d =>
    simp only [NVal.pow] at hz
    cases hm : u.pow n with
    | error e => rw [hm] at hz; cases hz
    | ok w =>
      rw [hm] at hz; cases hz
      exact ⟨hrep, keys_scale hx.2.1 n, by rw [total_scale, hx.2.2]⟩

end

section
variable {N : Nat} (undef : PyErr) (lk : Str → Option (UVal K)) (q : UKey K → UGrp K N)

/-- The expression evaluates to the value of `a`, a unit if `b`. -/
def Evals (e : UExpr K) (a : UGrp K N) (b : Bool) : Prop := ∃ v, e.eval undef lk = .ok v ∧ URep a v ∧ v.isUnit = b

variable {undef lk q}

theorem Evals.mul {e f : UExpr K} {a c : UGrp K N} {b d : Bool} (h1 : Evals undef lk e a b)
    (h2 : Evals undef lk f c d) : Evals undef lk (.mul e f) (a * c) (b || d) := by
  obtain ⟨v, hv1, hv2, hv3⟩ := h1
  obtain ⟨w, hw1, hw2, hw3⟩ := h2
  obtain ⟨z, hz1, hz2, hz3⟩ := hv2.mul hw2
  exact ⟨z, by simp only [UExpr.eval, bind, Except.bind, hv1, hw1, hz1], hz2, by rw [hz3, hv3, hw3]⟩

theorem Evals.div {e f : UExpr K} {a c : UGrp K N} {b d : Bool} (h1 : Evals undef lk e a b)
    (h2 : Evals undef lk f c d) : Evals undef lk (.div e f) (a / c) (b || d) := by
  obtain ⟨v, hv1, hv2, hv3⟩ := h1
  obtain ⟨w, hw1, hw2, hw3⟩ := h2
  obtain ⟨z, hz1, hz2, hz3⟩ := hv2.div hw2
  exact ⟨z, by simp only [UExpr.eval, bind, Except.bind, hv1, hw1, hz1], hz2, by rw [hz3, hv3, hw3]⟩

theorem Evals.pow {e : UExpr K} {a : UGrp K N} {b : Bool} (h1 : Evals undef lk e a b) (n : ℤ) :
    Evals undef lk (.pow e n) (a ^ n) b := by
  obtain ⟨v, hv1, hv2, hv3⟩ := h1
  obtain ⟨z, hz1, hz2, hz3⟩ := hv2.pow n
  exact ⟨z, by simp only [UExpr.eval, bind, Except.bind, hv1, hz1], hz2, by rw [hz3, hv3]⟩

/-- Is the key the name of a unit? -/
def UKey.isName : UKey K → Bool
  | .name _ => true
  | .num _ => false

variable {P : UKey K → Prop} (hk : ∀ k, P k → Evals undef lk k.expr (q k) k.isName)

include hk in
theorem evals_keyPower {k : UKey K} (h : P k) (n : ℤ) : Evals undef lk (keyPower k n) (q k ^ n) k.isName := by
  simp only [keyPower]
  split
  · rename_i hn; rw [hn, zpow_one]; exact hk k h
  · exact (hk k h).pow n

include hk in
theorem evals_mulAll (l : NumDict K) (hl : NumDict.KeysOk P l) (e : UExpr K) (a : UGrp K N) (b : Bool)
    (h : Evals undef lk e a b) :
    Evals undef lk ((l.map fun kv => keyPower kv.1 kv.2).foldl .mul e) (a * (l.map fun kv => q kv.1 ^ kv.2).prod)
      (b || l.any fun kv => kv.1.isName) := by
  induction l generalizing e a b with
  | nil => simpa using h
  | cons kv l ih =>
    have := ih (fun x hx => hl x (List.mem_cons_of_mem _ hx)) _ _ _
      (h.mul (evals_keyPower hk (hl kv List.mem_cons_self) kv.2))
    simp only [List.map_cons, List.foldl_cons, List.prod_cons, List.any_cons]
    rw [← mul_assoc, ← Bool.or_assoc]
    exact this

include hk in
theorem evals_divAll (l : NumDict K) (hl : NumDict.KeysOk P l) (e : UExpr K) (a : UGrp K N) (b : Bool)
    (h : Evals undef lk e a b) :
    Evals undef lk ((l.map fun kv => keyPower kv.1 (-kv.2)).foldl .div e) (a * (l.map fun kv => q kv.1 ^ kv.2).prod)
      (b || l.any fun kv => kv.1.isName) := by
  induction l generalizing e a b with
  | nil => simpa using h
  | cons kv l ih =>
    have := ih (fun x hx => hl x (List.mem_cons_of_mem _ hx)) _ _ _
      (h.div (evals_keyPower hk (hl kv List.mem_cons_self) (-kv.2)))
    simp only [List.map_cons, List.foldl_cons, List.prod_cons, List.any_cons]
    rw [← mul_assoc, ← Bool.or_assoc]
    rw [zpow_neg, div_inv_eq_mul] at this
    exact this

theorem total_split (d : NumDict K) :
    NumDict.total q d = ((d.filter fun kv => decide (0 < kv.2)).map fun kv => q kv.1 ^ kv.2).prod *
      ((d.filter fun kv => decide (kv.2 < 0)).map fun kv => q kv.1 ^ kv.2).prod := by
  induction d with
  | nil => simp [NumDict.total]
  | cons kv d ih =>
    simp only [NumDict.total, List.map_cons, List.prod_cons] at ih ⊢
    rw [ih]
    rcases lt_trichotomy kv.2 0 with h | h | h
    · have h' : ¬ 0 < kv.2 := by omega
      simp only [List.filter_cons, h, h', decide_true, decide_false, if_true, Bool.false_eq_true, if_false,
        List.map_cons, List.prod_cons]
      rw [mul_left_comm]
    · simp [h]
    · have h' : ¬ kv.2 < 0 := by omega
      simp only [List.filter_cons, h, h', decide_true, decide_false, if_true, Bool.false_eq_true, if_false,
        List.map_cons, List.prod_cons]
      rw [mul_assoc]

include hk in
theorem evals_name (d : NumDict K) (hd : NumDict.KeysOk P d) :
    Evals undef lk (nameExpr d) (NumDict.total q d) (d.any fun kv => kv.1.isName && decide (kv.2 ≠ 0)) := by
  have hpos : NumDict.KeysOk P (d.filter fun kv => decide (0 < kv.2)) := fun kv h => hd kv (List.mem_filter.mp h).1
  have hneg : NumDict.KeysOk P (d.filter fun kv => decide (kv.2 < 0)) := fun kv h => hd kv (List.mem_filter.mp h).1
  have hb : (d.any fun kv => kv.1.isName && decide (kv.2 ≠ 0)) =
      (((d.filter fun kv => decide (0 < kv.2)).any fun kv => kv.1.isName) ||
        ((d.filter fun kv => decide (kv.2 < 0)).any fun kv => kv.1.isName)) := by
    rw [Bool.eq_iff_iff]
    simp only [List.any_eq_true, Bool.or_eq_true, Bool.and_eq_true, decide_eq_true_eq, List.mem_filter]
    constructor
    · rintro ⟨kv, h1, h2, h3⟩
      rcases lt_or_gt_of_ne h3 with h | h
      · exact .inr ⟨kv, ⟨h1, h⟩, h2⟩
      · exact .inl ⟨kv, ⟨h1, h⟩, h2⟩
    · rintro (⟨kv, ⟨h1, h⟩, h2⟩ | ⟨kv, ⟨h1, h⟩, h2⟩)
      · exact ⟨kv, h1, h2, by omega⟩
      · exact ⟨kv, h1, h2, by omega⟩
  have hnum : Evals undef lk (numExpr d) ((d.filter fun kv => decide (0 < kv.2)).map fun kv => q kv.1 ^ kv.2).prod
      ((d.filter fun kv => decide (0 < kv.2)).any fun kv => kv.1.isName) := by
    simp only [numExpr]
    cases hf : d.filter fun kv => decide (0 < kv.2) with
    | nil => exact ⟨.num 1, rfl, ⟨by simp, by simp⟩, rfl⟩
    | cons kv l =>
      rw [hf] at hpos
      simp only [List.map_cons, List.prod_cons, List.any_cons]
      exact evals_mulAll hk l (fun x hx => hpos x (List.mem_cons_of_mem _ hx)) _ _ _
        (evals_keyPower hk (hpos kv List.mem_cons_self) kv.2)
  rw [total_split, hb]
  exact evals_divAll hk _ hneg _ _ _ hnum

end
end OpenMDAO
