import Verif.Spec.ExecLin
import Verif.Lemmas.Connections
import Verif.Lemmas.FiniteDiff
import Mathlib.Algebra.Polynomial.Eval.Coeff
import Mathlib.Tactic.Ring
/-! # Helper lemmas for the linearization of `ExecComp` -/
namespace OpenMDAO
set_option linter.unusedSectionVars false

/-! ### Naturality: the statements may be executed before or after a ring homomorphism -/

section
variable {K R S : Type} [CommRing R] [CommRing S]

theorem lookup_mapVals {α β : Type} (f : α → β) (d : List (Str × α)) (n : Str) : (mapVals f d).lookup n = (d.lookup n).map f := by
  induction d with
  | nil => rfl
  | cons kv d ih =>
    obtain ⟨k, v⟩ := kv
    simp only [mapVals, List.map_cons, List.lookup_cons] at ih ⊢
    cases h : (n == k)
    · simpa using ih
    · rfl

theorem dictSet_mapVals {α β : Type} (f : α → β) (d : List (Str × α)) (n : Str) (v : α) : dictSet (mapVals f d) n (f v) = mapVals f (dictSet d n v) := by
  induction d with
  | nil => rfl
  | cons kv d ih =>
    simp only [mapVals, List.map_cons, dictSet] at ih ⊢
    split
    · rfl
    · rw [ih]; rfl

/-- Map the result of a computation. -/
def exMap {α β : Type} (f : α → β) : Except PyErr α → Except PyErr β
  | .ok a => .ok (f a)
  | .error e => .error e

theorem exMap_bind {α β γ δ : Type} (f : α → β) (g : γ → δ) (x : Except PyErr α) (k : α → Except PyErr γ) (k' : β → Except PyErr δ)
    (h : ∀ a, k' (f a) = exMap g (k a)) : (exMap f x >>= k') = exMap g (x >>= k) := by
  cases x with
  | error e => rfl
  | ok a => exact h a

theorem bcast_nat (f : R → R → R) (f' : S → S → S) (g : R → S) (h : ∀ a b, g (f a b) = f' (g a) (g b)) (x y : EVal R) :
    bcast f' (x.map g) (y.map g) = exMap (EVal.map g) (bcast f x y) := by
  cases x with
  | sc a =>
    cases y with
    | sc b => simp [EVal.map, bcast, exMap, h]
    | arr m => simp [EVal.map, bcast, exMap, h, Function.comp_def]
  | arr l =>
    cases y with
    | sc b => simp [EVal.map, bcast, exMap, h, Function.comp_def]
    | arr m =>
      simp only [EVal.map, bcast, List.length_map]
      by_cases hl : l.length = m.length
      · simp only [hl, if_true, exMap, EVal.map]
        congr 2
        rw [List.map_zipWith, List.zipWith_map]
        congr 1
        funext a b; exact (h a b).symm
      · simp only [hl, if_false]
        match l, m with
        | [], [] => simp at hl
        | [], [b] => simp [exMap, EVal.map]
        | [], b :: c :: m => simp [exMap]
        | [a], m => simp [exMap, EVal.map, h, Function.comp_def]
        | a :: b :: l, [] => simp [exMap]
        | a :: b :: l, [c] => simp [exMap, EVal.map, h, Function.comp_def]
        | a :: b :: l, c :: d :: m => simp [exMap]

theorem upGet_nat (g : R → S) (ps us : List (Str × EVal R)) (n : Str) :
    upGet (mapVals (EVal.map g) ps) (mapVals (EVal.map g) us) n = exMap (EVal.map g) (upGet ps us n) := by
  unfold upGet
  rw [lookup_mapVals, lookup_mapVals]
  cases us.lookup n with
  | some v => rfl
  | none => cases ps.lookup n <;> rfl

theorem evalE_nat (g : R →+* S) (φ : K → R) (ps us : List (Str × EVal R)) (e : EExpr K) :
    evalE (fun k => g (φ k)) (mapVals (EVal.map g) ps) (mapVals (EVal.map g) us) e = exMap (EVal.map g) (evalE φ ps us e) := by
  induction e with
  | const k => rfl
  | var n => exact upGet_nat g ps us n
  | idx n i =>
    simp only [evalE]
    rw [upGet_nat]
    refine exMap_bind _ _ _ _ _ fun v => ?_
    cases v with
    | sc x => rfl
    | arr l =>
      simp only [EVal.map, idxVal, List.getElem?_map]
      cases l[i]? <;> rfl
  | neg a ih =>
    simp only [evalE]
    rw [ih]
    refine exMap_bind _ _ _ _ _ fun v => ?_
    cases v <;> simp [negVal, EVal.map, exMap, Function.comp_def]
  | add a b iha ihb =>
    simp only [evalE]
    rw [iha]
    refine exMap_bind _ _ _ _ _ fun v => ?_
    rw [ihb]
    exact exMap_bind _ _ _ _ _ fun w => bcast_nat _ _ g (fun a b => map_add g a b) v w
  | sub a b iha ihb =>
    simp only [evalE]
    rw [iha]
    refine exMap_bind _ _ _ _ _ fun v => ?_
    rw [ihb]
    exact exMap_bind _ _ _ _ _ fun w => bcast_nat _ _ g (fun a b => map_sub g a b) v w
  | mul a b iha ihb =>
    simp only [evalE]
    rw [iha]
    refine exMap_bind _ _ _ _ _ fun v => ?_
    rw [ihb]
    exact exMap_bind _ _ _ _ _ fun w => bcast_nat _ _ g (fun a b => map_mul g a b) v w
  | sum a ih =>
    simp only [evalE]
    rw [ih]
    refine exMap_bind _ _ _ _ _ fun v => ?_
    cases v with
    | sc x => rfl
    | arr l => simp [sumVal, EVal.map, exMap, map_list_sum]

theorem setIdx_nat (g : R → S) (i : Nat) (o v : EVal R) : setIdx i (o.map g) (v.map g) = exMap (EVal.map g) (setIdx i o v) := by
  cases o with
  | sc x => rfl
  | arr l =>
    match v with
    | .sc x =>
      simp only [EVal.map, setIdx, List.length_map]
      split <;> simp [exMap, EVal.map, List.map_set]
    | .arr [] => rfl
    | .arr [x] =>
      simp only [EVal.map, setIdx, List.length_map, List.map_cons, List.map_nil]
      split <;> simp [exMap, EVal.map, List.map_set]
    | .arr (x :: y :: m) => rfl

theorem setWith_nat (g : R → S) (set : EVal R → EVal R → Except PyErr (EVal R)) (set' : EVal S → EVal S → Except PyErr (EVal S))
    (h : ∀ o v, set' (o.map g) (v.map g) = exMap (EVal.map g) (set o v)) (us : List (Str × EVal R)) (n : Str) (v : EVal R) :
    setWith set' (mapVals (EVal.map g) us) n (v.map g) = exMap (mapVals (EVal.map g)) (setWith set us n v) := by
  unfold setWith
  rw [lookup_mapVals]
  cases us.lookup n with
  | none => rfl
  | some o =>
    simp only [Option.map_some]
    rw [h]
    refine exMap_bind _ _ _ _ _ fun w => ?_
    simp only [exMap, dictSet_mapVals]

theorem execRun_nat (g : R →+* S) (φ : K → R) (set : EVal R → EVal R → Except PyErr (EVal R)) (set' : EVal S → EVal S → Except PyErr (EVal S))
    (h : ∀ o v, set' (o.map g) (v.map g) = exMap (EVal.map g) (set o v)) (stmts : List (EAsg K)) (ps us : List (Str × EVal R)) :
    execRun set' (fun k => g (φ k)) stmts (mapVals (EVal.map g) ps) (mapVals (EVal.map g) us) = exMap (mapVals (EVal.map g)) (execRun set φ stmts ps us) := by
  unfold execRun
  induction stmts generalizing us with
  | nil => rfl
  | cons a stmts ih =>
    rw [List.foldlM_cons, List.foldlM_cons]
    have : execAsg set' (fun k => g (φ k)) (mapVals (EVal.map g) ps) (mapVals (EVal.map g) us) a = exMap (mapVals (EVal.map g)) (execAsg set φ ps us a) := by
      cases a with
      | whole n e =>
        simp only [execAsg]
        rw [evalE_nat]
        exact exMap_bind _ _ _ _ _ fun v => setWith_nat g set set' h us n v
      | entry n i e =>
        simp only [execAsg]
        rw [evalE_nat]
        exact exMap_bind _ _ _ _ _ fun v => setWith_nat g _ _ (setIdx_nat g i) us n v
    rw [this]
    exact exMap_bind _ _ _ _ _ fun us' => ih us'

theorem sameForm_map (g : R → S) (o v : EVal R) : SameForm (o.map g) (v.map g) ↔ SameForm o v := by
  cases o <;> cases v <;> simp [EVal.map, SameForm]

theorem setStrict_nat (g : R → S) (o v : EVal R) : setStrict (o.map g) (v.map g) = exMap (EVal.map g) (setStrict o v) := by
  unfold setStrict
  by_cases h : SameForm o v
  · rw [if_pos h, if_pos ((sameForm_map g o v).mpr h)]; rfl
  · rw [if_neg h, if_neg (fun h' => h ((sameForm_map g o v).mp h'))]; rfl

/-- A run without broadcasting is the same for every way of storing that accepts values of the right form. -/
theorem execRun_strict (set : EVal R → EVal R → Except PyErr (EVal R)) (hset : ∀ o v, SameForm o v → set o v = .ok v) (φ : K → R) (stmts : List (EAsg K)) (ps us us' : List (Str × EVal R))
    (h : execRun setStrict φ stmts ps us = .ok us') : execRun set φ stmts ps us = .ok us' := by
  unfold execRun at h ⊢
  induction stmts generalizing us with
  | nil => exact h
  | cons a stmts ih =>
    rw [List.foldlM_cons] at h ⊢
    cases hw : execAsg setStrict φ ps us a with
    | error e => rw [hw] at h; cases h
    | ok us1 =>
      rw [hw] at h
      have : execAsg set φ ps us a = .ok us1 := by
        cases a with
        | entry n i e => exact hw
        | whole n e =>
          simp only [execAsg] at hw ⊢
          cases hv : evalE φ ps us e with
          | error e => rw [hv] at hw; cases hw
          | ok v =>
            rw [hv] at hw
            simp only [bind, Except.bind, setWith] at hw ⊢
            cases ho : us.lookup n with
            | none => rw [ho] at hw; cases hw
            | some o =>
              rw [ho] at hw
              simp only [setStrict] at hw
              by_cases hf : SameForm o v
              · rw [if_pos hf] at hw
                simp only [hset o v hf]
                exact hw
              · rw [if_neg hf] at hw; cases hw
      rw [this]
      exact ih us1 h

theorem setTmp_same (o v : EVal R) (_ : SameForm o v) : setTmp o v = .ok v := rfl

theorem setVec_same (o v : EVal R) (h : SameForm o v) : setVec o v = .ok v := by
  cases o with
  | sc x => cases v with
    | sc y => rfl
    | arr m => exact h.elim
  | arr l => cases v with
    | sc y => exact h.elim
    | arr m => simp only [SameForm] at h; simp [setVec, h]

/-- A run without broadcasting keeps the names and the forms. -/
theorem execRun_form (φ : K → R) (stmts : List (EAsg K)) (ps us us' : List (Str × EVal R)) (h : execRun setStrict φ stmts ps us = .ok us') (n : Str) :
    (∀ v, us.lookup n = some v → ∃ w, us'.lookup n = some w ∧ SameForm v w) := by
  have refl : ∀ v : EVal R, SameForm v v := by intro v; cases v <;> simp [SameForm]
  have trans : ∀ a b c : EVal R, SameForm a b → SameForm b c → SameForm a c := by
    intro a b c; cases a <;> cases b <;> cases c <;> simp [SameForm] <;> omega
  unfold execRun at h
  induction stmts generalizing us with
  | nil =>
    intro v hv
    cases h
    exact ⟨v, hv, refl v⟩
  | cons a stmts ih =>
    rw [List.foldlM_cons] at h
    cases hw : execAsg setStrict φ ps us a with
    | error e => rw [hw] at h; cases h
    | ok us1 =>
      rw [hw] at h
      have hstep : ∀ v, us.lookup n = some v → ∃ w, us1.lookup n = some w ∧ SameForm v w := by
        have key : ∀ (set : EVal R → EVal R → Except PyErr (EVal R)), (∀ o v w, set o v = .ok w → SameForm o w) → ∀ m x, setWith set us m x = .ok us1 →
            ∀ v, us.lookup n = some v → ∃ w, us1.lookup n = some w ∧ SameForm v w := by
          intro set hset m x hx v hv
          unfold setWith at hx
          cases ho : us.lookup m with
          | none => rw [ho] at hx; cases hx
          | some o =>
            rw [ho] at hx
            simp only [bind, Except.bind] at hx
            cases hs : set o x with
            | error e => rw [hs] at hx; cases hx
            | ok w =>
              rw [hs] at hx
              cases hx
              rw [lookup_dictSet]
              by_cases hnm : n = m
              · subst hnm
                rw [ho] at hv; cases hv
                exact ⟨w, by simp, hset _ _ _ hs⟩
              · rw [if_neg hnm]; exact ⟨v, hv, refl v⟩
        cases a with
        | whole m e =>
          simp only [execAsg] at hw
          cases hv : evalE φ ps us e with
          | error e => rw [hv] at hw; cases hw
          | ok x =>
            rw [hv] at hw
            refine key setStrict ?_ m x hw
            intro o v w hs
            unfold setStrict at hs
            split at hs
            · cases hs; assumption
            · cases hs
        | entry m i e =>
          simp only [execAsg] at hw
          cases hv : evalE φ ps us e with
          | error e => rw [hv] at hw; cases hw
          | ok x =>
            rw [hv] at hw
            refine key (setIdx i) ?_ m x hw
            intro o v w hs
            cases o with
            | sc y => cases hs
            | arr l =>
              match v with
              | .sc y =>
                simp only [setIdx] at hs
                split at hs
                · cases hs; simp [SameForm]
                · cases hs
              | .arr [] => cases hs
              | .arr [y] =>
                simp only [setIdx] at hs
                split at hs
                · cases hs; simp [SameForm]
                · cases hs
              | .arr (y :: z :: m) => cases hs
      intro v hv
      obtain ⟨w, h1, h2⟩ := hstep v hv
      obtain ⟨w', h3, h4⟩ := ih us1 h w h1
      exact ⟨w', h3, trans _ _ _ h2 h4⟩

end

/-! ### Polynomials at an imaginary number -/

section
variable {K : Type} [Field K]

/-- The embedding into the complex numbers as a ring homomorphism. -/
def toCxHom : K →+* Cx K where
  toFun := toCx
  map_zero' := by ext <;> rfl
  map_one' := by ext <;> rfl
  map_add' a b := by ext <;> simp [toCx]
  map_mul' a b := by ext <;> simp [toCx]

/-- The imaginary number `h`. -/
def imagU (h : K) : Cx K := ⟨0, h⟩

open Polynomial in
/-- The value of a polynomial at the imaginary number `h`: the imaginary part is `h` times the linear coefficient up to a multiple of `h ^ 3`. -/
theorem poly_imag (P : K[X]) : ∃ q r : K[X], ∀ h : K, (P.eval₂ toCxHom (imagU h)).im = h * P.coeff 1 + h ^ 3 * q.eval h ∧
    (P.eval₂ toCxHom (imagU h)).re = P.coeff 0 + h ^ 2 * r.eval h := by
  have mulX : ∀ P : K[X], (∃ q r : K[X], ∀ h : K, (P.eval₂ toCxHom (imagU h)).im = h * P.coeff 1 + h ^ 3 * q.eval h ∧
    (P.eval₂ toCxHom (imagU h)).re = P.coeff 0 + h ^ 2 * r.eval h) → ∃ q r : K[X], ∀ h : K, ((P * X).eval₂ toCxHom (imagU h)).im = h * (P * X).coeff 1 + h ^ 3 * q.eval h ∧
    ((P * X).eval₂ toCxHom (imagU h)).re = (P * X).coeff 0 + h ^ 2 * r.eval h := by
    rintro P ⟨q, r, hP⟩
    refine ⟨r, -(C (P.coeff 1)) - X ^ 2 * q, fun h => ?_⟩
    obtain ⟨h1, h2⟩ := hP h
    rw [eval₂_mul, eval₂_X]
    simp only [imagU] at h1 h2 ⊢
    simp only [QuadraticAlgebra.im_mul, QuadraticAlgebra.re_mul, h1, h2, coeff_mul_X, coeff_mul_X_zero, eval_sub, eval_neg, eval_C, eval_mul, eval_pow, eval_X]
    constructor <;> ring
  induction P using Polynomial.induction_on with
  | C a => exact ⟨0, 0, fun h => by simp [toCxHom, toCx, coeff_C]⟩
  | add p q hp hq =>
    obtain ⟨q1, r1, h1⟩ := hp
    obtain ⟨q2, r2, h2⟩ := hq
    refine ⟨q1 + q2, r1 + r2, fun h => ?_⟩
    obtain ⟨a1, b1⟩ := h1 h
    obtain ⟨a2, b2⟩ := h2 h
    rw [eval₂_add]
    simp only [QuadraticAlgebra.im_add, QuadraticAlgebra.re_add, a1, a2, b1, b2, coeff_add, eval_add]
    constructor <;> ring
  | monomial n a ih =>
    have := mulX _ ih
    rwa [show C a * X ^ n * X = C a * X ^ (n + 1) by ring] at this

end

end OpenMDAO
