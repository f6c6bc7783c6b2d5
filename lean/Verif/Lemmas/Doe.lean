import Verif.Model.Doe
import Mathlib.Algebra.Order.Field.Basic
import Mathlib.Algebra.CharZero.Defs
import Mathlib.Data.List.Forall2
import Mathlib.Data.List.Nodup
import Mathlib.Algebra.BigOperators.Group.List.Basic
import Mathlib.Tactic.Ring
import Mathlib.Tactic.FieldSimp
import Mathlib.Tactic.Linarith
/-! Lemmas on products of lists and on `linspace`. -/
namespace OpenMDAO
set_option linter.unusedSectionVars false

theorem mem_product {α : Type} : ∀ (ls : List (List α)) (xs : List α),
    xs ∈ product ls ↔ List.Forall₂ (fun l x => x ∈ l) ls xs
  | [], xs => by simp [product]
  | l :: ls, xs => by
    simp only [product, List.mem_flatMap, List.mem_map]
    constructor
    · rintro ⟨x, hx, r, hr, rfl⟩
      exact .cons hx ((mem_product ls r).1 hr)
    · intro h
      cases h with
      | cons hx hr => exact ⟨_, hx, _, (mem_product ls _).2 hr, rfl⟩

theorem length_product {α : Type} : ∀ ls : List (List α), (product ls).length = (ls.map List.length).prod
  | [] => rfl
  | l :: ls => by
    simp only [product, List.length_flatMap, List.length_map, List.map_cons, List.prod_cons, length_product ls]
    rw [List.map_const', List.sum_replicate, nsmul_eq_mul]; simp

theorem nodup_product {α : Type} : ∀ ls : List (List α), (∀ l ∈ ls, l.Nodup) → (product ls).Nodup
  | [], _ => by simp [product]
  | l :: ls, h => by
    have ih := nodup_product ls fun l hl => h l (List.mem_cons_of_mem _ hl)
    rw [product, List.nodup_flatMap]
    refine ⟨fun x _ => ih.map fun a b hab => by simpa using hab, ?_⟩
    have hl := h l List.mem_cons_self
    refine hl.imp ?_
    intro a b hab
    simp only [Function.onFun, List.Disjoint, List.mem_map]
    rintro _ ⟨r, _, rfl⟩ ⟨r', _, h'⟩
    exact hab (by simpa using (List.cons.inj h').1.symm)

section
variable {K : Type} [Field K]

theorem linspace_length (low high : K) (n : Nat) : (linspace low high n).length = n := by
  unfold linspace; split <;> simp_all

theorem linspace_getElem? (low high : K) (n : Nat) (hn : n ≠ 1) (i : Nat) (hi : i < n) :
    (linspace low high n)[i]? = some (low + (i : K) * ((high - low) / ((n - 1 : Nat) : K))) := by
  simp [linspace, hn, hi]

theorem mem_linspace (low high : K) (n : Nat) (hn : n ≠ 1) (x : K) :
    x ∈ linspace low high n ↔ ∃ i : Nat, i < n ∧ x = low + (i : K) * ((high - low) / ((n - 1 : Nat) : K)) := by
  simp only [linspace, hn, if_false, List.mem_map, List.mem_range]
  exact ⟨fun ⟨i, h, e⟩ => ⟨i, h, e.symm⟩, fun ⟨i, h, e⟩ => ⟨i, h, e.symm⟩⟩

theorem linspace_nodup [CharZero K] (low high : K) (n : Nat) (h : low ≠ high) : (linspace low high n).Nodup := by
  unfold linspace
  split
  · simp
  · rename_i hn
    rcases Nat.eq_zero_or_pos n with rfl | hp
    · simp
    refine List.Nodup.map ?_ List.nodup_range
    intro i j hij
    have hz : ((n - 1 : Nat) : K) ≠ 0 := Nat.cast_ne_zero.2 (by omega)
    have hs : (high - low) / ((n - 1 : Nat) : K) ≠ 0 := div_ne_zero (sub_ne_zero.2 (Ne.symm h)) hz
    have := add_left_cancel hij
    exact Nat.cast_injective (mul_right_cancel₀ hs this)

end

end OpenMDAO
