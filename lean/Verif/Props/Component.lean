import Verif.Model.Component
import Mathlib.Algebra.Order.Ring.Rat
import Mathlib.Tactic.NormNum
import Mathlib.Tactic.Abel
/-!
# C30: residual evaluation of an explicit component
-/
namespace OpenMDAO

set_option linter.unusedSectionVars false

/-- **C30 (exact arithmetic, variables stored in the vector).** Whatever the component computes (`u1`, of the same layout),
after the residual evaluation the vector of unknowns is what it was before, and the `i`-th residual is the newly
computed value minus the current one. Missing with respect to the full statement: outputs that are passed by object
(`C30_pbo_refuted`), rounding (`C30_rounding_refuted`) and components that raise (`C30_raise_refuted`). -/
theorem C30_apply_nonlinear_partial {K β : Type} [Ring K] (run : RunComp K β) (u u1 : CUnknowns K β)
    (hrun : run u = .ok u1) (hlen : u1.vec.length = u.vec.length) :
    let o := applyNonlinear id run u
    o.err = none ∧ o.unknowns.vec = u.vec ∧ o.resids.length = u.vec.length ∧
      ∀ (i : Nat) (new old : K), u1.vec[i]? = some new → u.vec[i]? = some old → o.resids[i]? = some (new - old) := by
  have hres : ∀ (a b : List K), b.length = a.length →
      rndSub id b (rndAdd id (a.map fun x => -x) b) = a := by
    intro a
    induction a with
    | nil => intro b hb; simp [rndSub, rndAdd]
    | cons x a ih =>
      intro b hb
      cases b with
      | nil => simp at hb
      | cons y b =>
        have := ih b (by simpa using hb)
        simp only [rndSub, rndAdd, List.map_cons, List.zipWith_cons_cons, id] at this ⊢
        rw [this]
        congr 1
        abel
  simp only [applyNonlinear, hrun]
  refine ⟨trivial, hres _ _ hlen, by simp [rndAdd, hlen], ?_⟩
  intro i new old hn ho
  simp only [rndAdd, List.getElem?_zipWith, List.getElem?_map, hn, ho]
  simp [sub_eq_add_neg, add_comm]

/-- Non-trivial instance: a component computing `y0 = 5, y1 = 7` while its outputs hold `(1, 2)`. -/
example : applyNonlinear (K := ℚ) (β := String) id (fun u => .ok { u with vec := [5, 7] }) ⟨[1, 2], ["a"]⟩ =
    ⟨⟨[1, 2], ["a"]⟩, [4, 5], none⟩ := by decide +kernel

/-- **C30 is false for outputs passed by object**: the component is executed and its object outputs keep the new value. -/
theorem C30_pbo_refuted : ∃ (run : RunComp ℚ String) (u u1 : CUnknowns ℚ String), run u = .ok u1 ∧
    u1.vec.length = u.vec.length ∧ (applyNonlinear id run u).unknowns ≠ u := by
  refine ⟨fun u => .ok { u with objs := ["new"] }, ⟨[1], ["old"]⟩, ⟨[1], ["new"]⟩, rfl, rfl, ?_⟩
  decide +kernel

/-- Round to the nearest even multiple of 2 in the binade `[2^53, 2^54)` where doubles have spacing 2, exact below (the part
of IEEE double rounding that the example needs, for integers). -/
def rnd53 (x : Int) : Int :=
  if x.natAbs < 2 ^ 53 then x
  else if x % 2 = 0 then x
  else if x % 4 = 1 then x - 1 else x + 1

/-- **C30 is false in floating point**: the cached value is recovered as `new - (new - old)`, which loses low order bits:
with `old = 1` and `new = 2^53 + 2` the output is left at 2, not at 1. -/
theorem C30_rounding_refuted : ∃ (run : RunComp Int String) (u u1 : CUnknowns Int String), run u = .ok u1 ∧
    u1.vec.length = u.vec.length ∧ (∀ x ∈ u.vec ++ u1.vec, rnd53 x = x) ∧
    (applyNonlinear rnd53 run u).unknowns.vec ≠ u.vec := by
  refine ⟨fun u => .ok { u with vec := [2 ^ 53 + 2] }, ⟨[1], []⟩, ⟨[2 ^ 53 + 2], []⟩, rfl, rfl, ?_, ?_⟩ <;> decide +kernel

/-- **C30 is false for a component that raises**: the unknowns keep what the component had written and the residuals are left
at minus the old outputs. -/
theorem C30_raise_refuted : ∃ (run : RunComp ℚ String) (u : CUnknowns ℚ String),
    (applyNonlinear id run u).err ≠ none ∧ (applyNonlinear id run u).unknowns.vec ≠ u.vec ∧
      (applyNonlinear id run u).resids = u.vec.map (fun x => -x) := by
  refine ⟨fun _ => .error (.RuntimeError, ⟨[9], []⟩), ⟨[1], []⟩, ?_⟩
  decide +kernel

end OpenMDAO
