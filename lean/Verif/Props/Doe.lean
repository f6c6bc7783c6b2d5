import Verif.Lemmas.Doe
import Verif.Lemmas.List
import Verif.Lemmas.ArrayUtil
import Mathlib.Algebra.Order.Ring.Rat
import Mathlib.Algebra.Field.Rat
import Mathlib.Data.Rat.Cast.Order
import Mathlib.Tactic.NormNum
/-!
# Properties C37, C38 and C39: the case generators of the design-of-experiments drivers
-/
namespace OpenMDAO
set_option linter.unusedSectionVars false

/-! ## C37: full factorial -/

section C37
variable {K : Type} [Field K] [LinearOrder K] [IsStrictOrderedRing K]

/-- Level `i` of `levels` equally spaced levels between the bounds `b`. -/
def levelOf (levels : Nat) (b : K × K) (i : Nat) : K := b.1 + (i : K) * ((b.2 - b.1) / ((levels : K) - 1))

/-- A case of the grid: the design variables in order and for each element one of its levels. -/
def IsGridCase (levels : Nat) (dvs : List (DoeVar K)) (c : DoeCase K) : Prop :=
  List.Forall₂ (fun v e => e.1 = v.name ∧
    List.Forall₂ (fun b x => ∃ i : Nat, i < levels ∧ x = levelOf levels b i) v.bounds e.2) dvs c

theorem mem_fullFactorial (levels : Nat) (dvs : List (DoeVar K)) (c : DoeCase K) :
    c ∈ fullFactorial levels dvs ↔ List.Forall₂ (fun v e => e.1 = v.name ∧
      List.Forall₂ (fun b x => x ∈ linspace b.1 b.2 levels) v.bounds e.2) dvs c := by
  simp only [fullFactorial, List.mem_map, mem_product]
  constructor
  · rintro ⟨comb, h, rfl⟩
    rw [List.forall₂_map_left_iff] at h
    induction h with
    | nil => simp
    | cons h1 _ ih =>
      simp only [List.map_cons, List.zip_cons_cons]
      refine .cons ⟨rfl, ?_⟩ ih
      rw [mem_product, List.forall₂_map_left_iff] at h1
      exact h1
  · intro h
    refine ⟨c.map (·.2), ?_, ?_⟩
    · rw [List.forall₂_map_left_iff, List.forall₂_map_right_iff]
      refine h.imp ?_
      intro v e he
      rw [mem_product, List.forall₂_map_left_iff]
      exact he.2
    · induction h with
      | nil => rfl
      | cons h1 _ ih => simp only [List.map_cons, List.zip_cons_cons, ih, ← h1.1]

theorem cast_levels (levels : Nat) (h : 2 ≤ levels) : (((levels - 1 : Nat)) : K) = (levels : K) - 1 := by
  rw [Nat.cast_sub (by omega)]; simp

/-- C37. The run list consists of exactly the grid cases. -/
theorem C37_exactly_the_grid (levels : Nat) (h : 2 ≤ levels) (dvs : List (DoeVar K)) (c : DoeCase K) :
    c ∈ fullFactorial levels dvs ↔ IsGridCase levels dvs c := by
  rw [mem_fullFactorial]
  unfold IsGridCase levelOf
  simp only [mem_linspace _ _ levels (by omega), cast_levels levels h]

/-- C37. The number of cases is `levels` to the power of the total number of elements. -/
theorem C37_count (levels : Nat) (dvs : List (DoeVar K)) :
    (fullFactorial levels dvs).length = levels ^ (dvs.map fun v => v.bounds.length).sum := by
  simp only [fullFactorial, List.length_map, length_product, List.map_map]
  induction dvs with
  | nil => rfl
  | cons v vs ih =>
    simp only [List.map_cons, List.prod_cons, List.sum_cons, ih, pow_add, Function.comp, length_product, List.map_map]
    congr 1
    generalize v.bounds = bs
    induction bs with
    | nil => rfl
    | cons b bs ihb => simp only [List.map_cons, List.prod_cons, ihb, List.length_cons, linspace_length, pow_succ', Function.comp]

/-- C37. No case is run twice, if the bounds of each element differ. -/
theorem C37_no_duplicates (levels : Nat) (dvs : List (DoeVar K)) (hb : ∀ v ∈ dvs, ∀ b ∈ v.bounds, b.1 ≠ b.2) :
    (fullFactorial levels dvs).Nodup := by
  simp only [fullFactorial]
  have h1 : (product (dvs.map fun v => product (v.bounds.map fun b => linspace b.1 b.2 levels))).Nodup := by
    apply nodup_product
    intro l hl
    obtain ⟨v, hv, rfl⟩ := List.mem_map.1 hl
    apply nodup_product
    intro l hl
    obtain ⟨b, hb', rfl⟩ := List.mem_map.1 hl
    exact linspace_nodup _ _ _ (hb v hv b hb')
  refine List.Nodup.map_on ?_ h1
  intro x hx y hy hxy
  have hlen : ∀ z, z ∈ product (dvs.map fun v => product (v.bounds.map fun b => linspace b.1 b.2 levels)) →
      z.length = (dvs.map (·.name)).length := by
    intro z hz
    have := ((mem_product _ _).1 hz).length_eq
    simpa using this.symm
  have e := congrArg (List.map Prod.snd) hxy
  rwa [List.map_snd_zip (by rw [hlen x hx]), List.map_snd_zip (by rw [hlen y hy])] at e

/-- C37. All values lie between the bounds. -/
theorem C37_within_bounds (levels : Nat) (h : 2 ≤ levels) (dvs : List (DoeVar K))
    (hb : ∀ v ∈ dvs, ∀ b ∈ v.bounds, b.1 ≤ b.2) (c : DoeCase K) (hc : c ∈ fullFactorial levels dvs) :
    List.Forall₂ (fun v e => e.1 = v.name ∧ List.Forall₂ (fun b x => b.1 ≤ x ∧ x ≤ b.2) v.bounds e.2) dvs c := by
  rw [C37_exactly_the_grid levels h] at hc
  have hpos : (0 : K) < (levels : K) - 1 := by
    have : ((2 : Nat) : K) ≤ (levels : K) := Nat.cast_le.2 h
    push_cast at this; linarith
  unfold IsGridCase at hc
  have key : ∀ bs : List (K × K), (∀ b ∈ bs, b.1 ≤ b.2) → ∀ xs,
      List.Forall₂ (fun b x => ∃ i : Nat, i < levels ∧ x = levelOf levels b i) bs xs →
      List.Forall₂ (fun b x => b.1 ≤ x ∧ x ≤ b.2) bs xs := by
    intro bs hbs xs hx
    induction hx with
    | nil => exact .nil
    | cons h1 _ ih =>
      refine .cons ?_ (ih fun b hb => hbs b (List.mem_cons_of_mem _ hb))
      obtain ⟨i, hi, rfl⟩ := h1
      have hlh := hbs _ List.mem_cons_self
      have hi0 : (0 : K) ≤ i := Nat.cast_nonneg i
      have hi1 : (i : K) ≤ (levels : K) - 1 := by
        have : ((i + 1 : Nat) : K) ≤ (levels : K) := Nat.cast_le.2 hi
        push_cast at this; linarith
      have hd : 0 ≤ (_ : K × K).2 - _ := sub_nonneg.2 hlh
      unfold levelOf
      constructor
      · have := mul_nonneg hi0 (div_nonneg hd hpos.le)
        linarith
      · have h2 := mul_le_mul_of_nonneg_right hi1 (div_nonneg hd hpos.le)
        rw [mul_div_cancel₀ _ hpos.ne'] at h2
        linarith
  induction hc with
  | nil => exact .nil
  | cons h1 _ ih =>
    refine .cons ⟨h1.1, key _ (hb _ List.mem_cons_self) _ h1.2⟩ (ih fun v hv => hb v (List.mem_cons_of_mem _ hv))

/-- C37. Every corner point (each element at its lower or at its upper bound) is run. -/
theorem C37_corners (levels : Nat) (h : 2 ≤ levels) (dvs : List (DoeVar K)) (c : DoeCase K)
    (hc : List.Forall₂ (fun v e => e.1 = v.name ∧ List.Forall₂ (fun b x => x = b.1 ∨ x = b.2) v.bounds e.2) dvs c) :
    c ∈ fullFactorial levels dvs := by
  rw [C37_exactly_the_grid levels h]
  have hpos : (levels : K) - 1 ≠ 0 := by
    have : ((2 : Nat) : K) ≤ (levels : K) := Nat.cast_le.2 h
    push_cast at this
    intro h0; linarith
  refine hc.imp ?_
  rintro v e ⟨h1, h2⟩
  refine ⟨h1, h2.imp ?_⟩
  rintro b x (rfl | rfl)
  · exact ⟨0, by omega, by simp [levelOf]⟩
  · refine ⟨levels - 1, by omega, ?_⟩
    unfold levelOf
    rw [cast_levels levels h, mul_div_cancel₀ _ hpos]; ring

/-- The hypotheses are met: two variables, the second an array of two elements, three levels. -/
example : (fullFactorial 3 [⟨"x", [((0 : ℚ), 2)]⟩, ⟨"y", [(-1, 1), (0, 4)]⟩]).length = 27 := by
  rw [C37_count]; rfl
example : [("x", [(0 : ℚ)]), ("y", [1, 0])] ∈ fullFactorial 3 [⟨"x", [((0 : ℚ), 2)]⟩, ⟨"y", [(-1, 1), (0, 4)]⟩] :=
  C37_corners 3 (by omega) _ _ (by
    refine .cons ⟨rfl, .cons (Or.inl rfl) .nil⟩ (.cons ⟨rfl, .cons (Or.inr rfl) (.cons (Or.inl rfl) .nil)⟩ .nil))

end C37

/-! ## C38: Latin hypercube -/

/-- A design has exactly one sample in each bucket of each dimension (columns are the dimensions). -/
def OnePerBucket (n : Nat) (lhc : Lhc) : Prop :=
  ∀ col ∈ lhc, col.length = n ∧ (∀ (i b : Nat), col[i]? = some b → b < n) ∧ ∀ k, k < n → ∃! i : Nat, col[i]? = some k

theorem onePerBucket_of_perm (n : Nat) (lhc : Lhc) (h : ∀ col ∈ lhc, col.Perm (List.range n)) : OnePerBucket n lhc := by
  intro col hc
  have hp := h col hc
  refine ⟨by simpa using hp.length_eq, ?_, ?_⟩
  · intro i b hb
    have := hp.mem_iff.1 (List.mem_of_getElem? hb)
    simpa using this
  · intro k hk
    obtain ⟨i, hi⟩ := List.getElem?_of_mem (hp.mem_iff.2 (List.mem_range.2 hk))
    refine ⟨i, hi, ?_⟩
    intro j hj
    have hn : col.Nodup := hp.nodup_iff.2 List.nodup_range
    have hil := (List.getElem?_eq_some_iff.1 hi).1
    have hjl := (List.getElem?_eq_some_iff.1 hj).1
    exact ((List.Nodup.getElem_inj_iff hn (hi := hjl) (hj := hil)).1
      (by rw [(List.getElem?_eq_some_iff.1 hj).2, (List.getElem?_eq_some_iff.1 hi).2]))

theorem randLhc_perm (n : Nat) (shuffles : List (List Nat → List Nat)) (h : ∀ f ∈ shuffles, ∀ l, (f l).Perm l) :
    (randLhc n shuffles).length = shuffles.length ∧ ∀ col ∈ randLhc n shuffles, col.Perm (List.range n) := by
  unfold randLhc
  suffices ∀ (row : List Nat) (acc : Lhc), row.Perm (List.range n) → (∀ col ∈ acc, col.Perm (List.range n)) →
      (shuffles.foldl (fun (st : List Nat × Lhc) f => (f st.1, st.2 ++ [f st.1])) (row, acc)).2.length = acc.length + shuffles.length ∧
      ∀ col ∈ (shuffles.foldl (fun (st : List Nat × Lhc) f => (f st.1, st.2 ++ [f st.1])) (row, acc)).2, col.Perm (List.range n) by
    simpa using this (List.range n) [] (List.Perm.refl _) (by simp)
  induction shuffles with
  | nil => intro row acc _ ha; exact ⟨rfl, ha⟩
  | cons f fs ih =>
    intro row acc hr ha
    have hf := (h f List.mem_cons_self row).trans hr
    have := ih (fun g hg => h g (List.mem_cons_of_mem _ hg)) (f row) (acc ++ [f row]) hf (by
      intro col hc
      rcases List.mem_append.1 hc with hc | hc
      · exact ha col hc
      · rw [List.mem_singleton.1 hc]; exact hf)
    simp only [List.foldl_cons]
    refine ⟨?_, this.2⟩
    rw [this.1]; simp; omega

/-- Exchanging two entries of a list permutes it. -/
theorem swap_perm (l : List Nat) (i j a b : Nat) (hi : l[i]? = some a) (hj : l[j]? = some b) : ((l.set i b).set j a).Perm l := by
  obtain ⟨hil, ha⟩ := List.getElem?_eq_some_iff.1 hi
  obtain ⟨hjl, hb⟩ := List.getElem?_eq_some_iff.1 hj
  have := Array.swap_perm (xs := l.toArray) (i := i) (j := j) (by simpa using hil) (by simpa using hjl)
  have h2 := Array.perm_iff_toList_perm.1 this
  simp only [Array.swap, Array.toList_set, List.getElem_toArray] at h2
  rw [← ha, ← hb]
  exact h2

theorem mutate_perm (n : Nat) (doe : Lhc) (h : ∀ col ∈ doe, col.Perm (List.range n)) (m : Nat × Nat × Nat) :
    ∀ col ∈ mutate doe doe m, col.Perm (List.range n) := by
  unfold mutate
  split
  · exact h
  · rename_i col hcol
    split
    · rename_i a b ha hb
      intro c hc
      obtain ⟨i, hi⟩ := List.getElem?_of_mem hc
      rw [List.getElem?_modify] at hi
      by_cases him : m.1 = i
      · subst him
        rw [hcol] at hi
        simp only [if_true, Option.map_eq_map, Option.map_some, Option.some.injEq] at hi
        subst hi
        exact (swap_perm _ _ _ _ _ ha hb).trans (h col (List.mem_of_getElem? hcol))
      · simp only [him, if_false] at hi
        exact h c (List.mem_of_getElem? (by simpa using hi))
    · exact h

theorem mutate_length (a b : Lhc) (m : Nat × Nat × Nat) : (mutate a b m).length = b.length := by
  unfold mutate
  split
  · rfl
  · split
    · simp
    · rfl

theorem perturb_perm (n : Nat) (doe : Lhc) (h : ∀ col ∈ doe, col.Perm (List.range n)) (cnt : Nat) (hc : cnt ≤ 1)
    (draw : Nat → Nat × Nat × Nat) : ∀ col ∈ perturb doe cnt draw, col.Perm (List.range n) := by
  rcases Nat.le_one_iff_eq_zero_or_eq_one.1 hc with rfl | rfl
  · exact h
  · exact mutate_perm n doe h (draw 0)

theorem perturb_length (doe : Lhc) (cnt : Nat) (draw : Nat → Nat × Nat × Nat) : (perturb doe cnt draw).length = doe.length := by
  unfold perturb
  generalize List.range cnt = l
  suffices ∀ acc : Lhc, (l.foldl (fun new c => mutate doe new (draw c)) acc).length = acc.length from this doe
  induction l with
  | nil => intro _; rfl
  | cons c cs ih => intro acc; rw [List.foldl_cons, ih, mutate_length]

theorem foldl_inv {α β : Type} (P : β → Prop) (f : β → α → β) : ∀ (l : List α) (b : β), P b → (∀ b a, a ∈ l → P b → P (f b a)) → P (l.foldl f b)
  | [], _, hb, _ => hb
  | a :: l, b, hb, h => foldl_inv P f l (f b a) (h b a List.mem_cons_self hb) fun b' a' ha' => h b' a' (List.mem_cons_of_mem _ ha')

/-- Latin design with `k` columns. -/
def LatinCols (n k : Nat) (doe : Lhc) : Prop := doe.length = k ∧ ∀ col ∈ doe, col.Perm (List.range n)

section
variable {R : Type} [LT R] [DecidableLT R]

theorem bestOffspring_latin (n k : Nat) (phi : Lhc → R) (best : Lhc) (hb : LatinCols n k best) (population count : Nat) (hc : count ≤ 1)
    (draw : Nat → Nat → Nat × Nat × Nat) : LatinCols n k (bestOffspring phi best population count draw) := by
  unfold bestOffspring
  refine foldl_inv (LatinCols n k) _ _ _ hb ?_
  intro imp o _ hi
  split
  · exact ⟨by rw [perturb_length]; exact hb.1, perturb_perm n best hb.2 count hc _⟩
  · exact hi

theorem mmlhs_latin (n : Nat) (rnd : Rat → Int) (phi : Lhc → R) (start : Lhc) (hs : ∀ col ∈ start, col.Perm (List.range n))
    (population generations : Nat) (hm : ∀ it, it < generations → mutationCount rnd start.length generations it ≤ 1)
    (draw : Nat → Nat → Nat → Nat × Nat × Nat) : LatinCols n start.length (mmlhs rnd phi start population generations draw) := by
  unfold mmlhs
  refine foldl_inv (LatinCols n start.length) _ _ _ ⟨rfl, hs⟩ ?_
  intro best it hit hb
  dsimp only
  split
  · exact bestOffspring_latin n _ phi best hb population _ (hm it (List.mem_range.1 hit)) _
  · exact hb

theorem optLhc_latin (n : Nat) (rnd : Rat → Int) (phi : Nat → Lhc → R) (qs : List Nat) (start : Lhc) (hs : ∀ col ∈ start, col.Perm (List.range n))
    (population generations : Nat) (hm : ∀ it, it < generations → mutationCount rnd start.length generations it ≤ 1)
    (draw : Nat → Nat → Nat → Nat → Nat × Nat × Nat) : LatinCols n start.length (optLhc rnd phi qs start population generations draw) := by
  unfold optLhc
  refine foldl_inv (fun b : Nat × Lhc => LatinCols n start.length b.2) _ _ _ ⟨rfl, hs⟩ ?_
  intro best q _ hb
  dsimp only
  split
  · exact mmlhs_latin n rnd (phi q) start hs population generations hm _
  · exact hb

end

theorem mutationCount_le_one (rnd : Rat → Int) (hr : ∀ x, (rnd x : Rat) ≤ x + 1 / 2) (k generations it : Nat)
    (h : generations ≤ 2 ∨ k ≤ 2) : mutationCount rnd k generations it ≤ 1 := by
  unfold mutationCount
  dsimp only
  split
  · rename_i hc
    have hk : k ≤ 2 := by rcases h with h | h <;> omega
    have hlt : ((85 * generations / 100 : Nat) : Rat) - it > 0 := by
      have : ((it : Nat) : Rat) < ((85 * generations / 100 : Nat) : Rat) := Nat.cast_lt.2 hc.1
      linarith
    have hone : ((85 * generations / 100 : Nat) : Rat) - 1 > 0 := by
      have : ((1 : Nat) : Rat) < ((85 * generations / 100 : Nat) : Rat) := Nat.cast_lt.2 hc.2
      push_cast at this ⊢; linarith
    have hkk : ((1 / 2 : Rat) * k - 1) ≤ 0 := by
      have : ((k : Nat) : Rat) ≤ ((2 : Nat) : Rat) := Nat.cast_le.2 hk
      push_cast at this; linarith
    have hq : ((1 / 2 : Rat) * k - 1) * (((85 * generations / 100 : Nat) : Rat) - it) / (((85 * generations / 100 : Nat) : Rat) - 1) ≤ 0 :=
      div_nonpos_of_nonpos_of_nonneg (mul_nonpos_of_nonpos_of_nonneg hkk hlt.le) hone.le
    have h2 := hr (1 + ((1 / 2 : Rat) * k - 1) * (((85 * generations / 100 : Nat) : Rat) - it) / (((85 * generations / 100 : Nat) : Rat) - 1))
    have h3 : ((rnd (1 + ((1 / 2 : Rat) * k - 1) * (((85 * generations / 100 : Nat) : Rat) - it) / (((85 * generations / 100 : Nat) : Rat) - 1)) : Int) : Rat) < ((2 : Int) : Rat) := by
      push_cast; linarith
    have h4 := Int.cast_lt.1 h3
    omega
  · exact le_refl 1

section C38
variable {K : Type} [Field K] [LinearOrder K] [IsStrictOrderedRing K]

/-- Wall `k` of the `n` buckets of equal width between the bounds `b`. -/
def wall (b : K × K) (n k : Nat) : K := b.1 + (k : K) * ((b.2 - b.1) / (n : K))

/-- All values of a case in order. -/
def caseValues (c : DoeCase K) : List K := c.flatMap (·.2)

/-- What the user expects of the run list: `n` cases; every case sets every design variable; every value is within the bounds; for each element of
each design variable, each of the `n` buckets holds the value of exactly one case. -/
structure IsLatinStudy (n : Nat) (dvs : List (DoeVar K)) (runs : List (DoeCase K)) : Prop where
  count : runs.length = n
  names : ∀ c ∈ runs, List.Forall₂ (fun v e => e.1 = v.name ∧ e.2.length = v.bounds.length) dvs c
  within : ∀ c ∈ runs, List.Forall₂ (fun (b : K × K) x => b.1 ≤ x ∧ x ≤ b.2) (dvs.flatMap (·.bounds)) (caseValues c)
  latin : ∀ (j : Nat) (b : K × K), (dvs.flatMap (·.bounds))[j]? = some b → ∀ k, k < n →
    ∃! i : Nat, ∃ c x, runs[i]? = some c ∧ (caseValues c)[j]? = some x ∧ wall b n k ≤ x ∧ x < wall b n (k + 1)

theorem regroup_names : ∀ (dvs : List (DoeVar K)) (vals : List K), vals.length = (dvs.flatMap (·.bounds)).length →
    List.Forall₂ (fun (v : DoeVar K) (e : String × List K) => e.1 = v.name ∧ e.2.length = v.bounds.length) dvs (regroup dvs vals) ∧
    caseValues (regroup dvs vals) = vals
  | [], vals, h => by
    have : vals = [] := by simpa using h
    subst this
    exact ⟨.nil, rfl⟩
  | v :: vs, vals, h => by
    simp only [List.flatMap_cons, List.length_append] at h
    obtain ⟨h1, h2⟩ := regroup_names vs (vals.drop v.bounds.length) (by rw [List.length_drop]; omega)
    refine ⟨.cons ⟨rfl, ?_⟩ h1, ?_⟩
    · show (vals.take v.bounds.length).length = _
      rw [List.length_take]; omega
    · show caseValues ((v.name, vals.take v.bounds.length) :: regroup vs (vals.drop v.bounds.length)) = vals
      unfold caseValues at h2 ⊢
      rw [List.flatMap_cons, h2, List.take_append_drop]

theorem bucket_eq (b : K × K) (n k : Nat) (hk : k < n) : bucket b.1 b.2 n k = .ok (wall b n k, wall b n (k + 1)) := by
  unfold bucket
  rw [linspace_getElem? _ _ _ (by omega) k (by omega), linspace_getElem? _ _ _ (by omega) (k + 1) (by omega)]
  simp [wall]

theorem wall_mono (b : K × K) (hb : b.1 ≤ b.2) (n k k' : Nat) (h : k ≤ k') : wall b n k ≤ wall b n k' := by
  unfold wall
  have h1 : (0 : K) ≤ (b.2 - b.1) / (n : K) := div_nonneg (sub_nonneg.2 hb) (Nat.cast_nonneg n)
  have h2 : (k : K) ≤ k' := Nat.cast_le.2 h
  have := mul_le_mul_of_nonneg_right h2 h1
  linarith

theorem wall_last (b : K × K) (n : Nat) (hn : 0 < n) : wall b n n = b.2 := by
  unfold wall
  rw [mul_div_cancel₀ _ (Nat.cast_ne_zero.2 (by omega))]; ring

theorem lhcValue_spec (lhc : Lhc) (n i j : Nat) (b : K × K) (hb : b.1 < b.2) (t : K) (ht : 0 ≤ t ∧ t < 1) (col : List Nat) (k : Nat)
    (hc : lhc[j]? = some col) (hk : col[i]? = some k) (hkn : k < n) :
    ∃ x, lhcValue lhc n i j b t = .ok x ∧ wall b n k ≤ x ∧ x < wall b n (k + 1) := by
  refine ⟨uniformAt (wall b n k, wall b n (k + 1)) t, ?_, ?_, ?_⟩
  · unfold lhcValue
    rw [hc]; dsimp only; rw [hk]; dsimp only; rw [bucket_eq b n k hkn]; rfl
  · have := mul_nonneg (sub_nonneg.2 (wall_mono b hb.le n k (k + 1) (by omega))) ht.1
    simp only [uniformAt]; linarith
  · have hpos : 0 < wall b n (k + 1) - wall b n k := by
      have : (0 : K) < (b.2 - b.1) / (n : K) := div_pos (sub_pos.2 hb) (Nat.cast_pos.2 (by omega))
      unfold wall; push_cast; linarith
    have := mul_lt_mul_of_pos_left ht.2 hpos
    simp only [uniformAt]; linarith

theorem lhcSample_spec (lhc : Lhc) (n i : Nat) (hi : i < n) (dvs : List (DoeVar K)) (hb : ∀ v ∈ dvs, ∀ b ∈ v.bounds, b.1 < b.2)
    (rnd : Nat → Nat → K) (hr : ∀ i j, 0 ≤ rnd i j ∧ rnd i j < 1) (hl : lhc.length = (dvs.flatMap (·.bounds)).length) (h1 : OnePerBucket n lhc) :
    ∃ vals, lhcSample lhc n i dvs rnd = .ok vals ∧ vals.length = (dvs.flatMap (·.bounds)).length ∧
      ∀ (j : Nat) (b : K × K) (x : K), (dvs.flatMap (·.bounds))[j]? = some b → vals[j]? = some x →
        ∃ col k, lhc[j]? = some col ∧ col[i]? = some k ∧ wall b n k ≤ x ∧ x < wall b n (k + 1) := by
  have hmem : ∀ b ∈ dvs.flatMap (·.bounds), b.1 < b.2 := by
    intro b hbm
    obtain ⟨v, hv, hbv⟩ := List.mem_flatMap.1 hbm
    exact hb v hv b hbv
  have hval : ∀ (j : Nat) (b : K × K), (dvs.flatMap (·.bounds))[j]? = some b → ∃ x col k, lhcValue lhc n i j b (rnd i j) = .ok x ∧
      lhc[j]? = some col ∧ col[i]? = some k ∧ wall b n k ≤ x ∧ x < wall b n (k + 1) := by
    intro j b hj
    have hjl : j < lhc.length := by rw [hl]; exact (List.getElem?_eq_some_iff.1 hj).1
    have hc : lhc[j]? = some lhc[j] := List.getElem?_eq_getElem hjl
    obtain ⟨hlen, hlt, _⟩ := h1 _ (List.getElem_mem hjl)
    have hk : lhc[j][i]? = some (lhc[j][i]'(by rw [hlen]; exact hi)) := List.getElem?_eq_getElem (by rw [hlen]; exact hi)
    obtain ⟨x, hx⟩ := lhcValue_spec lhc n i j b (hmem b (List.mem_of_getElem? hj)) (rnd i j) (hr i j) _ _ hc hk (hlt i _ hk)
    exact ⟨x, _, _, hx.1, hc, hk, hx.2⟩
  obtain ⟨vals, v1, v2, v3⟩ := mapM_ok (fun bj : (K × K) × Nat => lhcValue lhc n i bj.2 bj.1 (rnd i bj.2)) (doeElems dvs).zipIdx (by
    rintro ⟨b, j⟩ hbj
    have := List.mem_zipIdx' hbj
    obtain ⟨x, _, _, hx, _⟩ := hval j b (by rw [this.2]; exact List.getElem?_eq_getElem this.1)
    exact ⟨x, hx⟩)
  refine ⟨vals, v1, by rw [v2, List.length_zipIdx]; rfl, ?_⟩
  intro j b x hj hx
  obtain ⟨y, hy, hy2⟩ := v3 j (b, j) (by rw [List.getElem?_zipIdx]; unfold doeElems; rw [hj]; simp)
  obtain ⟨x', col, k, e, c1, c2, c3⟩ := hval j b hj
  dsimp only at hy2
  rw [hy2] at e
  rw [hx] at hy
  cases e; cases hy
  exact ⟨col, k, c1, c2, c3⟩

/-- From a design with one sample per bucket the driver builds a Latin study. -/
theorem runlist_latin (lhc : Lhc) (n : Nat) (dvs : List (DoeVar K)) (hb : ∀ v ∈ dvs, ∀ b ∈ v.bounds, b.1 < b.2)
    (rnd : Nat → Nat → K) (hr : ∀ i j, 0 ≤ rnd i j ∧ rnd i j < 1) (hl : lhc.length = (dvs.flatMap (·.bounds)).length) (h1 : OnePerBucket n lhc) :
    ∃ runs, lhcRunlist lhc n dvs rnd = .ok runs ∧ IsLatinStudy n dvs runs := by
  have hs := fun i hi => lhcSample_spec lhc n i hi dvs hb rnd hr hl h1
  obtain ⟨runs, r1, r2, r3⟩ := mapM_ok (fun i => (lhcSample lhc n i dvs rnd).map (regroup dvs)) (List.range n) (by
    intro i hi
    obtain ⟨vals, hv, _⟩ := hs i (List.mem_range.1 hi)
    exact ⟨_, by rw [hv]; rfl⟩)
  rw [List.length_range] at r2
  have hget : ∀ (i : Nat) (c : DoeCase K), runs[i]? = some c → i < n ∧ ∃ vals, c = regroup dvs vals ∧
      vals.length = (dvs.flatMap (·.bounds)).length ∧
      ∀ (j : Nat) (b : K × K) (x : K), (dvs.flatMap (·.bounds))[j]? = some b → vals[j]? = some x →
        ∃ col k, lhc[j]? = some col ∧ col[i]? = some k ∧ wall b n k ≤ x ∧ x < wall b n (k + 1) := by
    intro i c hc
    have hi : i < n := by rw [← r2]; exact (List.getElem?_eq_some_iff.1 hc).1
    obtain ⟨y, hy, hy2⟩ := r3 i i (by simp [hi])
    obtain ⟨vals, hv, hlen, hp⟩ := hs i hi
    rw [hc] at hy; cases hy
    rw [hv] at hy2
    exact ⟨hi, vals, (Except.ok.inj hy2).symm, hlen, hp⟩
  refine ⟨runs, r1, r2, ?_, ?_, ?_⟩
  · intro c hc
    obtain ⟨i, hi⟩ := List.getElem?_of_mem hc
    obtain ⟨_, vals, rfl, hlen, _⟩ := hget i c hi
    exact (regroup_names dvs vals hlen).1
  · intro c hc
    obtain ⟨i, hi⟩ := List.getElem?_of_mem hc
    obtain ⟨hin, vals, rfl, hlen, hp⟩ := hget i c hi
    rw [(regroup_names dvs vals hlen).2, List.forall₂_iff_get]
    refine ⟨hlen.symm, ?_⟩
    intro j hj1 hj2
    have e1 : (dvs.flatMap (·.bounds))[j]? = some ((dvs.flatMap (·.bounds)).get ⟨j, hj1⟩) := List.getElem?_eq_getElem hj1
    have e2 : vals[j]? = some (vals.get ⟨j, hj2⟩) := List.getElem?_eq_getElem hj2
    obtain ⟨col, k, c1, c2, c3, c4⟩ := hp j _ _ e1 e2
    obtain ⟨v, hv, hbv⟩ := List.mem_flatMap.1 (List.mem_of_getElem? e1)
    have hlt := hb v hv _ hbv
    have hkn := (h1 col (List.mem_of_getElem? c1)).2.1 i k c2
    constructor
    · refine le_trans ?_ c3
      have := wall_mono ((dvs.flatMap (·.bounds)).get ⟨j, hj1⟩) hlt.le n 0 k (Nat.zero_le _)
      simpa [wall] using this
    · refine le_trans c4.le ?_
      have := wall_mono ((dvs.flatMap (·.bounds)).get ⟨j, hj1⟩) hlt.le n (k + 1) n hkn
      rwa [wall_last _ n (by omega)] at this
  · intro j b hj k hk
    have hjl : j < lhc.length := by rw [hl]; exact (List.getElem?_eq_some_iff.1 hj).1
    have hcj : lhc[j]? = some lhc[j] := List.getElem?_eq_getElem hjl
    obtain ⟨hlen, hlt, huniq⟩ := h1 _ (List.getElem_mem hjl)
    obtain ⟨v, hv, hbv⟩ := List.mem_flatMap.1 (List.mem_of_getElem? hj)
    have hbb := hb v hv _ hbv
    obtain ⟨i, hi, hu⟩ := huniq k hk
    have hin : i < n := by rw [← hlen]; exact (List.getElem?_eq_some_iff.1 hi).1
    refine ⟨i, ?_, ?_⟩
    · have hri : i < runs.length := by rw [r2]; exact hin
      obtain ⟨_, vals, hc, hvl, hp⟩ := hget i runs[i] (List.getElem?_eq_getElem hri)
      have hjv : j < vals.length := by rw [hvl]; exact (List.getElem?_eq_some_iff.1 hj).1
      obtain ⟨col, k', c1, c2, c3, c4⟩ := hp j b vals[j] hj (List.getElem?_eq_getElem hjv)
      rw [hcj] at c1
      cases c1
      rw [hi] at c2; cases c2
      refine ⟨runs[i], vals[j], List.getElem?_eq_getElem hri, ?_, c3, c4⟩
      rw [hc, (regroup_names dvs vals hvl).2]
      exact List.getElem?_eq_getElem hjv
    · rintro i' ⟨c, x, hc, hx, hx1, hx2⟩
      obtain ⟨_, vals, rfl, hvl, hp⟩ := hget i' c hc
      rw [(regroup_names dvs vals hvl).2] at hx
      obtain ⟨col, k', c1, c2, c3, c4⟩ := hp j b x hj hx
      rw [hcj] at c1
      cases c1
      apply hu
      have : k' = k := by
        rcases Nat.lt_trichotomy k' k with h | h | h
        · exact absurd (lt_of_lt_of_le c4 (le_trans (wall_mono b hbb.le n (k' + 1) k h) hx1)) (lt_irrefl _)
        · exact h
        · exact absurd (lt_of_lt_of_le hx2 (le_trans (wall_mono b hbb.le n (k + 1) k' h) c3)) (lt_irrefl _)
      show lhc[j][i']? = some k
      rw [← this]; exact c2

/-- C38 for `LatinHypercubeDriver`: for every behaviour of `shuffle` and of `uniform` the run list is a Latin study. -/
theorem C38_plain_driver (n : Nat) (dvs : List (DoeVar K)) (hb : ∀ v ∈ dvs, ∀ b ∈ v.bounds, b.1 < b.2)
    (shuffles : List (List Nat → List Nat)) (hsh : ∀ f ∈ shuffles, ∀ l, (f l).Perm l) (hk : shuffles.length = (dvs.flatMap (·.bounds)).length)
    (rnd : Nat → Nat → K) (hr : ∀ i j, 0 ≤ rnd i j ∧ rnd i j < 1) :
    ∃ runs, lhcRunlist (randLhc n shuffles) n dvs rnd = .ok runs ∧ IsLatinStudy n dvs runs := by
  obtain ⟨h1, h2⟩ := randLhc_perm n shuffles hsh
  exact runlist_latin _ n dvs hb rnd hr (h1.trans hk) (onePerBucket_of_perm n _ h2)

/-- C38 for `OptimizedLatinHypercubeDriver`, as long as a perturbation makes at most one exchange: at most two generations (the default is two) or
at most two dimensions. For every behaviour of the random choices and every criterion `phi`. -/
theorem C38_optimized_partial {R : Type} [LT R] [DecidableLT R] (n : Nat) (dvs : List (DoeVar K)) (hb : ∀ v ∈ dvs, ∀ b ∈ v.bounds, b.1 < b.2)
    (shuffles : List (List Nat → List Nat)) (hsh : ∀ f ∈ shuffles, ∀ l, (f l).Perm l) (hk : shuffles.length = (dvs.flatMap (·.bounds)).length)
    (rnd : Nat → Nat → K) (hr : ∀ i j, 0 ≤ rnd i j ∧ rnd i j < 1)
    (round : Rat → Int) (hround : ∀ x, (round x : Rat) ≤ x + 1 / 2) (phi : Nat → Lhc → R) (population generations : Nat)
    (hg : generations ≤ 2 ∨ (dvs.flatMap (·.bounds)).length ≤ 2) (draw : Nat → Nat → Nat → Nat → Nat × Nat × Nat) :
    ∃ runs, lhcRunlist (optLhc round phi lhcQs (randLhc n shuffles) population generations draw) n dvs rnd = .ok runs ∧
      IsLatinStudy n dvs runs := by
  obtain ⟨h1, h2⟩ := randLhc_perm n shuffles hsh
  have h3 := optLhc_latin n round phi lhcQs (randLhc n shuffles) h2 population generations (by
    intro it _
    exact mutationCount_le_one round hround _ generations it (by rw [h1, hk]; exact hg)) draw
  exact runlist_latin _ n dvs hb rnd hr (h3.1.trans (h1.trans hk)) (onePerBucket_of_perm n _ h3.2)

end C38

/-- Sum of `d ^ (-q)` over all pairs of samples, `d` their distance in the 1-norm (`norm_method` 1, the default): the criterion `mmphi` is its `q`-th
root. -/
def powSum (q : Nat) (doe : Lhc) : Rat :=
  let n := (doe.headD []).length
  (((List.range n).flatMap fun i => (List.range i).map fun j =>
    1 / (((doe.map fun c => Int.natAbs (((c[i]?.getD 0 : Nat) : Int) - ((c[j]?.getD 0 : Nat) : Int))).sum : Nat) : Rat) ^ q)).sum

/-- No two samples of the design are the same point. -/
def ApartRows (doe : Lhc) : Prop := doe ≠ [] ∧ ∀ i < (doe.headD []).length, ∀ j < i, (doe.map fun c => c[i]?.getD 0) ≠ doe.map fun c => c[j]?.getD 0

instance (doe : Lhc) : Decidable (ApartRows doe) := by unfold ApartRows; infer_instance

/-- Python 3's `round`: nearest integer, halves to the even one. -/
def pyRound (x : Rat) : Int :=
  let f := x.floor
  if x - f < 1 / 2 then f else if 1 / 2 < x - f then f + 1 else if f % 2 = 0 then f else f + 1

/-- Random choices of the counterexample: in the first generation the exchanges (column 2, rows 1 and 2) and (column 2, rows 0 and 1). -/
def badDraw (_q it _o c : Nat) : Nat × Nat × Nat := if it = 0 then (if c = 0 then (2, 1, 2) else (2, 0, 1)) else (2, 0, 2)

theorem opt_result {R : Type} [LinearOrder R] (round : Rat → Int) (phi : Nat → Lhc → R) (qs : List Nat) (h1 : (qs.head? = some 1)) (start bad : Lhc)
    (population generations : Nat) (draw : Nat → Nat → Nat → Nat → Nat × Nat × Nat)
    (hm : ∀ q ∈ qs, mmlhs round (phi q) start population generations (draw q) = bad) (hlt : phi 1 bad < phi 1 start) :
    optLhc round phi qs start population generations draw = bad := by
  cases qs with
  | nil => simp at h1
  | cons q qs =>
    simp only [List.head?_cons, Option.some.injEq] at h1
    subst h1
    unfold optLhc
    rw [List.foldl_cons]
    simp only [hm 1 List.mem_cons_self, hlt, if_true]
    refine foldl_inv (fun b : Nat × Lhc => b.2 = bad) _ _ _ rfl ?_
    intro b q hq hb
    split
    · exact hm q (List.mem_cons_of_mem _ hq)
    · exact hb

/-- C38 is false of `OptimizedLatinHypercubeDriver` in general: three dimensions, three samples, three generations. For the criterion of the code
(any `phi q` that orders designs with distinct points like `powSum q`, such as its `q`-th root, see `C38_optimized_code_refuted`), some random choices make the driver use a design with two samples in the same
bucket and an empty bucket: `perturb` exchanges entries of the original design, so that a second exchange undoes a part of the first one. -/
theorem C38_optimized_refuted {R : Type} [LinearOrder R] (phi : Nat → Lhc → R) (hphi : ∀ q ∈ lhcQs, ∀ a b, ApartRows a → ApartRows b → (phi q a < phi q b ↔ powSum q a < powSum q b)) :
    ∃ (shuffles : List (List Nat → List Nat)) (draw : Nat → Nat → Nat → Nat → Nat × Nat × Nat), (∀ f ∈ shuffles, ∀ l, (f l).Perm l) ∧
      (∀ q it o c, (draw q it o c).2.1 ≠ (draw q it o c).2.2) ∧
      OnePerBucket 3 (randLhc 3 shuffles) ∧
      optLhc pyRound phi lhcQs (randLhc 3 shuffles) 1 3 draw = [[0, 1, 2], [0, 1, 2], [2, 0, 2]] ∧
      ¬ OnePerBucket 3 (optLhc pyRound phi lhcQs (randLhc 3 shuffles) 1 3 draw) := by
  have hres : optLhc pyRound phi lhcQs [[0, 1, 2], [0, 1, 2], [0, 2, 1]] 1 3 badDraw = [[0, 1, 2], [0, 1, 2], [2, 0, 2]] := by
    apply opt_result _ _ _ rfl
    · intro q hq
      have hlt : phi q [[0, 1, 2], [0, 1, 2], [2, 0, 2]] < phi q [[0, 1, 2], [0, 1, 2], [0, 2, 1]] := by
        rw [hphi q hq _ _ (by decide) (by decide)]; revert q; decide +kernel
      have hp0 : perturb [[0, 1, 2], [0, 1, 2], [0, 2, 1]] (mutationCount pyRound 3 3 0) (badDraw q 0 0) = [[0, 1, 2], [0, 1, 2], [2, 0, 2]] := by
        show perturb [[0, 1, 2], [0, 1, 2], [0, 2, 1]] (mutationCount pyRound 3 3 0) (badDraw 0 0 0) = _
        decide +kernel
      have hp1 : perturb [[0, 1, 2], [0, 1, 2], [2, 0, 2]] (mutationCount pyRound 3 3 1) (badDraw q 1 0) = [[0, 1, 2], [0, 1, 2], [2, 0, 2]] := by
        show perturb [[0, 1, 2], [0, 1, 2], [2, 0, 2]] (mutationCount pyRound 3 3 1) (badDraw 0 1 0) = _
        decide +kernel
      have hp2 : perturb [[0, 1, 2], [0, 1, 2], [2, 0, 2]] (mutationCount pyRound 3 3 2) (badDraw q 2 0) = [[0, 1, 2], [0, 1, 2], [2, 0, 2]] := by
        show perturb [[0, 1, 2], [0, 1, 2], [2, 0, 2]] (mutationCount pyRound 3 3 2) (badDraw 0 2 0) = _
        decide +kernel
      unfold mmlhs
      simp only [List.range_succ, List.range_zero, List.nil_append, List.cons_append, List.foldl_cons, List.foldl_nil, bestOffspring, List.length_cons, List.length_nil,
        Nat.zero_add, Nat.reduceAdd, hp0, hlt, if_true, hp1, hp2, lt_irrefl, if_false]
    · rw [hphi 1 (by simp [lhcQs]) _ _ (by decide) (by decide)]; decide +kernel
  have hs : randLhc 3 [id, id, fun l => l.take 1 ++ (l.drop 1).reverse] = [[0, 1, 2], [0, 1, 2], [0, 2, 1]] := by decide
  refine ⟨_, badDraw, ?_, ?_, ?_, hs ▸ hres, ?_⟩
  · intro f hf l
    simp only [List.mem_cons, List.not_mem_nil, or_false] at hf
    rcases hf with rfl | rfl | rfl
    · exact List.Perm.refl _
    · exact List.Perm.refl _
    · have := (List.reverse_perm (l.drop 1)).append_left (l.take 1)
      rwa [List.take_append_drop] at this
  · intro q it o c
    unfold badDraw
    split
    · split <;> decide
    · decide
  · rw [hs]
    apply onePerBucket_of_perm
    decide
  · rw [hs, hres]
    intro h
    obtain ⟨_, _, hk⟩ := h [2, 0, 2] (by simp)
    obtain ⟨i, hi, _⟩ := hk 1 (by omega)
    have := List.mem_of_getElem? hi
    revert this; decide

/-- Finding: with a single sample (the default of `num_samples`) the loop of `perturb` that looks for a second element never ends: no draw is different. -/
theorem finding_single_sample_never_differs (draws : List Nat) (h : ∀ d ∈ draws, d < 1) : drawSecond 0 draws = none := by
  unfold drawSecond
  rw [List.find?_eq_none]
  intro d hd
  have := h d hd
  simp; omega

/-- The hypotheses of the theorems on Latin hypercubes are met: two variables (one an array), four samples. -/
example : ∃ runs, lhcRunlist (randLhc 4 [List.reverse, id, List.reverse]) 4 [⟨"x", [((0 : ℚ), 2)]⟩, ⟨"y", [(-1, 1), (0, 4)]⟩] (fun _ _ => 1 / 2) = .ok runs ∧
    IsLatinStudy 4 [⟨"x", [((0 : ℚ), 2)]⟩, ⟨"y", [(-1, 1), (0, 4)]⟩] runs :=
  C38_plain_driver 4 _ (by simp; rintro a b (⟨rfl, rfl⟩ | ⟨rfl, rfl⟩) <;> norm_num) _ (by simp [List.reverse_perm]) rfl _ (by intro _ _; norm_num)
example : ∀ x, (pyRound x : Rat) ≤ x + 1 / 2 := by
  intro x
  unfold pyRound
  have h1 := Rat.floor_le x
  have h2 := Rat.lt_floor_add_one x
  dsimp only
  split
  · linarith
  · split
    · push_cast; linarith
    · split
      · linarith
      · push_cast; linarith

example : ∃ runs, lhcRunlist (optLhc pyRound powSum lhcQs (randLhc 4 [List.reverse, id, List.reverse]) 20 2 (fun _ _ o c => (c % 3, o % 4, (o + 1) % 4))) 4
      [⟨"x", [((0 : ℚ), 2)]⟩, ⟨"y", [(-1, 1), (0, 4)]⟩] (fun _ _ => 1 / 2) = .ok runs ∧
    IsLatinStudy 4 [⟨"x", [((0 : ℚ), 2)]⟩, ⟨"y", [(-1, 1), (0, 4)]⟩] runs :=
  C38_optimized_partial 4 _ (by simp; rintro a b (⟨rfl, rfl⟩ | ⟨rfl, rfl⟩) <;> norm_num) _ (by simp [List.reverse_perm]) rfl _ (by intro _ _; norm_num)
    pyRound (by
      intro x
      unfold pyRound
      have h1 := Rat.floor_le x
      have h2 := Rat.lt_floor_add_one x
      dsimp only
      split
      · linarith
      · split
        · push_cast; linarith
        · split
          · linarith
          · push_cast; linarith) _ 20 2 (Or.inl (le_refl 2)) _

/-! ## C39: division of a study over groups of processes -/

section C39
variable {α : Type}

theorem distrib_perm_aux (n : Nat) (l : List (α × Nat)) (h : ∀ x ∈ l, x.2 % n < n) :
    ((List.range n).flatMap fun id => l.filter fun ci => decide (ci.2 % n = id)).Perm l := by
  induction l with
  | nil => simp
  | cons x l ih =>
    have ih := ih fun y hy => h y (List.mem_cons_of_mem _ hy)
    have hx := h x List.mem_cons_self
    refine List.Perm.trans ?_ (List.Perm.cons x ih)
    have key : ∀ ids : List Nat, ids.Nodup → x.2 % n ∈ ids →
        (ids.flatMap fun id => (x :: l).filter fun ci => decide (ci.2 % n = id)).Perm
          (x :: ids.flatMap fun id => l.filter fun ci => decide (ci.2 % n = id)) := by
      intro ids
      induction ids with
      | nil => simp
      | cons a ids ih2 =>
        intro hn hm
        simp only [List.flatMap_cons]
        by_cases ha : x.2 % n = a
        · have hna : x.2 % n ∉ ids := by rw [ha]; exact (List.nodup_cons.1 hn).1
          rw [List.filter_cons_of_pos (by simpa using ha)]
          have e : (ids.flatMap fun id => (x :: l).filter fun ci => decide (ci.2 % n = id)) =
              ids.flatMap fun id => l.filter fun ci => decide (ci.2 % n = id) := by
            apply List.flatMap_congr
            intro id hid
            rw [List.filter_cons_of_neg]
            simp only [decide_eq_true_eq]
            intro e; exact hna (e ▸ hid)
          rw [e]
          exact List.Perm.refl _
        · rw [List.filter_cons_of_neg (by simpa using ha)]
          have := ih2 (List.nodup_cons.1 hn).2 ((List.mem_cons.1 hm).resolve_left ha)
          exact (this.append_left _).trans List.perm_middle
    exact key _ List.nodup_range (List.mem_range.2 hx)

/-- C39 for the general design study. The groups together run exactly the cases of the serial run list, each once. -/
theorem C39_all_cases_once (n : Nat) (hn : 0 < n) (cases : List α) :
    ((List.range n).flatMap fun id => distribRunlist n id cases).Perm cases := by
  have h := (distrib_perm_aux n cases.zipIdx fun x _ => Nat.mod_lt _ hn).map Prod.fst
  rw [List.map_flatMap] at h
  have e : cases.zipIdx.map Prod.fst = cases := by simp
  rw [e] at h
  exact h

/-- C39 for the general design study. The case at position `i` is run by exactly one group. -/
theorem C39_one_group (n : Nat) (hn : 0 < n) (cases : List α) (hd : cases.Nodup) (c : α) (hc : c ∈ cases) :
    ∃! id : Nat, id < n ∧ c ∈ distribRunlist n id cases := by
  have hmem : ∀ id, c ∈ distribRunlist n id cases ↔ ∃ i : Nat, cases[i]? = some c ∧ i % n = id := by
    intro id
    simp only [distribRunlist, List.mem_map, List.mem_filter, decide_eq_true_eq, Prod.exists]
    constructor
    · rintro ⟨a, i, ⟨h1, h2⟩, rfl⟩
      exact ⟨i, List.mem_zipIdx_iff_getElem?.1 h1, h2⟩
    · rintro ⟨i, h1, h2⟩
      exact ⟨c, i, ⟨List.mem_zipIdx_iff_getElem?.2 h1, h2⟩, rfl⟩
  obtain ⟨i, hi⟩ := List.getElem?_of_mem hc
  refine ⟨i % n, ⟨Nat.mod_lt _ hn, (hmem _).2 ⟨i, hi, rfl⟩⟩, ?_⟩
  rintro id ⟨_, h⟩
  obtain ⟨j, hj, rfl⟩ := (hmem _).1 h
  have : j = i := by
    have hil := (List.getElem?_eq_some_iff.1 hi).1
    have hjl := (List.getElem?_eq_some_iff.1 hj).1
    exact (List.Nodup.getElem_inj_iff hd (hi := hjl) (hj := hil)).1
      (by rw [(List.getElem?_eq_some_iff.1 hj).2, (List.getElem?_eq_some_iff.1 hi).2])
  rw [this]

/-- Each group runs its cases in the order of the serial run list. -/
theorem C39_order (n id : Nat) (cases : List α) : (distribRunlist n id cases).Sublist cases := by
  have h := (List.filter_sublist (l := cases.zipIdx) (p := fun ci => decide (ci.2 % n = id))).map Prod.fst
  have e : cases.zipIdx.map Prod.fst = cases := by simp
  rw [e] at h
  exact h

theorem take_drop_blocks (cases : List α) (f : Nat → Nat) (g : Nat → Nat) (h : ∀ i, f (i + 1) = f i + g i) (p : Nat) :
    ((List.range p).flatMap fun i => (cases.drop (f i)).take (g i)) = (cases.drop (f 0)).take (f p - f 0) := by
  have mono : ∀ p, f 0 ≤ f p := by
    intro p
    induction p with
    | zero => exact le_refl _
    | succ p ih => rw [h]; omega
  induction p with
  | zero => simp
  | succ p ih =>
    rw [List.range_succ, List.flatMap_append, ih, List.flatMap_singleton, h]
    have hm := mono p
    have e : f p + g p - f 0 = (f p - f 0) + g p := by omega
    rw [e, List.take_add, List.drop_drop]
    congr 3
    omega

/-- C39 for Latin hypercube studies: the blocks sent to the groups, one after the other, are the serial run list. -/
theorem C39_scatter (n : Nat) (hn : 0 < n) (cases : List α) :
    ∃ blocks, (List.range n).mapM (fun id => scatterRunlist n id cases) = .ok blocks ∧ blocks.length = n ∧ blocks.flatten = cases := by
  obtain ⟨sizes, offsets, h0, hs, ho, hsz, hof⟩ := evenlyDistribIdxs_eq n cases.length hn
  have hone : ∀ id, id < n → scatterRunlist n id cases =
      .ok ((cases.drop (id * (cases.length / n) + min id (cases.length % n))).take (cases.length / n + if id < cases.length % n then 1 else 0)) := by
    intro id hid
    unfold scatterRunlist
    rw [h0]; dsimp only; rw [hof id hid, hsz id hid]
  have hmap : ∀ l : List Nat, (∀ x ∈ l, x < n) → l.mapM (fun id => scatterRunlist n id cases) =
      .ok (l.map fun id => (cases.drop (id * (cases.length / n) + min id (cases.length % n))).take (cases.length / n + if id < cases.length % n then 1 else 0)) := by
    intro l
    induction l with
    | nil => intro _; rfl
    | cons x l ih =>
      intro hl
      rw [List.mapM_cons, hone x (hl x List.mem_cons_self), ih fun y hy => hl y (List.mem_cons_of_mem _ hy)]
      rfl
  refine ⟨_, hmap _ fun x hx => List.mem_range.1 hx, by simp, ?_⟩
  rw [← List.flatMap_def]
  rw [take_drop_blocks cases (fun id => id * (cases.length / n) + min id (cases.length % n)) (fun id => cases.length / n + if id < cases.length % n then 1 else 0)]
  · have hdm := Nat.div_add_mod cases.length n
    have hml := Nat.mod_lt cases.length hn
    simp only [Nat.zero_mul, Nat.zero_min, Nat.add_zero, List.drop_zero, Nat.sub_zero]
    apply List.take_of_length_le
    omega
  · intro i
    rw [Nat.succ_mul]
    split <;> omega

/-- Longest list. -/
def maxLen (ls : List (List α)) : Nat := (ls.map List.length).foldr max 0

theorem maxLen_tails (ls : List (List α)) : maxLen (ls.map List.tail) = maxLen ls - 1 := by
  induction ls with
  | nil => rfl
  | cons l ls ih =>
    simp only [maxLen, List.map_cons, List.foldr_cons] at ih ⊢
    rw [ih, List.length_tail]; omega

theorem maxLen_zero (ls : List (List α)) : maxLen ls = 0 ↔ ∀ l ∈ ls, l = [] := by
  induction ls with
  | nil => simp [maxLen]
  | cons l ls ih =>
    simp only [maxLen, List.map_cons, List.foldr_cons] at ih ⊢
    rw [List.forall_mem_cons, ← ih, ← List.length_eq_zero_iff]
    omega

theorem lockstep_length (ls : List (List α)) : (lockstep ls).length = maxLen ls := by
  generalize hm : maxLen ls = m
  induction m generalizing ls with
  | zero => rw [lockstep, dif_pos ((maxLen_zero ls).1 hm)]; rfl
  | succ m ih =>
    have hne : ¬ ∀ l ∈ ls, l = [] := by rw [← maxLen_zero, hm]; omega
    rw [lockstep, dif_neg hne, List.length_cons, ih _ (by rw [maxLen_tails, hm]; rfl)]

/-- The rounds give every group its own cases, in order, followed by dummies. -/
theorem C39_rounds (ls : List (List α)) (g : Nat) (l : List α) (hl : ls[g]? = some l) :
    (lockstep ls).map (fun round => round[g]?) = l.map (fun c => some (some c)) ++ List.replicate ((lockstep ls).length - l.length) (some none) := by
  generalize hm : maxLen ls = m
  induction m generalizing ls l with
  | zero =>
    have h0 := (maxLen_zero ls).1 hm
    have : l = [] := h0 l (List.mem_of_getElem? hl)
    rw [lockstep, dif_pos h0, this]; rfl
  | succ m ih =>
    have hne : ¬ ∀ l ∈ ls, l = [] := by rw [← maxLen_zero, hm]; omega
    rw [lockstep, dif_neg hne]
    have := ih (ls.map List.tail) l.tail (by simp [hl]) (by rw [maxLen_tails, hm]; rfl)
    rw [List.map_cons, this, List.length_cons, List.getElem?_map, hl]
    cases l with
    | nil =>
      simp only [Option.map_some, List.head?_nil, List.tail_nil, List.map_nil, List.nil_append, List.length_nil, Nat.sub_zero]
      rfl
    | cons a l =>
      simp only [Option.map_some, List.head?_cons, List.tail_cons, List.map_cons, List.cons_append, List.length_cons, Nat.add_sub_add_right]

/-- All processes take part in the collective calls of the run the same number of times (otherwise the run hangs). -/
def CollectivesMatch (groups : List (List α)) (procs : List (Nat × Bool)) : Prop :=
  ∀ p ∈ procs, ∀ q ∈ procs, parDoeCalls groups p.1 p.2 = parDoeCalls groups q.1 q.2

/-- C39: the study does not hang on its collective calls if each group has one process or all groups have the same number of cases. -/
theorem C39_collectives_partial (groups : List (List α)) (sizes : List Nat) (hs : sizes.length = groups.length)
    (h : (∀ s ∈ sizes, s ≤ 1) ∨ ∀ l ∈ groups, l.length = maxLen groups) : CollectivesMatch groups (parDoeProcs sizes) := by
  have key : ∀ p ∈ parDoeProcs sizes, parDoeCalls groups p.1 p.2 = .ok (maxLen groups) := by
    rintro ⟨g, first⟩ hp
    simp only [parDoeProcs, List.mem_flatMap, List.mem_map, List.mem_range, Prod.exists] at hp
    obtain ⟨s, g', hsg, k, hk, e⟩ := hp
    simp only [Prod.mk.injEq] at e
    obtain ⟨rfl, rfl⟩ := e
    have hsg := List.mem_zipIdx_iff_getElem?.1 hsg
    have hg : g' < groups.length := by rw [← hs]; exact (List.getElem?_eq_some_iff.1 hsg).1
    unfold parDoeCalls
    simp only [List.getElem?_eq_getElem hg, lockstep_length]
    rcases h with h | h
    · have := h s (List.mem_of_getElem? hsg)
      have : k = 0 := by omega
      simp [this]
    · rw [h _ (List.getElem_mem hg)]; simp
  intro p hp q hq
  rw [key p hp, key q hq]

/-- C39 is false of the running study: three cases over two groups of two processes each. The second process of the second group takes part in one
collective call only, the others in two: the study hangs before all cases are run. -/
theorem C39_hang_refuted : ∃ (size n : Nat) (cases : List Nat) (sizes offsets : List Nat), n ≤ size ∧ evenlyDistribIdxs n size = .ok (sizes, offsets) ∧
    ¬ CollectivesMatch ((List.range n).map fun id => distribRunlist n id cases) (parDoeProcs sizes) := by
  refine ⟨4, 2, [10, 11, 12], [2, 2], [0, 2], by omega, by decide, ?_⟩
  intro h
  have := h (0, true) (by decide) (1, false) (by decide)
  simp only [parDoeCalls, lockstep_length] at this
  revert this
  decide

/-- The hypotheses are met. -/
example : ((List.range 3).flatMap fun id => distribRunlist 3 id [10, 11, 12, 13]).Perm [10, 11, 12, 13] := C39_all_cases_once 3 (by omega) _
example : CollectivesMatch ((List.range 2).map fun id => distribRunlist 2 id [10, 11, 12]) (parDoeProcs [1, 1]) :=
  C39_collectives_partial _ _ rfl (Or.inl (by decide))

end C39

end OpenMDAO
