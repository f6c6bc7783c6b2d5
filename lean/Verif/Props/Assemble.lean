import Verif.Lemmas.Assemble
import Mathlib.Algebra.BigOperators.Ring.Finset
import Mathlib.Tactic.FinCases
import Mathlib.Tactic.NormNum
import Mathlib.Tactic.LinearCombination
import Mathlib.Algebra.BigOperators.Group.Finset.Sigma
/-! C54: the matrix assembled for the direct solver against the matrix-free operator. -/
namespace OpenMDAO
set_option linter.unusedSectionVars false

variable {K : Type} [CommRing K] {u : List (String × Nat)} {comps : List (AsmComp K)}

theorem lsum_filterMap {α β : Type} (l : List α) (g : α → Option β) (f : β → K) :
    ((l.filterMap g).map f).sum = (l.map fun x => ((g x).map f).getD 0).sum := by
  induction l with
  | nil => rfl
  | cons x l ih =>
    rw [List.map_cons, List.sum_cons, ← ih]
    rcases h : g x with _ | y
    · rw [List.filterMap_cons_none h]; simp
    · rw [List.filterMap_cons_some h]; simp

theorem lsum_flatMap {α β : Type} (l : List α) (g : α → List β) (f : β → K) :
    ((l.flatMap g).map f).sum = (l.map fun x => ((g x).map f).sum).sum := by
  induction l with
  | nil => rfl
  | cons x l ih => rw [List.flatMap_cons, List.map_append, List.sum_append, ih, List.map_cons, List.sum_cons]

theorem sum_eye (n : Nat) (J : Nat → K) (i : String) (r : Pos) (v : Pos → K) (hr : i = r.1 → r.2 < n) :
    ∑ b ∈ Finset.range n, (J b - negEye r (i, b)) * v (i, b) =
      (∑ b ∈ Finset.range n, J b * v (i, b)) + if i = r.1 then v r else 0 := by
  have hsplit : ∀ b ∈ Finset.range n, (J b - negEye r (i, b)) * v (i, b) = J b * v (i, b) + -negEye r (i, b) * v (i, b) :=
    fun b _ => by ring
  rw [Finset.sum_congr rfl hsplit, Finset.sum_add_distrib]
  congr 1
  split
  · rename_i h
    rw [Finset.sum_eq_single r.2]
    · simp [negEye, h]
    · intro b _ hb
      have : ¬ r = (i, b) := by intro hc; exact hb (by rw [hc])
      simp [negEye, this]
    · intro hc; exact absurd (Finset.mem_range.mpr (hr h)) hc
  · rename_i h
    refine Finset.sum_eq_zero fun b _ => ?_
    have : ¬ r = (i, b) := by intro hc; exact h (by rw [hc])
    simp [negEye, this]

theorem inVec_lt (hu : (u.map Prod.fst).Nodup) (r : Pos) (hr : InVec u r) (n : Nat) (hn : (r.1, n) ∈ u) : r.2 < n := by
  obtain ⟨m, hm, hlt⟩ := hr
  have a := (lookup_eq_some_iff_of_nodup u r.1 n hu).mpr hn
  have b := (lookup_eq_some_iff_of_nodup u r.1 m hu).mpr hm
  rw [a] at b; cases b; exact hlt

/-- Product of the assembled matrix with a vector, as a sum over the Jacobian entries of all components. -/
theorem asm_mul (hw : AsmWF u comps) (ha : Assemblable comps) (hf : FullBlocks u comps) (fwd : Bool) (v : Pos → K) (r : Pos)
    (hr : InVec u r) :
    mulP u ((comps.flatMap (triplesOf fwd)).foldl placeT negEye) v r = - v r +
      (comps.map fun c => ((c.jac.getD []).map fun e => ((tripleOf fwd c e).map fun t =>
        if t.1 = r.1 then (∑ b ∈ Finset.range t.2.2.n, t.2.2.a r.2 b * v (t.2.1, b)) + if t.2.1 = r.1 then v r else 0
        else 0).getD 0).sum).sum := by
  rw [mulP_place u hw.uniq _ (triples_nodup hw ha fwd) (triples_shape hw ha hf fwd) negEye v r hr, mulP_negEye u hw.uniq v r hr]
  congr 1
  have : ∀ t ∈ comps.flatMap (triplesOf fwd), (if t.1 = r.1 then
        ∑ b ∈ Finset.range t.2.2.n, (t.2.2.a r.2 b - negEye r (t.2.1, b)) * v (t.2.1, b) else 0) =
      if t.1 = r.1 then (∑ b ∈ Finset.range t.2.2.n, t.2.2.a r.2 b * v (t.2.1, b)) + if t.2.1 = r.1 then v r else 0 else 0 := by
    intro t ht
    split
    · refine sum_eye _ (fun b => t.2.2.a r.2 b) _ r v fun h => ?_
      have := (triples_shape hw ha hf fwd t ht).2
      rw [h] at this
      exact inVec_lt hw.uniq r hr _ this
    · rfl
  rw [lsum_congr _ _ _ this, lsum_flatMap]
  refine lsum_congr _ _ _ fun c _ => ?_
  rw [triplesOf, lsum_filterMap]

/-- **C54, forward.** Under the stated conditions the matrix assembled from the components' Jacobians, multiplied by any vector, is
the matrix-free product with that vector. Missing from the full claim: the conditions in `Assemblable`, each of which is
necessary, see the refutations below. -/
theorem C54_fwd_partial (hw : AsmWF u comps) (ha : Assemblable comps) (hf : FullBlocks u comps) :
    ∃ P, assembleJac true u comps = .ok P ∧ ∀ v r, InVec u r → mulP u P v r = matFree comps v r := by
  refine ⟨_, assembleJac_eq hw ha hf true, ?_⟩
  intro v r hr
  have hru : r.1 ∈ u.map Prod.fst := by
    obtain ⟨n, hn, _⟩ := hr
    exact List.mem_map.mpr ⟨_, hn, rfl⟩
  rw [asm_mul hw ha hf true v r hr]
  have hdiag := diag_count hw ha r.1 hru (v r)
  rw [lsum_add] at hdiag
  -- left: split every entry into the product and the diagonal
  have hleft : ∀ c ∈ comps, ((c.jac.getD []).map fun e => ((tripleOf true c e).map fun t =>
        if t.1 = r.1 then (∑ b ∈ Finset.range t.2.2.n, t.2.2.a r.2 b * v (t.2.1, b)) + if t.2.1 = r.1 then v r else 0
        else 0).getD 0).sum =
      ((c.jac.getD []).map fun e => if c.outs.lookup e.1.1 = some r.1 then
        ∑ b ∈ Finset.range e.2.n, e.2.a r.2 b * freeArg c v e.1.2 b else 0).sum +
      ((c.jac.getD []).map fun e => if c.outs.lookup e.1.1 = some r.1 ∧ colSpec c e.1.2 = some r.1 then v r else 0).sum := by
    intro c hc
    rw [← lsum_add]
    obtain ⟨jac, hj⟩ := Option.isSome_iff_exists.mp (ha.hasJac c hc)
    rw [hj, Option.getD_some]
    refine lsum_congr _ _ _ fun e he => ?_
    obtain ⟨_, hk⟩ := hw.jacKeys c hc jac hj
    obtain ⟨ho, hi⟩ := hk e he
    obtain ⟨o, hov⟩ := lookup_of_mem_keys c.outs e.1.1 ho
    have harg : ∀ b, freeArg c v e.1.2 b = ((colSpec c e.1.2).map fun i => v (i, b)).getD 0 := by
      intro b
      by_cases hs : e.1.2 ∈ c.states
      · simp only [freeArg, colSpec, hs, if_true]
        cases c.outs.lookup e.1.2 <;> rfl
      · obtain ⟨p, hp⟩ := lookup_of_mem_keys c.ins e.1.2 (hi.resolve_left hs)
        obtain ⟨h1, h2, h3⟩ := ha.plain c hc _ (lookup_mem hp)
        simp only at h1 h2 h3
        simp only [freeArg, colSpec, hs, if_false, hp, Option.bind_some]
        rcases hcn : p.conn with _ | _ | s
        · rfl
        · rfl
        · simp [h2, h3, srcPos]
    simp only [tripleOf, hov, harg]
    rcases hcs : colSpec c e.1.2 with _ | i
    · simp
    · by_cases h1 : o = r.1 <;> by_cases h2 : i = r.1 <;> simp [h1, h2]
  rw [lsum_congr _ _ _ hleft, lsum_add]
  -- right: the rows of the unknown
  have hright : ∀ c ∈ comps, (c.outs.map fun o => if o.2 = r.1 then freeRow c v o.1 o.2 r.2 else 0).sum =
      ((c.jac.getD []).map fun e => if c.outs.lookup e.1.1 = some r.1 then
        ∑ b ∈ Finset.range e.2.n, e.2.a r.2 b * freeArg c v e.1.2 b else 0).sum -
      (c.outs.map fun o => if o.2 = r.1 ∧ o.1 ∉ c.states then v r else 0).sum := by
    intro c hc
    have h1 : ∀ o ∈ c.outs, (if o.2 = r.1 then freeRow c v o.1 o.2 r.2 else 0) =
        ((c.jac.getD []).map fun e => if o.2 = r.1 ∧ e.1.1 = o.1 then
          ∑ b ∈ Finset.range e.2.n, e.2.a r.2 b * freeArg c v e.1.2 b else 0).sum -
        (if o.2 = r.1 ∧ o.1 ∉ c.states then v r else 0) := by
      intro o _
      by_cases ho : o.2 = r.1
      · by_cases hs : o.1 ∈ c.states
        · simp [ho, freeRow, hs]
        · simp [ho, freeRow, hs]
      · simp [ho]
    rw [lsum_congr _ _ _ h1, lsum_sub, lsum_comm]
    congr 1
    refine lsum_congr _ _ _ fun e _ => ?_
    by_cases hl : c.outs.lookup e.1.1 = some r.1
    · rw [if_pos hl]
      have hm := lookup_mem hl
      have : ∀ o ∈ c.outs, (if o.2 = r.1 ∧ e.1.1 = o.1 then
          ∑ b ∈ Finset.range e.2.n, e.2.a r.2 b * freeArg c v e.1.2 b else 0) =
          if o.1 = e.1.1 then ∑ b ∈ Finset.range e.2.n, e.2.a r.2 b * freeArg c v e.1.2 b else 0 := by
        intro o ho
        by_cases h : o.1 = e.1.1
        · have : o.2 = r.1 := by
            have a := (lookup_eq_some_iff_of_nodup c.outs o.1 o.2 (hw.namesUniq c hc)).mpr ho
            rw [h, hl] at a; exact (Option.some.inj a).symm
          simp [h, this]
        · have : ¬ e.1.1 = o.1 := fun hh => h hh.symm
          simp [h, this]
      rw [lsum_congr _ _ _ this]
      exact lsum_single c.outs Prod.fst (hw.namesUniq c hc) (e.1.1, r.1) hm
        fun _ => ∑ b ∈ Finset.range e.2.n, e.2.a r.2 b * freeArg c v e.1.2 b
    · rw [if_neg hl]
      refine lsum_zero _ _ fun o ho => ?_
      rw [if_neg]
      rintro ⟨h1, h2⟩
      apply hl
      rw [h2, ← h1]
      exact (lookup_eq_some_iff_of_nodup c.outs o.1 o.2 (hw.namesUniq c hc)).mpr ho
  rw [matFree, lsum_congr _ _ _ hright, lsum_sub]
  linear_combination hdiag

/-- **C54, reverse.** In reverse mode the assembled matrix is the matrix-free reverse product under the same conditions. -/
theorem C54_rev_partial (hw : AsmWF u comps) (ha : Assemblable comps) (hf : FullBlocks u comps) :
    ∃ P, assembleJac false u comps = .ok P ∧ ∀ w q, InVec u q → mulP u P w q = matFreeRev comps w q := by
  refine ⟨_, assembleJac_eq hw ha hf false, ?_⟩
  intro w q hq
  have hqu : q.1 ∈ u.map Prod.fst := by
    obtain ⟨n, hn, _⟩ := hq
    exact List.mem_map.mpr ⟨_, hn, rfl⟩
  rw [asm_mul hw ha hf false w q hq]
  have hdiag := diag_count hw ha q.1 hqu (w q)
  rw [lsum_add] at hdiag
  have hleft : ∀ c ∈ comps, ((c.jac.getD []).map fun e => ((tripleOf false c e).map fun t =>
        if t.1 = q.1 then (∑ b ∈ Finset.range t.2.2.n, t.2.2.a q.2 b * w (t.2.1, b)) + if t.2.1 = q.1 then w q else 0
        else 0).getD 0).sum =
      ((c.jac.getD []).map (revAt c w q)).sum +
      ((c.jac.getD []).map fun e => if c.outs.lookup e.1.1 = some q.1 ∧ colSpec c e.1.2 = some q.1 then w q else 0).sum := by
    intro c hc
    rw [← lsum_add]
    obtain ⟨jac, hj⟩ := Option.isSome_iff_exists.mp (ha.hasJac c hc)
    rw [hj, Option.getD_some]
    refine lsum_congr _ _ _ fun e he => ?_
    obtain ⟨_, hk⟩ := hw.jacKeys c hc jac hj
    obtain ⟨ho, hi⟩ := hk e he
    obtain ⟨o, hov⟩ := lookup_of_mem_keys c.outs e.1.1 ho
    have hrev : revAt c w q e = if colSpec c e.1.2 = some q.1 then ∑ a ∈ Finset.range e.2.m, e.2.a a q.2 * w (o, a) else 0 := by
      by_cases hs : e.1.2 ∈ c.states
      · simp only [revAt, colSpec, hs, if_true, revTerm, hov]
      · obtain ⟨p, hp⟩ := lookup_of_mem_keys c.ins e.1.2 (hi.resolve_left hs)
        obtain ⟨h1, h2, h3⟩ := ha.plain c hc _ (lookup_mem hp)
        simp only at h1 h2 h3
        simp only [revAt, colSpec, hs, if_false, hp, Option.bind_some]
        by_cases hcn : p.conn = some (some q.1)
        · have hlt : q.2 < e.2.n := by
            have := (hf c hc jac hj e he o q.1 hov (by simp only [hs, if_false]; exact ⟨p, hp, hcn⟩)).2
            exact inVec_lt hw.uniq q hq _ this
          rw [if_pos hcn, if_pos (by rw [hcn]; rfl), Finset.sum_eq_single q.2]
          · simp [h2, h3, srcPos, revTerm, hov]
          · intro b _ hb
            simp [h2, srcPos, hb]
          · intro hc'; exact absurd (Finset.mem_range.mpr hlt) hc'
        · rw [if_neg hcn, if_neg]
          rcases hcn' : p.conn with _ | _ | s
          · simp
          · simp
          · rw [hcn'] at hcn
            simpa using hcn
    rw [hrev]
    simp only [tripleOf, hov]
    rcases hcs : colSpec c e.1.2 with _ | i
    · simp
    · by_cases h1 : o = q.1 <;> by_cases h2 : i = q.1 <;> simp [h1, h2, Mat.T]
  rw [lsum_congr _ _ _ hleft, lsum_add, matFreeRev, lsum_sub]
  linear_combination hdiag

/-- **C54, modes.** The matrix assembled in reverse mode is the transpose of the matrix assembled in forward mode, whatever the
components and connections, and one assembly fails exactly when the other does, with the same error. -/
theorem C54_transpose (u : List (String × Nat)) (comps : List (AsmComp K)) :
    assembleJac false u comps = (assembleJac true u comps).map fun P r q => P q r := by
  have hblk : ∀ (P : Pos → Pos → K) o i (J : Mat K),
      setBlock u (fun r q => P q r) i o J.T = (setBlock u P o i J).map fun P r q => P q r := by
    intro P o i J
    unfold setBlock
    cases u.lookup o <;> cases u.lookup i <;> simp only [Except.map]
    rename_i no ni
    by_cases h : (J.m = no ∨ J.m = 1) ∧ (J.n = ni ∨ J.n = 1)
    · rw [if_pos h, if_pos (by simp only [Mat.T]; tauto)]
      congr 1
      funext r q
      simp only [setBlk, Mat.T]
      by_cases h1 : r.1 = i <;> by_cases h2 : q.1 = o <;> simp [h1, h2]
      rfl
    · rw [if_neg h, if_neg (by simp only [Mat.T]; tauto)]
  have hentry : ∀ (c : AsmComp K) (P : Pos → Pos → K) e,
      asmEntry false u c (fun r q => P q r) e = (asmEntry true u c P e).map fun P r q => P q r := by
    intro c P e
    unfold asmEntry
    rcases asmCol u c e.1.2 with x | _ | i <;> rcases c.outs.lookup e.1.1 with _ | o <;> try rfl
    simp only [Bool.false_eq_true, if_false, if_true]
    exact hblk P o i e.2
  have hfold : ∀ {α : Type} (f g : (Pos → Pos → K) → α → Except PyErr (Pos → Pos → K)) (l : List α),
      (∀ P x, f (fun r q => P q r) x = (g P x).map fun P r q => P q r) →
      ∀ P, l.foldlM f (fun r q => P q r) = (l.foldlM g P).map fun P r q => P q r := by
    intro α f g l h
    induction l with
    | nil => intro P; rfl
    | cons x l ih =>
      intro P
      rw [List.foldlM_cons, List.foldlM_cons, h]
      rcases g P x with e | P'
      · rfl
      · exact ih P'
  have heye : (negEye : Pos → Pos → K) = fun r q => negEye q r := by
    funext r q
    simp only [negEye, eq_comm]
  unfold assembleJac
  conv_lhs => rw [heye]
  refine hfold _ _ comps ?_ negEye
  intro P c
  unfold asmComp
  rcases c.jac with _ | jac
  · rfl
  · exact hfold _ _ jac (fun P e => hentry c P e) P

/-! ### Matrix-vector product method -/

theorem lsum_finset {α ι : Type} (l : List α) (s : Finset ι) (f : α → ι → K) :
    (l.map fun x => ∑ b ∈ s, f x b).sum = ∑ b ∈ s, (l.map fun x => f x b).sum := by
  induction l with
  | nil => simp
  | cons x l ih => simp only [List.map_cons, List.sum_cons, ih, Finset.sum_add_distrib]

/-- The operator is linear over a family of vectors. -/
def IsLin (op : (Pos → K) → Pos → K) : Prop :=
  ∀ (u : List (String × Nat)) (c : Pos → K) (e : Pos → Pos → K) (r : Pos),
    op (fun p => (u.map fun x => ∑ b ∈ Finset.range x.2, c (x.1, b) * e (x.1, b) p).sum) r =
      (u.map fun x => ∑ b ∈ Finset.range x.2, c (x.1, b) * op (e (x.1, b)) r).sum

/-- The operator only reads the positions of the unknowns vector. -/
def Reads (u : List (String × Nat)) (op : (Pos → K) → Pos → K) : Prop :=
  ∀ v v' r, InVec u r → (∀ p, InVec u p → v p = v' p) → op v r = op v' r

theorem unit_sum (hu : (u.map Prod.fst).Nodup) (v : Pos → K) (p : Pos) (hp : InVec u p) :
    (u.map fun x => ∑ b ∈ Finset.range x.2, v (x.1, b) * (if p = (x.1, b) then (1 : K) else 0)).sum = v p := by
  have h := mulP_negEye u hu v p hp
  have : (u.map fun x => ∑ b ∈ Finset.range x.2, v (x.1, b) * (if p = (x.1, b) then (1 : K) else 0)).sum =
      - mulP u negEye v p := by
    rw [mulP]
    have hneg : ∀ (l : List (String × Nat)) (f : String × Nat → K), -(l.map f).sum = (l.map fun x => - f x).sum := by
      intro l f
      induction l with
      | nil => simp
      | cons x l ih => simp only [List.map_cons, List.sum_cons, neg_add, ih]
    rw [hneg]
    refine lsum_congr _ _ _ fun x _ => ?_
    rw [← Finset.sum_neg_distrib]
    refine Finset.sum_congr rfl fun b _ => ?_
    simp only [negEye]
    split <;> ring
  rw [this, h]; ring

/-- A linear operator equals the matrix of its products with the unit vectors. -/
theorem mvp_of_linear (hu : (u.map Prod.fst).Nodup) (op : (Pos → K) → Pos → K) (hl : IsLin op) (hr : Reads u op) (v : Pos → K)
    (r : Pos) (hv : InVec u r) : mulP u (mvpJac op) v r = op v r := by
  have h1 : op v r = op (fun p => (u.map fun x => ∑ b ∈ Finset.range x.2, v (x.1, b) *
      (if p = (x.1, b) then (1 : K) else 0)).sum) r := hr _ _ r hv fun p hp => (unit_sum hu v p hp).symm
  rw [h1, hl u v (fun q p => if p = q then 1 else 0) r, mulP]
  refine lsum_congr _ _ _ fun x _ => Finset.sum_congr rfl fun b _ => ?_
  rw [mvpJac, mul_comm]

/-- Pushing a weighted sum of vectors through something that is additive. -/
theorem freeArg_lin (c : AsmComp K) (w : List (String × Nat)) (cf : Pos → K) (e : Pos → Pos → K) (i : String) (b : Nat) :
    freeArg c (fun p => (w.map fun x => ∑ k ∈ Finset.range x.2, cf (x.1, k) * e (x.1, k) p).sum) i b =
      (w.map fun x => ∑ k ∈ Finset.range x.2, cf (x.1, k) * freeArg c (e (x.1, k)) i b).sum := by
  unfold freeArg
  split
  · split
    · rfl
    · rw [lsum_zero]; intro x _; simp
  · split
    · rw [lsum_zero]; intro x _; simp
    · rename_i p _
      split
      · split
        · rw [lsum_mul]
          refine lsum_congr _ _ _ fun x _ => ?_
          rw [Finset.sum_mul]
          exact Finset.sum_congr rfl fun k _ => by ring
        · rw [lsum_zero]; intro x _; simp
      · rw [lsum_zero]; intro x _; simp

/-- A finite weighted sum, to move sums through sums. -/
theorem wsum_push {α : Type} (w : List (String × Nat)) (cf : Pos → K) (l : List α) (g : α → Pos → K) :
    (l.map fun y => (w.map fun x => ∑ k ∈ Finset.range x.2, cf (x.1, k) * g y (x.1, k)).sum).sum =
      (w.map fun x => ∑ k ∈ Finset.range x.2, cf (x.1, k) * (l.map fun y => g y (x.1, k)).sum).sum := by
  rw [lsum_comm]
  refine lsum_congr _ _ _ fun x _ => ?_
  rw [lsum_finset]
  refine Finset.sum_congr rfl fun k _ => ?_
  rw [mul_comm (cf (x.1, k)), lsum_mul]
  exact lsum_congr _ _ _ fun y _ => by ring

theorem wsum_finset (w : List (String × Nat)) (cf : Pos → K) (n : Nat) (g : Nat → Pos → K) :
    ∑ a ∈ Finset.range n, (w.map fun x => ∑ k ∈ Finset.range x.2, cf (x.1, k) * g a (x.1, k)).sum =
      (w.map fun x => ∑ k ∈ Finset.range x.2, cf (x.1, k) * ∑ a ∈ Finset.range n, g a (x.1, k)).sum := by
  rw [← lsum_finset]
  refine lsum_congr _ _ _ fun x _ => ?_
  rw [Finset.sum_comm]
  exact Finset.sum_congr rfl fun k _ => by rw [Finset.mul_sum]

theorem wsum_zero (w : List (String × Nat)) (cf : Pos → K) : (w.map fun x => ∑ k ∈ Finset.range x.2, cf (x.1, k) * 0).sum = 0 := by
  rw [lsum_zero]; intro x _; simp

theorem wsum_sub (w : List (String × Nat)) (cf : Pos → K) (g h : Pos → K) :
    (w.map fun x => ∑ k ∈ Finset.range x.2, cf (x.1, k) * g (x.1, k)).sum -
      (w.map fun x => ∑ k ∈ Finset.range x.2, cf (x.1, k) * h (x.1, k)).sum =
    (w.map fun x => ∑ k ∈ Finset.range x.2, cf (x.1, k) * (g (x.1, k) - h (x.1, k))).sum := by
  rw [← lsum_sub]
  refine lsum_congr _ _ _ fun x _ => ?_
  rw [← Finset.sum_sub_distrib]
  exact Finset.sum_congr rfl fun k _ => by ring

theorem wsum_scale (w : List (String × Nat)) (cf : Pos → K) (g : Pos → K) (k0 : K) :
    k0 * (w.map fun x => ∑ k ∈ Finset.range x.2, cf (x.1, k) * g (x.1, k)).sum =
    (w.map fun x => ∑ k ∈ Finset.range x.2, cf (x.1, k) * (k0 * g (x.1, k))).sum := by
  rw [mul_comm, lsum_mul]
  refine lsum_congr _ _ _ fun x _ => ?_
  rw [Finset.sum_mul]
  exact Finset.sum_congr rfl fun k _ => by ring

theorem matFree_lin (comps : List (AsmComp K)) : IsLin (matFree comps) := by
  intro w cf e r
  unfold matFree
  have hrow : ∀ (c : AsmComp K) (o : String × String),
      freeRow c (fun p => (w.map fun x => ∑ k ∈ Finset.range x.2, cf (x.1, k) * e (x.1, k) p).sum) o.1 o.2 r.2 =
      (w.map fun x => ∑ k ∈ Finset.range x.2, cf (x.1, k) * freeRow c (e (x.1, k)) o.1 o.2 r.2).sum := by
    intro c o
    unfold freeRow
    rw [← wsum_sub w cf (fun q => ((c.jac.getD []).map fun y => if y.1.1 = o.1 then
      ∑ b ∈ Finset.range y.2.n, y.2.a r.2 b * freeArg c (e q) y.1.2 b else 0).sum)
      (fun q => if o.1 ∈ c.states then 0 else e q (o.2, r.2))]
    congr 1
    · rw [← wsum_push w cf (c.jac.getD []) fun y q => if y.1.1 = o.1 then
        ∑ b ∈ Finset.range y.2.n, y.2.a r.2 b * freeArg c (e q) y.1.2 b else 0]
      refine lsum_congr _ _ _ fun y _ => ?_
      split
      · rw [← wsum_finset w cf y.2.n fun b q => y.2.a r.2 b * freeArg c (e q) y.1.2 b]
        refine Finset.sum_congr rfl fun b _ => ?_
        rw [freeArg_lin, wsum_scale w cf (fun q => freeArg c (e q) y.1.2 b)]
      · rw [wsum_zero]
    · split
      · rw [wsum_zero]
      · rfl
  rw [← wsum_push w cf comps fun c q => (c.outs.map fun o => if o.2 = r.1 then freeRow c (e q) o.1 o.2 r.2 else 0).sum]
  refine lsum_congr _ _ _ fun c _ => ?_
  rw [← wsum_push w cf c.outs fun o q => if o.2 = r.1 then freeRow c (e q) o.1 o.2 r.2 else 0]
  refine lsum_congr _ _ _ fun o _ => ?_
  split
  · exact hrow c o
  · rw [wsum_zero]

theorem matFreeRev_lin (comps : List (AsmComp K)) : IsLin (matFreeRev comps) := by
  intro w cf e q
  unfold matFreeRev
  have hterm : ∀ (c : AsmComp K) y b,
      revTerm c (fun p => (w.map fun x => ∑ k ∈ Finset.range x.2, cf (x.1, k) * e (x.1, k) p).sum) y b =
      (w.map fun x => ∑ k ∈ Finset.range x.2, cf (x.1, k) * revTerm c (e (x.1, k)) y b).sum := by
    intro c y b
    unfold revTerm
    split
    · rw [wsum_zero]
    · rename_i o _
      rw [← wsum_finset w cf y.2.m fun a p => y.2.a a b * e p (o, a)]
      refine Finset.sum_congr rfl fun a _ => ?_
      rw [wsum_scale w cf fun p => e p (o, a)]
  have hat : ∀ (c : AsmComp K) y,
      revAt c (fun p => (w.map fun x => ∑ k ∈ Finset.range x.2, cf (x.1, k) * e (x.1, k) p).sum) q y =
      (w.map fun x => ∑ k ∈ Finset.range x.2, cf (x.1, k) * revAt c (e (x.1, k)) q y).sum := by
    intro c y
    unfold revAt
    split
    · split
      · exact hterm c y q.2
      · rw [wsum_zero]
    · split
      · rw [wsum_zero]
      · rename_i p _
        split
        · rw [← wsum_finset w cf y.2.n fun b z => if srcPos p.idxs b = some q.2 then revTerm c (e z) y b * p.unit else 0]
          refine Finset.sum_congr rfl fun b _ => ?_
          split
          · rw [hterm, mul_comm, wsum_scale w cf fun z => revTerm c (e z) y b]
            refine lsum_congr _ _ _ fun x _ => Finset.sum_congr rfl fun k _ => by ring
          · rw [wsum_zero]
        · rw [wsum_zero]
  rw [← wsum_push w cf comps fun c z => ((c.jac.getD []).map (revAt c (e z) q)).sum -
    (c.outs.map fun o => if o.2 = q.1 ∧ o.1 ∉ c.states then e z q else 0).sum]
  refine lsum_congr _ _ _ fun c _ => ?_
  rw [← wsum_sub w cf (fun z => ((c.jac.getD []).map (revAt c (e z) q)).sum)
    (fun z => (c.outs.map fun o => if o.2 = q.1 ∧ o.1 ∉ c.states then e z q else 0).sum)]
  congr 1
  · rw [← wsum_push w cf (c.jac.getD []) fun y z => revAt c (e z) q y]
    exact lsum_congr _ _ _ fun y _ => hat c y
  · rw [← wsum_push w cf c.outs fun o z => if o.2 = q.1 ∧ o.1 ∉ c.states then e z q else 0]
    refine lsum_congr _ _ _ fun o _ => ?_
    split
    · rfl
    · rw [wsum_zero]

theorem matFree_reads (hb : BlocksFit u comps) : Reads u (matFree comps) := by
  intro v v' r hr h
  unfold matFree
  refine lsum_congr _ _ _ fun c hc => lsum_congr _ _ _ fun o _ => ?_
  split
  · rename_i ho
    unfold freeRow
    have hlast : (if o.1 ∈ c.states then (0 : K) else v (o.2, r.2)) = if o.1 ∈ c.states then 0 else v' (o.2, r.2) := by
      rw [ho, h r hr]
    rw [hlast]
    congr 1
    refine lsum_congr _ _ _ fun e he => ?_
    split
    · refine Finset.sum_congr rfl fun b hbr => ?_
      congr 1
      obtain ⟨_, h2, h3⟩ := hb c hc e he
      have hbn := Finset.mem_range.mp hbr
      unfold freeArg
      by_cases hs : e.1.2 ∈ c.states
      · rw [if_pos hs, if_pos hs]
        rcases hi : c.outs.lookup e.1.2 with _ | i
        · rfl
        · exact h _ (h2 hs i hi b hbn)
      · rw [if_neg hs, if_neg hs]
        rcases hp : c.ins.lookup e.1.2 with _ | p
        · rfl
        · simp only
          rcases hcn : p.conn with _ | _ | s
          · rfl
          · rfl
          · simp only
            rcases hk : srcPos p.idxs b with _ | k
            · rfl
            · simp only
              rw [h _ (h3 p s hp hcn b hbn k hk)]
    · rfl
  · rfl

theorem matFreeRev_reads (hb : BlocksFit u comps) : Reads u (matFreeRev comps) := by
  intro w w' q hq h
  unfold matFreeRev
  refine lsum_congr _ _ _ fun c hc => ?_
  rw [h q hq]
  congr 1
  refine lsum_congr _ _ _ fun e he => ?_
  have ht : ∀ b, revTerm c w e b = revTerm c w' e b := by
    intro b
    unfold revTerm
    rcases ho : c.outs.lookup e.1.1 with _ | o
    · rfl
    · refine Finset.sum_congr rfl fun a ha => ?_
      rw [h _ ((hb c hc e he).1 o ho a (Finset.mem_range.mp ha))]
  unfold revAt
  simp only [ht]

/-- **C54, columns of the identity.** With the matrix-vector-product method the matrix times any vector is the matrix-free product, in
both modes, whatever the connections, source indices and unit conversions. -/
theorem C54_mvp (hu : (u.map Prod.fst).Nodup) (hb : BlocksFit u comps) (v : Pos → K) (r : Pos) (hr : InVec u r) :
    mulP u (mvpJac (matFree comps)) v r = matFree comps v r ∧
    mulP u (mvpJac (matFreeRev comps)) v r = matFreeRev comps v r :=
  ⟨mvp_of_linear hu _ (matFree_lin comps) (matFree_reads hb) v r hr,
    mvp_of_linear hu _ (matFreeRev_lin comps) (matFreeRev_reads hb) v r hr⟩

/-! ### Where the assembled matrix is wrong -/

/-- Matrix with the given entries. -/
def matOf (m n : Nat) (l : List (List ℤ)) : Mat ℤ := ⟨m, n, fun i j => (l.getD i []).getD j 0⟩

/-- A source component with the explicit output `p` (no inputs). -/
def srcComp : AsmComp ℤ := ⟨[("p", "p")], [], [], some []⟩

/-- A component with explicit output `y` and the given params and partials. -/
def yComp (ins : List (String × AsmInput ℤ)) (jac : List ((String × String) × Mat ℤ)) : AsmComp ℤ := ⟨[("y", "y")], [], ins, some jac⟩

/-- Value at `r` of the assembled matrix times `v`. -/
def asmAt (u : List (String × Nat)) (comps : List (AsmComp ℤ)) (v : Pos → ℤ) (r : Pos) : Option ℤ :=
  match assembleJac true u comps with
  | .ok P => some (mulP u P v r)
  | .error _ => none

/-- Two params of one component connected to the same source: only the last partial survives. `y = 2 a + 3 b` with `a` and `b`
both connected to `p`: the matrix has 3 (or 2) instead of 5. -/
theorem C54_shared_source_refuted :
    asmAt [("p", 1), ("y", 1)]
      [srcComp, yComp [("a", ⟨"c.a", some (some "p"), none, 1⟩), ("b", ⟨"c.b", some (some "p"), none, 1⟩)]
        [(("y", "a"), matOf 1 1 [[2]]), (("y", "b"), matOf 1 1 [[3]])]]
      (fun p => if p.1 = "p" then 1 else 0) ("y", 0) = some 3 ∧
    matFree [srcComp, yComp [("a", ⟨"c.a", some (some "p"), none, 1⟩), ("b", ⟨"c.b", some (some "p"), none, 1⟩)]
        [(("y", "a"), matOf 1 1 [[2]]), (("y", "b"), matOf 1 1 [[3]])]]
      (fun p => if p.1 = "p" then 1 else 0) ("y", 0) = 5 := by decide +kernel

/-- A param that takes entry 1 of a source with three entries: the 1×1 block is broadcast over all three columns. -/
theorem C54_src_indices_refuted :
    asmAt [("p", 3), ("y", 1)] [srcComp, yComp [("a", ⟨"c.a", some (some "p"), some [1], 1⟩)] [(("y", "a"), matOf 1 1 [[2]])]]
      (fun p => if p = ("p", 0) then 1 else 0) ("y", 0) = some 2 ∧
    matFree [srcComp, yComp [("a", ⟨"c.a", some (some "p"), some [1], 1⟩)] [(("y", "a"), matOf 1 1 [[2]])]]
      (fun p => if p = ("p", 0) then 1 else 0) ("y", 0) = 0 := by decide +kernel

/-- A param in another unit than its source (factor 1000): the conversion factor is missing in the matrix. -/
theorem C54_units_refuted :
    asmAt [("p", 1), ("y", 1)] [srcComp, yComp [("a", ⟨"c.a", some (some "p"), none, 1000⟩)] [(("y", "a"), matOf 1 1 [[2]])]]
      (fun p => if p.1 = "p" then 1 else 0) ("y", 0) = some 2 ∧
    matFree [srcComp, yComp [("a", ⟨"c.a", some (some "p"), none, 1000⟩)] [(("y", "a"), matOf 1 1 [[2]])]]
      (fun p => if p.1 = "p" then 1 else 0) ("y", 0) = 2000 := by decide +kernel

/-- A state whose residual does not depend on itself (no partial given): the matrix keeps -1 on the diagonal. -/
theorem C54_missing_state_refuted :
    asmAt [("p", 1), ("z", 1)] [srcComp, ⟨[("z", "z")], ["z"], [("a", ⟨"c.a", some (some "p"), none, 1⟩)],
        some [(("z", "a"), matOf 1 1 [[2]])]⟩] (fun p => if p.1 = "z" then 1 else 0) ("z", 0) = some (-1) ∧
    matFree [srcComp, ⟨[("z", "z")], ["z"], [("a", ⟨"c.a", some (some "p"), none, 1⟩)],
        some [(("z", "a"), matOf 1 1 [[2]])]⟩] (fun p => if p.1 = "z" then 1 else 0) ("z", 0) = 0 := by decide +kernel

/-- A component whose param is connected to its own output: the -1 of the output is overwritten. -/
theorem C54_self_loop_refuted :
    asmAt [("y", 1)] [yComp [("a", ⟨"c.a", some (some "y"), none, 1⟩)] [(("y", "a"), matOf 1 1 [[2]])]]
      (fun _ => 1) ("y", 0) = some 2 ∧
    matFree [yComp [("a", ⟨"c.a", some (some "y"), none, 1⟩)] [(("y", "a"), matOf 1 1 [[2]])]] (fun _ => 1) ("y", 0) = 1 := by
  decide +kernel

/-- Finding: the connections that are searched are those of the whole problem, so assembling for a group with a param whose source
is outside of the group is a KeyError. -/
theorem finding_C54_outside (fwd : Bool) :
    assembleJac fwd [("y", 1)] [yComp [("a", ⟨"c.a", some none, none, 1⟩)] [(("y", "a"), matOf 1 1 [[2]])]] =
      .error .KeyError := by
  cases fwd <;> simp [assembleJac, asmComp, asmEntry, asmCol, yComp, List.foldlM, bind, Except.bind]

/-- A component without a Jacobian (it overrides `apply_linear`) is refused with a RuntimeError. -/
theorem C54_no_jacobian (fwd : Bool) (u : List (String × Nat)) (c : AsmComp K) (rest : List (AsmComp K)) (h : c.jac = none) :
    assembleJac fwd u (c :: rest) = .error .RuntimeError := by
  simp [assembleJac, List.foldlM_cons, asmComp, h, bind, Except.bind]

/-- A group to which the theorems apply: source `p` (2 entries), an explicit output `y = M p`, and a state `z` with residual
`4 z + 5 y`. -/
def okComps : List (AsmComp ℤ) :=
  [srcComp, yComp [("a", ⟨"c.a", some (some "p"), none, 1⟩)] [(("y", "a"), matOf 1 2 [[2, 3]])],
    ⟨[("z", "z")], ["z"], [("b", ⟨"y", some (some "y"), none, 1⟩), ("q", ⟨"d.q", none, none, 1⟩)],
      some [(("z", "z"), matOf 1 1 [[4]]), (("z", "b"), matOf 1 1 [[5]]), (("z", "q"), matOf 1 1 [[7]])]⟩]

example : AsmWF [("p", 2), ("y", 1), ("z", 1)] okComps ∧ Assemblable okComps ∧ FullBlocks [("p", 2), ("y", 1), ("z", 1)] okComps := by
  refine ⟨⟨by decide, by decide, ?_, ?_, ?_, ?_, ?_, ?_⟩, ⟨?_, ?_, ?_, ?_, ?_⟩, ?_⟩
  · intro c hc; simp [okComps, srcComp, yComp] at hc; rcases hc with rfl | rfl | rfl <;> decide
  · intro n; simp [okComps, srcComp, yComp]
  · intro c hc; simp [okComps, srcComp, yComp] at hc; rcases hc with rfl | rfl | rfl <;> simp
  · intro c hc; simp [okComps, srcComp, yComp] at hc; rcases hc with rfl | rfl | rfl <;> simp
  · intro c hc; simp [okComps, srcComp, yComp] at hc; rcases hc with rfl | rfl | rfl <;> simp
  · intro c hc jac hj; simp [okComps, srcComp, yComp] at hc
    rcases hc with rfl | rfl | rfl <;> simp at hj <;> subst hj <;> simp
  · intro c hc; simp [okComps, srcComp, yComp] at hc; rcases hc with rfl | rfl | rfl <;> simp
  · intro c hc; simp [okComps, srcComp, yComp] at hc; rcases hc with rfl | rfl | rfl <;> simp
  · intro c hc i p i' p' s h1 h2 h3 h4
    simp [okComps, srcComp, yComp] at hc
    have m1 := lookup_mem h1
    have m2 := lookup_mem h2
    rcases hc with rfl | rfl | rfl <;> simp at m1 m2
    · rw [m1.1, m2.1]
    · rcases m1 with ⟨rfl, rfl⟩ | ⟨rfl, rfl⟩ <;> rcases m2 with ⟨rfl, rfl⟩ | ⟨rfl, rfl⟩ <;> simp at h3 h4 ⊢
  · intro c hc e he s hs; simp [okComps, srcComp, yComp] at hc
    rcases hc with rfl | rfl | rfl <;> simp at he
    · subst he; simp at hs; subst hs; simp
    · rcases he with rfl | rfl <;> simp at hs; subst hs; simp
  · intro c hc jac hj s hs; simp [okComps, srcComp, yComp] at hc
    rcases hc with rfl | rfl | rfl <;> simp at hs hj; subst hs hj; simp
  · intro c hc jac hj e he o i ho hi; simp [okComps, srcComp, yComp] at hc
    rcases hc with rfl | rfl | rfl <;> simp at hj <;> subst hj <;> simp at he
    · subst he; simp [List.lookup_cons] at ho hi; subst ho hi; simp [matOf]
    · rcases he with rfl | rfl | rfl <;> simp [List.lookup_cons] at ho hi
      · subst ho hi; simp [matOf]
      · subst ho hi; simp [matOf]

example : BlocksFit [("p", 2), ("y", 1)]
    [srcComp, yComp [("a", ⟨"c.a", some (some "p"), some [1], 1000⟩)] [(("y", "a"), matOf 1 1 [[2]])]] := by
  intro c hc e he
  simp [srcComp, yComp] at hc
  rcases hc with rfl | rfl <;> simp at he
  subst he
  refine ⟨?_, by simp, ?_⟩
  · intro o ho a ha; simp [List.lookup_cons] at ho; subst ho
    exact ⟨1, by simp, ha⟩
  · intro p s hp hc b hb k hk
    simp [List.lookup_cons] at hp; subst hp
    simp at hc; subst hc
    simp [matOf] at hb; subst hb
    simp [srcPos] at hk; subst hk
    exact ⟨2, by simp, by simp⟩

end OpenMDAO
