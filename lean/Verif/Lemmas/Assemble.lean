import Verif.Spec.Assemble
import Verif.Lemmas.Connections
import Verif.Props.Promotes
import Mathlib.Algebra.BigOperators.Group.List.Basic
import Mathlib.Algebra.BigOperators.Group.Finset.Piecewise
import Mathlib.Data.List.Nodup
import Mathlib.Tactic.Ring
import Mathlib.Tactic.Tauto
/-! Lemmas for C54. -/
namespace OpenMDAO
set_option linter.unusedSectionVars false

variable {K : Type} [CommRing K]

/-! ### Sums over lists -/

theorem lsum_add {α : Type} (l : List α) (f g : α → K) : (l.map fun x => f x + g x).sum = (l.map f).sum + (l.map g).sum := by
  induction l with
  | nil => simp
  | cons x l ih => simp only [List.map_cons, List.sum_cons, ih]; ring

theorem lsum_sub {α : Type} (l : List α) (f g : α → K) : (l.map fun x => f x - g x).sum = (l.map f).sum - (l.map g).sum := by
  induction l with
  | nil => simp
  | cons x l ih => simp only [List.map_cons, List.sum_cons, ih]; ring

theorem lsum_zero {α : Type} (l : List α) (f : α → K) (h : ∀ x ∈ l, f x = 0) : (l.map f).sum = 0 := by
  rw [List.map_congr_left h]; simp

theorem lsum_congr {α : Type} (l : List α) (f g : α → K) (h : ∀ x ∈ l, f x = g x) : (l.map f).sum = (l.map g).sum := by
  rw [List.map_congr_left h]

theorem lsum_comm {α β : Type} (l : List α) (m : List β) (f : α → β → K) :
    (l.map fun x => (m.map fun y => f x y).sum).sum = (m.map fun y => (l.map fun x => f x y).sum).sum := by
  induction l with
  | nil => simp
  | cons x l ih => simp only [List.map_cons, List.sum_cons, ih, lsum_add]

theorem lsum_mul {α : Type} (l : List α) (f : α → K) (k : K) : (l.map f).sum * k = (l.map fun x => f x * k).sum := by
  induction l with
  | nil => simp
  | cons x l ih => simp only [List.map_cons, List.sum_cons, add_mul, ih]

/-- In a list with different keys at most one element is selected. -/
theorem lsum_single {α κ : Type} [DecidableEq κ] (l : List α) (key : α → κ) (hn : (l.map key).Nodup) (x0 : α) (h0 : x0 ∈ l)
    (f : α → K) : (l.map fun x => if key x = key x0 then f x else 0).sum = f x0 := by
  induction l with
  | nil => simp at h0
  | cons x l ih =>
    rw [List.map_cons, List.nodup_cons] at hn
    rw [List.map_cons, List.sum_cons]
    rcases List.mem_cons.mp h0 with rfl | h
    · rw [if_pos rfl, lsum_zero, add_zero]
      intro y hy
      rw [if_neg]
      intro hc
      exact hn.1 (List.mem_map.mpr ⟨y, hy, hc⟩)
    · rw [if_neg, ih hn.2 h, zero_add]
      intro hc
      exact hn.1 (List.mem_map.mpr ⟨x0, h, hc.symm⟩)

/-! ### Placing blocks -/

/-- Row variable, column variable, block. -/
abbrev Triple (K : Type) := String × String × Mat K

def placeT (P : Pos → Pos → K) (t : Triple K) : Pos → Pos → K := setBlk P t.1 t.2.1 t.2.2

theorem mulP_setBlk (u : List (String × Nat)) (hu : (u.map Prod.fst).Nodup) (P : Pos → Pos → K) (t : Triple K)
    (h1 : (t.1, t.2.2.m) ∈ u) (h2 : (t.2.1, t.2.2.n) ∈ u) (v : Pos → K) (r : Pos) (hr : InVec u r) :
    mulP u (placeT P t) v r = mulP u P v r +
      if t.1 = r.1 then ∑ b ∈ Finset.range t.2.2.n, (t.2.2.a r.2 b - P r (t.2.1, b)) * v (t.2.1, b) else 0 := by
  by_cases ho : t.1 = r.1
  · rw [if_pos ho]
    obtain ⟨n, hn, hlt⟩ := hr
    have hm : t.2.2.m = n := by
      rw [ho] at h1
      have a := (lookup_eq_some_iff_of_nodup u r.1 n hu).mpr hn
      have b := (lookup_eq_some_iff_of_nodup u r.1 t.2.2.m hu).mpr h1
      rw [a] at b; exact (Option.some.inj b).symm
    have hrow : (if t.2.2.m = 1 then 0 else r.2) = r.2 := by
      split
      · omega
      · rfl
    have key : ∀ e ∈ u, ∑ b ∈ Finset.range e.2, placeT P t r (e.1, b) * v (e.1, b) =
        ∑ b ∈ Finset.range e.2, P r (e.1, b) * v (e.1, b) +
          if e.1 = t.2.1 then ∑ b ∈ Finset.range t.2.2.n, (t.2.2.a r.2 b - P r (t.2.1, b)) * v (t.2.1, b) else 0 := by
      intro e he
      by_cases hi : e.1 = t.2.1
      · rw [if_pos hi]
        have hne : e.2 = t.2.2.n := by
          have a := (lookup_eq_some_iff_of_nodup u e.1 e.2 hu).mpr he
          rw [hi] at a
          have b := (lookup_eq_some_iff_of_nodup u t.2.1 t.2.2.n hu).mpr h2
          rw [a] at b; exact Option.some.inj b
        rw [hne, ← Finset.sum_add_distrib]
        refine Finset.sum_congr rfl fun b hb => ?_
        have hcol : (if t.2.2.n = 1 then 0 else b) = b := by
          split
          · have := Finset.mem_range.mp hb; omega
          · rfl
        simp only [placeT, setBlk, ho, hi, and_self, if_true, hrow, hcol]
        ring
      · rw [if_neg hi, add_zero]
        refine Finset.sum_congr rfl fun b _ => ?_
        simp [placeT, setBlk, hi]
    rw [mulP, lsum_congr _ _ _ key, lsum_add]
    congr 1
    exact lsum_single u Prod.fst hu (t.2.1, t.2.2.n) h2 fun _ => ∑ b ∈ Finset.range t.2.2.n, (t.2.2.a r.2 b - P r (t.2.1, b)) * v (t.2.1, b)
  · rw [if_neg ho, add_zero]
    refine lsum_congr _ _ _ fun e _ => Finset.sum_congr rfl fun b _ => ?_
    have : ¬ r.1 = t.1 := fun h => ho h.symm
    simp [placeT, setBlk, this]

theorem mulP_place (u : List (String × Nat)) (hu : (u.map Prod.fst).Nodup) (T : List (Triple K))
    (hT : (T.map fun t => (t.1, t.2.1)).Nodup) (hs : ∀ t ∈ T, (t.1, t.2.2.m) ∈ u ∧ (t.2.1, t.2.2.n) ∈ u) (P : Pos → Pos → K)
    (v : Pos → K) (r : Pos) (hr : InVec u r) :
    mulP u (T.foldl placeT P) v r = mulP u P v r +
      (T.map fun t => if t.1 = r.1 then
        ∑ b ∈ Finset.range t.2.2.n, (t.2.2.a r.2 b - P r (t.2.1, b)) * v (t.2.1, b) else 0).sum := by
  induction T generalizing P with
  | nil => simp
  | cons t T ih =>
    rw [List.map_cons, List.nodup_cons] at hT
    rw [List.foldl_cons, ih hT.2 (fun t' h => hs t' (by simp [h])), mulP_setBlk u hu P t (hs t (by simp)).1 (hs t (by simp)).2 v r hr,
      List.map_cons, List.sum_cons, add_assoc]
    congr 2
    refine lsum_congr _ _ _ fun t' ht' => ?_
    split
    · rename_i ho
      refine Finset.sum_congr rfl fun b _ => ?_
      congr 2
      have : ¬ (r.1 = t.1 ∧ t'.2.1 = t.2.1) := by
        rintro ⟨h1, h2⟩
        apply hT.1
        refine List.mem_map.mpr ⟨t', ht', ?_⟩
        rw [ho, h1, h2]
      simp [placeT, setBlk, this]
    · rfl

theorem mulP_negEye (u : List (String × Nat)) (hu : (u.map Prod.fst).Nodup) (v : Pos → K) (r : Pos) (hr : InVec u r) :
    mulP u negEye v r = - v r := by
  obtain ⟨n, hn, hlt⟩ := hr
  have key : ∀ e ∈ u, ∑ b ∈ Finset.range e.2, negEye r (e.1, b) * v (e.1, b) = if e.1 = r.1 then - v r else 0 := by
    intro e he
    split
    · rename_i h
      have hne : e.2 = n := by
        have a := (lookup_eq_some_iff_of_nodup u e.1 e.2 hu).mpr he
        rw [h] at a
        have b := (lookup_eq_some_iff_of_nodup u r.1 n hu).mpr hn
        rw [a] at b; exact Option.some.inj b
      rw [Finset.sum_eq_single r.2]
      · simp [negEye, h]
      · intro b _ hb
        have : ¬ r = (e.1, b) := by
          intro hc; exact hb (by rw [hc])
        simp [negEye, this]
      · intro hc
        exact absurd (Finset.mem_range.mpr (by omega)) hc
    · rename_i h
      refine Finset.sum_eq_zero fun b _ => ?_
      have : ¬ r = (e.1, b) := by
        intro hc; exact h (by rw [hc])
      simp [negEye, this]
  rw [mulP, lsum_congr _ _ _ key]
  exact lsum_single u Prod.fst hu (r.1, n) hn fun _ => - v r

/-! ### Columns of the entries -/

/-- Unknown of the group that a state or param of a component stands for. -/
def colSpec (c : AsmComp K) (i_var : String) : Option String :=
  if i_var ∈ c.states then c.outs.lookup i_var else (c.ins.lookup i_var).bind fun p => p.conn.join

def tripleOf (fwd : Bool) (c : AsmComp K) (e : (String × String) × Mat K) : Option (Triple K) :=
  match c.outs.lookup e.1.1, colSpec c e.1.2 with
  | some o, some i => some (if fwd then (o, i, e.2) else (i, o, e.2.T))
  | _, _ => none

def triplesOf (fwd : Bool) (c : AsmComp K) : List (Triple K) := (c.jac.getD []).filterMap (tripleOf fwd c)

variable {u : List (String × Nat)} {comps : List (AsmComp K)}

theorem lookup_of_mem_keys {α β : Type} [DecidableEq α] (d : List (α × β)) (k : α) (h : k ∈ d.map Prod.fst) :
    ∃ v, d.lookup k = some v := by
  have := (lookup_isSome_iff_mem_keys d k).mpr h
  exact Option.isSome_iff_exists.mp this

theorem asmCol_eq (hw : AsmWF u comps) (ha : Assemblable comps) (c : AsmComp K) (hc : c ∈ comps) (i : String)
    (hi : i ∈ c.states ∨ i ∈ c.ins.map Prod.fst) : asmCol u c i = .ok (colSpec c i) := by
  unfold asmCol colSpec
  by_cases hs : i ∈ c.states
  · obtain ⟨v, hv⟩ := lookup_of_mem_keys c.outs i (hw.statesOut c hc i hs)
    simp [hs, hv]
  · rw [if_neg hs, if_neg hs]
    obtain ⟨p, hp⟩ := lookup_of_mem_keys c.ins i (hi.resolve_left hs)
    have hmem := lookup_mem hp
    rw [hp]
    simp only [Option.bind_some]
    split
    · rename_i h
      rw [hw.implicit c hc _ hmem h]; rfl
    · have := (ha.plain c hc _ hmem).1
      simp only at this
      rcases hcn : p.conn with _ | _ | s
      · rfl
      · exact absurd hcn this
      · rfl

theorem asmEntry_eq (hw : AsmWF u comps) (ha : Assemblable comps) (hf : FullBlocks u comps) (fwd : Bool) (c : AsmComp K)
    (hc : c ∈ comps) (jac : List ((String × String) × Mat K)) (hj : c.jac = some jac) (e : (String × String) × Mat K) (he : e ∈ jac)
    (P : Pos → Pos → K) :
    asmEntry fwd u c P e = .ok (match tripleOf fwd c e with | none => P | some t => placeT P t) ∧
    ∀ t, tripleOf fwd c e = some t → (t.1, t.2.2.m) ∈ u ∧ (t.2.1, t.2.2.n) ∈ u := by
  obtain ⟨_, hk⟩ := hw.jacKeys c hc jac hj
  obtain ⟨ho, hi⟩ := hk e he
  obtain ⟨o, hov⟩ := lookup_of_mem_keys c.outs e.1.1 ho
  have hcol := asmCol_eq hw ha c hc e.1.2 hi
  unfold asmEntry tripleOf
  rw [hcol, hov]
  rcases hcs : colSpec c e.1.2 with _ | i
  · simp
  · have hshape : (o, e.2.m) ∈ u ∧ (i, e.2.n) ∈ u := by
      refine hf c hc jac hj e he o i hov ?_
      split
      · rename_i hs
        simpa [colSpec, hs] using hcs
      · rename_i hs
        simp only [colSpec, hs, if_false] at hcs
        rcases hp : c.ins.lookup e.1.2 with _ | p
        · rw [hp] at hcs; simp at hcs
        · rw [hp] at hcs
          simp only [Option.bind_some] at hcs
          refine ⟨p, rfl, ?_⟩
          rcases hcn : p.conn with _ | _ | s <;> rw [hcn] at hcs <;> simp at hcs
          rw [hcs]
    have l1 := (lookup_eq_some_iff_of_nodup u o e.2.m hw.uniq).mpr hshape.1
    have l2 := (lookup_eq_some_iff_of_nodup u i e.2.n hw.uniq).mpr hshape.2
    cases fwd
    · simp [setBlock, l1, l2, Mat.T, placeT, hshape]
    · simp [setBlock, l1, l2, placeT, hshape]

theorem asmComp_eq (hw : AsmWF u comps) (ha : Assemblable comps) (hf : FullBlocks u comps) (fwd : Bool) (c : AsmComp K)
    (hc : c ∈ comps) (P : Pos → Pos → K) : asmComp fwd u P c = .ok ((triplesOf fwd c).foldl placeT P) := by
  obtain ⟨jac, hj⟩ := Option.isSome_iff_exists.mp (ha.hasJac c hc)
  have : ∀ (l : List ((String × String) × Mat K)), (∀ e ∈ l, e ∈ jac) → ∀ P,
      l.foldlM (asmEntry fwd u c) P = .ok ((l.filterMap (tripleOf fwd c)).foldl placeT P) := by
    intro l
    induction l with
    | nil => intro _ P; rfl
    | cons e l ih =>
      intro hl P
      rw [List.foldlM_cons, (asmEntry_eq hw ha hf fwd c hc jac hj e (hl e (by simp)) P).1]
      simp only [bind, Except.bind]
      rw [ih (fun e' h => hl e' (by simp [h]))]
      rcases ht : tripleOf fwd c e with _ | t
      · rw [List.filterMap_cons_none ht]
      · rw [List.filterMap_cons_some ht, List.foldl_cons]
  rw [asmComp, hj]
  simp only
  rw [this jac (fun _ h => h) P, triplesOf, hj]
  rfl

theorem assembleJac_eq (hw : AsmWF u comps) (ha : Assemblable comps) (hf : FullBlocks u comps) (fwd : Bool) :
    assembleJac fwd u comps = .ok ((comps.flatMap (triplesOf fwd)).foldl placeT negEye) := by
  have : ∀ (l : List (AsmComp K)), (∀ c ∈ l, c ∈ comps) → ∀ P,
      l.foldlM (asmComp fwd u) P = .ok ((l.flatMap (triplesOf fwd)).foldl placeT P) := by
    intro l
    induction l with
    | nil => intro _ P; rfl
    | cons c l ih =>
      intro hl P
      rw [List.foldlM_cons, asmComp_eq hw ha hf fwd c (hl c (by simp)) P]
      simp only [bind, Except.bind]
      rw [ih (fun c' h => hl c' (by simp [h])), List.flatMap_cons, List.foldl_append]
  exact this comps (fun _ h => h) negEye

theorem triples_shape (hw : AsmWF u comps) (ha : Assemblable comps) (hf : FullBlocks u comps) (fwd : Bool) :
    ∀ t ∈ comps.flatMap (triplesOf fwd), (t.1, t.2.2.m) ∈ u ∧ (t.2.1, t.2.2.n) ∈ u := by
  intro t ht
  obtain ⟨c, hc, h⟩ := List.mem_flatMap.mp ht
  obtain ⟨jac, hj⟩ := Option.isSome_iff_exists.mp (ha.hasJac c hc)
  rw [triplesOf, hj] at h
  obtain ⟨e, he, h⟩ := List.mem_filterMap.mp h
  exact (asmEntry_eq hw ha hf fwd c hc jac hj e he negEye).2 t h

theorem lookup_inj_snd {α β : Type} [DecidableEq α] (d : List (α × β)) (h : (d.map Prod.snd).Nodup) (k k' : α) (v : β)
    (h1 : d.lookup k = some v) (h2 : d.lookup k' = some v) : k = k' := by
  have m1 := lookup_mem h1
  have m2 := lookup_mem h2
  have := List.inj_on_of_nodup_map h m1 m2 rfl
  exact congrArg Prod.fst this

theorem outs_nodup (hw : AsmWF u comps) (c : AsmComp K) (hc : c ∈ comps) : (c.outs.map Prod.snd).Nodup :=
  (List.nodup_flatMap.mp hw.outsUniq).1 c hc

theorem colSpec_param (c : AsmComp K) (i s : String) (hs : i ∉ c.states) (h : colSpec c i = some s) :
    ∃ p, c.ins.lookup i = some p ∧ p.conn = some (some s) := by
  simp only [colSpec, hs, if_false] at h
  rcases hp : c.ins.lookup i with _ | p
  · rw [hp] at h; simp at h
  · rw [hp] at h
    refine ⟨p, rfl, ?_⟩
    simp only [Option.bind_some] at h
    rcases hcn : p.conn with _ | _ | s' <;> rw [hcn] at h <;> simp at h
    rw [h]

theorem colSpec_inj (hw : AsmWF u comps) (ha : Assemblable comps) (c : AsmComp K) (hc : c ∈ comps) (i i' s : String)
    (h : colSpec c i = some s) (h' : colSpec c i' = some s) : i = i' := by
  by_cases hs : i ∈ c.states
  · have h1 : c.outs.lookup i = some s := by simpa [colSpec, hs] using h
    by_cases hs' : i' ∈ c.states
    · have h2 : c.outs.lookup i' = some s := by simpa [colSpec, hs'] using h'
      exact lookup_inj_snd _ (outs_nodup hw c hc) i i' s h1 h2
    · obtain ⟨p, hp, hcn⟩ := colSpec_param c i' s hs' h'
      exact absurd (List.mem_map.mpr ⟨_, lookup_mem h1, rfl⟩) (ha.noLoop c hc _ (lookup_mem hp) s hcn)
  · obtain ⟨p, hp, hcn⟩ := colSpec_param c i s hs h
    by_cases hs' : i' ∈ c.states
    · have h2 : c.outs.lookup i' = some s := by simpa [colSpec, hs'] using h'
      exact absurd (List.mem_map.mpr ⟨_, lookup_mem h2, rfl⟩) (ha.noLoop c hc _ (lookup_mem hp) s hcn)
    · obtain ⟨p', hp', hcn'⟩ := colSpec_param c i' s hs' h'
      exact ha.distinct c hc i p i' p' s hp hp' hcn hcn'

theorem tripleOf_fst (c : AsmComp K) (e : (String × String) × Mat K) (t : Triple K) (fwd : Bool)
    (h : tripleOf fwd c e = some t) : c.outs.lookup e.1.1 = some (if fwd then t.1 else t.2.1) ∧
      colSpec c e.1.2 = some (if fwd then t.2.1 else t.1) := by
  unfold tripleOf at h
  split at h
  · rename_i o i h1 h2
    have := Option.some.inj h
    cases fwd
    · simp at this; subst this; simp [h1, h2]
    · simp at this; subst this; simp [h1, h2]
  · cases h

theorem triples_nodup (hw : AsmWF u comps) (ha : Assemblable comps) (fwd : Bool) :
    ((comps.flatMap (triplesOf fwd)).map fun t => (t.1, t.2.1)).Nodup := by
  rw [List.map_flatMap, List.nodup_flatMap]
  constructor
  · intro c hc
    obtain ⟨jac, hj⟩ := Option.isSome_iff_exists.mp (ha.hasJac c hc)
    obtain ⟨hk, _⟩ := hw.jacKeys c hc jac hj
    have hnd : jac.Nodup := List.Nodup.of_map _ hk
    rw [triplesOf, hj, Option.getD_some, List.map_filterMap]
    let g : String × String → Option (String × String) := fun k =>
      match c.outs.lookup k.1, colSpec c k.2 with
      | some o, some i => some (if fwd then (o, i) else (i, o))
      | _, _ => none
    have : (jac.filterMap fun e => (tripleOf fwd c e).map fun t => (t.1, t.2.1)) = (jac.map Prod.fst).filterMap g := by
      rw [List.filterMap_map]
      congr 1
      funext e
      simp only [tripleOf, g, Function.comp]
      cases c.outs.lookup e.1.1 <;> cases colSpec c e.1.2 <;> simp
      cases fwd <;> simp
    rw [this]
    refine List.Nodup.filterMap ?_ hk
    intro k k' b hb hb'
    have hg : ∀ k, b ∈ g k → ∃ o i, c.outs.lookup k.1 = some o ∧ colSpec c k.2 = some i ∧ b = if fwd then (o, i) else (i, o) := by
      intro k hb
      simp only [g, Option.mem_def] at hb
      split at hb
      · rename_i o i h1 h2
        exact ⟨o, i, h1, h2, (Option.some.inj hb).symm⟩
      · cases hb
    obtain ⟨o, i, a1, a2, a3⟩ := hg k hb
    obtain ⟨o', i', b1, b2, b3⟩ := hg k' hb'
    have : o = o' ∧ i = i' := by
      rw [a3] at b3
      cases fwd <;> simp at b3 <;> tauto
    obtain ⟨rfl, rfl⟩ := this
    have e1 := lookup_inj_snd _ (outs_nodup hw c hc) k.1 k'.1 o a1 b1
    have e2 := colSpec_inj hw ha c hc k.2 k'.2 i a2 b2
    exact Prod.ext e1 e2
  · have hp := (List.nodup_flatMap.mp hw.outsUniq).2
    refine hp.imp ?_
    intro c c' hd x hx hx'
    have : ∀ c : AsmComp K, x ∈ (triplesOf fwd c).map (fun t => (t.1, t.2.1)) →
        (if fwd then x.1 else x.2) ∈ c.outs.map Prod.snd := by
      intro c hx
      obtain ⟨t, ht, rfl⟩ := List.mem_map.mp hx
      obtain ⟨e, _, he⟩ := List.mem_filterMap.mp ht
      have := (tripleOf_fst c e t fwd he).1
      exact List.mem_map.mpr ⟨_, lookup_mem this, by simp⟩
    exact hd (this c hx) (this c' hx')

/-! ### The diagonal -/

theorem lsum_split_zero {α : Type} (l1 l2 : List α) (x : α) (f : α → K) (h1 : ∀ y ∈ l1, f y = 0) (h2 : ∀ y ∈ l2, f y = 0) :
    ((l1 ++ x :: l2).map f).sum = f x := by
  rw [List.map_append, List.sum_append, List.map_cons, List.sum_cons, lsum_zero _ _ h1, lsum_zero _ _ h2]; ring

/-- Entries that lie on the diagonal, plus explicit outputs: one of the two for every unknown. -/
theorem diag_count (hw : AsmWF u comps) (ha : Assemblable comps) (n : String) (hn : n ∈ u.map Prod.fst) (x : K) :
    (comps.map fun c => ((c.jac.getD []).map fun e =>
        if c.outs.lookup e.1.1 = some n ∧ colSpec c e.1.2 = some n then x else 0).sum
      + (c.outs.map fun o => if o.2 = n ∧ o.1 ∉ c.states then x else 0).sum).sum = x := by
  obtain ⟨c, hc, hno⟩ := (hw.cover n).mp hn
  obtain ⟨l1, l2, hl⟩ := List.append_of_mem hc
  have hnd := hw.outsUniq
  rw [hl, List.flatMap_append, List.flatMap_cons] at hnd
  have hother : ∀ c' ∈ l1 ++ l2, n ∉ c'.outs.map Prod.snd := by
    intro c' hc' hm
    rw [List.nodup_append'] at hnd
    obtain ⟨_, h2, h3⟩ := hnd
    rw [List.nodup_append'] at h2
    rcases List.mem_append.mp hc' with h | h
    · exact h3 (List.mem_flatMap.mpr ⟨c', h, hm⟩) (List.mem_append.mpr (Or.inl hno))
    · exact h2.2.2 hno (List.mem_flatMap.mpr ⟨c', h, hm⟩)
  have hzero : ∀ c' ∈ l1 ++ l2, ((c'.jac.getD []).map fun e =>
        if c'.outs.lookup e.1.1 = some n ∧ colSpec c' e.1.2 = some n then x else 0).sum
      + (c'.outs.map fun o => if o.2 = n ∧ o.1 ∉ c'.states then x else 0).sum = 0 := by
    intro c' hc'
    rw [lsum_zero, lsum_zero, add_zero]
    · intro o ho
      rw [if_neg]
      rintro ⟨h, _⟩
      exact hother c' hc' (List.mem_map.mpr ⟨o, ho, h⟩)
    · intro e _
      rw [if_neg]
      rintro ⟨h, _⟩
      exact hother c' hc' (List.mem_map.mpr ⟨_, lookup_mem h, rfl⟩)
  rw [hl, lsum_split_zero l1 l2 c _ (fun y hy => hzero y (by simp [hy])) (fun y hy => hzero y (by simp [hy]))]
  obtain ⟨⟨on, on'⟩, hom, rfl⟩ := List.mem_map.mp hno
  obtain ⟨jac, hj⟩ := Option.isSome_iff_exists.mp (ha.hasJac c hc)
  obtain ⟨hk, _⟩ := hw.jacKeys c hc jac hj
  have hlook : c.outs.lookup on = some on' := (lookup_eq_some_iff_of_nodup c.outs on on' (hw.namesUniq c hc)).mpr hom
  rw [hj, Option.getD_some]
  have ho : (c.outs.map fun o => if o.2 = on' ∧ o.1 ∉ c.states then x else 0).sum = if on ∈ c.states then 0 else x := by
    have : ∀ o ∈ c.outs, (if o.2 = on' ∧ o.1 ∉ c.states then x else 0) =
        if o.2 = on' then (if o.1 ∈ c.states then 0 else x) else 0 := by
      intro o _
      by_cases h1 : o.2 = on' <;> by_cases h2 : o.1 ∈ c.states <;> simp [h1, h2]
    rw [lsum_congr _ _ _ this]
    exact lsum_single c.outs Prod.snd (outs_nodup hw c hc) (on, on') hom fun o => if o.1 ∈ c.states then 0 else x
  -- an entry on the diagonal is the partial of a state with respect to itself
  have hd : ∀ e ∈ jac, (c.outs.lookup e.1.1 = some on' ∧ colSpec c e.1.2 = some on') ↔ (e.1 = (on, on) ∧ on ∈ c.states) := by
    intro e _
    constructor
    · rintro ⟨h1, h2⟩
      have e1 := lookup_inj_snd _ (outs_nodup hw c hc) e.1.1 on on' h1 hlook
      have hs : e.1.2 ∈ c.states := by
        by_contra hs
        obtain ⟨p, hp, hcn⟩ := colSpec_param c e.1.2 on' hs h2
        exact ha.noLoop c hc _ (lookup_mem hp) on' hcn hno
      have h3 : c.outs.lookup e.1.2 = some on' := by simpa [colSpec, hs] using h2
      have e2 := lookup_inj_snd _ (outs_nodup hw c hc) e.1.2 on on' h3 hlook
      exact ⟨Prod.ext e1 e2, by rw [← e2]; exact hs⟩
    · rintro ⟨h1, h2⟩
      rw [h1]
      exact ⟨hlook, by simp [colSpec, h2, hlook]⟩
  have hd' : (jac.map fun e => if c.outs.lookup e.1.1 = some on' ∧ colSpec c e.1.2 = some on' then x else 0).sum =
      if on ∈ c.states then x else 0 := by
    by_cases hs : on ∈ c.states
    · rw [if_pos hs]
      obtain ⟨e0, he0, hke⟩ := List.mem_map.mp (ha.ownPartial c hc jac hj on hs)
      have : ∀ e ∈ jac, (if c.outs.lookup e.1.1 = some on' ∧ colSpec c e.1.2 = some on' then x else 0) =
          if e.1 = e0.1 then x else 0 := by
        intro e he
        rw [hke]
        simp only [hd e he, hs, and_true]
      rw [lsum_congr _ _ _ this]
      exact lsum_single jac Prod.fst hk e0 he0 fun _ => x
    · rw [if_neg hs]
      refine lsum_zero _ _ fun e he => ?_
      rw [if_neg]
      rw [hd e he]
      tauto
  rw [hd', ho]
  by_cases hs : on ∈ c.states <;> simp [hs]

end OpenMDAO
