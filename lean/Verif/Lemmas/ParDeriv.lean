import Verif.Spec.ParDeriv
import Verif.Lemmas.Totals
import Verif.Lemmas.FiniteDiff
import Verif.Lemmas.Connections
import Verif.Props.Totals
import Mathlib.Data.List.Nodup
/-! Lemmas for C121 and C122. -/
namespace OpenMDAO

set_option linter.unusedSectionVars false

variable {K : Type} [Field K]

/-- A solution for a unit right-hand side is a column of the derivative matrix. -/
theorem unit_fwd (n : Nat) (A D : Nat → Nat → K) (x : Nat → K) (hD : IsTotalDeriv n A D) (q : Nat)
    (hS : ∀ i < n, (∑ j ∈ Finset.range n, A i j * x j) = totRhs q i) (hq : q < n) (o : Nat) (ho : o < n) : x o = D o q := by
  have h1 : (∑ i ∈ Finset.range n, D o i * ∑ j ∈ Finset.range n, A i j * x j) =
      ∑ j ∈ Finset.range n, (∑ i ∈ Finset.range n, D o i * A i j) * x j := by
    simp_rw [Finset.mul_sum, Finset.sum_mul]
    rw [Finset.sum_comm]
    refine Finset.sum_congr rfl fun j _ => Finset.sum_congr rfl fun i _ => ?_
    ring
  have h2 : (∑ i ∈ Finset.range n, D o i * ∑ j ∈ Finset.range n, A i j * x j) = - D o q := by
    rw [Finset.sum_congr rfl fun i hi => by rw [hS i (Finset.mem_range.mp hi)]]
    simp only [totRhs, mul_ite, mul_neg, mul_one, mul_zero]
    rw [Finset.sum_ite_eq' (Finset.range n) q]
    simp [hq]
  have h3 : (∑ j ∈ Finset.range n, (∑ i ∈ Finset.range n, D o i * A i j) * x j) = - x o := by
    rw [Finset.sum_congr rfl fun j hj => by rw [hD.left o ho j (Finset.mem_range.mp hj)]]
    simp only [ite_mul, neg_mul, one_mul, zero_mul]
    rw [Finset.sum_ite_eq (Finset.range n) o]
    simp [ho]
  have := (h2.symm.trans h1).trans h3
  exact (neg_injective this).symm

/-- A solution of the transposed system for a unit right-hand side is a row of the derivative matrix. -/
theorem unit_rev (n : Nat) (A D : Nat → Nat → K) (x : Nat → K) (hD : IsTotalDeriv n A D) (o : Nat)
    (hS : ∀ j < n, (∑ i ∈ Finset.range n, A i j * x i) = totRhs o j) (ho : o < n) (q : Nat) (hq : q < n) : x q = D o q := by
  have h1 : (∑ j ∈ Finset.range n, (∑ i ∈ Finset.range n, A i j * x i) * D j q) =
      ∑ i ∈ Finset.range n, (∑ j ∈ Finset.range n, A i j * D j q) * x i := by
    simp_rw [Finset.sum_mul]
    rw [Finset.sum_comm]
    refine Finset.sum_congr rfl fun i _ => Finset.sum_congr rfl fun j _ => ?_
    ring
  have h2 : (∑ j ∈ Finset.range n, (∑ i ∈ Finset.range n, A i j * x i) * D j q) = - D o q := by
    rw [Finset.sum_congr rfl fun j hj => by rw [hS j (Finset.mem_range.mp hj)]]
    simp only [totRhs, ite_mul, neg_mul, one_mul, zero_mul]
    rw [Finset.sum_ite_eq' (Finset.range n) o]
    simp [ho]
  have h3 : (∑ i ∈ Finset.range n, (∑ j ∈ Finset.range n, A i j * D j q) * x i) = - x q := by
    rw [Finset.sum_congr rfl fun i hi => by rw [hD.right i (Finset.mem_range.mp hi) q hq]]
    simp only [ite_mul, neg_mul, one_mul, zero_mul]
    rw [Finset.sum_ite_eq' (Finset.range n) q]
    simp [hq]
  have := (h2.symm.trans h1).trans h3
  exact (neg_injective this).symm

/-- Positions of the entries of a variable in a vector that has it. -/
theorem selected_entry (E : PDEnv K) (mode : Mode) (n : Option String → Nat) (A Dm : Option String → Nat → Nat → K) (D : String → Nat → String → Nat → K)
    (h : Differentiated E mode n A Dm D) (d : List (String × List Nat)) (names : List String) (hv : ValidEntries E.sizes d names) (x : String) (hx : x ∈ names)
    (k : Option String) (s : List (String × (Nat × Nat))) (hs : E.vecs.lookup k = some s) (b e : Nat) (hb : s.lookup x = some (b, e)) :
    totIdx s d x = .ok (selected s d x) ∧ selected s d x = (askedEntries E.sizes d x).map (b + ·) ∧ (∀ t ∈ askedEntries E.sizes d x, t < e - b) := by
  obtain ⟨h1, h2, h3⟩ := h.layout k s hs x b e hb
  obtain ⟨m, hm, hl⟩ := hv x hx
  rw [h3] at hm
  injection hm with hm
  have hvalid : ValidNames (n k) s d [x] := by
    intro y hy
    simp only [List.mem_singleton] at hy
    subst hy
    exact ⟨b, e, hb, h1, h2, fun l hl' => by rw [hm]; exact hl l hl'⟩
  refine ⟨(totIdx_valid (n k) s d [x] hvalid x (by simp)).1, ?_, ?_⟩
  · unfold selected askedEntries
    rw [hb]
    cases hd : d.lookup x with
    | none =>
      simp only [h3, Option.getD_some]
      rw [List.range'_eq_map_range]
    | some l =>
      simp only
      refine List.map_congr_left fun t _ => Nat.add_comm _ _
  · intro t ht
    unfold askedEntries at ht
    cases hd : d.lookup x with
    | none =>
      rw [hd, h3] at ht
      simpa using ht
    | some l =>
      rw [hd] at ht
      rw [hm]
      exact (hl l hd).2.2 t ht

/-- `in_idxs` of a variable in the vector. -/
theorem inIdxs_spec (E : PDEnv K) (mode : Mode) (n : Option String → Nat) (A Dm : Option String → Nat → Nat → K) (D : String → Nat → String → Nat → K)
    (h : Differentiated E mode n A Dm D) (d : List (String × List Nat)) (names : List String) (hv : ValidEntries E.sizes d names) (x : String) (hx : x ∈ names)
    (k : Option String) (s : List (String × (Nat × Nat))) (hs : E.vecs.lookup k = some s) (b e : Nat) (hb : s.lookup x = some (b, e)) :
    inIdxs E.sizes s d x = .ok ((askedEntries E.sizes d x).map (b + ·)) := by
  obtain ⟨h1, h2, h3⟩ := selected_entry E mode n A Dm D h d names hv x hx k s hs b e hb
  have hl : localIdx s d x = .ok ((askedEntries E.sizes d x).map (b + ·)) := by
    unfold localIdx
    rw [hb]
    simp only [Option.isSome_some, if_true, h1, h2]
  unfold inIdxs
  rw [hl]
  cases ha : askedEntries E.sizes d x with
  | cons a l => rfl
  | nil =>
    simp only [List.map_nil]
    unfold fallbackIdx
    unfold askedEntries at ha
    cases hd : d.lookup x with
    | some l => rw [hd] at ha; simp only at ha; subst ha; rfl
    | none =>
      rw [hd] at ha
      obtain ⟨m, hm, _⟩ := hv x hx
      rw [hm] at ha ⊢
      simp only [Option.getD_some] at ha
      simp only [ha]

/-- What the sets that are solved for have in common. -/
structure GoodSet (E : PDEnv K) (mode : Mode) (inputs g : List String) : Prop where
  ne : g ≠ []
  mem : ∀ v ∈ g, v ∈ inputs
  vec : ∀ v ∈ g, ∃ s, E.vecs.lookup (voiKey E v g) = some s ∧ (s.lookup v).isSome
  keys : (g.map fun v => voiKey E v g).Nodup
  own : ∀ v ∈ g, voiKey E v g = none → g = [v]
  size : ∀ v ∈ g, ∀ w ∈ g, (askedEntries E.sizes (E.inIndices mode) v).length = (askedEntries E.sizes (E.inIndices mode) w).length
  inact : ∀ v ∈ g, ∀ w ∈ g, mode = .rev → ∀ i, Inactive E.inactives v i → Inactive E.inactives w i

theorem voiKey_cases (E : PDEnv K) (v : String) (g : List String) : voiKey E v g = none ∨
    voiKey E v g = some v ∧ v ∈ E.driverVois ∧ E.lgs = true ∧ (1 < g.length ∨ E.reduce = true) := by
  unfold voiKey
  split
  · rename_i h
    simp only [Bool.and_eq_true, Bool.or_eq_true, decide_eq_true_eq, List.contains_iff_mem] at h
    exact Or.inr ⟨rfl, h.1.1, h.1.2, h.2⟩
  · exact Or.inl rfl

theorem goodSet_of (E : PDEnv K) (mode : Mode) (inputs : List String) (h : GroupsOk E mode inputs) (hi : InactiveTogether E mode)
    (g : List String) (hg : g ∈ voiSets E mode inputs) : GoodSet E mode inputs g := by
  unfold voiSets at hg
  rw [List.mem_append] at hg
  rcases hg with hg | hg
  · rw [List.mem_filter, List.any_eq_true] at hg
    obtain ⟨hg, v0, hv0, hin⟩ := hg
    rw [List.contains_iff_mem] at hin
    have hmem : ∀ w ∈ g, w ∈ inputs := h.whole g hg v0 hv0 hin
    have hlong : 1 < g.length → ∀ v ∈ g, voiKey E v g = some v := by
      intro hl v hv
      obtain ⟨h1, h2⟩ := h.parallel g hg hl
      unfold voiKey
      have := h2 v hv
      simp [h1, hl, this]
    refine ⟨List.ne_nil_of_mem hv0, hmem, ?_, ?_, ?_, ?_, ?_⟩
    · intro v hv
      rcases voiKey_cases E v g with hk | ⟨hk, a1, a2, a3⟩
      · rw [hk]; exact h.full v (hmem v hv)
      · rw [hk]
        refine h.own v (hmem v hv) a2 a1 ?_
        rcases a3 with a3 | a3
        · exact Or.inr ⟨g, hg, hv, a3⟩
        · exact Or.inl a3
    · by_cases hl : 1 < g.length
      · rw [List.map_congr_left (hlong hl)]
        exact (h.nodup g hg).map (fun _ _ e => Option.some.inj e)
      · have : ∃ v, g = [v] := by
          cases g with
          | nil => simp at hv0
          | cons v l =>
            cases l with
            | nil => exact ⟨v, rfl⟩
            | cons w l => simp at hl
        obtain ⟨v, rfl⟩ := this
        simp
    · intro v hv hk
      by_cases hl : 1 < g.length
      · rw [hlong hl v hv] at hk; cases hk
      · cases g with
        | nil => simp at hv
        | cons w l =>
          cases l with
          | nil => simp at hv; rw [hv]
          | cons w l => simp at hl
    · intro v hv w hw
      exact h.sameSize g hg v hv w hw
    · intro v hv w hw hm i hvi
      subst hm
      exact hi rfl g hg v hv w hw i hvi
  · rw [List.mem_map] at hg
    obtain ⟨v, hv, rfl⟩ := hg
    rw [List.mem_filter] at hv
    refine ⟨by simp, by simp [hv.1], ?_, by simp, by simp, by simp, by simp⟩
    intro w hw
    simp only [List.mem_singleton] at hw
    subst hw
    rcases voiKey_cases E w [w] with hk | ⟨hk, a1, a2, a3⟩
    · rw [hk]; exact h.full w hv.1
    · rw [hk]
      refine h.own w hv.1 a2 a1 ?_
      rcases a3 with a3 | a3
      · simp at a3
      · exact Or.inl a3

/-- Every requested variable is solved for. -/
theorem mem_voiSets (E : PDEnv K) (mode : Mode) (inputs : List String) (v : String) (hv : v ∈ inputs) : ∃ g ∈ voiSets E mode inputs, v ∈ g := by
  by_cases h : v ∈ (E.vois mode).flatten
  · rw [List.mem_flatten] at h
    obtain ⟨g, hg, hvg⟩ := h
    refine ⟨g, ?_, hvg⟩
    unfold voiSets
    rw [List.mem_append, List.mem_filter, List.any_eq_true]
    exact Or.inl ⟨hg, v, hvg, by rw [List.contains_iff_mem]; exact hv⟩
  · refine ⟨[v], ?_, by simp⟩
    unfold voiSets
    rw [List.mem_append, List.mem_map]
    refine Or.inr ⟨v, ?_, rfl⟩
    rw [List.mem_filter]
    refine ⟨hv, ?_⟩
    have hc : (E.vois mode).flatten.contains v = false := by
      rw [Bool.eq_false_iff]
      intro hc
      exact h (List.contains_iff_mem.mp hc)
    rw [hc]; rfl

/-- First position of a variable in a vector. -/
def startOf (E : PDEnv K) (k : Option String) (v : String) : Nat := ((((E.vecs.lookup k).getD []).lookup v).getD (0, 0)).1

/-- Positions of the requested entries of a member of a set. -/
def posOf (E : PDEnv K) (mode : Mode) (g : List String) (v : String) : List Nat :=
  (askedEntries E.sizes (E.inIndices mode) v).map (startOf E (voiKey E v g) v + ·)

/-- The loop that allocates the right-hand sides. -/
theorem pdAlloc_spec (E : PDEnv K) (mode : Mode) (n : Option String → Nat) (A Dm : Option String → Nat → Nat → K) (D : String → Nat → String → Nat → K)
    (h : Differentiated E mode n A Dm D) (inputs g : List String) (hv : ValidEntries E.sizes (E.inIndices mode) inputs) (hg : GoodSet E mode inputs g) :
    ∃ st, g.foldlM (allocStep E mode g) ⟨[], none, []⟩ = .ok st ∧ st.idxs = g.map (fun v => (voiKey E v g, posOf E mode g v)) ∧
      ∀ v ∈ g, st.last.length = (askedEntries E.sizes (E.inIndices mode) v).length := by
  obtain ⟨v0, hv0⟩ := List.exists_mem_of_ne_nil g hg.ne
  obtain ⟨st, h1, h2, h3, h4⟩ := foldlM_prefix (allocStep E mode g) g
    (fun pre st => st.idxs = pre.map (fun v => (voiKey E v g, posOf E mode g v)) ∧
      (∀ m, st.old = some m → m = (askedEntries E.sizes (E.inIndices mode) v0).length) ∧
      (pre ≠ [] → st.last.length = (askedEntries E.sizes (E.inIndices mode) v0).length))
    (by
      intro pre x post st hl hP
      obtain ⟨p1, p2, p3⟩ := hP
      have hx : x ∈ g := by rw [hl]; simp
      obtain ⟨s, hs, hsx⟩ := hg.vec x hx
      obtain ⟨⟨b, e⟩, hb⟩ := Option.isSome_iff_exists.mp hsx
      have hidx := inIdxs_spec E mode n A Dm D h (E.inIndices mode) inputs hv x (hg.mem x hx) (voiKey E x g) s hs b e hb
      have hpos : (askedEntries E.sizes (E.inIndices mode) x).map (b + ·) = posOf E mode g x := by
        unfold posOf startOf
        rw [hs, Option.getD_some, hb, Option.getD_some]
      rw [hpos] at hidx
      have hlen : (posOf E mode g x).length = (askedEntries E.sizes (E.inIndices mode) v0).length := by
        unfold posOf
        rw [List.length_map]
        exact hg.size x hx v0 hv0
      have hold : (st.old.any fun n => decide (n ≠ (posOf E mode g x).length)) = false := by
        cases ho : st.old with
        | none => rfl
        | some m =>
          rw [p2 m ho, hlen]
          simp
      refine ⟨⟨dictSet st.idxs (voiKey E x g) (posOf E mode g x), some (st.old.getD (posOf E mode g x).length), posOf E mode g x⟩, ?_, ?_, ?_, ?_⟩
      · unfold allocStep
        rw [hs]
        simp only [hidx, hold, Bool.false_eq_true, if_false]
      · show dictSet st.idxs (voiKey E x g) (posOf E mode g x) = _
        rw [p1, dictSet_fresh, List.map_append]
        · rfl
        · intro y hy
          rw [List.mem_map] at hy
          obtain ⟨w, hw, rfl⟩ := hy
          have hn := hg.keys
          rw [hl, List.map_append, List.map_cons] at hn
          have := (List.nodup_append.mp hn).2.2
          exact this _ (List.mem_map.mpr ⟨w, hw, by rw [← hl]⟩) _ (by rw [← hl]; simp)
      · intro m hm
        injection hm with hm
        rw [← hm]
        cases ho : st.old with
        | none => exact hlen
        | some k => exact p2 k ho
      · intro _
        exact hlen)
    ⟨[], none, []⟩ ⟨rfl, by simp, by simp⟩
  exact ⟨st, h1, h2, fun v hvg => (h4 hg.ne).trans (hg.size v0 hv0 v hvg)⟩

/-- Derivative between the variable that is solved for and an output. -/
def derivOf (mode : Mode) (D : String → Nat → String → Nat → K) (v : String) (t : Nat) (item : String) (o : Nat) : K :=
  if mode = .fwd then D item o v t else D v t item o

theorem inactiveAt_iff (E : PDEnv K) (mode : Mode) (inputs g : List String) (hg : GoodSet E mode inputs g) (v : String) (hv : v ∈ g) (i : Nat) :
    inactiveAt E mode g i = true ↔ mode = .rev ∧ Inactive E.inactives v i := by
  have hlast : ∃ w, g.getLast? = some w ∧ w ∈ g := by
    refine ⟨g.getLast hg.ne, List.getLast?_eq_getLast_of_ne_nil hg.ne, List.getLast_mem hg.ne⟩
  obtain ⟨w, hw, hwg⟩ := hlast
  have hin : ((E.inactives.lookup w).any fun l => l.contains i) = true ↔ Inactive E.inactives w i := by
    unfold Inactive
    cases E.inactives.lookup w with
    | none => simp
    | some l => simp
  unfold inactiveAt
  rw [hw, Bool.and_eq_true, Option.any_some, hin]
  cases mode with
  | fwd => simp
  | rev =>
    simp only [ne_eq, reduceCtorEq, not_false_eq_true, decide_true, true_and]
    exact ⟨hg.inact w hwg v hv rfl i, hg.inact v hv w hwg rfl i⟩

/-- Values at a relevant output. -/
theorem relVals_spec (E : PDEnv K) (mode : Mode) (n : Option String → Nat) (A Dm : Option String → Nat → Nat → K) (D : String → Nat → String → Nat → K)
    (h : Differentiated E mode n A Dm D) (outputs : List String) (ho : ValidEntries E.sizes (E.outIndices mode) outputs) (item : String) (hitem : item ∈ outputs)
    (k : Option String) (s : List (String × (Nat × Nat))) (hs : E.vecs.lookup k = some s) (b e : Nat) (hb : s.lookup item = some (b, e)) (x : Nat → K) :
    ∃ r, relVals E mode k x item = .ok r ∧ (r = none ∧ askedEntries E.sizes (E.outIndices mode) item = [] ∨
      r = some ((askedEntries E.sizes (E.outIndices mode) item).map fun o => x (b + o))) := by
  obtain ⟨h1, h2, h3⟩ := selected_entry E mode n A Dm D h (E.outIndices mode) outputs ho item hitem k s hs b e hb
  have hl : localIdx s (E.outIndices mode) item = .ok ((askedEntries E.sizes (E.outIndices mode) item).map (b + ·)) := by
    unfold localIdx
    rw [hb]
    simp only [Option.isSome_some, if_true, h1, h2]
  unfold relVals
  rw [hs]
  simp only [hl]
  cases ha : askedEntries E.sizes (E.outIndices mode) item with
  | nil => exact ⟨none, rfl, Or.inl ⟨rfl, rfl⟩⟩
  | cons a l => exact ⟨_, rfl, Or.inr (by simp)⟩

/-- The values that are stored for a member of a set and an output. -/
theorem dxVals_spec (E : PDEnv K) (mode : Mode) (n : Option String → Nat) (A Dm : Option String → Nat → Nat → K) (D : String → Nat → String → Nat → K)
    (h : Differentiated E mode n A Dm D) (inputs g : List String) (hv : ValidEntries E.sizes (E.inIndices mode) inputs) (hg : GoodSet E mode inputs g)
    (outputs : List String) (ho : ValidEntries E.sizes (E.outIndices mode) outputs) (st : AllocSt)
    (hst : st.idxs = g.map (fun v => (voiKey E v g, posOf E mode g v))) (v : String) (hvg : v ∈ g) (i t : Nat)
    (hi : (askedEntries E.sizes (E.inIndices mode) v)[i]? = some t) (x : Nat → K) (hx : (voiKey E v g, x) ∈ dxMat E mode g st i) (item : String) (hitem : item ∈ outputs) :
    ∃ r, dxVals E mode (voiKey E v g) x item = .ok r ∧ (r = none ∧ askedEntries E.sizes (E.outIndices mode) item = [] ∨
      ∃ vals, r = some vals ∧ vals.length = (askedEntries E.sizes (E.outIndices mode) item).length ∧
        ∀ (a o : Nat), (askedEntries E.sizes (E.outIndices mode) item)[a]? = some o →
          (mode = .rev ∧ Inactive E.inactives v i → vals[a]? = some 0) ∧ (¬ (mode = .rev ∧ Inactive E.inactives v i) → vals[a]? = some (derivOf mode D v t item o))) := by
  obtain ⟨s, hs, hsv⟩ := hg.vec v hvg
  obtain ⟨⟨bv, ev⟩, hbv⟩ := Option.isSome_iff_exists.mp hsv
  obtain ⟨m, hm, hml⟩ := ho item hitem
  have hkv : voiKey E v g = none ∨ voiKey E v g = some v := by
    rcases voiKey_cases E v g with h' | h'
    · exact Or.inl h'
    · exact Or.inr h'.1
  unfold dxVals
  by_cases hrel : isRelevantTo E (voiKey E v g) item = true
  · rw [if_pos hrel]
    have hsi : (s.lookup item).isSome := by
      refine h.relevant _ s hs item (by rw [hm]; rfl) ?_
      intro l hl
      unfold isRelevantTo at hrel
      rw [hl] at hrel
      simpa using hrel
    obtain ⟨⟨bi, ei⟩, hbi⟩ := Option.isSome_iff_exists.mp hsi
    obtain ⟨r, h1, h2⟩ := relVals_spec E mode n A Dm D h outputs ho item hitem _ s hs bi ei hbi x
    refine ⟨r, h1, ?_⟩
    rcases h2 with h2 | h2
    · exact Or.inl h2
    refine Or.inr ⟨_, h2, by simp, ?_⟩
    intro a o hao
    rw [List.getElem?_map, hao, Option.map_some]
    have hlo := (selected_entry E mode n A Dm D h (E.outIndices mode) outputs ho item hitem _ s hs bi ei hbi).2.2 o (List.mem_of_getElem? hao)
    have hlt := (selected_entry E mode n A Dm D h (E.inIndices mode) inputs hv v (hg.mem v hvg) _ s hs bv ev hbv).2.2 t (List.mem_of_getElem? hi)
    have hin := inactiveAt_iff E mode inputs g hg v hvg i
    unfold dxMat at hx
    by_cases hina : inactiveAt E mode g i = true
    · rw [if_pos hina, List.mem_map] at hx
      obtain ⟨y, _, hy⟩ := hx
      have hx0 : x = fun _ => 0 := (congrArg Prod.snd hy).symm
      exact ⟨fun _ => by rw [hx0], fun hc => absurd (hin.mp hina) hc⟩
    · rw [if_neg hina] at hx
      refine ⟨fun hc => absurd (hin.mpr hc) hina, fun _ => ?_⟩
      have hkeys : ((st.idxs.map fun e => (e.1, rhsAt (K := K) e.2 i)).map Prod.fst).Nodup := by
        rw [hst, List.map_map, List.map_map]
        exact hg.keys
      have hrhs : (voiKey E v g, totRhs (K := K) (bv + t)) ∈ st.idxs.map fun e => (e.1, rhsAt (K := K) e.2 i) := by
        rw [hst, List.map_map, List.mem_map]
        refine ⟨v, hvg, ?_⟩
        have hp : (posOf E mode g v)[i]? = some (bv + t) := by
          unfold posOf startOf
          rw [List.getElem?_map, hi, hs, Option.getD_some, hbv, Option.getD_some]
          rfl
        simp only [Function.comp, rhsAt, hp]
      obtain ⟨l1, l2, l3⟩ := h.layout _ s hs v bv ev hbv
      obtain ⟨m1, m2, m3⟩ := h.layout _ s hs item bi ei hbi
      congr 1
      unfold derivOf
      cases mode with
      | fwd =>
        rw [if_pos rfl, unit_fwd (n (voiKey E v g)) (A (voiKey E v g)) (Dm (voiKey E v g)) x (h.total _ s hs) (bv + t)
          (h.solver.fwd _ hkeys _ _ x hrhs hx) (by omega) (bi + o) (by omega)]
        exact h.agree _ s item bi ei v bv ev hs hbi hbv (by simpa using hkv) o t hlo hlt
      | rev =>
        rw [if_neg (by simp), unit_rev (n (voiKey E v g)) (A (voiKey E v g)) (Dm (voiKey E v g)) x (h.total _ s hs) (bv + t)
          (h.solver.rev _ hkeys _ _ x hrhs hx) (by omega) (bi + o) (by omega)]
        exact h.agree _ s v bv ev item bi ei hs hbv hbi (by simpa using hkv) t o hlt hlo
  · rw [if_neg hrel]
    have hz : zeroVals E mode item = .ok (some (List.replicate (askedEntries E.sizes (E.outIndices mode) item).length 0)) := by
      unfold zeroVals askedEntries
      cases (E.outIndices mode).lookup item with
      | some l => rfl
      | none => simp only [hm, Option.getD_some, List.length_range]
    refine ⟨_, hz, Or.inr ⟨_, rfl, by simp, ?_⟩⟩
    intro a o hao
    have ha := (List.getElem?_eq_some_iff.mp hao).1
    have h0 : (List.replicate (askedEntries E.sizes (E.outIndices mode) item).length (0 : K))[a]? = some 0 := by
      rw [List.getElem?_replicate, if_pos ha]
    refine ⟨fun _ => h0, fun _ => ?_⟩
    rw [h0]
    congr 1
    unfold isRelevantTo at hrel
    cases hl : E.rel.lookup (voiKey E v g) with
    | none => rw [hl] at hrel; simp at hrel
    | some l =>
      rw [hl] at hrel
      simp only [List.contains_iff_mem] at hrel
      rcases hkv with hk | hk
      · rw [hk] at hl
        exact absurd (h.all l hl item (by rw [hm]; rfl)) hrel
      · rw [hk] at hl
        have := h.irrelevant v l hl item hrel
        unfold derivOf
        cases mode with
        | fwd => have := this o t; rw [if_pos rfl] at this ⊢; exact this.symm
        | rev => have := this o t; rw [if_neg (by simp)] at this ⊢; exact this.symm

end OpenMDAO
