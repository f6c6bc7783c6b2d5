import Verif.Spec.SharedVec
import Verif.Lemmas.Connections
import Mathlib.Data.List.Nodup
/-!
# Lemmas about the shared derivative storage
-/
namespace OpenMDAO
set_option linter.unusedSectionVars false

/-- cells needed by a variable of interest -/
def voiNeed (relevant : RelDict) (metas : List DerMeta) (v : Path) : Nat := relSize ((relevant.lookup (some v)).getD []) metas

theorem sharedVoi_fold (relevant : RelDict) (metas : List DerMeta) (vois : List Path) : ∀ (st r : ShSt),
    vois.foldlM (sharedVoi relevant metas) st = .ok r → vois.Nodup →
    r.size = st.size + (vois.map (voiNeed relevant metas)).sum ∧
    (∀ q, (∀ v ∈ vois, q ≠ some v) → r.offsets.lookup q = st.offsets.lookup q) ∧
    (∀ v ∈ vois, (relevant.lookup (some v)).isSome) ∧
    ∀ pre v post, vois = pre ++ v :: post → r.offsets.lookup (some v) = some (st.size + (pre.map (voiNeed relevant metas)).sum) := by
  induction vois with
  | nil =>
    intro st r h _
    simp only [List.foldlM_nil, pure, Except.pure, Except.ok.injEq] at h
    subst h
    refine ⟨by simp, by simp, by simp, ?_⟩
    intro pre v post h; simp at h
  | cons a vois ih =>
    intro st r h hn
    rw [List.foldlM_cons] at h
    unfold sharedVoi at h
    cases hr : relevant.lookup (some a) with
    | none => simp [hr, bind, Except.bind] at h
    | some rel =>
      simp only [hr, bind, Except.bind] at h
      obtain ⟨h1, h2, h3, h4⟩ := ih _ _ h (List.nodup_cons.1 hn).2
      have ha : voiNeed relevant metas a = relSize rel metas := by simp [voiNeed, hr]
      refine ⟨?_, ?_, ?_, ?_⟩
      · rw [h1]; simp [ha]; omega
      · intro q hq
        rw [h2 q (fun v hv => hq v (by simp [hv])), lookup_dictSet]
        rw [if_neg (hq a (by simp))]
      · intro v hv
        rcases List.mem_cons.1 hv with rfl | hv
        · simp [hr]
        · exact h3 v hv
      · intro pre v post hs
        cases pre with
        | nil =>
          simp only [List.nil_append, List.cons.injEq] at hs
          obtain ⟨rfl, rfl⟩ := hs
          rw [h2 (some a), lookup_dictSet]
          · simp
          · intro v hv e
            simp only [Option.some.injEq] at e
            subst e
            exact (List.nodup_cons.1 hn).1 hv
        | cons b pre =>
          simp only [List.cons_append, List.cons.injEq] at hs
          obtain ⟨rfl, hs⟩ := hs
          rw [h4 pre v post hs]
          simp [ha]; omega

theorem sharedGroups_fold (relevant : RelDict) (metas : List DerMeta) (groups : List (List Path)) : ∀ (st r : ShSt),
    groups.foldlM (sharedGroup relevant metas) st = .ok r → groups.flatten.Nodup →
    st.size ≤ r.size ∧ (r.size = st.size ∨ ∃ g ∈ groups, r.size = (g.map (voiNeed relevant metas)).sum) ∧
    (∀ q, (∀ v ∈ groups.flatten, q ≠ some v) → r.offsets.lookup q = st.offsets.lookup q) ∧
    (∀ v ∈ groups.flatten, (relevant.lookup (some v)).isSome) ∧
    ∀ g ∈ groups, (g.map (voiNeed relevant metas)).sum ≤ r.size ∧
      ∀ pre v post, g = pre ++ v :: post → r.offsets.lookup (some v) = some ((pre.map (voiNeed relevant metas)).sum) := by
  induction groups with
  | nil =>
    intro st r h _
    simp only [List.foldlM_nil, pure, Except.pure, Except.ok.injEq] at h
    subst h
    simp
  | cons g groups ih =>
    intro st r h hn
    rw [List.foldlM_cons] at h
    unfold sharedGroup at h
    cases hr : g.foldlM (sharedVoi relevant metas) ⟨0, st.offsets⟩ with
    | error e => simp [hr, bind, Except.bind] at h
    | ok t =>
      simp only [hr, bind, Except.bind, pure, Except.pure] at h
      rw [List.flatten_cons, List.nodup_append'] at hn
      obtain ⟨hg, hgs, hd⟩ := hn
      obtain ⟨a1, a2, a3, a4⟩ := sharedVoi_fold relevant metas g _ _ hr hg
      obtain ⟨b1, b2, b3, b4, b5⟩ := ih _ _ h hgs
      have ht : t.size = (g.map (voiNeed relevant metas)).sum := by rw [a1]; simp
      have hmax : st.size ≤ (if st.size < t.size then t.size else st.size) ∧ t.size ≤ (if st.size < t.size then t.size else st.size) := by
        split <;> omega
      refine ⟨by simp only at b1; omega, ?_, ?_, ?_, ?_⟩
      · rcases b2 with b2 | ⟨g', hg', e⟩
        · simp only at b2
          split at b2
          · exact .inr ⟨g, by simp, by rw [b2, ht]⟩
          · exact .inl b2
        · exact .inr ⟨g', by simp [hg'], e⟩
      · intro q hq
        rw [b3 q (fun v hv => hq v (by simp only [List.flatten_cons, List.mem_append]; exact .inr hv))]
        simp only
        rw [a2 q (fun v hv => hq v (by simp only [List.flatten_cons, List.mem_append]; exact .inl hv))]
      · intro v hv
        rw [List.flatten_cons, List.mem_append] at hv
        rcases hv with hv | hv
        · exact a3 v hv
        · exact b4 v hv
      · intro g' hg'
        rcases List.mem_cons.1 hg' with rfl | hg'
        · refine ⟨by rw [← ht]; simp only at b1; omega, ?_⟩
          intro pre v post hs
          rw [b3 (some v)]
          · simp only
            rw [a4 pre v post hs]; simp
          · intro w hw e
            simp only [Option.some.injEq] at e
            subst e
            exact hd (by rw [hs]; simp) hw
        · exact b5 g' hg'

/-- Placing variables one after another; the common form of both `setup` loops. -/
def placeStep (k : DerMeta → Bool) (w : DerMeta → Nat) (st : Nat × List Slc) (m : DerMeta) : Nat × List Slc :=
  (st.1 + w m, if k m then st.2 ++ [⟨m.path, st.1, st.1 + w m⟩] else st.2)

theorem place_fold (k : DerMeta → Bool) (w : DerMeta → Nat) (vd : List DerMeta) : ∀ (n : Nat) (acc : List Slc),
    ∃ L, vd.foldl (placeStep k w) (n, acc) = (n + (vd.map w).sum, acc ++ L) ∧
      L.map (fun s => (s.path, s.stop - s.start)) = (vd.filter k).map (fun m => (m.path, w m)) ∧
      (∀ s ∈ L, n ≤ s.start ∧ s.start ≤ s.stop ∧ s.stop ≤ n + (vd.map w).sum) ∧
      L.Pairwise (fun s t => s.stop ≤ t.start) := by
  induction vd with
  | nil => intro n acc; exact ⟨[], by simp⟩
  | cons m vd ih =>
    intro n acc
    rw [List.foldl_cons]
    unfold placeStep
    by_cases hk : k m = true
    · obtain ⟨L, h1, h2, h3, h4⟩ := ih (n + w m) (acc ++ [⟨m.path, n, n + w m⟩])
      refine ⟨⟨m.path, n, n + w m⟩ :: L, ?_, ?_, ?_, ?_⟩
      · simp only [hk, if_true]
        show List.foldl (placeStep k w) _ _ = _
        rw [h1]; simp; omega
      · simp [hk, h2]
      · intro s hs
        simp only [List.map_cons, List.sum_cons]
        rcases List.mem_cons.1 hs with rfl | hs
        · simp only; omega
        · have := h3 s hs; omega
      · rw [List.pairwise_cons]
        exact ⟨fun s hs => (h3 s hs).1, h4⟩
    · obtain ⟨L, h1, h2, h3, h4⟩ := ih (n + w m) acc
      refine ⟨L, ?_, ?_, ?_, h4⟩
      · simp only [hk]
        show List.foldl (placeStep k w) _ _ = _
        simp only [Bool.false_eq_true, if_false]
        rw [h1]; simp; omega
      · simp [hk, h2]
      · intro s hs
        simp only [List.map_cons, List.sum_cons]
        have := h3 s hs; omega

/-- What a placed vector looks like in a shared array in which it fits. -/
theorem place_cells (k : DerMeta → Bool) (w : DerMeta → Nat) (vd : List DerMeta) (total offset : Nat)
    (hfit : offset + (vd.map w).sum ≤ total) :
    let r := vd.foldl (placeStep k w) (0, [])
    let V := r.2.map (mapCells total offset r.1)
    V.map (fun c => (c.path, c.len)) = (vd.filter k).map (fun m => (m.path, w m)) ∧
      (∀ c ∈ V, offset ≤ c.off ∧ c.off + c.len ≤ offset + (vd.map w).sum) ∧ V.Pairwise Apart := by
  obtain ⟨L, h1, h2, h3, h4⟩ := place_fold k w vd 0 []
  simp only [Nat.zero_add, List.nil_append] at h1 h3
  simp only [h1]
  have hm : ∀ s ∈ L, mapCells total offset ((vd.map w).sum) s = ⟨s.path, offset + s.start, s.stop - s.start⟩ := by
    intro s hs
    have := h3 s hs
    unfold mapCells
    simp only [Cells.mk.injEq, true_and]
    constructor
    · rw [Nat.min_eq_left (by omega : offset ≤ total), Nat.min_eq_left (by omega : (vd.map w).sum ≤ total - offset), Nat.min_eq_left (by omega)]
    · rw [Nat.min_eq_left (by omega : offset ≤ total), Nat.min_eq_left (by omega : (vd.map w).sum ≤ total - offset), Nat.min_eq_left (by omega), Nat.min_eq_left (by omega)]
  rw [List.map_congr_left hm]
  refine ⟨by rw [← h2]; simp [Function.comp_def], ?_, ?_⟩
  · intro c hc
    obtain ⟨s, hs, rfl⟩ := List.mem_map.1 hc
    have := h3 s hs
    simp only; omega
  · rw [List.pairwise_map]
    refine List.Pairwise.imp_of_mem ?_ h4
    intro s t hs ht hst
    have := h3 s hs
    unfold Apart
    intro i hi
    simp only at hi
    omega

theorem sum_le_sum_of {α : Type} (l : List α) (f g : α → Nat) (h : ∀ x ∈ l, f x ≤ g x) : (l.map f).sum ≤ (l.map g).sum := by
  induction l with
  | nil => simp
  | cons a l ih =>
    simp only [List.map_cons, List.sum_cons]
    have := h a (by simp)
    have := ih (fun x hx => h x (by simp [hx]))
    omega

theorem sum_filter_ite {α : Type} (l : List α) (p : α → Bool) (f : α → Nat) :
    ((l.filter p).map f).sum = (l.map fun x => if p x then f x else 0).sum := by
  induction l with
  | nil => simp
  | cons a l ih =>
    by_cases h : p a = true <;> simp [h, ih]
