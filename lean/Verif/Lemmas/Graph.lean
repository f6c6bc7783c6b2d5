import Verif.Model.Graph
import Mathlib.Logic.Relation
import Mathlib.Data.List.Basic
import Mathlib.Data.List.Nodup
/-! # Correctness of depth-first search -/
namespace OpenMDAO
variable {α : Type} [DecidableEq α]

/-- The edge relation of an edge list. -/
def Edge (edges : List (α × α)) (s t : α) : Prop := (s, t) ∈ edges

theorem mem_gsucc {edges : List (α × α)} {s t : α} : t ∈ gsucc edges s ↔ Edge edges s t := by
  unfold gsucc Edge
  simp only [List.mem_map, List.mem_filter, decide_eq_true_eq]
  constructor
  · rintro ⟨⟨a, b⟩, ⟨h, rfl⟩, rfl⟩; exact h
  · intro h; exact ⟨(s, t), ⟨h, rfl⟩, rfl⟩

theorem mem_gpred {edges : List (α × α)} {s t : α} : s ∈ gpred edges t ↔ Edge edges s t := by
  unfold gpred Edge
  simp only [List.mem_map, List.mem_filter, decide_eq_true_eq]
  constructor
  · rintro ⟨⟨a, b⟩, ⟨h, rfl⟩, rfl⟩; exact h
  · intro h; exact ⟨(s, t), ⟨h, rfl⟩, rfl⟩

/-- Edges not yet expanded plus pending edges. -/
def dfsMeasure (edges : List (α × α)) (pending : List (α × α)) (vis : List α) : Nat :=
  (edges.filter (fun e => e.1 ∉ vis)).length + pending.length

theorem dfsMeasure_visit (edges rest : List (α × α)) (s t : α) (vis : List α) (ht : t ∉ vis) :
    dfsMeasure edges ((gsucc edges t).map (t, ·) ++ rest) (t :: vis) + 1 = dfsMeasure edges ((s, t) :: rest) vis := by
  unfold dfsMeasure
  have key : (edges.filter (fun e => e.1 ∉ t :: vis)).length + (gsucc edges t).length =
      (edges.filter (fun e => e.1 ∉ vis)).length := by
    unfold gsucc
    rw [List.length_map]
    induction edges with
    | nil => rfl
    | cons e es ih =>
      obtain ⟨a, b⟩ := e
      simp only [List.filter_cons, List.mem_cons, not_or, decide_eq_true_eq]
      by_cases h1 : a = t
      · subst h1
        simp only [ht, not_true_eq_false, false_and, if_false, not_false_eq_true, if_true]
        simp only [List.mem_cons, not_or] at ih
        simp only [List.length_cons]; omega
      · by_cases h2 : a ∈ vis
        · simp only [h1, h2, not_true_eq_false, and_false, if_false]
          simp only [List.mem_cons, not_or] at ih
          exact ih
        · simp only [h1, h2, not_false_eq_true, and_self, if_true, if_false]
          simp only [List.mem_cons, not_or] at ih
          simp only [List.length_cons]; omega
  simp only [List.length_append, List.length_map, List.length_cons]
  omega

theorem dfsGo_spec (edges : List (α × α)) : ∀ (fuel : Nat) (pending : List (α × α)) (vis : List α),
    dfsMeasure edges pending vis ≤ fuel →
    (∀ e ∈ pending, e ∈ edges ∧ e.1 ∈ vis) →
    (∀ v ∈ vis, ∀ w, Edge edges v w → w ∈ vis ∨ (v, w) ∈ pending) →
    let out := dfsGo edges fuel pending vis
    (∀ e ∈ out, e ∈ edges ∧ e.2 ∉ vis) ∧ (out.map Prod.snd).Nodup ∧
    (∀ v, v ∈ vis ∨ v ∈ out.map Prod.snd → ∀ w, Edge edges v w → w ∈ vis ∨ w ∈ out.map Prod.snd) ∧
    (∀ pre e post, out = pre ++ e :: post → e.1 ∈ vis ∨ e.1 ∈ pre.map Prod.snd) := by
  intro fuel
  induction fuel with
  | zero =>
    intro pending vis hm hp hc
    have : pending = [] := by
      unfold dfsMeasure at hm
      exact List.length_eq_zero_iff.mp (by omega)
    subst this
    simp only [dfsGo]
    refine ⟨by simp, by simp, ?_, by simp⟩
    intro v hv w hw
    have hv' : v ∈ vis := by simpa using hv
    rcases hc v hv' w hw with h | h
    · exact .inl h
    · simp at h
  | succ fuel ih =>
    intro pending vis hm hp hc
    cases pending with
    | nil =>
      simp only [dfsGo]
      refine ⟨by simp, by simp, ?_, by simp⟩
      intro v hv w hw
      have hv' : v ∈ vis := by simpa using hv
      rcases hc v hv' w hw with h | h
      · exact .inl h
      · simp at h
    | cons e rest =>
      obtain ⟨s, t⟩ := e
      simp only [dfsGo]
      by_cases ht : t ∈ vis
      · rw [if_pos ht]
        refine ih rest vis ?_ (fun e he => hp e (List.mem_cons_of_mem _ he)) ?_
        · unfold dfsMeasure at hm ⊢; simp only [List.length_cons] at hm; omega
        · intro v hv w hw
          rcases hc v hv w hw with h | h
          · exact .inl h
          · rcases List.mem_cons.mp h with h | h
            · left; cases h; exact ht
            · exact .inr h
      · rw [if_neg ht]
        have hst := hp (s, t) List.mem_cons_self
        obtain ⟨i1, i2, i3, i4⟩ := ih ((gsucc edges t).map (t, ·) ++ rest) (t :: vis)
          (by have := dfsMeasure_visit edges rest s t vis ht; omega)
          (by
            intro e he
            rcases List.mem_append.mp he with he | he
            · obtain ⟨w, hw, rfl⟩ := List.mem_map.mp he
              exact ⟨mem_gsucc.mp hw, List.mem_cons_self⟩
            · obtain ⟨h1, h2⟩ := hp e (List.mem_cons_of_mem _ he)
              exact ⟨h1, List.mem_cons_of_mem _ h2⟩)
          (by
            intro v hv w hw
            rcases List.mem_cons.mp hv with rfl | hv
            · right; exact List.mem_append_left _ (List.mem_map.mpr ⟨w, mem_gsucc.mpr hw, rfl⟩)
            · rcases hc v hv w hw with h | h
              · exact .inl (List.mem_cons_of_mem _ h)
              · rcases List.mem_cons.mp h with h | h
                · left; cases h; exact List.mem_cons_self
                · right; exact List.mem_append_right _ h)
        refine ⟨?_, ?_, ?_, ?_⟩
        · intro e he
          rcases List.mem_cons.mp he with rfl | he
          · exact ⟨hst.1, ht⟩
          · exact ⟨(i1 e he).1, fun h => (i1 e he).2 (List.mem_cons_of_mem _ h)⟩
        · simp only [List.map_cons, List.nodup_cons]
          refine ⟨?_, i2⟩
          intro h
          obtain ⟨e, he, heq⟩ := List.mem_map.mp h
          exact (i1 e he).2 (by rw [heq]; exact List.mem_cons_self)
        · intro v hv w hw
          have := i3 v (by
            rcases hv with hv | hv
            · exact .inl (List.mem_cons_of_mem _ hv)
            · simp only [List.map_cons] at hv
              rcases List.mem_cons.mp hv with rfl | hv
              · exact .inl List.mem_cons_self
              · exact .inr hv) w hw
          simp only [List.map_cons]
          rcases this with h | h
          · rcases List.mem_cons.mp h with rfl | h
            · exact .inr List.mem_cons_self
            · exact .inl h
          · exact .inr (List.mem_cons_of_mem _ h)
        · intro pre e post hpe
          cases pre with
          | nil =>
            simp only [List.nil_append, List.cons.injEq] at hpe
            left; rw [← hpe.1]; exact hst.2
          | cons x pre =>
            simp only [List.cons_append, List.cons.injEq] at hpe
            obtain ⟨rfl, hpe⟩ := hpe
            rcases i4 pre e post hpe with h | h
            · rcases List.mem_cons.mp h with h | h
              · right; rw [h]; simp
              · exact .inl h
            · right; simp only [List.map_cons]; exact List.mem_cons_of_mem _ h

theorem dfsEdges_basic (edges : List (α × α)) (src : α) :
    (∀ e ∈ dfsEdges edges src, e ∈ edges ∧ e.2 ≠ src) ∧ ((dfsEdges edges src).map Prod.snd).Nodup ∧
    (∀ v, v = src ∨ v ∈ (dfsEdges edges src).map Prod.snd → ∀ w, Edge edges v w →
      w = src ∨ w ∈ (dfsEdges edges src).map Prod.snd) ∧
    (∀ pre e post, dfsEdges edges src = pre ++ e :: post → e.1 = src ∨ e.1 ∈ pre.map Prod.snd) := by
  have := dfsGo_spec edges edges.length ((gsucc edges src).map (src, ·)) [src] (by
      have h := dfsMeasure_visit edges [] src src [] (by simp)
      unfold dfsMeasure at h ⊢
      simp only [List.append_nil, List.length_cons, List.length_nil] at h
      have h2 : (edges.filter (fun e => e.1 ∉ ([] : List α))).length ≤ edges.length := List.length_filter_le _ _
      omega) (by
      intro e he
      obtain ⟨w, hw, rfl⟩ := List.mem_map.mp he
      exact ⟨mem_gsucc.mp hw, by simp⟩) (by
      intro v hv w hw
      rw [List.mem_singleton] at hv; subst hv
      right; exact List.mem_map.mpr ⟨w, mem_gsucc.mpr hw, rfl⟩)
  simp only [List.mem_singleton] at this
  exact this

/-- Depth-first search finds exactly the nodes that can be reached by at least one edge, other than the start. -/
theorem mem_dfs_iff (edges : List (α × α)) (src t : α) :
    t ∈ (dfsEdges edges src).map Prod.snd ↔ Relation.TransGen (Edge edges) src t ∧ t ≠ src := by
  obtain ⟨h1, h2, h3, h4⟩ := dfsEdges_basic edges src
  constructor
  · intro ht
    refine ⟨?_, ?_⟩
    · -- every produced edge starts at the source or at an earlier target
      have key : ∀ (n : Nat) (pre : List (α × α)) e post, pre.length = n → dfsEdges edges src = pre ++ e :: post →
          Relation.TransGen (Edge edges) src e.2 := by
        intro n
        induction n using Nat.strongRecOn with
        | _ n ih =>
          intro pre e post hn hpe
          have he : Edge edges e.1 e.2 := (h1 e (by rw [hpe]; simp)).1
          rcases h4 pre e post hpe with h | h
          · rw [← h]; exact .single he
          · obtain ⟨e', he', hee⟩ := List.mem_map.mp h
            obtain ⟨p1, p2, rfl⟩ := List.append_of_mem he'
            have := ih p1.length (by rw [← hn]; simp) p1 e' (p2 ++ e :: post) rfl (by rw [hpe]; simp)
            rw [hee] at this
            exact this.tail he
      obtain ⟨e, he, rfl⟩ := List.mem_map.mp ht
      obtain ⟨p1, p2, hp⟩ := List.append_of_mem he
      exact key _ p1 e p2 rfl hp
    · obtain ⟨e, he, rfl⟩ := List.mem_map.mp ht
      exact (h1 e he).2
  · rintro ⟨hr, hne⟩
    have : ∀ t, Relation.TransGen (Edge edges) src t → t = src ∨ t ∈ (dfsEdges edges src).map Prod.snd := by
      intro t ht
      induction ht with
      | single h => exact h3 _ (.inl rfl) _ h
      | tail _ h ih => exact h3 _ ih _ h
    rcases this t hr with h | h
    · exact absurd h hne
    · exact h

end OpenMDAO
