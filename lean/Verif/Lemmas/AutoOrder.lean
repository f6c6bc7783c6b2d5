import Verif.Model.AutoOrder
import Verif.Lemmas.Graph
import Mathlib.Data.List.Basic
import Mathlib.Data.List.Perm.Lattice
import Mathlib.Data.List.Perm.Subperm
/-! # Lemmas for the automatic ordering -/
namespace OpenMDAO
set_option linter.unusedSectionVars false

section
variable {α : Type} [DecidableEq α]

/-- What `nx.strongly_connected_components` guarantees: the classes of mutually reachable nodes, each once. -/
structure SccSpec (sccs : List α → List (α × α) → List (List α)) : Prop where
  cls : ∀ V E, V.Nodup → (∀ e ∈ E, e.1 ∈ V ∧ e.2 ∈ V) → ∀ C ∈ sccs V E, C.Nodup ∧ ∃ v ∈ V, ∀ w, w ∈ C ↔
    w ∈ V ∧ Relation.ReflTransGen (Edge E) v w ∧ Relation.ReflTransGen (Edge E) w v
  disj : ∀ V E, V.Nodup → (∀ e ∈ E, e.1 ∈ V ∧ e.2 ∈ V) → (sccs V E).Pairwise List.Disjoint
  cover : ∀ V E, V.Nodup → (∀ e ∈ E, e.1 ∈ V ∧ e.2 ∈ V) → ∀ v ∈ V, ∃ C ∈ sccs V E, v ∈ C

/-- No directed cycle. -/
def Acyclic (E : List (α × α)) : Prop := ∀ v, ¬ Relation.TransGen (Edge E) v v

/-- Any two members are connected within the set. -/
def StrongIn (E : List (α × α)) (S : List α) : Prop := ∀ a ∈ S, ∀ b ∈ S, Relation.ReflTransGen (Edge (inducedEdges E S)) a b

theorem mem_induced {E : List (α × α)} {S : List α} {e : α × α} : e ∈ inducedEdges E S ↔ e ∈ E ∧ e.1 ∈ S ∧ e.2 ∈ S := by
  simp [inducedEdges]

theorem edge_mono {E E' : List (α × α)} (h : ∀ e ∈ E, e ∈ E') {a b : α} (hr : Relation.ReflTransGen (Edge E) a b) :
    Relation.ReflTransGen (Edge E') a b := Relation.ReflTransGen.mono (fun a b (h1 : Edge E a b) => (h _ h1 : Edge E' a b)) _ _ hr

theorem edge_mono' {E E' : List (α × α)} (h : ∀ e ∈ E, e ∈ E') {a b : α} (hr : Relation.TransGen (Edge E) a b) :
    Relation.TransGen (Edge E') a b := Relation.TransGen.mono (fun a b (h1 : Edge E a b) => (h _ h1 : Edge E' a b)) _ _ hr

/-- A path between members of a class stays in the class. -/
theorem path_in_class {V : List α} {E : List (α × α)} {C : List α} {v : α} (hE : ∀ e ∈ E, e.1 ∈ V ∧ e.2 ∈ V)
    (hC : ∀ w, w ∈ C ↔ w ∈ V ∧ Relation.ReflTransGen (Edge E) v w ∧ Relation.ReflTransGen (Edge E) w v) {a b : α}
    (ha : a ∈ C) (hr : Relation.ReflTransGen (Edge E) a b) (hb : Relation.ReflTransGen (Edge E) b v) :
    b ∈ C ∧ Relation.ReflTransGen (Edge (inducedEdges E C)) a b := by
  induction hr with
  | refl => exact ⟨ha, .refl⟩
  | tail h1 h2 ih =>
    rename_i x y
    obtain ⟨i1, i2⟩ := ih (.head h2 hb)
    have hy : y ∈ C := by
      rw [hC]
      refine ⟨(hE _ h2).2, ?_, hb⟩
      exact .tail ((hC x).mp i1).2.1 h2
    exact ⟨hy, .tail i2 (mem_induced.mpr ⟨h2, i1, hy⟩)⟩

theorem strongIn_class {V : List α} {E : List (α × α)} {C : List α} {v : α} (hE : ∀ e ∈ E, e.1 ∈ V ∧ e.2 ∈ V)
    (hC : ∀ w, w ∈ C ↔ w ∈ V ∧ Relation.ReflTransGen (Edge E) v w ∧ Relation.ReflTransGen (Edge E) w v) : StrongIn E C := by
  intro a ha b hb
  have h1 := (hC a).mp ha
  have h2 := (hC b).mp hb
  exact (path_in_class hE hC ha (h1.2.2.trans h2.2.1) h2.2.2).2

/-- What breaking guarantees about the state before and after. -/
structure BreakOK (st st' : List (α × α) × List (α × α)) (within : α × α → Prop) : Prop where
  perm : (st'.1 ++ st'.2).Perm (st.1 ++ st.2)
  sub : ∀ e ∈ st'.1, e ∈ st.1
  kept : ∀ e ∈ st.1, ¬ within e → e ∈ st'.1
  nodup : st'.1.Nodup
  broken : ∀ e ∈ st'.2, e ∈ st.2 ∨ (e ∈ st.1 ∧ Relation.ReflTransGen (Edge st.1) e.2 e.1)

theorem BreakOK.refl {st : List (α × α) × List (α × α)} (h : st.1.Nodup) (W : α × α → Prop) : BreakOK st st W :=
  ⟨.refl _, fun _ h => h, fun _ h _ => h, h, fun _ h => .inl h⟩

theorem BreakOK.mono {st st' : List (α × α) × List (α × α)} {W W' : α × α → Prop} (h : BreakOK st st' W) (hW : ∀ e, W e → W' e) :
    BreakOK st st' W' := ⟨h.perm, h.sub, fun e he hn => h.kept e he (fun hw => hn (hW e hw)), h.nodup, h.broken⟩

theorem BreakOK.trans {a b c : List (α × α) × List (α × α)} {W W' : α × α → Prop} (h1 : BreakOK a b W) (h2 : BreakOK b c W') :
    BreakOK a c (fun e => W e ∨ W' e) := by
  refine ⟨h2.perm.trans h1.perm, fun e he => h1.sub e (h2.sub e he), ?_, h2.nodup, ?_⟩
  · intro e he hn
    exact h2.kept e (h1.kept e he (fun h => hn (.inl h))) (fun h => hn (.inr h))
  · intro e he
    rcases h2.broken e he with h | ⟨h, h'⟩
    · exact h1.broken e h
    · exact .inr ⟨h1.sub e h, edge_mono h1.sub h'⟩

/-- Folding over pairwise disjoint strongly connected sets. -/
theorem foldBreak (f : List (α × α) × List (α × α) → List α → List (α × α) × List (α × α)) :
    ∀ (Cs : List (List α)) (st : List (α × α) × List (α × α)), st.1.Nodup → (∀ e ∈ st.1, e.1 ≠ e.2) →
    Cs.Pairwise List.Disjoint → (∀ C ∈ Cs, StrongIn st.1 C) →
    (∀ C ∈ Cs, ∀ st : List (α × α) × List (α × α), st.1.Nodup → (∀ e ∈ st.1, e.1 ≠ e.2) → StrongIn st.1 C →
      BreakOK st (f st C) (fun e => e.1 ∈ C ∧ e.2 ∈ C) ∧ Acyclic (inducedEdges (f st C).1 C)) →
    BreakOK st (Cs.foldl f st) (fun e => ∃ C ∈ Cs, e.1 ∈ C ∧ e.2 ∈ C) ∧
    ∀ C ∈ Cs, Acyclic (inducedEdges (Cs.foldl f st).1 C) := by
  intro Cs
  induction Cs with
  | nil => intro st hnd _ _ _ _; exact ⟨.refl hnd _, by simp⟩
  | cons C Cs ih =>
    intro st hnd hself hdis hstr hf
    rw [List.pairwise_cons] at hdis
    obtain ⟨h1, h2⟩ := hf C List.mem_cons_self st hnd hself (hstr C List.mem_cons_self)
    have hstr' : ∀ D ∈ Cs, StrongIn (f st C).1 D := by
      intro D hD a ha b hb
      refine edge_mono ?_ (hstr D (List.mem_cons_of_mem _ hD) a ha b hb)
      intro e he
      obtain ⟨h3, h4, h5⟩ := mem_induced.mp he
      refine mem_induced.mpr ⟨h1.kept e h3 ?_, h4, h5⟩
      rintro ⟨h6, -⟩
      exact hdis.1 D hD h6 h4
    obtain ⟨i1, i2⟩ := ih (f st C) h1.nodup (fun e he => hself e (h1.sub e he)) hdis.2 hstr'
      (fun D hD => hf D (List.mem_cons_of_mem _ hD))
    rw [List.foldl_cons]
    refine ⟨(h1.trans i1).mono ?_, ?_⟩
    · rintro e (h | ⟨D, hD, h⟩)
      · exact ⟨C, List.mem_cons_self, h⟩
      · exact ⟨D, List.mem_cons_of_mem _ hD, h⟩
    · intro D hD
      rcases List.mem_cons.mp hD with rfl | hD
      · intro v hv
        refine h2 v (edge_mono' ?_ hv)
        intro e he
        obtain ⟨h3, h4⟩ := mem_induced.mp he
        exact mem_induced.mpr ⟨i1.sub e h3, h4⟩
      · exact i2 D hD

/-- A cycle lies in one class, which has more than one member. -/
theorem acyclic_of_classes {V : List α} {E E' : List (α × α)} {Cs : List (List α)} (hE : ∀ e ∈ E, e.1 ∈ V ∧ e.2 ∈ V)
    (hself : ∀ e ∈ E, e.1 ≠ e.2) (hsub : ∀ e ∈ E', e ∈ E)
    (hcover : ∀ v ∈ V, ∃ C, v ∈ C ∧ (1 < C.length → C ∈ Cs) ∧ ∃ x ∈ V, ∀ w, w ∈ C ↔
      w ∈ V ∧ Relation.ReflTransGen (Edge E) x w ∧ Relation.ReflTransGen (Edge E) w x)
    (hac : ∀ C ∈ Cs, Acyclic (inducedEdges E' C)) : Acyclic E' := by
  intro v hv
  obtain ⟨u, hvu, huv⟩ := Relation.TransGen.head'_iff.mp hv
  have hvV := (hE _ (hsub _ hvu)).1
  have huV := (hE _ (hsub _ hvu)).2
  have hne := hself _ (hsub _ hvu)
  obtain ⟨C, hvC, hbig, x, hx, hC⟩ := hcover v hvV
  have hxv := (hC v).mp hvC
  have huC : u ∈ C := by
    rw [hC]
    exact ⟨huV, .tail hxv.2.1 (hsub _ hvu), (edge_mono hsub huv).trans hxv.2.2⟩
  have hlen : 1 < C.length := by
    rcases C with _ | ⟨a, _ | ⟨b, C⟩⟩
    · cases hvC
    · simp only [List.mem_singleton] at hvC huC
      exact absurd (hvC.trans huC.symm) hne
    · simp
  refine hac C (hbig hlen) v ?_
  -- the whole cycle lies in C
  have key : ∀ a b, a ∈ C → Relation.ReflTransGen (Edge E') a b → Relation.ReflTransGen (Edge E) b x →
      b ∈ C ∧ Relation.ReflTransGen (Edge (inducedEdges E' C)) a b := by
    intro a b ha hr
    induction hr with
    | refl => exact fun _ => ⟨ha, .refl⟩
    | tail h1 h2 ih =>
      rename_i y z
      intro hz
      obtain ⟨i1, i2⟩ := ih (.head (hsub _ h2) hz)
      have hzC : z ∈ C := by
        rw [hC]; exact ⟨(hE _ (hsub _ h2)).2, .tail ((hC y).mp i1).2.1 (hsub _ h2), hz⟩
      exact ⟨hzC, .tail i2 (mem_induced.mpr ⟨h2, i1, hzC⟩)⟩
  exact Relation.TransGen.head' (mem_induced.mpr ⟨hvu, hvC, huC⟩) (key u v huC huv hxv.2.2).2

theorem pickNode_mem {lt : α → α → Bool} {wt : α × α → Nat} {sub : List (α × α)} : ∀ {scc : List α} {st : Option (α × Nat × Bool)}
    {m : α} {k : Nat} {b : Bool}, scc.foldl (pickStep lt wt sub) st = some (m, k, b) → m ∈ scc ∨ ∃ k b, st = some (m, k, b) := by
  intro scc
  induction scc with
  | nil => intro st m k b h; exact .inr ⟨k, b, h⟩
  | cons x scc ih =>
    intro st m k b h
    rw [List.foldl_cons] at h
    rcases ih h with h1 | ⟨k', b', h1⟩
    · exact .inl (List.mem_cons_of_mem _ h1)
    · unfold pickStep at h1
      cases st with
      | none => simp only [Option.some.injEq, Prod.mk.injEq] at h1; left; rw [h1.1]; exact List.mem_cons_self
      | some s =>
        obtain ⟨m', ms, sm⟩ := s
        simp only at h1
        split_ifs at h1
        · simp only [Option.some.injEq, Prod.mk.injEq] at h1; left; rw [h1.1]; exact List.mem_cons_self
        · simp only [Option.some.injEq, Prod.mk.injEq] at h1; right; exact ⟨ms, sm, by rw [h1.1]⟩

theorem pickNode_some {lt : α → α → Bool} {wt : α × α → Nat} {sub : List (α × α)} {scc : List α} (h : scc ≠ []) :
    ∃ m k b, pickNode lt wt sub scc = some (m, k, b) ∧ m ∈ scc := by
  have hs : ∀ (l : List α) (st : α × Nat × Bool), ∃ x, l.foldl (pickStep lt wt sub) (some st) = some x := by
    intro l
    induction l with
    | nil => intro st; exact ⟨st, rfl⟩
    | cons a l ih =>
      intro st
      rw [List.foldl_cons]
      obtain ⟨m', ms, sm⟩ := st
      unfold pickStep
      simp only
      split_ifs
      · exact ih _
      · exact ih _
  cases scc with
  | nil => exact absurd rfl h
  | cons a l =>
    obtain ⟨⟨m, k, b⟩, hx⟩ := hs l (a, _, _)
    have hp : pickNode lt wt sub (a :: l) = some (m, k, b) := hx
    refine ⟨m, k, b, hp, ?_⟩
    rcases pickNode_mem hp with h1 | ⟨_, _, h1⟩
    · exact h1
    · cases h1

theorem brokenAt_filter (E : List (α × α)) (S : List α) (m : α) (b : Bool) :
    brokenAt (inducedEdges E S) m b = E.filter (fun e => e ∈ brokenAt (inducedEdges E S) m b) := by
  have : brokenAt (inducedEdges E S) m b = E.filter (fun e => (e.1 ∈ S ∧ e.2 ∈ S) ∧ (if b then e.2 = m else e.1 = m)) := by
    unfold brokenAt inducedEdges
    cases b
    · rw [if_neg (by simp), List.filter_filter]
      apply List.filter_congr; intro e _; simp [and_comm]
    · rw [if_pos rfl, List.filter_filter]
      apply List.filter_congr; intro e _; simp [and_comm]
  conv_lhs => rw [this]
  apply List.filter_congr
  intro e he
  rw [decide_eq_decide, this, List.mem_filter]
  simp only [he, true_and, decide_eq_true_eq]

theorem breakScc_spec {lt : α → α → Bool} {wt : α × α → Nat} {sccs : List α → List (α × α) → List (List α)} (hspec : SccSpec sccs) :
    ∀ (n : Nat) (S : List α) (st : List (α × α) × List (α × α)), S.length ≤ n → S ≠ [] → S.Nodup → st.1.Nodup →
    (∀ e ∈ st.1, e.1 ≠ e.2) → StrongIn st.1 S →
    BreakOK st (breakScc lt wt sccs n st S) (fun e => e.1 ∈ S ∧ e.2 ∈ S) ∧ Acyclic (inducedEdges (breakScc lt wt sccs n st S).1 S) := by
  intro n
  induction n with
  | zero =>
    intro S st hlen hne
    exact absurd (List.length_eq_zero_iff.mp (by omega)) hne
  | succ n ih =>
    intro S st hlen hne hSnd hnd hself hstr
    obtain ⟨m, k, b, hp, hmS⟩ := pickNode_some (lt := lt) (wt := wt) (sub := inducedEdges st.1 S) hne
    simp only [breakScc, hp]
    have hremF := brokenAt_filter st.1 S m b
    generalize hrem : brokenAt (inducedEdges st.1 S) m b = rem at hremF
    have hremMem : ∀ e ∈ rem, e ∈ inducedEdges st.1 S ∧ (if b then e.2 = m else e.1 = m) := by
      intro e he
      rw [← hrem] at he
      unfold brokenAt at he
      cases b
      · rw [if_neg (by simp), List.mem_filter] at he; exact ⟨he.1, by simpa using he.2⟩
      · rw [if_pos rfl, List.mem_filter] at he; exact ⟨he.1, by simpa using he.2⟩
    have hremAll : ∀ e ∈ inducedEdges st.1 S, (if b then e.2 = m else e.1 = m) → e ∈ rem := by
      intro e he hm
      rw [← hrem]
      unfold brokenAt
      cases b
      · rw [if_neg (by simp), List.mem_filter]; exact ⟨he, by simpa using hm⟩
      · rw [if_pos rfl, List.mem_filter]; exact ⟨he, by simpa using hm⟩
    -- the first removal
    have h1 : BreakOK st (st.1.filter (fun e => e ∉ rem), st.2 ++ rem) (fun e => e.1 ∈ S ∧ e.2 ∈ S) := by
      refine ⟨?_, ?_, ?_, hnd.filter _, ?_⟩
      · simp only
        have hp1 : (st.1.filter (fun e => e ∈ rem) ++ st.1.filter (fun e => !decide (e ∈ rem))).Perm st.1 := List.filter_append_perm _ _
        have e2 : st.1.filter (fun e => !decide (e ∈ rem)) = st.1.filter (fun e => e ∉ rem) :=
          List.filter_congr (fun e _ => by simp)
        rw [e2, ← hremF] at hp1
        calc (st.1.filter (fun e => e ∉ rem) ++ (st.2 ++ rem)).Perm ((st.1.filter (fun e => e ∉ rem) ++ (rem ++ st.2))) :=
              List.Perm.append_left _ List.perm_append_comm
          _ = ((st.1.filter (fun e => e ∉ rem) ++ rem) ++ st.2) := by rw [List.append_assoc]
          List.Perm _ (st.1 ++ st.2) := List.Perm.append_right _ (List.perm_append_comm.trans hp1)
      · intro e he; exact List.mem_of_mem_filter he
      · intro e he hn
        simp only [List.mem_filter]
        refine ⟨he, ?_⟩
        simp only [decide_eq_true_eq]
        intro hr
        exact hn (mem_induced.mp (hremMem e hr).1).2
      · intro e he
        rcases List.mem_append.mp he with h | h
        · exact .inl h
        · obtain ⟨h2, -⟩ := hremMem e h
          obtain ⟨h3, h4, h5⟩ := mem_induced.mp h2
          exact .inr ⟨h3, edge_mono (fun x hx => (mem_induced.mp hx).1) (hstr e.2 h5 e.1 h4)⟩
    have hsub' : (inducedEdges st.1 S).filter (fun e => e ∉ rem) = inducedEdges (st.1.filter (fun e => e ∉ rem)) S := by
      unfold inducedEdges
      rw [List.filter_filter, List.filter_filter]
      apply List.filter_congr; intro e _; rw [Bool.and_comm]
    rw [hsub']
    generalize hE1 : st.1.filter (fun e => e ∉ rem) = E1 at h1
    have hE : ∀ e ∈ inducedEdges E1 S, e.1 ∈ S ∧ e.2 ∈ S := fun e he => (mem_induced.mp he).2
    have hcls := hspec.cls S _ hSnd hE
    have hdis := hspec.disj S _ hSnd hE
    have hcov := hspec.cover S _ hSnd hE
    generalize sccs S (inducedEdges E1 S) = Cs at hcls hdis hcov
    have hself1 : ∀ e ∈ E1, e.1 ≠ e.2 := fun e he => hself e (h1.sub e he)
    -- the chosen node is in no class with more than one node
    have hm1 : ∀ C ∈ Cs, 1 < C.length → m ∉ C := by
      intro C hC hl hmC
      obtain ⟨hCnd, v, -, hv⟩ := hcls C hC
      have hmv := (hv m).mp hmC
      have : ∃ w ∈ C, w ≠ m := by
        by_contra hcon
        push Not at hcon
        rcases C with _ | ⟨x, _ | ⟨y, C⟩⟩
        · cases hmC
        · simp at hl
        · have hx := hcon x (by simp)
          have hy := hcon y (by simp)
          rw [List.nodup_cons] at hCnd
          exact hCnd.1 (by rw [hx, ← hy]; simp)
      obtain ⟨w, hw, hwm⟩ := this
      have hwv := (hv w).mp hw
      have hmw : Relation.ReflTransGen (Edge (inducedEdges E1 S)) m w := hmv.2.2.trans hwv.2.1
      have hwm' : Relation.ReflTransGen (Edge (inducedEdges E1 S)) w m := hwv.2.2.trans hmv.2.1
      have hkill : ∀ e ∈ inducedEdges E1 S, ¬ (if b then e.2 = m else e.1 = m) := by
        intro e he hc
        obtain ⟨he1, he2⟩ := mem_induced.mp he
        rw [← hE1, List.mem_filter] at he1
        have := hremAll e (mem_induced.mpr ⟨he1.1, he2⟩) hc
        simpa [this] using he1.2
      cases b
      · rcases Relation.ReflTransGen.cases_head hmw with h | ⟨z, hz, -⟩
        · exact hwm h.symm
        · exact hkill _ hz (by simp)
      · rcases Relation.ReflTransGen.cases_tail hwm' with h | ⟨z, -, hz⟩
        · exact hwm h.symm
        · exact hkill _ hz (by simp)
    have hsubS : ∀ C ∈ Cs, ∀ w ∈ C, w ∈ S := by
      intro C hC w hw
      obtain ⟨-, v, -, hv⟩ := hcls C hC
      exact ((hv w).mp hw).1
    obtain ⟨f1, f2⟩ := foldBreak (breakScc lt wt sccs n) (Cs.filter (fun s => 1 < s.length)) (E1, st.2 ++ rem) h1.nodup hself1
      (hdis.sublist List.filter_sublist) (by
        intro C hC
        obtain ⟨hC1, -⟩ := List.mem_filter.mp hC
        obtain ⟨-, v, -, hv⟩ := hcls C hC1
        have := strongIn_class hE hv
        intro a ha b hb
        refine edge_mono ?_ (this a ha b hb)
        intro e he
        obtain ⟨h3, h4⟩ := mem_induced.mp he
        exact mem_induced.mpr ⟨(mem_induced.mp h3).1, h4⟩) (by
        intro C hC st' hnd' hself' hstr'
        obtain ⟨hC1, hC2⟩ := List.mem_filter.mp hC
        simp only [decide_eq_true_eq] at hC2
        refine ih C st' ?_ ?_ (hcls C hC1).1 hnd' hself' hstr'
        · have hmC := hm1 C hC1 hC2
          have : (m :: C).length ≤ S.length := by
            apply List.Subperm.length_le
            apply List.subperm_of_subset
            · rw [List.nodup_cons]; exact ⟨hmC, (hcls C hC1).1⟩
            · intro x hx
              rcases List.mem_cons.mp hx with rfl | hx
              · exact hmS
              · exact hsubS C hC1 x hx
          simp only [List.length_cons] at this
          omega
        · rintro rfl; simp at hC2)
    refine ⟨(h1.trans f1).mono ?_, ?_⟩
    · rintro e (h | ⟨C, hC, h2, h3⟩)
      · exact h
      · obtain ⟨hC1, -⟩ := List.mem_filter.mp hC
        exact ⟨hsubS C hC1 _ h2, hsubS C hC1 _ h3⟩
    · refine acyclic_of_classes (V := S) (E := inducedEdges E1 S) (Cs := Cs.filter (fun s => 1 < s.length)) hE
        (fun e he => hself1 e (mem_induced.mp he).1) ?_ ?_ ?_
      · intro e he
        obtain ⟨h2, h3⟩ := mem_induced.mp he
        exact mem_induced.mpr ⟨f1.sub e h2, h3⟩
      · intro v hv
        obtain ⟨C, hC, hvC⟩ := hcov v hv
        refine ⟨C, hvC, fun hl => List.mem_filter.mpr ⟨hC, by simpa using hl⟩, (hcls C hC).2⟩
      · intro C hC v hv
        refine f2 C hC v (edge_mono' ?_ hv)
        intro e he
        obtain ⟨h2, h3⟩ := mem_induced.mp he
        exact mem_induced.mpr ⟨(mem_induced.mp h2).1, h3⟩

theorem breakCycles_spec {lt : α → α → Bool} {wt : α × α → Nat} {sccs : List α → List (α × α) → List (List α)} (hspec : SccSpec sccs)
    {nodes : List α} {edges : List (α × α)} (hV : nodes.Nodup) (hnd : edges.Nodup) (hself : ∀ e ∈ edges, e.1 ≠ e.2)
    (hE : ∀ e ∈ edges, e.1 ∈ nodes ∧ e.2 ∈ nodes) :
    BreakOK (edges, []) (breakCycles lt wt sccs nodes edges) (fun _ => True) ∧ Acyclic (breakCycles lt wt sccs nodes edges).1 := by
  unfold breakCycles
  have hcls := hspec.cls nodes edges hV hE
  have hdis := hspec.disj nodes edges hV hE
  have hcov := hspec.cover nodes edges hV hE
  generalize sccs nodes edges = Cs at hcls hdis hcov
  obtain ⟨f1, f2⟩ := foldBreak (breakScc lt wt sccs nodes.length) (Cs.filter (fun s => 1 < s.length)) (edges, []) hnd hself
    (hdis.sublist List.filter_sublist) (by
      intro C hC
      obtain ⟨hC1, -⟩ := List.mem_filter.mp hC
      obtain ⟨-, v, -, hv⟩ := hcls C hC1
      exact strongIn_class hE hv) (by
      intro C hC st' hnd' hself' hstr'
      obtain ⟨hC1, hC2⟩ := List.mem_filter.mp hC
      simp only [decide_eq_true_eq] at hC2
      obtain ⟨hCnd, v, -, hv⟩ := hcls C hC1
      refine breakScc_spec hspec _ C st' ?_ ?_ hCnd hnd' hself' hstr'
      · exact (List.subperm_of_subset hCnd (fun x hx => ((hv x).mp hx).1)).length_le
      · rintro rfl; simp at hC2)
  refine ⟨f1.mono (fun _ _ => trivial), ?_⟩
  refine acyclic_of_classes (V := nodes) (E := edges) (Cs := Cs.filter (fun s => 1 < s.length)) hE hself f1.sub ?_ f2
  intro v hv
  obtain ⟨C, hC, hvC⟩ := hcov v hv
  exact ⟨C, hvC, fun hl => List.mem_filter.mpr ⟨hC, by simpa using hl⟩, (hcls C hC).2⟩

/-! ## Topological sort -/

/-- Invariant of the inner loop. -/
structure TopoInv (E : List (α × α)) (seen order fringe : List α) : Prop where
  nodup : order.Nodup
  closed : ∀ pre w post, order = pre ++ w :: post → ∀ x, Edge E w x → x ∈ pre
  ordSeen : ∀ w ∈ order, w ∈ seen
  path : ∀ x ∈ seen, x ∉ order → ∃ above below, fringe = above ++ x :: below ∧ (∀ y ∈ above, Relation.TransGen (Edge E) x y) ∧
    ∀ y, Edge E x y → y ∈ order ∨ y ∈ above

/-- Steps that can still be made. -/
def topoMeasure (V : List α) (E : List (α × α)) (seen fringe : List α) : Nat :=
  (V.filter (fun v => v ∉ seen)).length + (E.filter (fun e => e.1 ∉ seen)).length + fringe.length

theorem filter_not_mem_cons_lt {V : List α} {w : α} {seen : List α} (hw : w ∈ V) (hs : w ∉ seen) :
    (V.filter (fun v => v ∉ w :: seen)).length < (V.filter (fun v => v ∉ seen)).length := by
  induction V with
  | nil => cases hw
  | cons a V ih =>
    have hle : (V.filter (fun v => v ∉ w :: seen)).length ≤ (V.filter (fun v => v ∉ seen)).length := by
      apply List.Sublist.length_le
      apply List.monotone_filter_right
      intro x hx
      simp only [decide_eq_true_eq, List.mem_cons, not_or] at hx ⊢
      exact hx.2
    rw [List.filter_cons, List.filter_cons]
    by_cases ha : a = w
    · subst ha
      simp only [List.mem_cons, true_or, not_true, decide_false, Bool.false_eq_true, if_false, hs, not_false_eq_true, decide_true,
        if_true, List.length_cons]
      simp only [List.mem_cons] at hle
      omega
    · have := ih ((List.mem_cons.mp hw).resolve_left (Ne.symm ha))
      by_cases has : a ∈ seen
      · simpa [has, ha] using this
      · simp only [List.mem_cons] at this
        simp only [List.mem_cons, ha, has, or_self, not_false_eq_true, decide_true, if_true, List.length_cons]
        omega

theorem filter_src_cons {E : List (α × α)} {w : α} {seen : List α} (hs : w ∉ seen) :
    (E.filter (fun e => e.1 ∉ w :: seen)).length + (gsucc E w).length = (E.filter (fun e => e.1 ∉ seen)).length := by
  unfold gsucc
  rw [List.length_map]
  induction E with
  | nil => rfl
  | cons e E ih =>
    rw [List.filter_cons, List.filter_cons, List.filter_cons]
    simp only [List.mem_cons] at ih
    by_cases h1 : e.1 = w
    · simp only [h1, List.mem_cons, true_or, not_true, decide_false, Bool.false_eq_true, if_false, decide_true, if_true, hs,
        not_false_eq_true, List.length_cons]
      omega
    · by_cases h2 : e.1 ∈ seen
      · simp only [List.mem_cons, h1, h2, or_true, not_true, decide_false, Bool.false_eq_true, if_false]
        exact ih
      · simp only [List.mem_cons, h1, h2, or_self, not_false_eq_true, decide_true, if_true, decide_false, Bool.false_eq_true, if_false, List.length_cons]
        omega

theorem filter_mem_seen {β : Type} {l : List β} {f : β → α} {w : α} {seen : List α} (hs : w ∈ seen) :
    l.filter (fun v => f v ∉ w :: seen) = l.filter (fun v => f v ∉ seen) := by
  apply List.filter_congr
  intro v _
  simp only [List.mem_cons, not_or, decide_eq_decide]
  constructor
  · exact fun h => h.2
  · intro h; exact ⟨fun hc => h (hc ▸ hs), h⟩

theorem topoLoop_spec {V : List α} {E : List (α × α)} (hE : ∀ e ∈ E, e.1 ∈ V ∧ e.2 ∈ V) (hac : Acyclic E) :
    ∀ (n : Nat) (seen order fringe : List α), topoMeasure V E seen fringe ≤ n → TopoInv E seen order fringe → (∀ x ∈ fringe, x ∈ V) →
    (∀ x ∈ seen, x ∈ V) →
    ∃ seen' order', topoLoop E n seen order fringe = .done seen' order' ∧ TopoInv E seen' order' [] ∧ (∀ x ∈ order, x ∈ order') ∧
      (∀ x ∈ fringe, x ∈ order') ∧ (∀ x ∈ seen', x ∈ V) := by
  intro n
  induction n with
  | zero =>
    intro seen order fringe hm hi hf hsV
    have : fringe = [] := List.length_eq_zero_iff.mp (by unfold topoMeasure at hm; omega)
    subst this
    exact ⟨seen, order, by simp [topoLoop], hi, fun _ h => h, by simp, hsV⟩
  | succ n ih =>
    intro seen order fringe hm hi hf hsV
    cases fringe with
    | nil => exact ⟨seen, order, by simp [topoLoop], hi, fun _ h => h, by simp, hsV⟩
    | cons w fringe =>
      have hwV := hf w List.mem_cons_self
      by_cases hwo : w ∈ order
      · -- already explored
        have hi' : TopoInv E seen order fringe := by
          refine ⟨hi.nodup, hi.closed, hi.ordSeen, ?_⟩
          intro x hx hxo
          obtain ⟨above, below, h1, h2, h3⟩ := hi.path x hx hxo
          cases above with
          | nil =>
            simp only [List.nil_append, List.cons.injEq] at h1
            exact absurd (h1.1 ▸ hwo) hxo
          | cons a above =>
            simp only [List.cons_append, List.cons.injEq] at h1
            obtain ⟨rfl, h1⟩ := h1
            refine ⟨above, below, h1, fun y hy => h2 y (List.mem_cons_of_mem _ hy), ?_⟩
            intro y hy
            rcases h3 y hy with h | h
            · exact .inl h
            · rcases List.mem_cons.mp h with rfl | h
              · exact .inl hwo
              · exact .inr h
        obtain ⟨s', o', h1, h2, h3, h4, h5⟩ := ih seen order fringe (by unfold topoMeasure at hm ⊢; simp only [List.length_cons] at hm; omega) hi'
          (fun x hx => hf x (List.mem_cons_of_mem _ hx)) hsV
        refine ⟨s', o', by simp only [topoLoop, hwo, if_true]; exact h1, h2, h3, ?_, h5⟩
        intro x hx
        rcases List.mem_cons.mp hx with rfl | hx
        · exact h3 _ hwo
        · exact h4 x hx
      · -- no successor that is seen but not explored
        have hnew : ∀ x ∈ (gsucc E w).filter (fun x => x ∉ order), x ∉ w :: seen := by
          intro x hx hxs
          obtain ⟨hx1, hx2⟩ := List.mem_filter.mp hx
          have hedge := mem_gsucc.mp hx1
          simp only [decide_eq_true_eq] at hx2
          rcases List.mem_cons.mp hxs with rfl | hxs
          · exact hac x (.single hedge)
          · obtain ⟨above, below, h1, h2, -⟩ := hi.path x hxs hx2
            cases above with
            | nil =>
              simp only [List.nil_append, List.cons.injEq] at h1
              rw [← h1.1] at hedge
              exact hac w (.single hedge)
            | cons a above =>
              simp only [List.cons_append, List.cons.injEq] at h1
              have := h2 w (by rw [h1.1]; exact List.mem_cons_self)
              exact hac x (.tail this hedge)
        have hany : ((gsucc E w).filter (fun x => x ∉ order)).any (fun x => x ∈ w :: seen) = false := by
          rw [List.any_eq_false]
          intro x hx
          simpa using hnew x hx
        -- a seen node on top has no new successors
        have hseenEmpty : w ∈ seen → (gsucc E w).filter (fun x => x ∉ order) = [] := by
          intro hws
          rw [List.eq_nil_iff_forall_not_mem]
          intro x hx
          obtain ⟨hx1, hx2⟩ := List.mem_filter.mp hx
          have hedge := mem_gsucc.mp hx1
          simp only [decide_eq_true_eq] at hx2
          obtain ⟨above, below, h1, h2, h3⟩ := hi.path w hws hwo
          cases above with
          | nil =>
            rcases h3 x hedge with h | h
            · exact hx2 h
            · cases h
          | cons a above =>
            simp only [List.cons_append, List.cons.injEq] at h1
            exact hac w (h2 w (by rw [h1.1]; exact List.mem_cons_self))
        have hseen' : ∀ x ∈ w :: seen, x ∈ V := by
          intro x hx
          rcases List.mem_cons.mp hx with rfl | hx
          · exact hwV
          · exact hsV x hx
        by_cases hemp : (gsucc E w).filter (fun x => x ∉ order) = []
        · -- fully explored
          have hsuccs : ∀ x, Edge E w x → x ∈ order := by
            intro x hx
            by_contra hc
            have : x ∈ (gsucc E w).filter (fun x => x ∉ order) := List.mem_filter.mpr ⟨mem_gsucc.mpr hx, by simpa using hc⟩
            rw [hemp] at this; cases this
          have hi' : TopoInv E (w :: seen) (order ++ [w]) fringe := by
            refine ⟨?_, ?_, ?_, ?_⟩
            · rw [List.nodup_append]
              refine ⟨hi.nodup, by simp, ?_⟩
              intro a ha b hb
              rw [List.mem_singleton] at hb; subst hb
              exact fun hc => hwo (hc ▸ ha)
            · intro pre v post hpv x hx
              rcases List.eq_nil_or_concat post with rfl | ⟨post', last, rfl⟩
              · have := List.append_inj' hpv rfl
                simp only [List.cons.injEq, and_true] at this
                obtain ⟨rfl, rfl⟩ := this
                exact hsuccs x hx
              · have h6 : order ++ [w] = (pre ++ v :: post') ++ [last] := by rw [hpv]; simp
                have := List.append_inj' h6 rfl
                exact hi.closed pre v post' this.1 x hx
            · intro v hv
              rcases List.mem_append.mp hv with h | h
              · exact List.mem_cons_of_mem _ (hi.ordSeen v h)
              · rw [List.mem_singleton] at h; subst h; exact List.mem_cons_self
            · intro x hx hxo
              simp only [List.mem_append, List.mem_singleton, not_or] at hxo
              have hx' : x ∈ seen := (List.mem_cons.mp hx).resolve_left hxo.2
              obtain ⟨above, below, h1, h2, h3⟩ := hi.path x hx' hxo.1
              cases above with
              | nil =>
                simp only [List.nil_append, List.cons.injEq] at h1
                exact absurd h1.1.symm hxo.2
              | cons a above =>
                simp only [List.cons_append, List.cons.injEq] at h1
                obtain ⟨rfl, h1⟩ := h1
                refine ⟨above, below, h1, fun y hy => h2 y (List.mem_cons_of_mem _ hy), ?_⟩
                intro y hy
                rcases h3 y hy with h | h
                · exact .inl (List.mem_append_left _ h)
                · rcases List.mem_cons.mp h with rfl | h
                  · exact .inl (by simp)
                  · exact .inr h
          have hmeas : topoMeasure V E (w :: seen) fringe ≤ n := by
            unfold topoMeasure at hm ⊢
            simp only [List.length_cons] at hm
            have e1 : (V.filter (fun v => v ∉ w :: seen)).length ≤ (V.filter (fun v => v ∉ seen)).length := by
              by_cases hws : w ∈ seen
              · exact Nat.le_of_eq (congrArg List.length (filter_mem_seen (l := V) (f := id) hws))
              · exact Nat.le_of_lt (filter_not_mem_cons_lt hwV hws)
            have e2 : (E.filter (fun e => e.1 ∉ w :: seen)).length ≤ (E.filter (fun e => e.1 ∉ seen)).length := by
              by_cases hws : w ∈ seen
              · exact Nat.le_of_eq (congrArg List.length (filter_mem_seen (l := E) (f := Prod.fst) hws))
              · have := filter_src_cons (E := E) hws; omega
            omega
          obtain ⟨s', o', h1, h2, h3, h4, h5⟩ := ih (w :: seen) (order ++ [w]) fringe hmeas hi' (fun x hx => hf x (List.mem_cons_of_mem _ hx)) hseen'
          refine ⟨s', o', ?_, h2, fun x hx => h3 x (List.mem_append_left _ hx), ?_, h5⟩
          · simp only [topoLoop, hwo, if_false]
            rw [hany, hemp]
            exact h1
          · intro x hx
            rcases List.mem_cons.mp hx with rfl | hx
            · exact h3 x (by simp)
            · exact h4 x hx
        · -- push the successors
          have hws : w ∉ seen := fun h => hemp (hseenEmpty h)
          have hi' : TopoInv E (w :: seen) order (((gsucc E w).filter (fun x => x ∉ order)).reverse ++ w :: fringe) := by
            refine ⟨hi.nodup, hi.closed, fun v hv => List.mem_cons_of_mem _ (hi.ordSeen v hv), ?_⟩
            intro x hx hxo
            by_cases hxw : x = w
            · subst hxw
              refine ⟨_, _, rfl, ?_, ?_⟩
              · intro y hy
                rw [List.mem_reverse, List.mem_filter] at hy
                exact .single (mem_gsucc.mp hy.1)
              · intro y hy
                by_cases hyo : y ∈ order
                · exact .inl hyo
                · exact .inr (by rw [List.mem_reverse, List.mem_filter]; exact ⟨mem_gsucc.mpr hy, by simpa using hyo⟩)
            · have hx' : x ∈ seen := (List.mem_cons.mp hx).resolve_left hxw
              obtain ⟨above, below, h1, h2, h3⟩ := hi.path x hx' hxo
              cases above with
              | nil =>
                simp only [List.nil_append, List.cons.injEq] at h1
                exact absurd h1.1.symm hxw
              | cons a above =>
                simp only [List.cons_append, List.cons.injEq] at h1
                obtain ⟨rfl, h1⟩ := h1
                refine ⟨((gsucc E w).filter (fun x => x ∉ order)).reverse ++ w :: above, below, by rw [h1]; simp, ?_, ?_⟩
                · intro y hy
                  rcases List.mem_append.mp hy with hy | hy
                  · rw [List.mem_reverse, List.mem_filter] at hy
                    exact .tail (h2 w List.mem_cons_self) (mem_gsucc.mp hy.1)
                  · exact h2 y hy
                · intro y hy
                  rcases h3 y hy with h | h
                  · exact .inl h
                  · exact .inr (List.mem_append_right _ h)
          have hmeas : topoMeasure V E (w :: seen) (((gsucc E w).filter (fun x => x ∉ order)).reverse ++ w :: fringe) ≤ n := by
            unfold topoMeasure at hm ⊢
            simp only [List.length_cons, List.length_append, List.length_reverse] at hm ⊢
            have e1 := filter_not_mem_cons_lt hwV hws
            have e2 := filter_src_cons (E := E) hws
            have e3 : ((gsucc E w).filter (fun x => x ∉ order)).length ≤ (gsucc E w).length := List.length_filter_le _ _
            omega
          obtain ⟨s', o', h1, h2, h3, h4, h5⟩ := ih (w :: seen) order _ hmeas hi' (by
            intro x hx
            rcases List.mem_append.mp hx with hx | hx
            · rw [List.mem_reverse, List.mem_filter] at hx
              exact (hE _ (mem_gsucc.mp hx.1)).2
            · exact hf x hx) hseen'
          refine ⟨s', o', ?_, h2, h3, fun x hx => h4 x (List.mem_append_right _ hx), h5⟩
          simp only [topoLoop, hwo, if_false]
          rw [hany]
          have : ((gsucc E w).filter (fun x => x ∉ order)).isEmpty = false := by
            rw [Bool.eq_false_iff]; intro h; exact hemp (List.isEmpty_iff.mp h)
          rw [this]
          exact h1

theorem topoAll_spec {V : List α} {E : List (α × α)} (hE : ∀ e ∈ E, e.1 ∈ V ∧ e.2 ∈ V) (hac : Acyclic E) {fuel : Nat}
    (hfuel : V.length + E.length + 1 ≤ fuel) : ∀ (vs seen order : List α), (∀ v ∈ vs, v ∈ V) → TopoInv E seen order [] →
    (∀ x ∈ seen, x ∈ V) →
    ∃ order', topoAll E fuel vs seen order = some order' ∧ (∃ seen', TopoInv E seen' order' [] ∧ ∀ x ∈ seen', x ∈ V) ∧ (∀ x ∈ order, x ∈ order') ∧
      (∀ x ∈ vs, x ∈ order') := by
  intro vs
  induction vs with
  | nil => intro seen order _ hi hs; exact ⟨order, rfl, ⟨seen, hi, hs⟩, fun _ h => h, by simp⟩
  | cons v vs ih =>
    intro seen order hvs hi hs
    have hi' : TopoInv E seen order [v] := by
      refine ⟨hi.nodup, hi.closed, hi.ordSeen, ?_⟩
      intro x hx hxo
      obtain ⟨above, below, h1, -⟩ := hi.path x hx hxo
      simp at h1
    obtain ⟨s', o', h1, h2, h3, h4, h5⟩ := topoLoop_spec hE hac fuel seen order [v] (by
      unfold topoMeasure
      have e1 : (V.filter (fun v => v ∉ seen)).length ≤ V.length := List.length_filter_le _ _
      have e2 : (E.filter (fun e => e.1 ∉ seen)).length ≤ E.length := List.length_filter_le _ _
      simp only [List.length_singleton]
      omega) hi' (by simpa using hvs v List.mem_cons_self) hs
    obtain ⟨o2, k1, k2, k3, k4⟩ := ih s' o' (fun x hx => hvs x (List.mem_cons_of_mem _ hx)) h2 h5
    refine ⟨o2, by simp only [topoAll, h1]; exact k1, k2, fun x hx => k3 x (h3 x hx), ?_⟩
    intro x hx
    rcases List.mem_cons.mp hx with rfl | hx
    · exact k3 x (h4 x (by simp))
    · exact k4 x hx

theorem topologicalSort_spec {V : List α} {E : List (α × α)} (hV : V.Nodup) (hE : ∀ e ∈ E, e.1 ∈ V ∧ e.2 ∈ V) (hac : Acyclic E) :
    ∃ order, topologicalSort V E = some order ∧ order.Perm V ∧ ∀ e ∈ E, ∃ p q r, order = p ++ e.1 :: q ++ e.2 :: r := by
  obtain ⟨o, h1, ⟨s', h2, h5⟩, -, h4⟩ := topoAll_spec hE hac (Nat.le_refl _) V [] [] (fun _ h => h)
    ⟨List.nodup_nil, by simp, by simp, by simp⟩ (by simp)
  refine ⟨o.reverse, by unfold topologicalSort; rw [h1]; rfl, ?_, ?_⟩
  · refine (List.reverse_perm o).trans ?_
    rw [List.perm_ext_iff_of_nodup h2.nodup hV]
    exact fun a => ⟨fun ha => h5 a (h2.ordSeen a ha), h4 a⟩
  · intro e he
    obtain ⟨pre, post, hp⟩ := List.append_of_mem (h4 e.1 (hE e he).1)
    have := h2.closed pre e.1 post hp e.2 he
    obtain ⟨p1, p2, rfl⟩ := List.append_of_mem this
    refine ⟨post.reverse, p2.reverse, p1.reverse, ?_⟩
    rw [hp]; simp

/-- The implementation of strongly connected components by mutual reachability meets the specification. -/
theorem sccList_spec : SccSpec (sccList (α := α)) := by
  have hmut : ∀ (E : List (α × α)) (v w : α), ((w = v ∨ w ∈ (dfsEdges E v).map Prod.snd) ∧ (v = w ∨ v ∈ (dfsEdges E w).map Prod.snd)) ↔
      Relation.ReflTransGen (Edge E) v w ∧ Relation.ReflTransGen (Edge E) w v := by
    intro E v w
    rw [mem_dfs_iff, mem_dfs_iff, Relation.reflTransGen_iff_eq_or_transGen, Relation.reflTransGen_iff_eq_or_transGen]
    by_cases h : w = v
    · subst h; simp
    · have h' : v ≠ w := Ne.symm h
      simp [h, h']
  refine ⟨?_, ?_, ?_⟩
  · intro V E hV hE C hC
    unfold sccList at hC
    rw [List.mem_dedup] at hC
    obtain ⟨v, hv, rfl⟩ := List.mem_map.mp hC
    refine ⟨hV.filter _, v, hv, ?_⟩
    intro w
    rw [List.mem_filter]
    simp only [decide_eq_true_eq]
    rw [hmut]
  · intro V E hV hE
    unfold sccList
    refine (List.nodup_dedup _).imp_of_mem ?_
    intro A B hA hB hne
    rw [List.mem_dedup] at hA hB
    obtain ⟨v, hv, rfl⟩ := List.mem_map.mp hA
    obtain ⟨w, hw, rfl⟩ := List.mem_map.mp hB
    intro x hx1 hx2
    apply hne
    simp only [List.mem_filter, decide_eq_true_eq] at hx1 hx2
    rw [hmut] at hx1 hx2
    apply List.filter_congr
    intro y _
    simp only [decide_eq_decide]
    rw [hmut, hmut]
    have hvw : Relation.ReflTransGen (Edge E) v w := hx1.2.1.trans hx2.2.2
    have hwv : Relation.ReflTransGen (Edge E) w v := hx2.2.1.trans hx1.2.2
    exact ⟨fun h => ⟨hwv.trans h.1, h.2.trans hvw⟩, fun h => ⟨hvw.trans h.1, h.2.trans hwv⟩⟩
  · intro V E hV hE v hv
    refine ⟨V.filter (fun w => (w = v ∨ w ∈ (dfsEdges E v).map Prod.snd) ∧ (v = w ∨ v ∈ (dfsEdges E w).map Prod.snd)), ?_, ?_⟩
    · unfold sccList
      rw [List.mem_dedup]
      exact List.mem_map.mpr ⟨v, hv, rfl⟩
    · rw [List.mem_filter]; simp [hv]

end
end OpenMDAO
