import Verif.Lemmas.AutoOrder
import Verif.Lemmas.Connections
/-! # C18: breaking cycles and the automatic order -/
namespace OpenMDAO
set_option linter.unusedSectionVars false

section
variable {α : Type} [DecidableEq α]

/-- `a` stands before `b` in the list. -/
def Before {β : Type} (l : List β) (a b : β) : Prop := ∃ p q r, l = p ++ a :: q ++ b :: r

/-- **C18 for a plain graph.** For every finite directed graph without self edges, every weighting, every tie break and every
correct implementation of strongly connected components: the edges that remain together with the reported ones are exactly
the edges of the graph, each once; each reported edge lies on a cycle of the graph; the remaining graph has no cycle; and
the topological sort of it succeeds, lists every node once and puts sources before targets. -/
theorem C18_break_cycles {lt : α → α → Bool} {wt : α × α → Nat} {sccs : List α → List (α × α) → List (List α)} (hspec : SccSpec sccs)
    {nodes : List α} {edges : List (α × α)} (hV : nodes.Nodup) (hnd : edges.Nodup) (hself : ∀ e ∈ edges, e.1 ≠ e.2)
    (hE : ∀ e ∈ edges, e.1 ∈ nodes ∧ e.2 ∈ nodes) :
    let r := breakCycles lt wt sccs nodes edges
    (r.1 ++ r.2).Perm edges ∧
    (∀ e ∈ r.2, e ∈ edges ∧ Relation.ReflTransGen (fun a b => (a, b) ∈ edges) e.2 e.1) ∧
    (∀ v, ¬ Relation.TransGen (fun a b => (a, b) ∈ r.1) v v) ∧
    ∃ order, topologicalSort nodes r.1 = some order ∧ order.Perm nodes ∧ ∀ e ∈ r.1, Before order e.1 e.2 := by
  obtain ⟨h1, h2⟩ := breakCycles_spec (lt := lt) (wt := wt) hspec hV hnd hself hE
  have hp : ((breakCycles lt wt sccs nodes edges).1 ++ (breakCycles lt wt sccs nodes edges).2).Perm edges := by
    simpa using h1.perm
  refine ⟨hp, ?_, h2, topologicalSort_spec hV (fun e he => hE e (h1.sub e he)) h2⟩
  intro e he
  rcases h1.broken e he with h | h
  · cases h
  · exact h

/-- Subsystem `n` belongs to the direct child named `c` of the group at `path`. -/
def InChild (path n : List α) (c : α) : Prop := ∃ rest, n = path ++ c :: rest

/-- Some subsystem in child `a` feeds one in the different child `b`. -/
def ChildEdge (path : List α) (edges : List ((List α × List α) × Nat)) (a b : α) : Prop :=
  a ≠ b ∧ ∃ e ∈ edges, InChild path e.1.1 a ∧ InChild path e.1.2 b

theorem below_iff (path n : List α) : (path <+: n ∧ path.length < n.length) ↔ ∃ c, InChild path n c := by
  constructor
  · rintro ⟨⟨t, rfl⟩, h⟩
    cases t with
    | nil => simp at h
    | cons c t => exact ⟨c, t, rfl⟩
  · rintro ⟨c, rest, rfl⟩
    exact ⟨⟨_, rfl⟩, by simp⟩

theorem take_child {path n : List α} {c : α} (h : InChild path n c) : n.take (path.length + 1) = path ++ [c] := by
  obtain ⟨rest, rfl⟩ := h
  rw [List.take_append]
  simp

theorem mem_foldl_uniq {β : Type} [BEq β] [LawfulBEq β] : ∀ (l acc : List β), acc.Nodup →
    (l.foldl (fun acc n => if n ∈ acc then acc else acc ++ [n]) acc).Nodup ∧
    ∀ x, x ∈ l.foldl (fun acc n => if n ∈ acc then acc else acc ++ [n]) acc ↔ x ∈ acc ∨ x ∈ l := by
  intro l
  induction l with
  | nil => intro acc h; exact ⟨h, by simp⟩
  | cons a l ih =>
    intro acc h
    rw [List.foldl_cons]
    by_cases ha : a ∈ acc
    · rw [if_pos ha]
      obtain ⟨i1, i2⟩ := ih acc h
      refine ⟨i1, ?_⟩
      intro x; rw [i2, List.mem_cons]
      constructor
      · rintro (h | h)
        · exact .inl h
        · exact .inr (.inr h)
      · rintro (h | rfl | h)
        · exact .inl h
        · exact .inl ha
        · exact .inr h
    · rw [if_neg ha]
      obtain ⟨i1, i2⟩ := ih (acc ++ [a]) (by
        rw [List.nodup_append]
        exact ⟨h, by simp, by intro x hx y hy; rw [List.mem_singleton] at hy; subst hy; exact fun hc => ha (hc ▸ hx)⟩)
      refine ⟨i1, ?_⟩
      intro x; rw [i2]; simp only [List.mem_append, List.mem_cons, List.not_mem_nil, or_false]; tauto

theorem keys_foldl_dictSet {β γ δ : Type} [DecidableEq β] [BEq β] [LawfulBEq β] (k : δ → β) (v : δ → γ) : ∀ (l : List δ) (d : List (β × γ)),
    (d.map Prod.fst).Nodup → ((l.foldl (fun acc e => dictSet acc (k e) (v e)) d).map Prod.fst).Nodup ∧
    ∀ q, q ∈ (l.foldl (fun acc e => dictSet acc (k e) (v e)) d).map Prod.fst ↔ q ∈ d.map Prod.fst ∨ ∃ e ∈ l, k e = q := by
  intro l
  induction l with
  | nil => intro d h; exact ⟨h, by simp⟩
  | cons a l ih =>
    intro d h
    rw [List.foldl_cons]
    obtain ⟨i1, i2⟩ := ih (dictSet d (k a) (v a)) (nodup_keys_dictSet _ _ _ h)
    refine ⟨i1, ?_⟩
    intro q
    rw [i2, mem_keys_dictSet]
    simp only [List.mem_cons, exists_eq_or_imp]
    constructor
    · rintro ((rfl | h) | h)
      · exact .inr (.inl rfl)
      · exact .inl h
      · exact .inr (.inr h)
    · rintro (h | rfl | h)
      · exact .inl (.inr h)
      · exact .inl (.inl rfl)
      · exact .inr h

/-- **C18 for `Group.list_auto_order`.** For every group and every graph of subsystems: the call returns an order and a list of
removed edges; the order lists every direct child that has a subsystem, once; every removed edge is listed once, connects
two different children one of which feeds the other, and lies on a cycle of children; every other pair of children one of
which feeds the other stands in that order. -/
theorem C18_auto_order {lt : List α → List α → Bool} {sccs : List (List α) → List (List α × List α) → List (List (List α))}
    (hspec : SccSpec sccs) (path : List α) (nodes : List (List α)) (edges : List ((List α × List α) × Nat))
    (hE : ∀ e ∈ edges, e.1.1 ∈ nodes ∧ e.1.2 ∈ nodes) :
    ∃ order broken, listAutoOrder lt sccs path nodes edges = some (order, broken) ∧
      order.Nodup ∧ (∀ x, x ∈ order ↔ ∃ c, x = [c] ∧ ∃ n ∈ nodes, InChild path n c) ∧
      broken.Nodup ∧
      (∀ e ∈ broken, ∃ a b, e = (path ++ [a], path ++ [b]) ∧ ChildEdge path edges a b ∧
        Relation.ReflTransGen (ChildEdge path edges) b a) ∧
      ∀ a b, ChildEdge path edges a b → (path ++ [a], path ++ [b]) ∈ broken ∨ Before order [a] [b] := by
  unfold listAutoOrder
  simp only
  have hnodes : (sysGraph path nodes edges).1.Nodup ∧ ∀ x, x ∈ (sysGraph path nodes edges).1 ↔ ∃ c, x = path ++ [c] ∧ ∃ n ∈ nodes, InChild path n c := by
    unfold sysGraph
    simp only
    obtain ⟨h1, h2⟩ := mem_foldl_uniq ((nodes.filter (fun n => decide (path <+: n ∧ path.length < n.length))).map
      (fun n => n.take (path.length + 1))) [] List.nodup_nil
    refine ⟨h1, ?_⟩
    intro x
    rw [h2]
    simp only [List.not_mem_nil, false_or, List.mem_map, List.mem_filter, decide_eq_true_eq, below_iff]
    constructor
    · rintro ⟨n, ⟨hn, c, hc⟩, rfl⟩; exact ⟨c, take_child hc, n, hn, hc⟩
    · rintro ⟨c, rfl, n, hn, hc⟩; exact ⟨n, ⟨hn, c, hc⟩, take_child hc⟩
  have hedges : ((sysGraph path nodes edges).2.map Prod.fst).Nodup ∧ ∀ x, x ∈ (sysGraph path nodes edges).2.map Prod.fst ↔
      ∃ a b, x = (path ++ [a], path ++ [b]) ∧ ChildEdge path edges a b := by
    unfold sysGraph
    simp only
    obtain ⟨h1, h2⟩ := keys_foldl_dictSet (fun e : (List α × List α) × Nat => (e.1.1.take (path.length + 1), e.1.2.take (path.length + 1)))
      Prod.snd (edges.filter (fun e => decide ((path <+: e.1.1 ∧ path.length < e.1.1.length) ∧ (path <+: e.1.2 ∧ path.length < e.1.2.length))))
      [] List.nodup_nil
    refine ⟨h1.sublist (List.filter_sublist.map _), ?_⟩
    intro x
    have h3 : ∀ (l : List ((List α × List α) × Nat)), x ∈ (l.filter (fun e => decide (e.1.1 ≠ e.1.2))).map Prod.fst ↔
        x ∈ l.map Prod.fst ∧ x.1 ≠ x.2 := by
      intro l
      simp only [List.mem_map, List.mem_filter, decide_eq_true_eq]
      constructor
      · rintro ⟨e, ⟨h, h'⟩, rfl⟩; exact ⟨⟨e, h, rfl⟩, h'⟩
      · rintro ⟨⟨e, h, rfl⟩, h'⟩; exact ⟨e, ⟨h, h'⟩, rfl⟩
    rw [h3, h2]
    simp only [List.map_nil, List.not_mem_nil, false_or, List.mem_filter, decide_eq_true_eq, below_iff]
    constructor
    · rintro ⟨⟨e, ⟨he, ⟨a, ha⟩, ⟨b, hb⟩⟩, rfl⟩, hne⟩
      refine ⟨a, b, by rw [take_child ha, take_child hb], ?_, e, he, ha, hb⟩
      rintro rfl
      simp only [take_child ha, take_child hb, ne_eq, not_true] at hne
    · rintro ⟨a, b, rfl, hne, e, he, ha, hb⟩
      refine ⟨⟨e, ⟨he, ⟨a, ha⟩, ⟨b, hb⟩⟩, by rw [take_child ha, take_child hb]⟩, ?_⟩
      simpa using hne
  obtain ⟨hn1, hn2⟩ := hnodes
  obtain ⟨he1, he2⟩ := hedges
  generalize sysGraph path nodes edges = g at hn1 hn2 he1 he2
  obtain ⟨c1, c2, c3, order, c4, c5, c6⟩ := C18_break_cycles (lt := lt) (wt := fun e => (g.2.lookup e).getD 1) hspec hn1 he1 (by
      intro e he
      obtain ⟨a, b, rfl, hne, -⟩ := (he2 e).mp he
      simpa using hne) (by
      intro e he
      obtain ⟨a, b, rfl, hne, x, hx, ha, hb⟩ := (he2 e).mp he
      exact ⟨(hn2 _).mpr ⟨a, rfl, _, (hE x hx).1, ha⟩, (hn2 _).mpr ⟨b, rfl, _, (hE x hx).2, hb⟩⟩)
  generalize breakCycles lt (fun e => (g.2.lookup e).getD 1) sccs g.1 (g.2.map Prod.fst) = r at c1 c2 c3 c4 c6
  have hdrop : ∀ c, (path ++ [c]).drop path.length = [c] := by intro c; simp
  have hmemo : ∀ x ∈ order, ∃ c, x = path ++ [c] ∧ ∃ n ∈ nodes, InChild path n c := fun x hx => (hn2 x).mp (c5.mem_iff.mp hx)
  refine ⟨order.map (List.drop path.length), r.2, by rw [c4]; rfl, ?_, ?_, ?_, ?_, ?_⟩
  · refine List.Nodup.map_on ?_ (c5.nodup_iff.mpr hn1)
    intro x hx y hy hxy
    obtain ⟨c, rfl, -⟩ := hmemo x hx
    obtain ⟨d, rfl, -⟩ := hmemo y hy
    rw [hdrop, hdrop] at hxy
    rw [hxy]
  · intro x
    rw [List.mem_map]
    constructor
    · rintro ⟨y, hy, rfl⟩
      obtain ⟨c, rfl, h⟩ := hmemo y hy
      exact ⟨c, hdrop c, h⟩
    · rintro ⟨c, rfl, h⟩
      exact ⟨path ++ [c], c5.mem_iff.mpr ((hn2 _).mpr ⟨c, rfl, h⟩), hdrop c⟩
  · exact (List.nodup_append.mp (c1.nodup_iff.mpr he1)).2.1
  · intro e he
    obtain ⟨h1, h2⟩ := c2 e he
    obtain ⟨a, b, rfl, hab⟩ := (he2 e).mp h1
    refine ⟨a, b, rfl, hab, ?_⟩
    have key : ∀ x y, Relation.ReflTransGen (fun a b => (a, b) ∈ g.2.map Prod.fst) x y → ∀ p q, x = path ++ [p] → y = path ++ [q] →
        Relation.ReflTransGen (ChildEdge path edges) p q := by
      intro x y hxy
      induction hxy with
      | refl =>
        rintro p q h1 h2
        rw [h1] at h2
        have := List.append_cancel_left h2
        simp only [List.cons.injEq, and_true] at this
        rw [this]
      | tail _ h3 ih =>
        intro p q h1 h2
        obtain ⟨a', b', h4, h5⟩ := (he2 _).mp h3
        simp only [Prod.mk.injEq] at h4
        have h6 := ih p a' h1 h4.1
        rw [h2] at h4
        have := List.append_cancel_left h4.2
        simp only [List.cons.injEq, and_true] at this
        rw [this]
        exact .tail h6 h5
    exact key _ _ h2 b a rfl rfl
  · intro a b hab
    have hmem := c1.mem_iff.mpr ((he2 (path ++ [a], path ++ [b])).mpr ⟨a, b, rfl, hab⟩)
    rcases List.mem_append.mp hmem with h | h
    · right
      obtain ⟨p, q, r', hpq⟩ := c6 _ h
      refine ⟨p.map (List.drop path.length), q.map (List.drop path.length), r'.map (List.drop path.length), ?_⟩
      rw [hpq]
      simp
    · exact .inl h

end

/-! ## Non-vacuity: the specification of strongly connected components is met, and an example with two cycles -/

example : SccSpec (sccList (α := Nat)) := sccList_spec

/-- 1 → 2 → 3 → 1, 3 → 4 ⇄ 5. -/
example : breakCycles (fun a b => decide (a < b)) (fun _ => 1) sccList [1, 2, 3, 4, 5]
    [(1, 2), (2, 3), (3, 1), (3, 4), (4, 5), (5, 4)] = ([(1, 2), (2, 3), (3, 4), (4, 5)], [(3, 1), (5, 4)]) := by decide +kernel

example : (listAutoOrder (fun a b => decide (a.length < b.length)) sccList ["g"] [["g"], ["g", "a"], ["g", "b"], ["g", "b", "x"], ["z"]]
    [((["g", "a"], ["g", "b", "x"]), 1), ((["g", "b", "x"], ["g", "a"]), 2), ((["z"], ["g", "a"]), 1)]) =
    some ([["b"], ["a"]], [(["g", "a"], ["g", "b"])]) := by decide +kernel

end OpenMDAO
