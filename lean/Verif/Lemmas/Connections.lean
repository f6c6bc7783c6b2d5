import Verif.Model.Connections
import Verif.Lemmas.Graph
import Verif.Props.Promotes
/-! # Lemmas for connection resolution -/
namespace OpenMDAO
set_option linter.unusedSectionVars false

theorem lookup_mem {α β : Type} [BEq α] [LawfulBEq α] {l : List (α × β)} {k : α} {v : β} (h : l.lookup k = some v) : (k, v) ∈ l := by
  induction l with
  | nil => simp at h
  | cons e l ih =>
    obtain ⟨a, b⟩ := e
    rw [List.lookup_cons] at h
    cases hk : k == a with
    | true =>
      rw [hk] at h
      simp only [Option.some.injEq] at h
      rw [LawfulBEq.eq_of_beq hk, h]
      simp
    | false =>
      rw [hk] at h
      exact List.mem_cons_of_mem _ (ih h)

section
variable {α β : Type} [DecidableEq α] [BEq α] [LawfulBEq α]

theorem mem_keys_dictSet (d : List (α × β)) (k q : α) (v : β) :
    q ∈ (dictSet d k v).map Prod.fst ↔ q = k ∨ q ∈ d.map Prod.fst := by
  induction d with
  | nil => simp [dictSet]
  | cons e d ih =>
    obtain ⟨a, b⟩ := e
    simp only [dictSet]
    by_cases h : a = k
    · subst h; simp
    · rw [if_neg h, List.map_cons, List.mem_cons, ih, List.map_cons, List.mem_cons]; tauto

theorem lookup_dictSet (d : List (α × β)) (k q : α) (v : β) :
    (dictSet d k v).lookup q = if q = k then some v else d.lookup q := by
  induction d with
  | nil =>
    by_cases h : q = k
    · subst h; simp [dictSet]
    · have : (q == k) = false := by simpa using h
      simp [dictSet, List.lookup_cons, this, h]
  | cons e d ih =>
    obtain ⟨a, b⟩ := e
    simp only [dictSet]
    by_cases hak : a = k
    · subst hak
      rw [if_pos rfl, List.lookup_cons, List.lookup_cons]
      by_cases h : q = a
      · subst h; simp
      · have : (q == a) = false := by simpa using h
        simp [this, h]
    · rw [if_neg hak, List.lookup_cons, List.lookup_cons]
      by_cases h : q = a
      · subst h; simp [hak]
      · have : (q == a) = false := by simpa using h
        rw [this]; exact ih

theorem nodup_keys_dictSet (d : List (α × β)) (k : α) (v : β) (h : (d.map Prod.fst).Nodup) :
    ((dictSet d k v).map Prod.fst).Nodup := by
  induction d with
  | nil => simp [dictSet]
  | cons e d ih =>
    obtain ⟨a, b⟩ := e
    simp only [List.map_cons, List.nodup_cons] at h
    simp only [dictSet]
    by_cases hak : a = k
    · subst hak; simpa using h
    · rw [if_neg hak, List.map_cons, List.nodup_cons]
      refine ⟨?_, ih h.2⟩
      rw [mem_keys_dictSet]
      rintro (h' | h')
      · exact hak h'
      · exact h.1 h'

theorem lookup_isSome_iff_mem_keys (d : List (α × β)) (k : α) : (d.lookup k).isSome = true ↔ k ∈ d.map Prod.fst := by
  rw [lookup_isSome_iff]; simp

/-- `(t, srcs)` with `s ∈ srcs` occurs in a dict of lists. -/
def DPair (d : List (α × List β)) (t : α) (s : β) : Prop := ∃ srcs, (t, srcs) ∈ d ∧ s ∈ srcs

theorem dpair_append (d : List (α × List β)) (k t : α) (v s : β) :
    DPair (dictAppend d k v) t s ↔ DPair d t s ∨ (t = k ∧ s = v) := by
  unfold DPair
  induction d with
  | nil => simp [dictAppend]
  | cons e d ih =>
    obtain ⟨a, b⟩ := e
    simp only [dictAppend]
    by_cases h : a = k
    · subst h
      rw [if_pos rfl]
      simp only [List.mem_cons, Prod.mk.injEq]
      constructor
      · rintro ⟨srcs, (⟨rfl, rfl⟩ | h1), h2⟩
        · rcases List.mem_append.mp h2 with h2 | h2
          · exact .inl ⟨b, .inl ⟨rfl, rfl⟩, h2⟩
          · exact .inr ⟨rfl, by simpa using h2⟩
        · exact .inl ⟨srcs, .inr h1, h2⟩
      · rintro (⟨srcs, (⟨rfl, rfl⟩ | h1), h2⟩ | ⟨rfl, rfl⟩)
        · exact ⟨_, .inl ⟨rfl, rfl⟩, List.mem_append_left _ h2⟩
        · exact ⟨srcs, .inr h1, h2⟩
        · exact ⟨_, .inl ⟨rfl, rfl⟩, by simp⟩
    · rw [if_neg h]
      simp only [List.mem_cons, Prod.mk.injEq]
      constructor
      · rintro ⟨srcs, (⟨rfl, rfl⟩ | h1), h2⟩
        · exact .inl ⟨_, .inl ⟨rfl, rfl⟩, h2⟩
        · rcases ih.mp ⟨srcs, h1, h2⟩ with ⟨l, h3, h4⟩ | h3
          · exact .inl ⟨l, .inr h3, h4⟩
          · exact .inr h3
      · rintro (⟨srcs, (⟨rfl, rfl⟩ | h1), h2⟩ | h3)
        · exact ⟨_, .inl ⟨rfl, rfl⟩, h2⟩
        · obtain ⟨l, h3, h4⟩ := ih.mpr (.inl ⟨srcs, h1, h2⟩)
          exact ⟨l, .inr h3, h4⟩
        · obtain ⟨l, h3, h4⟩ := ih.mpr (.inr h3)
          exact ⟨l, .inr h3, h4⟩
end

/-! ## The graph -/

theorem addImplicit_spec (toAbsU : List (String × String)) : ∀ (toAbsP : List (String × List String)) (c : ConnDict) (nc : List String),
    let r := toAbsP.foldl (fun (acc : ConnDict × List String) pp =>
      match toAbsU.lookup pp.1 with
      | some u => (pp.2.foldl (fun c p => dictAppend c p (u, none)) acc.1, acc.2)
      | none => (acc.1, acc.2 ++ [pp.1])) (c, nc)
    (∀ t s, DPair r.1 t s ↔ DPair c t s ∨ ∃ pp ∈ toAbsP, t ∈ pp.2 ∧ s.2 = none ∧ toAbsU.lookup pp.1 = some s.1) ∧
    (∀ n, n ∈ r.2 ↔ n ∈ nc ∨ ∃ pp ∈ toAbsP, pp.1 = n ∧ toAbsU.lookup n = none) := by
  intro toAbsP
  induction toAbsP with
  | nil => intro c nc; simp
  | cons pp toAbsP ih =>
    intro c nc
    simp only [List.foldl_cons]
    cases hl : toAbsU.lookup pp.1 with
    | none =>
      obtain ⟨i1, i2⟩ := ih c (nc ++ [pp.1])
      refine ⟨?_, ?_⟩
      · intro t s
        rw [i1]
        constructor
        · rintro (h | ⟨qq, h1, h2⟩)
          · exact .inl h
          · exact .inr ⟨qq, List.mem_cons_of_mem _ h1, h2⟩
        · rintro (h | ⟨qq, h1, h2, h3, h4⟩)
          · exact .inl h
          · rcases List.mem_cons.mp h1 with rfl | h1
            · rw [hl] at h4; cases h4
            · exact .inr ⟨qq, h1, h2, h3, h4⟩
      · intro n
        rw [i2]
        constructor
        · rintro (h | ⟨qq, h1, h2⟩)
          · rcases List.mem_append.mp h with h | h
            · exact .inl h
            · rw [List.mem_singleton] at h; subst h; exact .inr ⟨pp, List.mem_cons_self, rfl, hl⟩
          · exact .inr ⟨qq, List.mem_cons_of_mem _ h1, h2⟩
        · rintro (h | ⟨qq, h1, h2, h3⟩)
          · exact .inl (List.mem_append_left _ h)
          · rcases List.mem_cons.mp h1 with rfl | h1
            · exact .inl (by simp [h2])
            · exact .inr ⟨qq, h1, h2, h3⟩
    | some u =>
      have hin : ∀ (l : List String) (c : ConnDict) t s, DPair (l.foldl (fun c p => dictAppend c p (u, none)) c) t s ↔
          DPair c t s ∨ (t ∈ l ∧ s = (u, none)) := by
        intro l
        induction l with
        | nil => intro c t s; simp
        | cons p l ihl =>
          intro c t s
          rw [List.foldl_cons, ihl, dpair_append]
          simp only [List.mem_cons]
          tauto
      obtain ⟨i1, i2⟩ := ih (pp.2.foldl (fun c p => dictAppend c p (u, none)) c) nc
      refine ⟨?_, ?_⟩
      · intro t s
        rw [i1, hin]
        constructor
        · rintro ((h | ⟨h1, rfl⟩) | ⟨qq, h1, h2⟩)
          · exact .inl h
          · exact .inr ⟨pp, List.mem_cons_self, h1, rfl, hl⟩
          · exact .inr ⟨qq, List.mem_cons_of_mem _ h1, h2⟩
        · rintro (h | ⟨qq, h1, h2, h3, h4⟩)
          · exact .inl (.inl h)
          · rcases List.mem_cons.mp h1 with rfl | h1
            · rw [hl] at h4
              left; right
              obtain ⟨s1, s2⟩ := s
              simp only at h3 h4
              exact ⟨h2, by rw [h3]; simp only [Option.some.injEq] at h4; rw [h4]⟩
            · exact .inr ⟨qq, h1, h2, h3, h4⟩
      · intro n
        rw [i2]
        constructor
        · rintro (h | ⟨qq, h1, h2⟩)
          · exact .inl h
          · exact .inr ⟨qq, List.mem_cons_of_mem _ h1, h2⟩
        · rintro (h | ⟨qq, h1, h2, h3⟩)
          · exact .inl h
          · rcases List.mem_cons.mp h1 with rfl | h1
            · subst h2; rw [hl] at h3; cases h3
            · exact .inr ⟨qq, h1, h2, h3⟩

theorem mem_addNode (g : InGraph) (n m : String) : m ∈ (g.addNode n).nodes ↔ m = n ∨ m ∈ g.nodes := by
  unfold InGraph.addNode
  split_ifs with h
  · constructor
    · exact .inr
    · rintro (rfl | h'); exacts [h, h']
  · simp [or_comm]

theorem arcs_addNode (g : InGraph) (n : String) : (g.addNode n).edges = g.edges := by
  unfold InGraph.addNode; split_ifs <;> rfl

theorem mem_nodes_addEdge (g : InGraph) (s t m : String) (i : SrcIdx) :
    m ∈ (g.addEdge s t i).nodes ↔ m = s ∨ m = t ∨ m ∈ g.nodes := by
  simp only [InGraph.addEdge, mem_addNode]; tauto

theorem mem_arcs_addEdge (g : InGraph) (s t : String) (i : SrcIdx) (e : String × String) :
    e ∈ (g.addEdge s t i).arcs ↔ e = (s, t) ∨ e ∈ g.arcs := by
  simp only [InGraph.addEdge, InGraph.arcs, mem_keys_dictSet, arcs_addNode]

/-- What the construction guarantees about the graph. -/
structure GraphOK (g : InGraph) (R : String → String → Prop) (N : String → Prop) : Prop where
  arcs : ∀ s t, (s, t) ∈ g.arcs ↔ R s t
  nodes : ∀ n, n ∈ g.nodes ↔ N n ∨ (∃ m, R n m) ∨ (∃ m, R m n)

theorem graphConns_spec : ∀ (conns : ConnDict) (g : InGraph) (R : String → String → Prop) (N : String → Prop), GraphOK g R N →
    GraphOK (conns.foldl (fun g c => c.2.foldl (fun g s => g.addEdge s.1 c.1 s.2) g) g)
      (fun s t => R s t ∨ ∃ i, DPair conns t (s, i)) N := by
  intro conns
  induction conns with
  | nil =>
    intro g R N h
    refine ⟨?_, ?_⟩
    · intro s t; rw [List.foldl_nil, h.arcs]; simp [DPair]
    · intro n; rw [List.foldl_nil, h.nodes]; simp [DPair]
  | cons c conns ih =>
    intro g R N h
    have hin : ∀ (l : List (String × SrcIdx)) (g : InGraph) (R : String → String → Prop), GraphOK g R N →
        GraphOK (l.foldl (fun g s => g.addEdge s.1 c.1 s.2) g) (fun s t => R s t ∨ (t = c.1 ∧ ∃ i, (s, i) ∈ l)) N := by
      intro l
      induction l with
      | nil => intro g R h; simpa using h
      | cons x l ihl =>
        intro g R h
        have h1 : GraphOK (g.addEdge x.1 c.1 x.2) (fun s t => R s t ∨ (s = x.1 ∧ t = c.1)) N := by
          refine ⟨?_, ?_⟩
          · intro s t
            rw [mem_arcs_addEdge, h.arcs]; simp only [Prod.mk.injEq]; tauto
          · intro n
            rw [mem_nodes_addEdge, h.nodes]
            constructor
            · rintro (rfl | rfl | h' | ⟨m, h'⟩ | ⟨m, h'⟩)
              · exact .inr (.inl ⟨c.1, .inr ⟨rfl, rfl⟩⟩)
              · exact .inr (.inr ⟨x.1, .inr ⟨rfl, rfl⟩⟩)
              · exact .inl h'
              · exact .inr (.inl ⟨m, .inl h'⟩)
              · exact .inr (.inr ⟨m, .inl h'⟩)
            · rintro (h' | ⟨m, h' | ⟨h1, h2⟩⟩ | ⟨m, h' | ⟨h1, h2⟩⟩)
              · exact .inr (.inr (.inl h'))
              · exact .inr (.inr (.inr (.inl ⟨m, h'⟩)))
              · exact .inl h1
              · exact .inr (.inr (.inr (.inr ⟨m, h'⟩)))
              · exact .inr (.inl h2)
        have h2 := ihl _ _ h1
        have e : (fun s t => (R s t ∨ s = x.1 ∧ t = c.1) ∨ t = c.1 ∧ ∃ i, (s, i) ∈ l) =
            (fun s t => R s t ∨ t = c.1 ∧ ∃ i, (s, i) ∈ x :: l) := by
          funext s t
          apply propext
          constructor
          · rintro ((h | ⟨k1, k2⟩) | ⟨k1, i, k2⟩)
            · exact .inl h
            · exact .inr ⟨k2, x.2, by rw [k1]; exact List.mem_cons_self⟩
            · exact .inr ⟨k1, i, List.mem_cons_of_mem _ k2⟩
          · rintro (h | ⟨k1, i, k2⟩)
            · exact .inl (.inl h)
            · rcases List.mem_cons.mp k2 with k2 | k2
              · exact .inl (.inr ⟨congrArg Prod.fst k2, k1⟩)
              · exact .inr ⟨k1, i, k2⟩
        rw [e] at h2
        exact h2
    have h2 := ih _ _ _ (hin c.2 g R h)
    have e : (fun s t => (R s t ∨ t = c.1 ∧ ∃ i, (s, i) ∈ c.2) ∨ ∃ i, DPair conns t (s, i)) =
        (fun s t => R s t ∨ ∃ i, DPair (c :: conns) t (s, i)) := by
      funext s t
      apply propext
      constructor
      · rintro ((h | ⟨h1, i, h2⟩) | ⟨i, l, h1, h2⟩)
        · exact .inl h
        · exact .inr ⟨i, c.2, by rw [h1]; exact List.mem_cons_self, h2⟩
        · exact .inr ⟨i, l, List.mem_cons_of_mem _ h1, h2⟩
      · rintro (h | ⟨i, l, k1, k2⟩)
        · exact .inl (.inl h)
        · rcases List.mem_cons.mp k1 with k1 | k1
          · left; right
            exact ⟨congrArg Prod.fst k1, i, by rw [← k1]; exact k2⟩
          · exact .inr ⟨i, l, k1, k2⟩
    rw [e] at h2
    exact h2

/-- Parameters promoted to the same name, none of which is connected by that name. -/
def SameProm (noconns : List String) (toAbsP : List (String × List String)) (s t : String) : Prop :=
  ∃ pp ∈ toAbsP, pp.1 ∈ noconns ∧ pp.2.head? = some s ∧ t ∈ pp.2.tail

theorem graphProm_spec (noconns : List String) : ∀ (toAbsP : List (String × List String)) (g : InGraph)
    (R : String → String → Prop) (N : String → Prop), GraphOK g R N →
    GraphOK (toAbsP.foldl (graphProm noconns) g) (fun s t => R s t ∨ SameProm noconns toAbsP s t)
      (fun n => N n ∨ ∃ pp ∈ toAbsP, n ∈ pp.2) := by
  intro toAbsP
  induction toAbsP with
  | nil => intro g R N h; simpa [SameProm] using h
  | cons pp toAbsP ih =>
    intro g R N h
    have hnodes : ∀ (l : List String) (g : InGraph) (N : String → Prop), GraphOK g R N →
        GraphOK (l.foldl InGraph.addNode g) R (fun n => N n ∨ n ∈ l) := by
      intro l
      induction l with
      | nil => intro g N h; simpa using h
      | cons x l ihl =>
        intro g N h
        have := ihl (g.addNode x) (fun n => N n ∨ n = x) (by
          refine ⟨?_, ?_⟩
          · intro s t; rw [InGraph.arcs, arcs_addNode]; exact h.arcs s t
          · intro n; rw [mem_addNode, h.nodes]; tauto)
        have e : (fun n => (N n ∨ n = x) ∨ n ∈ l) = (fun n => N n ∨ n ∈ x :: l) := by
          funext n; apply propext; simp only [List.mem_cons]; tauto
        rw [e] at this; exact this
    have hedges : ∀ (st : String) (N : String → Prop) (l : List String) (g : InGraph) (R : String → String → Prop), GraphOK g R N →
        GraphOK (l.foldl (fun g p => g.addEdge st p none) g) (fun s t => R s t ∨ (s = st ∧ t ∈ l)) N := by
      intro st N l
      induction l with
      | nil => intro g R h; simpa using h
      | cons x l ihl =>
        intro g R h
        have h1 : GraphOK (g.addEdge st x none) (fun s t => R s t ∨ (s = st ∧ t = x)) N := by
          refine ⟨?_, ?_⟩
          · intro s t
            rw [mem_arcs_addEdge, h.arcs]; simp only [Prod.mk.injEq]; tauto
          · intro n
            rw [mem_nodes_addEdge, h.nodes]
            constructor
            · rintro (rfl | rfl | h' | ⟨m, h'⟩ | ⟨m, h'⟩)
              · exact .inr (.inl ⟨x, .inr ⟨rfl, rfl⟩⟩)
              · exact .inr (.inr ⟨st, .inr ⟨rfl, rfl⟩⟩)
              · exact .inl h'
              · exact .inr (.inl ⟨m, .inl h'⟩)
              · exact .inr (.inr ⟨m, .inl h'⟩)
            · rintro (h' | ⟨m, h' | ⟨h1, h2⟩⟩ | ⟨m, h' | ⟨h1, h2⟩⟩)
              · exact .inr (.inr (.inl h'))
              · exact .inr (.inr (.inr (.inl ⟨m, h'⟩)))
              · exact .inl h1
              · exact .inr (.inr (.inr (.inr ⟨m, h'⟩)))
              · exact .inr (.inl h2)
        have h2 := ihl _ _ h1
        have e : (fun s t => (R s t ∨ s = st ∧ t = x) ∨ s = st ∧ t ∈ l) = (fun s t => R s t ∨ s = st ∧ t ∈ x :: l) := by
          funext s t; apply propext; simp only [List.mem_cons]; tauto
        rw [e] at h2; exact h2
    have h1 := hnodes pp.2 g N h
    have h3 : GraphOK (graphProm noconns g pp) (fun s t => R s t ∨ (pp.1 ∈ noconns ∧ pp.2.head? = some s ∧ t ∈ pp.2.tail))
        (fun n => N n ∨ n ∈ pp.2) := by
      unfold graphProm
      simp only
      split_ifs with hm
      · cases hpp : pp.2 with
        | nil => rw [hpp] at h1; simpa using h1
        | cons start rest =>
          rw [hpp] at h1
          simp only
          have := hedges start _ rest _ _ h1
          have e : (fun s t => R s t ∨ s = start ∧ t ∈ rest) =
              (fun s t => R s t ∨ (pp.1 ∈ noconns ∧ (start :: rest).head? = some s ∧ t ∈ (start :: rest).tail)) := by
            funext s t; apply propext; simp only [hm, true_and, List.head?_cons, Option.some.injEq, List.tail_cons, eq_comm]
          rw [e] at this; exact this
      · simpa [hm] using h1
    have h4 := ih _ _ _ h3
    rw [List.foldl_cons]
    have e1 : (fun s t => (R s t ∨ (pp.1 ∈ noconns ∧ pp.2.head? = some s ∧ t ∈ pp.2.tail)) ∨ SameProm noconns toAbsP s t) =
        (fun s t => R s t ∨ SameProm noconns (pp :: toAbsP) s t) := by
      funext s t; apply propext
      unfold SameProm
      simp only [List.mem_cons, exists_eq_or_imp]
      tauto
    have e2 : (fun n => (N n ∨ n ∈ pp.2) ∨ ∃ qq ∈ toAbsP, n ∈ qq.2) = (fun n => N n ∨ ∃ qq ∈ pp :: toAbsP, n ∈ qq.2) := by
      funext n; apply propext
      simp only [List.mem_cons, exists_eq_or_imp]
      tauto
    rw [e1, e2] at h4
    exact h4

/-- Specification: `s` is directly connected to the parameter `t`: by an explicit connection, because the promoted name of
`t` is that of the unknown `s`, or because `s` is the first of the parameters promoted to a name that belongs to no
unknown and `t` is another one. -/
def Joined (toAbsU : List (String × String)) (toAbsP : List (String × List String)) (explicit : ConnDict) (s t : String) : Prop :=
  (∃ idx, DPair explicit t (s, idx)) ∨
  (∃ pp ∈ toAbsP, t ∈ pp.2 ∧ toAbsU.lookup pp.1 = some s) ∨
  (∃ pp ∈ toAbsP, toAbsU.lookup pp.1 = none ∧ pp.2.head? = some s ∧ t ∈ pp.2.tail)

theorem inputGraph_spec (toAbsU : List (String × String)) (toAbsP : List (String × List String)) (explicit : ConnDict) :
    GraphOK (inputGraph (addImplicit toAbsU toAbsP explicit).1 (addImplicit toAbsU toAbsP explicit).2 toAbsP)
      (Joined toAbsU toAbsP explicit) (fun n => ∃ pp ∈ toAbsP, n ∈ pp.2) := by
  obtain ⟨h1, h2⟩ := addImplicit_spec toAbsU toAbsP explicit []
  have h3 := graphConns_spec (addImplicit toAbsU toAbsP explicit).1 {} (fun _ _ => False) (fun _ => False)
    ⟨by simp [InGraph.arcs], by simp⟩
  have h4 := graphProm_spec (addImplicit toAbsU toAbsP explicit).2 toAbsP _ _ _ h3
  have e1 : (fun s t => (False ∨ ∃ i, DPair (addImplicit toAbsU toAbsP explicit).1 t (s, i)) ∨
      SameProm (addImplicit toAbsU toAbsP explicit).2 toAbsP s t) = Joined toAbsU toAbsP explicit := by
    funext s t; apply propext
    unfold Joined
    have k1 : ∀ i, DPair (addImplicit toAbsU toAbsP explicit).1 t (s, i) ↔ _ := fun i => h1 t (s, i)
    have k2 : ∀ n, n ∈ (addImplicit toAbsU toAbsP explicit).2 ↔ _ := h2
    simp only [k1, false_or]
    constructor
    · rintro (⟨i, h | ⟨pp, h5, h6, h7, h8⟩⟩ | ⟨pp, h5, h6, h7, h8⟩)
      · exact .inl ⟨i, h⟩
      · exact .inr (.inl ⟨pp, h5, h6, h8⟩)
      · rcases (k2 _).mp h6 with h9 | ⟨qq, -, -, h10⟩
        · simp at h9
        · exact .inr (.inr ⟨pp, h5, h10, h7, h8⟩)
    · rintro (⟨i, h⟩ | ⟨pp, h5, h6, h7⟩ | ⟨pp, h5, h6, h7, h8⟩)
      · exact .inl ⟨i, .inl h⟩
      · exact .inl ⟨none, .inr ⟨pp, h5, h6, rfl, h7⟩⟩
      · exact .inr ⟨pp, h5, (k2 _).mpr (.inr ⟨pp, h5, rfl, h6⟩), h7, h8⟩
  have e2 : (fun n => False ∨ ∃ pp ∈ toAbsP, n ∈ pp.2) = (fun n => ∃ pp ∈ toAbsP, n ∈ pp.2) := by
    funext n; simp
  rw [e1, e2] at h4
  exact h4

/-! ## The walks -/

theorem walkFold_spec (g : InGraph) (src : String) : ∀ (es : List (String × String)) (st st' : List (String × SrcIdx) × NewConns),
    es.foldlM (walkStep g src) st = .ok st' → (es.map Prod.snd).Nodup →
    (∀ t, t ∉ es.map Prod.snd → st'.2.lookup t = st.2.lookup t) ∧
    (∀ t ∈ es.map Prod.snd, (st.2.lookup t = none ∧ ∃ i, st'.2.lookup t = some (some [(src, i)])) ∨
      ∃ l i, st.2.lookup t = some (some l) ∧ st'.2.lookup t = some (some (l ++ [(src, i)]))) := by
  intro es
  induction es with
  | nil =>
    intro st st' h _
    simp [pure, Except.pure] at h
    subst h; simp
  | cons e es ih =>
    intro st st' h hnd
    rw [List.foldlM_cons] at h
    simp only [List.map_cons, List.nodup_cons] at hnd
    cases hw : walkStep g src st e with
    | error err => rw [hw] at h; cases h
    | ok st1 =>
      rw [hw] at h
      simp only [bind, Except.bind] at h
      obtain ⟨i1, i2⟩ := ih st1 st' h hnd.2
      unfold walkStep at hw
      split at hw
      · rename_i tidxs sidxs _ _
        cases hc : composeIdx tidxs sidxs with
        | error err => rw [hc] at hw; cases hw
        | ok idxs =>
          rw [hc] at hw
          simp only at hw
          cases ha : appendConn st.2 e.2 (src, idxs) with
          | error err => rw [ha] at hw; cases hw
          | ok nc =>
            rw [ha] at hw
            simp only [Except.ok.injEq] at hw
            subst hw
            simp only at i1 i2
            have hnc : ∀ t, t ≠ e.2 → nc.lookup t = st.2.lookup t := by
              intro t ht
              unfold appendConn at ha
              split at ha
              · simp only [Except.ok.injEq] at ha; rw [← ha, lookup_dictSet, if_neg ht]
              · cases ha
              · simp only [Except.ok.injEq] at ha; rw [← ha, lookup_dictSet, if_neg ht]
            refine ⟨?_, ?_⟩
            · intro t ht
              simp only [List.map_cons, List.mem_cons, not_or] at ht
              rw [i1 t ht.2, hnc t ht.1]
            · intro t ht
              simp only [List.map_cons, List.mem_cons] at ht
              by_cases hte : t = e.2
              · subst hte
                rw [i1 _ hnd.1]
                unfold appendConn at ha
                split at ha
                · rename_i l hl
                  simp only [Except.ok.injEq] at ha
                  right; exact ⟨l, idxs, hl, by rw [← ha, lookup_dictSet, if_pos rfl]⟩
                · cases ha
                · rename_i hl
                  simp only [Except.ok.injEq] at ha
                  left; exact ⟨hl, idxs, by rw [← ha, lookup_dictSet, if_pos rfl]⟩
              · have := i2 t (ht.resolve_left hte)
                rw [hnc t hte] at this
                exact this
      · cases hw

/-- The sources found for `t` are exactly those of the list that reach it. -/
def NCInv (g : InGraph) (done : List String) (nc : NewConns) : Prop :=
  (∀ s ∈ done, nc.lookup s = some none) ∧
  ∀ t, t ∉ done →
    (nc.lookup t = none ∧ (done.filter (fun s => t ∈ (dfsEdges g.arcs s).map Prod.snd)) = []) ∨
    ∃ l, l ≠ [] ∧ nc.lookup t = some (some l) ∧ l.map Prod.fst = done.filter (fun s => t ∈ (dfsEdges g.arcs s).map Prod.snd)

theorem walkSrc_spec {g : InGraph} {done : List String} {nc nc' : NewConns} {src : String} (h : walkSrc g nc src = .ok nc')
    (hinv : NCInv g done nc) (hsrc : src ∉ done) (hno : ∀ s, (s, src) ∉ g.arcs) : NCInv g (done ++ [src]) nc' := by
  unfold walkSrc at h
  cases hf : (dfsEdges g.arcs src).foldlM (walkStep g src) ([(src, none)], dictSet nc src none) with
  | error err => rw [hf] at h; cases h
  | ok st' =>
    rw [hf] at h
    simp only [Except.map, Except.ok.injEq] at h
    subst h
    obtain ⟨-, hnd, -, -⟩ := dfsEdges_basic g.arcs src
    obtain ⟨w1, w2⟩ := walkFold_spec g src _ _ _ hf hnd
    simp only at w1 w2
    have hsrcT : src ∉ (dfsEdges g.arcs src).map Prod.snd := fun hc => ((mem_dfs_iff _ _ _).mp hc).2 rfl
    have htgt : ∀ s, src ∉ (dfsEdges g.arcs s).map Prod.snd := by
      intro s hc
      obtain ⟨e, he, hes⟩ := List.mem_map.mp hc
      have := ((dfsEdges_basic g.arcs s).1 e he).1
      obtain ⟨a, b⟩ := e
      simp only at hes; subst hes
      exact hno a this
    refine ⟨?_, ?_⟩
    · intro s hs
      rcases List.mem_append.mp hs with hs | hs
      · by_cases hT : s ∈ (dfsEdges g.arcs src).map Prod.snd
        · have hne : s ≠ src := fun hc => hsrc (hc ▸ hs)
          rcases w2 s hT with ⟨h1, -⟩ | ⟨l, i, h1, -⟩
          · rw [lookup_dictSet, if_neg hne, hinv.1 s hs] at h1; cases h1
          · rw [lookup_dictSet, if_neg hne, hinv.1 s hs] at h1; cases h1
        · have hne : s ≠ src := fun hc => hsrc (hc ▸ hs)
          rw [w1 s hT, lookup_dictSet, if_neg hne, hinv.1 s hs]
      · rw [List.mem_singleton] at hs; subst hs
        rw [w1 _ hsrcT, lookup_dictSet, if_pos rfl]
    · intro t ht
      simp only [List.mem_append, List.mem_singleton, not_or] at ht
      have hold := hinv.2 t ht.1
      rw [List.filter_append]
      by_cases hT : t ∈ (dfsEdges g.arcs src).map Prod.snd
      · right
        have hf1 : [src].filter (fun s => t ∈ (dfsEdges g.arcs s).map Prod.snd) = [src] := by simp [hT]
        rw [hf1]
        rcases w2 t hT with ⟨h1, i, h2⟩ | ⟨l, i, h1, h2⟩
        · rw [lookup_dictSet, if_neg ht.2] at h1
          rcases hold with ⟨-, h3⟩ | ⟨l, -, h3, -⟩
          · exact ⟨[(src, i)], by simp, h2, by rw [h3]; rfl⟩
          · rw [h1] at h3; cases h3
        · rw [lookup_dictSet, if_neg ht.2] at h1
          rcases hold with ⟨h3, -⟩ | ⟨l', -, h3, h4⟩
          · rw [h1] at h3; cases h3
          · rw [h1] at h3
            simp only [Option.some.injEq] at h3
            subst h3
            exact ⟨l ++ [(src, i)], by simp, h2, by rw [List.map_append, h4]; rfl⟩
      · have hf1 : [src].filter (fun s => t ∈ (dfsEdges g.arcs s).map Prod.snd) = [] := by simp [hT]
        rw [hf1, List.append_nil, w1 t hT, lookup_dictSet, if_neg ht.2]
        exact hold

theorem walkAll_spec (g : InGraph) : ∀ (us done : List String) (nc nc' : NewConns), us.foldlM (walkSrc g) nc = .ok nc' →
    NCInv g done nc → (done ++ us).Nodup → (∀ u ∈ us, ∀ s, (s, u) ∉ g.arcs) → NCInv g (done ++ us) nc' := by
  intro us
  induction us with
  | nil => intro done nc nc' h hi _ _; simp [pure, Except.pure] at h; subst h; simpa using hi
  | cons u us ih =>
    intro done nc nc' h hi hnd hno
    rw [List.foldlM_cons] at h
    cases hw : walkSrc g nc u with
    | error e => rw [hw] at h; cases h
    | ok nc1 =>
      rw [hw] at h
      simp only [bind, Except.bind] at h
      have hu : u ∉ done := by
        rw [List.nodup_append] at hnd
        intro hc; exact hnd.2.2 u hc u List.mem_cons_self rfl
      have := ih (done ++ [u]) nc1 nc' h (walkSrc_spec hw hi hu (hno u List.mem_cons_self)) (by simpa using hnd)
        (fun v hv => hno v (List.mem_cons_of_mem _ hv))
      simpa using this

/-! ## The second loop -/

theorem lookup_foldl_const {β : Type} (v : β) : ∀ (l : List String) (d : List (String × β)) (q : String),
    (l.foldl (fun d n => dictSet d n v) d).lookup q = if q ∈ l then some v else d.lookup q := by
  intro l
  induction l with
  | nil => intro d q; simp
  | cons x l ih =>
    intro d q
    rw [List.foldl_cons, ih, lookup_dictSet]
    simp only [List.mem_cons]
    by_cases h1 : q ∈ l
    · simp [h1]
    · by_cases h2 : q = x
      · simp [h2]
      · simp [h1, h2]

theorem lookup_foldl_map {β : Type} (f : String → String) (v : β) (l : List String) (d : List (String × β)) (q : String) :
    (l.foldl (fun d n => dictSet d (f n) v) d).lookup q = if q ∈ l.map f then some v else d.lookup q := by
  have : l.foldl (fun d n => dictSet d (f n) v) d = (l.map f).foldl (fun d n => dictSet d n v) d := by
    rw [List.foldl_map]
  rw [this, lookup_foldl_const]

theorem nodup_keys_foldl {β : Type} (v : β) : ∀ (l : List String) (d : List (String × β)), (d.map Prod.fst).Nodup →
    ((l.foldl (fun d n => dictSet d n v) d).map Prod.fst).Nodup := by
  intro l
  induction l with
  | nil => intro d h; exact h
  | cons x l ih => intro d h; exact ih _ (nodup_keys_dictSet _ _ _ h)

theorem reflTransGen_eqvGen {α : Type} {r : α → α → Prop} {a b : α} (h : Relation.ReflTransGen r a b) : Relation.EqvGen r a b := by
  induction h with
  | refl => exact .refl _
  | tail _ h2 ih => exact .trans _ _ _ ih (.rel _ _ h2)

/-- Invariant of the second loop with respect to the table `nc0` after the walks. -/
structure DangInv (g : InGraph) (nc0 : NewConns) (st : DangSt) : Prop where
  mono : ∀ n x, nc0.lookup n = some x → st.nc.lookup n = some x
  new : ∀ n, nc0.lookup n = none → st.nc.lookup n = none ∨
    ∃ src t, st.nc.lookup n = some (some [(src, none)]) ∧ Relation.EqvGen (Edge g.arcs) n t ∧
      ∃ l c, nc0.lookup t = some (some (c :: l)) ∧ c.1 = src
  nd : (st.nc.map Prod.fst).Nodup

theorem dangNode_spec {g : InGraph} {nc0 : NewConns} {toProm : String → String} {st st' : DangSt} {node : String}
    (hinv : DangInv g nc0 st) (h : dangNode g toProm st node = .ok st') : DangInv g nc0 st' := by
  unfold dangNode at h
  split_ifs at h with hc
  · simp only [Bool.and_eq_true, Option.isNone_iff_eq_none] at hc
    simp only at h
    have hmem : ∀ n, n = node ∨ n ∈ ((dfsEdges g.arcs node).map Prod.snd) → Relation.ReflTransGen (Edge g.arcs) node n := by
      rintro n (rfl | hn)
      · exact .refl
      · exact ((mem_dfs_iff _ _ _).mp hn).1.to_reflTransGen
    cases hfind : ((dfsEdges g.arcs node).map Prod.snd).find? (fun t => (st.nc.lookup t).isSome) with
    | none => rw [hfind] at h; simp only [Except.ok.injEq] at h; subst h; exact ⟨hinv.mono, hinv.new, hinv.nd⟩
    | some t =>
      rw [hfind] at h
      simp only at h
      cases hsrc : firstSrc st.nc t with
      | error e => rw [hsrc] at h; cases h
      | ok src =>
        rw [hsrc] at h
        simp only [Except.ok.injEq] at h
        subst h
        -- the list before t
        obtain ⟨htS, pre, post, hts, hpre⟩ := List.find?_eq_some_iff_append.mp hfind
        have htake : ((dfsEdges g.arcs node).map Prod.snd).takeWhile (fun t => (st.nc.lookup t).isNone) = pre := by
          rw [hts]
          rw [List.takeWhile_append_of_pos]
          · rw [List.takeWhile_cons_of_neg]
            · simp
            · simpa using htS
          · intro a ha
            have := hpre a ha
            simpa using this
        rw [htake]
        -- the source has a witness in nc0
        have hwit : ∃ t', Relation.EqvGen (Edge g.arcs) t t' ∧ ∃ l c, nc0.lookup t' = some (some (c :: l)) ∧ c.1 = src := by
          unfold firstSrc at hsrc
          split at hsrc
          · rename_i c l hl
            simp only [Except.ok.injEq] at hsrc
            cases h0 : nc0.lookup t with
            | some x =>
              have := hinv.mono t x h0
              rw [hl] at this
              simp only [Option.some.injEq] at this
              subst this
              exact ⟨t, .refl _, l, c, h0, hsrc⟩
            | none =>
              rcases hinv.new t h0 with h1 | ⟨src', t', h1, h2, h3⟩
              · rw [hl] at h1; cases h1
              · rw [hl] at h1
                simp only [Option.some.injEq, List.cons.injEq] at h1
                obtain ⟨h1, -⟩ := h1
                have : src' = src := by rw [← hsrc, h1]
                subst this
                exact ⟨t', h2, h3⟩
          · cases hsrc
          · cases hsrc
          · cases hsrc
        obtain ⟨t', ht', l, c, hl, hcs⟩ := hwit
        refine ⟨?_, ?_, ?_⟩
        · intro n x hx
          simp only [lookup_foldl_const]
          rw [if_neg]
          · exact hinv.mono n x hx
          · intro hn
            have hs := hinv.mono n x hx
            rcases List.mem_cons.mp hn with rfl | hn
            · rw [hc.1] at hs; cases hs
            · have := hpre n hn
              simp [hs] at this
        · intro n hn
          simp only [lookup_foldl_const]
          have heq : ∀ m, Relation.ReflTransGen (Edge g.arcs) node m → Relation.EqvGen (Edge g.arcs) node m :=
            fun m hm => reflTransGen_eqvGen hm
          have htm : t ∈ (dfsEdges g.arcs node).map Prod.snd := List.mem_of_find?_eq_some hfind
          by_cases hn' : n ∈ node :: pre
          · rw [if_pos hn']
            right
            refine ⟨src, t', rfl, ?_, l, c, hl, hcs⟩
            have h1 : Relation.EqvGen (Edge g.arcs) node n := by
              apply heq; apply hmem
              rcases List.mem_cons.mp hn' with rfl | hn'
              · exact .inl rfl
              · right; rw [hts]; exact List.mem_append_left _ hn'
            exact .trans _ _ _ (.symm _ _ h1) (.trans _ _ _ (heq t (hmem t (.inr htm))) ht')
          · rw [if_neg hn']
            exact hinv.new n hn
        · simp only; exact nodup_keys_foldl _ _ _ hinv.nd
  · simp only [Except.ok.injEq] at h; subst h; exact hinv

/-- No node connected with `root` was reached by a walk from an unknown. -/
def FreeComp (g : InGraph) (nc0 : NewConns) (root : String) : Prop :=
  ∀ q, Relation.EqvGen (Edge g.arcs) root q → nc0.lookup q = none

/-- `l` lists exactly what is reachable from a node without incoming edge. -/
def FromRoot (g : InGraph) (l : List String) : Prop :=
  ∃ root, (∀ s, (s, root) ∉ g.arcs) ∧ ∀ q, q ∈ l ↔ Relation.ReflTransGen (Edge g.arcs) root q

/-- Second invariant of the second loop: what the tables of unconnected parameters contain. -/
structure DangInv2 (g : InGraph) (nc0 : NewConns) (toProm : String → String) (done : List String) (st : DangSt) : Prop where
  inp : ∀ n l, st.inputInputs.lookup n = some l → n ∈ l ∧ FromRoot g l
  dang : ∀ pn l, st.dangling.lookup pn = some l → (∃ n ∈ l, toProm n = pn) ∧ FromRoot g l
  all : ∀ root ∈ done, (∀ s, (s, root) ∉ g.arcs) → FreeComp g nc0 root → ∀ q, Relation.ReflTransGen (Edge g.arcs) root q →
    (st.inputInputs.lookup q).isSome = true ∧ (st.dangling.lookup (toProm q)).isSome = true

theorem mem_root_dfs_iff (arcs : List (String × String)) (root q : String) :
    q ∈ root :: (dfsEdges arcs root).map Prod.snd ↔ Relation.ReflTransGen (Edge arcs) root q := by
  rw [List.mem_cons, mem_dfs_iff, Relation.reflTransGen_iff_eq_or_transGen]
  constructor
  · rintro (h | h)
    · exact .inl h
    · exact .inr h.1
  · rintro (h | h)
    · exact .inl h
    · by_cases hq : q = root
      · exact .inl hq
      · exact .inr ⟨h, hq⟩

theorem takeWhile_all {α : Type} (p : α → Bool) : ∀ (l : List α), (∀ x ∈ l, p x = true) → l.takeWhile p = l := by
  intro l
  induction l with
  | nil => intro _; rfl
  | cons a l ih =>
    intro h
    rw [List.takeWhile_cons_of_pos (h a List.mem_cons_self), ih (fun x hx => h x (List.mem_cons_of_mem _ hx))]

theorem dangNode_spec2 {g : InGraph} {nc0 : NewConns} {toProm : String → String} {st st' : DangSt} {node : String} {done : List String}
    (hinv : DangInv g nc0 st) (h2 : DangInv2 g nc0 toProm done st)
    (h : dangNode g toProm st node = .ok st') : DangInv2 g nc0 toProm (done ++ [node]) st' := by
  unfold dangNode at h
  have hpred : (gpred g.arcs node).isEmpty = true ↔ ∀ s, (s, node) ∉ g.arcs := by
    rw [List.isEmpty_iff, List.eq_nil_iff_forall_not_mem]
    simp only [mem_gpred, Edge]
  have hfree : ∀ root, FreeComp g nc0 root → ∀ q, Relation.EqvGen (Edge g.arcs) root q → st.nc.lookup q = none := by
    intro root hf q hq
    rcases hinv.new q (hf q hq) with h | ⟨src, t, -, h3, l, c, h4, -⟩
    · exact h
    · have := hf t (.trans _ _ _ hq h3)
      rw [this] at h4; cases h4
  split_ifs at h with hc
  · simp only [Bool.and_eq_true, Option.isNone_iff_eq_none] at hc
    have hroot := hpred.mp hc.2
    simp only at h
    cases hfind : ((dfsEdges g.arcs node).map Prod.snd).find? (fun t => (st.nc.lookup t).isSome) with
    | some t =>
      rw [hfind] at h
      simp only at h
      cases hsrc : firstSrc st.nc t with
      | error e => rw [hsrc] at h; cases h
      | ok src =>
        rw [hsrc] at h
        simp only [Except.ok.injEq] at h
        subst h
        refine ⟨h2.inp, h2.dang, ?_⟩
        intro root hr hrp hf q hq
        rcases List.mem_append.mp hr with hr | hr
        · exact h2.all root hr hrp hf q hq
        · rw [List.mem_singleton] at hr; subst hr
          exfalso
          have htm : t ∈ (dfsEdges g.arcs root).map Prod.snd := List.mem_of_find?_eq_some hfind
          have h3 := hfree root hf t (reflTransGen_eqvGen ((mem_dfs_iff _ _ _).mp htm).1.to_reflTransGen)
          have h4 := List.find?_some hfind
          rw [h3] at h4
          cases h4
    | none =>
      rw [hfind] at h
      simp only [Except.ok.injEq] at h
      have htake : ((dfsEdges g.arcs node).map Prod.snd).takeWhile (fun t => (st.nc.lookup t).isNone) =
          (dfsEdges g.arcs node).map Prod.snd := by
        apply takeWhile_all
        intro x hx
        have := List.find?_eq_none.mp hfind x hx
        rw [Option.not_isSome_iff_eq_none.mp this]; rfl
      rw [htake] at h
      have hfr : FromRoot g (node :: (dfsEdges g.arcs node).map Prod.snd) := ⟨node, hroot, fun q => mem_root_dfs_iff _ _ _⟩
      subst h
      refine ⟨?_, ?_, ?_⟩
      · intro n l hl
        simp only [lookup_foldl_const] at hl
        split_ifs at hl with hm
        · simp only [Option.some.injEq] at hl; subst hl; exact ⟨hm, hfr⟩
        · exact h2.inp n l hl
      · intro pn l hl
        simp only [lookup_foldl_map toProm] at hl
        split_ifs at hl with hm
        · simp only [Option.some.injEq] at hl; subst hl
          obtain ⟨n, h3, h4⟩ := List.mem_map.mp hm
          exact ⟨⟨n, h3, h4⟩, hfr⟩
        · exact h2.dang pn l hl
      · intro root hr hrp hf q hq
        simp only [lookup_foldl_const, lookup_foldl_map toProm]
        rcases List.mem_append.mp hr with hr | hr
        · obtain ⟨h3, h4⟩ := h2.all root hr hrp hf q hq
          constructor
          · split_ifs
            · rfl
            · exact h3
          · split_ifs
            · rfl
            · exact h4
        · rw [List.mem_singleton] at hr; subst hr
          have hm := (mem_root_dfs_iff _ _ _).mpr hq
          rw [if_pos hm, if_pos (List.mem_map_of_mem hm)]
          exact ⟨rfl, rfl⟩
  · simp only [Except.ok.injEq] at h; subst h
    refine ⟨h2.inp, h2.dang, ?_⟩
    intro root hr hrp hf q hq
    rcases List.mem_append.mp hr with hr | hr
    · exact h2.all root hr hrp hf q hq
    · rw [List.mem_singleton] at hr; subst hr
      exfalso
      apply hc
      rw [Bool.and_eq_true]
      exact ⟨by rw [hfree root hf root (.refl _)]; rfl, hpred.mpr hrp⟩

theorem dangAll_spec {g : InGraph} {nc0 : NewConns} {toProm : String → String} : ∀ (ns done : List String) (st st' : DangSt),
    ns.foldlM (dangNode g toProm) st = .ok st' → DangInv g nc0 st → DangInv2 g nc0 toProm done st →
    DangInv g nc0 st' ∧ DangInv2 g nc0 toProm (done ++ ns) st' := by
  intro ns
  induction ns with
  | nil =>
    intro done st st' h h1 h2
    simp [pure, Except.pure] at h
    subst h; exact ⟨h1, by simpa using h2⟩
  | cons n ns ih =>
    intro done st st' h h1 h2
    rw [List.foldlM_cons] at h
    cases hw : dangNode g toProm st n with
    | error e => rw [hw] at h; cases h
    | ok st1 =>
      rw [hw] at h
      simp only [bind, Except.bind] at h
      have := ih (done ++ [n]) st1 st' h (dangNode_spec h1 hw) (dangNode_spec2 h1 h2 hw)
      simpa using this


theorem walkFold_nodup (g : InGraph) (src : String) : ∀ (es : List (String × String)) (st st' : List (String × SrcIdx) × NewConns),
    es.foldlM (walkStep g src) st = .ok st' → (st.2.map Prod.fst).Nodup → (st'.2.map Prod.fst).Nodup := by
  intro es
  induction es with
  | nil => intro st st' h hnd; simp [pure, Except.pure] at h; subst h; exact hnd
  | cons e es ih =>
    intro st st' h hnd
    rw [List.foldlM_cons] at h
    cases hw : walkStep g src st e with
    | error err => rw [hw] at h; cases h
    | ok st1 =>
      rw [hw] at h
      simp only [bind, Except.bind] at h
      refine ih st1 st' h ?_
      unfold walkStep at hw
      split at hw
      · split at hw
        · cases hw
        · split at hw
          · cases hw
          · rename_i nc ha
            simp only [Except.ok.injEq] at hw
            subst hw
            unfold appendConn at ha
            split at ha
            · simp only [Except.ok.injEq] at ha; subst ha; exact nodup_keys_dictSet _ _ _ hnd
            · cases ha
            · simp only [Except.ok.injEq] at ha; subst ha; exact nodup_keys_dictSet _ _ _ hnd
      · cases hw

theorem walkAll_nodup (g : InGraph) : ∀ (us : List String) (nc nc' : NewConns), us.foldlM (walkSrc g) nc = .ok nc' →
    (nc.map Prod.fst).Nodup → (nc'.map Prod.fst).Nodup := by
  intro us
  induction us with
  | nil => intro nc nc' h hnd; simp [pure, Except.pure] at h; subst h; exact hnd
  | cons u us ih =>
    intro nc nc' h hnd
    rw [List.foldlM_cons] at h
    cases hw : walkSrc g nc u with
    | error e => rw [hw] at h; cases h
    | ok nc1 =>
      rw [hw] at h
      simp only [bind, Except.bind] at h
      refine ih nc1 nc' h ?_
      unfold walkSrc at hw
      cases hf : (dfsEdges g.arcs u).foldlM (walkStep g u) ([(u, none)], dictSet nc u none) with
      | error err => rw [hf] at hw; cases hw
      | ok st =>
        rw [hf] at hw
        simp only [Except.map, Except.ok.injEq] at hw
        subst hw
        exact walkFold_nodup g u _ _ _ hf (nodup_keys_dictSet _ _ _ hnd)

theorem eqvGen_cases {α : Type} {r : α → α → Prop} {a b : α} (h : Relation.EqvGen r a b) :
    a = b ∨ (((∃ z, r a z) ∨ ∃ z, r z a) ∧ ((∃ z, r b z) ∨ ∃ z, r z b)) := by
  induction h with
  | rel x y h => exact .inr ⟨.inl ⟨y, h⟩, .inr ⟨x, h⟩⟩
  | refl x => exact .inl rfl
  | symm x y _ ih =>
    rcases ih with rfl | ⟨h1, h2⟩
    · exact .inl rfl
    · exact .inr ⟨h2, h1⟩
  | trans x y z _ _ ih1 ih2 =>
    rcases ih1 with rfl | ⟨h1, h2⟩
    · exact ih2
    · rcases ih2 with rfl | ⟨h3, h4⟩
      · exact .inr ⟨h1, h2⟩
      · exact .inr ⟨h1, h4⟩

end OpenMDAO
