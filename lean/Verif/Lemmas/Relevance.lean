import Verif.Spec.Relevance
import Verif.Lemmas.Graph
import Verif.Lemmas.Connections
/-! Helper lemmas on relevance. -/
namespace OpenMDAO
set_option linter.unusedSectionVars false

/-! ## The graph -/

theorem mem_sysGraph (R : RelInput) (e : Path × Path) : e ∈ relSysGraph R ↔ ∃ c ∈ R.conns, e = (compPath c.2, compPath c.1) := by
  have key : ∀ (cs : List (Path × Path)) (g : List (Path × Path)), e ∈ cs.foldl sysGraphStep g ↔ e ∈ g ∨ ∃ c ∈ cs, e = (compPath c.2, compPath c.1) := by
    intro cs
    induction cs with
    | nil => intro g; simp
    | cons c cs ih =>
      intro g
      rw [List.foldl_cons, ih]
      unfold sysGraphStep
      split
      · rename_i hm
        constructor
        · rintro (h | ⟨c', hc', h⟩)
          · exact Or.inl h
          · exact Or.inr ⟨c', by simp [hc'], h⟩
        · rintro (h | ⟨c', hc', h⟩)
          · exact Or.inl h
          · rcases List.mem_cons.mp hc' with rfl | hc'
            · exact Or.inl (h ▸ hm)
            · exact Or.inr ⟨c', hc', h⟩
      · simp only [List.mem_append, List.mem_cons, List.not_mem_nil, or_false]
        constructor
        · rintro ((h | h) | ⟨c', hc', h⟩)
          · exact Or.inl h
          · exact Or.inr ⟨c, Or.inl rfl, h⟩
          · exact Or.inr ⟨c', Or.inr hc', h⟩
        · rintro (h | ⟨c', rfl | hc', h⟩)
          · exact Or.inl (Or.inl h)
          · exact Or.inl (Or.inr h)
          · exact Or.inr ⟨c', hc', h⟩
  unfold relSysGraph
  rw [key]; simp

/-- Dependency between components: some connection leads from one to the other. -/
def CompStep (R : RelInput) (a b : Path) : Prop := ∃ c ∈ R.conns, compPath c.2 = a ∧ compPath c.1 = b

theorem edge_sysGraph (R : RelInput) : Edge (relSysGraph R) = CompStep R := by
  funext a b
  unfold Edge CompStep
  rw [mem_sysGraph]
  simp only [Prod.mk.injEq, eq_iff_iff]
  constructor
  · rintro ⟨c, hc, rfl, rfl⟩; exact ⟨c, hc, rfl, rfl⟩
  · rintro ⟨c, hc, rfl, rfl⟩; exact ⟨c, hc, rfl, rfl⟩

theorem edge_reverse (R : RelInput) : Edge (relReverse (relSysGraph R)) = Function.swap (CompStep R) := by
  rw [← edge_sysGraph]
  funext a b
  unfold Edge relReverse Function.swap
  simp only [List.mem_map, eq_iff_iff]
  constructor
  · rintro ⟨⟨x, y⟩, h, h2⟩; simp only [Prod.mk.injEq] at h2; obtain ⟨rfl, rfl⟩ := h2; exact h
  · intro h; exact ⟨(b, a), h, rfl⟩

theorem mem_dfs_refl {g : List (Path × Path)} {a s : Path} : s ∈ a :: (dfsEdges g a).map Prod.snd ↔ Relation.ReflTransGen (Edge g) a s := by
  rw [List.mem_cons, mem_dfs_iff, Relation.reflTransGen_iff_eq_or_transGen]
  constructor
  · rintro (h | ⟨h, _⟩)
    · exact Or.inl h
    · exact Or.inr h
  · rintro (h | h)
    · exact Or.inl h
    · by_cases he : s = a
      · exact Or.inl he
      · exact Or.inr ⟨h, he⟩

theorem mem_relCommon (R : RelInput) (comp inp s : Path) : s ∈ relCommon R comp inp ↔
    inSysGraph R (compPath (R.absU inp)) = true ∧ Relation.ReflTransGen (CompStep R) (compPath (R.absU inp)) s ∧ Relation.ReflTransGen (CompStep R) s comp := by
  unfold relCommon relPreds relSuccs
  rw [List.mem_filter, mem_dfs_refl, edge_reverse, Relation.reflTransGen_swap, decide_eq_true_eq]
  split
  · rename_i h
    rw [mem_dfs_refl, edge_sysGraph]
    simp only [h, true_and]
    exact and_comm
  · rename_i h
    simp [h]

/-! ## The table -/

/-- `s` is in the entry of `k`. -/
def InTable (t : RelTable) (k s : Path) : Prop := ∃ l, t.lookup k = some l ∧ s ∈ l

/-- `k` has an entry. -/
def HasKey (t : RelTable) (k : Path) : Prop := (t.lookup k).isSome = true

theorem hasKey_dictSet (t : RelTable) (k q : Path) (v : List Path) : HasKey (dictSet t k v) q ↔ q = k ∨ HasKey t q := by
  unfold HasKey
  rw [lookup_dictSet]
  split <;> simp [*]

theorem inTable_dictSet (t : RelTable) (k q s : Path) (v : List Path) : InTable (dictSet t k v) q s ↔ (q = k ∧ s ∈ v) ∨ (q ≠ k ∧ InTable t q s) := by
  unfold InTable
  rw [lookup_dictSet]
  split
  · rename_i h; simp [h]
  · rename_i h; simp [h]

theorem hasKey_relUpdate (t : RelTable) (k q : Path) (c : List Path) : HasKey (relUpdate t k c) q ↔ HasKey t q := by
  unfold relUpdate
  split
  · rename_i s hs
    rw [hasKey_dictSet]
    constructor
    · rintro (rfl | h)
      · unfold HasKey; rw [hs]; rfl
      · exact h
    · exact Or.inr
  · exact Iff.rfl

theorem inTable_relUpdate {t : RelTable} {k : Path} (hk : HasKey t k) (q s : Path) (c : List Path) : InTable (relUpdate t k c) q s ↔ InTable t q s ∨ (q = k ∧ s ∈ c) := by
  unfold relUpdate
  obtain ⟨l, hl⟩ := Option.isSome_iff_exists.mp hk
  rw [hl]
  simp only
  rw [inTable_dictSet, List.mem_append]
  by_cases h : q = k
  · subst h
    simp only [true_and, ne_eq, not_true_eq_false, false_and, or_false]
    unfold InTable; rw [hl]; simp
  · simp [h]

theorem hasKey_relPair (R : RelInput) (node : Path) (t : RelTable) (inp q : Path) : HasKey (relPair R node t inp) q ↔ HasKey t q := by
  unfold relPair; rw [hasKey_relUpdate, hasKey_relUpdate]

theorem relPairs_spec (R : RelInput) (node : Path) : ∀ (ins : List Path) (t : RelTable), HasKey t node → (∀ i ∈ ins, HasKey t i) →
    (∀ q, HasKey (ins.foldl (relPair R node) t) q ↔ HasKey t q) ∧
    ∀ q s, InTable (ins.foldl (relPair R node) t) q s ↔ InTable t q s ∨ ∃ i ∈ ins, s ∈ relCommon R (compPath (R.absU node)) i ∧ (q = node ∨ q = i) := by
  intro ins
  induction ins with
  | nil => intro t _ _; simp
  | cons i ins ih =>
    intro t hn hi
    have h1 : HasKey (relPair R node t i) node := (hasKey_relPair R node t i node).mpr hn
    obtain ⟨k1, k2⟩ := ih (relPair R node t i) h1 fun j hj => (hasKey_relPair R node t i j).mpr (hi j (by simp [hj]))
    refine ⟨fun q => by rw [List.foldl_cons, k1, hasKey_relPair], ?_⟩
    intro q s
    rw [List.foldl_cons, k2]
    have h2 : InTable (relPair R node t i) q s ↔ InTable t q s ∨ (s ∈ relCommon R (compPath (R.absU node)) i ∧ (q = node ∨ q = i)) := by
      unfold relPair
      rw [inTable_relUpdate ((hasKey_relUpdate t node i _).mpr (hi i (by simp))), inTable_relUpdate hn]
      tauto
    rw [h2]
    simp only [List.mem_cons, exists_eq_or_imp]
    exact or_assoc

/-- The pair of output and input whose common components contain `s`. -/
def Between (R : RelInput) (i o s : Path) : Prop :=
  inSysGraph R (compPath (R.absU i)) = true ∧ inSysGraph R (compPath (R.absU o)) = true ∧
    Relation.ReflTransGen (CompStep R) (compPath (R.absU i)) s ∧ Relation.ReflTransGen (CompStep R) s (compPath (R.absU o))

theorem relOutput_spec (R : RelInput) (node : Path) (t : RelTable) (hi : ∀ i ∈ R.inputs.flatten, HasKey t i) :
    (∀ q, HasKey (relOutput R t node) q ↔ q = node ∨ HasKey t q) ∧
    ∀ q s, InTable (relOutput R t node) q s ↔ (q ≠ node ∧ InTable t q s) ∨ ∃ i ∈ R.inputs.flatten, Between R i node s ∧ (q = node ∨ q = i) := by
  unfold relOutput
  split
  · rename_i hg
    obtain ⟨k1, k2⟩ := relPairs_spec R node R.inputs.flatten (dictSet t node []) ((hasKey_dictSet _ _ _ _).mpr (Or.inl rfl))
      fun i h => (hasKey_dictSet _ _ _ _).mpr (Or.inr (hi i h))
    refine ⟨fun q => by rw [k1, hasKey_dictSet], ?_⟩
    intro q s
    rw [k2, inTable_dictSet]
    simp only [List.not_mem_nil, and_false, false_or, mem_relCommon, Between, hg, true_and]
  · rename_i hg
    refine ⟨fun q => hasKey_dictSet _ _ _ _, ?_⟩
    intro q s
    rw [inTable_dictSet]
    simp [Between, hg]

theorem relOutputs_spec (R : RelInput) : ∀ (outs : List Path) (t : RelTable), (∀ i ∈ R.inputs.flatten, HasKey t i) →
    (∀ q, HasKey (outs.foldl (relOutput R) t) q ↔ q ∈ outs ∨ HasKey t q) ∧
    (∀ q s, InTable (outs.foldl (relOutput R) t) q s → InTable t q s ∨ ∃ o ∈ outs, ∃ i ∈ R.inputs.flatten, Between R i o s ∧ (q = o ∨ q = i)) ∧
    (∀ q s, q ∉ outs → InTable t q s → InTable (outs.foldl (relOutput R) t) q s) ∧
    (∀ o ∈ outs, ∀ i ∈ R.inputs.flatten, ∀ s, Between R i o s → InTable (outs.foldl (relOutput R) t) o s ∧ (i ∉ outs → InTable (outs.foldl (relOutput R) t) i s)) := by
  intro outs
  induction outs with
  | nil => intro t _; simp
  | cons o outs ih =>
    intro t hi
    obtain ⟨k1, k2⟩ := relOutput_spec R o t hi
    obtain ⟨h1, h2, h3, h4⟩ := ih (relOutput R t o) fun i h => (k1 i).mpr (Or.inr (hi i h))
    refine ⟨?_, ?_, ?_, ?_⟩
    · intro q; rw [List.foldl_cons, h1, k1, List.mem_cons]; tauto
    · intro q s h
      rw [List.foldl_cons] at h
      rcases h2 q s h with h | ⟨o', ho', i, hi', hb, hq⟩
      · rcases (k2 q s).mp h with ⟨_, h⟩ | ⟨i, hi', hb, hq⟩
        · exact Or.inl h
        · exact Or.inr ⟨o, by simp, i, hi', hb, hq⟩
      · exact Or.inr ⟨o', by simp [ho'], i, hi', hb, hq⟩
    · intro q s hq h
      rw [List.mem_cons, not_or] at hq
      exact h3 q s hq.2 ((k2 q s).mpr (Or.inl ⟨hq.1, h⟩))
    · intro o' ho' i hi' s hb
      rw [List.foldl_cons]
      by_cases hin : o' ∈ outs
      · obtain ⟨a, b⟩ := h4 o' hin i hi' s hb
        refine ⟨a, fun hn => b ?_⟩
        rw [List.mem_cons, not_or] at hn; exact hn.2
      · have hoo : o' = o := by
          rcases List.mem_cons.mp ho' with h | h
          · exact h
          · exact absurd h hin
        subst hoo
        refine ⟨h3 o' s hin ((k2 o' s).mpr (Or.inr ⟨i, hi', hb, Or.inl rfl⟩)), ?_⟩
        intro hn
        rw [List.mem_cons, not_or] at hn
        exact h3 i s hn.2 ((k2 i s).mpr (Or.inr ⟨i, hi', hb, Or.inr rfl⟩))

theorem initTable_spec : ∀ (ins : List Path) (t : RelTable), (∀ q s, ¬ InTable t q s) →
    (∀ q, HasKey (ins.foldl (fun t node => dictSet t node []) t) q ↔ q ∈ ins ∨ HasKey t q) ∧ ∀ q s, ¬ InTable (ins.foldl (fun t node => dictSet t node []) t) q s := by
  intro ins
  induction ins with
  | nil => intro t h; exact ⟨by simp, h⟩
  | cons i ins ih =>
    intro t h
    obtain ⟨h1, h2⟩ := ih (dictSet t i []) (by intro q s; rw [inTable_dictSet]; simp [h q s])
    refine ⟨?_, h2⟩
    intro q
    rw [List.foldl_cons, h1, hasKey_dictSet, List.mem_cons]; tauto

theorem relComps_spec (R : RelInput) :
    (∀ q, HasKey (relComps R) q ↔ q ∈ R.outputs.flatten ∨ q ∈ R.inputs.flatten) ∧
    (∀ q s, InTable (relComps R) q s → ∃ o ∈ R.outputs.flatten, ∃ i ∈ R.inputs.flatten, Between R i o s ∧ (q = o ∨ q = i)) ∧
    (∀ o ∈ R.outputs.flatten, ∀ i ∈ R.inputs.flatten, ∀ s, Between R i o s → InTable (relComps R) o s ∧ (i ∉ R.outputs.flatten → InTable (relComps R) i s)) := by
  have he : ∀ q s, ¬ InTable ([] : RelTable) q s := by intro q s; simp [InTable]
  obtain ⟨i1, i2⟩ := initTable_spec R.inputs.flatten [] he
  obtain ⟨h1, h2, _, h4⟩ := relOutputs_spec R R.outputs.flatten (R.inputs.flatten.foldl (fun t node => dictSet t node []) []) fun i h => (i1 i).mpr (Or.inl h)
  refine ⟨?_, ?_, h4⟩
  · intro q
    unfold relComps
    rw [h1, i1]
    simp [HasKey]
  · intro q s h
    rcases h2 q s h with h | h
    · exact absurd h (i2 q s)
    · exact h

theorem lookup_map_val {α β γ : Type} [BEq α] [LawfulBEq α] (g : α → β → γ) (l : List (α × β)) (k : α) :
    (l.map fun e => (e.1, g e.1 e.2)).lookup k = (l.lookup k).map (g k) := by
  induction l with
  | nil => rfl
  | cons e l ih =>
    obtain ⟨a, b⟩ := e
    simp only [List.map_cons, List.lookup_cons]
    by_cases h : k == a
    · have : k = a := by simpa using h
      subst this; simp
    · simp [h, ih]

end OpenMDAO
