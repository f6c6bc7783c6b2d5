import Verif.Spec.Recorder
import Verif.Props.Paths
import Std.Data.String.ToNat
/-! # Lemmas about iteration coordinates -/
namespace OpenMDAO
set_option linter.unusedSectionVars false

theorem natStr_inj {m n : Nat} (h : natStr m = natStr n) : m = n := by
  apply Nat.repr_injective
  simp only [natStr] at h
  simp only [Nat.repr, h]

theorem natStr_digit {n : Nat} {c : Char} (h : c ∈ natStr n) : c.isDigit = true :=
  Nat.isDigit_of_mem_toDigits (by decide) (by decide) h

theorem natStr_not {n : Nat} {c : Char} (h : c.isDigit = false) : c ∉ natStr n := by
  intro hc; rw [natStr_digit hc] at h; cases h

theorem pySplit_none (c : Char) (s : Str) (h : c ∉ s) : pySplit c s = [s] := by
  induction s with
  | nil => rfl
  | cons x xs ih =>
    simp only [List.mem_cons, not_or] at h
    simp only [pySplit]
    rw [if_neg (fun e => h.1 e.symm), ih h.2]

theorem pySplit_join (c : Char) : ∀ (ps : List Str), ps ≠ [] → (∀ p ∈ ps, c ∉ p) → pySplit c (pyJoin c ps) = ps
  | [], h, _ => absurd rfl h
  | [p], _, h => by simp [pyJoin, pySplit_none c p (h p (by simp))]
  | p :: q :: ps, _, h => by
    simp only [pyJoin]
    rw [pySplit_append, pySplit_none c p (h p (by simp)), pySplit_join c (q :: ps) (by simp) (fun x hx => h x (List.mem_cons_of_mem _ hx))]
    rfl

theorem pyJoin_inj (c : Char) {a b : List Str} (ha : a ≠ []) (hb : b ≠ []) (h1 : ∀ p ∈ a, c ∉ p) (h2 : ∀ p ∈ b, c ∉ p)
    (h : pyJoin c a = pyJoin c b) : a = b := by
  rw [← pySplit_join c a ha h1, ← pySplit_join c b hb h2, h]

theorem not_mem_pyJoin (c d : Char) (hne : c ≠ d) : ∀ (ps : List Str), (∀ p ∈ ps, c ∉ p) → c ∉ pyJoin d ps
  | [], _ => by simp [pyJoin]
  | [p], h => by simpa [pyJoin] using h p (by simp)
  | p :: q :: ps, h => by
    simp only [pyJoin, List.mem_append, List.mem_cons, not_or]
    exact ⟨h p (by simp), hne, not_mem_pyJoin c d hne (q :: ps) (fun x hx => h x (List.mem_cons_of_mem _ hx))⟩

/-- Text of a tuple of numbers. -/
def tupStr (l : List Nat) : Str := pyJoin '-' (l.map natStr)

theorem bar_not_mem_tup (l : List Nat) : '|' ∉ tupStr l := by
  apply not_mem_pyJoin _ _ (by decide)
  intro p hp
  obtain ⟨n, -, rfl⟩ := List.mem_map.1 hp
  exact natStr_not (by decide)

theorem tupStr_inj {a b : List Nat} (ha : a ≠ []) (hb : b ≠ []) (h : tupStr a = tupStr b) : a = b := by
  have h2 : a.map natStr = b.map natStr := by
    refine pyJoin_inj '-' (by simpa using ha) (by simpa using hb) ?_ ?_ h
    all_goals
      intro p hp
      obtain ⟨n, -, rfl⟩ := List.mem_map.1 hp
      exact natStr_not (by decide)
  exact List.map_injective_iff.2 (fun _ _ => natStr_inj) h2

theorem parts_inj : ∀ (a b : List (Str × List Nat)), (∀ l ∈ a, l.2 ≠ []) → (∀ l ∈ b, l.2 ≠ []) →
    a.flatMap (fun l => [l.1, pyJoin '-' (l.2.map natStr)]) = b.flatMap (fun l => [l.1, pyJoin '-' (l.2.map natStr)]) → a = b
  | [], [], _, _, _ => rfl
  | [], _ :: _, _, _, h => by simp at h
  | _ :: _, [], _, _, h => by simp at h
  | x :: a, y :: b, h1, h2, h => by
    simp only [List.flatMap_cons, List.cons_append, List.nil_append, List.cons.injEq] at h
    obtain ⟨e1, e2, e3⟩ := h
    have := tupStr_inj (h1 x (by simp)) (h2 y (by simp)) e2
    rw [parts_inj a b (fun l hl => h1 l (List.mem_cons_of_mem _ hl)) (fun l hl => h2 l (List.mem_cons_of_mem _ hl)) e3]
    rw [Prod.ext e1 this]

theorem bar_not_mem_parts {a : List (Str × List Nat)} (h : ∀ l ∈ a, '|' ∉ l.1) :
    ∀ p ∈ a.flatMap (fun l => [l.1, pyJoin '-' (l.2.map natStr)]), '|' ∉ p := by
  intro p hp
  obtain ⟨l, hl, hp⟩ := List.mem_flatMap.1 hp
  simp only [List.mem_cons, List.not_mem_nil, or_false] at hp
  rcases hp with rfl | rfl
  · exact h l hl
  · exact bar_not_mem_tup l.2

/-- a join of parts, the first of which may be anything, is empty only for no part or one empty part -/
theorem parts_join_inj {a b : List (Str × List Nat)} (h1 : ∀ l ∈ a, '|' ∉ l.1 ∧ l.2 ≠ []) (h2 : ∀ l ∈ b, '|' ∉ l.1 ∧ l.2 ≠ [])
    (h : pyJoin '|' (a.flatMap fun l => [l.1, pyJoin '-' (l.2.map natStr)]) = pyJoin '|' (b.flatMap fun l => [l.1, pyJoin '-' (l.2.map natStr)])) :
    a = b := by
  apply parts_inj a b (fun l hl => (h1 l hl).2) (fun l hl => (h2 l hl).2)
  rcases a with _ | ⟨x, a⟩
  · rcases b with _ | ⟨y, b⟩
    · rfl
    · exfalso
      simp only [List.flatMap_nil, pyJoin, List.flatMap_cons, List.cons_append, List.nil_append] at h
      have : y.1 ++ '|' :: pyJoin '|' (pyJoin '-' (List.map natStr y.2) :: b.flatMap fun l => [l.1, pyJoin '-' (l.2.map natStr)]) ≠ [] := by simp
      exact this h.symm
  · rcases b with _ | ⟨y, b⟩
    · exfalso
      simp only [List.flatMap_nil, pyJoin, List.flatMap_cons, List.cons_append, List.nil_append] at h
      have : x.1 ++ '|' :: pyJoin '|' (pyJoin '-' (List.map natStr x.2) :: a.flatMap fun l => [l.1, pyJoin '-' (l.2.map natStr)]) ≠ [] := by simp
      exact this h
    · exact pyJoin_inj '|' (by simp) (by simp) (bar_not_mem_parts fun l hl => (h1 l hl).1) (bar_not_mem_parts fun l hl => (h2 l hl).1) h

theorem formatCoord_inj {a b : Coord} (ha : CoordOk a) (hb : CoordOk b) (h : formatCoord a = formatCoord b) : a = b := by
  simp only [formatCoord, pyJoin] at h
  have hd : ∀ n, ':' ∉ "rank".toList ++ natStr n := by
    intro n hc
    rcases List.mem_append.1 hc with hc | hc
    · revert hc; decide
    · exact natStr_not (by decide) hc
  have e1 := congrArg (pyHead ':') h
  rw [(pyHead_spec ':' _ _ (hd _)).1, (pyHead_spec ':' _ _ (hd _)).1] at e1
  have er := natStr_inj (List.append_cancel_left e1)
  rw [er] at h
  have e2 := List.append_cancel_left h
  simp only [List.cons.injEq, true_and] at e2
  have := parts_join_inj ha hb e2
  cases a; cases b; simp_all

/-! ### Coordinates of a run -/

/-- The name that ends up in the coordinate. -/
def levLab (p : Coord) (chain : List (Str × Bool)) (name : Str) (kind : SKind) : Str :=
  if p.levels.length = 1 ∧ levelName chain name kind = [] then "root".toList else levelName chain name kind

theorem updateMeta_snoc (r : Nat) (pre : List (Str × List Nat)) (x : Str × List Nat) (l : List Nat) :
    updateMeta ⟨r, pre ++ [x]⟩ l = ⟨r, pre ++ [(x.1, l)]⟩ := by
  simp [updateMeta]

theorem createMeta_some (rank : Nat) (p : Coord) (chain : List (Str × Bool)) (name : Str) (kind : SKind) :
    createMeta rank (some p) (levelName chain name kind) = ⟨p.rank, p.levels ++ [(levLab p chain name kind, [0])]⟩ := by
  simp [createMeta, levLab]

theorem newtonLabels_ge : ∀ (ls : List Nat) (i : Nat), ∀ x ∈ newtonLabels i ls, ∃ a b, x.1 = [a, b] ∧ i ≤ a
  | [], _, x, h => by simp [newtonLabels] at h
  | m :: ls, i, x, h => by
    simp only [newtonLabels, List.mem_append, List.mem_map, List.mem_range] at h
    rcases h with ⟨j, -, rfl⟩ | h
    · exact ⟨i, j, rfl, Nat.le_refl _⟩
    · obtain ⟨a, b, e, h2⟩ := newtonLabels_ge ls (i + 1) x h
      exact ⟨a, b, e, by omega⟩

theorem newtonLabels_nodup : ∀ (ls : List Nat) (i : Nat), ((newtonLabels i ls).map (·.1)).Nodup
  | [], _ => by simp [newtonLabels]
  | m :: ls, i => by
    simp only [newtonLabels, List.map_append, List.map_map, List.nodup_append']
    refine ⟨?_, newtonLabels_nodup ls (i + 1), ?_⟩
    · apply List.Nodup.map _ (List.nodup_range)
      intro a b h
      simpa using h
    · intro x h1 h2
      obtain ⟨j, -, rfl⟩ := List.mem_map.1 h1
      obtain ⟨y, hy, e⟩ := List.mem_map.1 h2
      obtain ⟨a, b, e2, h3⟩ := newtonLabels_ge ls (i + 1) y hy
      rw [e2] at e
      simp at e
      omega

theorem stepLabels_nodup (n : Nat) (k : SKind) : ((stepLabels n k).map (·.1)).Nodup := by
  cases k with
  | runOnce c => simp [stepLabels]
  | nlgs =>
    simp only [stepLabels, List.map_map]
    apply List.Nodup.map _ List.nodup_range
    intro a b h; simpa using h
  | brent =>
    simp only [stepLabels, List.map_map]
    apply List.Nodup.map _ List.nodup_range
    intro a b h; simpa using h
  | newton ls =>
    simp only [stepLabels, List.map_cons, List.nodup_cons]
    refine ⟨?_, newtonLabels_nodup ls 1⟩
    intro h
    obtain ⟨y, hy, e⟩ := List.mem_map.1 h
    obtain ⟨a, b, e2, h3⟩ := newtonLabels_ge ls 1 y hy
    rw [e2] at e
    simp at e
    omega

theorem stepLabels_ne (n : Nat) (k : SKind) : ∀ x ∈ stepLabels n k, x.1 ≠ [] := by
  intro x hx
  cases k with
  | runOnce c => simp [stepLabels] at hx; simp [hx]
  | nlgs => simp [stepLabels] at hx; obtain ⟨i, -, rfl⟩ := hx; simp
  | brent => simp [stepLabels] at hx; obtain ⟨i, -, rfl⟩ := hx; simp
  | newton ls =>
    simp only [stepLabels, List.mem_cons] at hx
    rcases hx with rfl | hx
    · simp
    · obtain ⟨a, b, e, -⟩ := newtonLabels_ge ls 1 x hx
      simp [e]

mutual
/-- Every coordinate recorded below a call continues the coordinate of the caller with the level of the called system. -/
theorem runGroup_shape : ∀ (t : ETree) (rank : Nat) (p : Coord) (chain : List (Str × Bool)), ∀ e ∈ runGroup rank (some p) chain t,
    ∃ k tup rest, e.coord = ⟨p.rank, p.levels ++ (levLab p chain t.name k, tup) :: rest⟩
  | .group name kind steps, rank, p, chain, e, he => by
    rw [runGroup, createMeta_some] at he
    obtain ⟨tup, -, rest, h⟩ := runSteps_shape steps rank p.rank p.levels _ _ _ e he
    exact ⟨kind, tup, rest, h⟩
theorem runSteps_shape : ∀ (steps : List (List ETree)) (rank r : Nat) (pre : List (Str × List Nat)) (x : Str × List Nat)
    (chain : List (Str × Bool)) (labels : List (List Nat × Bool)), ∀ e ∈ runSteps rank ⟨r, pre ++ [x]⟩ chain labels steps,
    ∃ tup ∈ labels.map (·.1), ∃ rest, e.coord = ⟨r, pre ++ (x.1, tup) :: rest⟩
  | [], _, _, _, _, _, _, e, he => by simp [runSteps] at he
  | subs :: steps, rank, r, pre, x, chain, [], e, he => by simp [runSteps] at he
  | subs :: steps, rank, r, pre, x, chain, (l, b) :: labels, e, he => by
    simp only [runSteps, updateMeta_snoc, List.mem_append] at he
    rcases he with (he | he) | he
    · obtain ⟨t, -, k, tup, rest, h⟩ := runSubs_shape subs rank ⟨r, pre ++ [(x.1, l)]⟩ chain e he
      exact ⟨l, by simp, (levLab ⟨r, pre ++ [(x.1, l)]⟩ chain t.name k, tup) :: rest, by simp [h]⟩
    · split_ifs at he
      · simp only [List.mem_singleton] at he
        subst he
        exact ⟨l, by simp, [], rfl⟩
      · simp at he
    · obtain ⟨tup, h1, rest, h2⟩ := runSteps_shape steps rank r pre x chain labels e he
      exact ⟨tup, by simp [h1], rest, h2⟩
theorem runSubs_shape : ∀ (ts : List ETree) (rank : Nat) (c : Coord) (chain : List (Str × Bool)), ∀ e ∈ runSubs rank c chain ts,
    ∃ t ∈ ts, ∃ k tup rest, e.coord = ⟨c.rank, c.levels ++ (levLab c chain t.name k, tup) :: rest⟩
  | [], _, _, _, e, he => by simp [runSubs] at he
  | t :: ts, rank, c, chain, e, he => by
    simp only [runSubs, List.mem_append] at he
    rcases he with he | he
    · exact ⟨t, by simp, runGroup_shape t rank c chain e he⟩
    · obtain ⟨t', h1, h2⟩ := runSubs_shape ts rank c chain e he
      exact ⟨t', by simp [h1], h2⟩
end

/-- Last component of the name in the coordinate is the name of the system. -/
theorem levLab_last (p : Coord) {chain : List (Str × Bool)} {name : Str} (kind : SKind) (hc : chain ≠ []) (hn : GoodName name) :
    (pySplit '.' (levLab p chain name kind)).getLast? = some name := by
  have key : (pySplit '.' (levelName chain name kind)).getLast? = some name := by
    simp only [levelName]
    split_ifs
    · rw [pySplit_none _ _ hn.2.1]; rfl
    · obtain ⟨x, xs, rfl⟩ := List.exists_cons_of_ne_nil hc
      simp only [pathOf, List.cons_append, List.tail_cons, List.map_append, List.map_cons, List.map_nil]
      rcases xs with _ | ⟨y, ys⟩
      · simp [pyJoin, pySplit_none _ _ hn.2.1]
      · rw [pyJoin_append _ _ _ (by simp) (by simp), pySplit_append]
        simp [pyJoin, pySplit_none _ _ hn.2.1]
  have hne : levelName chain name kind ≠ [] := by
    intro h
    rw [h] at key
    simp [pySplit] at key
    exact hn.1 key
  simp only [levLab, hne, and_false, if_false]
  exact key

mutual
theorem runGroup_nodup : ∀ (t : ETree) (rank : Nat) (p : Coord) (chain : List (Str × Bool)), t.Ok ∨ RootOk t →
    ((runGroup rank (some p) chain t).map (·.coord)).Nodup
  | .group name kind steps, rank, p, chain, h => by
    rw [runGroup, createMeta_some]
    have hs : StepsOk steps := by
      rcases h with h | h
      · rw [ETree.Ok] at h; exact h.2
      · exact h.2
    exact runSteps_nodup steps rank p.rank p.levels _ _ _ (by simp) hs (stepLabels_nodup _ _)
theorem runSteps_nodup : ∀ (steps : List (List ETree)) (rank r : Nat) (pre : List (Str × List Nat)) (x : Str × List Nat)
    (chain : List (Str × Bool)) (labels : List (List Nat × Bool)), chain ≠ [] → StepsOk steps → (labels.map (·.1)).Nodup →
    ((runSteps rank ⟨r, pre ++ [x]⟩ chain labels steps).map (·.coord)).Nodup
  | [], _, _, _, _, _, _, _, _, _ => by simp [runSteps]
  | subs :: steps, rank, r, pre, x, chain, [], _, _, _ => by simp [runSteps]
  | subs :: steps, rank, r, pre, x, chain, (l, b) :: labels, hc, hs, hl => by
    rw [StepsOk] at hs
    simp only [List.map_cons, List.nodup_cons] at hl
    simp only [runSteps, updateMeta_snoc, List.map_append]
    have own : ∀ e ∈ (if b = true then [(⟨⟨r, pre ++ [(x.1, l)]⟩, chain⟩ : Event)] else []), e.coord = ⟨r, pre ++ [(x.1, l)]⟩ := by
      intro e he; split_ifs at he
      · simp at he; rw [he]
      · simp at he
    rw [List.nodup_append', List.nodup_append']
    refine ⟨⟨runSubs_nodup subs rank _ chain hc hs.1.1 hs.1.2, by split_ifs <;> simp, ?_⟩,
      runSteps_nodup steps rank r pre x chain labels hc hs.2 hl.2, ?_⟩
    · intro c h1 h2
      obtain ⟨e1, he1, rfl⟩ := List.mem_map.1 h1
      obtain ⟨e2, he2, h3⟩ := List.mem_map.1 h2
      obtain ⟨t, -, k, tup, rest, h4⟩ := runSubs_shape subs rank _ chain e1 he1
      rw [own e2 he2, h4] at h3
      simp at h3
    · intro c h1 h2
      obtain ⟨e2, he2, h3⟩ := List.mem_map.1 h2
      obtain ⟨tup, h5, rest, h4⟩ := runSteps_shape steps rank r pre x chain labels e2 he2
      rcases List.mem_append.1 h1 with h1 | h1
      · obtain ⟨e1, he1, rfl⟩ := List.mem_map.1 h1
        obtain ⟨t, -, k, tup', rest', h6⟩ := runSubs_shape subs rank _ chain e1 he1
        rw [h4, h6] at h3
        simp at h3
        exact hl.1 (h3.1 ▸ h5)
      · obtain ⟨e1, he1, rfl⟩ := List.mem_map.1 h1
        rw [h4, own e1 he1] at h3
        simp at h3
        exact hl.1 (h3.1 ▸ h5)
theorem runSubs_nodup : ∀ (ts : List ETree) (rank : Nat) (c : Coord) (chain : List (Str × Bool)), chain ≠ [] → SubsOk ts →
    (ts.map ETree.name).Nodup → ((runSubs rank c chain ts).map (·.coord)).Nodup
  | [], _, _, _, _, _, _ => by simp [runSubs]
  | t :: ts, rank, c, chain, hc, hs, hn => by
    rw [SubsOk] at hs
    simp only [List.map_cons, List.nodup_cons] at hn
    simp only [runSubs, List.map_append, List.nodup_append']
    refine ⟨runGroup_nodup t rank c chain (.inl hs.1), runSubs_nodup ts rank c chain hc hs.2 hn.2, ?_⟩
    intro d h1 h2
    obtain ⟨e1, he1, rfl⟩ := List.mem_map.1 h1
    obtain ⟨e2, he2, h3⟩ := List.mem_map.1 h2
    obtain ⟨k, tup, rest, h4⟩ := runGroup_shape t rank c chain e1 he1
    obtain ⟨t', ht', k', tup', rest', h5⟩ := runSubs_shape ts rank c chain e2 he2
    rw [h4, h5] at h3
    simp at h3
    have g1 := okName t hs.1
    have g2 := okName t' (subsOk_mem ts hs.2 t' ht')
    have := levLab_last c k hc g1
    rw [← h3.1.1, levLab_last c k' hc g2] at this
    simp at this
    exact hn.1 (this ▸ List.mem_map_of_mem ht')
theorem okName : ∀ t : ETree, t.Ok → GoodName t.name
  | .group _ _ _, h => by rw [ETree.Ok] at h; exact h.1
theorem subsOk_mem : ∀ ts : List ETree, SubsOk ts → ∀ t ∈ ts, t.Ok
  | [], _, t, ht => by simp at ht
  | a :: ts, h, t, ht => by
    rw [SubsOk] at h
    rcases List.mem_cons.1 ht with rfl | ht
    · exact h.1
    · exact subsOk_mem ts h.2 t ht
end

theorem levLab_bar (p : Coord) {chain : List (Str × Bool)} {name : Str} (kind : SKind) (hc : ∀ x ∈ chain, '|' ∉ x.1)
    (hn : '|' ∉ name) : '|' ∉ levLab p chain name kind := by
  have : '|' ∉ levelName chain name kind := by
    simp only [levelName]
    split_ifs
    · exact hn
    · apply not_mem_pyJoin _ _ (by decide)
      intro q hq
      obtain ⟨x, hx, rfl⟩ := List.mem_map.1 hq
      rcases List.mem_append.1 (List.mem_of_mem_tail hx) with h | h
      · exact hc x h
      · simp at h; rw [h]; exact hn
  simp only [levLab]
  split_ifs
  · decide
  · exact this

theorem coordOk_snoc {r : Nat} {pre : List (Str × List Nat)} {x : Str × List Nat} (h : ∀ l ∈ pre, '|' ∉ l.1 ∧ l.2 ≠ [])
    (h1 : '|' ∉ x.1) (h2 : x.2 ≠ []) : CoordOk ⟨r, pre ++ [x]⟩ := by
  intro l hl
  rcases List.mem_append.1 hl with hl | hl
  · exact h l hl
  · simp at hl; rw [hl]; exact ⟨h1, h2⟩

mutual
theorem runGroup_ok : ∀ (t : ETree) (rank : Nat) (p : Coord) (chain : List (Str × Bool)), t.Ok ∨ RootOk t → CoordOk p →
    (∀ x ∈ chain, '|' ∉ x.1) → ∀ e ∈ runGroup rank (some p) chain t, CoordOk e.coord
  | .group name kind steps, rank, p, chain, h, hp, hc, e, he => by
    rw [runGroup, createMeta_some] at he
    have hs : StepsOk steps ∧ '|' ∉ name := by
      rcases h with h | h
      · rw [ETree.Ok] at h; exact ⟨h.2, h.1.2.2⟩
      · exact ⟨h.2, by rw [h.1]; simp⟩
    refine runSteps_ok steps rank p.rank p.levels _ _ _ hp (levLab_bar p kind hc hs.2) ?_ hs.1 (stepLabels_ne _ _) e he
    intro x hx
    rcases List.mem_append.1 hx with hx | hx
    · exact hc x hx
    · simp at hx; rw [hx]; exact hs.2
theorem runSteps_ok : ∀ (steps : List (List ETree)) (rank r : Nat) (pre : List (Str × List Nat)) (x : Str × List Nat)
    (chain : List (Str × Bool)) (labels : List (List Nat × Bool)), (∀ l ∈ pre, '|' ∉ l.1 ∧ l.2 ≠ []) → '|' ∉ x.1 →
    (∀ x ∈ chain, '|' ∉ x.1) → StepsOk steps → (∀ x ∈ labels, x.1 ≠ []) →
    ∀ e ∈ runSteps rank ⟨r, pre ++ [x]⟩ chain labels steps, CoordOk e.coord
  | [], _, _, _, _, _, _, _, _, _, _, _, e, he => by simp [runSteps] at he
  | subs :: steps, rank, r, pre, x, chain, [], _, _, _, _, _, e, he => by simp [runSteps] at he
  | subs :: steps, rank, r, pre, x, chain, (l, b) :: labels, hp, hx, hc, hs, hl, e, he => by
    rw [StepsOk] at hs
    simp only [runSteps, updateMeta_snoc, List.mem_append] at he
    have ok : CoordOk ⟨r, pre ++ [(x.1, l)]⟩ := coordOk_snoc hp hx (hl (l, b) (by simp))
    rcases he with (he | he) | he
    · exact runSubs_ok subs rank _ chain ok hc hs.1.1 e he
    · split_ifs at he
      · simp only [List.mem_singleton] at he
        subst he; exact ok
      · simp at he
    · exact runSteps_ok steps rank r pre x chain labels hp hx hc hs.2 (fun y hy => hl y (List.mem_cons_of_mem _ hy)) e he
theorem runSubs_ok : ∀ (ts : List ETree) (rank : Nat) (c : Coord) (chain : List (Str × Bool)), CoordOk c →
    (∀ x ∈ chain, '|' ∉ x.1) → SubsOk ts → ∀ e ∈ runSubs rank c chain ts, CoordOk e.coord
  | [], _, _, _, _, _, _, e, he => by simp [runSubs] at he
  | t :: ts, rank, c, chain, h, hc, hs, e, he => by
    rw [SubsOk] at hs
    simp only [runSubs, List.mem_append] at he
    rcases he with he | he
    · exact runGroup_ok t rank c chain (.inl hs.1) h hc e he
    · exact runSubs_ok ts rank c chain h hc hs.2 e he
end

/-! ### Names in the coordinate -/

/-- The names that the levels below the driver carry for a chain of systems. -/
def chainLabels : List (Str × Bool) → List (Str × Bool) → List Str
  | _, [] => []
  | pre, x :: xs => (if x.2 then x.1 else pathOf (pre ++ [x])) :: chainLabels (pre ++ [x]) xs

theorem chainLabels_append (a b pre : List (Str × Bool)) : chainLabels pre (a ++ b) = chainLabels pre a ++ chainLabels (pre ++ a) b := by
  induction a generalizing pre with
  | nil => simp [chainLabels]
  | cons x a ih => simp [chainLabels, ih]

/-- The coordinate of a system with the given chain of systems below a driver. -/
def Labelled (d : Str) (e : Event) : Prop :=
  ∃ rt xs, e.chain = rt :: xs ∧ (∀ x ∈ xs, GoodName x.1) ∧ e.coord.levels.map (·.1) = d :: "root".toList :: chainLabels [rt] xs

mutual
theorem runGroup_labelled (d : Str) : ∀ (t : ETree) (rank : Nat) (p : Coord) (rt : Str × Bool) (xs : List (Str × Bool)), t.Ok →
    p.levels.map (·.1) = d :: "root".toList :: chainLabels [rt] xs → (∀ x ∈ xs, GoodName x.1) →
    ∀ e ∈ runGroup rank (some p) (rt :: xs) t, Labelled d e
  | .group name kind steps, rank, p, rt, xs, h, hp, hc, e, he => by
    rw [ETree.Ok] at h
    rw [runGroup, createMeta_some] at he
    refine runSteps_labelled d steps rank p.rank p.levels _ rt (xs ++ [(name, kind.usesName)]) _ h.2 ?_ ?_ e he
    · have hlen : p.levels.length ≠ 1 := by
        have := congrArg List.length hp
        simp at this; omega
      simp only [hp, chainLabels_append, chainLabels, levLab, hlen, false_and, if_false, levelName]
      simp
    · intro x hx
      rcases List.mem_append.1 hx with hx | hx
      · exact hc x hx
      · simp at hx; rw [hx]; exact h.1
theorem runSteps_labelled (d : Str) : ∀ (steps : List (List ETree)) (rank r : Nat) (pre : List (Str × List Nat)) (x : Str × List Nat)
    (rt : Str × Bool) (xs : List (Str × Bool)) (labels : List (List Nat × Bool)), StepsOk steps →
    pre.map (·.1) ++ [x.1] = d :: "root".toList :: chainLabels [rt] xs → (∀ x ∈ xs, GoodName x.1) →
    ∀ e ∈ runSteps rank ⟨r, pre ++ [x]⟩ (rt :: xs) labels steps, Labelled d e
  | [], _, _, _, _, _, _, _, _, _, _, e, he => by simp [runSteps] at he
  | subs :: steps, rank, r, pre, x, _, _, [], _, _, _, e, he => by simp [runSteps] at he
  | subs :: steps, rank, r, pre, x, rt, xs, (l, b) :: labels, hs, hx, hc, e, he => by
    rw [StepsOk] at hs
    simp only [runSteps, updateMeta_snoc, List.mem_append] at he
    rcases he with (he | he) | he
    · exact runSubs_labelled d subs rank _ rt xs hs.1.1 (by simpa using hx) hc e he
    · split_ifs at he
      · simp only [List.mem_singleton] at he
        subst he; exact ⟨rt, xs, rfl, hc, by simpa using hx⟩
      · simp at he
    · exact runSteps_labelled d steps rank r pre x rt xs labels hs.2 hx hc e he
theorem runSubs_labelled (d : Str) : ∀ (ts : List ETree) (rank : Nat) (c : Coord) (rt : Str × Bool) (xs : List (Str × Bool)), SubsOk ts →
    c.levels.map (·.1) = d :: "root".toList :: chainLabels [rt] xs → (∀ x ∈ xs, GoodName x.1) →
    ∀ e ∈ runSubs rank c (rt :: xs) ts, Labelled d e
  | [], _, _, _, _, _, _, _, e, he => by simp [runSubs] at he
  | t :: ts, rank, c, rt, xs, hs, h, hc, e, he => by
    rw [SubsOk] at hs
    simp only [runSubs, List.mem_append] at he
    rcases he with he | he
    · exact runGroup_labelled d t rank c rt xs hs.1 h hc e he
    · exact runSubs_labelled d ts rank c rt xs hs.2 h hc e he
end

theorem rootGroup_labelled (d : Str) (t : ETree) (rank r : Nat) (l : List Nat) (h : RootOk t) :
    ∀ e ∈ runGroup rank (some ⟨r, [(d, l)]⟩) [] t, Labelled d e := by
  cases t with
  | group name kind steps =>
    obtain ⟨hn, hs⟩ := h
    subst hn
    intro e he
    rw [runGroup, createMeta_some] at he
    refine runSteps_labelled d steps rank r [(d, l)] _ ([], kind.usesName) [] _ hs ?_ (by simp) e he
    have : levelName [] [] kind = [] := by
      simp only [levelName]; split_ifs <;> rfl
    simp [levLab, this, chainLabels]

end OpenMDAO
