import Verif.Lemmas.Vec
/-!
# Properties C05 - C07 (`openmdao/core/vec_wrapper.py`)
-/
namespace OpenMDAO

variable {α β : Type}

theorem tiles_layAccs (metas : List (VarMeta α β)) (s h : Nat) :
    TilesFrom s ((layAccs s h metas).filterMap (·.slice)) (s + laySize metas) := by
  induction metas generalizing s h with
  | nil => exact TilesFrom.nil s
  | cons m ms ih =>
    unfold layAccs laySize
    by_cases hr : m.relevant = false
    · simpa [hr] using ih s h
    · have hr' : m.relevant = true := by simpa using hr
      by_cases hs : m.stored
      · simp only [hr', hs, Bool.true_eq_false, if_false, if_true, and_self, List.filterMap_cons]
        refine TilesFrom.cons (by omega) ?_
        have := ih (s + m.size) h
        rwa [Nat.add_assoc] at this
      · simp only [hr', hs, Bool.true_eq_false, if_false, and_false, List.filterMap_cons]
        exact ih s _

theorem TilesFrom.cover {s n : Nat} {l : List (Nat × Nat)} (h : TilesFrom s l n) :
    ∀ k, s ≤ k → k < n → ∃ r ∈ l, r.1 ≤ k ∧ k < r.2 := by
  induction h with
  | nil s => intro k h1 h2; omega
  | @cons s e n l hse _ ih =>
    intro k h1 h2
    by_cases hk : k < e
    · exact ⟨(s, e), by simp, h1, hk⟩
    · obtain ⟨r, hr, hk⟩ := ih k (by omega) h2
      exact ⟨r, by simp [hr], hk⟩

/-- C05. For every list of declared variables setup succeeds; the vector holds exactly the relevant
variables in declaration order; the storage ranges are consecutive from 0 and end at the length of the flat
vector; each range is as long as its variable and is the window the variable reads and writes;
pass-by-object and remote variables have no range; every flat position belongs to exactly one variable. -/
theorem C05_variables_tile_vector [Zero α] (metas : List (VarMeta α β)) (storeByobjs : Bool)
    (hn : (metas.map (·.name)).Nodup) (hd : ∀ m ∈ metas, WellDeclared m) :
    ∃ w m, srcSetup metas storeByobjs = .ok (w, m) ∧
      w.dat.map (·.md) = metas.filter (·.relevant) ∧
      w.dat.map (·.name) = (metas.filter (·.relevant)).map (·.name) ∧
      TilesFrom 0 (w.dat.filterMap (·.slice)) w.len ∧ m.buf.length = w.len ∧
      (∀ a ∈ w.dat, a.md.stored → ∃ s, a.slice = some (s, s + a.md.size) ∧ a.off = s ∧ a.len = a.md.size) ∧
      (∀ a ∈ w.dat, ¬ a.md.stored → a.slice = none) ∧
      (∀ k, k < w.len → ∃! a, a ∈ w.dat ∧ ∃ s e, a.slice = some (s, e) ∧ s ≤ k ∧ k < e) := by
  obtain ⟨w, m, h1, -, h3, -, h5, h6, -, L, -⟩ := srcSetup_ok metas hn hd storeByobjs
  have ht := tiles_layAccs metas 0 0
  rw [Nat.zero_add] at ht
  have hmem := layAccs_mem metas 0 0
  refine ⟨w, m, h1, by rw [h5, layAccs_md], by rw [h5, layAccs_names], by rw [h5, h3]; exact ht, by omega, ?_, ?_, ?_⟩
  · intro a ha hs
    rw [h5] at ha
    obtain ⟨-, -, q3, q4⟩ := (hmem a ha).2.2.2.1 hs
    exact ⟨a.off, by rw [q4, q3], rfl, q3⟩
  · intro a ha hs
    rw [h5] at ha
    exact ((hmem a ha).2.2.2.2.1 hs).1
  · intro k hk
    rw [h3] at hk
    obtain ⟨⟨s, e⟩, hr, hk1, hk2⟩ := ht.cover k (by omega) hk
    obtain ⟨a, ha, hsl⟩ := List.mem_filterMap.mp hr
    refine ⟨a, ⟨by rw [h5]; exact ha, s, e, hsl, hk1, hk2⟩, ?_⟩
    rintro b ⟨hb, s', e', hsl', hk1', hk2'⟩
    rw [h5] at hb
    by_contra hne
    have st : ∀ c ∈ layAccs 0 0 metas, ∀ x, c.slice = some x → c.md.stored := by
      intro c hc x hx
      by_contra hns
      rw [((hmem c hc).2.2.2.2.1 hns).1] at hx
      simp at hx
    have hbs := st b hb _ hsl'
    have has := st a ha _ hsl
    have hab : a.name ≠ b.name := by
      intro hname
      have f1 := find_eq L.names (a := a) (by rw [h5]; exact ha)
      have f2 := find_eq L.names (a := b) (by rw [h5]; exact hb)
      rw [hname, f2] at f1
      exact hne (by simpa using f1)
    have hdj := (L.sep (by rw [h5]; exact ha) (by rw [h5]; exact hb) hab).1 has hbs
    obtain ⟨-, -, -, a4⟩ := (hmem a ha).2.2.2.1 has
    obtain ⟨-, -, -, b4⟩ := (hmem b hb).2.2.2.1 hbs
    rw [hsl] at a4; rw [hsl'] at b4
    simp only [Option.some.injEq, Prod.mk.injEq] at a4 b4
    unfold Disj at hdj; omega

/-- A mixed declaration: scalar, array, object, remote, irrelevant. -/
def demoMetas : List (VarMeta Int String) :=
  [⟨"a", 1, true, false, false, true, [7], .obj "", none⟩, ⟨"b", 3, false, false, false, true, [1, 2, 3], .obj "", none⟩,
   ⟨"c", 0, false, true, false, true, [], .obj "file", none⟩, ⟨"d", 2, false, false, true, true, [0, 0], .obj "", none⟩,
   ⟨"e", 2, false, false, false, false, [0, 0], .obj "", none⟩, ⟨"f", 2, false, false, false, true, [8, 9], .obj "", none⟩]

theorem demoMetas_ok : (demoMetas.map (·.name)).Nodup ∧ ∀ m ∈ demoMetas, WellDeclared m := by
  refine ⟨by decide, ?_⟩
  intro m hm
  simp only [demoMetas, List.mem_cons, List.not_mem_nil, or_false] at hm
  rcases hm with rfl | rfl | rfl | rfl | rfl | rfl <;> exact ⟨by simp, by simp⟩

example : (srcSetup demoMetas true).toOption.map (fun r => (r.1.dat.map (·.slice), r.1.len, r.2.buf)) =
    some ([some (0, 1), some (1, 4), none, none, some (4, 6)], 6, [7, 1, 2, 3, 8, 9]) := by decide

variable [Add α] [Mul α] [Zero α] [DecidableEq α]

/-- Runs a sequence of assignments; one that raises leaves the memory as it was (the model's setters
perform no write before raising). -/
def runSets (w : VecW α β) (m : Mem α β) (ops : List (String × PyVal α β)) : Mem α β :=
  ops.foldl (fun m op => match w.set m op.1 op.2 with | .ok m' => m' | .error _ => m) m

omit [Add α] [Mul α] [Zero α] [DecidableEq α] in
theorem runSets_layout (w : VecW α β) (ops : List (String × PyVal α β)) (m : Mem α β)
    (h : ∀ (m m' : Mem α β) name v, w.set m name v = .ok m' → Layout w m.buf.length m.heap.length →
      m'.buf.length = m.buf.length ∧ m'.heap.length = m.heap.length)
    (L : Layout w m.buf.length m.heap.length) :
    Layout w (runSets w m ops).buf.length (runSets w m ops).heap.length := by
  induction ops generalizing m with
  | nil => exact L
  | cons op ops ih =>
    apply ih
    simp only
    cases hs : w.set m op.1 op.2 with
    | error e => exact L
    | ok m' =>
      obtain ⟨h1, h2⟩ := h m m' _ _ hs L
      simp only [h1, h2]; exact L

theorem set_lengths {w : VecW α β} {m m' : Mem α β} {name : String} {v : PyVal α β}
    (h : w.set m name v = .ok m') (L : Layout w m.buf.length m.heap.length) :
    m'.buf.length = m.buf.length ∧ m'.heap.length = m.heap.length := by
  unfold VecW.set at h
  cases hf : w.find name with
  | none => rw [hf] at h; simp at h
  | some a =>
    rw [hf] at h
    obtain ⟨ha, rfl⟩ := find_mem hf
    obtain ⟨s1, s2⟩ := Acc.set_spec (m := m) v (L.bounds a ha) (L.decl a ha) (L.addr a ha)
    cases hs : storedAs a.md v with
    | none => obtain ⟨e, he⟩ := s1 hs; simp [he] at h
    | some s =>
      obtain ⟨m'', e1, e2, e3, -⟩ := s2 s hs
      simp only [e1, Except.ok.injEq] at h
      subst h
      exact ⟨e2, e3⟩

/-- reading back after a run, for any vector with a valid layout -/
theorem runSets_get {w : VecW α β} (ops : List (String × PyVal α β)) {m : Mem α β}
    (L : Layout w m.buf.length m.heap.length) {a : Acc α β} (ha : a ∈ w.dat) (hname : a.name = a.md.name)
    (hu : a.md.unitConv = none) {cur : PyVal α β} (hcur : w.get m a.name = .ok cur) :
    w.get (runSets w m ops) a.name = .ok (lastValue a.md cur ops) := by
  induction ops generalizing m cur with
  | nil => exact hcur
  | cons op ops ih =>
    obtain ⟨n, v⟩ := op
    have hf := find_eq L.names ha
    have step : ∀ m1, (match w.set m n v with | .ok m' => m' | .error _ => m) = m1 →
        Layout w m1.buf.length m1.heap.length ∧
        w.get m1 a.name = .ok (if n = a.md.name then (storedAs a.md v).getD cur else cur) := by
      intro m1 hm1
      cases hs : w.set m n v with
      | error e =>
        rw [hs] at hm1
        simp only at hm1
        subst hm1
        refine ⟨L, ?_⟩
        split
        · rename_i hn
          rw [hn, ← hname] at hs
          unfold VecW.set at hs
          rw [hf] at hs
          obtain ⟨s1, s2⟩ := Acc.set_spec (m := m) v (L.bounds a ha) (L.decl a ha) (L.addr a ha)
          cases hst : storedAs a.md v with
          | none => simpa using hcur
          | some s => obtain ⟨m'', e1, -⟩ := s2 s hst; simp [e1] at hs
        · exact hcur
      | ok m' =>
        rw [hs] at hm1
        simp only at hm1
        subst hm1
        obtain ⟨l1, l2⟩ := set_lengths hs L
        refine ⟨by rw [l1, l2]; exact L, ?_⟩
        split
        · rename_i hn
          rw [hn, ← hname] at hs
          unfold VecW.set at hs
          rw [hf] at hs
          obtain ⟨s1, s2⟩ := Acc.set_spec (m := m) v (L.bounds a ha) (L.decl a ha) (L.addr a ha)
          cases hst : storedAs a.md v with
          | none => obtain ⟨e, he⟩ := s1 hst; simp [he] at hs
          | some s =>
            obtain ⟨m'', e1, -, -, e4, -⟩ := s2 s hst
            simp only [e1, Except.ok.injEq] at hs
            subst hs
            simp only [VecW.get, hf, Option.getD_some]
            exact e4 hu _
        · rename_i hn
          rw [(VecW.set_other L hs (by rw [hname]; exact fun h => hn h.symm)).1]
          exact hcur
    obtain ⟨L1, g1⟩ := step _ rfl
    have := ih L1 g1
    simp only [runSets, List.foldl_cons, lastValue] at this ⊢
    rw [this]
    split <;> rfl

/-- C06. After setup of the unknowns vector and any sequence of assignments (some possibly rejected),
reading a local variable returns the value last accepted for it, or its declared initial value. -/
theorem C06_read_returns_last_assignment (metas : List (VarMeta α β)) (hn : (metas.map (·.name)).Nodup)
    (hd : ∀ m ∈ metas, WellDeclared m) (ops : List (String × PyVal α β)) :
    ∃ w m, srcSetup metas true = .ok (w, m) ∧
      ∀ md ∈ metas, md.relevant = true → md.unitConv = none → md.remote = false →
        w.get (runSets w m ops) md.name = .ok (lastValue md md.initial ops) := by
  obtain ⟨w, m, h1, -, -, h4, h5, h6, h7, L, h8⟩ := srcSetup_ok metas hn hd true
  refine ⟨w, m, h1, ?_⟩
  intro md hmd hrel hu hr
  have hin : md ∈ (layAccs 0 0 metas).map (·.md) := by
    rw [layAccs_md]; exact List.mem_filter.mpr ⟨hmd, hrel⟩
  obtain ⟨a, ha, rfl⟩ := List.mem_map.mp hin
  obtain ⟨-, -, q3, q4, -, q6⟩ := layAccs_mem metas 0 0 a ha
  have haw : a ∈ w.dat := by rw [h5]; exact ha
  rw [← q3]
  apply runSets_get ops L haw q3 hu
  simp only [VecW.get, find_eq L.names haw]
  by_cases hp : a.md.pbo = true
  · simp only [Acc.get, hr, hp, hu, VarMeta.initial, Bool.false_eq_true, if_false, if_true]
    have := (q6 hp).2.2
    rw [h7, show a.addr = a.addr - 0 by omega, this]
  · have hp : a.md.pbo = false := by simpa using hp
    have hst : a.md.stored := ⟨hp, hr⟩
    rw [Acc.get_stored hst (L.bounds a haw hst).1, hu]
    simp only [h8 rfl a haw hst, VarMeta.initial, hp, Bool.false_eq_true, if_false]
    by_cases hsc : a.md.scalar = true
    · have hv := (L.decl a haw).val hp
      rw [(L.decl a haw).scalar hsc hp] at hv
      obtain ⟨x, hx⟩ := List.length_eq_one_iff.mp hv
      simp [hsc, hx]
    · simp [hsc]

/-- C06. An assignment is accepted exactly when the specification accepts it (a remote variable or a size
mismatch is rejected with an exception), in every state reachable by assignments; unknown names raise
`KeyError`; an accepted assignment changes no other variable. -/
theorem C06_assignment_effect (metas : List (VarMeta α β)) (hn : (metas.map (·.name)).Nodup)
    (hd : ∀ m ∈ metas, WellDeclared m) (ops : List (String × PyVal α β)) (v : PyVal α β) :
    ∃ w m, srcSetup metas true = .ok (w, m) ∧
      (∀ md ∈ metas, md.relevant = true →
        ((∃ m', w.set (runSets w m ops) md.name v = .ok m') ↔ (storedAs md v).isSome = true)) ∧
      (∀ md ∈ metas, md.relevant = true → md.remote = true →
        w.get (runSets w m ops) md.name = .error .RuntimeError ∧
        w.set (runSets w m ops) md.name v = .error .RuntimeError) ∧
      (∀ name, name ∉ metas.map (·.name) → w.get (runSets w m ops) name = .error .KeyError ∧
        w.set (runSets w m ops) name v = .error .KeyError) ∧
      (∀ name other m', w.set (runSets w m ops) name v = .ok m' → other ≠ name →
        w.get m' other = w.get (runSets w m ops) other) := by
  obtain ⟨w, m, h1, -, -, h4, h5, h6, h7, L, h8⟩ := srcSetup_ok metas hn hd true
  have L' := runSets_layout w ops m (fun m m' name v h L => set_lengths h L) L
  have acc : ∀ md ∈ metas, md.relevant = true → ∃ a ∈ w.dat, a.md = md ∧ a.name = md.name := by
    intro md hmd hrel
    have hin : md ∈ (layAccs 0 0 metas).map (·.md) := by
      rw [layAccs_md]; exact List.mem_filter.mpr ⟨hmd, hrel⟩
    obtain ⟨a, ha, rfl⟩ := List.mem_map.mp hin
    exact ⟨a, by rw [h5]; exact ha, rfl, (layAccs_mem metas 0 0 a ha).2.2.1⟩
  refine ⟨w, m, h1, ?_, ?_, ?_, ?_⟩
  · intro md hmd hrel
    obtain ⟨a, ha, rfl, hname⟩ := acc md hmd hrel
    have hf := find_eq L.names ha
    obtain ⟨s1, s2⟩ := Acc.set_spec (m := runSets w m ops) v (L'.bounds a ha) (L'.decl a ha) (L'.addr a ha)
    rw [← hname]
    simp only [VecW.set, hf]
    cases hst : storedAs a.md v with
    | none => obtain ⟨e, he⟩ := s1 hst; simp [he]
    | some s => obtain ⟨m'', e1, -⟩ := s2 s hst; simp [e1]
  · intro md hmd hrel hr
    obtain ⟨a, ha, rfl, hname⟩ := acc md hmd hrel
    rw [← hname]
    simp [VecW.get, VecW.set, find_eq L.names ha, Acc.get, Acc.set, hr]
  · intro name hnm
    have : w.find name = none := by
      unfold VecW.find
      rw [List.find?_eq_none]
      intro a ha hc
      simp only [beq_iff_eq] at hc
      apply hnm
      have : a.name ∈ (layAccs 0 0 metas).map (·.name) := by rw [← h5]; exact List.mem_map_of_mem ha
      rw [layAccs_names, hc] at this
      obtain ⟨x, hx, rfl⟩ := List.mem_map.mp this
      exact List.mem_map_of_mem (List.mem_filter.mp hx).1
    simp [VecW.get, VecW.set, this]
  · intro name other m' hs hne
    exact (VecW.set_other L' hs hne).1

example : lastValue (α := Int) (β := String) ⟨"b", 3, false, false, false, true, [1, 2, 3], .obj "", none⟩
    (.arr [1, 2, 3]) [("b", .arr [4, 5, 6]), ("a", .num 1), ("b", .arr [1, 2]), ("b", .num 3)] =
    .arr [4, 5, 6] := by decide

end OpenMDAO
