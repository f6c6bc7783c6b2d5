import Verif.Lemmas.ConnIdx
/-! # C16: resolution of connections

Specification: `Joined s t` (in `Verif/Lemmas/Connections.lean`) says that `s` is *directly* connected to parameter `t`: by
an explicit connection, because the promoted name of `t` is that of the unknown `s`, or because both are promoted to the
same name that belongs to no unknown. `Reaches` is its transitive closure, `Together` the equivalence it generates. -/
namespace OpenMDAO
set_option linter.unusedSectionVars false

/-- `s` reaches `t` through declared connections, followed from source to target. -/
def Reaches (toAbsU : List (String × String)) (toAbsP : List (String × List String)) (explicit : ConnDict) : String → String → Prop :=
  Relation.TransGen (Joined toAbsU toAbsP explicit)

/-- Connected through declared connections, in whatever direction. -/
def Together (toAbsU : List (String × String)) (toAbsP : List (String × List String)) (explicit : ConnDict) : String → String → Prop :=
  Relation.EqvGen (Joined toAbsU toAbsP explicit)

/-- What the caller guarantees: no unknown is the target of a connection (`_get_explicit_connections` checks it for explicit
ones, names of parameters and unknowns are distinct), and `usrcs` is the set of unknowns that are sources, in any order. -/
structure ConnSetting (isUnk : String → Prop) (toAbsU : List (String × String)) (toAbsP : List (String × List String))
    (explicit : ConnDict) (usrcs : List String) : Prop where
  nodup : usrcs.Nodup
  mem : ∀ s, s ∈ usrcs ↔ isUnk s ∧ ∃ t, Joined toAbsU toAbsP explicit s t
  tgts : ∀ s t, Joined toAbsU toAbsP explicit s t → ¬ isUnk t

section
variable {isUnk : String → Prop} {toAbsU : List (String × String)} {toAbsP : List (String × List String)} {explicit : ConnDict}
  {usrcs : List String} {toProm : String → String} {r : ConnResult}

/-- Everything the two loops guarantee, in terms of the final table. -/
theorem setupConnections_inv (hs : ConnSetting isUnk toAbsU toAbsP explicit usrcs)
    (h : setupConnections toAbsU toAbsP explicit toProm usrcs = .ok r) :
    ∃ (g : InGraph) (nc : NewConns) (st : DangSt),
      GraphOK g (Joined toAbsU toAbsP explicit) (fun n => ∃ pp ∈ toAbsP, n ∈ pp.2) ∧
      Edge g.arcs = Joined toAbsU toAbsP explicit ∧
      NCInv g usrcs nc ∧ DangInv g nc st ∧ DangInv2 g nc toProm g.nodes st ∧
      (∀ n x, (n, x) ∈ st.nc.insertionSort (fun a b => a.1 ≤ b.1) ↔ st.nc.lookup n = some x) ∧
      ((st.nc.insertionSort (fun a b => a.1 ≤ b.1)).map Prod.fst).Nodup ∧
      r = { connections := (st.nc.insertionSort (fun a b => a.1 ≤ b.1)).filterMap finalConn,
            errors := ((st.nc.insertionSort (fun a b => a.1 ≤ b.1)).filter multiSrc).map Prod.fst,
            dangling := st.dangling, inputInputs := st.inputInputs } := by
  unfold setupConnections at h
  simp only at h
  have hg := inputGraph_spec toAbsU toAbsP explicit
  generalize inputGraph (addImplicit toAbsU toAbsP explicit).1 (addImplicit toAbsU toAbsP explicit).2 toAbsP = g at h hg
  have hedge : Edge g.arcs = Joined toAbsU toAbsP explicit := by
    funext s t; exact propext (hg.arcs s t)
  cases hw : usrcs.foldlM (walkSrc g) [] with
  | error e => rw [hw] at h; cases h
  | ok nc =>
    rw [hw] at h
    simp only [bind, Except.bind] at h
    cases hd : g.nodes.foldlM (dangNode g toProm) { nc := nc } with
    | error e => rw [hd] at h; cases h
    | ok st =>
      rw [hd] at h
      simp only [pure, Except.pure, Except.ok.injEq] at h
      have hn : NCInv g ([] ++ usrcs) nc := walkAll_spec g usrcs [] [] nc hw ⟨by simp, by simp⟩ (by simpa using hs.nodup) (by
        intro u hu s hc
        exact hs.tgts s u ((hg.arcs s u).mp hc) ((hs.mem u).mp hu).1)
      have hnd0 : (nc.map Prod.fst).Nodup := walkAll_nodup g usrcs [] nc hw List.nodup_nil
      obtain ⟨hd1, hd2⟩ := dangAll_spec (nc0 := nc) (toProm := toProm) g.nodes [] { nc := nc } st hd
        ⟨fun _ _ h => h, fun _ h => .inl h, hnd0⟩
        ⟨by simp, by simp, by simp⟩
      have hperm := List.perm_insertionSort (fun a b : String × Option (List (String × SrcIdx)) => a.1 ≤ b.1) st.nc
      refine ⟨g, nc, st, hg, hedge, hn, hd1, by simpa using hd2, ?_, ?_, h.symm⟩
      · intro n x
        rw [hperm.mem_iff, lookup_eq_some_iff_of_nodup _ _ _ hd1.nd]
      · exact (hperm.map _).nodup_iff.mpr hd1.nd

/-- The list of sources of a parameter that is compared with one when errors are reported. -/
theorem final_entry (hs : ConnSetting isUnk toAbsU toAbsP explicit usrcs) {g : InGraph} {nc : NewConns} {st : DangSt}
    (hedge : Edge g.arcs = Joined toAbsU toAbsP explicit) (hn : NCInv g usrcs nc) (hd1 : DangInv g nc st)
    {t : String} {x : Option (List (String × SrcIdx))} (hx : st.nc.lookup t = some x) :
    (x = none ∧ isUnk t) ∨
    (¬ isUnk t ∧ ∃ c l, x = some (c :: l) ∧ ((c :: l).map Prod.fst).Nodup ∧
      ∀ s, s ∈ (c :: l).map Prod.fst ↔ isUnk s ∧ Reaches toAbsU toAbsP explicit s t) ∨
    (¬ isUnk t ∧ (∀ u, isUnk u → ¬ Reaches toAbsU toAbsP explicit u t) ∧
      ∃ s, x = some [(s, none)] ∧ isUnk s ∧ Together toAbsU toAbsP explicit s t) := by
  have hfil : ∀ s t, s ∈ usrcs.filter (fun s => t ∈ (dfsEdges g.arcs s).map Prod.snd) ↔
      isUnk s ∧ Reaches toAbsU toAbsP explicit s t := by
    intro s t
    rw [List.mem_filter]
    simp only [decide_eq_true_eq, mem_dfs_iff, hedge]
    constructor
    · rintro ⟨h1, h2, -⟩; exact ⟨((hs.mem s).mp h1).1, h2⟩
    · rintro ⟨h1, h2⟩
      obtain ⟨z, hz, -⟩ := Relation.TransGen.head'_iff.mp h2
      refine ⟨(hs.mem s).mpr ⟨h1, z, hz⟩, h2, ?_⟩
      rintro rfl
      obtain ⟨z', -, hz'⟩ := Relation.TransGen.tail'_iff.mp h2
      exact hs.tgts _ _ hz' h1
  by_cases htu : t ∈ usrcs
  · have h1 := hd1.mono _ _ (hn.1 t htu)
    rw [hx] at h1
    simp only [Option.some.injEq] at h1
    exact .inl ⟨h1, ((hs.mem t).mp htu).1⟩
  · right
    rcases hn.2 t htu with ⟨h0, hemp⟩ | ⟨l, hne, h0, hl⟩
    · right
      rcases hd1.new t h0 with h1 | ⟨src, t', h1, h2, l', c', h3, h4⟩
      · rw [hx] at h1; cases h1
      · rw [hx] at h1
        simp only [Option.some.injEq] at h1
        have ht' : t' ∉ usrcs := by
          intro hk; rw [hn.1 t' hk] at h3; cases h3
        rcases hn.2 t' ht' with ⟨h5, -⟩ | ⟨l'', -, h5, h6⟩
        · rw [h3] at h5; cases h5
        · rw [h3] at h5
          simp only [Option.some.injEq] at h5
          have h7 := (hfil src t').mp (by rw [← h6, ← h5]; simp [h4])
          rw [hedge] at h2
          refine ⟨?_, ?_, src, h1, h7.1, ?_⟩
          · intro hk
            have : ∃ z, Joined toAbsU toAbsP explicit t z := by
              rcases eqvGen_cases h2 with rfl | ⟨⟨z, hz⟩ | ⟨z, hz⟩, -⟩
              · obtain ⟨z, -, hz⟩ := Relation.TransGen.tail'_iff.mp h7.2
                exact absurd hk (hs.tgts _ _ hz)
              · exact ⟨z, hz⟩
              · exact absurd hk (hs.tgts _ _ hz)
            exact htu ((hs.mem t).mpr ⟨hk, this⟩)
          · intro u hu hr
            have := (hfil u t).mpr ⟨hu, hr⟩
            rw [hemp] at this; cases this
          · exact .trans _ _ _ (reflTransGen_eqvGen h7.2.to_reflTransGen) (.symm _ _ h2)
    · left
      have h1 := hd1.mono _ _ h0
      rw [hx] at h1
      simp only [Option.some.injEq] at h1
      cases l with
      | nil => exact absurd rfl hne
      | cons c l =>
        refine ⟨?_, c, l, h1, ?_, ?_⟩
        · have h4 := (hfil c.1 t).mp (by rw [← hl]; simp)
          obtain ⟨z, -, hz⟩ := Relation.TransGen.tail'_iff.mp h4.2
          exact hs.tgts z t hz
        · rw [hl]; exact hs.nodup.filter _
        · intro s; rw [hl]; exact hfil s t

/-- A parameter that an unknown reaches has an entry. -/
theorem reached_entry (hs : ConnSetting isUnk toAbsU toAbsP explicit usrcs) {g : InGraph} {nc : NewConns} {st : DangSt}
    (hedge : Edge g.arcs = Joined toAbsU toAbsP explicit) (hn : NCInv g usrcs nc) (hd1 : DangInv g nc st)
    {u t : String} (hu : isUnk u) (hr : Reaches toAbsU toAbsP explicit u t) : ∃ x, st.nc.lookup t = some x := by
  have hsub : u ∈ usrcs.filter (fun s => t ∈ (dfsEdges g.arcs s).map Prod.snd) := by
    rw [List.mem_filter]
    simp only [decide_eq_true_eq, mem_dfs_iff, hedge]
    obtain ⟨z, hz, -⟩ := Relation.TransGen.head'_iff.mp hr
    refine ⟨(hs.mem u).mpr ⟨hu, z, hz⟩, hr, ?_⟩
    rintro rfl
    obtain ⟨z', -, hz'⟩ := Relation.TransGen.tail'_iff.mp hr
    exact hs.tgts _ _ hz' hu
  have htu : t ∉ usrcs := by
    intro ht
    obtain ⟨z', -, hz'⟩ := Relation.TransGen.tail'_iff.mp hr
    exact hs.tgts _ _ hz' ((hs.mem t).mp ht).1
  rcases hn.2 t htu with ⟨-, h0⟩ | ⟨l, -, h0, -⟩
  · rw [h0] at hsub; cases hsub
  · exact ⟨_, hd1.mono _ _ h0⟩

theorem mem_connections_iff {items : List (String × Option (List (String × SrcIdx)))} {t : String} {c : String × SrcIdx} :
    (t, c) ∈ items.filterMap finalConn ↔ ∃ l, (t, some (c :: l)) ∈ items := by
  rw [List.mem_filterMap]
  constructor
  · rintro ⟨⟨k, v⟩, he, hf⟩
    unfold finalConn at hf
    split at hf
    · rename_i c' l hv
      simp only [Option.some.injEq, Prod.mk.injEq] at hf hv
      obtain ⟨rfl, rfl⟩ := hf
      exact ⟨l, by rw [← hv]; exact he⟩
    · cases hf
  · rintro ⟨l, hl⟩
    exact ⟨_, hl, rfl⟩

/-- **C16, one source.** Whatever order the set of sources is iterated in, every connected parameter has exactly one source,
which is an unknown; the source reaches it, or no unknown reaches it and it is connected to it through other parameters. -/
theorem C16_one_source (hs : ConnSetting isUnk toAbsU toAbsP explicit usrcs)
    (h : setupConnections toAbsU toAbsP explicit toProm usrcs = .ok r) :
    (r.connections.map Prod.fst).Nodup ∧
    ∀ t s idx, (t, s, idx) ∈ r.connections → isUnk s ∧ ¬ isUnk t ∧
      (Reaches toAbsU toAbsP explicit s t ∨
        ((∀ u, isUnk u → ¬ Reaches toAbsU toAbsP explicit u t) ∧ Together toAbsU toAbsP explicit s t ∧ idx = none)) := by
  obtain ⟨g, nc, st, hg, hedge, hn, hd1, hd2, hmem, hnd, rfl⟩ := setupConnections_inv hs h
  refine ⟨?_, ?_⟩
  · refine List.Nodup.sublist ?_ hnd
    generalize st.nc.insertionSort (fun a b => a.1 ≤ b.1) = items
    induction items with
    | nil => simp
    | cons e items ih =>
      rw [List.filterMap_cons]
      obtain ⟨k, v⟩ := e
      cases hf : finalConn (k, v) with
      | none => exact ih.cons _
      | some c =>
        have : c.1 = k := by
          unfold finalConn at hf
          split at hf
          · simp only [Option.some.injEq] at hf; rw [← hf]
          · cases hf
        simp only [List.map_cons, this]
        exact ih.cons_cons _
  · intro t s idx hc
    obtain ⟨l, hl⟩ := mem_connections_iff.mp hc
    rcases final_entry hs hedge hn hd1 ((hmem _ _).mp hl) with ⟨h1, -⟩ | ⟨h1, c', l', h2, -, h3⟩ | ⟨h1, h2, s', h3, h4, h5⟩
    · cases h1
    · simp only [Option.some.injEq, List.cons.injEq] at h2
      obtain ⟨rfl, rfl⟩ := h2
      have h4 := (h3 s).mp (by simp)
      exact ⟨h4.1, h1, .inl h4.2⟩
    · simp only [Option.some.injEq, List.cons.injEq, Prod.mk.injEq] at h3
      obtain ⟨⟨rfl, rfl⟩, -⟩ := h3
      exact ⟨h4, h1, .inr ⟨h2, h5, rfl⟩⟩

/-- **C16, no connection is lost.** A parameter that an unknown reaches is connected, to an unknown that reaches it. -/
theorem C16_reached_is_connected (hs : ConnSetting isUnk toAbsU toAbsP explicit usrcs)
    (h : setupConnections toAbsU toAbsP explicit toProm usrcs = .ok r) {u t : String} (hu : isUnk u)
    (hr : Reaches toAbsU toAbsP explicit u t) :
    ∃ s idx, (t, s, idx) ∈ r.connections ∧ isUnk s ∧ Reaches toAbsU toAbsP explicit s t := by
  obtain ⟨g, nc, st, hg, hedge, hn, hd1, hd2, hmem, hnd, rfl⟩ := setupConnections_inv hs h
  obtain ⟨x, hx⟩ := reached_entry hs hedge hn hd1 hu hr
  rcases final_entry hs hedge hn hd1 hx with ⟨-, h1⟩ | ⟨h1, c, l, rfl, -, h3⟩ | ⟨h1, h2, -⟩
  · obtain ⟨z', -, hz'⟩ := Relation.TransGen.tail'_iff.mp hr
    exact absurd h1 (hs.tgts _ _ hz')
  · exact ⟨c.1, c.2, mem_connections_iff.mpr ⟨l, (hmem _ _).mpr hx⟩, (h3 c.1).mp (by simp)⟩
  · exact absurd hr (h2 u hu)

/-- **C16, two sources are an error.** An error is reported for exactly the parameters that two different unknowns reach. -/
theorem C16_error_iff_two_sources (hs : ConnSetting isUnk toAbsU toAbsP explicit usrcs)
    (h : setupConnections toAbsU toAbsP explicit toProm usrcs = .ok r) (t : String) :
    t ∈ r.errors ↔ ∃ u v, u ≠ v ∧ isUnk u ∧ isUnk v ∧ Reaches toAbsU toAbsP explicit u t ∧ Reaches toAbsU toAbsP explicit v t := by
  obtain ⟨g, nc, st, hg, hedge, hn, hd1, hd2, hmem, hnd, rfl⟩ := setupConnections_inv hs h
  simp only [List.mem_map, List.mem_filter]
  constructor
  · rintro ⟨⟨k, x⟩, ⟨he, hm⟩, rfl⟩
    rcases final_entry hs hedge hn hd1 ((hmem _ _).mp he) with ⟨rfl, -⟩ | ⟨-, c, l, rfl, h2, h3⟩ | ⟨-, -, s, rfl, -⟩
    · simp [multiSrc] at hm
    · cases l with
      | nil => simp [multiSrc] at hm
      | cons d l =>
        refine ⟨c.1, d.1, ?_, ((h3 _).mp (by simp)).1, ((h3 d.1).mp (by simp)).1, ((h3 c.1).mp (by simp)).2, ((h3 d.1).mp (by simp)).2⟩
        simp only [List.map_cons, List.nodup_cons, List.mem_cons, not_or] at h2
        exact h2.1.1
    · simp [multiSrc] at hm
  · rintro ⟨u, v, huv, hu, hv, hru, hrv⟩
    obtain ⟨x, hx⟩ := reached_entry hs hedge hn hd1 hu hru
    refine ⟨(t, x), ⟨(hmem _ _).mpr hx, ?_⟩, rfl⟩
    rcases final_entry hs hedge hn hd1 hx with ⟨-, h1⟩ | ⟨h1, c, l, rfl, -, h3⟩ | ⟨h1, h2, -⟩
    · obtain ⟨z', -, hz'⟩ := Relation.TransGen.tail'_iff.mp hru
      exact absurd h1 (hs.tgts _ _ hz')
    · cases l with
      | nil =>
        have h4 := (h3 u).mpr ⟨hu, hru⟩
        have h5 := (h3 v).mpr ⟨hv, hrv⟩
        simp only [List.map_cons, List.map_nil, List.mem_singleton] at h4 h5
        exact absurd (h4.trans h5.symm) huv
      | cons d l => simp [multiSrc]
    · exact absurd hru (h2 u hu)

/-- **C16, unconnected parameters** (partial: only for groups of connected parameters in which one parameter `root` is not the
target of any connection and reaches all others; the refutations below show that this cannot be dropped). If no unknown
belongs to the group, none of its members is connected, each is recorded as unconnected together with exactly the members
of the group, and its promoted name is recorded as dangling. -/
theorem C16_unconnected_reported_partial (hs : ConnSetting isUnk toAbsU toAbsP explicit usrcs)
    (h : setupConnections toAbsU toAbsP explicit toProm usrcs = .ok r) {root p : String}
    (hpar : ∃ pp ∈ toAbsP, p ∈ pp.2) (hroot : ∀ s, ¬ Joined toAbsU toAbsP explicit s root)
    (hall : ∀ q, Together toAbsU toAbsP explicit p q → Relation.ReflTransGen (Joined toAbsU toAbsP explicit) root q)
    (hfree : ∀ q, Together toAbsU toAbsP explicit p q → ¬ isUnk q) :
    (∀ c, (p, c) ∉ r.connections) ∧
    (∃ l, r.inputInputs.lookup p = some l ∧ ∀ q, q ∈ l ↔ Together toAbsU toAbsP explicit p q) ∧
    (∃ l, r.dangling.lookup (toProm p) = some l ∧ ∃ n ∈ l, toProm n = toProm p) := by
  obtain ⟨g, nc, st, hg, hedge, hn, hd1, hd2, hmem, hnd, rfl⟩ := setupConnections_inv hs h
  have hrp : Relation.ReflTransGen (Joined toAbsU toAbsP explicit) root p := hall p (.refl _)
  have hnone : ∀ q, Together toAbsU toAbsP explicit p q → st.nc.lookup q = none := by
    intro q hq
    cases hx : st.nc.lookup q with
    | none => rfl
    | some x =>
      exfalso
      rcases final_entry hs hedge hn hd1 hx with ⟨-, h1⟩ | ⟨h1, c, l, rfl, -, h3⟩ | ⟨h1, h2, s, -, h4, h5⟩
      · exact hfree q hq h1
      · obtain ⟨h4, h5⟩ := (h3 c.1).mp (by simp)
        exact hfree c.1 (.trans _ _ _ hq (.symm _ _ (reflTransGen_eqvGen h5.to_reflTransGen))) h4
      · exact hfree s (.trans _ _ _ hq (.symm _ _ h5)) h4
  have hnode : root ∈ g.nodes := by
    rw [hg.nodes]
    rcases Relation.ReflTransGen.cases_head hrp with rfl | ⟨z, hz, -⟩
    · exact .inl hpar
    · exact .inr (.inl ⟨z, hz⟩)
  have hrootg : ∀ s, (s, root) ∉ g.arcs := fun s hc => hroot s ((hg.arcs s root).mp hc)
  have hpr : Together toAbsU toAbsP explicit p root := .symm _ _ (reflTransGen_eqvGen hrp)
  have hfc : FreeComp g nc root := by
    intro q hq
    rw [hedge] at hq
    have := hnone q (.trans _ _ _ hpr hq)
    cases h0 : nc.lookup q with
    | none => rfl
    | some x => rw [hd1.mono _ _ h0] at this; cases this
  obtain ⟨h1, h2⟩ := hd2.all root hnode hrootg hfc p (by rw [hedge]; exact hrp)
  obtain ⟨l, hl⟩ := Option.isSome_iff_exists.mp h1
  obtain ⟨l', hl'⟩ := Option.isSome_iff_exists.mp h2
  refine ⟨?_, ⟨l, hl, ?_⟩, ⟨l', hl', (hd2.dang _ _ hl').1⟩⟩
  · intro c hc
    obtain ⟨l'', h3⟩ := mem_connections_iff.mp hc
    have := (hmem _ _).mp h3
    rw [hnone p (.refl _)] at this; cases this
  · obtain ⟨hpl, root', hr', hq'⟩ := hd2.inp p l hl
    rw [hedge] at hq'
    -- the root found is `root`
    have hp' := (hq' p).mp hpl
    have heq : root' = root := by
      have := hall root' (.symm _ _ (reflTransGen_eqvGen hp'))
      rcases Relation.ReflTransGen.cases_tail this with rfl | ⟨z, -, hz⟩
      · rfl
      · exact absurd ((hg.arcs z root').mpr hz) (hr' z)
    subst heq
    intro q
    rw [hq']
    exact ⟨fun hq => .trans _ _ _ hpr (reflTransGen_eqvGen hq), hall q⟩

/-- **C16, what is recorded as unconnected** belongs together: it is what one parameter reaches. -/
theorem C16_unconnected_lists_sound (hs : ConnSetting isUnk toAbsU toAbsP explicit usrcs)
    (h : setupConnections toAbsU toAbsP explicit toProm usrcs = .ok r) {p : String} {l : List String}
    (hl : r.inputInputs.lookup p = some l) : p ∈ l ∧ ∀ q ∈ l, Together toAbsU toAbsP explicit p q := by
  obtain ⟨g, nc, st, hg, hedge, hn, hd1, hd2, hmem, hnd, rfl⟩ := setupConnections_inv hs h
  obtain ⟨hpl, root', hr', hq'⟩ := hd2.inp p l hl
  rw [hedge] at hq'
  refine ⟨hpl, fun q hq => .trans _ _ _ (.symm _ _ (reflTransGen_eqvGen ((hq' p).mp hpl))) (reflTransGen_eqvGen ((hq' q).mp hq))⟩

/-- **C16, no other failure.** The only exception connection processing can raise is an `IndexError` from combining
`src_indices`, and only if some connection has `src_indices`. -/
theorem C16_only_index_errors (hs : ConnSetting isUnk toAbsU toAbsP explicit usrcs) {e : PyErr}
    (h : setupConnections toAbsU toAbsP explicit toProm usrcs = .error e) :
    e = .IndexError ∧ ∃ s t x, JoinedIdx toAbsU toAbsP explicit s t (some x) := by
  unfold setupConnections at h
  simp only at h
  have hg := inputGraph_spec toAbsU toAbsP explicit
  have hattr := fun a b i => inputGraph_attr toAbsU toAbsP explicit (a := a) (b := b) (i := i)
  generalize inputGraph (addImplicit toAbsU toAbsP explicit).1 (addImplicit toAbsU toAbsP explicit).2 toAbsP = g at h hg hattr
  have hno : ∀ u ∈ usrcs, ∀ s, (s, u) ∉ g.arcs := by
    intro u hu s hc
    exact hs.tgts s u ((hg.arcs s u).mp hc) ((hs.mem u).mp hu).1
  have h0 : NCInv g [] [] := ⟨by simp, by simp⟩
  cases hw : usrcs.foldlM (walkSrc g) [] with
  | error e' =>
    rw [hw] at h
    simp only [bind, Except.bind, Except.error.injEq] at h
    subst h
    obtain ⟨h1, ⟨a, b⟩, x, h2⟩ := walkAll_err g usrcs [] [] e' hw h0 (by simpa using hs.nodup) (by simpa using hno)
    exact ⟨h1, a, b, x, hattr a b _ h2⟩
  | ok nc =>
    have hn : NCInv g ([] ++ usrcs) nc := walkAll_spec g usrcs [] [] nc hw h0 (by simpa using hs.nodup) hno
    have hnd0 : (nc.map Prod.fst).Nodup := walkAll_nodup g usrcs [] nc hw List.nodup_nil
    obtain ⟨st', hst⟩ := dangAll_noerr (by simpa using hn) hno toProm g.nodes { nc := nc } ⟨fun _ _ h => h, fun _ h => .inl h, hnd0⟩
    rw [hw] at h
    simp only [bind, Except.bind] at h
    rw [hst] at h
    cases h

/-- **C64.** The index array recorded for a connected parameter selects, from every vector, the entries that the index arrays
of a chain of declared connections from its source select one after the other (whenever they are all in range). -/
theorem C64_indices_follow_chain (hs : ConnSetting isUnk toAbsU toAbsP explicit usrcs)
    (h : setupConnections toAbsU toAbsP explicit toProm usrcs = .ok r) {t s : String} {idx : SrcIdx}
    (hc : (t, s, idx) ∈ r.connections) (hr : Reaches toAbsU toAbsP explicit s t) :
    ∃ is, Chain (JoinedIdx toAbsU toAbsP explicit) s t is ∧
      ∀ (β : Type) (v w : List β), pickAll is v = some w → pick idx v = some w := by
  obtain ⟨g', nc', st', hg', hedge', hn', hd1', hd2', hmem', hnd', hr'⟩ := setupConnections_inv hs h
  unfold setupConnections at h
  simp only at h
  have hg := inputGraph_spec toAbsU toAbsP explicit
  have hattr := fun a b i => inputGraph_attr toAbsU toAbsP explicit (a := a) (b := b) (i := i)
  generalize inputGraph (addImplicit toAbsU toAbsP explicit).1 (addImplicit toAbsU toAbsP explicit).2 toAbsP = g at h hg hattr
  have hedge : Edge g.arcs = Joined toAbsU toAbsP explicit := by
    funext s t; exact propext (hg.arcs s t)
  cases hw : usrcs.foldlM (walkSrc g) [] with
  | error e => rw [hw] at h; cases h
  | ok nc =>
    rw [hw] at h
    simp only [bind, Except.bind] at h
    cases hd : g.nodes.foldlM (dangNode g toProm) { nc := nc } with
    | error e => rw [hd] at h; cases h
    | ok st =>
      rw [hd] at h
      simp only [pure, Except.pure, Except.ok.injEq] at h
      have hno : ∀ u ∈ usrcs, ∀ s, (s, u) ∉ g.arcs := by
        intro u hu s hc
        exact hs.tgts s u ((hg.arcs s u).mp hc) ((hs.mem u).mp hu).1
      have hn : NCInv g ([] ++ usrcs) nc := walkAll_spec g usrcs [] [] nc hw ⟨by simp, by simp⟩ (by simpa using hs.nodup) hno
      rw [List.nil_append] at hn
      have hnd0 : (nc.map Prod.fst).Nodup := walkAll_nodup g usrcs [] nc hw List.nodup_nil
      have hfol : NCFollows (JoinedIdx toAbsU toAbsP explicit) nc := walkAll_follows g hattr usrcs [] nc hw (by intro t l h; simp at h)
      obtain ⟨hd1, -⟩ := dangAll_spec (nc0 := nc) (toProm := toProm) g.nodes [] { nc := nc } st hd
        ⟨fun _ _ h => h, fun _ h => .inl h, hnd0⟩ ⟨by simp, by simp, by simp⟩
      subst h
      obtain ⟨l, hl⟩ := mem_connections_iff.mp hc
      have hmem := (List.perm_insertionSort (fun a b : String × Option (List (String × SrcIdx)) => a.1 ≤ b.1) st.nc).mem_iff.mp hl
      rw [← lookup_eq_some_iff_of_nodup _ _ _ hd1.nd] at hmem
      have htu : t ∉ usrcs := by
        intro ht
        have := hd1.mono _ _ (hn.1 t ht)
        rw [hmem] at this; cases this
      have hsu : isUnk s := by
        rcases final_entry hs hedge hn hd1 hmem with ⟨h1, -⟩ | ⟨-, c, l', h1, -, h2⟩ | ⟨-, h2, s', h1, h3, -⟩
        · cases h1
        · simp only [Option.some.injEq] at h1
          exact ((h2 s).mp (by rw [← h1]; simp)).1
        · simp only [Option.some.injEq, List.cons.injEq, Prod.mk.injEq] at h1
          rw [h1.1.1]; exact h3
      rcases hn.2 t htu with ⟨-, h0⟩ | ⟨l', -, h0, -⟩
      · have : s ∈ usrcs.filter (fun s => t ∈ (dfsEdges g.arcs s).map Prod.snd) := by
          rw [List.mem_filter]
          simp only [decide_eq_true_eq, mem_dfs_iff, hedge]
          obtain ⟨z, hz, -⟩ := Relation.TransGen.head'_iff.mp hr
          refine ⟨(hs.mem s).mpr ⟨hsu, z, hz⟩, hr, ?_⟩
          rintro rfl
          obtain ⟨z', -, hz'⟩ := Relation.TransGen.tail'_iff.mp hr
          exact hs.tgts _ _ hz' hsu
        rw [h0] at this; cases this
      · have h1 := hd1.mono _ _ h0
        rw [hmem] at h1
        simp only [Option.some.injEq] at h1
        subst h1
        exact hfol t _ h0 (s, idx) (by simp)

end

/-! ## Where the code does less than C16 says -/

/-- The claim about unconnected parameters in full: a parameter not connected with any unknown is recorded as unconnected,
together with everything connected with it. -/
def UnconnectedReported : Prop :=
  ∀ (isUnk : String → Prop) (toAbsU : List (String × String)) (toAbsP : List (String × List String)) (explicit : ConnDict)
    (usrcs : List String) (toProm : String → String) (r : ConnResult), ConnSetting isUnk toAbsU toAbsP explicit usrcs →
    setupConnections toAbsU toAbsP explicit toProm usrcs = .ok r →
    ∀ p, (∃ pp ∈ toAbsP, p ∈ pp.2) → (∀ q, Together toAbsU toAbsP explicit p q → ¬ isUnk q) →
    ∃ l, r.inputInputs.lookup p = some l ∧ ∀ q, Together toAbsU toAbsP explicit p q → q ∈ l

/-- Two parameters that connect to a third: the set recorded for the first lacks the second. -/
theorem C16_two_roots_refuted : ¬ UnconnectedReported := by
  intro H
  have hj : Joined [] [("a", ["a"]), ("b", ["b"]), ("x", ["x"])] [("x", [("a", none), ("b", none)])] "a" "x" :=
    .inl ⟨none, _, List.mem_cons_self, by simp⟩
  have hj2 : Joined [] [("a", ["a"]), ("b", ["b"]), ("x", ["x"])] [("x", [("a", none), ("b", none)])] "b" "x" :=
    .inl ⟨none, _, List.mem_cons_self, by simp⟩
  obtain ⟨l, h1, h2⟩ := H (fun _ => False) [] [("a", ["a"]), ("b", ["b"]), ("x", ["x"])] [("x", [("a", none), ("b", none)])] [] id
    { connections := [], errors := [], dangling := [("a", ["a", "x"]), ("x", ["b", "x"]), ("b", ["b", "x"])],
      inputInputs := [("a", ["a", "x"]), ("x", ["b", "x"]), ("b", ["b", "x"])] }
    ⟨List.nodup_nil, by simp, by simp⟩ (by decide +kernel) "a" ⟨("a", ["a"]), by simp, by simp⟩ (fun _ _ h => h)
  have : l = ["a", "x"] := by
    have h3 : List.lookup "a" [("a", ["a", "x"]), ("x", ["b", "x"]), ("b", ["b", "x"])] = some ["a", "x"] := by decide
    exact (Option.some.inj (h3.symm.trans h1)).symm
  subst this
  have := h2 "b" (.trans _ _ _ (.rel _ _ hj) (.symm _ _ (.rel _ _ hj2)))
  revert this; decide

/-- Two parameters connected to each other in a cycle: neither is connected nor recorded as unconnected. -/
theorem C16_cycle_refuted : ∃ (toAbsP : List (String × List String)) (explicit : ConnDict) (r : ConnResult),
    ConnSetting (fun _ => False) [] toAbsP explicit [] ∧ setupConnections [] toAbsP explicit id [] = .ok r ∧
    (∃ pp ∈ toAbsP, "p" ∈ pp.2) ∧ (∀ c, ("p", c) ∉ r.connections) ∧ r.inputInputs.lookup "p" = none ∧ r.dangling.lookup "p" = none := by
  refine ⟨[("p", ["p"]), ("q", ["q"])], [("p", [("q", none)]), ("q", [("p", none)])],
    { connections := [], errors := [], dangling := [], inputInputs := [] }, ⟨List.nodup_nil, by simp, by simp⟩, by decide +kernel,
    ⟨("p", ["p"]), by simp, by simp⟩, by simp, rfl, rfl⟩

/-- A parameter `a` feeding `b` (which has the source `u`) and `c`: the search from `a` stops at `b`, and `c` is neither
connected nor recorded as unconnected. -/
theorem C16_skipped_refuted : ∃ (toAbsU : List (String × String)) (toAbsP : List (String × List String)) (explicit : ConnDict)
    (r : ConnResult), ConnSetting (fun n => n = "u") toAbsU toAbsP explicit ["u"] ∧
    setupConnections toAbsU toAbsP explicit id ["u"] = .ok r ∧ Together toAbsU toAbsP explicit "u" "c" ∧
    r.errors = [] ∧ (∀ c, ("c", c) ∉ r.connections) ∧ r.inputInputs.lookup "c" = none ∧ r.dangling.lookup "c" = none := by
  refine ⟨[("u", "u")], [("a", ["a"]), ("b", ["b"]), ("c", ["c"])], [("b", [("a", none), ("u", none)]), ("c", [("a", none)])],
    { connections := [("a", "u", none), ("b", "u", none)], errors := [], dangling := [], inputInputs := [] },
    ⟨by simp, ?_, ?_⟩, by decide +kernel, ?_, rfl, by simp, rfl, rfl⟩
  · intro s
    rw [List.mem_singleton]
    constructor
    · rintro rfl; exact ⟨rfl, "b", .inl ⟨none, [("a", none), ("u", none)], by simp, by simp⟩⟩
    · exact fun h => h.1
  · rintro s t (⟨i, l, hl, -⟩ | ⟨pp, hpp, ht, -⟩ | ⟨pp, hpp, -, -, ht⟩) rfl
    · simp at hl
    · simp only [List.mem_cons, List.not_mem_nil, or_false] at hpp
      rcases hpp with rfl | rfl | rfl <;> simp at ht
    · simp only [List.mem_cons, List.not_mem_nil, or_false] at hpp
      rcases hpp with rfl | rfl | rfl <;> simp at ht
  · have j1 : Joined [("u", "u")] [("a", ["a"]), ("b", ["b"]), ("c", ["c"])] [("b", [("a", none), ("u", none)]), ("c", [("a", none)])] "u" "b" :=
      .inl ⟨none, [("a", none), ("u", none)], by simp, by simp⟩
    have j2 : Joined [("u", "u")] [("a", ["a"]), ("b", ["b"]), ("c", ["c"])] [("b", [("a", none), ("u", none)]), ("c", [("a", none)])] "a" "b" :=
      .inl ⟨none, [("a", none), ("u", none)], by simp, by simp⟩
    have j3 : Joined [("u", "u")] [("a", ["a"]), ("b", ["b"]), ("c", ["c"])] [("b", [("a", none), ("u", none)]), ("c", [("a", none)])] "a" "c" :=
      .inl ⟨none, [("a", none)], by simp, by simp⟩
    exact .trans _ _ _ (.rel _ _ j1) (.trans _ _ _ (.symm _ _ (.rel _ _ j2)) (.rel _ _ j3))

/-! ## A non-trivial case -/

/-- Unknown `u` feeds `b` with indices, `b` feeds `c` with indices; `d` and `e` are promoted to the same name `d`. -/
def exU : List (String × String) := [("u", "u")]
/-- Parameters of the example. -/
def exP : List (String × List String) := [("b", ["b"]), ("c", ["c"]), ("d", ["d", "e"])]
/-- Explicit connections of the example. -/
def exC : ConnDict := [("b", [("u", some [4, 2, 7])]), ("c", [("b", some [2, 0])])]

example : ConnSetting (fun n => n = "u") exU exP exC ["u"] := by
  refine ⟨by simp, ?_, ?_⟩
  · intro s
    rw [List.mem_singleton]
    constructor
    · rintro rfl; exact ⟨rfl, "b", .inl ⟨some [4, 2, 7], [("u", some [4, 2, 7])], by simp [exC], by simp⟩⟩
    · exact fun h => h.1
  · rintro s t (⟨i, l, hl, -⟩ | ⟨pp, hpp, ht, -⟩ | ⟨pp, hpp, -, -, ht⟩) rfl
    · simp [exC] at hl
    · simp only [exP, List.mem_cons, List.not_mem_nil, or_false] at hpp
      rcases hpp with rfl | rfl | rfl <;> simp at ht
    · simp only [exP, List.mem_cons, List.not_mem_nil, or_false] at hpp
      rcases hpp with rfl | rfl | rfl <;> simp at ht

/-- `c` gets entries 7 and 4 of `u`; `d` and `e` are unconnected. -/
example : setupConnections exU exP exC (fun n => if n = "e" then "d" else n) ["u"] = .ok
    { connections := [("b", "u", some [4, 2, 7]), ("c", "u", some [7, 4])], errors := [], dangling := [("d", ["d", "e"])],
      inputInputs := [("d", ["d", "e"]), ("e", ["d", "e"])] } := by decide +kernel

end OpenMDAO
