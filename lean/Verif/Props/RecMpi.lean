import Verif.Spec.RecMpi
import Verif.Props.Recorder
import Verif.Props.Gather
import Verif.Props.Explicit
import Verif.Props.MetaModel
/-! # C158: recording by several processes -/
namespace OpenMDAO
set_option linter.unusedSectionVars false
variable {V : Type}

/-! ## Helpers -/

/-- Looking up does not depend on how names are compared. -/
theorem lookup_str {β : Type} (d : List (Str × β)) (k : Str) :
    @List.lookup Str β instBEqOfDecidableEq k d = d.lookup k := by
  have h : (instBEqOfDecidableEq : BEq Str) = List.instBEq := lawful_beq_subsingleton _ _
  exact congrArg (fun b => @List.lookup Str β b k d) h

theorem owners_iff (procs : List (RProc V)) (n : Str) (i : Nat) :
    (ownersOf procs).lookup n = some i ↔ OwnsVar procs n i := by
  unfold ownersOf OwnsVar
  rw [← lookup_str, C59_owner]
  constructor
  · rintro ⟨⟨T, h1, h2⟩, h3⟩
    rw [List.getElem?_map] at h1
    cases hp : procs[i]? with
    | none => simp [hp] at h1
    | some p =>
      simp only [hp, Option.map_some, Option.some.injEq] at h1
      subst h1
      refine ⟨⟨p, rfl, h2⟩, fun j q hj hq => h3 j hj q.locals ?_⟩
      rw [List.getElem?_map, hq]; rfl
  · rintro ⟨⟨p, h1, h2⟩, h3⟩
    refine ⟨⟨p.locals, by rw [List.getElem?_map, h1]; rfl, h2⟩, fun j hj T hT => ?_⟩
    rw [List.getElem?_map] at hT
    cases hq : procs[j]? with
    | none => simp [hq] at hT
    | some q =>
      simp only [hq, Option.map_some, Option.some.injEq] at hT
      subst hT
      exact h3 j q hj hq

theorem owner_exists (procs : List (RProc V)) (n : Str) (h : ∃ p ∈ procs, n ∈ p.locals) :
    ∃ i, (ownersOf procs).lookup n = some i := by
  obtain ⟨p, hp, hn⟩ := h
  obtain ⟨i, hi⟩ := (C59_owner_exists (procs.map (·.locals)) n).mpr ⟨p.locals, List.mem_map.mpr ⟨p, hp, rfl⟩, hn⟩
  exact ⟨i, by rw [← lookup_str]; exact hi⟩

theorem ownedBy_ok (rowned : List (Str × Nat)) (rank : Nat) (names : List Str)
    (h : ∀ n ∈ names, ∃ i, rowned.lookup n = some i) :
    ownedBy rowned rank names = .ok (names.filter fun n => rowned.lookup n == some rank) := by
  unfold ownedBy
  rw [if_pos]
  rw [List.all_eq_true]
  intro n hn
  obtain ⟨i, hi⟩ := h n hn
  rw [hi]; rfl

theorem localVars_spec (rowned : List (Str × Nat)) (rank : Nat) (ns : List (List Str)) (d : List (Str × V))
    (ho : ∀ l ∈ ns, ∀ n ∈ l, ∃ i, rowned.lookup n = some i) (hk : ∀ l ∈ ns, ∀ n ∈ l, n ∈ d.map (·.1))
    (hd : (d.map (·.1)).Nodup) :
    ∃ loc, localVars rowned rank ns d = .ok loc ∧ (loc.map (·.1)).Nodup ∧
      ∀ n x, (n, x) ∈ loc ↔ (n, x) ∈ d ∧ rowned.lookup n = some rank ∧ ∃ l ∈ ns, n ∈ l := by
  have h1 : ns.mapM (ownedBy rowned rank) =
      .ok (ns.map fun l => l.filter fun n => rowned.lookup n == some rank) :=
    mapM_ok_of _ _ _ fun l hl => ownedBy_ok rowned rank l (ho l hl)
  have h2 : varsToRecord rowned rank ns =
      .ok (ns.map fun l => l.filter fun n => rowned.lookup n == some rank).flatten.dedup := by
    unfold varsToRecord; rw [h1]; rfl
  have hm : ∀ n, n ∈ (ns.map fun l => l.filter fun n => rowned.lookup n == some rank).flatten.dedup ↔
      rowned.lookup n = some rank ∧ ∃ l ∈ ns, n ∈ l := by
    intro n
    simp only [List.mem_dedup, List.mem_flatten, List.mem_map, exists_exists_and_eq_and, List.mem_filter,
      beq_iff_eq]
    constructor
    · rintro ⟨l, hl, hn, h⟩; exact ⟨h, l, hl, hn⟩
    · rintro ⟨h, l, hl, hn⟩; exact ⟨l, hl, hn, h⟩
  obtain ⟨loc, e1, e2, e3⟩ := mapM_vecItem d
    (ns.map fun l => l.filter fun n => rowned.lookup n == some rank).flatten.dedup
    (fun n hn => by obtain ⟨_, l, hl, hnl⟩ := (hm n).mp hn; exact hk l hl n hnl) hd
  refine ⟨loc, ?_, ?_, ?_⟩
  · unfold localVars; rw [h2]; exact e1
  · rw [e2]; exact List.nodup_dedup _
  · intro n x
    constructor
    · intro hx
      have : n ∈ loc.map (·.1) := List.mem_map.mpr ⟨_, hx, rfl⟩
      rw [e2] at this
      exact ⟨e3 _ hx, (hm n).mp this⟩
    · rintro ⟨hx, ho'⟩
      have : n ∈ loc.map (·.1) := by rw [e2]; exact (hm n).mpr ho'
      obtain ⟨y, hy, hyn⟩ := List.mem_map.mp this
      have hyd := e3 y hy
      have : y = (n, x) := by
        have a := (lookup_eq_some_iff_of_nodup d n x hd).mpr hx
        have b := (lookup_eq_some_iff_of_nodup d n y.2 hd).mpr (by rw [← hyn]; exact hyd)
        rw [a] at b
        cases b
        rw [← hyn]
      rw [← this]; exact hy

theorem fold_update (ls : List (List (Str × V))) : ∀ (d : List (Str × V)),
    (d.map (·.1)).Nodup → (∀ l ∈ ls, (l.map (·.1)).Nodup) →
    (∀ a ∈ d :: ls, ∀ b ∈ d :: ls, ∀ n x y, (n, x) ∈ a → (n, y) ∈ b → x = y) →
    ((ls.foldl dictUpdate d).map (·.1)).Nodup ∧
      ∀ n x, (n, x) ∈ ls.foldl dictUpdate d ↔ ∃ a ∈ d :: ls, (n, x) ∈ a := by
  induction ls with
  | nil => intro d hd _ _; exact ⟨hd, fun n x => by simp⟩
  | cons l ls ih =>
    intro d hd hn hc
    have hl := hn l (by simp)
    have hd' : ((dictUpdate d l).map (·.1)).Nodup := nodup_dictUpdate l d hd
    have hmem : ∀ n x, (n, x) ∈ dictUpdate d l ↔ (n, x) ∈ d ∨ (n, x) ∈ l := by
      intro n x
      have hlu := lookup_dictUpdate l d n hl
      rw [lookup_str, lookup_str, lookup_str] at hlu
      rw [← lookup_eq_some_iff_of_nodup _ _ _ hd', hlu]
      cases hx : l.lookup n with
      | none =>
        rw [Option.none_or, lookup_eq_some_iff_of_nodup _ _ _ hd]
        constructor
        · exact Or.inl
        · rintro (h | h)
          · exact h
          · rw [← lookup_eq_some_iff_of_nodup _ _ _ hl, hx] at h; cases h
      | some y =>
        have hy := (lookup_eq_some_iff_of_nodup _ _ _ hl).mp hx
        rw [Option.some_or, Option.some.injEq]
        constructor
        · rintro rfl; exact Or.inr hy
        · rintro (h | h)
          · exact hc l (by simp) d (by simp) n y x hy h
          · exact hc l (by simp) l (by simp) n y x hy h
    have hc' : ∀ a ∈ dictUpdate d l :: ls, ∀ b ∈ dictUpdate d l :: ls, ∀ n x y,
        (n, x) ∈ a → (n, y) ∈ b → x = y := by
      have key : ∀ a ∈ dictUpdate d l :: ls, ∀ n x, (n, x) ∈ a → ∃ a' ∈ d :: l :: ls, (n, x) ∈ a' := by
        intro a ha n x hx
        rcases List.mem_cons.mp ha with rfl | ha
        · rcases (hmem n x).mp hx with h | h
          · exact ⟨d, by simp, h⟩
          · exact ⟨l, by simp, h⟩
        · exact ⟨a, by simp [ha], hx⟩
      intro a ha b hb n x y hx hy
      obtain ⟨a', ha', hx'⟩ := key a ha n x hx
      obtain ⟨b', hb', hy'⟩ := key b hb n y hy
      exact hc a' ha' b' hb' n x y hx' hy'
    obtain ⟨h1, h2⟩ := ih (dictUpdate d l) hd' (fun m hm => hn m (List.mem_cons_of_mem _ hm)) hc'
    refine ⟨h1, fun n x => ?_⟩
    rw [List.foldl_cons, h2 n x]
    simp only [List.mem_cons, exists_eq_or_imp, hmem]
    tauto

/-- What `gather` gives the first process: the entries of all processes. -/
theorem gatherVars_spec (all : List (List (Str × V))) (hne : all ≠ []) (hn : ∀ l ∈ all, (l.map (·.1)).Nodup)
    (hc : ∀ a ∈ all, ∀ b ∈ all, ∀ n x y, (n, x) ∈ a → (n, y) ∈ b → x = y) :
    ∃ g, gatherVars all 0 = some g ∧ (g.map (·.1)).Nodup ∧ ∀ n x, (n, x) ∈ g ↔ ∃ a ∈ all, (n, x) ∈ a := by
  obtain ⟨last, hl⟩ : ∃ last, all.getLast? = some last := by
    cases h : all.getLast? with
    | none => exact absurd (List.getLast?_eq_none_iff.mp h) hne
    | some x => exact ⟨x, rfl⟩
  have hall : all = all.dropLast ++ [last] := by
    obtain ⟨ys, hys⟩ := List.getLast?_eq_some_iff.mp hl
    rw [hys, List.dropLast_concat]
  have hm : ∀ a, a ∈ all ↔ a ∈ last :: all.dropLast := by
    intro a
    conv_lhs => rw [hall]
    simp only [List.mem_append, List.mem_cons, List.not_mem_nil, or_false]
    tauto
  obtain ⟨h1, h2⟩ := fold_update all.dropLast last (hn _ ((hm _).mpr (by simp)))
    (fun l h => hn l ((hm l).mpr (List.mem_cons_of_mem _ h)))
    (fun a ha b hb => hc a ((hm a).mpr ha) b ((hm b).mpr hb))
  refine ⟨_, by simp only [gatherVars, if_true, hl], h1, fun n x => ?_⟩
  rw [h2 n x]
  constructor
  · rintro ⟨a, ha, h⟩; exact ⟨a, (hm a).mpr ha, h⟩
  · rintro ⟨a, ha, h⟩; exact ⟨a, (hm a).mp ha, h⟩

theorem filterVec_mem (g : List (Str × V)) (hg : (g.map (·.1)).Nodup) (names : List Str) (hnn : names.Nodup)
    (hk : ∀ n ∈ names, n ∈ g.map (·.1)) :
    ∃ l, filterVec g names = .ok l ∧ (∀ n x, (n, x) ∈ l ↔ (n, x) ∈ g ∧ n ∈ names) ∧ (l.map (·.1)).Nodup := by
  unfold filterVec
  split_ifs with h
  · rw [List.isEmpty_iff] at h
    subst h
    exact ⟨[], rfl, by simp, by simp⟩
  · obtain ⟨l, h1, h2, h3⟩ := mapM_vecItem g names hk hg
    refine ⟨l, h1, fun n x => ⟨fun hx => ⟨h3 _ hx, ?_⟩, fun ⟨hx, hn⟩ => ?_⟩, by rw [h2]; exact hnn⟩
    · rw [← h2]; exact List.mem_map.mpr ⟨_, hx, rfl⟩
    · rw [← h2] at hn
      obtain ⟨y, hy, hyn⟩ := List.mem_map.mp hn
      have : y = (n, x) := by
        have a := (lookup_eq_some_iff_of_nodup g n x hg).mpr hx
        have b := (lookup_eq_some_iff_of_nodup g n y.2 hg).mpr (by rw [← hyn]; exact h3 y hy)
        rw [a] at b
        cases b
        rw [← hyn]
      rw [← this]; exact hy

/-- What is known of one of the three vectors: the names `K` it has in all processes, and the names the
recorders keep. -/
structure VecFacts (procs : List (RProc V)) (nd : List (List (List Str) × List (Str × V)))
    (vec : RecVecs V → List (Str × V)) (K : List Str) (ns : List (List Str)) : Prop where
  nd_eq : nd = procs.map fun q => (ns, vec q.v)
  keys : ∀ p ∈ procs, (vec p.v).map (·.1) = K
  nodup : K.Nodup
  sub : ∀ l ∈ ns, ∀ n ∈ l, n ∈ K
  somewhere : ∀ n ∈ K, ∃ p ∈ procs, n ∈ p.locals

theorem VecFacts.locals {procs : List (RProc V)} {nd vec K ns} (F : VecFacts procs nd vec K ns) :
    ∃ all : List (List (Str × V)),
      (nd.zipIdx.mapM fun e => localVars (ownersOf procs) e.2 e.1.1 e.1.2) = .ok all ∧
      all.length = procs.length ∧ ∀ (i : Nat) loc, all[i]? = some loc → (loc.map (·.1)).Nodup ∧
        ∀ n x, (n, x) ∈ loc ↔ (∃ p, procs[i]? = some p ∧ (n, x) ∈ vec p.v) ∧ OwnsVar procs n i ∧
          ∃ l ∈ ns, n ∈ l := by
  have hloc : ∀ (i : Nat) p, procs[i]? = some p → ∃ loc, localVars (ownersOf procs) i ns (vec p.v) = .ok loc ∧
      (loc.map (·.1)).Nodup ∧ ∀ n x, (n, x) ∈ loc ↔ (n, x) ∈ vec p.v ∧ (ownersOf procs).lookup n = some i ∧
        ∃ l ∈ ns, n ∈ l := by
    intro i p hp
    have hm := List.mem_of_getElem? hp
    refine localVars_spec _ i ns (vec p.v) (fun l hl n hn => ?_) (fun l hl n hn => ?_) ?_
    · exact owner_exists procs n (F.somewhere n (F.sub l hl n hn))
    · rw [F.keys p hm]; exact F.sub l hl n hn
    · rw [F.keys p hm]; exact F.nodup
  obtain ⟨all, h1, h2, h3⟩ := mapM_ok (fun e : (List (List Str) × List (Str × V)) × Nat =>
      localVars (ownersOf procs) e.2 e.1.1 e.1.2) nd.zipIdx (by
    intro e he
    rw [List.mem_iff_getElem?] at he
    obtain ⟨i, hi⟩ := he
    rw [List.getElem?_zipIdx, F.nd_eq, List.getElem?_map] at hi
    cases hp : procs[i]? with
    | none => simp [hp] at hi
    | some p =>
      simp only [hp, Option.map_some, Option.some.injEq, Nat.zero_add] at hi
      subst hi
      obtain ⟨loc, h, _⟩ := hloc i p hp
      exact ⟨loc, h⟩)
  refine ⟨all, h1, by rw [h2, List.length_zipIdx, F.nd_eq, List.length_map], ?_⟩
  intro i loc hi
  have hlt : i < procs.length := by
    have := (List.getElem?_eq_some_iff.mp hi).1
    rwa [h2, List.length_zipIdx, F.nd_eq, List.length_map] at this
  have hp : procs[i]? = some procs[i] := List.getElem?_eq_getElem hlt
  obtain ⟨y, hy, hy2⟩ := h3 i ((ns, vec procs[i].v), i) (by
    rw [List.getElem?_zipIdx, F.nd_eq, List.getElem?_map, hp]; simp)
  rw [hi] at hy
  cases hy
  obtain ⟨loc', e1, e2, e3⟩ := hloc i _ hp
  rw [e1] at hy2
  cases hy2
  refine ⟨e2, fun n x => ?_⟩
  rw [e3 n x, owners_iff]
  constructor
  · rintro ⟨a, b⟩; exact ⟨⟨_, hp, a⟩, b⟩
  · rintro ⟨⟨p, hp', a⟩, b⟩
    rw [hp] at hp'
    cases hp'
    exact ⟨a, b⟩

theorem ownsVar_unique (procs : List (RProc V)) (n : Str) (i j : Nat) (hi : OwnsVar procs n i)
    (hj : OwnsVar procs n j) : i = j := by
  rw [← owners_iff] at hi hj
  rw [hi] at hj
  cases hj
  rfl

/-- The dictionary that the first process hands to its recorders when it gathers. -/
theorem VecFacts.serial {procs : List (RProc V)} {nd vec K ns} (F : VecFacts procs nd vec K ns)
    (hne : procs ≠ []) :
    ∃ g, vecFor true (ownersOf procs) nd 0 = .ok (some g) ∧ (g.map (·.1)).Nodup ∧
      ∀ n x, (n, x) ∈ g ↔ HasValue procs vec n x ∧ ∃ l ∈ ns, n ∈ l := by
  obtain ⟨all, h1, h2, h3⟩ := F.locals
  have hlen : 0 < procs.length := List.length_pos_iff.mpr hne
  have hnd : nd[0]? = some (ns, vec procs[0].v) := by
    rw [F.nd_eq, List.getElem?_map, List.getElem?_eq_getElem hlen]; rfl
  unfold vecFor
  rw [h1]
  simp only [if_true, hnd]
  split_ifs with hany
  · obtain ⟨g, e1, e2, e3⟩ := gatherVars_spec all (by
        intro h; rw [h] at h2; simp at h2; omega) (by
        intro l hl
        obtain ⟨i, hi⟩ := List.mem_iff_getElem?.mp hl
        exact (h3 i l hi).1) (by
        intro a ha b hb n x y hx hy
        obtain ⟨i, hi⟩ := List.mem_iff_getElem?.mp ha
        obtain ⟨j, hj⟩ := List.mem_iff_getElem?.mp hb
        obtain ⟨⟨p, hp, hxp⟩, ho, _⟩ := ((h3 i a hi).2 n x).mp hx
        obtain ⟨⟨q, hq, hyq⟩, ho', _⟩ := ((h3 j b hj).2 n y).mp hy
        have : i = j := ownsVar_unique procs n i j ho ho'
        subst this
        rw [hp] at hq
        cases hq
        have hk : ((vec p.v).map (·.1)).Nodup := by rw [F.keys p (List.mem_of_getElem? hp)]; exact F.nodup
        have a := (lookup_eq_some_iff_of_nodup _ _ _ hk).mpr hxp
        have b := (lookup_eq_some_iff_of_nodup _ _ _ hk).mpr hyq
        rw [a] at b
        exact Option.some.inj b)
    refine ⟨g, by rw [e1], e2, fun n x => ?_⟩
    rw [e3 n x]
    constructor
    · rintro ⟨a, ha, hx⟩
      obtain ⟨i, hi⟩ := List.mem_iff_getElem?.mp ha
      obtain ⟨⟨p, hp, hxp⟩, ho, hl⟩ := ((h3 i a hi).2 n x).mp hx
      exact ⟨⟨i, p, ho, hp, hxp⟩, hl⟩
    · rintro ⟨⟨i, p, ho, hp, hxp⟩, hl⟩
      have hlt : i < all.length := by rw [h2]; exact (List.getElem?_eq_some_iff.mp hp).1
      have hi : all[i]? = some all[i] := List.getElem?_eq_getElem hlt
      exact ⟨all[i], List.getElem_mem hlt, ((h3 i _ hi).2 n x).mpr ⟨⟨p, hp, hxp⟩, ho, hl⟩⟩
  · refine ⟨[], rfl, by simp, fun n x => ?_⟩
    simp only [List.not_mem_nil, false_iff, not_and, not_exists]
    rintro _ l hl hn
    apply hany
    rw [List.any_eq_true]
    refine ⟨l, hl, ?_⟩
    simp only [decide_eq_true_eq]
    intro h
    rw [h] at hn
    cases hn

/-- The other processes hand on nothing, or an empty dictionary. -/
theorem VecFacts.serial_other {procs : List (RProc V)} {nd vec K ns} (F : VecFacts procs nd vec K ns)
    (rank : Nat) :
    ∃ g, vecFor true (ownersOf procs) nd rank = .ok g := by
  obtain ⟨all, h1, h2, h3⟩ := F.locals
  unfold vecFor
  rw [h1]
  simp only [if_true]
  cases hn : nd[rank]? with
  | none => exact ⟨_, rfl⟩
  | some e => dsimp only; split_ifs <;> exact ⟨_, rfl⟩

/-- Without gathering each process hands on what it owns. -/
theorem VecFacts.parallel {procs : List (RProc V)} {nd vec K ns} (F : VecFacts procs nd vec K ns)
    (rank : Nat) (hr : rank < procs.length) :
    ∃ g, vecFor false (ownersOf procs) nd rank = .ok (some g) ∧ (g.map (·.1)).Nodup ∧
      ∀ n x, (n, x) ∈ g ↔ HasValue procs vec n x ∧ OwnsVar procs n rank ∧ ∃ l ∈ ns, n ∈ l := by
  obtain ⟨all, h1, h2, h3⟩ := F.locals
  have hlt : rank < all.length := by omega
  have hi : all[rank]? = some all[rank] := List.getElem?_eq_getElem hlt
  refine ⟨all[rank], ?_, (h3 _ _ hi).1, fun n x => ?_⟩
  · unfold vecFor
    rw [h1]
    simp only [Bool.false_eq_true, if_false, hi]
  · rw [(h3 _ _ hi).2 n x]
    constructor
    · rintro ⟨⟨p, hp, hx⟩, ho, hl⟩
      exact ⟨⟨rank, p, ho, hp, hx⟩, ho, hl⟩
    · rintro ⟨⟨i, p, ho, hp, hx⟩, ho', hl⟩
      have : i = rank := ownsVar_unique procs n i rank ho ho'
      subst this
      exact ⟨⟨p, hp, hx⟩, ho, hl⟩

/-! ### The names at startup -/

/-- The names that a recorder keeps, switched on or off. -/
def startKept (fnm : Str → Str → Bool) (o : RecOpts) (on : Bool) (K : List Str) : List Str :=
  if on then K.filter fun n => checkPath fnm n o.excludes o.includes else []

theorem start_p (fnm : Str → Str → Bool) (o : RecOpts) {procs : List (RProc V)} {pn un : List Str}
    (G : GoodComm procs pn un) (p : RProc V) (hp : p ∈ procs) :
    (recStartup fnm o p.v).p = startKept fnm o o.recP pn := by
  simp only [recStartup, startKept, G.params p hp]

theorem start_u (fnm : Str → Str → Bool) (o : RecOpts) {procs : List (RProc V)} {pn un : List Str}
    (G : GoodComm procs pn un) (p : RProc V) (hp : p ∈ procs) :
    (recStartup fnm o p.v).u = startKept fnm o o.recU un := by
  simp only [recStartup, startKept, G.unknowns p hp]

theorem start_r (fnm : Str → Str → Bool) (o : RecOpts) {procs : List (RProc V)} {pn un : List Str}
    (G : GoodComm procs pn un) (p : RProc V) (hp : p ∈ procs) :
    (recStartup fnm o p.v).r = startKept fnm o o.recR un := by
  simp only [recStartup, startKept, G.unknowns p hp, G.resids p hp]
  cases o.recU <;> cases o.recR <;> rfl

theorem facts_of (fnm : Str → Str → Bool) (recs : List MRec) (procs : List (RProc V))
    (sel : Filt → List Str) (vec : RecVecs V → List (Str × V)) (on : RecOpts → Bool) (K : List Str)
    (hs : ∀ r ∈ recs, ∀ p ∈ procs, sel (recStartup fnm r.o p.v) = startKept fnm r.o (on r.o) K)
    (hk : ∀ p ∈ procs, (vec p.v).map (·.1) = K) (hn : K.Nodup)
    (hw : ∀ n ∈ K, ∃ p ∈ procs, n ∈ p.locals) :
    VecFacts procs (procs.map fun q => (startNames fnm recs sel q, vec q.v)) vec K
      (recs.map fun r => startKept fnm r.o (on r.o) K) where
  nd_eq := List.map_congr_left fun q hq => by
    congr 1
    unfold startNames
    exact List.map_congr_left fun r hr => hs r hr q hq
  keys := hk
  nodup := hn
  sub := by
    intro l hl n hnl
    obtain ⟨r, _, rfl⟩ := List.mem_map.mp hl
    unfold startKept at hnl
    split_ifs at hnl
    · exact (List.mem_filter.mp hnl).1
    · cases hnl
  somewhere := hw

theorem kept_mem (fnm : Str → Str → Bool) (o : RecOpts) (K : List Str) (n : Str) :
    n ∈ startKept fnm o true K ↔ n ∈ K ∧ Selected fnm o n := by
  simp only [startKept, if_true, List.mem_filter, checkPath_iff, Selected]

theorem hasValue_of {procs : List (RProc V)} {vec : RecVecs V → List (Str × V)} {K : List Str}
    (hk : ∀ p ∈ procs, (vec p.v).map (·.1) = K) (n : Str) (hn : n ∈ K)
    (hw : ∃ p ∈ procs, n ∈ p.locals) : ∃ x, HasValue procs vec n x := by
  obtain ⟨i, hi⟩ := owner_exists procs n hw
  have ho := (owners_iff procs n i).mp hi
  obtain ⟨p, hp, _⟩ := ho.1
  rw [← hk p (List.mem_of_getElem? hp)] at hn
  obtain ⟨⟨m, x⟩, hx, rfl⟩ := List.mem_map.mp hn
  exact ⟨x, i, p, ho, hp, hx⟩

theorem hasValue_mem {procs : List (RProc V)} {vec : RecVecs V → List (Str × V)} {K : List Str}
    (hk : ∀ p ∈ procs, (vec p.v).map (·.1) = K) (n : Str) (x : V) (h : HasValue procs vec n x) : n ∈ K := by
  obtain ⟨i, p, _, hp, hx⟩ := h
  rw [← hk p (List.mem_of_getElem? hp)]
  exact List.mem_map.mpr ⟨_, hx, rfl⟩

/-- One vector of a serial recorder in the first process. -/
theorem serial_part (fnm : Str → Str → Bool) (recs : List MRec) (procs : List (RProc V))
    (vec : RecVecs V → List (Str × V)) (on : RecOpts → Bool) (K : List Str) (nd)
    (F : VecFacts procs nd vec K (recs.map fun r => startKept fnm r.o (on r.o) K))
    (r : MRec) (hr : r ∈ recs) (g : List (Str × V)) (hg : (g.map (·.1)).Nodup)
    (hm : ∀ n x, (n, x) ∈ g ↔ HasValue procs vec n x ∧
      ∃ l ∈ recs.map (fun r => startKept fnm r.o (on r.o) K), n ∈ l) :
    ∃ w, partOf (on r.o) (some g) (startKept fnm r.o (on r.o) K) = .ok w ∧
      WritesOwned procs vec (Selected fnm r.o) (on r.o) w := by
  cases ho : on r.o with
  | false => exact ⟨none, by simp [partOf], by simp [WritesOwned]⟩
  | true =>
    have hin : startKept fnm r.o true K ∈ recs.map fun r => startKept fnm r.o (on r.o) K :=
      List.mem_map.mpr ⟨r, hr, by rw [ho]⟩
    obtain ⟨l, h1, h2, h3⟩ := filterVec_mem g hg (startKept fnm r.o true K)
      (by simp only [startKept, if_true]; exact F.nodup.filter _) (by
        intro n hn
        have hK := ((kept_mem fnm r.o K n).mp hn).1
        obtain ⟨x, hx⟩ := hasValue_of F.keys n hK (F.somewhere n hK)
        exact List.mem_map.mpr ⟨_, (hm n x).mpr ⟨hx, _, hin, hn⟩, rfl⟩)
    refine ⟨some l, by simp only [partOf, if_true, h1]; rfl, by simp, fun _ => ⟨l, rfl, fun n x => ?_, h3⟩⟩
    rw [h2 n x, hm n x, kept_mem]
    constructor
    · rintro ⟨⟨hv, _⟩, _, hs⟩; exact ⟨hv, hs⟩
    · rintro ⟨hv, hs⟩
      have hK := hasValue_mem F.keys n x hv
      exact ⟨⟨hv, _, hin, (kept_mem fnm r.o K n).mpr ⟨hK, hs⟩⟩, hK, hs⟩

/-- One vector of a parallel recorder. -/
theorem parallel_part (fnm : Str → Str → Bool) (recs : List MRec) (procs : List (RProc V))
    (vec : RecVecs V → List (Str × V)) (on : RecOpts → Bool) (K : List Str) (nd) (rank : Nat)
    (F : VecFacts procs nd vec K (recs.map fun r => startKept fnm r.o (on r.o) K))
    (r : MRec) (hr : r ∈ recs) (g : List (Str × V)) (hg : (g.map (·.1)).Nodup)
    (hm : ∀ n x, (n, x) ∈ g ↔ HasValue procs vec n x ∧ OwnsVar procs n rank ∧
      ∃ l ∈ recs.map (fun r => startKept fnm r.o (on r.o) K), n ∈ l) :
    ∃ names w, ownedBy (ownersOf procs) rank (startKept fnm r.o (on r.o) K) = .ok names ∧
      partOf (on r.o) (some g) names = .ok w ∧
      WritesOwned procs vec (fun n => Selected fnm r.o n ∧ OwnsVar procs n rank) (on r.o) w := by
  have hown := ownedBy_ok (ownersOf procs) rank (startKept fnm r.o (on r.o) K) (by
    intro n hn
    exact owner_exists procs n (F.somewhere n (F.sub _ (List.mem_map.mpr ⟨r, hr, rfl⟩) n hn)))
  refine ⟨(startKept fnm r.o (on r.o) K).filter fun n => (ownersOf procs).lookup n == some rank, ?_⟩
  cases ho : on r.o with
  | false =>
    rw [ho] at hown
    exact ⟨none, hown, by simp [partOf], by simp [WritesOwned]⟩
  | true =>
    rw [ho] at hown
    have hin : startKept fnm r.o true K ∈ recs.map fun r => startKept fnm r.o (on r.o) K :=
      List.mem_map.mpr ⟨r, hr, by rw [ho]⟩
    have hmem : ∀ n, n ∈ (startKept fnm r.o true K).filter (fun n => (ownersOf procs).lookup n == some rank) ↔
        n ∈ K ∧ Selected fnm r.o n ∧ OwnsVar procs n rank := by
      intro n
      rw [List.mem_filter, kept_mem, beq_iff_eq, owners_iff, and_assoc]
    obtain ⟨l, h1, h2, h3⟩ := filterVec_mem g hg
      ((startKept fnm r.o true K).filter fun n => (ownersOf procs).lookup n == some rank)
      (by simp only [startKept, if_true]; exact (F.nodup.filter _).filter _) (by
        intro n hn
        obtain ⟨hK, hs, hw⟩ := (hmem n).mp hn
        obtain ⟨x, hx⟩ := hasValue_of F.keys n hK (F.somewhere n hK)
        exact List.mem_map.mpr ⟨_, (hm n x).mpr ⟨hx, hw, _, hin, (kept_mem fnm r.o K n).mpr ⟨hK, hs⟩⟩, rfl⟩)
    refine ⟨some l, hown, by simp only [partOf, if_true, h1]; rfl, by simp,
      fun _ => ⟨l, rfl, fun n x => ?_, h3⟩⟩
    rw [h2 n x, hm n x, hmem]
    constructor
    · rintro ⟨⟨hv, _⟩, _, hs, hw⟩; exact ⟨hv, hs, hw⟩
    · rintro ⟨hv, hs, hw⟩
      have hK := hasValue_mem F.keys n x hv
      exact ⟨⟨hv, hw, _, hin, (kept_mem fnm r.o K n).mpr ⟨hK, hs⟩⟩, hK, hs, hw⟩

/-! ## C158 -/

section
variable (fnm : Str → Str → Bool) (recs : List MRec) (procs : List (RProc V)) (pn un : List Str)

theorem facts_p (G : GoodComm procs pn un) :
    VecFacts procs (procs.map fun q => (startNames fnm recs (·.p) q, q.v.params)) (·.params) pn
      (recs.map fun r => startKept fnm r.o r.o.recP pn) :=
  facts_of fnm recs procs (·.p) (·.params) (·.recP) pn (fun r _ p hp => start_p fnm r.o G p hp) G.params
    G.pnodup fun n hn => G.somewhere n (List.mem_append_left _ hn)

theorem facts_u (G : GoodComm procs pn un) :
    VecFacts procs (procs.map fun q => (startNames fnm recs (·.u) q, q.v.unknowns)) (·.unknowns) un
      (recs.map fun r => startKept fnm r.o r.o.recU un) :=
  facts_of fnm recs procs (·.u) (·.unknowns) (·.recU) un (fun r _ p hp => start_u fnm r.o G p hp) G.unknowns
    G.unodup fun n hn => G.somewhere n (List.mem_append_right _ hn)

theorem facts_r (G : GoodComm procs pn un) :
    VecFacts procs (procs.map fun q => (startNames fnm recs (·.r) q, q.v.resids)) (·.resids) un
      (recs.map fun r => startKept fnm r.o r.o.recR un) :=
  facts_of fnm recs procs (·.r) (·.resids) (·.recR) un (fun r _ p hp => start_r fnm r.o G p hp) G.resids
    G.unodup fun n hn => G.somewhere n (List.mem_append_right _ hn)

/-- **C158**: recorders that cannot record in parallel, attached to a system that runs on the first process and
any others: in the first process each of them writes exactly the variables that it selects, each with the value
that the owner of the variable holds, wherever that is. -/
theorem C158_serial_partial (G : GoodComm procs pn un) (hs : ∀ r ∈ recs, r.par = false) (p0 : RProc V)
    (h0 : procs[0]? = some p0) (hw : p0.world = 0) (k : Nat) (r : MRec) (hk : recs[k]? = some r) :
    ∃ d, mgrRecord fnm recs procs 0 k = .ok (some d) ∧
      WritesOwned procs (·.params) (Selected fnm r.o) r.o.recP d.p ∧
      WritesOwned procs (·.unknowns) (Selected fnm r.o) r.o.recU d.u ∧
      WritesOwned procs (·.resids) (Selected fnm r.o) r.o.recR d.r := by
  have hr := List.mem_of_getElem? hk
  have hp0 := List.mem_of_getElem? h0
  have hne : procs ≠ [] := by rintro rfl; simp at h0
  have hser : (recs.any fun r => !r.par) = true := List.any_eq_true.mpr ⟨r, hr, by simp [hs r hr]⟩
  have Fp := facts_p fnm recs procs pn un G
  have Fu := facts_u fnm recs procs pn un G
  have Fr := facts_r fnm recs procs pn un G
  obtain ⟨gp, p1, p2, p3⟩ := Fp.serial hne
  obtain ⟨gu, u1, u2, u3⟩ := Fu.serial hne
  obtain ⟨gr, r1, r2, r3⟩ := Fr.serial hne
  obtain ⟨wp, p4, p5⟩ := serial_part fnm recs procs (·.params) (·.recP) pn _ Fp r hr gp p2 p3
  obtain ⟨wu, u4, u5⟩ := serial_part fnm recs procs (·.unknowns) (·.recU) un _ Fu r hr gu u2 u3
  obtain ⟨wr, r4, r5⟩ := serial_part fnm recs procs (·.resids) (·.recR) un _ Fr r hr gr r2 r3
  refine ⟨⟨wp, wu, wr⟩, ?_, p5, u5, r5⟩
  simp only [mgrRecord, h0, hk, hser, p1, u1, r1, hw, BEq.rfl, Bool.or_true, if_true, mgrFilt, hs r hr,
    Bool.false_eq_true, if_false, recWrite, start_p fnm r.o G p0 hp0, start_u fnm r.o G p0 hp0,
    start_r fnm r.o G p0 hp0, p4, u4, r4]
  rfl

/-- **C158**: in processes other than the first of all, such recorders write nothing; if the system does not run
on the first of all processes, they write nothing at all. -/
theorem C158_serial_others (G : GoodComm procs pn un) (hs : ∀ r ∈ recs, r.par = false) (i : Nat) (p : RProc V)
    (hi : procs[i]? = some p) (hw : p.world ≠ 0) (k : Nat) (r : MRec) (hk : recs[k]? = some r) :
    mgrRecord fnm recs procs i k = .ok none := by
  have hr := List.mem_of_getElem? hk
  have hser : (recs.any fun r => !r.par) = true := List.any_eq_true.mpr ⟨r, hr, by simp [hs r hr]⟩
  obtain ⟨gp, p1⟩ := (facts_p fnm recs procs pn un G).serial_other i
  obtain ⟨gu, u1⟩ := (facts_u fnm recs procs pn un G).serial_other i
  obtain ⟨gr, r1⟩ := (facts_r fnm recs procs pn un G).serial_other i
  have hw' : (p.world == 0) = false := by simpa using hw
  simp only [mgrRecord, hi, hk, hser, p1, u1, r1, hw', hs r hr, Bool.or_self, Bool.false_eq_true, if_false]
  cases gp <;> rfl

/-- **C158**: recorders that can record in parallel: each process writes exactly the selected variables that it
owns; every selected variable has one owner, so it is written by one process. -/
theorem C158_parallel_partial (G : GoodComm procs pn un) (hs : ∀ r ∈ recs, r.par = true) (i : Nat)
    (p : RProc V) (hi : procs[i]? = some p) (k : Nat) (r : MRec) (hk : recs[k]? = some r) :
    ∃ d, mgrRecord fnm recs procs i k = .ok (some d) ∧
      WritesOwned procs (·.params) (fun n => Selected fnm r.o n ∧ OwnsVar procs n i) r.o.recP d.p ∧
      WritesOwned procs (·.unknowns) (fun n => Selected fnm r.o n ∧ OwnsVar procs n i) r.o.recU d.u ∧
      WritesOwned procs (·.resids) (fun n => Selected fnm r.o n ∧ OwnsVar procs n i) r.o.recR d.r := by
  have hr := List.mem_of_getElem? hk
  have hp := List.mem_of_getElem? hi
  have hlt := (List.getElem?_eq_some_iff.mp hi).1
  have hser : (recs.any fun r => !r.par) = false := by
    rw [List.any_eq_false]
    intro r hr
    simp [hs r hr]
  have Fp := facts_p fnm recs procs pn un G
  have Fu := facts_u fnm recs procs pn un G
  have Fr := facts_r fnm recs procs pn un G
  obtain ⟨gp, p1, p2, p3⟩ := Fp.parallel i hlt
  obtain ⟨gu, u1, u2, u3⟩ := Fu.parallel i hlt
  obtain ⟨gr, r1, r2, r3⟩ := Fr.parallel i hlt
  obtain ⟨np, wp, p4, p5, p6⟩ := parallel_part fnm recs procs (·.params) (·.recP) pn _ i Fp r hr gp p2 p3
  obtain ⟨nu, wu, u4, u5, u6⟩ := parallel_part fnm recs procs (·.unknowns) (·.recU) un _ i Fu r hr gu u2 u3
  obtain ⟨nr, wr, r4, r5, r6⟩ := parallel_part fnm recs procs (·.resids) (·.recR) un _ i Fr r hr gr r2 r3
  refine ⟨⟨wp, wu, wr⟩, ?_, p6, u6, r6⟩
  simp only [mgrRecord, hi, hk, hser, p1, u1, r1, hs r hr, Bool.true_or, if_true, mgrFilt, recWrite,
    start_p fnm r.o G p hp, start_u fnm r.o G p hp, start_r fnm r.o G p hp, p4, u4, r4, p5, u5, r5]
  rfl

/-- **C158**: every variable of the system has exactly one owner. -/
theorem C158_one_owner (G : GoodComm procs pn un) (n : Str) (hn : n ∈ pn ++ un) :
    ∃ i, OwnsVar procs n i ∧ ∀ j, OwnsVar procs n j → j = i := by
  obtain ⟨i, hi⟩ := owner_exists procs n (G.somewhere n hn)
  have ho := (owners_iff procs n i).mp hi
  exact ⟨i, ho, fun j hj => ownsVar_unique procs n j i hj ho⟩

end

/-! ### A case, and where it goes wrong -/

/-- Patterns that match the whole name, or everything. -/
def starEq (n p : Str) : Bool := p == ['*'] || n == p

/-- Two processes: `x` is local to the first, `y` to the second, `z` to both; the numbers tell which value is
which. -/
def recProcs (w0 w1 : Nat) : List (RProc Nat) :=
  [⟨w0, [['x'], ['z'], ['p']], ⟨[(['p'], 7)], [(['x'], 1), (['y'], 0), (['z'], 3)], [(['x'], 0), (['y'], 0), (['z'], 0)]⟩⟩,
   ⟨w1, [['y'], ['z']], ⟨[(['p'], 0)], [(['x'], 0), (['y'], 2), (['z'], 4)], [(['x'], 0), (['y'], 0), (['z'], 0)]⟩⟩]

theorem recProcs_good (w0 w1 : Nat) : GoodComm (recProcs w0 w1) [['p']] [['x'], ['y'], ['z']] where
  params := by simp [recProcs]
  unknowns := by simp [recProcs]
  resids := by simp [recProcs]
  pnodup := by decide
  unodup := by decide
  somewhere := by simp [recProcs]

/-- All unknowns. -/
def allUnknowns : RecOpts := ⟨false, true, false, true, [['*']], []⟩

/-- All parameters and unknowns. -/
def allParams : RecOpts := ⟨true, true, false, true, [['*']], []⟩

/-- The hypotheses can be met: the serial recorder in the first process writes `y` of the second. -/
example : mgrRecord starEq [⟨allUnknowns, false⟩] (recProcs 0 1) 0 0 =
    .ok (some ⟨none, some [(['x'], 1), (['y'], 2), (['z'], 3)], none⟩) := by decide +kernel

/-- The parallel recorder writes in each process what it owns. -/
example : mgrRecord starEq [⟨allParams, true⟩] (recProcs 0 1) 0 0 =
      .ok (some ⟨some [(['p'], 7)], some [(['x'], 1), (['z'], 3)], none⟩) ∧
    mgrRecord starEq [⟨allParams, true⟩] (recProcs 0 1) 1 0 = .ok (some ⟨some [], some [(['y'], 2)], none⟩) := by
  decide +kernel

/-- **C158** fails when a serial and a parallel recorder are attached together: the gathered dictionaries exist
in the first process only.  With parameters recorded the parallel recorder writes nothing in the other
processes, so what they own is lost (the first process still writes only what it owns itself); without them it
fails. -/
theorem C158_mixed_refuted :
    mgrRecord starEq [⟨allParams, false⟩, ⟨allParams, true⟩] (recProcs 0 1) 0 1 =
      .ok (some ⟨some [(['p'], 7)], some [(['x'], 1), (['z'], 3)], none⟩) ∧
    mgrRecord starEq [⟨allParams, false⟩, ⟨allParams, true⟩] (recProcs 0 1) 1 1 = .ok none ∧
    mgrRecord starEq [⟨allUnknowns, false⟩, ⟨allUnknowns, true⟩] (recProcs 0 1) 1 1 =
      .error .AttributeError := by
  decide +kernel

/-- **C158** fails for systems that do not run on the first of all processes: a serial recorder attached to
the solver of such a group is called by no process. -/
theorem C158_subgroup_refuted :
    ∀ i < 2, mgrRecord starEq [⟨allUnknowns, false⟩] (recProcs 2 3) i 0 = .ok none := by
  decide +kernel

end OpenMDAO
