import Verif.Model.Paths
import Mathlib.Data.List.Dedup
import Mathlib.Data.List.Perm.Basic
import Mathlib.Data.List.Nodup
/-! # C17 and C19 -/
namespace OpenMDAO
set_option linter.unusedSectionVars false

/-! ## C19 -/

/-- Specification: `p` is a dotted prefix of `n`: empty, equal, or followed by a dot. -/
def DottedPrefix (p n : Str) : Prop := p = [] ∨ n = p ∨ ∃ r, n = p ++ '.' :: r

theorem pySplit_ne_nil (c : Char) (s : Str) : pySplit c s ≠ [] := by
  cases s with
  | nil => simp [pySplit]
  | cons x xs =>
    simp only [pySplit]
    split_ifs
    · simp
    · split <;> simp

theorem pySplit_append (c : Char) (a b : Str) : pySplit c (a ++ c :: b) = pySplit c a ++ pySplit c b := by
  induction a with
  | nil => simp [pySplit]
  | cons x xs ih =>
    simp only [List.cons_append, pySplit]
    split_ifs with h
    · simp [ih]
    · rw [ih]
      cases hs : pySplit c xs with
      | nil => exact absurd hs (pySplit_ne_nil c xs)
      | cons p ps => simp

theorem pyJoin_append (c : Char) : ∀ (a b : List Str), a ≠ [] → b ≠ [] →
    pyJoin c (a ++ b) = pyJoin c a ++ c :: pyJoin c b
  | [], _, h, _ => absurd rfl h
  | [p], q :: qs, _, _ => by simp [pyJoin]
  | [p], [], _, h => absurd rfl h
  | p :: q :: ps, b, _, hb => by
    have := pyJoin_append c (q :: ps) b (by simp) hb
    simp only [List.cons_append, pyJoin] at this ⊢
    rw [this]; simp

theorem pyJoin_split (c : Char) (s : Str) : pyJoin c (pySplit c s) = s := by
  induction s with
  | nil => rfl
  | cons x xs ih =>
    simp only [pySplit]
    split_ifs with h
    · cases hs : pySplit c xs with
      | nil => exact absurd hs (pySplit_ne_nil c xs)
      | cons p ps => rw [hs] at ih; simp [pyJoin, ih, h]
    · cases hs : pySplit c xs with
      | nil => exact absurd hs (pySplit_ne_nil c xs)
      | cons p ps =>
        rw [hs] at ih
        cases ps with
        | nil => simp [pyJoin] at ih ⊢; exact ih
        | cons q qs => simp [pyJoin] at ih ⊢; exact ih

theorem commonParts_prefix : ∀ a b : List Str, commonParts a b <+: a ∧ commonParts a b <+: b
  | [], _ => by simp [commonParts]
  | _ :: _, [] => by simp [commonParts]
  | p :: ps, q :: qs => by
    obtain ⟨h1, h2⟩ := commonParts_prefix ps qs
    simp only [commonParts]
    split_ifs with h
    · subst h
      exact ⟨(List.prefix_cons_inj p).mpr h1, (List.prefix_cons_inj p).mpr h2⟩
    · simp

theorem commonParts_greatest : ∀ l a b : List Str, l <+: a → l <+: b → l <+: commonParts a b
  | [], _, _, _, _ => List.nil_prefix
  | x :: l, a, b, h1, h2 => by
    obtain ⟨t1, rfl⟩ := h1
    obtain ⟨t2, rfl⟩ := h2
    simp only [List.cons_append, commonParts, if_true]
    exact (List.prefix_cons_inj x).mpr (commonParts_greatest l _ _ (List.prefix_append _ _) (List.prefix_append _ _))

theorem dottedPrefix_of_parts {l : List Str} {n : Str} (h : l <+: pySplit '.' n) : DottedPrefix (pyJoin '.' l) n := by
  obtain ⟨t, ht⟩ := h
  by_cases hl : l = []
  · left; simp [hl, pyJoin]
  · by_cases htn : t = []
    · right; left
      rw [← pyJoin_split '.' n, ← ht]; simp [htn]
    · right; right
      refine ⟨pyJoin '.' t, ?_⟩
      rw [← pyJoin_append '.' l t hl htn, ht, pyJoin_split]

theorem parts_of_dottedPrefix {p n : Str} (hp : p ≠ []) (h : DottedPrefix p n) : pySplit '.' p <+: pySplit '.' n := by
  rcases h with h | h | ⟨r, h⟩
  · exact absurd h hp
  · subst h; exact List.prefix_rfl
  · rw [h, pySplit_append]; exact List.prefix_append _ _

/-- C19. The common ancestor is the longest dotted prefix of both names: it is a dotted prefix of both, and every dotted
prefix of both is a dotted prefix of it. -/
theorem C19_common_ancestor (n1 n2 : Str) :
    DottedPrefix (getCommonAncestor n1 n2) n1 ∧ DottedPrefix (getCommonAncestor n1 n2) n2 ∧
    ∀ p, DottedPrefix p n1 → DottedPrefix p n2 → DottedPrefix p (getCommonAncestor n1 n2) := by
  have e : getCommonAncestor n1 n2 = pyJoin '.' (commonParts (pySplit '.' n1) (pySplit '.' n2)) := by
    unfold getCommonAncestor
    simp only
    split_ifs with h
    · rw [h]; rfl
    · rfl
  rw [e]
  obtain ⟨h1, h2⟩ := commonParts_prefix (pySplit '.' n1) (pySplit '.' n2)
  refine ⟨dottedPrefix_of_parts h1, dottedPrefix_of_parts h2, ?_⟩
  intro p p1 p2
  by_cases hp : p = []
  · exact .inl hp
  · have := commonParts_greatest _ _ _ (parts_of_dottedPrefix hp p1) (parts_of_dottedPrefix hp p2)
    obtain ⟨t, ht⟩ := this
    rw [← ht]
    by_cases htn : t = []
    · right; left; rw [htn, List.append_nil, pyJoin_split]
    · right; right
      exact ⟨pyJoin '.' t, by rw [pyJoin_append _ _ _ (pySplit_ne_nil _ _) htn, pyJoin_split]⟩

example : getCommonAncestor "sub.ab.x".toList "sub.abc.y".toList = "sub".toList := by decide

/-- Specification: a name inside a system, re-joined to the absolute name (the root system has the empty name). -/
def rejoin (parent rel : Str) : Str := if parent = [] then rel else parent ++ '.' :: rel

/-- C19. The relative name re-joined with the ancestor is the absolute name, for every absolute name that lies inside the
ancestor; and it is the only such relative name. -/
theorem C19_relative_name (parent child : Str) (h : ∃ rel, child = rejoin parent rel) :
    rejoin parent (nameRelativeTo parent child) = child ∧
    ∀ rel, child = rejoin parent rel → rel = nameRelativeTo parent child := by
  have key : ∀ rel, nameRelativeTo parent (rejoin parent rel) = rel := by
    intro rel
    unfold nameRelativeTo rejoin pathStart
    split_ifs with hp
    · rfl
    · rw [List.drop_append]; simp
  obtain ⟨rel, rfl⟩ := h
  refine ⟨by rw [key], ?_⟩
  intro r hr
  rw [hr, key]

theorem pyHead_spec (c : Char) (a b : Str) (ha : c ∉ a) : pyHead c (a ++ c :: b) = a ∧ pyHead c a = a := by
  induction a with
  | nil => simp [pyHead]
  | cons x xs ih =>
    simp only [List.mem_cons, not_or] at ha
    have hx : x ≠ c := fun h => ha.1 h.symm
    simp [pyHead, hx, ih ha.2]

/-- C19. The nearest child is exactly one path element: for an element `c` without dots the nearest child of `parent`
containing `parent.c` or anything inside it is `c`; conversely the ancestor extended by the nearest child is a dotted
prefix of the name. -/
theorem C19_nearest_child (parent c rest : Str) (hc : '.' ∉ c) :
    nearestChild parent (rejoin parent c) = c ∧ nearestChild parent (rejoin parent (c ++ '.' :: rest)) = c := by
  have key : ∀ rel, (rejoin parent rel).drop (pathStart parent) = rel := by
    intro rel
    unfold rejoin pathStart
    split_ifs with hp
    · rfl
    · rw [List.drop_append]; simp
  unfold nearestChild
  rw [key, key]
  exact ⟨(pyHead_spec '.' c rest hc).2, (pyHead_spec '.' c rest hc).1⟩

theorem pyHead_prefix (c : Char) (s : Str) : c ∉ pyHead c s ∧ (s = pyHead c s ∨ ∃ r, s = pyHead c s ++ c :: r) := by
  induction s with
  | nil => simp [pyHead]
  | cons x xs ih =>
    simp only [pyHead]
    split_ifs with h
    · exact ⟨by simp, .inr ⟨xs, by simp [h]⟩⟩
    · refine ⟨by simp [ih.1]; exact fun hc => h hc.symm, ?_⟩
      rcases ih.2 with h1 | ⟨r, h1⟩
      · left; rw [← h1]
      · right; exact ⟨r, by rw [List.cons_append, ← h1]⟩

/-- C19. The nearest child is a single path element, and re-joined with the ancestor it is the name or a system containing
it. -/
theorem C19_nearest_child_contains (parent rel : Str) :
    '.' ∉ nearestChild parent (rejoin parent rel) ∧
    (rejoin parent rel = rejoin parent (nearestChild parent (rejoin parent rel)) ∨
      ∃ r, rejoin parent rel = rejoin parent (nearestChild parent (rejoin parent rel)) ++ '.' :: r) := by
  have key : (rejoin parent rel).drop (pathStart parent) = rel := by
    unfold rejoin pathStart
    split_ifs with hp
    · rfl
    · rw [List.drop_append]; simp
  unfold nearestChild
  rw [key]
  obtain ⟨h1, h2⟩ := pyHead_prefix '.' rel
  refine ⟨h1, ?_⟩
  rcases h2 with h2 | ⟨r, h2⟩
  · left; rw [← h2]
  · right
    refine ⟨r, ?_⟩
    conv_lhs => rw [h2]
    unfold rejoin
    split_ifs <;> simp

example : nearestChild "g1".toList "g1.g2.c.x".toList = "g2".toList ∧
    nameRelativeTo "g1".toList "g1.g2.c.x".toList = "g2.c.x".toList := by decide

/-! ## C17 -/

variable {σ : Type}

theorem dedup_length_lt_iff (l : List String) : l.dedup.length < l.length ↔ ¬ l.Nodup := by
  constructor
  · intro h hn; rw [List.dedup_eq_self.mpr hn] at h; omega
  · intro h
    have h1 := (List.dedup_sublist l).length_le
    rcases Nat.lt_or_ge l.dedup.length l.length with h2 | h2
    · exact h2
    · exact absurd (List.dedup_eq_self.mp ((List.dedup_sublist l).eq_of_length_le h2)) h

/-- C17. The call succeeds exactly when the new order is a permutation of the subsystem names. -/
theorem C17_accepted_iff (g : GroupOrder σ) (hn : (g.subs.map Prod.fst).Nodup) (new : List String) :
    (setOrder g new).1 = .ok () ↔ new.Perm (g.subs.map Prod.fst) := by
  unfold setOrder
  split_ifs with h1 h2
  · simp only [false_iff]
    intro hp
    exact (dedup_length_lt_iff new).mp h2 (hp.nodup_iff.mpr hn)
  · rw [dedup_length_lt_iff, not_not] at h2
    simp only [true_iff]
    exact (List.perm_ext_iff_of_nodup h2 hn).mpr fun a => ⟨fun h => h1.2 a h, fun h => h1.1 a h⟩
  · simp only [false_iff]
    intro hp
    exact h1 ⟨fun n hn => hp.mem_iff.mpr hn, fun n hn => hp.mem_iff.mp hn⟩

theorem filterMap_lookup_map (subs : List (String × σ)) : ∀ new : List String, (∀ n ∈ new, n ∈ subs.map Prod.fst) →
    (new.filterMap (fun n => (subs.lookup n).map (n, ·))).map (·.1) = new
  | [], _ => rfl
  | n :: ns, h => by
    have ih := filterMap_lookup_map subs ns (fun m hm => h m (List.mem_cons_of_mem _ hm))
    have hm := h n List.mem_cons_self
    cases hl : subs.lookup n with
    | none =>
      rw [List.lookup_eq_none_iff] at hl
      obtain ⟨x, hx, rfl⟩ := List.mem_map.mp hm
      have := hl x hx
      simp at this
    | some s =>
      rw [List.filterMap_cons, hl]
      simp only [Option.map_some, List.map_cons]
      rw [ih]

theorem lookup_mem' {subs : List (String × σ)} {n : String} {s : σ} (h : subs.lookup n = some s) : (n, s) ∈ subs := by
  induction subs with
  | nil => simp at h
  | cons x xs ih =>
    obtain ⟨a, b⟩ := x
    rw [List.lookup_cons] at h
    by_cases hn : n = a
    · subst hn; simp at h; subst h; exact List.mem_cons_self
    · have : (n == a) = false := by simpa using hn
      rw [this] at h
      exact List.mem_cons_of_mem _ (ih h)

/-- C17. After an accepted call the subsystems run exactly in the given order, each name still denoting the same
subsystem. -/
theorem C17_runs_in_order (g : GroupOrder σ) (hn : (g.subs.map Prod.fst).Nodup) (new : List String)
    (h : (setOrder g new).1 = .ok ()) :
    (runOrder (setOrder g new).2).map (·.1) = new ∧ (runOrder (setOrder g new).2).Perm g.subs := by
  have hp := (C17_accepted_iff g hn new).mp h
  unfold setOrder at h ⊢
  split_ifs at h ⊢ with h1 h2
  have e : (new.filterMap (fun n => (g.subs.lookup n).map (n, ·))).map (·.1) = new :=
    filterMap_lookup_map g.subs new (fun n hn => hp.mem_iff.mp hn)
  refine ⟨e, ?_⟩
  have nd : (new.filterMap (fun n => (g.subs.lookup n).map (n, ·))).Nodup :=
    List.Nodup.of_map (·.1) (by rw [e]; exact hp.nodup_iff.mpr hn)
  refine List.Subperm.perm_of_length_le (List.subperm_of_subset nd ?_) ?_
  · intro x hx
    obtain ⟨n, -, hx⟩ := List.mem_filterMap.mp hx
    cases hl : g.subs.lookup n with
    | none => rw [hl] at hx; simp at hx
    | some s => rw [hl] at hx; simp at hx; subst hx; exact lookup_mem' hl
  · have h1 := congrArg List.length e
    have h2 := hp.length_eq
    simp only [List.length_map] at h1 h2
    simp only [runOrder]
    omega

/-- C17. A refused call raises a `ValueError` and leaves the group as it was. -/
theorem C17_refused_unchanged (g : GroupOrder σ) (new : List String) (h : (setOrder g new).1 ≠ .ok ()) :
    setOrder g new = (.error .ValueError, g) := by
  unfold setOrder at h ⊢
  split_ifs at h ⊢ <;> simp_all

/-- C17. Once an order was set no subsystem can be added, so the order stays complete. -/
theorem C17_no_add_after_order (g : GroupOrder σ) (new : List String) (h : (setOrder g new).1 = .ok ()) (n : String) (s : σ) :
    groupAdd (setOrder g new).2 n s = (.error .RuntimeError, (setOrder g new).2) := by
  unfold setOrder at h ⊢
  split_ifs at h ⊢
  simp [groupAdd]

example : (setOrder (⟨[("a", 1), ("b", 2), ("c", 3)], ["a", "b", "c"], false⟩ : GroupOrder Nat) ["c", "a", "b"]).2.subs =
    [("c", 3), ("a", 1), ("b", 2)] := by decide

/-- A finding beside C17: an order set after the communicators were assigned (which is what automatic ordering during
setup does) is not followed by the list of local subsystems, `subsystems(local=True)`. -/
theorem finding_local_list_keeps_old_order :
    localOrder (setOrder (setupComm (⟨[("a", 1), ("b", 2)], [], false⟩ : GroupOrder Nat)) ["b", "a"]).2 = ["a", "b"] ∧
    (runOrder (setOrder (setupComm (⟨[("a", 1), ("b", 2)], [], false⟩ : GroupOrder Nat)) ["b", "a"]).2).map (·.1) = ["b", "a"] := by
  decide

end OpenMDAO
