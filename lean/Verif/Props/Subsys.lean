import Verif.Spec.Subsys
import Mathlib.Data.List.Basic
import Mathlib.Data.List.Nodup
import Mathlib.Data.List.Lex
/-!
# C173: the iterators over subsystems yield every system once, in execution order
-/
namespace OpenMDAO
set_option linter.unusedSectionVars false

mutual
/-- The systems yielded, with their places. -/
def adr (typ : SysTree → Bool) (loc rec : Bool) : SysTree → List (List Nat × SysTree)
  | .node _ g _ subs => if g then adrLoop typ loc rec 0 subs else []

/-- The same for the loop, the first subsystem being at position `k`. -/
def adrLoop (typ : SysTree → Bool) (loc rec : Bool) (k : Nat) : List SysTree → List (List Nat × SysTree)
  | [] => []
  | s :: ss =>
    (if loc && !s.loc then []
      else (if typ s then [([k], s)] else []) ++
        (if rec && s.grp then (adr typ loc rec s).map (fun x => (k :: x.1, x.2)) else [])) ++
    adrLoop typ loc rec (k + 1) ss
end

mutual
theorem adr_snd (typ : SysTree → Bool) (loc rec : Bool) : ∀ t, (adr typ loc rec t).map Prod.snd = subsystems typ loc rec t
  | .node n g l subs => by
    unfold adr subsystems
    cases g
    · rfl
    · exact adrLoop_snd typ loc rec subs 0

theorem adrLoop_snd (typ : SysTree → Bool) (loc rec : Bool) : ∀ (ss : List SysTree) (k : Nat),
    (adrLoop typ loc rec k ss).map Prod.snd = subsysLoop typ loc rec ss
  | [], k => rfl
  | s :: ss, k => by
    have h := adr_snd typ loc rec s
    unfold adrLoop subsysLoop
    rw [List.map_append, adrLoop_snd typ loc rec ss (k + 1), ← h]
    congr 1
    split
    · rfl
    · rw [List.map_append]
      congr 1
      · split <;> rfl
      · split
        · rw [List.map_map]; rfl
        · rfl
end

mutual
theorem adr_mem (typ : SysTree → Bool) (loc rec : Bool) : ∀ t a r,
    (a, r) ∈ adr typ loc rec t ↔ SysTree.Below loc rec t a r ∧ typ r = true
  | .node n g l subs, a, r => by
    unfold adr
    cases g
    · simp only [Bool.false_eq_true, if_false, List.not_mem_nil, false_iff, not_and]
      intro h
      cases h <;> simp_all [SysTree.grp]
    · rw [if_pos rfl, adrLoop_mem typ loc rec subs 0 a r]
      constructor
      · rintro ⟨ht, k, b, s, rfl, hs, hl, hor⟩
        refine ⟨?_, ht⟩
        rw [Nat.zero_add]
        rcases hor with ⟨rfl, rfl⟩ | ⟨hr, hb⟩
        · exact .child rfl hs hl
        · exact .deep hr rfl hs hl hb
      · rintro ⟨h, ht⟩
        refine ⟨ht, ?_⟩
        cases h with
        | child h1 h2 h3 => exact ⟨_, _, _, by rw [Nat.zero_add], h2, h3, Or.inl ⟨rfl, rfl⟩⟩
        | deep h0 h1 h2 h3 h4 => exact ⟨_, _, _, by rw [Nat.zero_add], h2, h3, Or.inr ⟨h0, h4⟩⟩

theorem adrLoop_mem (typ : SysTree → Bool) (loc rec : Bool) : ∀ (ss : List SysTree) (k : Nat) (a : List Nat) (r : SysTree),
    (a, r) ∈ adrLoop typ loc rec k ss ↔ typ r = true ∧ ∃ i b s, a = (k + i) :: b ∧ ss[i]? = some s ∧ (loc = true → s.loc = true) ∧
      ((b = [] ∧ r = s) ∨ (rec = true ∧ SysTree.Below loc rec s b r))
  | [], k, a, r => by simp [adrLoop]
  | s :: ss, k, a, r => by
    have hadr := adr_mem typ loc rec s
    have hloop := adrLoop_mem typ loc rec ss (k + 1) a r
    unfold adrLoop
    rw [List.mem_append, hloop]
    have hgrp : ∀ b q, SysTree.Below loc rec s b q → s.grp = true := by
      intro b q h
      cases h <;> assumption
    have first : (a, r) ∈ (if (loc && !s.loc) = true then []
        else (if typ s then [([k], s)] else []) ++
          (if rec && s.grp then (adr typ loc rec s).map (fun x => (k :: x.1, x.2)) else [])) ↔
        typ r = true ∧ ∃ b, a = k :: b ∧ (loc = true → s.loc = true) ∧
          ((b = [] ∧ r = s) ∨ (rec = true ∧ SysTree.Below loc rec s b r)) := by
      by_cases hl : (loc && !s.loc) = true
      · rw [if_pos hl]
        simp only [Bool.and_eq_true, Bool.not_eq_true'] at hl
        simp only [List.not_mem_nil, false_iff]
        rintro ⟨_, b, _, h, _⟩
        rw [h hl.1] at hl
        exact absurd hl.2 (by simp)
      · rw [if_neg hl]
        have hl' : loc = true → s.loc = true := by
          intro h; simpa [h] using hl
        rw [List.mem_append]
        constructor
        · rintro (h | h)
          · by_cases ht : typ s = true
            · rw [if_pos ht] at h
              simp only [List.mem_singleton, Prod.mk.injEq] at h
              exact ⟨h.2 ▸ ht, [], h.1, hl', Or.inl ⟨rfl, h.2⟩⟩
            · rw [if_neg ht] at h; simp at h
          · by_cases hr : (rec && s.grp) = true
            · rw [if_pos hr] at h
              obtain ⟨⟨b, q⟩, hb, he⟩ := List.mem_map.1 h
              simp only [Prod.mk.injEq] at he
              obtain ⟨rfl, rfl⟩ := he
              obtain ⟨h1, h2⟩ := (hadr b q).1 hb
              exact ⟨h2, b, rfl, hl', Or.inr ⟨by simp at hr; exact hr.1, h1⟩⟩
            · rw [if_neg hr] at h; simp at h
        · rintro ⟨ht, b, rfl, _, ⟨rfl, rfl⟩ | ⟨hr, hb⟩⟩
          · left; rw [if_pos ht]; simp
          · right
            rw [if_pos (by simp [hr, hgrp b r hb])]
            exact List.mem_map.2 ⟨(b, r), (hadr b r).2 ⟨hb, ht⟩, rfl⟩
    rw [first]
    constructor
    · rintro (⟨ht, b, rfl, hl, h⟩ | ⟨ht, i, b, q, rfl, hq, hl, h⟩)
      · exact ⟨ht, 0, b, s, rfl, rfl, hl, h⟩
      · exact ⟨ht, i + 1, b, q, by rw [Nat.add_assoc, Nat.add_comm 1 i], hq, hl, h⟩
    · rintro ⟨ht, i, b, q, rfl, hq, hl, h⟩
      cases i with
      | zero =>
        obtain rfl := Option.some.inj hq
        exact Or.inl ⟨ht, b, rfl, hl, h⟩
      | succ i => exact Or.inr ⟨ht, i, b, q, by rw [Nat.add_assoc, Nat.add_comm 1 i], hq, hl, h⟩
end

/-- Order of places. -/
abbrev PlaceLt (x y : List Nat × SysTree) : Prop := List.Lex (· < ·) x.1 y.1

mutual
theorem adr_sorted (typ : SysTree → Bool) (loc rec : Bool) : ∀ t, (adr typ loc rec t).Pairwise PlaceLt
  | .node n g l subs => by
    unfold adr
    cases g
    · exact List.Pairwise.nil
    · exact adrLoop_sorted typ loc rec subs 0

theorem adrLoop_sorted (typ : SysTree → Bool) (loc rec : Bool) : ∀ (ss : List SysTree) (k : Nat),
    (adrLoop typ loc rec k ss).Pairwise PlaceLt
  | [], k => List.Pairwise.nil
  | s :: ss, k => by
    have h1 := adr_sorted typ loc rec s
    have h2 := adrLoop_sorted typ loc rec ss (k + 1)
    have hm := adr_mem typ loc rec s
    unfold adrLoop
    have hmap : ((adr typ loc rec s).map (fun x => (k :: x.1, x.2))).Pairwise PlaceLt := by
      rw [List.pairwise_map]
      exact h1.imp fun h => List.Lex.cons h
    refine List.pairwise_append.2 ⟨?_, h2, ?_⟩
    · split
      · exact List.Pairwise.nil
      · refine List.pairwise_append.2 ⟨by split <;> simp, by split; exact hmap; exact List.Pairwise.nil, ?_⟩
        intro x hx y hy
        split at hx
        · simp only [List.mem_singleton] at hx
          subst hx
          split at hy
          · obtain ⟨⟨b, q⟩, hb, rfl⟩ := List.mem_map.1 hy
            refine List.Lex.cons ?_
            have hb := ((hm b q).1 hb).1
            cases hb <;> exact List.Lex.nil
          · simp at hy
        · simp at hx
    · intro x hx y hy
      obtain ⟨_, i, b, _, hy, _⟩ := (adrLoop_mem typ loc rec ss (k + 1) y.1 y.2).1 hy
      have hx : ∃ c, x.1 = k :: c := by
        split at hx
        · simp at hx
        · rcases List.mem_append.1 hx with hx | hx
          · split at hx
            · simp only [List.mem_singleton] at hx
              exact ⟨[], by rw [hx]⟩
            · simp at hx
          · split at hx
            · obtain ⟨z, _, rfl⟩ := List.mem_map.1 hx
              exact ⟨z.1, rfl⟩
            · simp at hx
      obtain ⟨c, hx⟩ := hx
      unfold PlaceLt
      rw [hx, hy]
      exact List.Lex.rel (by omega)
end

/-- **C173.** What `subsystems(local, recurse, typ, include_self)` yields: the systems of the type below the group, each at its place,
in the order of places, so that no place occurs twice; the group itself comes first if it is asked for and of the type. -/
theorem C173_subsystems (typ : SysTree → Bool) (loc rec self : Bool) (t : SysTree) :
    ∃ as : List (List Nat × SysTree), as.map Prod.snd = subsystemsSelf typ loc rec self t ∧
      as.Pairwise (fun x y => List.Lex (· < ·) x.1 y.1) ∧
      ∀ a s, (a, s) ∈ as ↔ typ s = true ∧ ((self = true ∧ a = [] ∧ s = t) ∨ SysTree.Below loc rec t a s) := by
  refine ⟨(if self && typ t then [([], t)] else []) ++ adr typ loc rec t, ?_, ?_, ?_⟩
  · rw [List.map_append, adr_snd]
    unfold subsystemsSelf
    congr 1
    split <;> rfl
  · refine List.pairwise_append.2 ⟨by split <;> simp, adr_sorted typ loc rec t, ?_⟩
    intro x hx y hy
    split at hx
    · simp only [List.mem_singleton] at hx
      subst hx
      have hb := ((adr_mem typ loc rec t y.1 y.2).1 hy).1
      generalize y.1 = b at hb ⊢
      cases hb <;> exact List.Lex.nil
    · simp at hx
  · intro a s
    rw [List.mem_append, adr_mem]
    constructor
    · rintro (h | ⟨h1, h2⟩)
      · split at h
        · rename_i hc
          simp only [List.mem_singleton, Prod.mk.injEq] at h
          simp only [Bool.and_eq_true] at hc
          exact ⟨h.2 ▸ hc.2, Or.inl ⟨hc.1, h.1, h.2⟩⟩
        · simp at h
      · exact ⟨h2, Or.inr h1⟩
    · rintro ⟨h1, ⟨h2, rfl, rfl⟩ | h2⟩
      · left; rw [if_pos (by simp [h1, h2])]; simp
      · exact Or.inr ⟨h2, h1⟩

/-- **C173 (subgroups and components).** With the same arguments every system that `subsystems` yields is yielded by exactly one of the
two, and they yield nothing else: the counts add up. -/
theorem C173_split (loc rec self : Bool) (t : SysTree) :
    subgroups loc rec self t = (subsystemsSelf (fun _ => true) loc rec self t).filter SysTree.grp ∧
    subcomponents loc rec self t = (subsystemsSelf (fun _ => true) loc rec self t).filter (fun s => !s.grp) := by
  have key : ∀ typ : SysTree → Bool, subsystemsSelf typ loc rec self t = (subsystemsSelf (fun _ => true) loc rec self t).filter typ := by
    intro typ
    have h := filter_loop typ loc rec t
    unfold subsystemsSelf
    rw [List.filter_append, ← h]
    congr 1
    cases self <;> simp [List.filter_cons]
  exact ⟨key _, key _⟩
where
  filter_loop (typ : SysTree → Bool) (loc rec : Bool) : ∀ t, subsystems typ loc rec t = (subsystems (fun _ => true) loc rec t).filter typ
    | .node n g l subs => by
      unfold subsystems
      cases g
      · rfl
      · exact filter_loop' typ loc rec subs
  filter_loop' (typ : SysTree → Bool) (loc rec : Bool) : ∀ ss, subsysLoop typ loc rec ss = (subsysLoop (fun _ => true) loc rec ss).filter typ
    | [] => rfl
    | s :: ss => by
      have h := filter_loop typ loc rec s
      unfold subsysLoop
      rw [List.filter_append, ← filter_loop' typ loc rec ss]
      congr 1
      split
      · rfl
      · rw [List.filter_append]
        congr 1
        · simp [List.filter_cons]
        · split
          · exact h
          · rfl

theorem path_unique {t : SysTree} (hd : t.DistinctNames) : ∀ {a b : List Nat} {p : List String}, t.PathTo a p → t.PathTo b p → a = b := by
  intro a b p ha
  induction ha generalizing b with
  | nil => intro hb; cases hb; rfl
  | @cons t s k a p hs _ ih =>
    intro hb
    generalize hq : s.name :: p = q at hb
    cases hb with
    | nil => cases hq
    | @cons _ s' k' b' p' hs' hb' =>
      injection hq with h1 h2
      subst h2
      cases hd with
      | mk hn hsub =>
        have hk : k = k' := by
          obtain ⟨hk, e1⟩ := List.getElem?_eq_some_iff.1 hs
          obtain ⟨hk', e2⟩ := List.getElem?_eq_some_iff.1 hs'
          have := (List.nodup_iff_injective_get.1 hn)
          have h := @this ⟨k, by simpa using hk⟩ ⟨k', by simpa using hk'⟩ (by simp [e1, e2, h1])
          simpa using h
        subst hk
        rw [hs] at hs'
        obtain rfl := Option.some.inj hs'
        rw [ih (hsub _ (List.mem_of_getElem? hs)) hb']

theorem below_path {loc rec : Bool} {t s : SysTree} {a : List Nat} (h : SysTree.Below loc rec t a s) : ∃ p, t.PathTo a p ∧ p.getLast? = some s.name := by
  induction h with
  | child _ hs _ => exact ⟨_, .cons hs .nil, rfl⟩
  | deep _ _ hs _ _ ih =>
    obtain ⟨p, h1, h2⟩ := ih
    refine ⟨_, .cons hs h1, ?_⟩
    cases p with
    | nil => simp at h2
    | cons x p => simpa using h2

theorem lex_irrefl : ∀ a : List Nat, ¬ List.Lex (· < ·) a a
  | [], h => by cases h
  | x :: a, h => by
    cases h with
    | rel h => omega
    | cons h => exact lex_irrefl a h

/-- **C173 (no pathname twice).** When subsystems of one group have different names, the systems yielded have different pathnames:
places with the same names on the way are the same. -/
theorem C173_pathnames (typ : SysTree → Bool) (loc rec : Bool) (t : SysTree) (hd : t.DistinctNames) :
    ∃ ps : List (List String × SysTree), ps.map Prod.snd = subsystems typ loc rec t ∧ (ps.map Prod.fst).Nodup ∧
      ∀ p s, (p, s) ∈ ps → ∃ a, SysTree.Below loc rec t a s ∧ t.PathTo a p ∧ p.getLast? = some s.name := by
  have hb : ∀ x ∈ adr typ loc rec t, ∃ p, t.PathTo x.1 p ∧ p.getLast? = some x.2.name := fun x hx =>
    below_path ((adr_mem typ loc rec t x.1 x.2).1 hx).1
  choose! f hf using hb
  refine ⟨(adr typ loc rec t).map fun x => (f x, x.2), ?_, ?_, ?_⟩
  · rw [List.map_map, ← adr_snd]; rfl
  · rw [List.map_map, List.Nodup, List.pairwise_map]
    refine (adr_sorted typ loc rec t).imp_of_mem ?_
    intro x y hx hy hxy e
    have h1 := path_unique hd (hf x hx).1 (by have := (hf y hy).1; rw [← show f x = f y from e] at this; exact this)
    rw [PlaceLt, h1] at hxy
    exact lex_irrefl _ hxy
  · intro p s h
    obtain ⟨x, hx, e⟩ := List.mem_map.1 h
    simp only [Prod.mk.injEq] at e
    obtain ⟨rfl, rfl⟩ := e
    exact ⟨x.1, ((adr_mem typ loc rec t x.1 x.2).1 hx).1, hf x hx⟩

/-! ## A concrete tree -/

/-- A group with a component `a`, a group `g` with components `a` and `b`, and a component `c`; `g` is local, `g.b` is not. -/
def iterTree : SysTree := .node "" true true [.node "a" false true [], .node "g" true true [.node "a" false true [], .node "b" false false []],
  .node "c" false true []]

example : (subsystems (fun _ => true) false true iterTree).map SysTree.name = ["a", "g", "a", "b", "c"] := rfl
example : (subsystems (fun _ => true) true true iterTree).map SysTree.name = ["a", "g", "a", "c"] := rfl
example : (subsystems (fun _ => true) false false iterTree).map SysTree.name = ["a", "g", "c"] := rfl
example : (subcomponents false true true iterTree).map SysTree.name = ["a", "a", "b", "c"] := rfl
example : (subgroups false true true iterTree).map SysTree.name = ["", "g"] := rfl

/-- The hypothesis of `C173_pathnames` is met, although `a` is the name of two systems. -/
example : iterTree.DistinctNames := by
  have leaf : ∀ n l, (SysTree.node n false l []).DistinctNames := fun n l => .mk (by simp [SysTree.subs]) (by simp [SysTree.subs])
  refine .mk (by decide) ?_
  intro s hs
  simp only [iterTree, SysTree.subs, List.mem_cons, List.not_mem_nil, or_false] at hs
  rcases hs with rfl | rfl | rfl
  · exact leaf _ _
  · refine .mk (by decide) ?_
    intro s hs
    simp only [SysTree.subs, List.mem_cons, List.not_mem_nil, or_false] at hs
    rcases hs with rfl | rfl <;> exact leaf _ _
  · exact leaf _ _

end OpenMDAO
