import Verif.Model.Promotes
import Mathlib.Data.List.Nodup
import Mathlib.Data.List.Basic
/-! # C15: promoted names identify variables -/
namespace OpenMDAO
set_option linter.unusedSectionVars false

/-! ## Specification -/

/-- Parameters and unknowns (outputs and states). -/
inductive Kind where
  | param | unknown
  deriving DecidableEq

/-- Specification: `Named s k a p` says that system `s` contains a variable of kind `k` whose name relative to `s` is `a`
(path through the tree) and by which `s` knows it as `p`: a component uses its own name; in a group, a variable promoted
by the subsystem keeps the name it has there, any other is prefixed by the name of the subsystem. -/
inductive Named : Sys → Kind → Path → Path → Prop
  | param {n pr ps us x} : x ∈ ps → Named (.comp n pr ps us) .param [x] [x]
  | unknown {n pr ps us x} : x ∈ us → Named (.comp n pr ps us) .unknown [x] [x]
  | promoted {n pr subs sub k a p} : sub ∈ subs → Named sub k a p → (∃ pat ∈ sub.promotes, pat p = true) →
      Named (.group n pr subs) k (sub.name :: a) p
  | plain {n pr subs sub k a p} : sub ∈ subs → Named sub k a p → (∀ pat ∈ sub.promotes, pat p = false) →
      Named (.group n pr subs) k (sub.name :: a) (sub.name :: p)

/-- Trees that can be built: `Group.add` refuses a second subsystem of the same name, `_check_varname` a second variable of
the same name. -/
inductive Sys.WF : Sys → Prop
  | comp {n pr ps us} : ps.Nodup → us.Nodup → Sys.WF (.comp n pr ps us)
  | group {n pr subs} : (subs.map Sys.name).Nodup → (∀ sub ∈ subs, Sys.WF sub) → Sys.WF (.group n pr subs)

/-- Specification of an acceptable tree: in every group no two unknowns share a name, and every promotes pattern of every
subsystem matches a variable. -/
inductive Acceptable : Sys → Prop
  | comp {n pr ps us} : Acceptable (.comp n pr ps us)
  | group {n pr subs} : (∀ sub ∈ subs, Acceptable sub) →
      (∀ sub ∈ subs, ∀ pat ∈ sub.promotes, ∃ k a p, Named sub k a p ∧ pat p = true) →
      (∀ a1 a2 p, Named (.group n pr subs) .unknown a1 p → Named (.group n pr subs) .unknown a2 p → a1 = a2) →
      Acceptable (.group n pr subs)

/-- `t` is `s` or a system inside it. -/
inductive Inside : Sys → Sys → Prop
  | refl (s) : Inside s s
  | sub {t n pr subs sub} : sub ∈ subs → Inside t sub → Inside t (.group n pr subs)

/-! ## Dictionaries -/

section
variable {α β : Type} [DecidableEq α] [BEq α] [LawfulBEq α]

theorem dictSet_fresh : ∀ (d : List (α × β)) (k : α) (v : β), (∀ x ∈ d, x.1 ≠ k) → dictSet d k v = d ++ [(k, v)]
  | [], _, _, _ => rfl
  | (a, b) :: d, k, v, h => by
    have h1 : a ≠ k := h (a, b) List.mem_cons_self
    simp [dictSet, h1, dictSet_fresh d k v (fun x hx => h x (List.mem_cons_of_mem _ hx))]

theorem lookup_isSome_iff (d : List (α × β)) (k : α) : (d.lookup k).isSome = true ↔ ∃ x ∈ d, x.1 = k := by
  induction d with
  | nil => simp
  | cons x d ih =>
    obtain ⟨a, b⟩ := x
    rw [List.lookup_cons]
    by_cases h : k = a
    · subst h; simp
    · have : (k == a) = false := by simpa using h
      rw [this]
      simp only [List.mem_cons, exists_eq_or_imp]
      rw [ih]
      constructor
      · exact fun h' => .inr h'
      · rintro (h' | h')
        · exact absurd h'.symm h
        · exact h'

theorem lookup_eq_some_iff_of_nodup : ∀ (d : List (α × β)) (k : α) (v : β), (d.map Prod.fst).Nodup →
    (d.lookup k = some v ↔ (k, v) ∈ d)
  | [], _, _, _ => by simp
  | (a, b) :: d, k, v, h => by
    simp only [List.map_cons, List.nodup_cons] at h
    rw [List.lookup_cons]
    by_cases hk : k = a
    · subst hk
      simp only [beq_self_eq_true, Option.some.injEq, List.mem_cons, Prod.mk.injEq, true_and]
      constructor
      · exact fun h' => .inl h'.symm
      · rintro (h' | h')
        · exact h'.symm
        · exact absurd (List.mem_map_of_mem h') h.1
    · have : (k == a) = false := by simpa using hk
      rw [this]
      simp only [List.mem_cons, Prod.mk.injEq, hk, false_and, false_or]
      exact lookup_eq_some_iff_of_nodup d k v h.2

theorem mem_lookup_dictAppend (d : List (α × List β)) (k q : α) (v x : β) :
    x ∈ ((dictAppend d k v).lookup q).getD [] ↔ x ∈ (d.lookup q).getD [] ∨ (q = k ∧ x = v) := by
  induction d with
  | nil =>
    by_cases h : q = k
    · subst h; simp [dictAppend]
    · have : (q == k) = false := by simpa using h
      simp [dictAppend, List.lookup_cons, this, h]
  | cons e d ih =>
    obtain ⟨a, b⟩ := e
    simp only [dictAppend]
    by_cases hak : a = k
    · subst hak
      rw [if_pos rfl, List.lookup_cons, List.lookup_cons]
      by_cases h : q = a
      · subst h; simp
      · have : (q == a) = false := by simpa using h
        simp [this, h]
    · rw [if_neg hak, List.lookup_cons, List.lookup_cons]
      by_cases h : q = a
      · subst h
        simp [hak]
      · have : (q == a) = false := by simpa using h
        rw [this]; exact ih
end

/-! ## Invariants -/

/-- Dictionaries agree with the specification of names. -/
structure Good (path : Path) (s : Sys) (d : SysData) : Prop where
  p : ∀ a q, (a, q) ∈ d.toPromP ↔ ∃ r, a = path ++ r ∧ Named s .param r q
  u : ∀ a q, (a, q) ∈ d.toPromU ↔ ∃ r, a = path ++ r ∧ Named s .unknown r q
  absU : ∀ a q, d.toAbsU.lookup q = some a ↔ (a, q) ∈ d.toPromU
  absP : ∀ a q, a ∈ (d.toAbsP.lookup q).getD [] ↔ (a, q) ∈ d.toPromP
  ndP : (d.toPromP.map Prod.fst).Nodup
  ndU : (d.toPromU.map Prod.fst).Nodup

/-- The name a group gives to a variable known as `q` in the subsystem. -/
def groupName (sub : Sys) (q : Path) : Path := if sub.promotes.any (· q) then q else sub.name :: q

/-- Variables of a list of subsystems. -/
def SubsNamed (path : Path) (subs : List Sys) (k : Kind) (a p : Path) : Prop :=
  ∃ sub ∈ subs, ∃ r q, Named sub k r q ∧ a = path ++ sub.name :: r ∧ p = groupName sub q

theorem named_group_iff {n pr subs k a p} :
    Named (.group n pr subs) k a p ↔ ∃ sub ∈ subs, ∃ r q, Named sub k r q ∧ a = sub.name :: r ∧ p = groupName sub q := by
  constructor
  · intro h
    cases h with
    | promoted hs hn hp =>
      refine ⟨_, hs, _, _, hn, rfl, ?_⟩
      rename_i sub _
      have : sub.promotes.any (fun pat => pat p) = true := List.any_eq_true.mpr hp
      simp only [groupName]; rw [this]; rfl
    | plain hs hn hp =>
      refine ⟨_, hs, _, _, hn, rfl, ?_⟩
      rename_i sub _ p
      have : (sub.promotes.any (· p)) = false := by
        rw [List.any_eq_false]; intro x hx; simp [hp x hx]
      simp only [groupName]; rw [this]; rfl
  · rintro ⟨sub, hs, r, q, hn, rfl, rfl⟩
    unfold groupName
    split_ifs with h
    · exact .promoted hs hn (List.any_eq_true.mp h)
    · refine .plain hs hn ?_
      intro pat hpat
      by_contra hc
      exact h (List.any_eq_true.mpr ⟨pat, hpat, by simpa using hc⟩)

/-- Accumulated dictionaries of a group after the subsystems `done`. -/
structure AccGood (path : Path) (done : List Sys) (d : SysData) : Prop where
  p : ∀ a q, (a, q) ∈ d.toPromP ↔ SubsNamed path done .param a q
  u : ∀ a q, (a, q) ∈ d.toPromU ↔ SubsNamed path done .unknown a q
  absU : ∀ a q, (q, a) ∈ d.toAbsU ↔ SubsNamed path done .unknown a q
  absP : ∀ a q, a ∈ (d.toAbsP.lookup q).getD [] ↔ SubsNamed path done .param a q
  ndP : (d.toPromP.map Prod.fst).Nodup
  ndU : (d.toPromU.map Prod.fst).Nodup
  ndA : (d.toAbsU.map Prod.fst).Nodup

theorem promotedName_good {path : Path} {sub : Sys} {d : SysData} (hg : Good path sub d) {a q : Path}
    (h : (a, q) ∈ d.toPromP ∨ (a, q) ∈ d.toPromU) : promotedName sub d q = groupName sub q := by
  have hs : ((d.toAbsP.lookup q).isSome || (d.toAbsU.lookup q).isSome) = true := by
    rcases h with h | h
    · have := (hg.absP a q).mpr h
      cases hl : d.toAbsP.lookup q with
      | none => rw [hl] at this; simp at this
      | some l => rfl
    · rw [(hg.absU a q).mpr h]; simp
  have e : isPromoted sub d q = sub.promotes.any (· q) := by
    unfold isPromoted
    simp only [hs, Bool.and_true]
  unfold promotedName groupName
  rw [e]

theorem addParams_spec (sub : Sys) (d : SysData) (l : List (Path × Path)) : ∀ acc : SysData,
    (l.map Prod.fst).Nodup → (∀ x ∈ l, ∀ y ∈ acc.toPromP, y.1 ≠ x.1) →
    let f := fun (acc : SysData) (p : Path × Path) =>
      let prom := promotedName sub d p.2
      { acc with toAbsP := dictAppend acc.toAbsP prom p.1, toPromP := dictSet acc.toPromP p.1 prom }
    (l.foldl f acc).toPromP = acc.toPromP ++ l.map (fun p => (p.1, promotedName sub d p.2)) ∧
    (l.foldl f acc).toPromU = acc.toPromU ∧ (l.foldl f acc).toAbsU = acc.toAbsU ∧
    ∀ a q, a ∈ ((l.foldl f acc).toAbsP.lookup q).getD [] ↔
      a ∈ (acc.toAbsP.lookup q).getD [] ∨ ∃ x ∈ l, a = x.1 ∧ q = promotedName sub d x.2 := by
  induction l with
  | nil => intro acc _ _; simp
  | cons x l ih =>
    intro acc hnd hfr f
    simp only [List.map_cons, List.nodup_cons] at hnd
    have e1 : dictSet acc.toPromP x.1 (promotedName sub d x.2) = acc.toPromP ++ [(x.1, promotedName sub d x.2)] :=
      dictSet_fresh _ _ _ (hfr x List.mem_cons_self)
    obtain ⟨i1, i2, i3, i4⟩ := ih (f acc x) hnd.2 (by
      intro y hy z hz
      simp only [f, e1, List.mem_append, List.mem_singleton] at hz
      rcases hz with hz | rfl
      · exact hfr y (List.mem_cons_of_mem _ hy) z hz
      · intro hc; exact hnd.1 (by simp only at hc; rw [hc]; exact List.mem_map_of_mem hy))
    refine ⟨?_, i2, i3, ?_⟩
    · simp only [List.foldl_cons]
      rw [i1]
      simp [f, e1]
    · intro a q
      simp only [List.foldl_cons]
      rw [i4]
      simp only [f, mem_lookup_dictAppend, List.mem_cons, exists_eq_or_imp]
      tauto

theorem addUnknowns_spec (sub : Sys) (d : SysData) (l : List (Path × Path)) : ∀ acc : SysData,
    (l.map Prod.fst).Nodup → (∀ x ∈ l, ∀ y ∈ acc.toPromU, y.1 ≠ x.1) →
    (∀ acc', l.foldlM (addUnknown sub d) acc = .ok acc' →
      acc' = { acc with toAbsU := acc.toAbsU ++ l.map (fun x => (promotedName sub d x.2, x.1)),
                        toPromU := acc.toPromU ++ l.map (fun x => (x.1, promotedName sub d x.2)) } ∧
      (l.map (fun x => promotedName sub d x.2)).Nodup ∧
      ∀ x ∈ l, ∀ y ∈ acc.toAbsU, y.1 ≠ promotedName sub d x.2) ∧
    ((l.map (fun x => promotedName sub d x.2)).Nodup → (∀ x ∈ l, ∀ y ∈ acc.toAbsU, y.1 ≠ promotedName sub d x.2) →
      ∃ acc', l.foldlM (addUnknown sub d) acc = .ok acc') ∧
    (∀ e, l.foldlM (addUnknown sub d) acc = .error e → e = .RuntimeError) := by
  induction l with
  | nil =>
    intro acc _ _
    refine ⟨?_, ?_, ?_⟩
    · intro acc' h
      simp [pure, Except.pure] at h
      subst h; simp
    · intro _ _; exact ⟨acc, rfl⟩
    · intro e h; simp [pure, Except.pure] at h
  | cons x l ih =>
    intro acc hnd hfr
    simp only [List.map_cons, List.nodup_cons] at hnd
    have e2 : dictSet acc.toPromU x.1 (promotedName sub d x.2) = acc.toPromU ++ [(x.1, promotedName sub d x.2)] :=
      dictSet_fresh _ _ _ (hfr x List.mem_cons_self)
    rw [List.foldlM_cons]
    by_cases hc : (acc.toAbsU.lookup (promotedName sub d x.2)).isSome = true
    · have e : addUnknown sub d acc x = .error .RuntimeError := by simp [addUnknown, hc]
      rw [e]
      simp only [bind, Except.bind]
      refine ⟨fun _ h => (by cases h), ?_, fun e h => (by cases h; rfl)⟩
      intro _ h2
      obtain ⟨y, hy, hy'⟩ := (lookup_isSome_iff _ _).mp hc
      exact absurd hy' (h2 x List.mem_cons_self y hy)
    · have hfree : ∀ y ∈ acc.toAbsU, y.1 ≠ promotedName sub d x.2 := by
        intro y hy hyc
        exact hc ((lookup_isSome_iff _ _).mpr ⟨y, hy, hyc⟩)
      have e1 := dictSet_fresh acc.toAbsU _ x.1 hfree
      have e : addUnknown sub d acc x = .ok { acc with toAbsU := acc.toAbsU ++ [(promotedName sub d x.2, x.1)],
                                                       toPromU := acc.toPromU ++ [(x.1, promotedName sub d x.2)] } := by
        simp only [addUnknown]
        rw [if_neg hc, e1, e2]
      rw [e]
      simp only [bind, Except.bind]
      obtain ⟨i1, i2, i3⟩ := ih { acc with toAbsU := acc.toAbsU ++ [(promotedName sub d x.2, x.1)],
                                           toPromU := acc.toPromU ++ [(x.1, promotedName sub d x.2)] } hnd.2 (by
        intro y hy z hz
        simp only [List.mem_append, List.mem_singleton] at hz
        rcases hz with hz | rfl
        · exact hfr y (List.mem_cons_of_mem _ hy) z hz
        · intro hc; exact hnd.1 (by simp only at hc; rw [hc]; exact List.mem_map_of_mem hy))
      refine ⟨?_, ?_, i3⟩
      · intro acc' h
        obtain ⟨j1, j2, j3⟩ := i1 acc' h
        refine ⟨?_, ?_, ?_⟩
        · rw [j1]; simp
        · simp only [List.map_cons, List.nodup_cons]
          refine ⟨?_, j2⟩
          intro hm
          obtain ⟨y, hy, hy'⟩ := List.mem_map.mp hm
          exact j3 y hy (promotedName sub d x.2, x.1) (by simp) hy'.symm
        · intro y hy z hz
          rcases List.mem_cons.mp hy with rfl | hy
          · exact hfree z hz
          · exact j3 y hy z (by simp [hz])
      · intro h1 h2
        simp only [List.map_cons, List.nodup_cons] at h1
        refine i2 h1.2 ?_
        intro y hy z hz
        simp only [List.mem_append, List.mem_singleton] at hz
        rcases hz with hz | rfl
        · exact h2 y (List.mem_cons_of_mem _ hy) z hz
        · intro hc; exact h1.1 (by simp only at hc; rw [hc]; exact List.mem_map_of_mem (f := fun x => promotedName sub d x.2) hy)

theorem subsNamed_append {path done sub k a p} :
    SubsNamed path (done ++ [sub]) k a p ↔ SubsNamed path done k a p ∨
      ∃ r q, Named sub k r q ∧ a = path ++ sub.name :: r ∧ p = groupName sub q := by
  unfold SubsNamed
  constructor
  · rintro ⟨s, hs, h⟩
    rcases List.mem_append.mp hs with hs | hs
    · exact .inl ⟨s, hs, h⟩
    · rw [List.mem_singleton] at hs; subst hs; exact .inr h
  · rintro (⟨s, hs, h⟩ | h)
    · exact ⟨s, List.mem_append_left _ hs, h⟩
    · exact ⟨sub, by simp, h⟩

/-- No two unknowns of the subsystems share a name. -/
def SubsUnique (path : Path) (subs : List Sys) : Prop :=
  ∀ a1 a2 p, SubsNamed path subs .unknown a1 p → SubsNamed path subs .unknown a2 p → a1 = a2

theorem addSub_spec {path : Path} {done : List Sys} {sub : Sys} {d acc : SysData}
    (hacc : AccGood path done acc) (hg : Good (path ++ [sub.name]) sub d) (hn : sub.name ∉ done.map Sys.name) :
    (∀ acc', addSub sub d acc = .ok acc' → AccGood path (done ++ [sub]) acc' ∧
      ∀ pat ∈ sub.promotes, ∃ k a p, Named sub k a p ∧ pat p = true) ∧
    (SubsUnique path (done ++ [sub]) → (∀ pat ∈ sub.promotes, ∃ k a p, Named sub k a p ∧ pat p = true) →
      ∃ acc', addSub sub d acc = .ok acc') ∧
    (∀ e, addSub sub d acc = .error e → e = .RuntimeError) := by
  have hfresh : ∀ k a p, SubsNamed path done k a p → ∀ r, a ≠ path ++ sub.name :: r := by
    rintro k a p ⟨s, hs, r', q, -, rfl, -⟩ r hc
    simp only [List.append_cancel_left_eq, List.cons.injEq] at hc
    exact hn (hc.1 ▸ List.mem_map_of_mem hs)
  have dP : ∀ a q, (a, q) ∈ d.toPromP ↔ ∃ r, a = path ++ sub.name :: r ∧ Named sub .param r q := by
    intro a q; rw [hg.p]; simp
  have dU : ∀ a q, (a, q) ∈ d.toPromU ↔ ∃ r, a = path ++ sub.name :: r ∧ Named sub .unknown r q := by
    intro a q; rw [hg.u]; simp
  have frP : ∀ x ∈ d.toPromP, ∀ y ∈ acc.toPromP, y.1 ≠ x.1 := by
    rintro ⟨a, q⟩ hx ⟨b, t⟩ hy hc
    obtain ⟨r, rfl, -⟩ := (dP a q).mp hx
    exact hfresh _ _ _ ((hacc.p b t).mp hy) r hc
  have frU : ∀ x ∈ d.toPromU, ∀ y ∈ acc.toPromU, y.1 ≠ x.1 := by
    rintro ⟨a, q⟩ hx ⟨b, t⟩ hy hc
    obtain ⟨r, rfl, -⟩ := (dU a q).mp hx
    exact hfresh _ _ _ ((hacc.u b t).mp hy) r hc
  obtain ⟨a1, a2, a3, a4⟩ := addParams_spec sub d d.toPromP acc hg.ndP frP
  change (addParams sub d acc).toPromP = _ at a1
  change (addParams sub d acc).toPromU = _ at a2
  change (addParams sub d acc).toAbsU = _ at a3
  change ∀ a q, a ∈ ((addParams sub d acc).toAbsP.lookup q).getD [] ↔ _ at a4
  obtain ⟨u1, u2, u3⟩ := addUnknowns_spec sub d d.toPromU (addParams sub d acc) hg.ndU (by rw [a2]; exact frU)
  have pnP : ∀ x ∈ d.toPromP, promotedName sub d x.2 = groupName sub x.2 := fun x hx => promotedName_good hg (.inl hx)
  have pnU : ∀ x ∈ d.toPromU, promotedName sub d x.2 = groupName sub x.2 := fun x hx => promotedName_good hg (.inr hx)
  have hchk : (sub.promotes.all fun pat => d.toPromP.any (fun p => pat p.2) || d.toPromU.any (fun p => pat p.2)) = true ↔
      ∀ pat ∈ sub.promotes, ∃ k a p, Named sub k a p ∧ pat p = true := by
    rw [List.all_eq_true]
    refine forall₂_congr fun pat _ => ?_
    simp only [Bool.or_eq_true, List.any_eq_true]
    constructor
    · rintro (⟨⟨a, q⟩, hx, hp⟩ | ⟨⟨a, q⟩, hx, hp⟩)
      · obtain ⟨r, -, h⟩ := (dP a q).mp hx; exact ⟨_, _, _, h, hp⟩
      · obtain ⟨r, -, h⟩ := (dU a q).mp hx; exact ⟨_, _, _, h, hp⟩
    · rintro ⟨k, r, q, h, hp⟩
      cases k with
      | param => exact .inl ⟨(_, q), (dP _ q).mpr ⟨r, rfl, h⟩, hp⟩
      | unknown => exact .inr ⟨(_, q), (dU _ q).mpr ⟨r, rfl, h⟩, hp⟩
  have mapU : ∀ a q, (a, q) ∈ d.toPromU.map (fun x => (x.1, promotedName sub d x.2)) ↔
      ∃ r q', Named sub .unknown r q' ∧ a = path ++ sub.name :: r ∧ q = groupName sub q' := by
    intro a q
    rw [List.mem_map]
    constructor
    · rintro ⟨⟨b, t⟩, hx, he⟩
      simp only [Prod.mk.injEq] at he
      obtain ⟨r, rfl, h⟩ := (dU b t).mp hx
      exact ⟨r, t, h, he.1.symm, by rw [← he.2]; exact pnU _ hx⟩
    · rintro ⟨r, q', h, rfl, rfl⟩
      have hx := (dU _ q').mpr ⟨r, rfl, h⟩
      exact ⟨_, hx, by rw [pnU _ hx]⟩
  have mapP : ∀ a q, (a, q) ∈ d.toPromP.map (fun x => (x.1, promotedName sub d x.2)) ↔
      ∃ r q', Named sub .param r q' ∧ a = path ++ sub.name :: r ∧ q = groupName sub q' := by
    intro a q
    rw [List.mem_map]
    constructor
    · rintro ⟨⟨b, t⟩, hx, he⟩
      simp only [Prod.mk.injEq] at he
      obtain ⟨r, rfl, h⟩ := (dP b t).mp hx
      exact ⟨r, t, h, he.1.symm, by rw [← he.2]; exact pnP _ hx⟩
    · rintro ⟨r, q', h, rfl, rfl⟩
      have hx := (dP _ q').mpr ⟨r, rfl, h⟩
      exact ⟨_, hx, by rw [pnP _ hx]⟩
  refine ⟨?_, ?_, ?_⟩
  · intro acc' h
    unfold addSub at h
    cases hf : d.toPromU.foldlM (addUnknown sub d) (addParams sub d acc) with
    | error e => rw [hf] at h; cases h
    | ok acc2 =>
      rw [hf] at h
      simp only [bind, Except.bind, pure, Except.pure, checkPromotes] at h
      split_ifs at h with hp
      · simp only [Except.ok.injEq] at h
        subst h
        refine ⟨?_, hchk.mp hp⟩
        obtain ⟨j1, j2, j3⟩ := u1 acc2 hf
        rw [j1]
        refine ⟨?_, ?_, ?_, ?_, ?_, ?_, ?_⟩
        · intro a q
          simp only [a1, List.mem_append]
          rw [subsNamed_append, hacc.p, mapP]
        · intro a q
          simp only [a2, List.mem_append]
          rw [subsNamed_append, hacc.u, mapU]
        · intro a q
          simp only [a3, List.mem_append]
          rw [subsNamed_append, hacc.absU, ← mapU a q, List.mem_map, List.mem_map]
          simp only [Prod.mk.injEq]
          constructor
          · rintro (h | ⟨x, h1, h2, h3⟩); exacts [.inl h, .inr ⟨x, h1, h3, h2⟩]
          · rintro (h | ⟨x, h1, h2, h3⟩); exacts [.inl h, .inr ⟨x, h1, h3, h2⟩]
        · intro a q
          simp only [a4]
          rw [subsNamed_append, hacc.absP, ← mapP a q, List.mem_map]
          simp only [Prod.mk.injEq]
          constructor
          · rintro (h | ⟨x, h1, h2, h3⟩); exacts [.inl h, .inr ⟨x, h1, h2.symm, h3.symm⟩]
          · rintro (h | ⟨x, h1, h2, h3⟩); exacts [.inl h, .inr ⟨x, h1, h2.symm, h3.symm⟩]
        · simp only [a1, List.map_append, List.map_map]
          rw [List.nodup_append]
          refine ⟨hacc.ndP, by simpa [Function.comp_def] using hg.ndP, ?_⟩
          intro b hb c hc hbc
          obtain ⟨y, hy, rfl⟩ := List.mem_map.mp hb
          obtain ⟨x, hx, rfl⟩ := List.mem_map.mp hc
          exact frP x hx y hy hbc
        · simp only [a2, List.map_append, List.map_map]
          rw [List.nodup_append]
          refine ⟨hacc.ndU, by simpa [Function.comp_def] using hg.ndU, ?_⟩
          intro b hb c hc hbc
          obtain ⟨y, hy, rfl⟩ := List.mem_map.mp hb
          obtain ⟨x, hx, rfl⟩ := List.mem_map.mp hc
          exact frU x hx y hy hbc
        · simp only [a3, List.map_append, List.map_map]
          rw [List.nodup_append]
          refine ⟨hacc.ndA, by simpa [Function.comp_def] using j2, ?_⟩
          intro b hb c hc hbc
          obtain ⟨y, hy, rfl⟩ := List.mem_map.mp hb
          obtain ⟨x, hx, rfl⟩ := List.mem_map.mp hc
          exact j3 x hx y (by rw [a3]; exact hy) hbc
  · intro huniq hpats
    have hnd : (d.toPromU.map (fun x => promotedName sub d x.2)).Nodup := by
      refine List.Nodup.map_on ?_ (List.Nodup.of_map _ hg.ndU)
      rintro ⟨b, t⟩ hx ⟨b', t'⟩ hx' he
      obtain ⟨r, rfl, h⟩ := (dU b t).mp hx
      obtain ⟨r', rfl, h'⟩ := (dU b' t').mp hx'
      simp only [pnU _ hx, pnU _ hx'] at he
      have e := huniq _ _ _ (subsNamed_append.mpr (.inr ⟨r, t, h, rfl, rfl⟩))
        (subsNamed_append.mpr (.inr ⟨r', t', h', rfl, he⟩))
      exact List.inj_on_of_nodup_map hg.ndU hx hx' e
    obtain ⟨acc2, h2⟩ := u2 hnd (by
      rintro ⟨b, t⟩ hx ⟨p, a⟩ hy hc
      rw [a3] at hy
      have hs := (hacc.absU a p).mp hy
      obtain ⟨r, rfl, h⟩ := (dU b t).mp hx
      simp only [pnU _ hx] at hc
      have e := huniq _ _ _ (subsNamed_append.mpr (.inl hs)) (subsNamed_append.mpr (.inr ⟨r, t, h, rfl, hc⟩))
      exact hfresh _ _ _ hs r e)
    refine ⟨acc2, ?_⟩
    unfold addSub
    rw [h2]
    simp only [bind, Except.bind, pure, Except.pure, checkPromotes]
    rw [if_pos (hchk.mpr hpats)]
  · intro e h
    unfold addSub at h
    cases hf : d.toPromU.foldlM (addUnknown sub d) (addParams sub d acc) with
    | error e' => rw [hf] at h; cases h; exact u3 _ hf
    | ok acc2 =>
      rw [hf] at h
      simp only [bind, Except.bind, pure, Except.pure, checkPromotes] at h
      split_ifs at h
      · cases h; rfl

/-- Everything about one system. -/
def SysSpec (path : Path) (s : Sys) : Prop :=
  (∀ d, setupVariables path s = .ok d → Good path s d ∧ Acceptable s) ∧
  (Acceptable s → ∃ d, setupVariables path s = .ok d) ∧
  (∀ e, setupVariables path s = .error e → e = .RuntimeError)

theorem setupSubs_spec (path : Path) : ∀ (subs done : List Sys) (acc : SysData),
    (∀ sub ∈ subs, SysSpec (path ++ [sub.name]) sub) → ((done ++ subs).map Sys.name).Nodup → AccGood path done acc →
    (∀ d, setupSubs path subs acc = .ok d → AccGood path (done ++ subs) d ∧
      ∀ sub ∈ subs, Acceptable sub ∧ ∀ pat ∈ sub.promotes, ∃ k a p, Named sub k a p ∧ pat p = true) ∧
    (SubsUnique path (done ++ subs) → (∀ sub ∈ subs, Acceptable sub ∧ ∀ pat ∈ sub.promotes, ∃ k a p, Named sub k a p ∧ pat p = true) →
      ∃ d, setupSubs path subs acc = .ok d) ∧
    (∀ e, setupSubs path subs acc = .error e → e = .RuntimeError)
  | [], done, acc, _, _, hacc => by
    simp only [setupSubs, List.append_nil]
    refine ⟨?_, fun _ _ => ⟨acc, rfl⟩, fun e h => (by cases h)⟩
    intro d h; cases h; exact ⟨hacc, by simp⟩
  | sub :: subs, done, acc, hsub, hnd, hacc => by
    obtain ⟨s1, s2, s3⟩ := hsub sub List.mem_cons_self
    have hn : sub.name ∉ done.map Sys.name := by
      rw [List.map_append, List.nodup_append] at hnd
      intro hc
      exact hnd.2.2 _ hc _ (by simp) rfl
    have happ : done ++ sub :: subs = (done ++ [sub]) ++ subs := by simp
    simp only [setupSubs]
    cases hv : setupVariables (path ++ [sub.name]) sub with
    | error e =>
      simp only [bind, Except.bind]
      refine ⟨fun _ h => (by cases h), ?_, fun e' h => (by cases h; exact s3 _ hv)⟩
      intro _ h
      obtain ⟨d, hd⟩ := s2 (h sub List.mem_cons_self).1
      rw [hd] at hv; cases hv
    | ok d =>
      obtain ⟨hg, hac⟩ := s1 d hv
      obtain ⟨t1, t2, t3⟩ := addSub_spec hacc hg hn
      simp only [bind, Except.bind]
      cases ha : addSub sub d acc with
      | error e =>
        refine ⟨fun _ h => (by cases h), ?_, fun e' h => (by cases h; exact t3 _ ha)⟩
        intro hu h
        obtain ⟨acc', h'⟩ := t2 (by
          intro a1 a2 p h1 h2
          refine hu a1 a2 p ?_ ?_
          · obtain ⟨s, hs, h⟩ := h1; exact ⟨s, by rw [happ]; exact List.mem_append_left _ hs, h⟩
          · obtain ⟨s, hs, h⟩ := h2; exact ⟨s, by rw [happ]; exact List.mem_append_left _ hs, h⟩) (h sub List.mem_cons_self).2
        rw [h'] at ha; cases ha
      | ok acc' =>
        obtain ⟨hacc', hpat⟩ := t1 acc' ha
        obtain ⟨i1, i2, i3⟩ := setupSubs_spec path subs (done ++ [sub]) acc'
          (fun s hs => hsub s (List.mem_cons_of_mem _ hs)) (by rw [← happ]; exact hnd) hacc'
        rw [happ]
        refine ⟨?_, ?_, i3⟩
        · intro d' h
          obtain ⟨k1, k2⟩ := i1 d' h
          refine ⟨k1, ?_⟩
          intro s hs
          rcases List.mem_cons.mp hs with rfl | hs
          · exact ⟨hac, hpat⟩
          · exact k2 s hs
        · intro hu h
          exact i2 hu (fun s hs => h s (List.mem_cons_of_mem _ hs))

theorem setupVariables_spec : ∀ (s : Sys) (path : Path), s.WF → SysSpec path s
  | .comp n pr ps us, path, hwf => by
    cases hwf with
    | comp h1 h2 =>
    unfold SysSpec
    simp only [setupVariables]
    refine ⟨?_, fun _ => ⟨_, rfl⟩, fun e h => (by cases h)⟩
    intro d h
    cases h
    have inj : Function.Injective fun x : String => path ++ [x] := by intro x y h; simpa using h
    have inj' : Function.Injective fun x : String => [x] := by intro x y h; simpa using h
    refine ⟨⟨?_, ?_, ?_, ?_, ?_, ?_⟩, .comp⟩
    · intro a q
      simp only [List.mem_map, Prod.mk.injEq]
      constructor
      · rintro ⟨x, hx, rfl, rfl⟩; exact ⟨[x], rfl, .param hx⟩
      · rintro ⟨r, rfl, h⟩; cases h; exact ⟨_, by assumption, rfl, rfl⟩
    · intro a q
      simp only [List.mem_map, Prod.mk.injEq]
      constructor
      · rintro ⟨x, hx, rfl, rfl⟩; exact ⟨[x], rfl, .unknown hx⟩
      · rintro ⟨r, rfl, h⟩; cases h; exact ⟨_, by assumption, rfl, rfl⟩
    · intro a q
      rw [lookup_eq_some_iff_of_nodup _ _ _ (by rw [List.map_map]; exact h2.map inj')]
      simp only [List.mem_map, Prod.mk.injEq]
      constructor
      · rintro ⟨x, h, h3, h4⟩; exact ⟨x, h, h4, h3⟩
      · rintro ⟨x, h, h3, h4⟩; exact ⟨x, h, h4, h3⟩
    · intro a q
      simp only [List.mem_map, Prod.mk.injEq]
      cases hl : (ps.map fun x => (([x] : Path), [path ++ [x]])).lookup q with
      | none =>
        simp only [Option.getD_none, List.not_mem_nil, false_iff]
        rintro ⟨x, hx, -, rfl⟩
        rw [List.lookup_eq_none_iff] at hl
        have := hl ([x], [path ++ [x]]) (List.mem_map_of_mem (f := fun x => (([x] : Path), [path ++ [x]])) hx)
        simp at this
      | some l =>
        rw [lookup_eq_some_iff_of_nodup _ _ _ (by rw [List.map_map]; exact h1.map inj')] at hl
        obtain ⟨x, hx, he⟩ := List.mem_map.mp hl
        simp only [Prod.mk.injEq] at he
        obtain ⟨rfl, rfl⟩ := he
        simp only [Option.getD_some, List.mem_singleton]
        constructor
        · rintro rfl; exact ⟨x, hx, rfl, rfl⟩
        · rintro ⟨y, hy, rfl, h⟩
          have : y = x := by simpa using h
          rw [this]
    · rw [List.map_map]; exact h1.map inj
    · rw [List.map_map]; exact h2.map inj
  | .group n pr subs, path, hwf => by
    cases hwf with
    | group h1 h2 =>
    obtain ⟨t1, t2, t3⟩ := setupSubs_spec path subs [] {} (fun sub hs => setupVariables_spec sub _ (h2 sub hs))
      (by simpa using h1) (by
        refine ⟨?_, ?_, ?_, ?_, ?_, ?_, ?_⟩ <;> simp [SubsNamed])
    simp only [List.nil_append] at t1 t2 t3
    have hiff : ∀ k a q, SubsNamed path subs k a q ↔ ∃ r, a = path ++ r ∧ Named (.group n pr subs) k r q := by
      intro k a q
      constructor
      · rintro ⟨sub, hs, r, q', hn, rfl, rfl⟩
        exact ⟨sub.name :: r, rfl, named_group_iff.mpr ⟨sub, hs, r, q', hn, rfl, rfl⟩⟩
      · rintro ⟨r, rfl, hn⟩
        obtain ⟨sub, hs, r', q', hn', rfl, rfl⟩ := named_group_iff.mp hn
        exact ⟨sub, hs, r', q', hn', rfl, rfl⟩
    unfold SysSpec
    simp only [setupVariables]
    refine ⟨?_, ?_, t3⟩
    · intro d h
      obtain ⟨k1, k2⟩ := t1 d h
      have hlk : ∀ a q, d.toAbsU.lookup q = some a ↔ SubsNamed path subs .unknown a q := by
        intro a q
        rw [lookup_eq_some_iff_of_nodup _ _ _ k1.ndA, k1.absU]
      refine ⟨⟨?_, ?_, ?_, ?_, k1.ndP, k1.ndU⟩, ?_⟩
      · intro a q; rw [k1.p, hiff]
      · intro a q; rw [k1.u, hiff]
      · intro a q; rw [hlk, k1.u]
      · intro a q; rw [k1.absP, k1.p]
      · refine .group (fun sub hs => (k2 sub hs).1) (fun sub hs => (k2 sub hs).2) ?_
        intro a1 a2 p n1 n2
        have e1 := (hlk _ _).mpr ((hiff _ _ _).mpr ⟨a1, rfl, n1⟩)
        have e2 := (hlk _ _).mpr ((hiff _ _ _).mpr ⟨a2, rfl, n2⟩)
        rw [e1] at e2
        simpa using e2
    · intro hac
      cases hac with
      | group a1 a2 a3 =>
      refine t2 ?_ (fun sub hs => ⟨a1 sub hs, a2 sub hs⟩)
      intro x y p n1 n2
      obtain ⟨r1, rfl, m1⟩ := (hiff _ _ _).mp n1
      obtain ⟨r2, rfl, m2⟩ := (hiff _ _ _).mp n2
      rw [a3 _ _ _ m1 m2]
termination_by s => sizeOf s
decreasing_by
  simp_wf
  have := List.sizeOf_lt_of_mem hs
  omega

/-! ## Theorems -/

/-- C15. Setting up the variable names succeeds exactly for acceptable trees; otherwise a `RuntimeError` is raised. In
particular a clash of unknowns in any group of the tree is reported. -/
theorem C15_accepted_iff (s : Sys) (path : Path) (hwf : s.WF) :
    ((∃ d, setupVariables path s = .ok d) ↔ Acceptable s) ∧
    (¬ Acceptable s → setupVariables path s = .error .RuntimeError) := by
  obtain ⟨h1, h2, h3⟩ := setupVariables_spec s path hwf
  refine ⟨⟨fun ⟨d, hd⟩ => (h1 d hd).2, h2⟩, ?_⟩
  intro hn
  cases h : setupVariables path s with
  | error e => rw [h3 e h]
  | ok d => exact absurd (h1 d h).2 hn

/-- C15. After success no two unknowns of any system in the tree share a promoted name. -/
theorem C15_unknowns_unique (s : Sys) (path : Path) (hwf : s.WF) (d : SysData) (h : setupVariables path s = .ok d)
    (t : Sys) (ht : Inside t s) (a1 a2 p : Path) (h1 : Named t .unknown a1 p) (h2 : Named t .unknown a2 p) : a1 = a2 := by
  have hac := ((setupVariables_spec s path hwf).1 d h).2
  clear h hwf
  induction ht with
  | refl =>
    cases hac with
    | comp => cases h1; cases h2; rfl
    | group _ _ a3 => exact a3 _ _ _ h1 h2
  | sub hs _ ih =>
    cases hac with
    | group a1 _ _ => exact ih (a1 _ hs)

/-- C15. After success the dictionaries hold exactly the variables of the tree: every variable is listed once with its
promoted name, the promoted name of an unknown leads back to it, and the promoted name of a parameter leads to the list of
exactly the parameters of that name. -/
theorem C15_names_map_back (s : Sys) (path : Path) (hwf : s.WF) (d : SysData) (h : setupVariables path s = .ok d) :
    (∀ r q, Named s .unknown r q → (path ++ r, q) ∈ d.toPromU ∧ d.toAbsU.lookup q = some (path ++ r)) ∧
    (∀ a q, d.toAbsU.lookup q = some a → ∃ r, a = path ++ r ∧ Named s .unknown r q) ∧
    (∀ r q, Named s .param r q → (path ++ r, q) ∈ d.toPromP) ∧
    (∀ a q, (∃ l, d.toAbsP.lookup q = some l ∧ a ∈ l) ↔ ∃ r, a = path ++ r ∧ Named s .param r q) ∧
    (d.toPromU.map Prod.fst).Nodup ∧ (d.toPromP.map Prod.fst).Nodup := by
  have hg := ((setupVariables_spec s path hwf).1 d h).1
  refine ⟨?_, ?_, ?_, ?_, hg.ndU, hg.ndP⟩
  · intro r q hn
    have := (hg.u (path ++ r) q).mpr ⟨r, rfl, hn⟩
    exact ⟨this, (hg.absU _ _).mpr this⟩
  · intro a q hl
    exact (hg.u a q).mp ((hg.absU a q).mp hl)
  · intro r q hn
    exact (hg.p _ q).mpr ⟨r, rfl, hn⟩
  · intro a q
    rw [← hg.p, ← hg.absP]
    cases hl : d.toAbsP.lookup q <;> simp

/-- A tree with promoted and plain variables on two levels. -/
def toyTree : Sys := .group "" []
  [.group "g" [fun p => p == ["y"], fun p => p == ["c", "x"]]
      [.comp "c" [fun p => p == ["y"]] ["x"] ["y", "z"], .comp "e" [] ["y"] ["w"]],
   .comp "h" [fun _ => true] ["y"] ["v"]]

example : (setupVariables [] toyTree).toOption.map (·.toPromU) =
    some [(["g", "c", "y"], ["y"]), (["g", "c", "z"], ["g", "c", "z"]), (["g", "e", "w"], ["g", "e", "w"]), (["h", "v"], ["v"])] := by
  decide +kernel

example : (setupVariables [] toyTree).toOption.map (·.toAbsP) =
    some [(["c", "x"], [["g", "c", "x"]]), (["g", "e", "y"], [["g", "e", "y"]]), (["y"], [["h", "y"]])] := by decide +kernel

/-- A clash: both components promote an output `y`. -/
example : (setupVariables [] (.group "" [] [.comp "a" [fun p => p == ["y"]] [] ["y"], .comp "b" [fun p => p == ["y"]] [] ["y"]])).toOption.isNone := by
  decide +kernel

end OpenMDAO
