import Verif.Spec.FdGroup
import Verif.Props.Paths
import Verif.Lemmas.Recorder
import Verif.Props.FiniteDiff
import Verif.Props.LinearGS
/-!
# C129 to C131: a group that is finite differenced as a whole
-/
namespace OpenMDAO

set_option linter.unusedSectionVars false

/-! ## Names -/

theorem dotted_ne_nil {l : List Str} (h : GoodParts l) (hne : l ≠ []) : dotted l ≠ [] := by
  cases l with
  | nil => exact absurd rfl hne
  | cons p ps =>
    have hp := (h p (by simp)).1
    unfold dotted
    cases ps with
    | nil => simpa [pyJoin] using hp
    | cons q qs => simp [pyJoin]

theorem pySplit_dotted {l : List Str} (h : GoodParts l) (hne : l ≠ []) : pySplit '.' (dotted l) = l :=
  pySplit_join '.' l hne fun p hp => (h p hp).2

theorem dotted_append {a b : List Str} (ha : a ≠ []) (hb : b ≠ []) : dotted (a ++ b) = dotted a ++ '.' :: dotted b :=
  pyJoin_append '.' a b ha hb

theorem myPath_spec (gp name : List Str) (hg : GoodParts gp) (hn : GoodParts name) (hne : name ≠ []) :
    ((dotted name).take (myPath (dotted gp)).length = myPath (dotted gp) ↔ ∃ rel, rel ≠ [] ∧ name = gp ++ rel) ∧
    ∀ rel, rel ≠ [] → name = gp ++ rel → (dotted name).drop (myPath (dotted gp)).length = dotted rel := by
  by_cases hgp : gp = []
  · subst hgp
    have : myPath (dotted []) = [] := rfl
    rw [this]
    refine ⟨⟨fun _ => ⟨name, hne, rfl⟩, fun _ => rfl⟩, ?_⟩
    intro rel _ e
    simp [e]
  · have hm : myPath (dotted gp) = dotted gp ++ ['.'] := if_neg (dotted_ne_nil hg hgp)
    rw [hm]
    refine ⟨⟨?_, ?_⟩, ?_⟩
    · intro h
      have e : dotted name = dotted gp ++ '.' :: (dotted name).drop (dotted gp ++ ['.']).length := by
        conv_lhs => rw [← List.take_append_drop (dotted gp ++ ['.']).length (dotted name), h]
        simp
      have e2 := congrArg (pySplit '.') e
      rw [pySplit_append, pySplit_dotted hn hne, pySplit_dotted hg hgp] at e2
      exact ⟨_, pySplit_ne_nil '.' _, e2⟩
    · rintro ⟨rel, hr, e⟩
      rw [e, dotted_append hgp hr, show dotted gp ++ '.' :: dotted rel = (dotted gp ++ ['.']) ++ dotted rel by simp]
      exact List.take_left
    · intro rel hr e
      rw [e, dotted_append hgp hr, show dotted gp ++ '.' :: dotted rel = (dotted gp ++ ['.']) ++ dotted rel by simp]
      exact List.drop_left

theorem rsplitHead_spec (a v : Str) (hv : '.' ∉ v) : rsplitHead (a ++ '.' :: v) = a := by
  unfold rsplitHead
  rw [if_pos (by simp)]
  have : (a ++ '.' :: v).reverse = v.reverse ++ '.' :: a.reverse := by simp
  rw [this, List.dropWhile_append_of_pos]
  · simp
  · intro x hx
    have : x ∈ v := List.mem_reverse.mp hx
    simp only [ne_eq, decide_not, Bool.not_eq_eq_eq_not, Bool.not_true, decide_eq_false_iff_not]
    rintro rfl
    exact hv this

theorem rsplitHead_dotted (comp : List Str) (v : Str) (hc : comp ≠ []) (h : GoodParts (comp ++ [v])) :
    rsplitHead (dotted (comp ++ [v])) = dotted comp := by
  rw [dotted_append hc (by simp)]
  exact rsplitHead_spec _ v (h v (by simp)).2

theorem find_fold (s t : FSys) (l : List Str) (h : s.At l t) : l.foldlM FSys.sub s = .ok t := by
  induction h with
  | here s => rfl
  | sub subs n s l t hl _ ih =>
    rw [List.foldlM_cons]
    simp only [FSys.sub, hl]
    exact ih

theorem find_at (s t : FSys) (l : List Str) (hg : GoodParts l) (hne : l ≠ []) (h : s.At l t) : s.find (dotted l) = .ok t := by
  unfold FSys.find
  rw [pySplit_dotted hg hne]
  exact find_fold s t l h

theorem at_unique {s t t' : FSys} {l : List Str} (h : s.At l t) (h' : s.At l t') : t = t' := by
  have := find_fold s t l h
  rw [find_fold s t' l h'] at this
  exact (Except.ok.inj this).symm

theorem find_fold_none : ∀ (l : List Str) (s : FSys), (∀ t, ¬ s.At l t) → l.foldlM FSys.sub s = .error .KeyError
  | [], s, h => absurd (.here s) (h s)
  | n :: l, .comp _, _ => by rw [List.foldlM_cons]; rfl
  | n :: l, .group subs, h => by
    rw [List.foldlM_cons]
    cases hn : subs.lookup n with
    | none =>
      have e : FSys.sub (.group subs) n = .error .KeyError := by simp only [FSys.sub, hn]
      rw [e]; rfl
    | some s =>
      have e : FSys.sub (.group subs) n = .ok s := by simp only [FSys.sub, hn]
      rw [e]
      exact find_fold_none l s fun t ht => h t (.sub subs n s l t hn ht)

/-- `find_subsystem` gives the subsystem with the name or, if there is none, `KeyError`. -/
theorem find_subsystem_spec (s : FSys) (l : List Str) (hg : GoodParts l) (hne : l ≠ []) :
    (∀ t, s.find (dotted l) = .ok t ↔ s.At l t) ∧ ((∀ t, ¬ s.At l t) → s.find (dotted l) = .error .KeyError) := by
  have h2 : (∀ t, ¬ s.At l t) → s.find (dotted l) = .error .KeyError := by
    intro h
    unfold FSys.find
    rw [pySplit_dotted hg hne]
    exact find_fold_none l s h
  refine ⟨fun t => ⟨fun h => ?_, find_at s t l hg hne⟩, h2⟩
  by_cases hx : ∃ u, s.At l u
  · obtain ⟨u, hu⟩ := hx
    rw [find_at s u l hg hne hu] at h
    cases h
    exact hu
  · rw [h2 (not_exists.mp hx)] at h
    cases h

/-! ## C129 -/

/-- Fold of a step that appends. -/
theorem append_fold {α β : Type} (f : List β → α → Except PyErr (List β)) (P : β → α → Prop) : ∀ (l : List α) (acc : List β),
    (∀ a ∈ l, ∃ add, (∀ acc, f acc a = .ok (acc ++ add)) ∧ ∀ n, n ∈ add ↔ P n a) →
    ∃ r, l.foldlM f acc = .ok r ∧ ∀ n, n ∈ r ↔ n ∈ acc ∨ ∃ a ∈ l, P n a := by
  intro l
  induction l with
  | nil => intro acc _; exact ⟨acc, rfl, by simp⟩
  | cons a l ih =>
    intro acc h
    obtain ⟨add, h1, h2⟩ := h a (by simp)
    obtain ⟨r, r1, r2⟩ := ih (acc ++ add) fun b hb => h b (by simp [hb])
    refine ⟨r, ?_, ?_⟩
    · rw [List.foldlM_cons, h1 acc]
      exact r1
    · intro n
      rw [r2 n, List.mem_append, h2 n]
      constructor
      · rintro ((h | h) | ⟨b, hb, hp⟩)
        · exact Or.inl h
        · exact Or.inr ⟨a, by simp, h⟩
        · exact Or.inr ⟨b, by simp [hb], hp⟩
      · rintro (h | ⟨b, hb, hp⟩)
        · exact Or.inl (Or.inl h)
        · rcases List.mem_cons.mp hb with rfl | hb
          · exact Or.inl (Or.inr hp)
          · exact Or.inr ⟨b, hb, hp⟩

theorem goodParts_left {a b : List Str} (h : GoodParts (a ++ b)) : GoodParts a := fun p hp => h p (by simp [hp])
theorem goodParts_right {a b : List Str} (h : GoodParts (a ++ b)) : GoodParts b := fun p hp => h p (by simp [hp])

/-- **C129, params.** Whatever the names: a finite differenced group perturbs exactly those connected params below it that are
driven from outside the group (and are not passed by object) or by an `IndepVarComp` inside the group. -/
theorem C129_params (gp : List Str) (hg : GoodParts gp) (self : FSys) (pbo : List (Str × Bool)) (conns : List (List Str × List Str))
    (hc : ∀ c ∈ conns, GoodParts c.1 ∧ GoodParts c.2 ∧ 2 ≤ c.1.length ∧ 2 ≤ c.2.length)
    (hin : ∀ c ∈ conns, ∀ comp v, comp ≠ [] → c.2 = gp ++ comp ++ [v] → ∃ b, self.At comp (.comp b))
    (hp : ∀ c ∈ conns, ∀ rel, rel ≠ [] → c.1 = gp ++ rel → (pbo.lookup (dotted rel)).isSome) :
    ∃ l, groupFdParams (dotted gp) self pbo (conns.map fun c => (dotted c.1, dotted c.2)) = .ok l ∧
      ∀ n, n ∈ l ↔ ∃ rel src, rel ≠ [] ∧ (gp ++ rel, src) ∈ conns ∧ n = dotted rel ∧
        (¬ BelowGroup gp src ∧ pbo.lookup n = some false ∨
          ∃ comp v, comp ≠ [] ∧ src = gp ++ comp ++ [v] ∧ self.At comp (.comp true)) := by
  have key := append_fold (fdParamStep (dotted gp) self pbo)
    (fun n c => ∃ rel src, rel ≠ [] ∧ (gp ++ rel, src) ∈ conns ∧ c = (dotted (gp ++ rel), dotted src) ∧ n = dotted rel ∧
        (¬ BelowGroup gp src ∧ pbo.lookup n = some false ∨
          ∃ comp v, comp ≠ [] ∧ src = gp ++ comp ++ [v] ∧ self.At comp (.comp true)))
    (conns.map fun c => (dotted c.1, dotted c.2)) [] ?_
  · obtain ⟨l, h1, h2⟩ := key
    refine ⟨l, h1, ?_⟩
    intro n
    rw [h2 n]
    constructor
    · rintro (h | ⟨a, ha, rel, src, h1, h2, h3, h4⟩)
      · cases h
      · exact ⟨rel, src, h1, h2, h4⟩
    · rintro ⟨rel, src, h1, h2, h4⟩
      exact Or.inr ⟨_, List.mem_map.mpr ⟨_, h2, rfl⟩, rel, src, h1, h2, rfl, h4⟩
  · intro a ha
    obtain ⟨⟨tgt, src⟩, hmem, rfl⟩ := List.mem_map.mp ha
    obtain ⟨g1, g2, l1, l2⟩ := hc _ hmem
    simp only at g1 g2 l1 l2
    have htn : tgt ≠ [] := by rintro rfl; simp at l1
    -- names determine parts
    have inj : ∀ rel src', rel ≠ [] → (gp ++ rel, src') ∈ conns → (dotted tgt, dotted src) = (dotted (gp ++ rel), dotted src') →
        tgt = gp ++ rel ∧ src = src' := by
      intro rel src' hr hm e
      obtain ⟨q1, q2, k1, k2⟩ := hc _ hm
      simp only at q1 q2 k1 k2
      have e1 := congrArg (pySplit '.') (congrArg Prod.fst e)
      have e2 := congrArg (pySplit '.') (congrArg Prod.snd e)
      simp only at e1 e2
      rw [pySplit_dotted g1 htn, pySplit_dotted q1 (by simp [hr])] at e1
      rw [pySplit_dotted g2 (by rintro rfl; simp at l2), pySplit_dotted q2 (by rintro rfl; simp at k2)] at e2
      exact ⟨e1, e2⟩
    obtain ⟨t1, t2⟩ := myPath_spec gp tgt hg g1 htn
    -- split the source
    obtain ⟨sc, sv, hs⟩ : ∃ sc sv, src = sc ++ [sv] := by
      refine ⟨src.dropLast, src.getLast (by rintro rfl; simp at l2), ?_⟩
      exact (List.dropLast_append_getLast _).symm
    have hscn : sc ≠ [] := by
      rintro rfl
      rw [hs] at l2
      simp at l2
    have hrs : rsplitHead (dotted src) = dotted sc := by
      rw [hs]
      exact rsplitHead_dotted sc sv hscn (hs ▸ g2)
    obtain ⟨s1, s2⟩ := myPath_spec gp sc hg (goodParts_left (hs ▸ g2)) hscn
    by_cases hin' : ∃ rel, rel ≠ [] ∧ tgt = gp ++ rel
    · obtain ⟨rel, hr, ht⟩ := hin'
      have hd := t2 rel hr ht
      by_cases hsin : ∃ comp, comp ≠ [] ∧ sc = gp ++ comp
      · obtain ⟨comp, hcn, hsc⟩ := hsin
        have hsrc : src = gp ++ comp ++ [sv] := by rw [hs, hsc]
        obtain ⟨b, hb⟩ := hin _ hmem comp sv hcn hsrc
        have hfind := find_at self _ comp (goodParts_right (hsc ▸ goodParts_left (hs ▸ g2))) hcn hb
        refine ⟨if b then [dotted rel] else [], ?_, ?_⟩
        · intro acc
          unfold fdParamStep
          simp only [hrs]
          rw [if_pos (t1.mpr ⟨rel, hr, ht⟩), if_pos (s1.mpr ⟨comp, hcn, hsc⟩), s2 comp hcn hsc, hfind, hd]
          cases b <;> simp [FSys.isIvc]
        · intro n
          constructor
          · intro h
            cases b with
            | false => simp at h
            | true =>
              simp only [if_true, List.mem_singleton] at h
              exact ⟨rel, src, hr, ht ▸ hmem, by rw [ht], h, Or.inr ⟨comp, sv, hcn, hsrc, hb⟩⟩
          · rintro ⟨rel', src', hr', hm', e, rfl, h⟩
            obtain ⟨e1, rfl⟩ := inj rel' src' hr' hm' e
            have : rel' = rel := List.append_cancel_left (e1.symm.trans ht)
            subst this
            rcases h with ⟨h, _⟩ | ⟨comp', v', hc', hsrc', hat⟩
            · exact absurd ⟨comp, sv, hcn, hsrc⟩ h
            · rw [hsrc, List.append_assoc, List.append_assoc] at hsrc'
              have e2 := List.append_cancel_left hsrc'
              have e3 : comp = comp' := (List.append_inj' e2 rfl).1
              subst e3
              have := at_unique hb hat
              injection this with hbt
              simp [hbt]
      · have hnb : ¬ BelowGroup gp src := by
          rintro ⟨comp, v, hcn, e⟩
          rw [hs] at e
          exact hsin ⟨comp, hcn, (List.append_inj' e rfl).1⟩
        obtain ⟨b, hb⟩ := Option.isSome_iff_exists.mp (hp _ hmem rel hr ht)
        refine ⟨if b then [] else [dotted rel], ?_, ?_⟩
        · intro acc
          unfold fdParamStep
          simp only [hrs]
          rw [if_pos (t1.mpr ⟨rel, hr, ht⟩), if_neg (fun h => hsin (s1.mp h)), hd, hb]
          cases b <;> simp
        · intro n
          constructor
          · intro h
            cases b with
            | true => simp at h
            | false =>
              simp only [Bool.false_eq_true, if_false, List.mem_singleton] at h
              exact ⟨rel, src, hr, ht ▸ hmem, by rw [ht], h, Or.inl ⟨hnb, by rw [h]; exact hb⟩⟩
          · rintro ⟨rel', src', hr', hm', e, rfl, h⟩
            obtain ⟨e1, rfl⟩ := inj rel' src' hr' hm' e
            have : rel' = rel := List.append_cancel_left (e1.symm.trans ht)
            subst this
            rcases h with ⟨_, h⟩ | ⟨comp', v', hc', hsrc', _⟩
            · rw [hb] at h
              injection h with h
              simp [h]
            · exact absurd ⟨comp', v', hc', hsrc'⟩ hnb
    · refine ⟨[], ?_, ?_⟩
      · intro acc
        unfold fdParamStep
        simp only
        rw [if_neg (fun h => hin' (t1.mp h))]
        simp
      · intro n
        simp only [List.not_mem_nil, false_iff]
        rintro ⟨rel', src', hr', hm', e, -, -⟩
        exact hin' ⟨rel', hr', (inj rel' src' hr' hm' e).1⟩

/-- **C129, unknowns.** The rows are exactly the unknowns of the group that are not passed by object and are not outputs of an
`IndepVarComp`. -/
theorem C129_unknowns (gp : List Str) (hg : GoodParts gp) (self : FSys) (unknowns : List (Str × List Str × Bool))
    (hu : ∀ u ∈ unknowns, GoodParts u.2.1 ∧ ∃ comp v b, comp ≠ [] ∧ u.2.1 = gp ++ comp ++ [v] ∧ self.At comp (.comp b)) :
    ∃ l, groupFdUnknowns (dotted gp) self (unknowns.map fun u => (u.1, dotted u.2.1, u.2.2)) = .ok l ∧
      ∀ n, n ∈ l ↔ ∃ comp v, (n, gp ++ comp ++ [v], false) ∈ unknowns ∧ self.At comp (.comp false) := by
  have key := append_fold (fdUnknownStep (dotted gp) self)
    (fun n u => ∃ comp v, (n, gp ++ comp ++ [v], false) ∈ unknowns ∧ u = (n, dotted (gp ++ comp ++ [v]), false) ∧ self.At comp (.comp false))
    (unknowns.map fun u => (u.1, dotted u.2.1, u.2.2)) [] ?_
  · obtain ⟨l, h1, h2⟩ := key
    refine ⟨l, h1, ?_⟩
    intro n
    rw [h2 n]
    constructor
    · rintro (h | ⟨a, _, comp, v, h1, _, h3⟩)
      · cases h
      · exact ⟨comp, v, h1, h3⟩
    · rintro ⟨comp, v, h1, h3⟩
      exact Or.inr ⟨_, List.mem_map.mpr ⟨_, h1, rfl⟩, comp, v, h1, rfl, h3⟩
  · intro a ha
    obtain ⟨⟨pn, abs, pb⟩, hmem, rfl⟩ := List.mem_map.mp ha
    obtain ⟨g, comp, v, b, hcn, habs, hat⟩ := hu _ hmem
    simp only at g habs
    subst habs
    have hgc : GoodParts (gp ++ comp) := goodParts_left g
    have hrs : rsplitHead (dotted (gp ++ comp ++ [v])) = dotted (gp ++ comp) := rsplitHead_dotted _ v (by simp [hcn]) g
    have hd := (myPath_spec gp (gp ++ comp) hg hgc (by simp [hcn])).2 comp hcn rfl
    have hf := find_at self _ comp (goodParts_right hgc) hcn hat
    refine ⟨if !b && !pb then [pn] else [], ?_, ?_⟩
    · intro acc
      unfold fdUnknownStep
      simp only [hrs, hd, hf, FSys.isIvc]
      cases b <;> cases pb <;> simp
    · intro n
      constructor
      · intro h
        cases b <;> cases pb <;> simp at h
        subst h
        exact ⟨comp, v, hmem, rfl, hat⟩
      · rintro ⟨comp', v', hm', e, hat'⟩
        obtain ⟨rfl, e2, rfl⟩ : pn = n ∧ dotted (gp ++ comp ++ [v]) = dotted (gp ++ comp' ++ [v']) ∧ pb = false := by
          simpa using e
        obtain ⟨g', -⟩ := hu _ hm'
        simp only at g'
        have e3 := congrArg (pySplit '.') e2
        rw [pySplit_dotted g (by simp), pySplit_dotted g' (by simp)] at e3
        have e4 := (List.append_inj' e3 rfl).1
        have e5 := List.append_cancel_left e4
        subst e5
        have := at_unique hat hat'
        injection this with hb
        simp [hb]


/-! ### C129: example -/

/-- Group `sub` with an `IndepVarComp` `p`, components `c` and `d`. -/
def exFdSys : FSys := .group [("p".toList, .comp true), ("c".toList, .comp false), ("in".toList, .group [("d".toList, .comp false)])]

def exFdConns : List (List Str × List Str) :=
  [(["sub".toList, "c".toList, "x".toList], ["q".toList, "y".toList]),
   (["sub".toList, "c".toList, "z".toList], ["sub".toList, "p".toList, "z".toList]),
   (["sub".toList, "in".toList, "d".toList, "w".toList], ["sub".toList, "c".toList, "y".toList]),
   (["sub".toList, "in".toList, "d".toList, "o".toList], ["q".toList, "o".toList]),
   (["sub2".toList, "x".toList], ["q".toList, "y".toList]),
   (["r".toList, "x".toList], ["sub2".toList, "y".toList])]

def exFdPbo : List (Str × Bool) := [("c.x".toList, false), ("c.z".toList, false), ("in.d.w".toList, false), ("in.d.o".toList, true)]

/-- Non-trivial instance of the hypotheses of `C129_params`, and the result: `c.x` is driven from outside, `c.z` by the inner
`IndepVarComp`; `in.d.w` is driven from inside, `in.d.o` is passed by object. -/
example : (∀ c ∈ exFdConns, GoodParts c.1 ∧ GoodParts c.2 ∧ 2 ≤ c.1.length ∧ 2 ≤ c.2.length) ∧
    exFdSys.At ["p".toList] (.comp true) ∧ exFdSys.At ["in".toList, "d".toList] (.comp false) ∧
    groupFdParams "sub".toList exFdSys exFdPbo (exFdConns.map fun c => (dotted c.1, dotted c.2)) = .ok ["c.x".toList, "c.z".toList] := by
  refine ⟨?_, .sub _ _ _ _ _ (by rfl) (.here _), .sub _ _ _ _ _ (by rfl) (.sub _ _ _ _ _ (by rfl) (.here _)), by decide +kernel⟩
  unfold GoodParts
  decide

example : groupFdUnknowns "sub".toList exFdSys [("c.y".toList, "sub.c.y".toList, false), ("z".toList, "sub.p.z".toList, false),
    ("o".toList, "sub.in.d.o".toList, true), ("v".toList, "sub.in.d.v".toList, false)] = .ok ["c.y".toList, "v".toList] := by decide +kernel

/-! ## C130 -/

section Jac
variable {K : Type} [Field K] [LinearOrder K] [IsStrictOrderedRing K]

theorem fdVar_param (E : FdEnv K) (p : String) (start size : Nat) (hc : E.conns.lookup p = none) (hs : E.states = [])
    (hp : E.pslices.lookup p = some (start, size)) :
    fdVar E p = .ok ⟨p, .params, start, size, none, (fdOpts E p).1, (fdOpts E p).2.1, (fdOpts E p).2.2⟩ := by
  unfold fdVar
  rw [hc]
  simp only [hs, List.not_mem_nil, if_false, fdSlice, hp, fdMk]

theorem mapM_fdVar (E : FdEnv K) (hs : E.states = []) : ∀ (ps : List (String × (Nat × Nat))),
    (∀ e ∈ ps, E.conns.lookup e.1 = none ∧ E.pslices.lookup e.1 = some e.2) →
    (ps.map (·.1)).mapM (fdVar E) = .ok (ps.map (paramVar E)) := by
  intro ps
  induction ps with
  | nil => intro _; rfl
  | cons e ps ih =>
    intro h
    obtain ⟨h1, h2⟩ := h e (by simp)
    rw [List.map_cons, List.mapM_cons, fdVar_param E e.1 e.2.1 e.2.2 h1 hs h2, ih fun x hx => h x (by simp [hx])]
    rfl

/-- **C130 (partial: for params that are driven from outside, and when none of their names relative to the group is the absolute name
of a connected param, see `C130_inner_refuted` and `C130_clash_refuted`; exact arithmetic).** The Jacobian of a finite differenced
group: entry `(a, b)` of the block of unknown `u` and param `p` is the difference quotient, over a run of the whole group, of entry
`a` of `u` in direction of entry `b` of `p`. -/
theorem C130_quotients_partial (E : FdEnv K) (inP inU : Nat → Prop) (G : FdSt K → Nat → K) (ps : List (String × (Nat × Nat)))
    (fdU : List String) (s : FdSt K)
    (hE : E.rnd = id ∧ E.total = true ∧ E.states = [] ∧ E.poi = [] ∧ E.qoi = [] ∧ E.npar = 1 ∧ E.parId = 0)
    (hrun : FdModel E inP inU G)
    (hps : ∀ e ∈ ps, E.conns.lookup e.1 = none ∧ E.pslices.lookup e.1 = some e.2) (hnd : (ps.map (·.1)).Nodup)
    (hin : ∀ e ∈ ps, ∀ b < e.2.2, inP (e.2.1 + b)) (hstep : ∀ e ∈ ps, 0 < (fdOpts E e.1).1)
    (hrows : ∀ u ∈ fdU, ∃ a n, E.uslices.lookup u = some (a, n) ∧ ∀ k < n, ¬ inU (a + k)) :
    ∃ L, fdJacobian E (ps.map (·.1)) fdU [] s = .ok L ∧
      ∀ e ∈ ps, ∀ u ∈ fdU, ∃ M r n, L.jac u e.1 = some M ∧ E.uslices.lookup u = some (r, n) ∧ M.m = n ∧ M.n = e.2.2 ∧
        ∀ a < n, ∀ b < e.2.2, M.a a b = diffQuot (fdOpts E e.1).2.2 G s s.u .params (e.2.1 + b)
          (stepFor (paramVar E e) (s.p (e.2.1 + b))) (r + a) := by
  obtain ⟨hr, htot, hst, hpoi, hqoi, hnp, hid⟩ := hE
  have hidx : ∀ e : String × (Nat × Nat), fdIdxs E (paramVar E e) = List.range e.2.2 := by
    intro e; rfl
  have hok : FdOk E inP inU G fdU [] (ps.map (paramVar E)) := by
    refine ⟨hr, hrun, ?_, ?_, ?_, by simp⟩
    · rw [List.map_map]
      exact hnd
    · intro v hv
      obtain ⟨e, he, rfl⟩ := List.mem_map.mp hv
      refine ⟨hstep e he, ?_⟩
      intro i hi
      rw [hidx e, List.mem_range] at hi
      exact ⟨hi, hin e he i hi⟩
    · intro u hu
      obtain ⟨a, n, h1, h2⟩ := hrows u hu
      refine ⟨a, n, h1, by intro l hl; simp [hqoi] at hl, ?_⟩
      intro _ k hk
      have : rowsOf E u = List.range' a n := by simp [rowsOf, h1, hqoi]
      rw [this, List.mem_range'_1] at hk
      have := h2 (k - a) (by omega)
      rwa [show a + (k - a) = k by omega] at this
  obtain ⟨L, h1, h2⟩ := C35_quotients E inP inU G fdU [] _ hok hnp hid s
  refine ⟨L, ?_, ?_⟩
  · unfold fdJacobian
    rw [if_pos htot, List.append_nil, mapM_fdVar E hst ps hps]
    exact h1
  · intro e he u hu
    obtain ⟨M, m1, m2, m3, m4⟩ := h2 (paramVar E e) (List.mem_map.mpr ⟨e, he, rfl⟩) u hu
    obtain ⟨r, n, h3, _⟩ := hrows u hu
    have hrw : rowsOf E u = List.range' r n := by simp [rowsOf, h3, hqoi]
    rw [hrw, List.length_range'] at m2
    rw [hidx e, List.length_range] at m3
    refine ⟨M, r, n, m1, h3, m2, m3, ?_⟩
    intro a ha b hb
    have := m4 a b (r + a) b (by rw [hrw, List.getElem?_range' ha]; simp) (by rw [hidx e, List.getElem?_range hb])
    rw [this]
    simp only [FdSt.res, htot, if_true]
    rfl

/-- **C130, correct derivatives (partial, as above).** When the outputs of the group are affine in its params and the group has been
run at the current point, the block is the Jacobian. -/
theorem C130_affine_partial (E : FdEnv K) (inP inU : Nat → Prop) (G : FdSt K → Nat → K) (D : Nat → FdSel → Nat → K)
    (ps : List (String × (Nat × Nat))) (fdU : List String) (s : FdSt K)
    (hE : E.rnd = id ∧ E.total = true ∧ E.states = [] ∧ E.poi = [] ∧ E.qoi = [] ∧ E.npar = 1 ∧ E.parId = 0)
    (hrun : FdModel E inP inU G) (haff : AffineIn G D)
    (hps : ∀ e ∈ ps, E.conns.lookup e.1 = none ∧ E.pslices.lookup e.1 = some e.2) (hnd : (ps.map (·.1)).Nodup)
    (hin : ∀ e ∈ ps, ∀ b < e.2.2, inP (e.2.1 + b)) (hstep : ∀ e ∈ ps, 0 < (fdOpts E e.1).1)
    (hrows : ∀ u ∈ fdU, ∃ a n, E.uslices.lookup u = some (a, n) ∧ ∀ k < n, ¬ inU (a + k))
    (hcur : ∀ u ∈ fdU, ∀ a n, E.uslices.lookup u = some (a, n) → ∀ k < n, s.u (a + k) = G s (a + k)) :
    ∃ L, fdJacobian E (ps.map (·.1)) fdU [] s = .ok L ∧
      ∀ e ∈ ps, ∀ u ∈ fdU, ∃ M r n, L.jac u e.1 = some M ∧ E.uslices.lookup u = some (r, n) ∧ M.m = n ∧ M.n = e.2.2 ∧
        ∀ a < n, ∀ b < e.2.2, M.a a b = D (r + a) .params (e.2.1 + b) := by
  obtain ⟨L, h1, h2⟩ := C130_quotients_partial E inP inU G ps fdU s hE hrun hps hnd hin hstep hrows
  refine ⟨L, h1, ?_⟩
  intro e he u hu
  obtain ⟨M, r, n, m1, m2, m3, m4, m5⟩ := h2 e he u hu
  refine ⟨M, r, n, m1, m2, m3, m4, ?_⟩
  intro a ha b hb
  rw [m5 a ha b hb]
  have hc := hcur u hu r n m2 a ha
  have hpos : 0 < stepFor (paramVar E e) (s.p (e.2.1 + b)) := by
    unfold stepFor
    have : 0 < (paramVar E e).fdstep := hstep e he
    split
    · exact lt_of_lt_of_le this (le_max_right _ _)
    · exact this
  have hne := ne_of_gt hpos
  cases hf : (fdOpts E e.1).2.2 with
  | forward =>
    show (G _ _ - s.u (r + a)) / _ = _
    rw [haff, hc]
    field_simp
    ring
  | backward =>
    show (s.u (r + a) - G _ _) / _ = _
    rw [haff, hc]
    field_simp
    ring
  | central =>
    show (G _ _ - G _ _) / _ = _
    rw [haff, haff]
    field_simp
    ring

end Jac


/-! ### C130: example and refutations -/

/-- Group `sub` at the root: `c.x` (param 0) comes from outside, `c.y = 3 c.x` (unknown 0) feeds `d.w` (param 1), `d.z = 2 d.w` (unknown 1). -/
def exSubFd : FdEnv ℚ :=
  { rnd := id, total := true
    run := fun s => .ok { s with p := fun k => if k = 1 then 3 * s.p 0 else s.p k,
                                 u := fun k => if k = 0 then 3 * s.p 0 else if k = 1 then 6 * s.p 0 else s.u k }
    conns := [("sub.c.x", "q.y"), ("sub.d.w", "sub.c.y")], pslices := [("c.x", (0, 1)), ("d.w", (1, 1))]
    uslices := [("c.y", (0, 1)), ("d.z", (1, 1))], toProm := [("sub.c.y", "c.y"), ("sub.d.z", "d.z")], states := []
    defaults := (1/1000, true, .forward), overrides := [], poi := [], qoi := [], npar := 1, parId := 0 }

/-- Non-trivial instance of the hypotheses of `C130_affine_partial`. -/
example : ∃ (G : FdSt ℚ → Nat → ℚ) (D : Nat → FdSel → Nat → ℚ), FdModel exSubFd (fun k => k = 0) (fun k => 2 ≤ k) G ∧ AffineIn G D ∧
    D 1 .params 0 = 6 ∧ ∀ u ∈ ["c.y", "d.z"], ∃ a n, exSubFd.uslices.lookup u = some (a, n) ∧ ∀ k < n, ¬ 2 ≤ a + k := by
  refine ⟨fun s k => if k = 0 then 3 * s.p 0 else if k = 1 then 6 * s.p 0 else s.u k,
    fun k sel pos => if k = 0 then (if sel = .params ∧ pos = 0 then 3 else 0) else if k = 1 then (if sel = .params ∧ pos = 0 then 6 else 0)
      else if sel = .unknowns ∧ pos = k then 1 else 0, ⟨fun s => ⟨_, rfl, rfl, ?_, ?_⟩, ?_⟩, ?_, by simp, ?_⟩
  · intro k hk; simp [hk]
  · intro k hk
    have h0 : k ≠ 0 := by omega
    have h1 : k ≠ 1 := by omega
    simp [h0, h1]
  · intro s t h
    funext k
    have := h.1 0 rfl
    by_cases h0 : k = 0
    · simp [h0, this]
    · by_cases h1 : k = 1
      · simp [h1, this]
      · simp [h0, h1, h.2 k (by show 2 ≤ k; omega)]
  · intro s sel pos d k
    cases sel <;> by_cases h0 : k = 0 <;> by_cases h1 : k = 1 <;> by_cases hp : pos = 0 <;> by_cases hk : k = pos <;>
      simp_all [FdSt.shift, FdSt.bump, mul_add, mul_comm, eq_comm]
  · intro u hu
    fin_cases hu
    · exact ⟨0, 1, rfl, by intro k hk; omega⟩
    · exact ⟨1, 1, rfl, by intro k hk; omega⟩

example : (fdJacobian exSubFd ["c.x"] ["c.y", "d.z"] [] ⟨fun k => if k = 1 then 6 else 2, fun k => if k = 0 then 6 else 12, fun _ => 0⟩).map
    (fun L => (fdBlock L "c.y" "c.x", fdBlock L "d.z" "c.x")) = .ok (some [[3]], some [[6]]) := by decide +kernel

/-- Group `sub` with an `IndepVarComp` `p` inside: `p.x` (unknown 0) feeds `c.x` (param 0), and `c.y = 3 c.x` (unknown 1). -/
def exInnerFd : FdEnv ℚ :=
  { rnd := id, total := true
    run := fun s => .ok { s with p := fun k => if k = 0 then s.u 0 else s.p k, u := fun k => if k = 1 then 3 * s.u 0 else s.u k }
    conns := [("sub.c.x", "sub.p.x")], pslices := [("c.x", (0, 1))], uslices := [("p.x", (0, 1)), ("c.y", (1, 1))]
    toProm := [("sub.p.x", "p.x"), ("sub.c.y", "c.y")], states := []
    defaults := (1/1000, false, .forward), overrides := [], poi := [], qoi := [], npar := 1, parId := 0 }

/-- **C130 refuted (sources inside the group).** `_get_fd_params` lists a param that is driven by an `IndepVarComp` inside the group, so
that the source can be perturbed. But `fd_jacobian` looks the source up under the name relative to the group, while the connections are
stored under absolute names. It therefore perturbs the param, which the run overwrites with the value of the source: the block
is zero although the output is three times the source. -/
theorem C130_inner_refuted :
    groupFdParams "sub".toList (.group [("p".toList, .comp true), ("c".toList, .comp false)]) [("c.x".toList, false)]
      [("sub.c.x".toList, "sub.p.x".toList)] = .ok ["c.x".toList] ∧
    ∃ s : FdSt ℚ, exInnerFd.run s = .ok s ∧
      (fdJacobian exInnerFd ["c.x"] ["c.y"] [] s).map (fun L => fdBlock L "c.y" "c.x") = .ok (some [[0]]) ∧
      ∀ d, (exInnerFd.run (s.shift .unknowns 0 d)).map (fun t => t.u 1) = .ok (s.u 1 + 3 * d) := by
  refine ⟨by decide +kernel, ⟨fun _ => 1, fun k => if k = 1 then 3 else 1, fun _ => 0⟩, ?_, by decide +kernel, ?_⟩
  · simp only [exInnerFd, Except.ok.injEq, FdSt.mk.injEq, and_true]
    constructor
    · funext k; by_cases hk : k = 0 <;> simp [hk]
    · funext k; by_cases hk : k = 1 <;> simp [hk]
  · intro d
    simp [exInnerFd, FdSt.shift, FdSt.bump, Except.map, mul_add]

/-- **C130 refuted (name clash).** The model also has, outside the group, a connected param whose absolute name `c.x` happens to be the
name of the group's param relative to the group. Its source is then taken for the source of the group's param: the linearisation
stops with a `KeyError`, or, when the group has an unknown of that name, perturbs this unknown and reports a zero derivative. -/
theorem C130_clash_refuted :
    (fdJacobian { exSubFd with conns := exSubFd.conns ++ [("c.x", "p.x")] } ["c.x"] ["c.y"] []
      ⟨fun _ => 2, fun _ => 6, fun _ => 0⟩).map (fun L => fdBlock L "c.y" "c.x") = .error .KeyError ∧
    (fdJacobian { exSubFd with conns := exSubFd.conns ++ [("c.x", "p.x")], uslices := exSubFd.uslices ++ [("p.x", (2, 1))] } ["c.x"] ["c.y"] []
      ⟨fun k => if k = 1 then 6 else 2, fun k => if k = 0 then 6 else 12, fun _ => 0⟩).map (fun L => fdBlock L "c.y" "c.x") = .ok (some [[0]]) := by
  constructor <;> decide +kernel

/-! ## C131 -/

section Solve
variable {ι π K ν : Type} [Fintype ι] [Fintype π] [DecidableEq ι] [DecidableEq ν] [Field K]

/-- What the children do for one variable of interest. -/
def oneSolve (kind : Nat → ChildKind) (S : GSSolve ι π K) : GSSolve ι π K :=
  { sol := fun c r i => if kind c = .fd then -r i else S.sol c r i
    junk := fun c s => if kind c = .fd then s else S.junk c s }

theorem outward_A (G : LinGroup ι π K) (c : Nat) (h : Outward G c) (i j : ι) (hi : G.owner i = c) (hj : G.owner j = c) :
    G.A i j = if i = j then -1 else 0 := by
  unfold LinGroup.A
  rw [h.nostate i j hi, Finset.sum_eq_zero, zero_add, zero_sub]
  · by_cases hij : i = j
    · simp [hij, h.expl j hj]
    · simp [hij]
  · intro k _
    split
    · next hk => exact h.outside i k hi (by rw [hk, hj])
    · rfl

theorem oneSolve_exact (G : LinGroup ι π K) (kind : Nat → ChildKind) (S : GSSolve ι π K)
    (hfd : ∀ c, kind c = .fd → Outward G c)
    (hS : ∀ c, kind c = .other → ∀ r i, G.owner i = c → (∑ j : ι, if G.owner j = c then G.A i j * S.sol c r j else 0) = r i) :
    ExactBlocks G (oneSolve kind S).sol := by
  intro c r i hi
  by_cases hk : kind c = .fd
  · have : ∀ j, (if G.owner j = c then G.A i j * (oneSolve kind S).sol c r j else 0) = if i = j then r j else 0 := by
      intro j
      by_cases hj : G.owner j = c
      · simp only [hj, if_true, outward_A G c (hfd c hk) i j hi hj, oneSolve, hk]
        by_cases hij : i = j <;> simp [hij]
      · have : i ≠ j := by rintro rfl; exact hj hi
        simp [hj, this]
    rw [Finset.sum_congr rfl fun j _ => this j]
    simp
  · have hk' : kind c = .other := by
      cases h : kind c with
      | fd => exact absurd h hk
      | other => rfl
    rw [← hS c hk' r i hi]
    simp [oneSolve, hk']

theorem oneSolve_exactT (G : LinGroup ι π K) (kind : Nat → ChildKind) (S : GSSolve ι π K)
    (hfd : ∀ c, kind c = .fd → Outward G c)
    (hS : ∀ c, kind c = .other → ∀ r j, G.owner j = c → (∑ i : ι, if G.owner i = c then G.A i j * S.sol c r i else 0) = r j) :
    ExactBlocksT G (oneSolve kind S).sol := by
  intro c r j hj
  by_cases hk : kind c = .fd
  · have : ∀ i, (if G.owner i = c then G.A i j * (oneSolve kind S).sol c r i else 0) = if j = i then r i else 0 := by
      intro i
      by_cases hi : G.owner i = c
      · simp only [hi, if_true, outward_A G c (hfd c hk) i j hi hj, oneSolve, hk]
        by_cases hij : i = j
        · simp [hij]
        · simp [hij, Ne.symm hij]
      · have : j ≠ i := by rintro rfl; exact hi hj
        simp [hi, this]
    rw [Finset.sum_congr rfl fun i _ => this i]
    simp
  · have hk' : kind c = .other := by
      cases h : kind c with
      | fd => exact absurd h hk
      | other => rfl
    rw [← hS c hk' r j hj]
    simp [oneSolve, hk']

theorem voiStepFwd_one (G : LinGroup ι π K) (kind : Nat → ChildKind) (S : GSSolve ι π K) (vois : List ν) (rhs : ν → ι → K)
    (st : VoiState ν ι π K) (c : Nat) (v : ν) (h : Served kind vois v) :
    voiStepFwd G kind S vois rhs st c v = gsStepFwd G (oneSolve kind S) (rhs v) (st v) c := by
  unfold voiStepFwd childSolveFwd gsStepFwd
  simp only [h.1, if_true]
  cases hk : kind c with
  | fd =>
    have hh : vois.head? = some v := by
      rcases h.2 with h | h
      · exact h
      · rw [h c] at hk; cases hk
    simp only [hh, if_true, oneSolve, hk]
    congr 1
    · funext i; by_cases hi : G.owner i = c <;> simp [hi]
    · funext i; split <;> rfl
    · funext k; split <;> rfl
  | other => simp [oneSolve, hk]

theorem voiStepRev_one (G : LinGroup ι π K) (kind : Nat → ChildKind) (S : GSSolve ι π K) (vois : List ν) (rhs : ν → ι → K)
    (st : VoiState ν ι π K) (c : Nat) (v : ν) (h : Served kind vois v) :
    voiStepRev G kind S vois rhs st c v = gsStepRev G (oneSolve kind S) (rhs v) (st v) c := by
  unfold voiStepRev childSolveRev gsStepRev
  simp only [h.1, if_true]
  congr 1
  cases hk : kind c with
  | fd =>
    have hh : vois.head? = some v := by
      rcases h.2 with h | h
      · exact h
      · rw [h c] at hk; cases hk
    simp only [hh, if_true, oneSolve, hk]
    congr 1
    · funext i; split <;> rfl
    · funext i; by_cases hi : G.owner i = c <;> simp [hi]
    · funext k; split <;> rfl
  | other => simp [oneSolve, hk]

/-- **C131, forward mode (partial: for a variable of interest that is alone or first in its set, or when no child is a finite differenced
group, see `C131_fwd_refuted`).** One sweep over a feed-forward model that contains finite differenced groups solves the linear system in which
such a group stands with its Jacobian. -/
theorem C131_fwd_partial (G : LinGroup ι π K) (kind : Nat → ChildKind) (S : GSSolve ι π K) (vois : List ν) (rhs : ν → ι → K)
    (order : List Nat) (st : VoiState ν ι π K) (hw : G.WF) (hfd : ∀ c, kind c = .fd → Outward G c)
    (hS : ∀ c, kind c = .other → ∀ r i, G.owner i = c → (∑ j : ι, if G.owner j = c then G.A i j * S.sol c r j else 0) = r i)
    (ho : IsOrder G order) (hff : FeedForward G order) (v : ν) (hv : Served kind vois v) (h0 : ∀ j, (st v).du j = 0) :
    G.Solves (voiSweepFwd G kind S vois rhs order st v).du (rhs v) := by
  have key : ∀ (l : List Nat) (st : VoiState ν ι π K), voiSweepFwd G kind S vois rhs l st v = gsSweepFwd G (oneSolve kind S) (rhs v) l (st v) := by
    intro l
    induction l with
    | nil => intro st; rfl
    | cons c l ih =>
      intro st
      show voiSweepFwd G kind S vois rhs l (voiStepFwd G kind S vois rhs st c) v = gsSweepFwd G _ (rhs v) l (gsStepFwd G _ (rhs v) (st v) c)
      rw [ih, voiStepFwd_one G kind S vois rhs st c v hv]
  rw [key]
  exact C32_fwd G _ (rhs v) order (st v) hw (oneSolve_exact G kind S hfd hS) ho hff (Or.inr h0)

/-- **C131, reverse mode (partial, as above).** -/
theorem C131_rev_partial (G : LinGroup ι π K) (kind : Nat → ChildKind) (S : GSSolve ι π K) (vois : List ν) (rhs : ν → ι → K)
    (order : List Nat) (st : VoiState ν ι π K) (hw : G.WF) (hfd : ∀ c, kind c = .fd → Outward G c)
    (hS : ∀ c, kind c = .other → ∀ r j, G.owner j = c → (∑ i : ι, if G.owner i = c then G.A i j * S.sol c r i else 0) = r j)
    (ho : IsOrder G order) (hp : ∀ k, G.powner k ∈ order) (hff : FeedForward G order) (v : ν) (hv : Served kind vois v) :
    G.SolvesT (voiSweepRev G kind S vois rhs order st v).dr (rhs v) := by
  have key : ∀ (l : List Nat) (st : VoiState ν ι π K),
      l.foldl (voiStepRev G kind S vois rhs) st v = l.foldl (gsStepRev G (oneSolve kind S) (rhs v)) (st v) := by
    intro l
    induction l with
    | nil => intro st; rfl
    | cons c l ih =>
      intro st
      rw [List.foldl_cons, List.foldl_cons, ih, voiStepRev_one G kind S vois rhs st c v hv]
  unfold voiSweepRev
  rw [key]
  exact C32_rev G _ (rhs v) order (st v) hw (oneSolve_exactT G kind S hfd hS) ho hp hff

end Solve

/-- `x` (unknown 0, child 0, an `IndepVarComp`) feeds the param of a finite differenced group (child 1) whose output (unknown 1) has
derivative 3. -/
def exFdLin : LinGroup (Fin 2) (Fin 1) ℚ :=
  { owner := fun i => i.val, powner := fun _ => 1, src := fun _ => 0, jp := fun i _ => if i = 1 then 3 else 0, js := fun _ _ => 0
    expl := fun _ => true }

def exKind (c : Nat) : ChildKind := if c = 1 then .fd else .other

def exFdSolve : GSSolve (Fin 2) (Fin 1) ℚ := { sol := fun _ r i => -r i, junk := fun _ s => s }

/-- Two variables of interest, both seeded at `x`. -/
def exFdRhs (_ : Bool) (i : Fin 2) : ℚ := if i = 0 then -1 else 0
def exFdRhsT (_ : Bool) (i : Fin 2) : ℚ := if i = 1 then -1 else 0

def exFdZero : VoiState Bool (Fin 2) (Fin 1) ℚ := fun _ => ⟨fun _ => 0, fun _ => 0, fun _ => 0⟩

/-- Non-trivial instance of the hypotheses of `C131_fwd_partial` and `C131_rev_partial`. -/
example : exFdLin.WF ∧ (∀ c, exKind c = .fd → Outward exFdLin c) ∧ IsOrder exFdLin [0, 1] ∧ FeedForward exFdLin [0, 1] ∧
    Served exKind [true, false] true ∧
    (∀ c, exKind c = .other → ∀ r i, exFdLin.owner i = c →
      (∑ j : Fin 2, if exFdLin.owner j = c then exFdLin.A i j * exFdSolve.sol c r j else 0) = r i) := by
  refine ⟨⟨?_, ?_⟩, ?_, ⟨by decide, ?_⟩, ?_, ⟨by decide, Or.inl rfl⟩, ?_⟩
  · intro i k h; fin_cases i <;> simp [exFdLin] at h ⊢
  · intro i j _; rfl
  · intro c hc
    have : c = 1 := by
      by_contra h
      simp [exKind, h] at hc
    subst this
    refine ⟨fun _ _ => rfl, fun _ _ _ => rfl, ?_⟩
    intro i k _ h
    simp [exFdLin] at h
  · intro i; fin_cases i <;> simp [exFdLin]
  · simp [FeedForward, exFdLin]
  · intro c hc r i hi
    have : c ≠ 1 := by rintro rfl; simp [exKind] at hc
    subst hi
    fin_cases i
    · simp [exFdLin, LinGroup.A, exFdSolve]
    · exact absurd rfl this

/-- **C131 refuted (forward mode).** In a set of several variables of interest a finite differenced group serves only the first: for the
second one the derivative of its output stays 0 instead of 3. -/
theorem C131_fwd_refuted :
    (voiSweepFwd exFdLin exKind exFdSolve [true, false] exFdRhs [0, 1] exFdZero true).du 1 = 3 ∧
    (voiSweepFwd exFdLin exKind exFdSolve [true, false] exFdRhs [0, 1] exFdZero false).du 1 = 0 ∧
    ¬ exFdLin.Solves (voiSweepFwd exFdLin exKind exFdSolve [true, false] exFdRhs [0, 1] exFdZero false).du (exFdRhs false) := by
  have h1 : (voiSweepFwd exFdLin exKind exFdSolve [true, false] exFdRhs [0, 1] exFdZero false).du 1 = 0 := by decide +kernel
  have h0 : (voiSweepFwd exFdLin exKind exFdSolve [true, false] exFdRhs [0, 1] exFdZero false).du 0 = 1 := by decide +kernel
  refine ⟨by decide +kernel, h1, ?_⟩
  intro h
  have := h 1
  rw [Fin.sum_univ_two, h0, h1] at this
  simp [LinGroup.A, exFdLin, exFdRhs] at this

/-- **C131 refuted (reverse mode).** The adjoint of the second variable of interest is 0 instead of 3. -/
theorem C131_rev_refuted :
    (voiSweepRev exFdLin exKind exFdSolve [true, false] exFdRhsT [0, 1] exFdZero true).dr 0 = 3 ∧
    (voiSweepRev exFdLin exKind exFdSolve [true, false] exFdRhsT [0, 1] exFdZero false).dr 0 = 0 := by
  constructor <;> decide +kernel

end OpenMDAO
