import Verif.Spec.SubDir
/-!
# C182: directories in sub-problems
-/
namespace OpenMDAO

theorem nestedDir_absOf (ds : List PathStr) : ∀ base, nestedDir base ds = ds.foldl absOf base := by
  induction ds with
  | nil => intro _; rfl
  | cons d ds ih =>
    intro base
    rw [List.foldl_cons, ← ih]
    unfold nestedDir absOf below
    by_cases h : d = []
    · simp [h]
    · simp [h]

/-- The systems below fewer than `n` sub-problems know their directory, and so do the problems in these. -/
inductive NestTree.Settled : Nat → PathStr → NestTree → Prop
  | zero {p t} : Settled 0 p t
  | comp {m p i d} : Settled (m + 1) p (.comp i d (absOf p d))
  | group {m p d a subs} : (∀ t ∈ subs, Settled (m + 1) (absOf p d) t) → Settled (m + 1) p (.group d a subs)
  | prob {m p d a root} : Settled m (absOf p d) root → Settled (m + 1) p (.prob d a (some (absOf p d)) root)

theorem NestTree.Settled.known {m : Nat} {p : PathStr} {t : NestTree} (h : t.Settled m p) :
    ∀ {ds k i a}, t.At ds k i a → k < m → a = ds.foldl absOf p := by
  induction h with
  | zero => intro _ _ _ _ _ hk; omega
  | comp => intro _ _ _ _ ha _; cases ha; rfl
  | group _ ih =>
    intro _ _ _ _ ha hk
    cases ha with
    | group ht ha => exact ih _ ht ha hk
  | prob _ ih =>
    intro _ _ _ _ ha hk
    cases ha with
    | prob ha => exact ih ha (by omega)

mutual
theorem nestSetup_settled (cwd : PathStr) : ∀ (t : NestTree) (p : PathStr) (m : Nat), t.Settled m p → (nestSetup cwd p t).Settled (m + 1) p
  | .comp i d a, p, m, _ => by unfold nestSetup; exact .comp
  | .group d a subs, p, m, h => by
    unfold nestSetup
    refine .group (nestSetups_settled cwd subs _ m ?_)
    cases h with
    | zero => exact fun _ _ => .zero
    | group h => exact h
  | .prob d a pd root, p, m, h => by
    unfold nestSetup
    refine .prob ?_
    cases h with
    | zero => exact .zero
    | prob h => exact nestSetup_settled cwd root _ _ h

theorem nestSetups_settled (cwd : PathStr) : ∀ (ts : List NestTree) (p : PathStr) (m : Nat), (∀ t ∈ ts, t.Settled m p) →
    ∀ t ∈ nestSetups cwd p ts, t.Settled (m + 1) p
  | [], _, _, _, t, ht => by unfold nestSetups at ht; cases ht
  | t :: ts, p, m, h, t', ht => by
    have h1 := nestSetup_settled cwd t p m (h t List.mem_cons_self)
    have h2 := nestSetups_settled cwd ts p m fun t ht => h t (List.mem_cons_of_mem _ ht)
    unfold nestSetups at ht
    rcases List.mem_cons.1 ht with rfl | ht
    · exact h1
    · exact h2 t' ht
end

mutual
theorem nestSetup_at (cwd : PathStr) : ∀ (t : NestTree) (p : PathStr) {ds k i a}, t.At ds k i a → ∃ a', (nestSetup cwd p t).At ds k i a'
  | .comp i d a, p, _, _, _, _, h => by
    cases h
    unfold nestSetup
    exact ⟨_, .comp⟩
  | .group d a subs, p, _, _, _, _, h => by
    cases h with
    | group ht h =>
      unfold nestSetup
      obtain ⟨t', a', ht', h'⟩ := nestSetups_at cwd subs (absOf p d) ht h
      exact ⟨a', .group ht' h'⟩
  | .prob d a pd root, p, _, _, _, _, h => by
    cases h with
    | prob h =>
      unfold nestSetup
      obtain ⟨a', h'⟩ := nestSetup_at cwd root (pd.getD cwd) h
      exact ⟨a', .prob h'⟩

theorem nestSetups_at (cwd : PathStr) : ∀ (ts : List NestTree) (p : PathStr) {t ds k i a}, t ∈ ts → t.At ds k i a →
    ∃ t' a', t' ∈ nestSetups cwd p ts ∧ t'.At ds k i a'
  | [], _, _, _, _, _, _, ht, _ => by cases ht
  | t0 :: ts, p, t, _, _, _, _, ht, h => by
    have h1 := fun {ds k i a} => @nestSetup_at cwd t0 p ds k i a
    have h2 := fun {t ds k i a} => @nestSetups_at cwd ts p t ds k i a
    unfold nestSetups
    rcases List.mem_cons.1 ht with rfl | ht
    · obtain ⟨a', h'⟩ := h1 h
      exact ⟨_, a', List.mem_cons_self, h'⟩
    · obtain ⟨t', a', ht', h'⟩ := h2 ht h
      exact ⟨t', a', List.mem_cons_of_mem _ ht', h'⟩
end

theorem topSetups_settled (cwds : List PathStr) : ∀ (b : PathStr) (t : NestTree) (m : Nat), t.Settled m b →
    (topSetups (some b, t) cwds).2.Settled (m + cwds.length) b ∧ (topSetups (some b, t) cwds).1 = some b := by
  induction cwds with
  | nil => intro b t m h; exact ⟨h, rfl⟩
  | cons c cs ih =>
    intro b t m h
    have := ih b (nestSetup c b t) (m + 1) (nestSetup_settled c t b m h)
    rw [List.length_cons, show m + (cs.length + 1) = m + 1 + cs.length by omega]
    exact this

theorem topSetups_at (cwds : List PathStr) : ∀ (p : Option PathStr × NestTree) {ds k i a}, p.2.At ds k i a → ∃ a', (topSetups p cwds).2.At ds k i a' := by
  induction cwds with
  | nil => intro p _ _ _ a h; exact ⟨a, h⟩
  | cons c cs ih =>
    intro p _ _ _ _ h
    obtain ⟨a', h'⟩ := nestSetup_at c p.2 (p.1.getD c) h
    exact ih (topSetup p c) h'

/-- **C182 (enough setups).** A component below `k` sub-problems has the right absolute directory once `setup` has been called more than `k` times: the directories
on the way to it one below the other, the first one below the working directory of the first `setup`. The working directory may change between the calls. -/
theorem C182_after_partial (t : NestTree) (c : PathStr) (cwds : List PathStr) {ds : List PathStr} {k i : Nat} {a : PathStr} (h : t.At ds k i a)
    (hk : k ≤ cwds.length) :
    (topSetups (none, t) (c :: cwds)).2.At ds k i (nestedDir c ds) ∧
    ∀ a', (topSetups (none, t) (c :: cwds)).2.At ds k i a' → a' = nestedDir c ds := by
  have hs : (topSetups (none, t) (c :: cwds)).2.Settled (1 + cwds.length) c := by
    have := (topSetups_settled cwds c (nestSetup c c t) 1 (nestSetup_settled c t c 0 .zero)).1
    exact this
  have huniq : ∀ a', (topSetups (none, t) (c :: cwds)).2.At ds k i a' → a' = nestedDir c ds := by
    intro a' h'
    rw [nestedDir_absOf]
    exact hs.known h' (by omega)
  obtain ⟨a', h'⟩ := topSetups_at (c :: cwds) (none, t) h
  exact ⟨huniq a' h' ▸ h', huniq⟩

/-- **C182 (no sub-problems).** A component that is in no sub-problem has the right directory after the first `setup`. -/
theorem C182_plain (t : NestTree) (c : PathStr) {ds : List PathStr} {i : Nat} {a : PathStr} (h : t.At ds 0 i a) :
    (topSetups (none, t) [c]).2.At ds 0 i (nestedDir c ds) ∧ ∀ a', (topSetups (none, t) [c]).2.At ds 0 i a' → a' = nestedDir c ds :=
  C182_after_partial t c [] h (Nat.le_refl 0)

/-- A sub-problem with the directory `s`, in it a component with the directory `e`. -/
def subDirModel : NestTree := .group [] [] [.prob ['s'] [] none (.group [] [] [.comp 1 ['e'] []])]

/-- **Refutation: the first setup.** In `/w`, the component in the sub-problem should run in `/w/s/e`; after the first `setup` it takes `/w/e` for its directory,
after the second one it has the right one. -/
theorem C182_first_refuted : ∃ (t : NestTree) (ds : List PathStr), nestedDir ['/', 'w'] ds = ['/', 'w', '/', 's', '/', 'e'] ∧
    (topSetups (none, t) [['/', 'w']]).2.At ds 1 1 ['/', 'w', '/', 'e'] ∧
    (topSetups (none, t) [['/', 'w'], ['/', 'w']]).2.At ds 1 1 ['/', 'w', '/', 's', '/', 'e'] :=
  ⟨subDirModel, [[], ['s'], [], ['e']], by decide, .group (.head _) (.prob (.group (.head _) .comp)), .group (.head _) (.prob (.group (.head _) .comp))⟩

example : subDirModel.At [[], ['s'], [], ['e']] 1 1 [] := .group (.head _) (.prob (.group (.head _) .comp))

mutual
theorem nestSetup_hasProb (c : PathStr) : ∀ (t : NestTree) (p : PathStr), t.New → ∀ r, (nestSetup c p t).HasProb r → ∃ r0, r0.New ∧ r = nestSetup c c r0
  | .comp i d a, p, _, r, h => by unfold nestSetup at h; cases h
  | .group d a subs, p, hn, r, h => by
    cases hn with
    | group hn =>
      unfold nestSetup at h
      cases h with
      | group ht h => exact nestSetups_hasProb c subs _ hn _ ht _ h
  | .prob d a pd root, p, hn, r, h => by
    cases hn with
    | prob hn =>
      unfold nestSetup at h
      cases h
      exact ⟨root, hn, rfl⟩

theorem nestSetups_hasProb (c : PathStr) : ∀ (ts : List NestTree) (p : PathStr), (∀ t ∈ ts, t.New) → ∀ t' ∈ nestSetups c p ts, ∀ r, t'.HasProb r →
    ∃ r0 : NestTree, r0.New ∧ r = nestSetup c c r0
  | [], _, _, _, ht, _, _ => by unfold nestSetups at ht; cases ht
  | t :: ts, p, hn, t', ht, r, h => by
    have h1 := nestSetup_hasProb c t p (hn t List.mem_cons_self)
    have h2 := nestSetups_hasProb c ts p fun t ht => hn t (List.mem_cons_of_mem _ ht)
    unfold nestSetups at ht
    rcases List.mem_cons.1 ht with rfl | ht
    · exact h1 r h
    · exact h2 t' ht r h
end

theorem nestSetup_root (c : PathStr) {t' r : NestTree} (h : t'.Root r) : ∀ t : NestTree, t.New → t' = nestSetup c c t → ∃ r0, r = nestSetup c c r0 := by
  induction h with
  | top => intro t _ e; exact ⟨t, e⟩
  | sub hp _ ih =>
    intro t hn e
    subst e
    obtain ⟨r0, hr, e⟩ := nestSetup_hasProb c t c hn _ hp
    exact ih r0 hr e

/-- **C182 (what the first setup does).** After the first `setup`, in `c`, every component takes as its directory the directories on the way from the root of the
innermost problem it is in, one below the other, the first one below `c`: what is above that problem does not count. -/
theorem C182_first (t : NestTree) (hn : t.New) (c : PathStr) {r : NestTree} (hr : (topSetups (none, t) [c]).2.Root r) {js : List PathStr} {i : Nat} {a : PathStr}
    (h : r.At js 0 i a) : a = nestedDir c js := by
  obtain ⟨r0, rfl⟩ := nestSetup_root c hr t hn rfl
  rw [nestedDir_absOf]
  exact (nestSetup_settled c r0 c 0 .zero).known h (Nat.lt_succ_self 0)

example : subDirModel.New ∧ ∃ r, (topSetups (none, subDirModel) [['/', 'w']]).2.Root r ∧ r.At [[], ['e']] 0 1 ['/', 'w', '/', 'e'] :=
  ⟨.group (by simpa using .prob (.group (by simpa using .comp))), _, .sub (.group (.head _) .prob) .top, .group (.head _) .comp⟩

end OpenMDAO
