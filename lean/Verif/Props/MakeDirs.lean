import Verif.Spec.MakeDirs
import Mathlib.Data.List.Infix
/-!
# C184: directories made at setup
-/
namespace OpenMDAO

theorem GrowsBy.refl {S} (fs : MakeFs) : GrowsBy S fs fs := fun _ => .inl rfl

theorem GrowsBy.mono {S T : List String → Prop} {fs fs' : MakeFs} (h : GrowsBy S fs fs') (hST : ∀ p, S p → T p) : GrowsBy T fs fs' := by
  intro q
  rcases h q with h | ⟨h1, h2, p, h3, h4⟩
  · exact .inl h
  · exact .inr ⟨h1, h2, p, hST p h3, h4⟩

theorem GrowsBy.trans {S} {a b c : MakeFs} (h1 : GrowsBy S a b) (h2 : GrowsBy S b c) : GrowsBy S a c := by
  intro q
  rcases h2 q with h | ⟨h3, h4, h5⟩
  · rw [h]
    exact h1 q
  · rcases h1 q with h | ⟨_, h, _⟩
    · exact .inr ⟨h ▸ h3, h4, h5⟩
    · rw [h] at h3
      cases h3

theorem GrowsBy.keeps {S} {a b : MakeFs} (h : GrowsBy S a b) {p k} (hp : a p = some k) : b p = some k := by
  rcases h p with h | ⟨h, _⟩
  · rw [h, hp]
  · rw [h] at hp
    cases hp

theorem GrowsBy.isSome {S} {a b : MakeFs} (h : GrowsBy S a b) {p} (hp : (a p).isSome = true) : (b p).isSome = true := by
  obtain ⟨k, hk⟩ := Option.isSome_iff_exists.1 hp
  rw [h.keeps hk]
  rfl

theorem osMakedirs_ok {fs fs' : MakeFs} {p : List String} (h : osMakedirs fs p = .ok fs') : GrowsBy (· = p) fs fs' ∧ (fs' p).isSome = true := by
  unfold osMakedirs at h
  split at h
  · cases h
  · injection h with h
    subst h
    constructor
    · intro q
      by_cases hq : q <+: p ∧ fs q = none
      · right
        exact ⟨hq.2, by simp only [hq, and_self, if_true], p, rfl, hq.1⟩
      · left
        simp only [hq, if_false]
    · cases hp : fs p <;> simp [hp]

theorem ensureDir_ok {c : Bool} {fs fs' : MakeFs} {p : List String} (h : ensureDir c fs p = .ok fs') :
    GrowsBy (fun q => c = true ∧ q = p) fs fs' ∧ (c = true → (fs' p).isSome = true) := by
  unfold ensureDir at h
  cases c with
  | false =>
    simp only [Bool.false_and, Bool.false_eq_true, if_false] at h
    injection h with h
    subst h
    exact ⟨.refl _, by simp⟩
  | true =>
    simp only [Bool.true_and] at h
    split at h
    · obtain ⟨h1, h2⟩ := osMakedirs_ok h
      exact ⟨h1.mono fun q hq => ⟨rfl, hq⟩, fun _ => h2⟩
    · rename_i hn
      injection h with h
      subst h
      exact ⟨.refl _, fun _ => by cases hp : fs p <;> simp_all⟩

theorem filerefSetup_ok {c : Bool} {d : List String} {fs fs' : MakeFs} {f : UserPath} (h : filerefSetup c d fs f = .ok fs') :
    GrowsBy (fun q => c = true ∧ q = (f.below d).dropLast) fs fs' ∧ (fs' (f.below d).dropLast).isSome = true := by
  unfold filerefSetup at h
  split at h
  · rename_i hs
    injection h with h
    subst h
    exact ⟨.refl _, hs⟩
  · split at h
    · rename_i hc
      obtain ⟨h1, h2⟩ := osMakedirs_ok h
      exact ⟨h1.mono fun q hq => ⟨hc, hq⟩, h2⟩
    · cases h

theorem filerefSetups_ok {c : Bool} {d : List String} : ∀ (files : List UserPath) {fs fs' : MakeFs}, filerefSetups c d fs files = .ok fs' →
    GrowsBy (fun q => c = true ∧ ∃ f ∈ files, q = (f.below d).dropLast) fs fs' ∧ ∀ f ∈ files, (fs' (f.below d).dropLast).isSome = true
  | [], fs, fs', h => by
    unfold filerefSetups at h
    injection h with h
    subst h
    exact ⟨.refl _, by simp⟩
  | f :: r, fs, fs', h => by
    unfold filerefSetups at h
    split at h
    · cases h
    · rename_i fs1 h1
      obtain ⟨g1, e1⟩ := filerefSetup_ok h1
      obtain ⟨g2, e2⟩ := filerefSetups_ok r h
      refine ⟨(g1.mono ?_).trans (g2.mono ?_), ?_⟩
      · exact fun q hq => ⟨hq.1, f, List.mem_cons_self, hq.2⟩
      · rintro q ⟨hc, g, hg, e⟩
        exact ⟨hc, g, List.mem_cons_of_mem _ hg, e⟩
      · intro g hg
        rcases List.mem_cons.1 hg with rfl | hg
        · exact g2.isSome e1
        · exact e2 g hg

mutual
theorem makeSetup_ok : ∀ (t : MakeTree) (parent : List String) {fs fs' : MakeFs}, makeSetup fs parent t = .ok fs' →
    GrowsBy (t.Needs parent true) fs fs' ∧ ∀ c p, t.Needs parent c p → (fs' p).isSome = true
  | .node d c files subs, parent, fs, fs', h => by
    unfold makeSetup at h
    split at h
    · cases h
    rename_i fs1 h1
    split at h
    · cases h
    rename_i fs2 h2
    obtain ⟨g1, e1⟩ := ensureDir_ok h1
    obtain ⟨g2, e2⟩ := filerefSetups_ok files h2
    obtain ⟨g3, e3⟩ := makeSetups_ok subs _ h
    refine ⟨((g1.mono ?_).trans (g2.mono ?_)).trans (g3.mono ?_), ?_⟩
    · rintro q ⟨rfl, rfl⟩
      exact .own
    · rintro q ⟨rfl, f, hf, rfl⟩
      exact .file hf rfl
    · rintro q ⟨t, ht, hq⟩
      exact .sub ht hq
    · intro c' p hp
      cases hp with
      | own => exact g3.isSome (g2.isSome (e1 rfl))
      | file hf hd => subst hd; exact g3.isSome (e2 _ hf)
      | sub ht hp => exact e3 _ ht _ _ hp

theorem makeSetups_ok : ∀ (ts : List MakeTree) (parent : List String) {fs fs' : MakeFs}, makeSetups fs parent ts = .ok fs' →
    GrowsBy (fun p => ∃ t ∈ ts, t.Needs parent true p) fs fs' ∧ ∀ t ∈ ts, ∀ c p, t.Needs parent c p → (fs' p).isSome = true
  | [], parent, fs, fs', h => by
    unfold makeSetups at h
    injection h with h
    subst h
    exact ⟨.refl _, by simp⟩
  | t :: ts, parent, fs, fs', h => by
    unfold makeSetups at h
    split at h
    · cases h
    rename_i fs1 h1
    obtain ⟨g1, e1⟩ := makeSetup_ok t parent h1
    obtain ⟨g2, e2⟩ := makeSetups_ok ts parent h
    refine ⟨(g1.mono ?_).trans (g2.mono ?_), ?_⟩
    · exact fun q hq => ⟨t, List.mem_cons_self, hq⟩
    · rintro q ⟨t', ht, hq⟩
      exact ⟨t', List.mem_cons_of_mem _ ht, hq⟩
    · intro t' ht c p hp
      rcases List.mem_cons.1 ht with rfl | ht
      · exact g2.isSome (e1 c p hp)
      · exact e2 t' ht c p hp
end

/-- **C184 (after setup).** If the setup succeeds, every directory that a system needs is there; it is a directory unless there was a file at that path before. -/
theorem C184_made_partial (fs fs' : MakeFs) (parent : List String) (t : MakeTree) (h : makeSetup fs parent t = .ok fs') (c : Bool) (p : List String)
    (hp : t.Needs parent c p) : (fs p ≠ some .file → fs' p = some .dir) ∧ (fs' p).isSome = true := by
  obtain ⟨g, e⟩ := makeSetup_ok t parent h
  have hs := e c p hp
  refine ⟨fun hf => ?_, hs⟩
  rcases g p with h1 | ⟨_, h1, _⟩
  · rw [h1] at hs ⊢
    cases hk : fs p with
    | none => rw [hk] at hs; cases hs
    | some k => cases k with
      | file => exact absurd hk hf
      | dir => rfl
  · exact h1

/-- **C184 (nothing else).** The setup changes and removes nothing; what it makes are directories on the way to those that systems with `create_dirs` need. -/
theorem C184_only (fs fs' : MakeFs) (parent : List String) (t : MakeTree) (h : makeSetup fs parent t = .ok fs') : GrowsBy (t.Needs parent true) fs fs' :=
  (makeSetup_ok t parent h).1

theorem filerefSetups_refused {d : List String} {fs : MakeFs} : ∀ (files : List UserPath),
    (∀ f ∈ files, (fs (f.below d).dropLast).isSome = true) ∧ filerefSetups false d fs files = .ok fs ∨
    (∃ f ∈ files, fs (f.below d).dropLast = none) ∧ filerefSetups false d fs files = .error .RuntimeError
  | [] => .inl ⟨by simp, rfl⟩
  | f :: r => by
    unfold filerefSetups filerefSetup
    cases hf : fs (f.below d).dropLast with
    | none => exact .inr ⟨⟨f, List.mem_cons_self, hf⟩, by simp⟩
    | some k =>
      rcases filerefSetups_refused r with ⟨h1, h2⟩ | ⟨⟨g, hg, h1⟩, h2⟩
      · left
        refine ⟨fun g hg => ?_, by simpa using h2⟩
        rcases List.mem_cons.1 hg with rfl | hg
        · rw [hf]; rfl
        · exact h1 g hg
      · right
        exact ⟨⟨g, List.mem_cons_of_mem _ hg, h1⟩, by simpa using h2⟩

/-- **C184 (a file without a directory).** A component that may not create directories: setup raises `RuntimeError` exactly if the directory of one of its files is
missing, and else it succeeds; the file system stays as it is. -/
theorem C184_refused (fs : MakeFs) (parent : List String) (d : UserPath) (files : List UserPath) :
    (makeSetup fs parent (.node d false files []) = .error .RuntimeError ↔ ∃ p, (MakeTree.node d false files []).Needs parent false p ∧ fs p = none) ∧
    (makeSetup fs parent (.node d false files []) = .error .RuntimeError ∨ makeSetup fs parent (.node d false files []) = .ok fs) := by
  have hn : (∃ p, (MakeTree.node d false files []).Needs parent false p ∧ fs p = none) ↔ ∃ f ∈ files, fs (f.below (d.below parent)).dropLast = none := by
    constructor
    · rintro ⟨p, hp, hf⟩
      cases hp with
      | file hm hd => subst hd; exact ⟨_, hm, hf⟩
      | sub ht _ => cases ht
    · rintro ⟨f, hm, hf⟩
      exact ⟨_, .file hm rfl, hf⟩
  rw [hn]
  rcases filerefSetups_refused (d := d.below parent) (fs := fs) files with ⟨h1, h2⟩ | ⟨h1, h2⟩
  · have hm : makeSetup fs parent (.node d false files []) = .ok fs := by simp [makeSetup, ensureDir, makeSetups, h2]
    rw [hm]
    refine ⟨⟨fun h => (by cases h), ?_⟩, .inr rfl⟩
    rintro ⟨f, hf, h⟩
    have := h1 f hf
    rw [h] at this
    cases this
  · have hm : makeSetup fs parent (.node d false files []) = .error .RuntimeError := by simp [makeSetup, ensureDir, h2]
    rw [hm]
    exact ⟨⟨fun _ => h1, fun _ => rfl⟩, .inl rfl⟩

/-- A file system with the root, the directory `/w` and the file `/w/d`. -/
def fileInPlace : MakeFs := fun p => if p = [] ∨ p = ["w"] then some .dir else if p = ["w", "d"] then some .file else none

/-- **Refutation: a file in place of the directory.** The directory `d` is to be created, and there is a file of that name. Setup succeeds, and there is no directory. -/
theorem C184_file_refuted : ∃ (t : MakeTree) (fs' : MakeFs), t.Needs ["w"] true ["w", "d"] ∧ makeSetup fileInPlace ["w"] t = .ok fs' ∧ fs' ["w", "d"] = some .file :=
  ⟨.node ⟨false, ["d"]⟩ true [] [], fileInPlace, .own, by simp [makeSetup, ensureDir, filerefSetups, makeSetups, UserPath.below, fileInPlace], by decide +kernel⟩

/-- Below that file nothing can be made; beside it, directories are made with those above them. -/
example : (makeSetup fileInPlace ["w"] (.node ⟨false, ["d", "e"]⟩ true [] []) matches .error .OSError) ∧
    (match makeSetup fileInPlace ["w"] (.node ⟨false, ["a", "b"]⟩ true [⟨false, ["c", "f.txt"]⟩] []) with
      | .ok fs' => (fs' ["w", "a"], fs' ["w", "a", "b", "c"], fs' ["w", "a", "b", "c", "f.txt"], fs' ["w", "d"])
      | .error _ => (none, none, none, none)) = (some .dir, some .dir, none, some .file) := by decide +kernel

end OpenMDAO
