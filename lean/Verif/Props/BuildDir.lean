import Verif.Spec.BuildDir
import Mathlib.Data.List.Infix
/-!
# C177: build_directory
-/
namespace OpenMDAO
set_option linter.unusedSectionVars false

/-- Directories are added at beginnings of `p`, and nothing else happens. -/
def AddsDirs (p : List Nat) (fs fs' : FileSys) : Prop := ∀ q, fs' q = fs q ∨ (fs q = none ∧ fs' q = some .dir ∧ q <+: p)

theorem mkdir_fold (p : List Nat) (l : List (List Nat)) (hl : ∀ q ∈ l, q <+: p) : ∀ st : FileSys × Option BuildErr,
    AddsDirs p st.1 (l.foldl mkdirStep st).1 ∧
    ((l.foldl mkdirStep st).2 = none → st.2 = none ∧ ∀ q ∈ l, (l.foldl mkdirStep st).1 q = some .dir) := by
  induction l with
  | nil => intro st; exact ⟨fun q => Or.inl rfl, fun h => ⟨h, by simp⟩⟩
  | cons q l ih =>
    intro st
    obtain ⟨i1, i2⟩ := ih (fun r hr => hl r (by simp [hr])) (mkdirStep st q)
    rw [List.foldl_cons]
    have hq := hl q (by simp)
    have step : AddsDirs p st.1 (mkdirStep st q).1 ∧ ((mkdirStep st q).2 = none → st.2 = none ∧ (mkdirStep st q).1 q = some .dir) := by
      unfold mkdirStep
      split
      · rename_i e h
        exact ⟨fun _ => Or.inl rfl, by simp⟩
      · rename_i h1 h2
        exact ⟨fun _ => Or.inl rfl, fun _ => ⟨h1, h2⟩⟩
      · exact ⟨fun _ => Or.inl rfl, by simp⟩
      · rename_i h1 h2
        refine ⟨fun r => ?_, fun _ => ⟨h1, by simp⟩⟩
        by_cases hr : r = q
        · subst hr; exact Or.inr ⟨h2, by simp, hq⟩
        · left; simp [Function.update_of_ne hr]
    refine ⟨fun r => ?_, fun h => ?_⟩
    · rcases step.1 r with h1 | ⟨h1, h2, h3⟩
      · rcases i1 r with h4 | ⟨h4, h5, h6⟩
        · exact Or.inl (h4.trans h1)
        · exact Or.inr ⟨h1 ▸ h4, h5, h6⟩
      · rcases i1 r with h4 | ⟨h4, _, _⟩
        · exact Or.inr ⟨h1, h4.trans h2, h3⟩
        · rw [h2] at h4; cases h4
    · obtain ⟨g1, g2⟩ := i2 h
      obtain ⟨g3, g4⟩ := step.2 g1
      refine ⟨g3, fun r hr => ?_⟩
      rcases List.mem_cons.1 hr with rfl | hr
      · rcases i1 r with h4 | ⟨h4, h5, _⟩
        · exact h4.trans g4
        · exact h5
      · exact g2 r hr

theorem makeDirs_spec (fs : FileSys) (p : List Nat) : AddsDirs p fs (makeDirs fs p).1 ∧ ((makeDirs fs p).2 = none → (makeDirs fs p).1 p = some .dir) := by
  obtain ⟨h1, h2⟩ := mkdir_fold p p.inits (fun q hq => (List.mem_inits q p).1 hq) (fs, none)
  exact ⟨h1, fun h => (h2 h).2 p ((List.mem_inits p p).2 (List.prefix_refl p))⟩

theorem enterDir_spec (fs : FileSys) (p : List Nat) : AddsDirs p fs (enterDir fs p).1 ∧ ((enterDir fs p).2 = none → (enterDir fs p).1 p = some .dir) := by
  unfold enterDir
  split
  · exact makeDirs_spec fs p
  · rename_i h; exact ⟨fun _ => Or.inl rfl, fun _ => h⟩
  · exact ⟨fun _ => Or.inl rfl, by simp⟩

/-- The file is written, or there was something and it stays. -/
theorem putFile_spec (fs : FileSys) (p : List Nat) (c : Nat) :
    (∀ q, q ≠ p → (putFile fs p c).1 q = fs q) ∧ ((putFile fs p c).1 p = fs p ∨ (putFile fs p c).1 p = some (.file c)) ∧
    ((putFile fs p c).2 = none → (putFile fs p c).1 p = some (.file c)) := by
  unfold putFile
  split
  · exact ⟨fun _ _ => rfl, Or.inl rfl, by simp⟩
  · exact ⟨fun q hq => Function.update_of_ne hq _ _, by simp, by simp⟩

/-- A change asked for by a file at `p` with content `c`. -/
def WritesAt (force : Bool) (p : List Nat) (c : Nat) (fs fs' : FileSys) : Prop :=
  ∀ q, fs' q = fs q ∨ (q = p ∧ fs' q = some (.file c) ∧ (fs q = none ∨ force = true)) ∨ (fs q = none ∧ fs' q = some .dir ∧ q <+: p.dropLast)

theorem writeFile_spec (force : Bool) (fs : FileSys) (p : List Nat) (c : Nat) : WritesAt force p c fs (writeFile force fs p c).1 ∧
    ((writeFile force fs p c).2 = none → (fs p ≠ none ∧ force = false ∧ (writeFile force fs p c).1 p = fs p) ∨ (writeFile force fs p c).1 p = some (.file c)) := by
  unfold writeFile
  split
  · rename_i h
    refine ⟨fun _ => Or.inl rfl, fun _ => Or.inl ⟨?_, h.2, rfl⟩⟩
    intro h0
    rw [h0] at h
    simp at h
  · rename_i h
    have hforce : fs p = none ∨ force = true := by
      cases hp : fs p with
      | none => exact Or.inl rfl
      | some e =>
        right
        cases force
        · exact absurd ⟨by simp [hp], rfl⟩ h
        · rfl
    have key : ∀ fs1 : FileSys, AddsDirs p.dropLast fs fs1 → WritesAt force p c fs (putFile fs1 p c).1 := by
      intro fs1 ha q
      obtain ⟨h1, h2, _⟩ := putFile_spec fs1 p c
      by_cases hq : q = p
      · subst hq
        rcases h2 with h2 | h2
        · rw [h2]
          rcases ha q with h3 | ⟨h3, h4, h5⟩
          · exact Or.inl h3
          · exact Or.inr (Or.inr ⟨h3, h4, h5⟩)
        · exact Or.inr (Or.inl ⟨rfl, h2, hforce⟩)
      · rw [h1 q hq]
        rcases ha q with h3 | ⟨h3, h4, h5⟩
        · exact Or.inl h3
        · exact Or.inr (Or.inr ⟨h3, h4, h5⟩)
    split
    · exact ⟨key fs (fun _ => Or.inl rfl), fun h => Or.inr ((putFile_spec fs p c).2.2 h)⟩
    · have ha := (makeDirs_spec fs p.dropLast).1
      split
      · rename_i fs' e he
        rw [he] at ha
        refine ⟨fun q => ?_, by simp⟩
        rcases ha q with h3 | ⟨h3, h4, h5⟩
        · exact Or.inl h3
        · exact Or.inr (Or.inr ⟨h3, h4, h5⟩)
      · rename_i fs' he
        rw [he] at ha
        exact ⟨key fs' ha, fun h => Or.inr ((putFile_spec fs' p c).2.2 h)⟩

/-- What a change may be: a file of the dict, or a directory on the way to a file or a directory of the dict. -/
def Allowed (force : Bool) (top : List Nat) (t : BTree) (fs fs' : FileSys) : Prop :=
  ∀ q, fs' q = fs q ∨ (∃ p c, q = top ++ p ∧ t.Leaf p c ∧ fs' q = some (.file c) ∧ (fs q = none ∨ force = true)) ∨
    (fs q = none ∧ fs' q = some .dir ∧ ∃ p, (t.Folder p ∧ q <+: top ++ p) ∨ ∃ c, t.Leaf p c ∧ q <+: (top ++ p).dropLast)

theorem Allowed.refl {force top t fs} : Allowed force top t fs fs := fun _ => Or.inl rfl

theorem Allowed.trans {force top t fs fs1 fs2} (h1 : Allowed force top t fs fs1) (h2 : Allowed force top t fs1 fs2) : Allowed force top t fs fs2 := by
  intro q
  rcases h2 q with e2 | ⟨p, c, e, hl, e2, hf⟩ | ⟨n2, e2, hp⟩
  · rw [e2]
    exact h1 q
  · right; left
    refine ⟨p, c, e, hl, e2, ?_⟩
    rcases hf with hf | hf
    · rcases h1 q with e1 | ⟨_, _, _, _, e1, _⟩ | ⟨_, e1, _⟩
      · exact Or.inl (e1 ▸ hf)
      · rw [e1] at hf; cases hf
      · rw [e1] at hf; cases hf
    · exact Or.inr hf
  · right; right
    rcases h1 q with e1 | ⟨_, _, _, _, e1, _⟩ | ⟨_, e1, _⟩
    · exact ⟨e1 ▸ n2, e2, hp⟩
    · rw [e1] at n2; cases n2
    · rw [e1] at n2; cases n2

theorem Allowed.file {force top a k c r fs fs'} (h : Allowed force top r fs fs') : Allowed force top (.file a k c r) fs fs' := by
  intro q
  rcases h q with e | ⟨p, d, e, hl, e2, hf⟩ | ⟨n, e2, p, hh⟩
  · exact Or.inl e
  · exact Or.inr (Or.inl ⟨p, d, e, .file hl, e2, hf⟩)
  · exact Or.inr (Or.inr ⟨n, e2, p, hh.imp (fun ⟨a, b⟩ => ⟨.file a, b⟩) (fun ⟨d, hd, b⟩ => ⟨d, .file hd, b⟩)⟩)

theorem Allowed.dir {force top a k s r fs fs'} (h : Allowed force top r fs fs') : Allowed force top (.dir a k s r) fs fs' := by
  intro q
  rcases h q with e | ⟨p, d, e, hl, e2, hf⟩ | ⟨n, e2, p, hh⟩
  · exact Or.inl e
  · exact Or.inr (Or.inl ⟨p, d, e, .dir hl, e2, hf⟩)
  · exact Or.inr (Or.inr ⟨n, e2, p, hh.imp (fun ⟨a, b⟩ => ⟨.dir a, b⟩) (fun ⟨d, hd, b⟩ => ⟨d, .dir hd, b⟩)⟩)

theorem Allowed.sub {force top a k s r fs fs'} (h : Allowed force (top ++ k) s fs fs') : Allowed force top (.dir a k s r) fs fs' := by
  intro q
  rcases h q with e | ⟨p, d, e, hl, e2, hf⟩ | ⟨n, e2, p, hh⟩
  · exact Or.inl e
  · exact Or.inr (Or.inl ⟨k ++ p, d, by simp [e], .sub hl, e2, hf⟩)
  · exact Or.inr (Or.inr ⟨n, e2, k ++ p, hh.imp (fun ⟨a, b⟩ => ⟨.sub a, by rwa [← List.append_assoc]⟩)
      (fun ⟨d, hd, b⟩ => ⟨d, .sub hd, by rwa [← List.append_assoc]⟩)⟩)

theorem Allowed.write {force top a k c r fs fs'} (h : WritesAt force (top ++ k) c fs fs') : Allowed force top (.file a k c r) fs fs' := by
  intro q
  rcases h q with e | ⟨e, e2, hf⟩ | ⟨n, e2, hp⟩
  · exact Or.inl e
  · exact Or.inr (Or.inl ⟨k, c, e, .here, e2, hf⟩)
  · exact Or.inr (Or.inr ⟨n, e2, k, Or.inr ⟨c, .here, hp⟩⟩)

theorem Allowed.enter {force top a k s r fs fs'} (h : AddsDirs (top ++ k) fs fs') : Allowed force top (.dir a k s r) fs fs' := by
  intro q
  rcases h q with e | ⟨n, e2, hp⟩
  · exact Or.inl e
  · exact Or.inr (Or.inr ⟨n, e2, k, Or.inl ⟨.here, hp⟩⟩)

/-- **C177 (nothing else changes).** Whatever happens, also if there is an exception: a path whose content changes is a file of the dict, now with a
content the dict gives it; or nothing was there, and it is now a directory on the way to a file or a directory of the dict. Files that
were there are changed only with `force`. -/
theorem C177_changes (force : Bool) (t : BTree) : ∀ (top : List Nat) (fs : FileSys) (q : List Nat),
    (buildDir force top t fs).1 q ≠ fs q →
    (∃ p c, q = top ++ p ∧ t.Leaf p c ∧ (buildDir force top t fs).1 q = some (.file c) ∧ (fs q = none ∨ force = true)) ∨
    (fs q = none ∧ (buildDir force top t fs).1 q = some .dir ∧ ∃ p, (t.Folder p ∧ q <+: top ++ p) ∨ ∃ c, t.Leaf p c ∧ q <+: (top ++ p).dropLast) := by
  have gen : ∀ (top : List Nat) (fs : FileSys), Allowed force top t fs (buildDir force top t fs).1 := by
    induction t with
    | nil => intro top fs; exact Allowed.refl
    | file a k c r ih =>
      intro top fs
      unfold buildDir
      split
      · exact Allowed.refl
      · split
        · exact Allowed.refl
        · have hw := (writeFile_spec force fs (top ++ k) c).1
          split
          · rename_i fs' e he
            rw [he] at hw
            exact Allowed.write hw
          · rename_i fs' he
            rw [he] at hw
            exact (Allowed.write hw).trans (ih top fs').file
    | dir a k s r ihs ihr =>
      intro top fs
      unfold buildDir
      split
      · exact Allowed.refl
      · split
        · exact Allowed.refl
        · have hw := (enterDir_spec fs (top ++ k)).1
          split
          · rename_i fs' e he
            rw [he] at hw
            exact Allowed.enter hw
          · rename_i fs' he
            rw [he] at hw
            have h2 := ihs (top ++ k) fs'
            split
            · rename_i fs2 e he2
              rw [he2] at h2
              exact (Allowed.enter hw).trans h2.sub
            · rename_i fs2 he2
              rw [he2] at h2
              exact ((Allowed.enter hw).trans h2.sub).trans (ihr top fs2).dir
  intro top fs q hq
  rcases gen top fs q with h | h | h
  · exact absurd h hq
  · exact Or.inl h
  · exact Or.inr h

/-- **C177 (files are kept).** Without `force` everything that was there is as it was, also if there is an exception. -/
theorem C177_kept (t : BTree) (top : List Nat) (fs : FileSys) (q : List Nat) (e : FsEntry) (h : fs q = some e) :
    (buildDir false top t fs).1 q = some e := by
  by_contra hne
  have : (buildDir false top t fs).1 q ≠ fs q := by rw [h]; exact hne
  rcases C177_changes false t top fs q this with ⟨_, _, _, _, _, h1 | h1⟩ | ⟨h1, _⟩
  · rw [h] at h1; cases h1
  · cases h1
  · rw [h] at h1; cases h1

/-- A file or directory stays one, whatever is built later. -/
theorem build_stays (force : Bool) (t : BTree) (top : List Nat) (fs : FileSys) (q : List Nat) (h : fs q ≠ none) :
    (buildDir force top t fs).1 q ≠ none := by
  intro h0
  rcases C177_changes force t top fs q (by rw [h0]; exact fun h' => h h'.symm) with ⟨_, _, _, _, h1, _⟩ | ⟨h1, _⟩
  · rw [h0] at h1; cases h1
  · exact h h1

theorem build_dir_or_file (force : Bool) (t : BTree) (top : List Nat) (fs : FileSys) (q : List Nat) (c : Nat) (h : fs q = some (.file c)) :
    (buildDir force top t fs).1 q = some (.file c) ∨ ∃ p d, q = top ++ p ∧ t.Leaf p d ∧ (buildDir force top t fs).1 q = some (.file d) := by
  by_cases hq : (buildDir force top t fs).1 q = fs q
  · exact Or.inl (hq.trans h)
  · rcases C177_changes force t top fs q hq with ⟨p, d, e, hl, h1, _⟩ | ⟨h1, _⟩
    · exact Or.inr ⟨p, d, e, hl, h1⟩
    · rw [h] at h1; cases h1

/-- **C177 (it is built).** If there is no exception all keys are relative, every file of the dict is there, and with `force` or if nothing was
there it has a content that the dict gives to it. -/
theorem C177_built (force : Bool) (t : BTree) : ∀ (top : List Nat) (fs : FileSys), (buildDir force top t fs).2 = none →
    t.Relative ∧ ∀ p c, t.Leaf p c → (buildDir force top t fs).1 (top ++ p) ≠ none ∧
      (force = true → ∃ d, t.Leaf p d ∧ (buildDir force top t fs).1 (top ++ p) = some (.file d)) := by
  induction t with
  | nil =>
    intro top fs _
    exact ⟨trivial, fun p c h => by cases h⟩
  | file a k c r ih =>
    intro top fs h
    unfold buildDir at h ⊢
    by_cases h1 : fs top ≠ some .dir
    · rw [if_pos h1] at h; cases h
    rw [if_neg h1] at h ⊢
    cases a with
    | true => simp at h
    | false =>
      simp only [Bool.false_eq_true, if_false] at h ⊢
      have hw := (writeFile_spec force fs (top ++ k) c).2
      cases he : writeFile force fs (top ++ k) c with
      | mk fs' e' =>
        cases e' with
        | some e => rw [he] at h; cases h
        | none =>
          rw [he] at h hw
          dsimp only at h hw ⊢
          obtain ⟨i1, i2⟩ := ih top fs' h
          refine ⟨⟨rfl, i1⟩, fun p d hl => ?_⟩
          have hin : fs' (top ++ k) ≠ none := by
            rcases hw rfl with ⟨g1, _, g2⟩ | g
            · rw [g2]; exact g1
            · rw [g]; simp
          cases hl with
          | here =>
            refine ⟨build_stays force r top fs' _ hin, fun hf => ?_⟩
            rcases hw rfl with ⟨_, g1, _⟩ | g
            · rw [hf] at g1; cases g1
            · rcases build_dir_or_file force r top fs' _ c g with g2 | ⟨p', d, e, hl, g2⟩
              · exact ⟨c, .here, g2⟩
              · have := List.append_cancel_left e
                subst this
                exact ⟨d, .file hl, g2⟩
          | file hl =>
            obtain ⟨j1, j2⟩ := i2 p d hl
            refine ⟨j1, fun hf => ?_⟩
            obtain ⟨d', q1, q2⟩ := j2 hf
            exact ⟨d', .file q1, q2⟩
  | dir a k s r ihs ihr =>
    intro top fs h
    unfold buildDir at h ⊢
    by_cases h1 : fs top ≠ some .dir
    · rw [if_pos h1] at h; cases h
    rw [if_neg h1] at h ⊢
    cases a with
    | true => simp at h
    | false =>
      simp only [Bool.false_eq_true, if_false] at h ⊢
      cases he : enterDir fs (top ++ k) with
      | mk fs' e' =>
        cases e' with
        | some e => rw [he] at h; cases h
        | none =>
          rw [he] at h
          dsimp only at h ⊢
          cases he2 : buildDir force (top ++ k) s fs' with
          | mk fs2 e2 =>
            cases e2 with
            | some e => rw [he2] at h; cases h
            | none =>
              rw [he2] at h
              dsimp only at h ⊢
              have hs := ihs (top ++ k) fs' (by rw [he2])
              rw [he2] at hs
              obtain ⟨s1, s2⟩ := hs
              obtain ⟨i1, i2⟩ := ihr top fs2 h
              refine ⟨⟨rfl, s1, i1⟩, fun p d hl => ?_⟩
              cases hl with
              | dir hl =>
                obtain ⟨j1, j2⟩ := i2 p d hl
                refine ⟨j1, fun hf => ?_⟩
                obtain ⟨d', q1, q2⟩ := j2 hf
                exact ⟨d', .dir q1, q2⟩
              | sub hl =>
                rename_i p
                obtain ⟨j1, j2⟩ := s2 p d hl
                rw [List.append_assoc] at j1 j2
                refine ⟨build_stays force r top fs2 _ j1, fun hf => ?_⟩
                obtain ⟨d', q1, q2⟩ := j2 hf
                rcases build_dir_or_file force r top fs2 _ d' q2 with g2 | ⟨p', d2, e, hl2, g2⟩
                · exact ⟨d', .sub q1, g2⟩
                · have := List.append_cancel_left e
                  subst this
                  exact ⟨d2, .dir hl2, g2⟩

/-- **C177 (contents).** If there is no exception and the dict gives a path one content, and neither a directory there nor anything below it, the
file has this content, if nothing was there or with `force`. -/
theorem C177_contents (force : Bool) (t : BTree) (top : List Nat) (fs : FileSys) (h : (buildDir force top t fs).2 = none)
    (p : List Nat) (c : Nat) (hp : p ≠ []) (hl : t.Leaf p c) (hu : ∀ d, t.Leaf p d → d = c)
    (hf : ∀ q, t.Folder q → ¬ p <+: q) (hb : ∀ q d, t.Leaf q d → p <+: q → q = p) (hnew : fs (top ++ p) = none ∨ force = true) :
    (buildDir force top t fs).1 (top ++ p) = some (.file c) := by
  obtain ⟨_, h2⟩ := C177_built force t top fs h
  obtain ⟨h3, h4⟩ := h2 p c hl
  rcases hnew with hn | hfo
  · have hne : (buildDir force top t fs).1 (top ++ p) ≠ fs (top ++ p) := by rw [hn]; exact h3
    rcases C177_changes force t top fs _ hne with ⟨p', d, e, hl', h5, _⟩ | ⟨_, _, p', ⟨h6, h7⟩ | ⟨d, h6, h7⟩⟩
    · have := List.append_cancel_left e
      subst this
      rw [h5, hu d hl']
    · exact absurd ((List.prefix_append_right_inj top).1 h7) (hf p' h6)
    · have h8 := h7.trans (List.dropLast_prefix _)
      have h9 := hb p' d h6 ((List.prefix_append_right_inj top).1 h8)
      subst h9
      have h10 := h7.length_le
      have : (top ++ p').length ≠ 0 := by
        simp [hp]
      rw [List.length_dropLast] at h10
      omega
  · obtain ⟨d, hd, h5⟩ := h4 hfo
    rw [h5, hu d hd]

/-! ## Concrete cases -/

/-- `{1: {2: content 7}, 3: content 8}`. -/
def buildEx : BTree := .dir false [1] (.file false [2] 7 .nil) (.file false [3] 8 .nil)

/-- Only the directory `9` and, in it, the file `3` with content 5. -/
def fsEx : FileSys := fun q => if q = [] ∨ q = [9] then some .dir else if q = [9, 3] then some (.file 5) else none

/-- Without `force` the file `9/3` is kept, with `force` it is overwritten; the other file is written in both cases. -/
example : (buildDir false [9] buildEx fsEx).2 = none ∧ (buildDir false [9] buildEx fsEx).1 [9, 1, 2] = some (.file 7) ∧
    (buildDir false [9] buildEx fsEx).1 [9, 3] = some (.file 5) ∧ (buildDir true [9] buildEx fsEx).1 [9, 3] = some (.file 8) ∧
    (buildDir false [9] buildEx fsEx).1 [9, 1] = some .dir := by decide

/-- The hypotheses of `C177_contents` hold of the file `1/2`. -/
example : buildEx.Leaf [1, 2] 7 ∧ (∀ d, buildEx.Leaf [1, 2] d → d = 7) ∧ (∀ q, buildEx.Folder q → ¬ [1, 2] <+: q) ∧
    (∀ q d, buildEx.Leaf q d → [1, 2] <+: q → q = [1, 2]) ∧ fsEx ([9] ++ [1, 2]) = none := by
  have hleaf : ∀ q d, buildEx.Leaf q d → (q = [1, 2] ∧ d = 7) ∨ (q = [3] ∧ d = 8) := by
    intro q d h
    cases h with
    | sub h =>
      cases h with
      | here => exact Or.inl ⟨rfl, rfl⟩
      | file h => cases h
    | dir h =>
      cases h with
      | here => exact Or.inr ⟨rfl, rfl⟩
      | file h => cases h
  have hfold : ∀ q, buildEx.Folder q → q = [1] := by
    intro q h
    cases h with
    | here => rfl
    | sub h => cases h with | file h => cases h
    | dir h => cases h with | file h => cases h
  refine ⟨.sub .here, fun d h => ?_, fun q h => ?_, fun q d h hp => ?_, by decide⟩
  · rcases hleaf _ d h with ⟨_, h⟩ | ⟨h, _⟩
    · exact h
    · cases h
  · rw [hfold q h]; decide
  · rcases hleaf q d h with ⟨h, _⟩ | ⟨h, _⟩
    · exact h
    · rw [h] at hp; exact absurd hp (by decide)

/-- An absolute key is refused; what stands before it in the order of the dict is built. -/
example : (buildDir false [9] (.file false [4] 1 (.file true [5] 2 (.file false [6] 3 .nil))) fsEx).2 = some .RuntimeError ∧
    (buildDir false [9] (.file false [4] 1 (.file true [5] 2 (.file false [6] 3 .nil))) fsEx).1 [9, 4] = some (.file 1) ∧
    (buildDir false [9] (.file false [4] 1 (.file true [5] 2 (.file false [6] 3 .nil))) fsEx).1 [9, 6] = none := by decide

/-- A file where the dict asks for a directory. -/
example : (buildDir true [9] (.dir false [3] .nil .nil) fsEx).2 = some .OSError := by decide

end OpenMDAO
