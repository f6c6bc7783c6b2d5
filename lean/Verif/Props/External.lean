import Verif.Spec.External
import Mathlib.Algebra.Order.Floor.Ring
import Mathlib.Algebra.Order.Ring.Rat
import Mathlib.Data.Rat.Floor
import Mathlib.Data.List.Nodup
import Mathlib.Tactic.Linarith
import Mathlib.Tactic.NormNum
import Mathlib.Tactic.Ring
import Mathlib.Tactic.FieldSimp
/-! C106 to C110: file variables, external codes, waiting for a command, file searches. -/
namespace OpenMDAO
set_option linter.unusedSectionVars false

/-! ## C106: passing a file variable -/

theorem universalNl_id : ∀ (c : List Char), '\r' ∉ c → universalNl c = c := by
  intro c
  induction c using universalNl.induct with
  | case1 => intro _; rfl
  | case2 r ih => intro h; simp at h
  | case3 c r hx ih =>
    intro h
    simp only [List.mem_cons, not_or] at h
    have hc : c ≠ '\r' := fun e => h.1 e.symm
    rw [universalNl]
    · rw [ih h.2, if_neg hc]
    · exact hx

/-- C106 (partial). After data passing the target file has the contents of the source, which is unchanged, as are all other files, provided the two variables refer to different files, or to one file by the same path; text files must have no carriage
returns when read by python 3. Missing: the same file under two names, and other text files, see the refutations. -/
theorem C106_copied_partial {py3 : Bool} {D D' : Disk} {tgt src : FileRef} (h : tgt.assignTo py3 D (some src) = (D', none)) (hfile : D.real tgt.abspath ≠ D.real src.abspath ∨ tgt.abspath = src.abspath)
    (htext : py3 = false ∨ src.binary = some true ∨ ∀ c, D.contents src = some c → '\r' ∉ c) :
    D'.real = D.real ∧ D'.contents tgt = D.contents src ∧ D'.contents src = D.contents src ∧ (tgt.abspath ≠ src.abspath → (D.contents src).isSome) ∧ ∀ p, p ≠ D.real tgt.abspath → D'.data p = D.data p := by
  unfold FileRef.assignTo at h
  cases hv : tgt.validate (some src) with
  | error e => rw [hv] at h; simp at h
  | ok s' =>
    have hs : s' = src := by
      unfold FileRef.validate at hv
      simp only at hv
      split at hv
      · simp at hv
      · simpa using hv.symm
    subst hs
    rw [hv] at h
    simp only at h
    by_cases heq : tgt.abspath = s'.abspath
    · rw [if_pos heq] at h
      simp only [Prod.mk.injEq, and_true] at h
      subst h
      refine ⟨rfl, ?_, rfl, fun hne => absurd heq hne, fun _ _ => rfl⟩
      simp only [Disk.contents, heq]
    · rw [if_neg heq] at h
      have hne := hfile.resolve_right heq
      unfold copyFile at h
      simp only at h
      split at h
      · simp at h
      · rename_i hr
        split at h
        · simp at h
        · simp only [Prod.mk.injEq, and_true] at h
          simp only [Bool.or_eq_true, not_or] at hr
          obtain ⟨c, hc⟩ : ∃ c, D.data (D.real s'.abspath) = some c := by
            cases hc : D.data (D.real s'.abspath) with
            | none => rw [hc] at hr; simp at hr
            | some c => exact ⟨c, rfl⟩
          have hread : readAs py3 s'.binary c = c := by
            unfold readAs
            rcases htext with h1 | h1 | h1
            · simp [h1]
            · simp [h1, boolMeta]
            · split
              · exact universalNl_id c (h1 c hc)
              · rfl
          rw [← h]
          refine ⟨rfl, ?_, ?_, fun _ => by simp [Disk.contents, hc], ?_⟩
          · simp [Disk.contents, Function.update_of_ne (Ne.symm hne), hc, hread]
          · simp [Disk.contents, Function.update_of_ne (Ne.symm hne)]
          · intro p hp
            simp [Function.update_of_ne hp]

/-- C106. Two variables for one file, under different paths: data passing empties the file. -/
theorem C106_alias_loses {py3 : Bool} {D : Disk} {tgt src : FileRef} (hb : tgt.binary = src.binary) (hne : tgt.abspath ≠ src.abspath) (hsame : D.real tgt.abspath = D.real src.abspath)
    (hex : (D.contents src).isSome) (hr : D.canRead (D.real src.abspath) = true) (hw : D.canWrite (D.real src.abspath) = true) :
    (tgt.assignTo py3 D (some src)).2 = none ∧ (tgt.assignTo py3 D (some src)).1.contents src = some [] := by
  have hv : tgt.validate (some src) = .ok src := by simp [FileRef.validate, hb]
  have hnn : (D.data (D.real src.abspath)).isNone = false := by
    unfold Disk.contents at hex
    cases h : D.data (D.real src.abspath) <;> simp [h] at hex ⊢
  unfold FileRef.assignTo
  rw [hv]
  simp only [if_neg hne]
  unfold copyFile
  simp only [hsame, hnn, hr, hw, Bool.not_true, Bool.or_self, Bool.false_eq_true, if_false]
  refine ⟨trivial, ?_⟩
  simp [Disk.contents, readAs, universalNl]

/-- A disk with one file, `/w/x`, that is also reached as `/w/./x`. -/
def aliasDisk (c : List Char) : Disk where
  real p := if p = "/w/./x".toList then "/w/x".toList else p
  data p := if p = "/w/x".toList then some c else none
  canRead _ := true
  canWrite _ := true

/-- C106 is false of the code: the path strings are compared, not the files, and copying a file onto itself loses its contents. -/
theorem C106_alias_refuted : ∃ (D : Disk) (tgt src : FileRef), D.contents src = some "data".toList ∧ (tgt.assignTo true D (some src)).2 = none ∧ (tgt.assignTo true D (some src)).1.contents tgt ≠ D.contents src ∧
    (tgt.assignTo true D (some src)).1.contents src = some [] := by
  refine ⟨aliasDisk "data".toList, ⟨"./x".toList, "/w".toList, none⟩, ⟨"x".toList, "/w".toList, none⟩, by decide +kernel, by decide +kernel, by decide +kernel, by decide +kernel⟩

/-- C106 is false of the code for text files with carriage returns: the copy has other contents. -/
theorem C106_newline_refuted : ∃ (D : Disk) (tgt src : FileRef), D.real tgt.abspath ≠ D.real src.abspath ∧ (tgt.assignTo true D (some src)).2 = none ∧
    (tgt.assignTo true D (some src)).1.contents tgt ≠ (tgt.assignTo true D (some src)).1.contents src := by
  refine ⟨aliasDisk "a\r\nb".toList, ⟨"y".toList, "/w".toList, none⟩, ⟨"x".toList, "/w".toList, none⟩, by decide +kernel, by decide +kernel, by decide +kernel⟩

/-- C106. Data passing raises `TypeError` exactly for sources that are not file variables, `ValueError` exactly when one file is binary and the other is not; whatever is raised, no file has changed. -/
theorem C106_refused (py3 : Bool) (D : Disk) (tgt : FileRef) (src : Option FileRef) :
    ((tgt.assignTo py3 D src).2 = some .TypeError ↔ src = none) ∧
    ((tgt.assignTo py3 D src).2 = some .ValueError ↔ ∃ s, src = some s ∧ (tgt.binary = some true ↔ s.binary ≠ some true)) ∧
    ∀ e, (tgt.assignTo py3 D src).2 = some e → (tgt.assignTo py3 D src).1 = D := by
  have hcopy : ∀ s, (copyFile py3 D tgt s).2 = none ∨ (copyFile py3 D tgt s).2 = some .IOError ∧ (copyFile py3 D tgt s).1 = D := by
    intro s
    unfold copyFile
    simp only
    split
    · exact Or.inr ⟨rfl, rfl⟩
    · split
      · exact Or.inr ⟨rfl, rfl⟩
      · exact Or.inl rfl
  cases src with
  | none => simp [FileRef.assignTo, FileRef.validate]
  | some s =>
    by_cases hb : (tgt.binary = some true ↔ s.binary ≠ some true)
    · have hv : tgt.validate (some s) = .error .ValueError := by
        unfold FileRef.validate
        simp only
        rw [if_pos]
        rcases ht : tgt.binary with _ | _ | _ <;> rcases hs : s.binary with _ | _ | _ <;> simp_all [boolMeta]
      simp [FileRef.assignTo, hv, hb]
    · have hv : tgt.validate (some s) = .ok s := by
        unfold FileRef.validate
        simp only
        rw [if_neg]
        rcases ht : tgt.binary with _ | _ | _ <;> rcases hs : s.binary with _ | _ | _ <;> simp_all [boolMeta]
      unfold FileRef.assignTo
      rw [hv]
      simp only
      by_cases heq : tgt.abspath = s.abspath
      · simp [heq, hb]
      · simp only [heq, if_false]
        rcases hcopy s with h | ⟨h1, h2⟩
        · simp [h, hb]
        · simp [h1, h2, hb]

example : let tgt : FileRef := ⟨"y".toList, "/w/".toList, none⟩
    let src : FileRef := ⟨"/w/x".toList, [], some false⟩
    let D := aliasDisk "data".toList
    D.real tgt.abspath ≠ D.real src.abspath ∧ (tgt.assignTo true D (some src)).2 = none ∧ (tgt.assignTo true D (some src)).1.contents tgt = some "data".toList := by decide +kernel

/-! ## C107: external codes -/

theorem missingFiles_nil {S : Type} (O : ExtOps S) (files : List String) (s : S) : missingFiles O files s = [] ↔ O.AllExist files s := by
  simp [missingFiles, ExtOps.AllExist]

/-- C107. The component runs without error exactly when there is a command whose program is found, the input files exist, the program ends in time with code 0, and the output files exist then. `return_code` is 0. -/
theorem C107_returns_iff {S : Type} (O : ExtOps S) (o : ExtOpts) (s s' : S) (rc : Int) : extSolve O o s = (s', rc, none) ↔
    (∃ prog args, o.command = prog :: args ∧ O.found prog s = true) ∧ O.AllExist o.inputs s ∧ O.exec o.command s = (s', .code 0) ∧ O.AllExist o.outputs s' ∧ rc = 0 := by
  rw [← missingFiles_nil, ← missingFiles_nil]
  unfold extSolve
  cases hc : o.command with
  | nil => simp
  | cons prog args =>
    simp only
    unfold extBody
    rw [hc]
    by_cases hi : missingFiles O o.inputs s = []
    · by_cases hf : O.found prog s = true
      · rcases he : O.exec (prog :: args) s with ⟨s1, r⟩
        cases r with
        | raised e => simp [hi, hf, extAfter]
        | timedOut => simp [hi, hf, extAfter]
        | code n =>
          by_cases hn : n = 0
          · subst hn
            by_cases ho : missingFiles O o.outputs s1 = []
            · simp only [hi, ne_eq, not_true_eq_false, if_false, hf, Bool.not_true, Bool.false_eq_true, extAfter, ho, Option.getD_some, Prod.mk.injEq, and_true, List.cons.injEq]
              constructor
              · rintro ⟨rfl, rfl⟩
                exact ⟨⟨prog, args, ⟨rfl, rfl⟩, hf⟩, trivial, rfl, ho, rfl⟩
              · rintro ⟨_, _, h1, _, h2⟩
                exact ⟨h1, h2.symm⟩
            · simp only [hi, ne_eq, not_true_eq_false, if_false, hf, Bool.not_true, Bool.false_eq_true, extAfter, ho, not_false_eq_true, if_true, Prod.mk.injEq, and_false, reduceCtorEq, false_iff]
              rintro ⟨_, _, ⟨h1, _⟩, h2, _⟩
              rw [h1] at ho
              exact ho h2
          · simp [hi, hf, extAfter, hn]
      · simp [hi, hf]
    · simp [hi]

/-- C107. Errors: an empty command or a program that is not found gives `ValueError`, running out of time `AnalysisError`, and missing files or a non-zero exit code give `RuntimeError`, or `AnalysisError` if `fail_hard` is off.
`return_code` is the exit code if the program ended; otherwise it is -999999, or -12345678 for an empty command. The program is not started if it is not found or an input is missing. -/
theorem C107_errors {S : Type} (O : ExtOps S) (o : ExtOpts) (s : S) :
    (o.command = [] → extSolve O o s = (s, -12345678, some .ValueError)) ∧
    ∀ prog args, o.command = prog :: args →
      (¬ O.AllExist o.inputs s → extSolve O o s = (s, -999999, some (failClass o.failHard))) ∧
      (O.AllExist o.inputs s → O.found prog s = false → extSolve O o s = (s, -999999, some .ValueError)) ∧
      (O.AllExist o.inputs s → O.found prog s = true → ∀ s' r, O.exec o.command s = (s', r) →
        (r = .timedOut → extSolve O o s = (s', -999999, some .AnalysisError)) ∧
        (∀ e, r = .raised e → extSolve O o s = (s', -999999, some e)) ∧
        (∀ n, r = .code n → n ≠ 0 → extSolve O o s = (s', n, some (failClass o.failHard))) ∧
        (r = .code 0 → ¬ O.AllExist o.outputs s' → extSolve O o s = (s', 0, some (failClass o.failHard)))) := by
  refine ⟨fun h => by simp [extSolve, h], ?_⟩
  intro prog args hc
  have hcls : o.errClass = failClass o.failHard := rfl
  refine ⟨?_, ?_, ?_⟩
  · intro hi
    rw [← missingFiles_nil] at hi
    simp [extSolve, hc, extBody, hi, hcls]
  · intro hi hf
    rw [← missingFiles_nil] at hi
    simp [extSolve, hc, extBody, hi, hf]
  · intro hi hf s' r he
    rw [← missingFiles_nil] at hi
    rw [hc] at he
    refine ⟨?_, ?_, ?_, ?_⟩
    · rintro rfl
      simp [extSolve, hc, extBody, hi, hf, he, extAfter]
    · rintro e rfl
      simp [extSolve, hc, extBody, hi, hf, he, extAfter]
    · rintro n rfl hn
      simp [extSolve, hc, extBody, hi, hf, he, extAfter, hn, hcls]
    · rintro rfl ho
      rw [← missingFiles_nil] at ho
      simp [extSolve, hc, extBody, hi, hf, he, extAfter, ho, hcls]

/-- C107 (partial). If no output file existed before, every one has been created by this run when the component returns. Missing: output files left by an earlier run, see `C107_stale_refuted`. -/
theorem C107_outputs_new_partial {S : Type} {O : ExtOps S} {o : ExtOpts} {s s' : S} {rc : Int} (h : extSolve O o s = (s', rc, none)) (hnew : ∀ f ∈ o.outputs, O.fileExists f s = false) :
    ∃ t, O.exec o.command s = (t, .code 0) ∧ ∀ f ∈ o.outputs, O.fileExists f s = false ∧ O.fileExists f t = true := by
  obtain ⟨_, _, h1, h2, _⟩ := (C107_returns_iff O o s s' rc).mp h
  exact ⟨s', h1, fun f hf => ⟨hnew f hf, h2 f hf⟩⟩

/-- Files are a list of names with contents; the program does nothing. -/
def idleOps : ExtOps (List (String × String)) where
  fileExists f s := (s.lookup f).isSome
  found _ _ := true
  exec _ s := (s, .code 0)

/-- C107 is false of the code as far as the outputs of this run are concerned: a program that writes nothing passes the check if the file is there from an earlier run. -/
theorem C107_stale_refuted : ∃ (o : ExtOpts) (s : List (String × String)), o.outputs ≠ [] ∧ extSolve idleOps o s = (s, 0, none) :=
  ⟨⟨["solver"], [], ["out.dat"], true⟩, [("out.dat", "old")], by decide, by decide⟩

example : extSolve idleOps ⟨["solver"], ["in.dat"], [], false⟩ [] = ([], -999999, some .AnalysisError) := by decide

/-! ## C108: waiting for a command -/

section Wait
variable {K : Type} [Field K] [LinearOrder K] [IsStrictOrderedRing K] [FloorRing K]

theorem pollDelay_pos (pd T : K) : 0 < pollDelay pd T := by
  unfold pollDelay
  split
  · apply lt_min (by norm_num)
    exact lt_of_lt_of_le (by norm_num) (le_max_left _ _)
  · rename_i h; exact not_le.mp h

/-- The loop started at time `t` with `n` polls left gives the first poll at which the command has ended, if there is one within the limit. -/
theorem waitLoop_code {proc : Option (K × Int)} {p T : K} {c : Int} : ∀ (j : Nat) (t : K) (n : Int), (∀ i < j, pollAt proc (t + i * p) = none) → pollAt proc (t + j * p) = some c → (T ≤ 0 ∨ (j : Int) ≤ n) →
    ∀ fuel, j < fuel → waitLoop proc p T fuel t n = some (.code c (t + j * p)) := by
  intro j
  induction j with
  | zero =>
    intro t n _ h _ fuel hf
    obtain ⟨f, rfl⟩ : ∃ f, fuel = f + 1 := ⟨fuel - 1, by omega⟩
    simp only [Nat.cast_zero, zero_mul, add_zero] at h ⊢
    simp [waitLoop, h]
  | succ j ih =>
    intro t n hno h hT fuel hf
    obtain ⟨f, rfl⟩ : ∃ f, fuel = f + 1 := ⟨fuel - 1, by omega⟩
    have h0 : pollAt proc t = none := by simpa using hno 0 (by omega)
    have hcond : ¬ (0 < T ∧ n - 1 < 0) := by
      rintro ⟨h1, h2⟩
      rcases hT with h3 | h3
      · exact absurd h1 (not_lt.mpr h3)
      · push_cast at h3; omega
    simp only [waitLoop, h0, if_neg hcond]
    have e : ∀ i : Nat, t + p + i * p = t + (i + 1 : Nat) * p := by intro i; push_cast; ring
    rw [ih (t + p) (n - 1) (fun i hi => by rw [e]; exact hno (i + 1) (by omega)) (by rw [e]; exact h) (by
      rcases hT with h3 | h3
      · exact Or.inl h3
      · right; push_cast at h3; omega) f (by omega), e]

/-- With a timeout, a command that has not ended at any poll is stopped. -/
theorem waitLoop_timeout {proc : Option (K × Int)} {p T : K} (hT : 0 < T) : ∀ (n : Nat) (t : K), (∀ i ≤ n, pollAt proc (t + i * p) = none) → ∀ fuel, n < fuel → waitLoop proc p T fuel t n = some (.timedOut (t + n * p)) := by
  intro n
  induction n with
  | zero =>
    intro t hno fuel hf
    obtain ⟨f, rfl⟩ : ∃ f, fuel = f + 1 := ⟨fuel - 1, by omega⟩
    have h0 : pollAt proc t = none := by simpa using hno 0 (by omega)
    simp [waitLoop, h0, hT]
  | succ n ih =>
    intro t hno fuel hf
    obtain ⟨f, rfl⟩ : ∃ f, fuel = f + 1 := ⟨fuel - 1, by omega⟩
    have h0 : pollAt proc t = none := by simpa using hno 0 (by omega)
    have hcond : ¬ (0 < T ∧ ((n + 1 : Nat) : Int) - 1 < 0) := by push_cast; omega
    simp only [waitLoop, h0, if_neg hcond]
    have e : ∀ i : Nat, t + p + i * p = t + (i + 1 : Nat) * p := by intro i; push_cast; ring
    have e2 : ((n + 1 : Nat) : Int) - 1 = n := by push_cast; omega
    rw [e2, ih (t + p) (fun i hi => by rw [e]; exact hno (i + 1) (by omega)) f (by omega), e]

/-- The number of polls before giving up. -/
theorem polls_nat {p T : K} (hp : 0 < p) (hT : 0 ≤ T) : ∃ n : Nat, ⌊T / p⌋ + 1 = n ∧ T < n * p ∧ n * p ≤ T + p := by
  have h0 : 0 ≤ ⌊T / p⌋ := Int.floor_nonneg.mpr (div_nonneg hT hp.le)
  obtain ⟨m, hm⟩ := Int.eq_ofNat_of_zero_le h0
  refine ⟨m + 1, by rw [hm]; push_cast; rfl, ?_, ?_⟩
  · have := Int.lt_floor_add_one (T / p)
    rw [hm, div_lt_iff₀ hp] at this
    push_cast at this ⊢
    exact this
  · have := Int.floor_le (T / p)
    rw [hm, le_div_iff₀ hp] at this
    push_cast at this ⊢
    linarith

/-- The first poll at or after `d`. -/
theorem first_poll {p : K} (hp : 0 < p) {d : K} : ∃ j : Nat, d ≤ p + j * p ∧ (∀ i < j, p + i * p < d) ∧ (d ≤ p + 0 * p → j = 0) ∧ (¬ d ≤ p → p + j * p < d + p) := by
  by_cases hd : d ≤ p
  · exact ⟨0, by simpa using hd, fun i hi => absurd hi (by omega), fun _ => rfl, fun h => absurd hd h⟩
  · push Not at hd
    have hq : 0 < d / p - 1 := by
      rw [sub_pos, lt_div_iff₀ hp]
      simpa using hd
    have h0 : 0 < ⌈d / p - 1⌉ := Int.ceil_pos.mpr hq
    obtain ⟨j, hj⟩ := Int.eq_ofNat_of_zero_le h0.le
    have hle := Int.le_ceil (d / p - 1)
    have hlt := Int.ceil_lt_add_one (d / p - 1)
    rw [hj] at hle hlt
    have a1 : d ≤ p + j * p := by
      have : d / p ≤ (j : K) + 1 := by push_cast at hle; linarith
      rw [div_le_iff₀ hp] at this
      linarith
    have a2 : p + j * p < d + p := by
      have : (j : K) < d / p := by push_cast at hlt; linarith
      rw [lt_div_iff₀ hp] at this
      linarith
    refine ⟨j, a1, ?_, fun h => ?_, fun _ => a2⟩
    · intro i hi
      have : (i : K) + 1 ≤ j := by exact_mod_cast hi
      have := mul_le_mul_of_nonneg_right this hp.le
      linarith
    · exfalso; simp at h; exact absurd h (not_le.mpr hd)

/-- C108. A command that ends within the timeout, or at any time when there is none, is never stopped: its exit code is returned, at most one poll delay after it ended. -/
theorem C108_finished (pd : K) {T d : K} (c : Int) (hd : 0 ≤ d) (hT : 0 ≤ T) (h : T = 0 ∨ d ≤ T) : ∃ fuel0 t, d ≤ t ∧ t ≤ d + pollDelay pd T ∧ ∀ fuel ≥ fuel0, shellWait (some (d, c)) pd T fuel = some (.code c t) := by
  have hp := pollDelay_pos pd T
  set p := pollDelay pd T with hpdef
  obtain ⟨j, h1, h2, h3, h4⟩ := first_poll hp (d := d)
  refine ⟨j + 1, p + j * p, h1, ?_, ?_⟩
  · by_cases hdp : d ≤ p
    · rw [h3 (by simpa using hdp)]; simp [hd]
    · exact (h4 hdp).le
  · intro fuel hf
    unfold shellWait
    simp only
    rw [← hpdef]
    obtain ⟨n, hn, hn1, hn2⟩ := polls_nat hp hT
    rw [hn]
    apply waitLoop_code j p n
    · intro i hi
      simp [pollAt, not_le.mpr (h2 i hi)]
    · simp [pollAt, h1]
    · rcases h with h | h
      · left; rw [h]
      · right
        by_contra hlt
        push Not at hlt
        have hlt' : n < j := by exact_mod_cast hlt
        have := h2 n hlt'
        linarith
    · omega

/-- C108. With a timeout, waiting ends at the latest two poll delays after it, whatever the command does; and a command that has not ended then is reported as timed out, but never before the timeout. -/
theorem C108_stopped (pd : K) {T : K} (hT : 0 < T) (proc : Option (K × Int)) : ∃ fuel0, ∀ fuel ≥ fuel0,
    (∃ c t, shellWait proc pd T fuel = some (.code c t) ∧ t ≤ T + 2 * pollDelay pd T ∧ ∃ d, proc = some (d, c) ∧ d ≤ t) ∨
    ∃ t, shellWait proc pd T fuel = some (.timedOut t) ∧ T < t ∧ t ≤ T + 2 * pollDelay pd T ∧ ∀ d c, proc = some (d, c) → T < d := by
  have hp := pollDelay_pos pd T
  set p := pollDelay pd T with hpdef
  obtain ⟨n, hn, hn1, hn2⟩ := polls_nat hp hT.le
  have hno : (∀ i ≤ n, pollAt proc (p + i * p) = none) → ∀ fuel ≥ n + 1, shellWait proc pd T fuel = some (.timedOut (p + n * p)) := by
    intro h fuel hf
    unfold shellWait
    simp only
    rw [← hpdef, hn]
    exact waitLoop_timeout hT n p h fuel (by omega)
  by_cases hall : ∀ i ≤ n, pollAt proc (p + i * p) = none
  · refine ⟨n + 1, fun fuel hf => Or.inr ⟨p + n * p, hno hall fuel hf, by linarith, by linarith, ?_⟩⟩
    rintro d c rfl
    have := hall n le_rfl
    simp only [pollAt] at this
    split at this
    · simp at this
    · linarith
  · cases proc with
    | none => exact absurd (fun i _ => rfl) hall
    | some dc =>
      obtain ⟨d, c⟩ := dc
      obtain ⟨j, h1, h2, h3, h4⟩ := first_poll hp (d := d)
      push Not at hall
      obtain ⟨i, hi, hpi⟩ := hall
      have hdi : d ≤ p + i * p := by
        by_contra hlt
        simp [pollAt, hlt] at hpi
      have hji : j ≤ i := by
        by_contra hlt
        push Not at hlt
        exact absurd (h2 i hlt) (not_lt.mpr hdi)
      refine ⟨j + 1, fun fuel hf => Or.inl ⟨c, p + j * p, ?_, ?_, d, rfl, h1⟩⟩
      · unfold shellWait
        simp only
        rw [← hpdef, hn]
        apply waitLoop_code j p n
        · intro k hk
          simp [pollAt, not_le.mpr (h2 k hk)]
        · simp [pollAt, h1]
        · right; exact_mod_cast hji.trans hi
        · omega
      · have : (j : K) ≤ n := by exact_mod_cast hji.trans hi
        have := mul_le_mul_of_nonneg_right this hp.le
        linarith

/-- C108. Without a timeout a command that never ends is waited for for ever. -/
theorem C108_forever (pd : K) : ∀ fuel, shellWait (none : Option (K × Int)) pd 0 fuel = none := by
  intro fuel
  unfold shellWait
  simp only
  generalize pollDelay pd (0 : K) = p
  have : ∀ (f : Nat) (t : K) (n : Int), waitLoop none p 0 f t n = none := by
    intro f
    induction f with
    | zero => intro t n; rfl
    | succ f ih => intro t n; simp [waitLoop, pollAt, ih]
  exact this _ _ _

/-- C108. The default poll delay is a hundredth of the timeout, but at least a tenth of a second and at most ten seconds. -/
theorem C108_default_delay (T : K) : (T ≤ 10 → pollDelay 0 T = 1 / 10) ∧ (10 ≤ T → T ≤ 1000 → pollDelay 0 T = T / 100) ∧ (1000 ≤ T → pollDelay 0 T = 10) ∧ ∀ pd > 0, pollDelay pd T = pd := by
  refine ⟨fun h => ?_, fun h1 h2 => ?_, fun h => ?_, fun pd h => ?_⟩
  · have : T / 100 ≤ 1 / 10 := by rw [div_le_iff₀ (by norm_num)]; norm_num; exact h
    simp only [pollDelay, le_refl, if_true, max_eq_left this]
    exact min_eq_right (by norm_num)
  · have a : 1 / 10 ≤ T / 100 := by rw [le_div_iff₀ (by norm_num)]; norm_num; exact h1
    have b : T / 100 ≤ 10 := by rw [div_le_iff₀ (by norm_num)]; norm_num; exact h2
    simp only [pollDelay, le_refl, if_true, max_eq_right a, min_eq_right b]
  · have a : (10 : K) ≤ T / 100 := by rw [le_div_iff₀ (by norm_num)]; norm_num; exact h
    simp only [pollDelay, le_refl, if_true]
    exact min_eq_left (a.trans (le_max_right _ _))
  · simp [pollDelay, not_le.mpr h]

end Wait

/-- The timeout is not a maximum (the documentation says "Maximum time to wait"): a command that takes three seconds is not stopped by a timeout of one second with a poll delay of one second. -/
theorem finding_C108_timeout_exceeded : shellWait (some ((3 : ℚ), 0)) 1 1 5 = some (.code 0 3) := by decide +kernel

example : shellWait (none : Option (ℚ × Int)) 1 1 5 = some (.timedOut 3) := by decide +kernel
example : shellWait (some ((1 / 2 : ℚ), 7)) 0 1 20 = some (.code 7 (1 / 2)) := by decide +kernel

/-! ## C109: find_files -/

theorem accepts_iff (m x : Option (String → Bool)) (n : String) (hn : n ≠ "") : nameFilter m x n = true ↔ Accepts m x n := by
  unfold nameFilter Accepts
  cases m <;> cases x <;> simp [hn]

mutual
theorem mem_walkTree (fm dm : String → Bool) : ∀ (t : FTree) (pre q : List String) (f : String), (q, f) ∈ walkTree fm dm pre t ↔ ∃ p, q = pre ++ p ∧ t.Has p f ∧ fm f = true ∧ ∀ d ∈ p, dm d = true
  | .mk files dirs, pre, q, f => by
    rw [walkTree, List.mem_append, mem_walkDirs fm dm dirs pre q f]
    simp only [List.mem_map, List.mem_filter, Prod.mk.injEq]
    constructor
    · rintro (⟨g, ⟨h1, h2⟩, rfl, rfl⟩ | ⟨d, t, p, rfl, h1, h2, h3, h4, h5⟩)
      · exact ⟨[], by simp, .here h1, h2, by simp⟩
      · refine ⟨d :: p, by simp, .sub h1 h2, h3, ?_⟩
        intro e he
        rcases List.mem_cons.mp he with rfl | he
        · exact h4
        · exact h5 e he
    · rintro ⟨p, rfl, hh, h1, h2⟩
      cases hh with
      | here h => exact Or.inl ⟨f, ⟨h, h1⟩, by simp, rfl⟩
      | sub h3 h4 => exact Or.inr ⟨_, _, _, rfl, h3, h4, h1, h2 _ List.mem_cons_self, fun e he => h2 e (List.mem_cons_of_mem _ he)⟩
theorem mem_walkDirs (fm dm : String → Bool) : ∀ (l : List (String × FTree)) (pre q : List String) (f : String), (q, f) ∈ walkDirs fm dm pre l ↔
    ∃ d t p, q = pre ++ d :: p ∧ (d, t) ∈ l ∧ t.Has p f ∧ fm f = true ∧ dm d = true ∧ ∀ e ∈ p, dm e = true
  | [], pre, q, f => by simp [walkDirs]
  | (d, t) :: rest, pre, q, f => by
    rw [walkDirs, List.mem_append, mem_walkDirs fm dm rest pre q f]
    have hm := mem_walkTree fm dm t (pre ++ [d]) q f
    constructor
    · rintro (h | ⟨d', t', p, h1, h2, h3⟩)
      · by_cases hd : dm d = true
        · rw [if_pos hd, hm] at h
          obtain ⟨p, h1, h2, h3, h4⟩ := h
          exact ⟨d, t, p, by simpa using h1, List.mem_cons_self, h2, h3, hd, h4⟩
        · rw [if_neg hd] at h; simp at h
      · exact ⟨d', t', p, h1, List.mem_cons_of_mem _ h2, h3⟩
    · rintro ⟨d', t', p, h1, h2, h3, h4, h5, h6⟩
      rcases List.mem_cons.mp h2 with h2 | h2
      · obtain ⟨rfl, rfl⟩ := Prod.mk.inj h2
        left
        rw [if_pos h5, hm]
        exact ⟨p, by simpa using h1, h3, h4, h6⟩
      · exact Or.inr ⟨d', t', p, h1, h2, h3, h4, h5, h6⟩
end

/-- No name of a file or directory in the tree is empty. -/
def FTree.Named (t : FTree) : Prop := ∀ p f, t.Has p f → f ≠ "" ∧ "" ∉ p

/-- C109. `find_files` returns exactly the files below an accepted start directory that have an accepted name and are reached through accepted directories only. -/
theorem C109_found (m x dm dx : Option (String → Bool)) (starts : List (String × Option FTree)) (hs : ∀ e ∈ starts, e.1 ≠ "" ∧ ∀ t, e.2 = some t → t.Named) (q : List String) (f : String) :
    (q, f) ∈ findFiles m x dm dx starts ↔ ∃ start t p, (start, some t) ∈ starts ∧ q = start :: p ∧ t.Has p f ∧ Accepts m x f ∧ Accepts dm dx start ∧ ∀ d ∈ p, Accepts dm dx d := by
  unfold findFiles
  simp only [List.mem_flatMap]
  constructor
  · rintro ⟨⟨start, ot⟩, hmem, hg⟩
    unfold fileGen at hg
    simp only at hg
    split at hg
    · simp at hg
    · rename_i hd
      have hd' : nameFilter dm dx start = true := by simpa using hd
      cases ot with
      | none => simp at hg
      | some t =>
        simp only at hg
        obtain ⟨p, h1, h2, h3, h4⟩ := (mem_walkTree _ _ t [start] q f).mp hg
        obtain ⟨n1, n2⟩ := hs _ hmem
        have hnamed := n2 t rfl p f h2
        exact ⟨start, t, p, hmem, by simpa using h1, h2, (accepts_iff m x f hnamed.1).mp h3, (accepts_iff dm dx start n1).mp hd',
          fun d hdp => (accepts_iff dm dx d (fun e => hnamed.2 (e ▸ hdp))).mp (h4 d hdp)⟩
  · rintro ⟨start, t, p, hmem, rfl, h2, h3, h4, h5⟩
    obtain ⟨n1, n2⟩ := hs _ hmem
    have hnamed := n2 t rfl p f h2
    refine ⟨(start, some t), hmem, ?_⟩
    unfold fileGen
    rw [if_neg (by simpa using (accepts_iff dm dx start n1).mpr h4)]
    exact (mem_walkTree _ _ t [start] (start :: p) f).mpr ⟨p, by simp, h2, (accepts_iff m x f hnamed.1).mpr h3, fun d hdp => (accepts_iff dm dx d (fun e => hnamed.2 (e ▸ hdp))).mpr (h5 d hdp)⟩

/-- Files and directories of a directory have distinct names, and so on below. -/
inductive FTree.Distinct : FTree → Prop where
  | mk {files dirs} : files.Nodup → (dirs.map Prod.fst).Nodup → (∀ e ∈ dirs, FTree.Distinct e.2) → FTree.Distinct (.mk files dirs)

mutual
theorem walkTree_nodup (fm dm : String → Bool) : ∀ (t : FTree) (pre : List String), t.Distinct → (walkTree fm dm pre t).Nodup
  | .mk files dirs, pre, h => by
    cases h with
    | mk h1 h2 h3 =>
      rw [walkTree, List.nodup_append]
      refine ⟨(h1.filter _).map fun a b hab => (Prod.mk.inj hab).2, walkDirs_nodup fm dm dirs pre h2 h3, ?_⟩
      rintro ⟨q, f⟩ ha ⟨q', f'⟩ hb hab
      obtain ⟨rfl, rfl⟩ := Prod.mk.inj hab
      simp only [List.mem_map, Prod.mk.injEq] at ha
      obtain ⟨_, _, rfl, _⟩ := ha
      obtain ⟨d, t, p, hq, _⟩ := (mem_walkDirs fm dm dirs pre pre f).mp hb
      have := congrArg List.length hq
      simp at this
theorem walkDirs_nodup (fm dm : String → Bool) : ∀ (l : List (String × FTree)) (pre : List String), (l.map Prod.fst).Nodup → (∀ e ∈ l, e.2.Distinct) → (walkDirs fm dm pre l).Nodup
  | [], pre, _, _ => by simp [walkDirs]
  | (d, t) :: rest, pre, h1, h2 => by
    rw [List.map_cons, List.nodup_cons] at h1
    have ht := walkTree_nodup fm dm t (pre ++ [d]) (h2 _ List.mem_cons_self)
    rw [walkDirs, List.nodup_append]
    refine ⟨?_, walkDirs_nodup fm dm rest pre h1.2 fun e he => h2 e (List.mem_cons_of_mem _ he), ?_⟩
    · split
      · exact ht
      · exact List.nodup_nil
    · rintro ⟨q, f⟩ ha ⟨q', f'⟩ hb hab
      obtain ⟨rfl, rfl⟩ := Prod.mk.inj hab
      split at ha
      · obtain ⟨p, hq, _⟩ := (mem_walkTree fm dm t (pre ++ [d]) q f).mp ha
        obtain ⟨d', t', p', hq', hm, _⟩ := (mem_walkDirs fm dm rest pre q f).mp hb
        rw [hq', List.append_assoc] at hq
        have := List.append_cancel_left hq
        simp only [List.singleton_append, List.cons.injEq] at this
        exact h1.1 (List.mem_map.mpr ⟨(d', t'), hm, this.1⟩)
      · simp at ha
end

/-- C109. No file is returned twice for one start directory. -/
theorem C109_once (m x dm dx : Option (String → Bool)) (start : String) (t : FTree) (h : t.Distinct) : (findFiles m x dm dx [(start, some t)]).Nodup := by
  unfold findFiles fileGen
  simp only [List.flatMap_cons, List.flatMap_nil, List.append_nil]
  split
  · exact List.nodup_nil
  · exact walkTree_nodup _ _ t [start] h

/-- A small tree: `a.py`, `b.txt`, `sub/c.py`, `skip/d.py`. -/
def treeExample : FTree := .mk ["a.py", "b.txt"] [("sub", .mk ["c.py"] []), ("skip", .mk ["d.py"] [])]

example : findFiles (some fun n => n.endsWith ".py") none none (some fun n => n == "skip") [("w", some treeExample)] = [(["w"], "a.py"), (["w", "sub"], "c.py")] := by decide +kernel

/-! ## C110: find_up -/

/-- C110 (partial). From an absolute path `find_up` finds the name in the nearest directory above, and returns `None` exactly when no directory on the way to the root has it. (Components are listed from the last to the first.) Missing: relative paths, see `C110_relative_refuted`. -/
theorem C110_nearest_partial (hit ex : List String → Bool) (path : List String) (hex : ex path = true) :
    (∀ dir, findUp true hit ex path = some dir ↔ dir <:+ path ∧ hit dir = true ∧ ∀ e, e <:+ path → hit e = true → e.length ≤ dir.length) ∧
    (findUp true hit ex path = none ↔ ∀ e, e <:+ path → hit e = false) := by
  unfold findUp
  rw [if_pos hex]
  clear hex
  have key : ∀ path : List String, (∀ dir, findUpLoop true hit path = some dir → dir <:+ path ∧ hit dir = true ∧ ∀ e, e <:+ path → hit e = true → e.length ≤ dir.length) ∧
      (findUpLoop true hit path = none → ∀ e, e <:+ path → hit e = false) := by
    intro path
    induction path with
    | nil =>
      constructor
      · intro dir h
        simp only [findUpLoop, if_true] at h
        split at h
        · rename_i hh
          simp only [Option.some.injEq] at h
          subst h
          exact ⟨List.suffix_rfl, hh, fun e he _ => by rw [List.suffix_nil.mp he]⟩
        · simp at h
      · intro h e he
        rw [List.suffix_nil.mp he]
        simp only [findUpLoop, if_true] at h
        split at h
        · simp at h
        · rename_i hh; simpa using hh
    | cons c rest ih =>
      constructor
      · intro dir h
        simp only [findUpLoop] at h
        split at h
        · rename_i hh
          simp only [Option.some.injEq] at h
          subst h
          exact ⟨List.suffix_rfl, hh, fun e he _ => he.length_le⟩
        · rename_i hh
          obtain ⟨h1, h2, h3⟩ := ih.1 dir h
          refine ⟨h1.trans (List.suffix_cons c rest), h2, ?_⟩
          intro e he hhe
          rcases List.suffix_cons_iff.mp he with rfl | he
          · exact absurd hhe hh
          · exact h3 e he hhe
      · intro h e he
        simp only [findUpLoop] at h
        split at h
        · simp at h
        · rename_i hh
          rcases List.suffix_cons_iff.mp he with rfl | he
          · simpa using hh
          · exact ih.2 h e he
  refine ⟨fun dir => ⟨(key path).1 dir, ?_⟩, ⟨(key path).2, ?_⟩⟩
  · rintro ⟨h1, h2, h3⟩
    cases hf : findUpLoop true hit path with
    | none => rw [(key path).2 hf dir h1] at h2; simp at h2
    | some d =>
      obtain ⟨a1, a2, a3⟩ := (key path).1 d hf
      have hl : dir.length = d.length := le_antisymm (a3 dir h1 h2) (h3 d a1 a2)
      rw [List.IsSuffix.eq_of_length (List.suffix_of_suffix_length_le h1 a1 hl.le) hl]
  · intro h
    cases hf : findUpLoop true hit path with
    | none => rfl
    | some d =>
      obtain ⟨a1, a2, _⟩ := (key path).1 d hf
      rw [h d a1] at a2
      simp at a2

/-- C110. A start that does not exist gives `None`. -/
theorem C110_missing_start (isAbs : Bool) (hit ex : List String → Bool) (path : List String) (hex : ex path = false) : findUp isAbs hit ex path = none := by simp [findUp, hex]

/-- C110 is false of the code for relative start directories: the current directory, which contains the start, is not searched. -/
theorem C110_relative_refuted : ∃ (hit ex : List String → Bool), hit [] = true ∧ ex ["sub"] = true ∧ findUp false hit ex ["sub"] = none :=
  ⟨fun p => decide (p = []), fun _ => true, by decide, by decide, by decide⟩

example : findUp true (fun p => decide (p = ["w"])) (fun _ => true) ["b", "a", "w"] = some ["w"] := by decide

end OpenMDAO
