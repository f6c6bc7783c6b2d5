import Verif.Spec.SolverBase
/-! # C156, C157: what solvers say -/
namespace OpenMDAO
set_option linter.unusedSectionVars false

/-! ## Helpers -/

theorem all_any_not (fs : List Bool) : fs.all id = !(fs.any not) := by
  induction fs with
  | nil => rfl
  | cons b l ih => simp only [List.all_cons, List.any_cons, ih]; cases b <;> simp

theorem nonfinite_local (vs : List WrapVar)
    (h : ∀ v ∈ vs, v.pbo = false → ∃ fs, v.val = .arr fs) : nonfinite vs = some (badNames vs) := by
  induction vs with
  | nil => rfl
  | cons v l ih =>
    have ih' := ih fun w hw => h w (List.mem_cons_of_mem _ hw)
    unfold nonfinite
    by_cases hp : v.pbo = true
    · simp [hp, ih', badNames]
    · have hp' : v.pbo = false := by simpa using hp
      obtain ⟨fs, hfs⟩ := h v (by simp) hp'
      simp only [hp', Bool.false_eq_true, if_false, hfs, allFinite, all_any_not]
      cases hb : fs.any not with
      | true => simp [badNames, hp', hfs, WrapVal.bad, hb, ih']
      | false => simp [badNames, hp', hfs, WrapVal.bad, hb, ih']

theorem addNames_eq (msg : Str) (what : String) (names : List Str) :
    addNames msg what.toList names = msg ++ sentence what names := by
  unfold addNames sentence
  by_cases h : names = []
  · simp [h]
  · simp [h]

theorem errorWrap_local (f : Frame) (m : Str) (h : f.Local) :
    errorWrap f (some (.fpe m false)) = some (.fpe (m ++ report f) true) := by
  have hu := nonfinite_local f.unknowns fun v hv => h v (by simp [hv])
  have hr := nonfinite_local f.resids fun v hv => h v (by simp [hv])
  have hp := nonfinite_local f.params fun v hv => h v (by simp [hv])
  simp only [errorWrap, hu, hr, hp, addNames_eq, report, List.append_assoc]

mutual
theorem runSys_ends : (t : RunSys) → Ends t → runSys t = none
  | .comp r, h => by cases h; rfl
  | .group f subs, h => by
    have hs : ∀ s ∈ subs, Ends s := by cases h with | group _ _ h => exact h
    have := runSysSubs_ends subs hs
    simp only [runSys, this, frameOut, errorWrap, ite_self]
theorem runSysSubs_ends : (l : List RunSys) → (∀ s ∈ l, Ends s) → runSysSubs l = none
  | [], _ => rfl
  | s :: ss, h => by
    have h1 := runSys_ends s (h s (by simp))
    have h2 := runSysSubs_ends ss fun x hx => h x (List.mem_cons_of_mem _ hx)
    simp only [runSysSubs, h1, h2]
end

theorem runSysSubs_stop (before : List RunSys) (s : RunSys) (behind : List RunSys)
    (hb : ∀ b ∈ before, Ends b) (e : Raised) (hs : runSys s = some e) :
    runSysSubs (before ++ s :: behind) = some e := by
  induction before with
  | nil => simp only [List.nil_append, runSysSubs, hs]
  | cons b l ih =>
    have h1 := runSys_ends b (hb b (by simp))
    simp only [List.cons_append, runSysSubs, h1]
    exact ih fun x hx => hb x (List.mem_cons_of_mem _ hx)

/-- What comes out of a run is what the solvers around the component make of its exception, one after the
other. -/
theorem runSys_stops (t : RunSys) (e : Raised) (fs : List Frame) (h : StopsIn t e fs) :
    runSys t = fs.foldl (fun r f => frameOut f r) (some e) ∧ (runSys t).isSome := by
  induction h with
  | comp e => exact ⟨rfl, rfl⟩
  | group f before s behind e fs hb hs ih =>
    obtain ⟨h1, h2⟩ := ih
    obtain ⟨e', he'⟩ := Option.isSome_iff_exists.mp h2
    have hr := runSysSubs_stop before s behind hb e' he'
    constructor
    · rw [List.foldl_append, ← h1, he']
      simp only [runSys, hr, List.foldl_cons, List.foldl_nil]
    · simp only [runSys, hr, frameOut]
      split
      · cases e' with
        | other c m => rfl
        | fpe m b =>
          cases b with
          | true => rfl
          | false => simp only [errorWrap]; split <;> try rfl
                     split <;> try rfl
                     split <;> rfl
      · rfl

theorem fold_fixed (fs : List Frame) (r : Option Raised) (h : ∀ f ∈ fs, frameOut f r = r) :
    fs.foldl (fun r f => frameOut f r) r = r := by
  induction fs with
  | nil => rfl
  | cons f l ih =>
    rw [List.foldl_cons, h f (by simp)]
    exact ih fun g hg => h g (List.mem_cons_of_mem _ hg)

theorem frameOut_unwrapped (f : Frame) (r : Option Raised) (h : f.wrapped = false) : frameOut f r = r := by
  simp [frameOut, h]

theorem frameOut_seen (f : Frame) (m : Str) : frameOut f (some (.fpe m true)) = some (.fpe m true) := by
  unfold frameOut; split <;> rfl

theorem frameOut_other (f : Frame) (c : Nat) (m : Str) :
    frameOut f (some (.other c m)) = some (.other c m) := by
  unfold frameOut; split <;> rfl

/-! ## C156 -/

/-- **C156**: a floating point error raised in a component of a hierarchy of any depth comes out of the run
with the message of the component, followed by the names of the unknowns, residuals and parameters that are
not finite, as the innermost solver that reports sees them; solvers further out add nothing. -/
theorem C156_message_partial (t : RunSys) (m : Str) (inner : List Frame) (f : Frame) (outer : List Frame)
    (h : StopsIn t (.fpe m false) (inner ++ f :: outer)) (hi : ∀ g ∈ inner, g.wrapped = false)
    (hf : f.wrapped = true) (hl : f.Local) :
    runSys t = some (.fpe (m ++ report f) true) := by
  rw [(runSys_stops t _ _ h).1, List.foldl_append,
    fold_fixed inner _ fun g hg => frameOut_unwrapped g _ (hi g hg), List.foldl_cons]
  have : frameOut f (some (.fpe m false)) = some (.fpe (m ++ report f) true) := by
    simp only [frameOut, hf, if_true, errorWrap_local f m hl]
  rw [this]
  exact fold_fixed outer _ fun g _ => frameOut_seen g _

/-- **C156**: a variable is named in the report of its vector exactly when it is numeric and has an element
that is not finite. -/
theorem C156_named (vs : List WrapVar) (n : Str) :
    n ∈ badNames vs ↔ ∃ v ∈ vs, v.name = n ∧ v.pbo = false ∧ v.val.bad = true := by
  simp only [badNames, List.mem_map, List.mem_filter, Bool.and_eq_true, Bool.not_eq_true']
  constructor
  · rintro ⟨v, ⟨hv, h1, h2⟩, hn⟩; exact ⟨v, hv, hn, h1, h2⟩
  · rintro ⟨v, hv, hn, h1, h2⟩; exact ⟨v, ⟨hv, h1, h2⟩, hn⟩

/-- **C156**: an error that was reported on already, as one that comes out of a subproblem, keeps its
message. -/
theorem C156_once (t : RunSys) (m : Str) (fs : List Frame) (h : StopsIn t (.fpe m true) fs) :
    runSys t = some (.fpe m true) := by
  rw [(runSys_stops t _ _ h).1]
  exact fold_fixed fs _ fun g _ => frameOut_seen g m

/-- **C156**: every other exception comes out as it was raised. -/
theorem C156_other (t : RunSys) (c : Nat) (m : Str) (fs : List Frame) (h : StopsIn t (.other c m) fs) :
    runSys t = some (.other c m) := by
  rw [(runSys_stops t _ _ h).1]
  exact fold_fixed fs _ fun g _ => frameOut_other g c m

/-- **C156**: where no solver reports the error comes out as it was raised. -/
theorem C156_silent (t : RunSys) (e : Raised) (fs : List Frame) (h : StopsIn t e fs)
    (hw : ∀ g ∈ fs, g.wrapped = false) : runSys t = some e := by
  rw [(runSys_stops t _ _ h).1]
  exact fold_fixed fs _ fun g hg => frameOut_unwrapped g _ (hw g hg)

/-- **C156**: a run raises nothing when no component does. -/
theorem C156_quiet (t : RunSys) (h : Ends t) : runSys t = none := runSys_ends t h

/-- A solver over an unknown that is finite, one that has an infinite element, an object, and a parameter that
is not a number. -/
def frameEx : Frame where
  wrapped := true
  unknowns := [⟨"x".toList, false, .arr [true, true]⟩, ⟨"y".toList, false, .arr [true, false]⟩,
    ⟨"obj".toList, true, .num true⟩]
  resids := [⟨"x".toList, false, .arr [true, true]⟩, ⟨"y".toList, false, .arr [true, true]⟩]
  params := [⟨"c.a".toList, false, .arr [false]⟩]

/-- The solver of a group of a user, without the decorator. -/
def innerEx : Frame := ⟨false, [], [], []⟩

/-- A solver further out. -/
def outerEx : Frame := ⟨true, [⟨"z".toList, false, .arr [false]⟩], [], []⟩

/-- A component that raises, in the group of `innerEx`, in the one of `frameEx`, in the one of `outerEx`. -/
def runEx : RunSys :=
  .group outerEx ([.comp none] ++ .group frameEx ([.comp none] ++
    .group innerEx ([] ++ .comp (some (.fpe "bad".toList false)) :: []) :: [.comp (some (.other 3 []))]) :: [])

theorem runEx_stops : StopsIn runEx (.fpe "bad".toList false) ([innerEx] ++ frameEx :: [outerEx]) :=
  .group outerEx [.comp none] _ [] _ [innerEx, frameEx]
    (by intro b hb; rw [List.mem_singleton] at hb; subst hb; exact .comp)
    (.group frameEx [.comp none] _ [.comp (some (.other 3 []))] _ [innerEx]
      (by intro b hb; rw [List.mem_singleton] at hb; subst hb; exact .comp)
      (.group innerEx [] _ [] _ [] (by simp) (.comp _)))

theorem frameEx_local : frameEx.Local := by
  intro v hv hp
  simp only [frameEx, List.mem_append, List.mem_cons, List.not_mem_nil, or_false] at hv
  rcases hv with ((rfl | rfl | rfl) | rfl | rfl) | rfl <;> first | exact ⟨_, rfl⟩ | cases hp

/-- The hypotheses can be met, and the message is the expected one. -/
example : runSys runEx = some (.fpe ("bad\nThe following unknowns are nonfinite: ['y']\n" ++
    "The following params are nonfinite: ['c.a']").toList true) := by
  rw [C156_message_partial runEx "bad".toList [innerEx] frameEx _ runEx_stops (by simp [innerEx]) rfl
    frameEx_local]
  decide +kernel

/-- **C156** fails for systems that run in parallel: where a scalar parameter belongs to a component of
another process, a `TypeError` about an object that is not iterable takes the place of the floating point error. -/
theorem C156_remote_refuted :
    ∃ t f, StopsIn t (.fpe "bad".toList false) [f] ∧ f.wrapped = true ∧
      (∀ v ∈ f.unknowns ++ f.resids ++ f.params, v.val.bad = false) ∧
      runSys t = some (.other typeErrorCls notIterable) :=
  ⟨.group ⟨true, [], [], [⟨"c.x".toList, false, .num true⟩]⟩ [.comp (some (.fpe "bad".toList false))],
    ⟨true, [], [], [⟨"c.x".toList, false, .num true⟩]⟩,
    .group _ [] _ [] _ [] (by simp) (.comp _), rfl, by simp [WrapVal.bad], rfl⟩

/-! ## C157 -/

theorem takeWhile_blanks (n : Nat) (l : Str) :
    (List.replicate n ' ' ++ '[' :: l).takeWhile (· = ' ') = List.replicate n ' ' := by
  induction n with
  | zero => simp
  | succ n ih => simp [List.replicate_succ, ih]

theorem count_pyJoin (p : Str) (ps : List Str) (h : ∀ q ∈ p :: ps, '.' ∉ q) :
    (pyJoin '.' (p :: ps)).count '.' = ps.length := by
  induction ps generalizing p with
  | nil => simpa [pyJoin, List.count_eq_zero] using h p (by simp)
  | cons q qs ih =>
    have hp : p.count '.' = 0 := List.count_eq_zero.mpr (h p (by simp))
    have := ih q fun r hr => h r (List.mem_cons_of_mem _ hr)
    simp only [pyJoin, List.count_append, List.count_cons_self, hp, this, List.length_cons]
    omega

/-- **C157**: a printed line is set in by three blanks for each group that the system is in (the root is not
set in), three for each extra level, and two for each level of preconditioning. -/
theorem C157_blanks (names : List Str) (hn : ∀ n ∈ names, n ≠ [] ∧ '.' ∉ n) (indent precon : Nat)
    (solver solverString iter body : Str) (unorm : Option Str) :
    (normLine (pyJoin '.' names) indent precon solver solverString iter body unorm).takeWhile (· = ' ') =
      List.replicate (3 * (names.length + indent) + 2 * precon) ' ' := by
  unfold normLine
  rw [takeWhile_blanks]
  congr 1
  unfold normIndent normName
  cases names with
  | nil => simp [pyJoin]
  | cons p ps =>
    have hne : pyJoin '.' (p :: ps) ≠ [] := by
      have := (hn p (by simp)).1
      cases ps with
      | nil => simpa [pyJoin] using this
      | cons q qs => simp [pyJoin]
    have hc := count_pyJoin p ps fun q hq => (hn q hq).2
    have hr : ("root.".toList).count '.' = 1 := by decide
    simp only [hne, if_false, List.count_append, hc, hr, List.length_cons]
    omega

theorem dropWhile_blanks (n : Nat) (l : Str) :
    (List.replicate n ' ' ++ '[' :: l).dropWhile (· = ' ') = '[' :: l := by
  induction n with
  | zero => simp
  | succ n ih => simp [List.replicate_succ, ih]

theorem takeWhile_bracket (p r : Str) (h : ']' ∉ p) :
    (p ++ ("] ".toList ++ r)).takeWhile (· ≠ ']') = p := by
  induction p with
  | nil => simp
  | cons c l ih =>
    simp only [List.mem_cons, not_or] at h
    have hc : c ≠ ']' := fun e => h.1 e.symm
    simp only [List.cons_append, List.takeWhile_cons]
    rw [ih h.2]
    simp [hc]

/-- The name of a system can be read off the printed line. -/
theorem normLine_name (p : Str) (h : ']' ∉ p) (indent precon : Nat)
    (solver solverString iter body : Str) (unorm : Option Str) :
    (((normLine p indent precon solver solverString iter body unorm).dropWhile (· = ' ')).drop 1).takeWhile
      (· ≠ ']') = if p = [] then "root".toList else "root.".toList ++ p := by
  have hn : ']' ∉ normName p := by
    unfold normName
    split
    · decide
    · intro hm
      rcases List.mem_append.mp hm with hm | hm
      · exact absurd hm (by decide)
      · exact h hm
  unfold normLine
  rw [dropWhile_blanks, List.drop_one, List.tail_cons]
  simp only [List.append_assoc]
  rw [takeWhile_bracket _ _ hn]
  rfl

/-- **C157**: the system that a line is about can be read off the line: lines about different systems are
different, whatever solvers, iterations and numbers they show. -/
theorem C157_system (p q : Str) (hp : ']' ∉ p) (hq : ']' ∉ q) (i j k l : Nat)
    (s t ss ts it jt b c : Str) (u v : Option Str)
    (h : normLine p i k s ss it b u = normLine q j l t ts jt c v) : p = q := by
  have h1 := normLine_name p hp i k s ss it b u
  rw [h, normLine_name q hq j l t ts jt c v] at h1
  by_cases e1 : p = []
  · by_cases e2 : q = []
    · rw [e1, e2]
    · simp [e1, e2] at h1
  · by_cases e2 : q = []
    · simp [e1, e2] at h1
    · simp only [e1, e2, if_false] at h1
      exact (List.append_cancel_left h1).symm

/-- **C157**: behind the name comes the kind of the solver, its own name (marked when it works as a
preconditioner), the iteration, and the message or the numbers. -/
theorem C157_text (p : Str) (indent precon : Nat) (solver solverString iter body : Str) :
    ∃ n, normLine p indent precon solver solverString iter body none = List.replicate n ' ' ++
      "[".toList ++ (if p = [] then "root".toList else "root.".toList ++ p) ++ "] ".toList ++ solver ++
      ": ".toList ++ (if precon = 0 then [] else "PRECON:".toList) ++ solverString ++ "   ".toList ++ iter ++
      " | ".toList ++ body := by
  refine ⟨normIndent p indent precon, ?_⟩
  unfold normLine normName
  cases precon <;> simp

/-- A line of a solver of a subgroup, as it is printed. -/
example : normLine "sub.g".toList 0 0 "NL".toList "NEWTON".toList "3".toList "1.5e-08 0.001".toList none =
    "      [root.sub.g] NL: NEWTON   3 | 1.5e-08 0.001".toList := by decide +kernel

/-- The names of such a path meet the hypotheses. -/
example : ∀ n ∈ ["sub".toList, "g".toList], n ≠ [] ∧ '.' ∉ n := by decide

/-- The `u_norm` of a preconditioner behind the numbers. -/
example : normLine [] 1 2 "LS".toList "BK_TKG".toList "1".toList "0 0".toList (some "0.5".toList) =
    "       [root] LS: PRECON:BK_TKG   1 | 0 0 (0.5)".toList := by decide +kernel

end OpenMDAO
