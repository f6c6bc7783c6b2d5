import Verif.Spec.Dump
import Verif.Props.Recorder
import Verif.Props.Paths
/-! # C159: the recorder that writes text -/
namespace OpenMDAO
set_option linter.unusedSectionVars false

theorem linesText_append (a b : List Str) : linesText (a ++ b) = linesText a ++ linesText b := by
  induction a with
  | nil => rfl
  | cons l a ih => simp [linesText, ih]

theorem byName_inOrder {X : Type} (d : List (Str × X)) : InOrder d (byName d) := by
  refine ⟨List.perm_insertionSort _ d, ?_⟩
  have : Std.Total (fun a b : Str × X => a.1 ≤ b.1) := ⟨fun a b => List.le_total a.1 b.1⟩
  have : IsTrans (Str × X) (fun a b => a.1 ≤ b.1) := ⟨fun a b c h1 h2 => List.le_trans h1 h2⟩
  exact List.pairwise_insertionSort _ d

theorem flatMap_lines (f : Str × Str → Str) (s : List (Str × Str)) :
    s.flatMap (fun e => f e ++ ['\n']) = linesText (s.map f) := by
  induction s with
  | nil => rfl
  | cons e s ih => simp [linesText, ih]

theorem part_text (t : Str) (ls : List Str) : t ++ ['\n'] ++ linesText ls = linesText (t :: ls) := by
  simp [linesText]

theorem record_text (a t b c r s : Str) (ls : List Str) (hs : s = linesText ls) :
    a ++ t ++ ['\n'] ++ (b ++ c ++ (r ++ ['\n']) ++ s) = linesText ([a ++ t, b ++ c ++ r] ++ ls) := by
  subst hs
  simp [linesText]

theorem record_text0 (a t b c s : Str) (ls : List Str) (hs : s = linesText ls) :
    a ++ t ++ ['\n'] ++ (b ++ c ++ ['\n'] ++ s) = linesText ([a ++ t, b ++ c ++ []] ++ ls) := by
  subst hs
  simp [linesText]

theorem partText_lines (title : String) (w : Option (List (Str × Str))) :
    ∃ ls, PartLines title w ls ∧ partText title.toList w = linesText ls := by
  cases w with
  | none => exact ⟨[], rfl, rfl⟩
  | some d =>
    refine ⟨_, ⟨byName d, byName_inOrder d, rfl⟩, ?_⟩
    have : varText = fun e => ("  ".toList ++ e.1 ++ ": ".toList ++ e.2) ++ ['\n'] := rfl
    rw [partText, this, flatMap_lines (fun e => "  ".toList ++ e.1 ++ ": ".toList ++ e.2)]
    exact part_text title.toList _

theorem successText_yes (msg : Str) : successText true msg = linesText (statusLines true msg) := by
  rfl

theorem derivs_end : "/Derivs\n".toList = "/Derivs".toList ++ ['\n'] := by decide

theorem derivs_title : "Derivatives:\n".toList = "Derivatives:".toList ++ ['\n'] := by decide

theorem no_error : "no".toList ++ "Error msg: ".toList = "noError msg: ".toList := by decide

/-- **C159**: a recorder that was started on a system writes for an iteration that succeeded the lines with the
time, the coordinate and the success, and for each vector that is switched on a title and one line for each
selected variable with its value, in the order of their names. -/
theorem C159_iteration_partial (fnm : Str → Str → Bool) (o : RecOpts) (filtered : List (Str × Filt))
    (ts : Str) (c : Coord) (msg : Str) (v₀ v : RecVecs Str)
    (hstart : filtered.lookup (getPathname c) = some (recStartup fnm o v₀))
    (hp : v.params.map (·.1) = v₀.params.map (·.1)) (hu : v.unknowns.map (·.1) = v₀.unknowns.map (·.1))
    (hr : v.resids.map (·.1) = v.unknowns.map (·.1)) (hr₀ : v₀.resids.map (·.1) = v₀.unknowns.map (·.1))
    (np : (v.params.map (·.1)).Nodup) (nu : (v.unknowns.map (·.1)).Nodup) :
    ∃ (d : RecData Str) (pl ul rl : List Str), dumpIter o filtered ts c true msg v =
        .ok (linesText (headLines ts c [] ++ statusLines true msg ++ pl ++ ul ++ rl)) ∧
      PartLines "Params:" d.p pl ∧ PartLines "Unknowns:" d.u ul ∧ PartLines "Resids:" d.r rl ∧
      WritesVec fnm o o.recP v.params d.p ∧ WritesVec fnm o o.recU v.unknowns d.u ∧
      WritesVec fnm o o.recR v.resids d.r := by
  obtain ⟨d, h, w1, w2, w3⟩ := C42_filter_exact fnm o filtered c v₀ v hstart hp hu hr hr₀ np nu
  obtain ⟨pl, p1, p2⟩ := partText_lines "Params:" d.p
  obtain ⟨ul, u1, u2⟩ := partText_lines "Unknowns:" d.u
  obtain ⟨rl, r1, r2⟩ := partText_lines "Resids:" d.r
  refine ⟨d, pl, ul, rl, ?_, p1, u1, r1, w1, w2, w3⟩
  have key : dumpText ts c true msg d =
      linesText (headLines ts c [] ++ statusLines true msg ++ pl ++ ul ++ rl) := by
    unfold dumpText headLines
    generalize "Timestamp: ".toList = a
    generalize "Iteration Coordinate: ".toList = b
    rw [p2, u2, r2, successText_yes, ← linesText_append, ← linesText_append,
      ← linesText_append, record_text0 a ts b (formatCoord c) _ _ rfl]
    simp only [List.append_assoc]
  rw [dumpIter, h, ← key]
  rfl

/-- **C159**: derivatives, for a driver step that succeeded: one line for each pair, in the order of the names
of outputs, then of inputs. -/
theorem C159_derivs_partial (ts : Str) (c : Coord) (msg : Str) (d : List (Str × List (Str × Str))) :
    ∃ s, InOrder d s ∧ ∃ lss : List (List Str),
      lss.length = s.length ∧
      (∀ (i : Nat) (e : Str × List (Str × Str)) (ls : List Str), s[i]? = some e → lss[i]? = some ls → ∃ t, InOrder e.2 t ∧
        ls = t.map fun x => "  ".toList ++ e.1 ++ " wrt ".toList ++ x.1 ++ ": ".toList ++ x.2) ∧
      dumpDerivs ts c true msg (.dict d) = linesText (headLines ts c "/Derivs".toList ++ statusLines true msg ++
        "Derivatives:".toList :: lss.flatten) := by
  have hb : ∀ s : List (Str × List (Str × Str)),
      (s.flatMap fun e => (byName e.2).flatMap (derivText e.1)) =
        linesText (s.map fun e => (byName e.2).map fun x =>
          "  ".toList ++ e.1 ++ " wrt ".toList ++ x.1 ++ ": ".toList ++ x.2).flatten := by
    intro s
    induction s with
    | nil => rfl
    | cons e s ih =>
      have : derivText e.1 = fun x => ("  ".toList ++ e.1 ++ " wrt ".toList ++ x.1 ++ ": ".toList ++ x.2) ++
        ['\n'] := rfl
      rw [List.flatMap_cons, ih, List.map_cons, List.flatten_cons, linesText_append, this, flatMap_lines]
  refine ⟨byName d, byName_inOrder d, (byName d).map fun e => (byName e.2).map fun x =>
    "  ".toList ++ e.1 ++ " wrt ".toList ++ x.1 ++ ": ".toList ++ x.2, by simp, ?_, ?_⟩
  · intro i e ls hi hl
    rw [List.getElem?_map, hi] at hl
    cases hl
    exact ⟨byName e.2, byName_inOrder e.2, rfl⟩
  · unfold dumpDerivs headLines derivsText
    generalize hw : "/Derivs\n".toList = w
    rw [derivs_end] at hw
    generalize ht : "Derivatives:\n".toList = t
    rw [derivs_title] at ht
    generalize "Timestamp: ".toList = a
    generalize "Iteration Coordinate: ".toList = b
    generalize "Derivatives:".toList = t' at ht
    generalize "/Derivs".toList = w' at hw
    subst hw ht
    dsimp only
    rw [hb, successText_yes, part_text, ← linesText_append, record_text a ts b (formatCoord c) w' _ _ rfl]
    simp only [List.append_assoc]

theorem failed_text (a t b c n e ne m rest : Str) (h : n ++ e = ne) :
    a ++ t ++ ['\n'] ++ (b ++ c ++ ['\n'] ++ (n ++ (e ++ m ++ ['\n']) ++ rest)) =
      linesText [a ++ t, b ++ c ++ []] ++ (ne ++ m ++ '\n' :: rest) := by
  subst h
  simp [linesText]

/-- **C159** fails for iterations that failed: the line about success is cut down to `no`, which the line
about the error follows without a break. -/
theorem C159_failed_refuted (ts : Str) (c : Coord) (msg : Str) (d : RecData Str) :
    ∃ rest, dumpText ts c false msg d =
      linesText (headLines ts c []) ++ ("noError msg: ".toList ++ msg ++ '\n' :: rest) := by
  refine ⟨partText "Params:".toList d.p ++
        (partText "Unknowns:".toList d.u ++ partText "Resids:".toList d.r), ?_⟩
  unfold dumpText headLines successText
  generalize partText "Params:".toList d.p ++
        (partText "Unknowns:".toList d.u ++ partText "Resids:".toList d.r) = rest
  exact failed_text "Timestamp: ".toList ts "Iteration Coordinate: ".toList (formatCoord c) "no".toList
    "Error msg: ".toList "noError msg: ".toList msg rest no_error

/-- So the expected lines are not there, for no rest of the text. -/
theorem C159_failed (ts : Str) (c : Coord) (msg : Str) (d : RecData Str) (rest : Str) :
    dumpText ts c false msg d ≠ linesText (headLines ts c [] ++ statusLines false msg) ++ rest := by
  obtain ⟨rest', h⟩ := C159_failed_refuted ts c msg d
  rw [h, linesText_append, List.append_assoc (linesText (headLines ts c []))]
  intro hc
  have hh := congrArg List.head? (List.append_cancel_left hc)
  have h1 : ("noError msg: ".toList ++ msg ++ '\n' :: rest').head? = some 'n' := rfl
  have h2 : (linesText (statusLines false msg) ++ rest).head? = some 'I' := rfl
  rw [h1, h2] at hh
  exact absurd hh (by decide)

/-! ### Files of several processes -/

theorem addTo_append (s : Str) (l : List Str) (p q : Str) :
    addToLastButOne s (l ++ [p, q]) = l ++ [p ++ s, q] := by
  induction l with
  | nil => rfl
  | cons a l ih =>
    cases l with
    | nil => rfl
    | cons b l =>
      cases l with
      | nil => rfl
      | cons c l =>
        simp only [List.cons_append, addToLastButOne] at ih ⊢
        rw [ih]

/-- The rank is put in front of the last dot. -/
theorem dumpFile_dot (a b : Str) (hb : '.' ∉ b) (rank : Nat) :
    dumpFile (a ++ '.' :: b) rank = a ++ '_' :: natStr rank ++ '.' :: b := by
  unfold dumpFile
  rw [if_pos (by simp), pySplit_append, pySplit_none '.' b hb]
  have hne := pySplit_ne_nil '.' a
  obtain ⟨l, p, hlp⟩ : ∃ l p, pySplit '.' a = l ++ [p] :=
    ⟨(pySplit '.' a).dropLast, (pySplit '.' a).getLast hne, (List.dropLast_append_getLast hne).symm⟩
  have ha : pyJoin '.' (l ++ [p]) = a := by rw [← hlp]; exact pyJoin_split '.' a
  rw [hlp, List.append_assoc]
  change pyJoin '.' (addToLastButOne _ (l ++ [p, b])) = _
  rw [addTo_append]
  cases l with
  | nil =>
    simp only [List.nil_append, pyJoin] at ha ⊢
    rw [ha]
  | cons x l =>
    rw [pyJoin_append '.' (x :: l) [p ++ '_' :: natStr rank, b] (by simp) (by simp)]
    rw [pyJoin_append '.' (x :: l) [p] (by simp) (by simp)] at ha
    simp only [pyJoin] at ha ⊢
    rw [← ha]
    simp

theorem last_dot (s : Str) (h : '.' ∈ s) : ∃ a b, s = a ++ '.' :: b ∧ '.' ∉ b := by
  induction s with
  | nil => cases h
  | cons c s ih =>
    by_cases hs : '.' ∈ s
    · obtain ⟨a, b, rfl, hb⟩ := ih hs
      exact ⟨c :: a, b, rfl, hb⟩
    · rcases List.mem_cons.mp h with rfl | h
      · exact ⟨[], s, rfl, hs⟩
      · exact absurd h hs

/-- **C159**: different processes write to different files. -/
theorem C159_files (out : Str) (i j : Nat) (h : dumpFile out i = dumpFile out j) : i = j := by
  by_cases hd : '.' ∈ out
  · obtain ⟨a, b, rfl, hb⟩ := last_dot out hd
    rw [dumpFile_dot a b hb, dumpFile_dot a b hb, List.append_assoc, List.append_assoc] at h
    have h := List.append_cancel_left h
    rw [List.cons_append, List.cons_append] at h
    exact natStr_inj (List.append_cancel_right (List.cons.inj h).2)
  · simp only [dumpFile, hd, if_false] at h
    exact natStr_inj (List.append_cancel_left h)

theorem natStr_no_slash (n : Nat) : '/' ∉ natStr n := by
  intro h
  have := Nat.isDigit_of_mem_toDigits (by decide) (by decide) h
  exact absurd this (by decide)

/-- **C159**: the files are in the directory that was asked for, when the name of the file has a dot, or there
is no dot at all. -/
theorem C159_directory_partial (dir base : Str) (hb : '/' ∉ base) (rank : Nat)
    (h : '.' ∈ base ∨ '.' ∉ dir ++ base) : ∃ base', '/' ∉ base' ∧ dumpFile (dir ++ base) rank = dir ++ base' := by
  by_cases hd : '.' ∈ base
  · obtain ⟨a, b, rfl, hb'⟩ := last_dot base hd
    refine ⟨a ++ '_' :: natStr rank ++ '.' :: b, ?_, ?_⟩
    · simp only [List.mem_append, List.mem_cons, not_or] at hb ⊢
      exact ⟨⟨hb.1, by decide, natStr_no_slash rank⟩, by decide, hb.2.2⟩
    · rw [← List.append_assoc, dumpFile_dot (dir ++ a) b hb']
      simp
  · have hn : '.' ∉ dir ++ base := by
      rcases h with h | h
      · exact absurd h hd
      · exact h
    refine ⟨base ++ natStr rank, ?_, ?_⟩
    · simp only [List.mem_append, not_or]
      exact ⟨hb, natStr_no_slash rank⟩
    · simp only [dumpFile, hn, if_false, List.append_assoc]

/-- **C159** fails for names without a dot in a directory with one, as the current directory: the name of
another directory comes out, which need not exist. -/
theorem C159_directory_refuted :
    dumpFile "./dump".toList 0 = "_0./dump".toList ∧ dumpFile "out.d/dump".toList 3 = "out_3.d/dump".toList := by
  decide +kernel

/-! ### A case -/

/-- Two unknowns, given in the other order. -/
def dumpVecs : RecVecs Str := ⟨[], [("y".toList, "2.0".toList), ("x".toList, "1.5".toList)], [("y".toList, "0.0".toList), ("x".toList, "0.0".toList)]⟩

/-- All unknowns are recorded. -/
def dumpOpts : RecOpts := ⟨false, true, false, true, [['*']], []⟩

/-- The hypotheses can be met, and the text is the expected one. -/
example : dumpIter dumpOpts [([], recStartup (fun _ _ => true) dumpOpts dumpVecs)] "12.5".toList
    ⟨0, [("Driver".toList, [1])]⟩ true [] dumpVecs = .ok ("Timestamp: 12.5\n" ++
      "Iteration Coordinate: rank0:Driver|1\nIteration succeeded: yes\nUnknowns:\n  x: 1.5\n  y: 2.0\n").toList := by
  decide +kernel

/-- The text of a failed iteration. -/
example : dumpText "12.5".toList ⟨0, [("Driver".toList, [1])]⟩ false "bad".toList ⟨none, none, none⟩ =
    ("Timestamp: 12.5\nIteration Coordinate: rank0:Driver|1\nnoError msg: bad\n").toList := by
  decide +kernel

end OpenMDAO
