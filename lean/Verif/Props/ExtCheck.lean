import Verif.Spec.ExtCheck
import Verif.Props.External
/-!
# C181: check_setup of an external code
-/
namespace OpenMDAO

theorem isBlank_iff (w : String) : isBlank w = true ↔ BlankWord w := by simp [isBlank, BlankWord]

theorem extCheckCmd_list {S : Type} (O : ExtOps S) (ws : List String) (s : S) :
    ((∀ w ∈ ws, isBlank w = true) ∧ extCheckCmd O (.list ws) s = [.empty]) ∨
    ∃ p args, ws = p :: args ∧ (∃ w ∈ ws, isBlank w = false) ∧ extCheckCmd O (.list ws) s = if O.found p s then [] else [.notFound p] := by
  unfold extCheckCmd ExtCmd.items
  by_cases h : (ws.filter fun c => !isBlank c) = []
  · left
    refine ⟨fun w hw => ?_, by rw [if_pos h]⟩
    have := List.filter_eq_nil_iff.1 h w hw
    simpa using this
  · right
    cases ws with
    | nil => exact absurd rfl h
    | cons p args =>
      refine ⟨p, args, rfl, ?_, by rw [if_neg h]⟩
      by_contra hc
      push Not at hc
      refine h (List.filter_eq_nil_iff.2 fun w hw => ?_)
      have := hc w hw
      simpa using this

/-- **C181 (the report on the command).** For a command that is a list: it is called empty exactly if all its words are blank, and a program is reported exactly
if it is the first word of a command that is not blank and cannot be found. -/
theorem C181_command_partial {S : Type} (O : ExtOps S) (ws inputs : List String) (s : S) :
    (.empty ∈ extCheck O (.list ws) inputs s ↔ ∀ w ∈ ws, BlankWord w) ∧
    ∀ p, .notFound p ∈ extCheck O (.list ws) inputs s ↔ ws.head? = some p ∧ (∃ w ∈ ws, ¬ BlankWord w) ∧ O.found p s = false := by
  simp only [← isBlank_iff, Bool.not_eq_true]
  have hm : ∀ r ∈ (if missingFiles O inputs s = [] then [] else [ExtReport.missing (missingFiles O inputs s)]), r ≠ .empty ∧ ∀ p, r ≠ .notFound p := by
    intro r hr
    split at hr
    · cases hr
    · rw [List.mem_singleton.1 hr]
      exact ⟨by simp, by simp⟩
  have h1 : ExtReport.empty ∉ (if missingFiles O inputs s = [] then [] else [ExtReport.missing (missingFiles O inputs s)]) := fun h => (hm _ h).1 rfl
  have h2 : ∀ p, ExtReport.notFound p ∉ (if missingFiles O inputs s = [] then [] else [ExtReport.missing (missingFiles O inputs s)]) := fun p h => (hm _ h).2 p rfl
  unfold extCheck
  simp only [List.mem_append, h1, h2, or_false]
  rcases extCheckCmd_list O ws s with ⟨hb, he⟩ | ⟨p, args, rfl, ⟨w, hw, hb⟩, he⟩
  · rw [he]
    refine ⟨⟨fun _ => hb, fun _ => List.mem_singleton.2 rfl⟩, fun p => ⟨fun h => by simp at h, ?_⟩⟩
    rintro ⟨_, ⟨w, hw, h⟩, _⟩
    rw [hb w hw] at h
    cases h
  · rw [he]
    refine ⟨⟨fun h => ?_, fun h => ?_⟩, fun q => ⟨fun h => ?_, ?_⟩⟩
    · split at h <;> simp at h
    · rw [h w hw] at hb
      cases hb
    · split at h
      · cases h
      · rename_i hf
        have := List.mem_singleton.1 h
        injection this with this
        subst this
        exact ⟨rfl, ⟨w, hw, hb⟩, by simpa using hf⟩
    · rintro ⟨hq, _, hf⟩
      have : p = q := by simpa using hq
      subst this
      rw [hf]
      exact List.mem_singleton.2 rfl

/-- **C181 (missing files).** For every command: a list of missing files is in the report exactly if a file is missing, and it has exactly those input files that do
not exist, in the order given. -/
theorem C181_files {S : Type} (O : ExtOps S) (cmd : ExtCmd) (inputs fs : List String) (s : S) :
    .missing fs ∈ extCheck O cmd inputs s ↔ ¬ O.AllExist inputs s ∧ fs = inputs.filter (fun f => O.fileExists f s = false) := by
  have hc : ExtReport.missing fs ∉ extCheckCmd O cmd s := by
    unfold extCheckCmd
    split
    · simp
    · split
      · split <;> simp
      · simp
  have he : missingFiles O inputs s = inputs.filter (fun f => O.fileExists f s = false) := by
    unfold missingFiles
    congr 1
    funext f
    cases O.fileExists f s <;> rfl
  unfold extCheck
  rw [List.mem_append, or_iff_right hc, ← missingFiles_nil]
  by_cases h : missingFiles O inputs s = []
  · simp [h]
  · rw [if_neg h, List.mem_singleton, ← he]
    constructor
    · intro hfs
      injection hfs with hfs
      exact ⟨h, hfs⟩
    · rintro ⟨_, hfs⟩
      rw [hfs]

/-- **C181 (no report, no refusal).** For a command that is a list, if no program with a blank name can be found: the report has nothing in it exactly if
`solve_nonlinear`, in the same state, gets as far as starting the program; and that is so exactly if the program and its input files are there. -/
theorem C181_agree_partial {S : Type} (O : ExtOps S) (ws inputs : List String) (hard : Bool) (s : S) (hb : ∀ w, BlankWord w → O.found w s = false) :
    (extCheck O (.list ws) inputs s = [] ↔ extBefore O (.list ws) inputs hard s = none) ∧
    (extBefore O (.list ws) inputs hard s = none ↔ ∃ p args, ws = p :: args ∧ O.Ready p inputs s) := by
  simp only [← isBlank_iff] at hb
  have hx : extCheck O (.list ws) inputs s = [] ↔ extCheckCmd O (.list ws) s = [] ∧ missingFiles O inputs s = [] := by
    unfold extCheck
    rw [List.append_eq_nil_iff]
    refine and_congr Iff.rfl ?_
    split <;> simp_all
  rw [hx]
  unfold ExtOps.Ready
  simp only [← missingFiles_nil]
  cases ws with
  | nil => simp [extCheckCmd, ExtCmd.items, extBefore, ExtCmd.program]
  | cons p args =>
    have hbef : extBefore O (.list (p :: args)) inputs hard s = none ↔ O.found p s = true ∧ missingFiles O inputs s = [] := by
      unfold extBefore ExtCmd.program
      by_cases h : missingFiles O inputs s = []
      · by_cases hf : O.found p s = true <;> simp [h, hf]
      · simp [h]
    rw [hbef]
    refine ⟨and_congr ?_ Iff.rfl, ⟨fun h => ⟨p, args, rfl, h⟩, ?_⟩⟩
    · rcases extCheckCmd_list O (p :: args) s with ⟨hall, he⟩ | ⟨q, as, hq, _, he⟩
      · rw [he, hb p (hall p List.mem_cons_self)]
        simp
      · injection hq with hq _
        subst hq
        rw [he]
        cases O.found p s <;> simp
    · rintro ⟨q, as, hq, h⟩
      injection hq with hq _
      subst hq
      exact h

/-- **C181 (what the refusal is).** `extBefore` is what `solve_nonlinear` of `Model/External` does: with an exception the component ends with it and nothing
has been executed; without one, the command is executed. -/
theorem C181_solve {S : Type} (O : ExtOps S) (o : ExtOpts) (s : S) :
    (∀ e, extBefore O (.list o.command) o.inputs o.failHard s = some e → ∃ rc, extSolve O o s = (s, rc, some e)) ∧
    (extBefore O (.list o.command) o.inputs o.failHard s = none → (extSolve O o s).1 = (O.exec o.command s).1) := by
  unfold extBefore extSolve ExtCmd.program extBody ExtOpts.errClass
  cases hc : o.command with
  | nil => exact ⟨fun e h => ⟨-12345678, by simpa using h⟩, fun h => by simp at h⟩
  | cons p args =>
    by_cases h : missingFiles O o.inputs s = []
    · cases hf : O.found p s
      · exact ⟨fun e he => ⟨-999999, by simp [h, hf] at he ⊢; exact he⟩, fun he => by simp [h, hf] at he⟩
      · exact ⟨fun e he => by simp [h, hf] at he, fun _ => by simp [h, hf]⟩
    · exact ⟨fun e he => ⟨-999999, by simp [h] at he ⊢; exact he⟩, fun he => by simp [h] at he⟩

/-- A system with one program, and no files. -/
def oneProgram (p : String) : ExtOps Unit := ⟨fun _ _ => false, fun q _ => q == p, fun _ s => (s, .code 0)⟩

/-- **Refutation: a command that is a string.** The command `ls` can be executed, and the report says that `l` cannot be found. -/
theorem C181_string_refuted : ∃ (O : ExtOps Unit) (s : String), extBefore O (.str s) [] true () = none ∧ extCheck O (.str s) [] () = [.notFound "l"] :=
  ⟨oneProgram "ls", "ls", by decide +kernel, by decide +kernel⟩

/-- **Refutation: the other way round.** The program `wx` is not there; `w` is, and nothing is reported. -/
theorem C181_string_missed_refuted : ∃ (O : ExtOps Unit) (s : String), O.found s () = false ∧ extBefore O (.str s) [] true () = some .ValueError ∧
    extCheck O (.str s) [] () = [] :=
  ⟨oneProgram "w", "wx", by decide +kernel, by decide +kernel, by decide +kernel⟩

/-- All three parts, and commands that meet the hypotheses. -/
example : extCheck (oneProgram "ls") (.list ["ls", "-l"]) [] () = [] ∧ extCheck (oneProgram "ls") (.list ["lz"]) ["a"] () = [.notFound "lz", .missing ["a"]] ∧
    extCheck (oneProgram "ls") (.list [" "]) [] () = [.empty] := by decide +kernel

example : ∀ w, BlankWord w → (oneProgram "ls").found w () = false := by
  intro w h
  by_contra hc
  have : w = "ls" := by simpa [oneProgram] using hc
  subst this
  exact absurd ((isBlank_iff _).2 h) (by decide +kernel)

end OpenMDAO
