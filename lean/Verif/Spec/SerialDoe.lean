import Verif.Model.SerialDoe
/-!
# Specification for C154: responses of a serial design of experiments
-/
namespace OpenMDAO

variable {V C : Type}

/-- A run over the cases, one after the other: for each case that was completed the vectors after it and its flag of success; what the run raises, and the vectors at the end. A case that raises an AnalysisError is completed, any other exception ends the run. -/
inductive DoeTrace (prep : LiveVecs V → C → Except PyErr Unit × LiveVecs V) (solve : LiveVecs V → CaseEnd × LiveVecs V) :
    LiveVecs V → List C → List (LiveVecs V × Nat) → Except PyErr Unit → LiveVecs V → Prop
  | done (st : LiveVecs V) : DoeTrace prep solve st [] [] (.ok ()) st
  | unset (st st1 : LiveVecs V) (c : C) (cs : List C) (e : PyErr) : prep st c = (.error e, st1) → DoeTrace prep solve st (c :: cs) [] (.error e) st1
  | fatal (st st1 st2 : LiveVecs V) (c : C) (cs : List C) (e : PyErr) : prep st c = (.ok (), st1) → solve st1 = (.fatal e, st2) → DoeTrace prep solve st (c :: cs) [] (.error e) st2
  | success (st st1 st2 fin : LiveVecs V) (c : C) (cs : List C) (outs : List (LiveVecs V × Nat)) (r : Except PyErr Unit) : prep st c = (.ok (), st1) → solve st1 = (.ok, st2) →
      DoeTrace prep solve st2 cs outs r fin → DoeTrace prep solve st (c :: cs) ((st2, 1) :: outs) r fin
  | analysis (st st1 st2 fin : LiveVecs V) (c : C) (cs : List C) (outs : List (LiveVecs V × Nat)) (r : Except PyErr Unit) : prep st c = (.ok (), st1) → solve st1 = (.analysis, st2) →
      DoeTrace prep solve st2 cs outs r fin → DoeTrace prep solve st (c :: cs) ((st2, 0) :: outs) r fin

/-- The value of a variable for the user while the vector holds `v`. -/
def VarAccess.value : VarAccess V → V → V
  | .view, v => v
  | .copy conv, v => conv v

/-- The names and values of the responses while the vectors are in the state `st`: the params and unknowns whose names are among the responses, in the order of the vectors. -/
def responsesAt (resp : List Str) (M : VecMeta V) (st : LiveVecs V) : List (Str × V) :=
  (M.params.filter fun e => decide (e.1 ∈ resp)).map (fun e => (e.1, e.2.value (st.p e.1))) ++ (M.unknowns.filter fun e => decide (e.1 ∈ resp)).map fun e => (e.1, e.2.value (st.u e.1))

/-- The names of the variables in each vector differ, and names match the names of responses only if they are equal (there are no wild cards in names). -/
structure RespNames (fnm : Str → Str → Bool) (resp : List Str) (M : VecMeta V) : Prop where
  params : (M.params.map (·.1)).Nodup
  unknowns : (M.unknowns.map (·.1)).Nodup
  plain : ∀ n ∈ M.params.map (·.1) ++ M.unknowns.map (·.1), ∀ r ∈ resp, fnm n r = decide (n = r)

/-- No response is an array without units. -/
def NoViews (resp : List Str) (M : VecMeta V) : Prop := ∀ e ∈ M.params ++ M.unknowns, e.1 ∈ resp → e.2 ≠ .view

end OpenMDAO
