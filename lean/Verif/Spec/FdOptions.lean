import Verif.Model.FdOptions
/-!
# Specification for C155: `fd_options`
-/
namespace OpenMDAO

/-- The last of the legal values that were assigned under one of the names; a value `v` before. -/
def lastLegal (names : List String) (values : List OptVal) (v : OptVal) (ops : List (Bool × String × OptVal)) : OptVal :=
  ops.foldl (fun v op => if op.2.1 ∈ names ∧ op.2.2 ∈ values then op.2.2 else v) v

/-- The type of derivatives after an assignment while the options are not locked. -/
def typeAfter (t : OptVal) (name : String) (v : OptVal) : OptVal :=
  if name = "force_fd" then (if v = .bool true ∨ v = .int 1 ∨ v = .float 1 then .str "fd" else .str "user")
  else if name = "form" ∧ v = .str "complex_step" then .str "cs"
  else if name = "type" ∧ v ∈ [OptVal.str "user", .str "fd", .str "cs"] then v
  else t

/-- The type of derivatives after all assignments. -/
def lastType (ops : List (Bool × String × OptVal)) : OptVal :=
  ops.foldl (fun t op => if op.1 = true then t else typeAfter t op.2.1 op.2.2) (.str "user")

/-- The forms of finite differences. -/
def fdForms : List OptVal := [.str "forward", .str "backward", .str "central"]

end OpenMDAO
