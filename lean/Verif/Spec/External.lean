import Verif.Model.External
/-!
# Specification of file variables, external codes and file searches
-/
namespace OpenMDAO

/-- The contents of the file a `FileRef` refers to. -/
def Disk.contents (D : Disk) (f : FileRef) : Option (List Char) := D.data (D.real f.abspath)

/-- The exception class for failures of the external code, as documented for `fail_hard`. -/
def failClass (hard : Bool) : PyErr := if hard then .RuntimeError else .AnalysisError

/-- All files exist. -/
def ExtOps.AllExist {S : Type} (O : ExtOps S) (files : List String) (s : S) : Prop := ∀ f ∈ files, O.fileExists f s = true

/-- `f` is a file in the directory reached from the tree by the directories `p`. -/
inductive FTree.Has : FTree → List String → String → Prop where
  | here {files dirs f} : f ∈ files → FTree.Has (.mk files dirs) [] f
  | sub {files dirs d t p f} : (d, t) ∈ dirs → FTree.Has t p f → FTree.Has (.mk files dirs) (d :: p) f

/-- Names are accepted that match the pattern, if one is given, and not the excluded one. -/
def Accepts (match_ exclude : Option (String → Bool)) (name : String) : Prop := (∀ m, match_ = some m → m name = true) ∧ (∀ x, exclude = some x → x name = false)

end OpenMDAO
