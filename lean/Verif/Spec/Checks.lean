import Verif.Model.Checks
/-!
# Specification: connection checks
-/
namespace OpenMDAO

/-- Number of entries a source has over all processes. -/
def EntriesOf (s : SrcMeta) (n : Nat) : Prop := (s.md.srcIdx = none ∧ n = s.md.size) ∨ (s.md.srcIdx ≠ none ∧ s.distrib = some n)

/-- The parameter refers to this file. -/
def RefersTo (t : DeclMeta) (f : Nat) : Prop := ∃ b, t.val = .file f b

/-- Values of the same Python type that are no file references: two floats, two arrays, two values of one other type. -/
inductive SameKind : ChkVal → ChkVal → Prop where
  | real : SameKind .real .real
  | array (l l' : List Nat) (b b' : Bool) : SameKind (.array l b) (.array l' b')
  | other (ty : Nat) : SameKind (.other ty) (.other ty)

/-- Two file references, both binary or both not (a missing flag counts as not binary). -/
def SameFileKind (a b : ChkVal) : Prop := ∃ f x f' x', a = .file f x ∧ b = .file f' x' ∧ (x = some true ↔ x' = some true)

end OpenMDAO
