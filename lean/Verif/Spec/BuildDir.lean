import Verif.Model.BuildDir
/-!
# Specification: a directory structure in a nested dict
-/
namespace OpenMDAO

/-- The dict asks for the file `p` with this content. -/
inductive BTree.Leaf : BTree → List Nat → Nat → Prop
  | here {a k c r} : Leaf (.file a k c r) k c
  | file {a k c r p d} : Leaf r p d → Leaf (.file a k c r) p d
  | sub {a k s r p d} : Leaf s p d → Leaf (.dir a k s r) (k ++ p) d
  | dir {a k s r p d} : Leaf r p d → Leaf (.dir a k s r) p d

/-- The dict asks for the directory `p`. -/
inductive BTree.Folder : BTree → List Nat → Prop
  | here {a k s r} : Folder (.dir a k s r) k
  | file {a k c r p} : Folder r p → Folder (.file a k c r) p
  | sub {a k s r p} : Folder s p → Folder (.dir a k s r) (k ++ p)
  | dir {a k s r p} : Folder r p → Folder (.dir a k s r) p

/-- All keys are relative. -/
def BTree.Relative : BTree → Prop
  | .nil => True
  | .file a _ _ r => a = false ∧ r.Relative
  | .dir a _ s r => a = false ∧ s.Relative ∧ r.Relative

end OpenMDAO
