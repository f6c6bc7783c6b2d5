import Verif.Model.MakeDirs
/-!
# Specification: directories that a model needs
-/
namespace OpenMDAO

/-- A system below `parent` needs the directory `p`: its own one, if it is to be created, or that of a file. `c` says if the system may create it. -/
inductive MakeTree.Needs : List String → MakeTree → Bool → List String → Prop
  | own {parent d files subs} : Needs parent (.node d true files subs) true (if d.abs then d.parts else parent ++ d.parts)
  | file {parent d c files subs f dir} : f ∈ files → dir = (if d.abs then d.parts else parent ++ d.parts) →
      Needs parent (.node d c files subs) c (if f.abs then f.parts else dir ++ f.parts).dropLast
  | sub {parent d c files subs t c' p} : t ∈ subs → Needs (if d.abs then d.parts else parent ++ d.parts) t c' p →
      Needs parent (.node d c files subs) c' p

/-- From `fs` to `fs'` nothing is lost or changed, and what is new are directories on the way to a directory with the property `S`. -/
def GrowsBy (S : List String → Prop) (fs fs' : MakeFs) : Prop :=
  ∀ q, fs' q = fs q ∨ fs q = none ∧ fs' q = some .dir ∧ ∃ p, S p ∧ q <+: p

end OpenMDAO
