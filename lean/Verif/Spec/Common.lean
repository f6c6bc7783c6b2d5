import Mathlib.Algebra.Ring.Defs
/-! Vocabulary shared by several property statements (no model code). -/
namespace OpenMDAO

/-- Inner product of two vectors. -/
def dot {α : Type} [Mul α] [Add α] [Zero α] (u v : List α) : α := (List.zipWith (· * ·) u v).sum

end OpenMDAO
