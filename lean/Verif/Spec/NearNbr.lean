import Verif.Model.NearNbr
/-!
# What a nearest-neighbour query returns
-/
namespace OpenMDAO

/-- `q` returns, for every point, `n` different training points in order of their distance, and no other training point is nearer. -/
def IsNearest {N d : Nat} (pts : Fin (N + 1) → Fin d → ℝ) (n : Nat) (q : (Fin d → ℝ) → Nbrs N) : Prop :=
  ∀ z, (q z).all.length = n ∧ (q z).all.Nodup ∧ (q z).all.Pairwise (fun a b => eudist z (pts a) ≤ eudist z (pts b)) ∧
    ∀ a ∈ (q z).all, ∀ b, b ∉ (q z).all → eudist z (pts a) ≤ eudist z (pts b)

/-- No two training points have the same distance from the point. -/
def NoTies {N d : Nat} (pts : Fin (N + 1) → Fin d → ℝ) (z : Fin d → ℝ) : Prop := ∀ a b, eudist z (pts a) = eudist z (pts b) → a = b

end OpenMDAO
