import Verif.Model.Numpy
/-!
# Model of `openmdao/util/array_util.py`
-/
namespace OpenMDAO

/-- `numpy.cumsum` on a list of naturals, started at `acc` (used at `array_util.py:52`). -/
def cumsumFrom (acc : Nat) : List Nat → List Nat
  | [] => []
  | x :: xs => (acc + x) :: cumsumFrom (acc + x) xs

/-- `numpy.cumsum` (used at `array_util.py:52`). -/
def cumsum (l : List Nat) : List Nat := cumsumFrom 0 l

/-- `sizes[:leftover] += 1` (`array_util.py:49`): add one to the first `k` entries. -/
def bumpFirst : Nat → List Nat → List Nat
  | 0, l => l
  | _, [] => []
  | k+1, x :: xs => (x + 1) :: bumpFirst k xs

/-- `evenly_distrib_idxs(num_divisions, arr_size)` (`array_util.py:23-54`).
Integer division by zero divisions is the only error. -/
def evenlyDistribIdxs (numDivisions arrSize : Nat) : Except PyErr (List Nat × List Nat) :=
  if numDivisions = 0 then .error .ZeroDivisionError
  else
    let base := arrSize / numDivisions                       -- :43
    let leftover := arrSize % numDivisions                   -- :44
    let sizes := bumpFirst leftover (List.replicate numDivisions base)   -- :45, :49
    -- :51-52  offsets = zeros; offsets[1:] = cumsum(sizes)[:-1]
    let offsets := 0 :: (cumsum sizes).dropLast
    .ok (sizes, offsets)

/-- `idxs[1:]-idxs[:-1] != stride` holds for some entry (`array_util.py:72`). -/
def strideBroken (stride : Int) : List Nat → Bool
  | a :: b :: rest => ((b : Int) - (a : Int) != stride) || strideBroken stride (b :: rest)
  | _ => false

/-- `to_slice(idxs)` (`array_util.py:56-77`). Index arrays contain non-negative integers. -/
def toSlice (idxs : List Nat) : Idx :=
  match idxs with
  | [a] => .slice ⟨a, a + 1, none⟩                           -- :61-62
  | [] => .arr []                                            -- :63-64
  | a :: b :: rest =>
    let stride : Int := (b : Int) - (a : Int)                -- :66
    if stride ≤ 0 then .arr (a :: b :: rest)                 -- :68-69
    else if strideBroken stride (a :: b :: rest) then .arr (a :: b :: rest)  -- :72-73
    else .slice ⟨a, (b :: rest).getLast (by simp) + stride.toNat, some stride.toNat⟩   -- :77

end OpenMDAO
