import Verif.Model.Driver
/-!
# Model of the constraint and design-vector handling of `openmdao/drivers/scipy_optimizer.py`

Names are character lists (`startswith`, `[4:]`). The call to `scipy.optimize.minimize` itself, recording and
printing are not modelled. The optimizer is one of `_constraint_grad_optimizers` (SLSQP).
-/
namespace OpenMDAO

variable {K : Type} [Field K] [LinearOrder K]

/-- `'2bl-'`. Serves `conDicts` (`scipy_optimizer.py:164-191`). -/
def dblPrefix : List Char := ['2', 'b', 'l', '-']

/-- Metadata of a constraint used by the optimizer: flat size and scaled bounds. Serves `conDicts` (`scipy_optimizer.py:164-191`). -/
structure SciCon (K : Type) where
  size : Nat
  lower : Option (NumArr K)
  upper : Option (NumArr K)
  equals : Option (NumArr K)

/-- One `con_dict`: `type == 'eq'` and `args = [name, j]`. Serves `conDicts` (`scipy_optimizer.py:164-191`). -/
structure ConDict where
  eq : Bool
  name : List Char
  idx : Nat
  deriving DecidableEq, Repr

/-- Body of the constraint loop of `run` for one constraint (`scipy_optimizer.py:164-191`). -/
def conDicts (name : List Char) (c : SciCon K) : List ConDict :=
  (List.range c.size).map (fun j => ⟨c.equals.isSome, name, j⟩) ++
  (if c.upper.isSome && c.lower.isSome then
    (List.range c.size).map (fun j => ⟨false, dblPrefix ++ name, j⟩) else [])

/-- The constraint loop of `run` (`scipy_optimizer.py:161-191`): the list handed to scipy and `con_idx`;
`i` is the running row offset. -/
def buildCons : Nat → List (List Char × SciCon K) → List ConDict × List (List Char × Nat)
  | _, [] => ([], [])
  | i, (name, c) :: rest =>
    let (ds, idx) := buildCons (i + c.size) rest
    (conDicts name c ++ ds, (name, i) :: idx)

/-- `if name.startswith('2bl-'): name = name[4:]; dbl_side = True`. Serves `confunc` (`scipy_optimizer.py:269-316`). -/
def splitDbl (name : List Char) : List Char × Bool :=
  if dblPrefix.isPrefixOf name then (name.drop 4, true) else (name, false)

/-- `bound[idx]` if an array, else `bound`. Serves `confunc` (`scipy_optimizer.py:269-316`). -/
def boundIdx (b : NumArr K) (idx : Nat) : Except PyErr K :=
  match b with
  | .s x => .ok x
  | .a l => match l[idx]? with
    | some x => .ok x
    | none => .error .IndexError

/-- `cons[name][idx]`. Serves `confunc` (`scipy_optimizer.py:269-316`). -/
def conVal (cache : List (List Char × List K)) (name : List Char) (idx : Nat) : Except PyErr K :=
  match cache.lookup name with
  | none => .error .KeyError
  | some l => match l[idx]? with
    | some x => .ok x
    | none => .error .IndexError

/-- `bound - cons[name][idx]`; `None` raises `TypeError`. Serves `confunc` (`scipy_optimizer.py:269-316`). -/
def boundMinus (b : Option (NumArr K)) (cache : List (List Char × List K)) (name : List Char) (idx : Nat) :
    Except PyErr K :=
  match b with
  | none => .error .TypeError
  | some b => do return (← boundIdx b idx) - (← conVal cache name idx)

/-- `_confunc` (`scipy_optimizer.py:269-316`); `cache` is `con_cache`. -/
def confunc (cons : List (List Char × SciCon K)) (cache : List (List Char × List K)) (name : List Char) (idx : Nat) :
    Except PyErr K :=
  match cons.lookup (splitDbl name).1 with
  | none => .error .KeyError
  | some m =>
    match m.equals with
    | some b => boundMinus (some b) cache (splitDbl name).1 idx
    | none =>
      match m.lower, (splitDbl name).2 with
      | some lo, false => do return (← conVal cache (splitDbl name).1 idx) - (← boundIdx lo idx)
      | _, _ => boundMinus m.upper cache (splitDbl name).1 idx

/-- `grad[grad_idx, :]` with `grad_idx = con_idx[name] + idx + 1`. Serves `congradfunc` (`scipy_optimizer.py:343-386`). -/
def gradRow (grad : List (List K)) (conIdx : List (List Char × Nat)) (name : List Char) (idx : Nat) :
    Except PyErr (List K) :=
  match conIdx.lookup name with
  | none => .error .KeyError
  | some i => match grad[i + idx + 1]? with
    | some r => .ok r
    | none => .error .IndexError

/-- `-row`. Serves `congradfunc` (`scipy_optimizer.py:343-386`). -/
def negRow (r : Except PyErr (List K)) : Except PyErr (List K) := do return (← r).map (fun x => -x)

/-- `_congradfunc` (`scipy_optimizer.py:343-386`). -/
def congradfunc (cons : List (List Char × SciCon K)) (grad : List (List K)) (conIdx : List (List Char × Nat))
    (name : List Char) (idx : Nat) : Except PyErr (List K) :=
  match cons.lookup (splitDbl name).1 with
  | none => .error .KeyError
  | some m =>
    match m.equals with
    | some _ => negRow (gradRow grad conIdx (splitDbl name).1 idx)
    | none =>
      match m.lower, (splitDbl name).2 with
      | some _, false => gradRow grad conIdx (splitDbl name).1 idx
      | _, _ => negRow (gradRow grad conIdx (splitDbl name).1 idx)

/-- `meta_low[j]` if an array else `meta_low` (`scipy_optimizer.py:146-158`), as `boundIdx`; the bounds of one
design variable (`scipy_optimizer.py:143-158`). -/
def desvarBounds (size : Nat) (lower upper : NumArr K) : Except PyErr (List (K × K)) :=
  (List.range size).mapM fun j => do return ((← boundIdx lower j), (← boundIdx upper j))

/-- `bounds` (`scipy_optimizer.py:130-158`) for the design variables `(size, lower, upper)` in order. -/
def buildBounds (ds : List (Nat × NumArr K × NumArr K)) : Except PyErr (List (K × K)) := do
  return (← ds.mapM fun d => desvarBounds d.1 d.2.1 d.2.2).flatten

/-- `x_init` (`scipy_optimizer.py:124-140`): the driver values of the design variables one after another. -/
def xInit (vals : List (List K)) : List K := vals.flatten

/-- The slices `x_new[i:i+size]` handed to `set_desvar` by `_objfunc` (`scipy_optimizer.py:240-244`). -/
def splitX : List Nat → List K → List (List K)
  | [], _ => []
  | n :: ns, x => x.take n :: splitX ns (x.drop n)

end OpenMDAO
