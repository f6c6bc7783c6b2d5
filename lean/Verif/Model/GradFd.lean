import Verif.Model.FiniteDiff
/-!
# Model of `Problem.calc_gradient` by finite differences

`openmdao/core/problem.py:1288-1295` (checks of the arguments) and `_calc_gradient_fd` (1312-1480) on one process, on top of the model of `fd_jacobian` (`Model/FiniteDiff.lean`).
Not modelled: names given as tuples (`get_fd_ikey`, 1399-1400) and `use_check`, which only selects other step sizes.
-/
namespace OpenMDAO

/-- What the function reads from the problem; `fd` has the connections, the slices of the vectors of root and the indices of interest. Serves `absParam` (`:1367-1377`). -/
structure GradEnv (K : Type) where
  fd : FdEnv K
  toAbsU : List (String × String)
  toAbsP : List (String × List String)
  dvScale : List (String × K)
  cnScale : List (String × K)

variable {K : Type} [Field K] [LinearOrder K]

/-- First target of a source in `root.connections` (`:1372-1375`, `:1408-1411`). -/
def firstTarget (conns : List (String × String)) (src : String) : Option String := (conns.find? fun c => c.2 == src).map (·.1)

/-- Entry of `abs_params` for one name (`:1367-1377`). -/
def absParam (G : GradEnv K) (name : String) : Except PyErr String :=
  if (G.fd.uslices.lookup name).isSome then
    match G.toAbsU.lookup name with
    | none => .error .KeyError
    | some a => .ok ((firstTarget G.fd.conns a).getD a)
  else .ok ((firstTarget G.fd.conns name).getD name)

/-- Loop at `:1416-1419`: the first param whose promoted name is `k`. The keys of the params of root are absolute names, so that `meta['pathname']` is the key. -/
def paramOfProm (toProm : List (String × String)) (k : String) : List String → Except PyErr String
  | [] => .ok k
  | key :: rest =>
    match toProm.lookup key with
    | none => .error .KeyError
    | some p => if p = k then .ok key else paramOfProm toProm k rest

/-- `get_fd_ikey` (`:1397-1421`). -/
def fdIkey (G : GradEnv K) (ikey : String) : Except PyErr String :=
  if (G.fd.pslices.lookup ikey).isSome then .ok ikey
  else
    let k := (firstTarget G.fd.conns ikey).getD ikey
    if (G.fd.pslices.lookup k).isSome then .ok k else paramOfProm G.fd.toProm k (G.fd.pslices.map (·.1))

/-- Second part of the key of a block (`:1434-1439`, `:1467-1472`). -/
def blockKey (G : GradEnv K) (Jfd : FdJac K) (u absKey : String) : Except PyErr String :=
  match fdIkey G absKey with
  | .error e => .error e
  | .ok k =>
    if (Jfd u k).isSome then .ok k
    else match G.toAbsP.lookup k with
      | none => .error .KeyError
      | some [] => .error .IndexError
      | some (a :: _) => .ok a

/-- `block *= f` for `f` the scale factor of a name, if there is one. Serves `gradDictCell` (`:1427-1447`). -/
def TMat.scaleBy (scale : List (String × K)) (name : String) (M : TMat K) : TMat K :=
  match scale.lookup name with
  | none => M
  | some f => { M with a := fun i j => M.a i j * f }

/-- Result of the dict format while it is built: `J[okey][ikey]` is the array that `Jfd` holds under a key, not a copy of it. Serves `gradDictCell` (`:1427-1447`). -/
structure GradDict (K : Type) where
  refs : List (String × List (String × (String × String)))
  mem : FdJac K

/-- `ikey in sparsity[okey]` (`:1429-1432`). -/
def spAllows (sparsity : Option (List (String × List String))) (okey ikey : String) : Except PyErr Bool :=
  match sparsity with
  | none => .ok true
  | some sp =>
    match sp.lookup okey with
    | none => .error .KeyError
    | some l => .ok (l.contains ikey)

/-- One pair of names in the dict format (`:1427-1447`); `ja` are the name and the entry of `abs_params`. -/
def gradDictCell (G : GradEnv K) (sparsity : Option (List (String × List String))) (okey : String) (D : GradDict K)
    (ja : String × String) : Except PyErr (GradDict K) :=
  match spAllows sparsity okey ja.1 with
  | .error e => .error e
  | .ok false => .ok D
  | .ok true =>
    match blockKey G D.mem okey ja.2 with
    | .error e => .error e
    | .ok k =>
      match D.mem okey k with
      | none => .error .KeyError
      | some M =>
        .ok ⟨dictSet D.refs okey (dictSet ((D.refs.lookup okey).getD []) ja.1 (okey, k)),
          D.mem.set okey k ((M.scaleBy G.dvScale ja.1).scaleBy G.cnScale okey)⟩

/-- One unknown in the dict format (`:1425-1447`). -/
def gradDictRow (G : GradEnv K) (sparsity : Option (List (String × List String))) (ins : List (String × String)) (D : GradDict K)
    (okey : String) : Except PyErr (GradDict K) :=
  ins.foldlM (gradDictCell G sparsity okey) { D with refs := dictSet D.refs okey [] }

/-- `J[okey][ikey]` of the finished dict. Serves `problem.py:1358-1480`. -/
def GradDict.get (D : GradDict K) (okey ikey : String) : Option (TMat K) :=
  ((D.refs.lookup okey).bind (·.lookup ikey)).bind fun r => D.mem r.1 r.2

/-- `J[r0:r0+M.m, c0:c0+M.n] = M`: the slice is clipped to the array; a dimension of the block has the size of the slice or is 1 and is repeated. Serves `gradArrCell` (`:1463-1483`). -/
def TMat.setBlock (J : TMat K) (r0 c0 : Nat) (M : TMat K) : Except PyErr (TMat K) :=
  let m := min (r0 + M.m) J.m - min r0 J.m
  let n := min (c0 + M.n) J.n - min c0 J.n
  if (M.m = m ∨ M.m = 1) ∧ (M.n = n ∨ M.n = 1) then
    .ok { J with a := fun i j =>
      if r0 ≤ i ∧ i < r0 + m ∧ c0 ≤ j ∧ j < c0 + n then M.a (if M.m = m then i - r0 else 0) (if M.n = n then j - c0 else 0) else J.a i j }
  else .error .ValueError

/-- `J[r0:r0+m, c0:c0+n] *= f` if the name has a scale factor. Serves `gradArrCell` (`:1463-1483`). -/
def TMat.scaleBlock (scale : List (String × K)) (name : String) (r0 c0 m n : Nat) (J : TMat K) : TMat K :=
  match scale.lookup name with
  | none => J
  | some f => { J with a := fun i j => if r0 ≤ i ∧ i < r0 + m ∧ c0 ≤ j ∧ j < c0 + n then J.a i j * f else J.a i j }

/-- State of the inner loop of the array format: `J`, `pi` and `rows` (not assigned before the first block). Serves `gradArrCell` (`:1463-1483`). -/
structure GradArr (K : Type) where
  J : TMat K
  pi : Nat
  rows : Option Nat

/-- One block of the array format (`:1463-1483`). -/
def gradArrCell (G : GradEnv K) (Jfd : FdJac K) (u : String) (ui : Nat) (S : GradArr K) (ja : String × String) : Except PyErr (GradArr K) :=
  match blockKey G Jfd u ja.2 with
  | .error e => .error e
  | .ok k =>
    match Jfd u k with
    | none => .error .KeyError
    | some M =>
      match S.J.setBlock ui S.pi M with
      | .error e => .error e
      | .ok J => .ok ⟨(J.scaleBlock G.dvScale ja.1 ui S.pi M.m M.n).scaleBlock G.cnScale u ui S.pi M.m M.n, S.pi + M.n, some M.m⟩

/-- One unknown of the array format (`:1461-1484`): state `(J, ui, rows)`; `rows` that was never assigned is an UnboundLocalError, a kind of NameError. -/
def gradArrRow (G : GradEnv K) (Jfd : FdJac K) (ins : List (String × String)) (st : TMat K × Nat × Option Nat) (u : String) :
    Except PyErr (TMat K × Nat × Option Nat) :=
  match ins.foldlM (gradArrCell G Jfd u st.2.1) ⟨st.1, 0, st.2.2⟩ with
  | .error e => .error e
  | .ok S =>
    match S.rows with
    | none => .error .NameError
    | some r => .ok (S.J, st.2.1 + r, some r)

/-- Number of rows or columns of a name (`:1446-1458`). -/
def gradSize (sl : List (String × (Nat × Nat))) (d : List (String × List Nat)) (x : String) : Except PyErr Nat :=
  match d.lookup x with
  | some l => .ok l.length
  | none => (fdSlice sl x).map (·.2)

/-- Sum of the sizes of a list of names. Serves `problem.py:1358-1480`. -/
def gradSizes (sl : List (String × (Nat × Nat))) (d : List (String × List Nat)) (names : List String) : Except PyErr Nat :=
  names.foldlM (fun n x => (gradSize sl d x).map (n + ·)) 0

/-- `abs_params` and the call of `fd_jacobian` (`:1363-1391`). -/
def gradJfd (G : GradEnv K) (indep unknown : List String) (s : FdSt K) : Except PyErr (List String × FdJac K × FdSt K) :=
  match indep.mapM (absParam G) with
  | .error e => .error e
  | .ok ps =>
    match fdJacobian G.fd ps (unknown.filter fun u => !indep.contains u) (unknown.filter fun u => indep.contains u) s with
    | .error e => .error e
    | .ok L => .ok (ps, L.jac, L.st)

/-- `_calc_gradient_fd(…, return_format='dict')`; the state of the model afterwards is returned as well. Serves `problem.py:1358-1480`. -/
def gradDict (G : GradEnv K) (sparsity : Option (List (String × List String))) (indep unknown : List String) (s : FdSt K) :
    Except PyErr (GradDict K × FdSt K) :=
  match gradJfd G indep unknown s with
  | .error e => .error e
  | .ok (ps, Jfd, s') => (unknown.foldlM (gradDictRow G sparsity (indep.zip ps)) ⟨[], Jfd⟩).map fun D => (D, s')

/-- `_calc_gradient_fd(…, return_format='array')`. Serves `problem.py:1358-1480`. -/
def gradArr (G : GradEnv K) (indep unknown : List String) (s : FdSt K) : Except PyErr (TMat K × FdSt K) :=
  match gradJfd G indep unknown s with
  | .error e => .error e
  | .ok (ps, Jfd, s') =>
    match gradSizes G.fd.uslices G.fd.qoi unknown, gradSizes G.fd.uslices G.fd.poi indep with
    | .ok m, .ok n => (unknown.foldlM (gradArrRow G Jfd (indep.zip ps)) (⟨m, n, fun _ _ => 0⟩, 0, none)).map fun st => (st.1, s')
    | .error e, _ => .error e
    | .ok _, .error e => .error e

/-- Choice of the method (`:1286-1311`): the checks of the arguments, then finite differences if asked for by `mode` or by the options of root. (The code compares the option with `is not 'user'`; identity of strings is taken as equality.) -/
inductive GradMethod
  | fd
  | linear (mode : String)
  deriving DecidableEq

/-- The choice, with the checks of the arguments (`problem.py:1286-1311`). -/
def gradMethod (mode fmt : String) (rootType : String) : Except PyErr GradMethod :=
  if mode ∉ ["auto", "fwd", "rev", "fd"] then .error .ValueError
  else if fmt ∉ ["array", "dict"] then .error .ValueError
  else if mode = "fd" ∨ rootType ≠ "user" then .ok .fd
  else .ok (.linear mode)

end OpenMDAO
