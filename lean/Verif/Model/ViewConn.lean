import Verif.Model.Promotes
import Verif.Model.Numpy
/-!
# Model of the table of connections

`view_connections` (`openmdao/util/viewconns.py:22-141`), up to the data that is written to the html file. Numbers are not turned into text,
the sorting of the table and the lists of systems for the filters are left out.
-/
namespace OpenMDAO
variable {α K : Type}

/-- `system.unknowns[…]`: a float (no dimensions), or an array. Serves `viewTake` (`viewconns.py:63-68`). -/
structure ViewSrc (K : Type) where
  dims : Option (List Nat)
  flat : List K

/-- A parameter of the system: absolute name, value in the metadata, value in the vector, `unit_conv`. Serves `viewConnStep` (`viewconns.py:61-81`). -/
structure ViewParam (α K : Type) where
  name : α
  init : List K
  cur : List K
  conv : Option (K × K)

/-- The system: its parameters, its unknowns, and the connections of the whole problem (`viewconns.py:55-58`). -/
structure ViewSys (α K : Type) where
  params : List (ViewParam α K)
  unknowns : List (α × ViewSrc K)
  conns : List (α × (α × Option (List Int)))

/-- The data of the table (`viewconns.py:116-126`). -/
structure ViewTab (α K : Type) where
  src2tgts : List (α × List α)
  vals : List (α × List K)
  noconn : List α
  noconnSrcs : List α

/-- `a[i]` of an array with `n` rows of `w` entries: a row. Serves `viewTake` (`viewconns.py:66`). -/
def viewRow (n w : Nat) (flat : List K) (i : Int) : Except PyErr (List K) :=
  let j := if i < 0 then i + n else i
  if j < 0 ∨ (n : Int) ≤ j then .error .IndexError else .ok ((flat.drop (j.toNat * w)).take w)

/-- The value of the source at the given indices (`viewconns.py:65-68`). -/
def viewTake (S : ViewSrc K) : Option (List Int) → Except PyErr (List K)
  | none => .ok S.flat
  | some l =>
    match S.dims with
    | some (n :: rest) => (l.mapM (viewRow n (rest.foldl (· * ·) 1) S.flat)).map List.flatten
    | _ => .error .IndexError

/-- In the units of the target (`viewconns.py:72-74`). -/
def viewConv [Add K] [Mul K] : Option (K × K) → List K → List K
  | none, v => v
  | some (scale, offset), v => v.map fun x => (x + offset) * scale

/-- The loop over the parameters (`viewconns.py:61-88`). -/
def viewConnStep [DecidableEq α] [Add K] [Mul K] (M : ViewSys α K) (st : List (α × List α) × List (α × List K)) (p : ViewParam α K) :
    Except PyErr (List (α × List α) × List (α × List K)) :=
  match M.conns.lookup p.name with
  | none => .ok (st.1, dictSet st.2 p.name p.init)
  | some (s, idxs) =>
    match M.unknowns.lookup s with
    | none => .error .KeyError
    | some S =>
      match viewTake S idxs with
      | .error e => .error e
      | .ok v => .ok (dictAppend st.1 s p.name, dictSet st.2 p.name (viewConv p.conv v))

/-- `view_connections` (`viewconns.py:55-126`). -/
def viewConns [DecidableEq α] [Add K] [Mul K] (M : ViewSys α K) : Except PyErr (ViewTab α K) :=
  match M.params.foldlM (viewConnStep M) ([], []) with
  | .error e => .error e
  | .ok st =>
    let srcs := M.unknowns.filter fun u => (st.1.lookup u.1).isNone
    .ok { src2tgts := st.1
          vals := srcs.foldl (fun d u => dictSet d u.1 u.2.flat) st.2
          noconn := (M.params.map ViewParam.name).filter fun t => (M.conns.lookup t).isNone
          noconnSrcs := srcs.map Prod.fst }

end OpenMDAO
