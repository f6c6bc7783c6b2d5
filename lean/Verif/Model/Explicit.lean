import Verif.Model.Connections
/-!
# Model of explicit connections

`Group.connect` (`openmdao/core/group.py:164-203`), `Group._get_explicit_connections` (`group.py:647-686`) and the part of `Problem.setup` that takes shape and value of a param from its source (`openmdao/core/problem.py:502-530`).
-/
namespace OpenMDAO

/-- The argument `src_indices` of `connect`: none, a string, integers (array or list of one dimension; negative ones are not modelled), or a sequence with something else in it. Iterators, which the check would use up, are not modelled. Serves `ConnCall` (`:183-184`). -/
inductive IdxArg
  | none
  | str
  | ints (l : List Nat)
  | other

/-- A call `connect(source, targets, src_indices)`; a single target is a list of one (`:183-184`). -/
structure ConnCall where
  source : String
  targets : List String
  idxs : IdxArg

/-- The checks of `src_indices` (`:186-200`). -/
def IdxArg.check : IdxArg → Except PyErr SrcIdx
  | .none => .ok .none
  | .str => .error .TypeError
  | .ints l => .ok (some l)
  | .other => .error .TypeError

/-- `connect` (`:164-203`): new contents of `self._src`. -/
def connectCall (src : ConnDict) (c : ConnCall) : Except PyErr ConnDict :=
  match c.idxs.check with
  | .error e => .error e
  | .ok i => .ok (c.targets.foldl (fun d t => dictAppend d t (c.source, i)) src)

/-- A group: `to_abs_uname`, `to_abs_pnames`, `_src` and its subgroups (components have no connections). Serves `explicitConns` (`:647-686`). -/
inductive CGroup
  | mk (toU : List (String × String)) (toP : List (String × List String)) (src : ConnDict) (subs : List CGroup)

/-- The absolute names of a source (`:665-673`). -/
def srcNames (toU : List (String × String)) (toP : List (String × List String)) (s : String) : Except PyErr (List String) :=
  match toU.lookup s with
  | some u => .ok [u]
  | none =>
    match toP.lookup s with
    | some l => .ok l
    | none => .error .NameError

/-- One source of a target (`:664-699`). -/
def explicitSrc (toU : List (String × String)) (toP : List (String × List String)) (tgt : String) (d : ConnDict) (s : String × SrcIdx) : Except PyErr ConnDict :=
  match srcNames toU toP s.1 with
  | .error e => .error e
  | .ok ss =>
    match toP.lookup tgt with
    | none => .error .NameError
    | some ts => .ok (ts.foldl (fun d t => ss.foldl (fun d a => dictAppend d t (a, s.2)) d) d)

/-- One target. Serves `explicitConns` (`:647-686`). -/
def explicitTgt (toU : List (String × String)) (toP : List (String × List String)) (d : ConnDict) (e : String × List (String × SrcIdx)) : Except PyErr ConnDict :=
  e.2.foldlM (explicitSrc toU toP e.1) d

/-- `d.update(new)`. Serves `explicitSubs` (`:656-657`). -/
def dictUpdate {α β : Type} [DecidableEq α] (d new : List (α × β)) : List (α × β) := new.foldl (fun d e => dictSet d e.1 e.2) d

mutual
/-- `_get_explicit_connections` (`:647-686`). -/
def explicitConns : CGroup → Except PyErr ConnDict
  | .mk toU toP src subs =>
    match explicitSubs subs [] with
    | .error e => .error e
    | .ok d => src.foldlM (explicitTgt toU toP) d
/-- The loop over the subgroups (`:656-657`). -/
def explicitSubs : List CGroup → ConnDict → Except PyErr ConnDict
  | [], d => .ok d
  | g :: gs, d =>
    match explicitConns g with
    | .error e => .error e
    | .ok n => explicitSubs gs (dictUpdate d n)
end

/-! ## Shapes from the source -/

/-- A value: a number, or an array with its shape and its entries row by row. Serves `takeShape` (`problem.py:508-523`). -/
inductive AVal (K : Type)
  | num (x : K)
  | arr (dims : List Nat) (data : List K)

/-- Metadata of a variable: `shape` (1 for a number, else a tuple; `()` means that none was given), `size`, value, `pass_by_obj`, `src_indices`. Serves `takeShape` (`problem.py:508-523`). -/
structure AMeta (K : Type) where
  shape : Option (List Nat)
  size : Nat
  val : AVal K
  pbo : Bool
  srcIdx : SrcIdx

variable {K : Type}

/-- `size` entries from `k * size` on. Serves `takeShape` (`problem.py:508-523`). -/
def rowOf (w k : Nat) (l : List K) : List K := (l.drop (k * w)).take w

/-- `val[np.array(idxs)]`: of an array of one dimension the entries, of others the rows. A number cannot be indexed. Serves `takeShape` (`problem.py:508-523`). -/
def npTake (v : AVal K) (l : List Nat) : Except PyErr (AVal K) :=
  match v with
  | .num _ => .error .TypeError
  | .arr [] _ => .error .IndexError
  | .arr (n :: rest) data =>
    if l.any fun k => decide (n ≤ k) then .error .IndexError
    else .ok (.arr (l.length :: rest) (l.flatMap fun k => rowOf rest.prod k data))

/-- Shape, size and value from the source (`problem.py:508-523`); a shape of one number is `none`, `()` is `some []`. -/
def takeShape (t s : AMeta K) (idxs : SrcIdx) : Except PyErr (AMeta K) :=
  match idxs with
  | none => .ok { t with shape := s.shape, size := s.size, val := s.val }
  | some l => (npTake s.val l).map fun v => { t with shape := some [l.length], size := l.length, val := v }

/-- `src_indices` in the metadata (`:526-530`). -/
def keepIdx (t : AMeta K) (idxs : SrcIdx) : AMeta K :=
  match idxs with
  | none => t
  | some l => { t with srcIdx := some l }

/-- One connection (`:502-530`): target, source and indices. -/
def shapeStep (unknowns : List (String × AMeta K)) (params : List (String × AMeta K)) (c : String × String × SrcIdx) : Except PyErr (List (String × AMeta K)) :=
  match params.lookup c.1 with
  | none => .error .KeyError
  | some t =>
    if t.pbo then .ok params
    else if t.shape = some [] then
      match unknowns.lookup c.2.1 with
      | none => .error .KeyError
      | some s =>
        match takeShape t s c.2.2 with
        | .error e => .error e
        | .ok t' => .ok (dictSet params c.1 (keepIdx t' c.2.2))
    else .ok (dictSet params c.1 (keepIdx t c.2.2))

/-- The loop over the connections. `problem.py:502-523`. -/
def shapeLoop (unknowns params : List (String × AMeta K)) (conns : List (String × String × SrcIdx)) : Except PyErr (List (String × AMeta K)) :=
  conns.foldlM (shapeStep unknowns) params

end OpenMDAO
