import Verif.Model.Promotes
import Verif.Model.Graph
/-!
# Model of the relevance computation

`openmdao/core/relevance.py` (13-232). Names are dotted paths. The dictionaries `to_abs_uname` and `to_prom_name` are functions here: `Problem.setup` has checked before that every variable
of interest is an unknown (`problem.py:588-601`), and every name of a connection has a promoted name. Sets are lists of which only membership matters; edge weights are not modelled.
-/
namespace OpenMDAO

/-- What the computation reads: pathnames of all systems, connections `(target, source)`, the name maps and the grouped variables of interest. Serves `relSysGraph` (`relevance.py:125-149`). -/
structure RelInput where
  systems : List Path
  conns : List (Path × Path)
  absU : Path → Path
  prom : Path → Path
  inputs : List (List Path)
  outputs : List (List Path)

/-- `name.rsplit('.', 1)[0]`. Serves `sysGraphStep` (`relevance.py:140-147`). -/
def compPath (v : Path) : Path := if v.length ≤ 1 then v else v.dropLast

/-- One connection in `_setup_sys_graph` (`relevance.py:140-147`): an edge is added once. -/
def sysGraphStep (g : List (Path × Path)) (c : Path × Path) : List (Path × Path) :=
  if (compPath c.2, compPath c.1) ∈ g then g else g ++ [(compPath c.2, compPath c.1)]

/-- Edges of the system graph (`relevance.py:125-149`). -/
def relSysGraph (R : RelInput) : List (Path × Path) := R.conns.foldl sysGraphStep []

/-- `comp in sgraph`: a subsystem or an end of an edge. Serves `relSuccs` (`relevance.py:174-182`). -/
def inSysGraph (R : RelInput) (c : Path) : Bool :=
  decide (c ∈ R.systems) || (relSysGraph R).any fun e => decide (e.1 = c) || decide (e.2 = c)

/-- `succs[node]` (`relevance.py:174-182`). -/
def relSuccs (R : RelInput) (node : Path) : List Path :=
  if inSysGraph R (compPath (R.absU node)) then
    compPath (R.absU node) :: (dfsEdges (relSysGraph R) (compPath (R.absU node))).map Prod.snd
  else []

/-- `sgraph.reverse()`. Serves `relPreds` (`relevance.py:191-192`). -/
def relReverse (g : List (Path × Path)) : List (Path × Path) := g.map fun e => (e.2, e.1)

/-- `preds` of an output whose component is in the graph (`relevance.py:191-192`). -/
def relPreds (R : RelInput) (comp : Path) : List Path :=
  comp :: (dfsEdges (relReverse (relSysGraph R)) comp).map Prod.snd

/-- `relevant`: systems (later variables) for each variable of interest. Serves `relPair` (`relevance.py:195-197`). -/
abbrev RelTable := List (Path × List Path)

/-- `relevant[k].update(c)`; `k` is always a key. Serves `relPair` (`relevance.py:195-197`). -/
def relUpdate (t : RelTable) (k : Path) (c : List Path) : RelTable :=
  match t.lookup k with
  | some s => dictSet t k (s ++ c)
  | none => t

/-- `preds.intersection(succs[inp])`. Serves `relPair` (`relevance.py:195-197`). -/
def relCommon (R : RelInput) (comp inp : Path) : List Path := (relPreds R comp).filter fun s => decide (s ∈ relSuccs R inp)

/-- One pair of output and input (`relevance.py:195-197`). -/
def relPair (R : RelInput) (node : Path) (t : RelTable) (inp : Path) : RelTable :=
  relUpdate (relUpdate t node (relCommon R (compPath (R.absU node)) inp)) inp (relCommon R (compPath (R.absU node)) inp)

/-- One output (`relevance.py:185-197`): its entry is created anew, also when the name is an input as well. -/
def relOutput (R : RelInput) (t : RelTable) (node : Path) : RelTable :=
  if inSysGraph R (compPath (R.absU node)) then R.inputs.flatten.foldl (relPair R node) (dictSet t node [])
  else dictSet t node []

/-- The table of relevant components (`relevance.py:166-197`). -/
def relComps (R : RelInput) : RelTable :=
  R.outputs.flatten.foldl (relOutput R) (R.inputs.flatten.foldl (fun t node => dictSet t node []) [])

/-- Variables of interest whose component is relevant (`relevance.py:202-211`). -/
def relVois (R : RelInput) (t : RelTable) (comps : List Path) : List Path :=
  (t.map Prod.fst).filter fun n => decide (compPath (R.absU n) ∈ comps)

/-- What the connections contribute (`relevance.py:213-220`). -/
def relConnVars (R : RelInput) (comps : List Path) : List Path :=
  R.conns.flatMap fun c => if compPath c.1 ∈ comps ∧ compPath c.2 ∈ comps then [R.prom c.1, R.prom c.2] else []

/-- `self.relevant` without the entry for `None` (`relevance.py:202-220`). -/
def relVars (R : RelInput) : RelTable :=
  (relComps R).map fun e => (e.1, relVois R (relComps R) e.2 ++ relConnVars R e.2)

/-- The ancestors of a system, itself and the root excluded (`relevance.py:226-228`). -/
def ancestors (s : Path) : List Path := (List.range s.dropLast.length).map fun i => s.dropLast.take (i + 1)

/-- `self._relevant_systems` (`relevance.py:223-231`). -/
def relSystems (R : RelInput) : RelTable := (relComps R).map fun e => (e.1, e.2 ++ e.2.flatMap ancestors)

/-- `is_relevant` (`relevance.py:62-82`); every name is relevant for `None`, which holds all promoted names (`relevance.py:46-49`). -/
def isRelevant (R : RelInput) (voi : Option Path) (var : Path) : Bool :=
  match voi with
  | none => true
  | some n =>
    match (relVars R).lookup n with
    | some s => decide (var ∈ s)
    | none => true

/-- `is_relevant_system` (`relevance.py:105-123`). -/
def isRelevantSystem (R : RelInput) (voi : Option Path) (sys : Path) : Except PyErr Bool :=
  match voi with
  | none => .ok true
  | some n =>
    match (relSystems R).lookup n with
    | some s => .ok (decide (sys ∈ s))
    | none => .error .KeyError

end OpenMDAO
