import Verif.Model.Paths
import Verif.Model.Promotes
import Mathlib.Data.List.Sort
import Mathlib.Data.List.Lex
import Mathlib.Data.List.Dedup
/-!
# Model of the reports about connections and params

`System.list_connections` (`openmdao/core/system.py:1249-1402`), `System.list_unit_conv` (`:1438-1498`), `System.list_params` (`:1500-1564`) and the lists of `Problem.check_setup` about params and components (`openmdao/core/problem.py:797-822`, `:833-844`, `:853-870`).

Names are texts. Every variable in a connection has an entry in the dictionaries of the problem, so `pdict[tgt]`, `udict[src]` and `to_prom_name[..]` are functions here.
-/
namespace OpenMDAO
set_option linter.unusedSectionVars false

/-- What the reports use of a problem: connections (target, source), units (the empty text if there are none), names promoted to the top. Serves `promText` (`:1297-1304`). -/
structure RProb where
  conns : List (Str × Str)
  punits : Str → Str
  uunits : Str → Str
  prom : Str → Str

/-- `'[%s]' % units` if there are units (`system.py:1294-1296`, `:1321-1323`). -/
def unitText (u : Str) : Str := if u = [] then [] else '[' :: u ++ [']']

/-- `name[len(relname):]` for names below `relname` (`:1306`, `:1327-1328`). -/
def belowRel (relname name : Str) : Str :=
  if relname ≠ [] ∧ (relname ++ ['.']) <+: name then name.drop relname.length else name

/-- The promoted name of a param with its source (`:1297-1304`). -/
def promText (P : RProb) (tgt : Str) (src : Option Str) : Str :=
  if P.prom tgt = tgt then [] else
    match src with
    | none => '(' :: P.prom tgt ++ [')']
    | some s => if P.prom tgt ≠ P.prom s then '(' :: P.prom tgt ++ [')'] else "(*)".toList

/-- `' '.join((a, b, c))`. Serves `paramText` (`:1292-1311`). -/
def join3 (a b c : Str) : Str := a ++ ' ' :: b ++ ' ' :: c

/-- `_param_str` (`:1292-1311`). -/
def paramText (P : RProb) (tgt : Str) (src : Option Str) (relname : Str) : Str :=
  let p := promText P tgt src
  let p' := if relname ≠ [] ∧ (relname ++ ['.']) <+: tgt then belowRel relname p else p
  join3 (belowRel relname tgt) p' (unitText (P.punits tgt))

/-- `{unconnected}`. Serves `addUnconnParams` (`:1379-1386`). -/
def unconnText : Str := "{unconnected}".toList

/-- A source as it is shown (`:1316-1329`). -/
def srcText (P : RProb) (relname src : Str) : Str :=
  if src.head? = some '{' then join3 src [] []
  else join3 (belowRel relname src) (if P.prom src = src then [] else '(' :: P.prom src ++ [')']) (unitText (P.uunits src))

/-- `{0:<{swid}}`. Serves `tableLine` (`:1286`). -/
def padTo (w : Nat) (s : Str) : Str := s ++ List.replicate (w - s.length) ' '

/-- A line (`:1286`). -/
def tableLine (w : Nat) (s t : Str) : Str := padTo w s ++ " -> ".toList ++ t ++ ['\n']

/-- The lines of a source (`:1335-1337`); the source is shown in the first one. -/
def srcLines (w : Nat) (e : Str × List Str) : List Str :=
  (e.2.insertionSort (· ≤ ·)).zipIdx.map fun x => tableLine w (if x.2 = 0 then e.1 else []) x.1

/-- `_write` (`:1313-1337`). -/
def writeConns (P : RProb) (bySrc : List (Str × List Str)) (relname : Str) : Str :=
  let d := bySrc.foldl (fun d e => dictSet d (srcText P relname e.1) e.2) []
  let w := (d.map fun e => e.1.length).foldl max 0
  ((d.insertionSort fun a b => a.1 ≤ b.1).flatMap (srcLines w)).flatten

/-- `scope` (`:1366`), also `name` in `list_params` (`:1523-1525`). -/
def scopeOf (pathname : Str) : Str := if pathname = [] then [] else pathname ++ ['.']

/-- The connections of a system by source (`:1370-1377`). -/
def connsBySrc (P : RProb) (pathname relname : Str) : List (Str × List Str) :=
  P.conns.foldl (fun d c =>
    if scopeOf pathname <+: c.2 ∨ scopeOf pathname <+: c.1 then dictAppend d c.2 (paramText P c.1 (some c.2) relname) else d) []

/-- The unconnected params (`:1379-1386`). -/
def addUnconnParams (P : RProb) (relname : Str) (params : List Str) (d : List (Str × List Str)) : List (Str × List Str) :=
  params.foldl (fun d p => if (P.conns.lookup p).isSome then d else dictAppend d unconnText (paramText P p none relname)) d

/-- The unconnected unknowns (`:1387-1389`). -/
def addUnconnUnknowns (unknowns : List Str) (d : List (Str × List Str)) : List (Str × List Str) :=
  unknowns.foldl (fun d u => if (d.lookup u).isSome then d else dictSet d u [unconnText]) d

/-- `_list_conns` (`:1364-1391`) for a system with its params and unknowns. -/
def listConns (P : RProb) (pathname relname : Str) (params unknowns : List Str) (unconnected : Bool) : Str :=
  let d := connsBySrc P pathname relname
  writeConns P (if unconnected then addUnconnUnknowns unknowns (addUnconnParams P relname params d) else d) relname

/-- The variables `list_connections` finds for a name (`:1341-1352`): the name itself if it is an absolute name; otherwise all variables whose name in some subsystem matches. `systems` lists for each system the names of its variables in its own scope with their absolute names; `pat` is `fnmatch(n, name)`. -/
def matchedVars (absNames : List Str) (systems : List (List (Str × Str))) (pat : Str → Bool) (name : Str) : List Str :=
  if name ∈ absNames then [name]
  else ((systems.flatMap fun s => s.filter fun v => pat v.1).map Prod.snd).dedup

/-- `_list_var_connections` (`:1339-1362`). -/
def listVarConns (P : RProb) (absNames : List Str) (systems : List (List (Str × Str))) (pat : Str → Bool) (name : Str) : Except PyErr Str :=
  let names := matchedVars absNames systems pat name
  if names = [] then .error .KeyError
  else .ok (writeConns P (P.conns.foldl (fun d c => names.foldl (fun d a =>
    if c.1 = a ∨ c.2 = a then dictAppend d c.2 (paramText P c.1 (some c.2) []) else d) d) []) [])

/-- A component in `list_connections`. Serves `compConns` (`:1395-1398`). -/
structure RComp where
  pathname : Str
  params : List Str
  unknowns : List Str

/-- The part of `list_connections` for a component (`:1395-1398`). -/
def compConns (P : RProb) (unconnected : Bool) (c : RComp) : Str :=
  let line := "Connections for ".toList ++ c.pathname ++ [':']
  ['\n'] ++ line ++ ['\n'] ++ List.replicate line.length '-' ++ ['\n'] ++ listConns P c.pathname c.pathname c.params c.unknowns unconnected

/-- `list_connections(group_by_comp=True)` (`:1394-1398`). -/
def listByComp (P : RProb) (unconnected : Bool) (comps : List RComp) : Str := comps.flatMap (compConns P unconnected)

/-! ## Params and units -/

/-- The lists of `list_params` (`:1520-1527`): unconnected params, params connected to a source outside. -/
def listParams (P : RProb) (pathname : Str) (params : List Str) : List Str × List Str :=
  (params.filter fun p => !(P.conns.lookup p).isSome,
   params.filter fun p => match P.conns.lookup p with
     | none => false
     | some s => !decide (scopeOf pathname <+: s))

/-- `s.lstrip(chars)`. Serves `outLine` (`:1559-1561`). -/
def lstrip (chars s : Str) : Str := s.dropWhile fun c => c ∈ chars

/-- The line of an unconnected param (`:1538-1546`); `prom` is its name in the scope of the system. -/
def unconnLine (pathname : Str) (prom : Str → Str) (p : Str) : Str :=
  let q := if scopeOf pathname <+: p then p.drop (scopeOf pathname).length else p
  if prom p ≠ q then q ++ " (".toList ++ prom p ++ "))".toList else q

/-- The line of a param that is connected to a source outside (`:1559-1561`). -/
def outLine (pathname p src : Str) : Str := lstrip (scopeOf pathname) p ++ ": connected to '".toList ++ src ++ ['\'']

/-- Metadata that `list_unit_conv` uses: units, whether there is a conversion. Whether a variable is passed by object only adds a remark to the printed line, which is not modelled. Serves `unitStep` (`:1460-1481`). -/
structure RMeta where
  units : Option Str
  conv : Bool

/-- `bool(units)`. Serves `unitStep` (`:1460-1481`). -/
def hasUnits : Option Str → Bool
  | none => false
  | some u => !u.isEmpty

/-- One connection of `list_unit_conv` (`:1460-1481`). -/
def unitStep (pathname : Str) (pd ud : List (Str × RMeta)) (st : List ((Str × Str) × Option Str × Option Str)) (c : Str × Str) : List ((Str × Str) × Option Str × Option Str) :=
  match pd.lookup c.1 with
  | none => st
  | some t =>
    match ud.lookup c.2 with
    | none => st
    | some s =>
      if t.conv || (hasUnits t.units != hasUnits s.units) then dictSet st (nameRelativeTo pathname c.2, nameRelativeTo pathname c.1) (s.units, t.units) else st

/-- `unit_diffs` before it is sorted (`:1458-1481`). -/
def unitDiffs (P : RProb) (pathname : Str) (pd ud : List (Str × RMeta)) : List ((Str × Str) × Option Str × Option Str) := P.conns.foldl (unitStep pathname pd ud) []

/-- `sorted` of pairs by first and second entry. Serves `listUnitConv` (`:1483-1498`). -/
def pairLe (a b : Str × Str) : Prop := a.1 < b.1 ∨ a.1 = b.1 ∧ a.2 ≤ b.2

instance : DecidableRel pairLe := fun a b => by unfold pairLe; infer_instance

/-- `list_unit_conv`, the result (`:1483-1498`): the keys are distinct, so the values do not matter for the order. -/
def listUnitConv (P : RProb) (pathname : Str) (pd ud : List (Str × RMeta)) : List ((Str × Str) × Option Str × Option Str) :=
  (unitDiffs P pathname pd ud).insertionSort fun a b => pairLe a.1 b.1

/-! ## `check_setup` -/

/-- `_check_dangling_params` (`problem.py:797-815`). -/
def danglingParams (P : RProb) (params : List Str) : List Str :=
  ((params.filter fun p => !(P.conns.lookup p).isSome).map P.prom).dedup.insertionSort (· ≤ ·)

/-- `_check_no_unknown_comps` (`:833-844`). -/
def noUnknownComps (comps : List RComp) : List Str :=
  ((comps.filter fun c => c.unknowns.length = 0).map RComp.pathname).insertionSort (· ≤ ·)

/-- `t.rsplit('.', 1)[0]`. Serves `noConnectComps` (`:853-870`). -/
def beforeDot (t : Str) : Str :=
  if '.' ∈ t then ((t.reverse.dropWhile fun c => c ≠ '.').drop 1).reverse else t

/-- `_check_no_connect_comps` (`:853-870`). -/
def noConnectComps (P : RProb) (comps : List RComp) : List Str :=
  let cs := P.conns.map (fun c => beforeDot c.1) ++ P.conns.map fun c => beforeDot c.2
  ((comps.map RComp.pathname).filter fun c => c ∉ cs).insertionSort (· ≤ ·)

end OpenMDAO
