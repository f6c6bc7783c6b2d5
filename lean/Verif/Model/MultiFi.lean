import Verif.Model.MetaModel
/-!
# Model of the training of `MultiFiMetaModel`

`openmdao/components/multifi_meta_model.py`, for more than one level of fidelity (with one level `_train` is that of `Model/MetaModel`, lines 122-125). Per-level lists are functions of the level. When an exception is
raised the component's attributes afterwards are not modelled.
-/
namespace OpenMDAO

/-- `_get_name_fi` (`multifi_meta_model.py:7-11`). -/
def fiName (name : String) (fi : Nat) : String := if 0 < fi then name ++ "_fi" ++ toString (fi + 1) else name

/-- The component: number of levels, parameters and outputs with sizes, training data so far by level; a level of an output may be `None` (line 187: `outputs=self._nfi*[None]`). Serves `mfTrain` (`multifi_meta_model.py:117-222`). -/
structure MultiM (K : Type) where
  nfi : Nat
  params : List (String × Nat)
  outs : List (String × Nat)
  trainIn : Nat → List (List K)
  trainOut : List (String × (Nat → Option (List (List K))))

/-- `l[fi] = x`. Serves `mfTrain` (`multifi_meta_model.py:117-222`). -/
def atLevel {α : Type} (l : Nat → α) (fi : Nat) (x : α) : Nat → α := fun k => if k = fi then x else l k

section
variable {K : Type}

/-- Lines 129-139, one level: the variable `name` is assigned its own name with the level, so the levels after it start from the changed name. Serves `mfTrain` (`multifi_meta_model.py:117-222`). -/
def mfCountStep (data : TrainData K) (st : String × (Nat → Option Nat)) (fi : Nat) : Except PyErr (String × (Nat → Option Nat)) :=
  let name := fiName st.1 fi
  match trainVal data name with
  | .error e => .error e
  | .ok v =>
    match st.2 fi with
    | none => .ok (name, atLevel st.2 fi (some v.length))
    | some n => if v.length = n then .ok (name, st.2) else .error .RuntimeError

/-- Lines 128-139, one parameter. Serves `mfTrain` (`multifi_meta_model.py:117-222`). -/
def mfCountParam (nfi : Nat) (data : TrainData K) (num : Nat → Option Nat) (p : String × Nat) : Except PyErr (Nat → Option Nat) :=
  match (List.range nfi).foldlM (mfCountStep data) (p.1, num) with
  | .error e => .error e
  | .ok st => .ok st.2

/-- Lines 142-150, one level. Serves `mfTrain` (`multifi_meta_model.py:117-222`). -/
def mfCheckStep (data : TrainData K) (num : Nat → Option Nat) (name : String) (fi : Nat) : Except PyErr String :=
  match trainVal data (fiName name fi) with
  | .error e => .error e
  | .ok v => if some v.length = num fi then .ok (fiName name fi) else .error .RuntimeError

/-- Lines 141-150, one output. Serves `mfTrain` (`multifi_meta_model.py:117-222`). -/
def mfCheckOut (nfi : Nat) (data : TrainData K) (num : Nat → Option Nat) (_ : Unit) (o : String × Nat) : Except PyErr Unit :=
  match (List.range nfi).foldlM (mfCheckStep data num) o.1 with
  | .error e => .error e
  | .ok _ => .ok ()

/-- The result of `fillCol` or `fillRows` when there was no exception. Serves `mfTrain` (`multifi_meta_model.py:117-222`). -/
def noErr {α : Type} (r : α × Option PyErr) : Except PyErr α :=
  match r.2 with
  | some e => .error e
  | none => .ok r.1

/-- Lines 173-184, one level: column index and new rows of every level; as in `MetaModel` the index moves on only in the first branch. Serves `mfTrain` (`multifi_meta_model.py:117-222`). -/
def mfFillStep (data : TrainData K) (num : Nat → Nat) (sz : Nat) (st : String × (Nat → Nat × List (List K))) (fi : Nat) : Except PyErr (String × (Nat → Nat × List (List K))) :=
  if 0 < num fi then
    let name := fiName st.1 fi
    match trainVal data name with
    | .error e => .error e
    | .ok vs =>
      if firstFloat vs then
        match noErr (fillCol (st.2 fi).1 (st.2 fi).2 vs) with
        | .error e => .error e
        | .ok rows => .ok (name, atLevel st.2 fi ((st.2 fi).1 + 1, rows))
      else
        match noErr (fillRows (st.2 fi).1 sz (st.2 fi).2 vs) with
        | .error e => .error e
        | .ok rows => .ok (name, atLevel st.2 fi ((st.2 fi).1, rows))
  else .ok st

/-- Lines 172-184, one parameter. Serves `mfTrain` (`multifi_meta_model.py:117-222`). -/
def mfFillParam (nfi : Nat) (data : TrainData K) (num : Nat → Nat) (st : Nat → Nat × List (List K)) (p : String × Nat) : Except PyErr (Nat → Nat × List (List K)) :=
  match (List.range nfi).foldlM (mfFillStep data num p.2) (p.1, st) with
  | .error e => .error e
  | .ok r => .ok r.2

/-- `self._training_output[name][fi]` of the right shape (lines 197-198); a `None` or another shape is taken as an error (numpy would make `None` a NaN and stretch a single row). Serves `mfTrain` (`multifi_meta_model.py:117-222`). -/
def mfOld (m : MultiM K) (o : String) (fi nold sz : Nat) : Except PyErr (List (List K)) :=
  if nold = 0 then .ok []
  else
    match m.trainOut.lookup o with
    | none => .error .KeyError
    | some lv =>
      match lv fi with
      | none => .error .ValueError
      | some rows => if rows.length = nold ∧ rows.all (fun r => r.length = sz) then .ok rows else .error .ValueError

/-- Lines 190-215, one level of one output. `outputs` is shared by all outputs of the component (line 187). Without warm restart the list of the output becomes a copy of `outputs` (lines 201-205). Serves `mfTrain` (`multifi_meta_model.py:117-222`). -/
def mfOutStep [Zero K] (data : TrainData K) (warm : Bool) (num nold : Nat → Nat) (o : String × Nat) (st : MultiM K × (Nat → Option (List (List K)))) (fi : Nat) :
    Except PyErr (MultiM K × (Nat → Option (List (List K)))) :=
  if 0 < num fi then
    match mfOld st.1 o.1 fi (if warm then nold fi else 0) o.2 with
    | .error e => .error e
    | .ok old =>
      match trainVal data (fiName o.1 fi) with
      | .error e => .error e
      | .ok vs =>
        match noErr (fillOut o.2 (zeroRows (num fi) o.2) vs) with
        | .error e => .error e
        | .ok rows =>
          let outputs := atLevel st.2 fi (some (old ++ rows))
          let cur := (st.1.trainOut.lookup o.1).getD fun _ => none
          .ok ({ st.1 with trainOut := dictSet st.1.trainOut o.1 (if warm then atLevel cur fi (some (old ++ rows)) else outputs) }, outputs)
  else .ok st

/-- A call `surrogate.train_multifi(inputs, outputs)` of an output, by level. Serves `mfTrain` (`multifi_meta_model.py:117-222`). -/
abbrev MfCall (K : Type) := String × List (List (List K)) × List (Option (List (List K)))

/-- Lines 189-220, one output with the call of its surrogate. Serves `mfTrain` (`multifi_meta_model.py:117-222`). -/
def mfOut [Zero K] (data : TrainData K) (warm : Bool) (num nold : Nat → Nat) (st : (MultiM K × (Nat → Option (List (List K)))) × List (MfCall K)) (o : String × Nat) :
    Except PyErr ((MultiM K × (Nat → Option (List (List K)))) × List (MfCall K)) :=
  match (List.range st.1.1.nfi).foldlM (mfOutStep data warm num nold o) st.1 with
  | .error e => .error e
  | .ok s =>
    match s.1.trainOut.lookup o.1 with
    | none => .error .KeyError
    | some lv => .ok (s, st.2 ++ [(o.1, (List.range s.1.nfi).map s.1.trainIn, (List.range s.1.nfi).map lv)])

/-- All levels counted (a component without parameters has `None`, with which no matrix can be made). Serves `mfTrain` (`multifi_meta_model.py:117-222`). -/
def mfCounted (nfi : Nat) (num : Nat → Option Nat) : Except PyErr (Nat → Nat) :=
  if (List.range nfi).all fun fi => (num fi).isSome then .ok fun fi => (num fi).getD 0 else .error .TypeError

/-- `MultiFiMetaModel._train` (`multifi_meta_model.py:117-222`). -/
def mfTrain [Zero K] (m : MultiM K) (warm : Bool) (data : TrainData K) : Except PyErr (MultiM K × List (MfCall K)) :=
  match m.params.foldlM (mfCountParam m.nfi data) (fun _ => none) with
  | .error e => .error e
  | .ok cnt =>
    match m.outs.foldlM (mfCheckOut m.nfi data cnt) () with
    | .error e => .error e
    | .ok () =>
      match mfCounted m.nfi cnt with
      | .error e => .error e
      | .ok num =>
        match m.params.foldlM (mfFillParam m.nfi data num) (fun fi => (0, zeroRows (num fi) (m.params.map (·.2)).sum)) with
        | .error e => .error e
        | .ok cells =>
          match m.outs.foldlM (mfOut data warm num fun fi => (m.trainIn fi).length)
            (({ m with trainIn := fun fi => (if warm then m.trainIn fi else []) ++ (cells fi).2 }, fun _ => none), []) with
          | .error e => .error e
          | .ok s => .ok (s.1.1, s.2)

end

end OpenMDAO
