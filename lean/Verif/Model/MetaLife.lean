import Verif.Model.Numpy
/-!
# Model of `MetaModel`: when its surrogates are made, trained and asked

`openmdao/components/meta_model.py`. Surrogates are objects: an output refers to one by its address, so that two outputs may refer to
the same one. What a surrogate does is a parameter (`SurOps`); it is taken that `predict` does not change the surrogate. The data
handed to `train` are those of `Model/MetaModel`; here they are an argument.
-/
namespace OpenMDAO

/-- A class of surrogates: `train` gives the new state and perhaps an exception, `predict` reads the state. Serves `mlTrainLoop`, `mlPredict`
(`meta_model.py:363-365`, `210-213`). -/
structure SurOps (S D X Y : Type) where
  train : S → D → S × Option PyErr
  predict : S → X → Except PyErr Y

/-- What the loops of `_train` make of the values `train:…` at the time of the call (`meta_model.py:283-361`): the exception of the
checks and of the inputs matrix, which comes before any surrogate is trained, and the matrices for each output. -/
structure TrainSet (D : Type) where
  pre : Option PyErr
  out : String → Except PyErr D

/-- The component (`meta_model.py:52-77`): output names, `_init_unknowns_dict[name]['surrogate']` and `['default_surrogate']`,
`default_surrogate`, `train`, and the memory: the state of the object at an address, addresses from `next` on are free. -/
structure MetaObj (S : Type) where
  outs : List String
  sur : String → Option Nat
  useDef : String → Bool
  dflt : Option Nat
  heap : Nat → S
  next : Nat
  train : Bool

variable {S D X Y : Type}

/-- Write at one key. Serves `mlCopy`, `mlTrainLoop`, `mlPredict` (`meta_model.py:157-158`, `365`, `213`). -/
def putKey {κ α : Type} [DecidableEq κ] (f : κ → α) (k : κ) (v : α) : κ → α := fun k' => if k' = k then v else f k'

/-- `add_output(name, surrogate=…)` (`meta_model.py:106-140`), the part on surrogates. -/
def MetaObj.addOut (m : MetaObj S) (name : String) (s : Option Nat) : MetaObj S :=
  { m with outs := m.outs ++ [name], sur := putKey m.sur name s, useDef := putKey m.useDef name s.isNone }

/-- `surrogate = deepcopy(self.default_surrogate)` for one output (`meta_model.py:155-158`). -/
def mlCopy (a : Nat) (m : MetaObj S) (name : String) : MetaObj S :=
  if m.useDef name then
    { m with sur := putKey m.sur name (some m.next), heap := putKey m.heap m.next (m.heap a), next := m.next + 1 }
  else m

/-- `_setup_variables` (`meta_model.py:142-163`), the part on surrogates. -/
def MetaObj.setup (m : MetaObj S) : MetaObj S :=
  match m.dflt with
  | none => { m with train := true }
  | some a => { m.outs.foldl (mlCopy a) m with train := true }

/-- The state of one surrogate changes. Serves `mlTrainLoop` (`meta_model.py:365`). -/
def MetaObj.put (m : MetaObj S) (a : Nat) (s : S) : MetaObj S := { m with heap := putKey m.heap a s }

/-- The loop over the outputs in `_train` (`meta_model.py:337-365`). -/
def mlTrainLoop (ops : SurOps S D X Y) (t : TrainSet D) : List String → MetaObj S → MetaObj S × Option PyErr
  | [], m => (m, none)
  | n :: ns, m =>
    match t.out n with
    | .error e => (m, some e)
    | .ok d =>
      match m.sur n with
      | none => mlTrainLoop ops t ns m
      | some a =>
        match (ops.train (m.heap a) d).2 with
        | some e => (m.put a (ops.train (m.heap a) d).1, some e)
        | none => mlTrainLoop ops t ns (m.put a (ops.train (m.heap a) d).1)

/-- `_train` (`meta_model.py:283-367`): the flag is cleared by the last line only. -/
def mlTrain (ops : SurOps S D X Y) (t : TrainSet D) (m : MetaObj S) : MetaObj S × Option PyErr :=
  match t.pre with
  | some e => (m, some e)
  | none =>
    match (mlTrainLoop ops t m.outs m).2 with
    | some e => ((mlTrainLoop ops t m.outs m).1, some e)
    | none => ({ (mlTrainLoop ops t m.outs m).1 with train := false }, none)

/-- The loop over the outputs in `solve_nonlinear` (`meta_model.py:210-216`). -/
def mlPredict (ops : SurOps S D X Y) (m : MetaObj S) (x : X) : List String → (String → Y) → (String → Y) × Option PyErr
  | [], u => (u, none)
  | n :: ns, u =>
    match m.sur n with
    | none => (u, some .RuntimeError)
    | some a =>
      match ops.predict (m.heap a) x with
      | .error e => (u, some e)
      | .ok y => mlPredict ops m x ns (putKey u n y)

/-- `solve_nonlinear` (`meta_model.py:188-216`): component, unknowns and exception afterwards. -/
def MetaObj.run (ops : SurOps S D X Y) (t : TrainSet D) (x : X) (m : MetaObj S) (u : String → Y) :
    MetaObj S × (String → Y) × Option PyErr :=
  if m.train then
    match (mlTrain ops t m).2 with
    | some e => ((mlTrain ops t m).1, u, some e)
    | none => ((mlTrain ops t m).1, mlPredict ops (mlTrain ops t m).1 x m.outs u)
  else (m, mlPredict ops m x m.outs u)

/-- What happens to a component: `setup()`, a run with the values the `train:…` params have then, or the user setting
`comp.train = True` (`meta_model.py:60-61`, `160-161`, `205-206`). -/
inductive MetaEvent (D X : Type) where
  | setup
  | run (t : TrainSet D) (x : X)
  | retrain

/-- One event (`meta_model.py:142-216`). -/
def metaStep (ops : SurOps S D X Y) (st : MetaObj S × (String → Y)) : MetaEvent D X → MetaObj S × (String → Y)
  | .setup => (st.1.setup, st.2)
  | .run t x => ((st.1.run ops t x st.2).1, (st.1.run ops t x st.2).2.1)
  | .retrain => ({ st.1 with train := true }, st.2)

end OpenMDAO
