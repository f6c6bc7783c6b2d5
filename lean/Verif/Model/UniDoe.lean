import Verif.Model.Doe
/-!
# Model of the uniform design of experiments

`UniformDriver._build_runlist` (`openmdao/drivers/uniform_driver.py:36-59`), run in serial (`predeterminedruns_driver.py:474-496`). The runlist is a
generator: a sample is drawn when the case before it has been run, from the generator of numpy that the whole process shares. Exceptions
of the model are left out.
-/
namespace OpenMDAO
variable {K σ : Type}

/-- `meta['lower']` or `meta['upper']`: a number or an array. Serves `uniBound` (`uniform_driver.py:49-54`). -/
inductive UniBound (K : Type) where
  | num (x : K)
  | arr (l : List K)

/-- A design variable (`uniform_driver.py:44-45`). -/
structure UniVar (K : Type) where
  name : String
  size : Nat
  low : UniBound K
  high : UniBound K

/-- A case: names and values (`uniform_driver.py:57`). -/
abbrev UniCase (K : Type) := List (String × List K)

/-- `low`, or `low[k]` of an array (`uniform_driver.py:49-54`). -/
def uniBound (b : UniBound K) (k : Nat) : Except PyErr K :=
  match b with
  | .num x => .ok x
  | .arr l =>
    match l[k]? with
    | some x => .ok x
    | none => .error .IndexError

/-- `np.random.uniform(low, high)` for entry `k` (`uniform_driver.py:49-56`); `draw` gives a number between 0 and 1 and the next state of the
generator. Exact arithmetic. -/
def uniEntry [Field K] (draw : σ → K × σ) (v : UniVar K) (k : Nat) (s : σ) : Except PyErr (K × σ) :=
  match uniBound v.low k, uniBound v.high k with
  | .ok l, .ok h => .ok (uniformAt (l, h) (draw s).1, (draw s).2)
  | .error e, _ => .error e
  | .ok _, .error e => .error e

/-- The loop over the entries (`uniform_driver.py:46-56`), from entry `k` on. -/
def uniEntries [Field K] (draw : σ → K × σ) (v : UniVar K) : Nat → Nat → σ → Except PyErr (List K × σ)
  | 0, _, s => .ok ([], s)
  | n + 1, k, s =>
    match uniEntry draw v k s with
    | .error e => .error e
    | .ok (x, s1) =>
      match uniEntries draw v n (k + 1) s1 with
      | .error e => .error e
      | .ok (xs, s2) => .ok (x :: xs, s2)

/-- One sample (`uniform_driver.py:43-57`). -/
def uniSample [Field K] (draw : σ → K × σ) : List (UniVar K) → σ → Except PyErr (UniCase K × σ)
  | [], s => .ok ([], s)
  | v :: vs, s =>
    match uniEntries draw v v.size 0 s with
    | .error e => .error e
    | .ok (xs, s1) =>
      match uniSample draw vs s1 with
      | .error e => .error e
      | .ok (c, s2) => .ok ((v.name, xs) :: c, s2)

/-- The run (`uniform_driver.py:42-59`, `predeterminedruns_driver.py:479-495`): the cases that were run, and the exception if there is one. `model` is what
running a case does to the generator of random numbers. -/
def uniLoop [Field K] (draw : σ → K × σ) (model : UniCase K → σ → σ) (vs : List (UniVar K)) : Nat → σ → List (UniCase K) × Option PyErr
  | 0, _ => ([], none)
  | n + 1, s =>
    match uniSample draw vs s with
    | .error e => ([], some e)
    | .ok (c, s1) => (c :: (uniLoop draw model vs n (model c s1)).1, (uniLoop draw model vs n (model c s1)).2)

/-- The state of the generator at the start (`uniform_driver.py:39-40`). -/
def uniStart (seeded : Nat → σ) (seed : Option Nat) (s : σ) : σ :=
  match seed with
  | some k => seeded k
  | none => s

/-- With the seed (`uniform_driver.py:39-59`). -/
def uniRun [Field K] (draw : σ → K × σ) (seeded : Nat → σ) (model : UniCase K → σ → σ) (vs : List (UniVar K)) (n : Nat) (seed : Option Nat) (s : σ) :
    List (UniCase K) × Option PyErr :=
  uniLoop draw model vs n (uniStart seeded seed s)

end OpenMDAO
