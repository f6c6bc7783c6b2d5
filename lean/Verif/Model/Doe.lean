import Verif.Model.ArrayUtil
import Mathlib.Algebra.Field.Defs
import Mathlib.Order.Defs.LinearOrder
import Mathlib.Data.Nat.Cast.Defs
/-!
# Model of the case generators of the design-of-experiments drivers

`openmdao/drivers/fullfactorial_driver.py`, `latinhypercube_driver.py`, `predeterminedruns_driver.py`. A design variable is its name and
the list of (lower, upper) bounds of its elements (scalar bounds already spread over the elements). A case is a list of
(name, values). Random choices are parameters.
-/
namespace OpenMDAO

/-- A design variable as the generators see it. Serves `fullFactorial` (`fullfactorial_driver.py:38-64`). -/
structure DoeVar (K : Type) where
  name : String
  bounds : List (K × K)
  deriving DecidableEq, Repr

/-- A case: values for every design variable. Serves `fullFactorial` (`fullfactorial_driver.py:38-64`). -/
abbrev DoeCase (K : Type) := List (String × List K)

/-- `itertools.product(*lists)`: the last list varies fastest. Serves `fullFactorial` (`fullfactorial_driver.py:38-64`). -/
def product {α : Type} : List (List α) → List (List α)
  | [] => [[]]
  | l :: ls => l.flatMap fun x => (product ls).map fun r => x :: r

variable {K : Type} [Field K]

/-- `numpy.linspace(low, high, num)` in exact arithmetic. Serves `fullFactorial` (`fullfactorial_driver.py:38-64`). -/
def linspace (low high : K) (num : Nat) : List K :=
  if num = 1 then [low]
  else (List.range num).map fun (i : Nat) => low + (i : K) * ((high - low) / ((num - 1 : Nat) : K))

/-- `FullFactorialDriver._build_runlist` (`fullfactorial_driver.py:38-64`). -/
def fullFactorial (levels : Nat) (dvs : List (DoeVar K)) : List (DoeCase K) :=
  let arrays := dvs.map fun v => product (v.bounds.map fun b => linspace b.1 b.2 levels)
  (product arrays).map fun comb => (dvs.map (·.name)).zip comb

/-! ### Latin hypercube -/

/-- A design: the list of its columns, each column the list of the bucket numbers of the samples. (The code stores the transpose.). Serves `randLhc` (`latinhypercube_driver.py:262-271`). -/
abbrev Lhc := List (List Nat)

/-- `_rand_latin_hypercube(n, k)` (`latinhypercube_driver.py:262-271`): one list is shuffled again for every column. `shuffles` are the
shuffle operations. -/
def randLhc (n : Nat) (shuffles : List (List Nat → List Nat)) : Lhc :=
  (shuffles.foldl (fun (st : List Nat × Lhc) f => (f st.1, st.2 ++ [f st.1])) (List.range n, [])).2

/-- One mutation of `perturb` (`latinhypercube_driver.py:229-238`): two entries of one column of the *original* design are written
crosswise into the new one. -/
def mutate (orig new : Lhc) (m : Nat × Nat × Nat) : Lhc :=
  match orig[m.1]? with
  | none => new
  | some col =>
    match col[m.2.1]?, col[m.2.2]? with
    | some a, some b => new.modify m.1 fun c => (c.set m.2.1 b).set m.2.2 a
    | _, _ => new

/-- `while el1 == el2: el2 = randint(0, n - 1)` (`latinhypercube_driver.py:233-235`): the first draw of the stream that differs; `none` if
the stream `draws` has no such draw (the loop goes on). -/
def drawSecond (el1 : Nat) (draws : List Nat) : Option Nat := draws.find? fun e => e != el1

/-- `_LHC_Individual.perturb` (`latinhypercube_driver.py:220-240`): `draw c` is the `c`-th random choice (column, el1, el2), the two elements being
distinct because of `drawSecond`. -/
def perturb (doe : Lhc) (mutationCount : Nat) (draw : Nat → Nat × Nat × Nat) : Lhc :=
  (List.range mutationCount).foldl (fun new c => mutate doe new (draw c)) doe

/-- Number of mutations in generation `it` (`latinhypercube_driver.py:296-303`) for a design with `n` columns. `rnd` is `round`, which differs
between Python 2 and 3 in the treatment of halves; `numpy.floor(0.85 * generations)` is taken exactly; a negative number gives an empty `range`. -/
def mutationCount (rnd : Rat → Int) (n generations it : Nat) : Nat :=
  let levelOff := 85 * generations / 100
  if it < levelOff ∧ 1 < levelOff then
    (rnd (1 + ((1 / 2 : Rat) * n - 1) * ((levelOff : Rat) - it) / ((levelOff : Rat) - 1))).toNat
  else 1

section
variable {R : Type} [LT R] [DecidableLT R]

/-- Best of the offspring of one generation (`latinhypercube_driver.py:304-313`); `phi` is `mmphi`, which is a function of the design. -/
def bestOffspring (phi : Lhc → R) (best : Lhc) (population count : Nat) (draw : Nat → Nat → Nat × Nat × Nat) : Lhc :=
  (List.range population).foldl (fun imp o =>
    if phi (perturb best count (draw o)) < phi imp then perturb best count (draw o) else imp) best

/-- `_mmlhs` (`latinhypercube_driver.py:287-318`): `draw it o c` is the random choice `c` of offspring `o` in generation `it`. -/
def mmlhs (rnd : Rat → Int) (phi : Lhc → R) (start : Lhc) (population generations : Nat) (draw : Nat → Nat → Nat → Nat × Nat × Nat) : Lhc :=
  (List.range generations).foldl (fun best it =>
    let imp := bestOffspring phi best population (mutationCount rnd start.length generations it) (draw it)
    if phi imp < phi best then imp else best) start

/-- `OptimizedLatinHypercubeDriver._get_lhc` (`latinhypercube_driver.py:158-173`): an individual is a value of `q` and a design; the criterion
`phi q` of each individual is taken with its own `q`. `draw q` are the random choices of the search for `q`. -/
def optLhc (rnd : Rat → Int) (phi : Nat → Lhc → R) (qs : List Nat) (start : Lhc) (population generations : Nat)
    (draw : Nat → Nat → Nat → Nat → Nat × Nat × Nat) : Lhc :=
  (qs.foldl (fun (best : Nat × Lhc) q =>
    let opt := mmlhs rnd (phi q) start population generations (draw q)
    if phi q opt < phi best.1 best.2 then (q, opt) else best) (1, start)).2
end

/-- The list of values of `q` (`latinhypercube_driver.py:151`). -/
def lhcQs : List Nat := [1, 2, 5, 10, 20, 50, 100]

/-- `_get_buckets(low, high)[k]` (`latinhypercube_driver.py:136-139`): walls `k` and `k + 1` of `linspace(low, high, n + 1)`. -/
def bucket (low high : K) (n k : Nat) : Except PyErr (K × K) :=
  match (linspace low high (n + 1))[k]?, (linspace low high (n + 1))[k + 1]? with
  | some a, some b => .ok (a, b)
  | _, _ => .error .IndexError

/-- `numpy.random.uniform(a, b)` for the random number `t`. Serves `lhcValue` (`latinhypercube_driver.py:80-93`). -/
def uniformAt (b : K × K) (t : K) : K := b.1 + (b.2 - b.1) * t

/-- Value of one element of one sample (`latinhypercube_driver.py:80-93`): element `j` counted over all design variables. An index
outside of the design is an IndexError. -/
def lhcValue (lhc : Lhc) (n i j : Nat) (b : K × K) (t : K) : Except PyErr K :=
  match lhc[j]? with
  | none => .error .IndexError
  | some col =>
    match col[i]? with
    | none => .error .IndexError
    | some k => (bucket b.1 b.2 n k).map fun w => uniformAt w t

/-- Elements of the design variables in counting order. Serves `lhcRunlist` (`latinhypercube_driver.py:47-94`). -/
def doeElems (dvs : List (DoeVar K)) : List (K × K) := dvs.flatMap (·.bounds)

/-- Values of all elements of sample `i`. `rnd i j` are the random numbers. The grouping of the elements into variables
follows the bounds (`regroup`). Serves `lhcRunlist` (`latinhypercube_driver.py:47-94`). -/
def lhcSample (lhc : Lhc) (n i : Nat) (dvs : List (DoeVar K)) (rnd : Nat → Nat → K) : Except PyErr (List K) :=
  ((doeElems dvs).zipIdx).mapM fun bj => lhcValue lhc n i bj.2 bj.1 (rnd i bj.2)

/-- Group a flat list of values by design variable. Serves `lhcRunlist` (`latinhypercube_driver.py:47-94`). -/
def regroup : List (DoeVar K) → List K → DoeCase K
  | [], _ => []
  | v :: vs, vals => (v.name, vals.take v.bounds.length) :: regroup vs (vals.drop v.bounds.length)

/-- `LatinHypercubeDriver._build_runlist` (`latinhypercube_driver.py:47-94`). -/
def lhcRunlist (lhc : Lhc) (n : Nat) (dvs : List (DoeVar K)) (rnd : Nat → Nat → K) : Except PyErr (List (DoeCase K)) :=
  (List.range n).mapM fun i => (lhcSample lhc n i dvs rnd).map (regroup dvs)

/-! ### Distribution over groups of processes -/

/-- `_distrib_build_runlist` (`predeterminedruns_driver.py:680-691`). -/
def distribRunlist {α : Type} (n id : Nat) (cases : List α) : List α :=
  (cases.zipIdx.filter fun ci => decide (ci.2 % n = id)).map (·.1)

/-- `LatinHypercubeDriver._distrib_build_runlist` (`latinhypercube_driver.py:96-126`): the jobs scattered to group `id`. -/
def scatterRunlist {α : Type} (n id : Nat) (cases : List α) : Except PyErr (List α) :=
  match evenlyDistribIdxs n cases.length with
  | .error e => .error e
  | .ok (sizes, offsets) =>
    match offsets[id]?, sizes[id]? with
    | some o, some s => .ok ((cases.drop o).take s)
    | _, _ => .error .IndexError

theorem sum_tails_lt {α : Type} (ls : List (List α)) (h : ¬ ∀ l ∈ ls, l = []) :
    (ls.map (List.length ∘ List.tail)).sum < (ls.map List.length).sum := by
  induction ls with
  | nil => simp at h
  | cons l ls ih =>
    simp only [List.map_cons, List.sum_cons, Function.comp_apply, List.length_tail]
    by_cases h2 : ∀ l ∈ ls, l = []
    · have hl : l ≠ [] := by
        intro e; apply h
        intro x hx
        rcases List.mem_cons.1 hx with rfl | hx
        · exact e
        · exact h2 x hx
      have : 0 < l.length := List.length_pos_iff.2 hl
      have h3 : (ls.map (List.length ∘ List.tail)).sum ≤ (ls.map List.length).sum := by
        clear h h2 ih
        induction ls with
        | nil => simp
        | cons a as ih => simp only [List.map_cons, List.sum_cons, Function.comp_apply, List.length_tail]; omega
      omega
    · have := ih h2
      omega

/-- The rounds of `_get_case_w_nones` (`predeterminedruns_driver.py:651-678`) over the first processes of all groups: as long as any group has a case
left, every group gets its next case or `None`. -/
def lockstep {α : Type} (ls : List (List α)) : List (List (Option α)) :=
  if _h : ∀ l ∈ ls, l = [] then []
  else ls.map List.head? :: lockstep (ls.map List.tail)
termination_by (ls.map List.length).sum
decreasing_by
  rw [List.map_map]
  have e := List.attach_map_val (l := ls) (f := List.length ∘ List.tail)
  exact lt_of_eq_of_lt (congrArg List.sum e) (sum_tails_lt ls _h)

/-- Number of times one process takes part in the `Allreduce` on the full communicator in `_run_par_doe` (`predeterminedruns_driver.py:495-523`), one for
each case, dummy or not. The first process of a group (`first`) goes through the rounds of `lockstep`; the others have no `_casecomm` and go through
their own cases only (`predeterminedruns_driver.py:658-660`). -/
def parDoeCalls {α : Type} (groups : List (List α)) (g : Nat) (first : Bool) : Except PyErr Nat :=
  match groups[g]? with
  | none => .error .IndexError
  | some l => .ok (if first then (lockstep groups).length else l.length)

/-- Processes of the run: (group, is it the first one of the group) for the sizes given by `evenly_distrib_idxs(num_par_doe, comm.size)`
(`predeterminedruns_driver.py:138-170`). -/
def parDoeProcs (sizes : List Nat) : List (Nat × Bool) :=
  sizes.zipIdx.flatMap fun sg => (List.range sg.1).map fun k => (sg.2, k == 0)

end OpenMDAO
