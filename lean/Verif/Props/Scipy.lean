import Verif.Model.Scipy
import Mathlib.Tactic.Linarith
import Mathlib.Tactic.FieldSimp
import Mathlib.Tactic.Ring
import Mathlib.Data.List.Basic
/-! # C24: constraints handed to SciPy -/
namespace OpenMDAO
set_option linter.unusedSectionVars false

variable {K : Type} [Field K] [LinearOrder K]

/-- Specification: entry `j` of a bound, a scalar bound applying to every entry. -/
def boundAt : NumArr K → Nat → Option K
  | .s x, _ => some x
  | .a l, j => l[j]?

/-- A bound has an entry for every element. -/
def boundFits (n : Nat) : NumArr K → Prop
  | .s _ => True
  | .a l => l.length = n

/-- What constraint registration guarantees (C23): either `equals` alone or at least one of `lower`, `upper`;
bounds are scalars or have the size of the constraint. -/
structure SciCon.Ok (c : SciCon K) : Prop where
  kind : (c.equals.isSome ∧ c.lower = none ∧ c.upper = none) ∨ (c.equals = none ∧ (c.lower.isSome ∨ c.upper.isSome))
  fits : ∀ b, c.equals = some b ∨ c.lower = some b ∨ c.upper = some b → boundFits c.size b

/-- Specification: element `j` of the constraint with value `v` satisfies what was declared. -/
def SciCon.Sat (c : SciCon K) (j : Nat) (v : K) : Prop :=
  (∀ b x, c.equals = some b → boundAt b j = some x → v = x) ∧
  (∀ b x, c.lower = some b → boundAt b j = some x → x ≤ v) ∧
  (∀ b x, c.upper = some b → boundAt b j = some x → v ≤ x)

/-- The constraints of a driver: distinct names, none of which starts with the marker `2bl-`. -/
structure SciConsOk (cons : List (List Char × SciCon K)) : Prop where
  nodup : (cons.map Prod.fst).Nodup
  noPrefix : ∀ p ∈ cons, dblPrefix.isPrefixOf p.1 = false
  ok : ∀ p ∈ cons, p.2.Ok

/-- `cache` holds the value `v name` of every constraint. -/
def CacheOk (cons : List (List Char × SciCon K)) (v : List Char → Nat → K) (cache : List (List Char × List K)) : Prop :=
  ∀ p ∈ cons, ∃ l, cache.lookup p.1 = some l ∧ ∀ j, j < p.2.size → l[j]? = some (v p.1 j)

omit [LinearOrder K] [Field K] in
theorem boundIdx_ok {n : Nat} {b : NumArr K} (h : boundFits n b) {j : Nat} (hj : j < n) :
    ∃ x, boundAt b j = some x ∧ boundIdx b j = .ok x := by
  cases b with
  | s x => exact ⟨x, rfl, rfl⟩
  | a l =>
    have : l[j]? = some (l[j]'(by rw [h]; exact hj)) := by simp
    exact ⟨_, this, by simp only [boundIdx, this]⟩

omit [LinearOrder K] [Field K] in
theorem lookup_of_mem_nodup {β : Type} {l : List (List Char × β)} (h : (l.map Prod.fst).Nodup) {p : List Char × β}
    (hp : p ∈ l) : l.lookup p.1 = some p.2 := by
  induction l with
  | nil => simp at hp
  | cons q l ih =>
    simp only [List.map_cons, List.nodup_cons] at h
    rcases List.mem_cons.mp hp with rfl | hp
    · exact List.lookup_cons_self
    · have : p.1 ≠ q.1 := by
        intro e; exact h.1 (List.mem_map.mpr ⟨p, hp, e⟩)
      have hb : (p.1 == q.1) = false := by simpa using this
      rw [List.lookup_cons, hb]
      exact ih h.2 hp

omit [LinearOrder K] [Field K] in
theorem splitDbl_plain {name : List Char} (h : dblPrefix.isPrefixOf name = false) : splitDbl name = (name, false) := by
  simp [splitDbl, h]

theorem splitDbl_dbl (name : List Char) : splitDbl (dblPrefix ++ name) = (name, true) := by
  simp [splitDbl, dblPrefix, List.isPrefixOf]

omit [LinearOrder K] [Field K] in
/-- The con_dicts built. -/
theorem mem_buildCons {cons : List (List Char × SciCon K)} {i : Nat} {d : ConDict} :
    d ∈ (buildCons i cons).1 ↔ ∃ p ∈ cons, d ∈ conDicts p.1 p.2 := by
  induction cons generalizing i with
  | nil => simp [buildCons]
  | cons p cons ih =>
    simp only [buildCons, List.mem_append, List.mem_cons, ih]
    constructor
    · rintro (h | ⟨q, hq, h⟩)
      · exact ⟨p, .inl rfl, h⟩
      · exact ⟨q, .inr hq, h⟩
    · rintro ⟨q, rfl | hq, h⟩
      · exact .inl h
      · exact .inr ⟨q, hq, h⟩

/-- Value of the constraint function for a plain entry. -/
theorem confunc_plain {cons : List (List Char × SciCon K)} (h : SciConsOk cons) {v cache}
    (hc : CacheOk cons v cache) {p : List Char × SciCon K} (hp : p ∈ cons) {j : Nat} (hj : j < p.2.size) :
    (∀ b, p.2.equals = some b → ∃ x, boundAt b j = some x ∧ confunc cons cache p.1 j = .ok (x - v p.1 j)) ∧
    (p.2.equals = none → ∀ b, p.2.lower = some b → ∃ x, boundAt b j = some x ∧
      confunc cons cache p.1 j = .ok (v p.1 j - x)) ∧
    (p.2.equals = none → p.2.lower = none → ∀ b, p.2.upper = some b → ∃ x, boundAt b j = some x ∧
      confunc cons cache p.1 j = .ok (x - v p.1 j)) ∧
    (p.2.equals = none → ∀ b, p.2.upper = some b → ∃ x, boundAt b j = some x ∧
      confunc cons cache (dblPrefix ++ p.1) j = .ok (x - v p.1 j)) := by
  obtain ⟨l, hl, hv⟩ := hc p hp
  have hval : conVal cache p.1 j = .ok (v p.1 j) := by simp only [conVal, hl, hv j hj]
  have hlk := lookup_of_mem_nodup h.nodup hp
  have hsp := splitDbl_plain (h.noPrefix p hp)
  refine ⟨fun b hb => ?_, fun he b hb => ?_, fun he hlo b hb => ?_, fun he b hb => ?_⟩
  · obtain ⟨x, x1, x2⟩ := boundIdx_ok ((h.ok p hp).fits b (.inl hb)) hj
    refine ⟨x, x1, ?_⟩
    simp only [confunc, hsp, hlk, hb, boundMinus, x2, hval, bind, Except.bind, pure, Except.pure]
  · obtain ⟨x, x1, x2⟩ := boundIdx_ok ((h.ok p hp).fits b (.inr (.inl hb))) hj
    refine ⟨x, x1, ?_⟩
    simp only [confunc, hsp, hlk, he, hb, x2, hval, bind, Except.bind, pure, Except.pure]
  · obtain ⟨x, x1, x2⟩ := boundIdx_ok ((h.ok p hp).fits b (.inr (.inr hb))) hj
    refine ⟨x, x1, ?_⟩
    simp only [confunc, hsp, hlk, he, hlo, hb, boundMinus, x2, hval, bind, Except.bind, pure, Except.pure]
  · obtain ⟨x, x1, x2⟩ := boundIdx_ok ((h.ok p hp).fits b (.inr (.inr hb))) hj
    refine ⟨x, x1, ?_⟩
    cases hlo : p.2.lower <;>
      simp only [confunc, splitDbl_dbl, hlk, he, hlo, hb, boundMinus, x2, hval, bind, Except.bind, pure, Except.pure]

variable [IsStrictOrderedRing K]

/-- C24. All constraint functions handed to SciPy can be evaluated and are satisfied (zero for equalities,
non-negative for inequalities) iff every element of every declared constraint satisfies what was declared. -/
theorem C24_satisfied_iff (cons : List (List Char × SciCon K)) (h : SciConsOk cons) (v : List Char → Nat → K)
    (cache : List (List Char × List K)) (hc : CacheOk cons v cache) :
    (∀ d ∈ (buildCons 0 cons).1, ∃ y, confunc cons cache d.name d.idx = .ok y ∧
      (d.eq = true → y = 0) ∧ (d.eq = false → 0 ≤ y)) ↔
    ∀ p ∈ cons, ∀ j, j < p.2.size → p.2.Sat j (v p.1 j) := by
  constructor
  · intro hall p hp j hj
    obtain ⟨c1, c2, c3, c4⟩ := confunc_plain h hc hp hj
    have hpl := hall ⟨p.2.equals.isSome, p.1, j⟩ (mem_buildCons.mpr ⟨p, hp, by simp [conDicts, hj]⟩)
    obtain ⟨y, y1, y2, y3⟩ := hpl
    simp only at y1 y2 y3
    rcases (h.ok p hp).kind with ⟨he, hlo, hup⟩ | ⟨he, hb⟩
    · obtain ⟨b, hb⟩ := Option.isSome_iff_exists.mp he
      obtain ⟨x, x1, x2⟩ := c1 b hb
      rw [x2] at y1; injection y1 with y1
      have := y2 he
      refine ⟨fun b' x' hb' hx' => ?_, by simp [hlo], by simp [hup]⟩
      rw [hb] at hb'; injection hb' with hb'; subst hb'
      rw [x1] at hx'; injection hx' with hx'; linarith
    · have hy0 := y3 (by simp [he])
      refine ⟨by simp [he], fun b x hb hx => ?_, fun b x hb hx => ?_⟩
      · obtain ⟨x', x1, x2⟩ := c2 he b hb
        rw [x2] at y1; injection y1 with y1
        rw [x1] at hx; injection hx with hx; linarith
      · by_cases hlo : p.2.lower = none
        · obtain ⟨x', x1, x2⟩ := c3 he hlo b hb
          rw [x2] at y1; injection y1 with y1
          rw [x1] at hx; injection hx with hx; linarith
        · have hl : p.2.lower.isSome = true := Option.isSome_iff_ne_none.mpr hlo
          obtain ⟨z, z1, -, z3⟩ := hall ⟨false, dblPrefix ++ p.1, j⟩ (mem_buildCons.mpr ⟨p, hp, by
            simp [conDicts, hj, hb, hl]⟩)
          obtain ⟨x', x1, x2⟩ := c4 he b hb
          simp only at z1 z3
          rw [x2] at z1; injection z1 with z1
          rw [x1] at hx; injection hx with hx
          have := z3 trivial
          linarith
  · intro hall d hd
    obtain ⟨p, hp, hd⟩ := mem_buildCons.mp hd
    simp only [conDicts, List.mem_append, List.mem_map, List.mem_range] at hd
    rcases hd with ⟨j, hj, rfl⟩ | hd
    · obtain ⟨c1, c2, c3, -⟩ := confunc_plain h hc hp hj
      obtain ⟨s1, s2, s3⟩ := hall p hp j hj
      rcases (h.ok p hp).kind with ⟨he, hlo, hup⟩ | ⟨he, hb⟩
      · obtain ⟨b, hb⟩ := Option.isSome_iff_exists.mp he
        obtain ⟨x, x1, x2⟩ := c1 b hb
        have := s1 b x hb x1
        exact ⟨_, x2, fun _ => by linarith, fun hf => by simp [he] at hf⟩
      · cases hlo : p.2.lower with
        | some b =>
          obtain ⟨x, x1, x2⟩ := c2 he b hlo
          have := s2 b x hlo x1
          exact ⟨_, x2, fun hf => by simp [he] at hf, fun _ => by linarith⟩
        | none =>
          obtain ⟨b, hb⟩ := Option.isSome_iff_exists.mp (hb.resolve_left (by simp [hlo]))
          obtain ⟨x, x1, x2⟩ := c3 he hlo b hb
          have := s3 b x hb x1
          exact ⟨_, x2, fun hf => by simp [he] at hf, fun _ => by linarith⟩
    · split_ifs at hd with hif
      · simp only [List.mem_map, List.mem_range] at hd
        obtain ⟨j, hj, rfl⟩ := hd
        simp only [Bool.and_eq_true] at hif
        obtain ⟨-, -, -, c4⟩ := confunc_plain h hc hp hj
        obtain ⟨-, -, s3⟩ := hall p hp j hj
        rcases (h.ok p hp).kind with ⟨-, hlo, -⟩ | ⟨he, -⟩
        · simp [hlo] at hif
        · obtain ⟨b, hb⟩ := Option.isSome_iff_exists.mp hif.1
          obtain ⟨x, x1, x2⟩ := c4 he b hb
          have := s3 b x hb x1
          exact ⟨_, x2, fun hf => by simp at hf, fun _ => by linarith⟩
      · simp at hd

/-- Specification of the total Jacobian requested by the driver (`objs + cons`): the row of the single
objective, then the rows of every constraint element in order. -/
def totalJac (objRow : List K) (J : List Char → Nat → List K) (cons : List (List Char × SciCon K)) : List (List K) :=
  objRow :: cons.flatMap fun p => (List.range p.2.size).map (J p.1)

omit [LinearOrder K] [Field K] [IsStrictOrderedRing K] in
theorem gradRow_ok (pre : List (List K)) (J : List Char → Nat → List K) (cons : List (List Char × SciCon K))
    (hnd : (cons.map Prod.fst).Nodup) (p : List Char × SciCon K) (hp : p ∈ cons) (j : Nat) (hj : j < p.2.size) :
    ∃ i, (buildCons pre.length cons).2.lookup p.1 = some i ∧
      (pre ++ cons.flatMap fun p => (List.range p.2.size).map (J p.1))[i + j]? = some (J p.1 j) := by
  induction cons generalizing pre with
  | nil => simp at hp
  | cons q cons ih =>
    simp only [List.map_cons, List.nodup_cons] at hnd
    rcases List.mem_cons.mp hp with rfl | hp'
    · refine ⟨pre.length, by simp [buildCons], ?_⟩
      rw [List.getElem?_append_right (by omega), List.flatMap_cons, List.getElem?_append_left (by simp; omega)]
      simp [hj]
    · have hne : p.1 ≠ q.1 := fun e => hnd.1 (List.mem_map.mpr ⟨p, hp', e⟩)
      have hb : (p.1 == q.1) = false := by simpa using hne
      obtain ⟨i, i1, i2⟩ := ih (pre ++ (List.range q.2.size).map (J q.1)) hnd.2 hp'
      refine ⟨i, ?_, ?_⟩
      · simp only [buildCons, List.lookup_cons, hb]
        simpa using i1
      · rw [List.flatMap_cons, ← List.append_assoc]; exact i2

/-- C24. The gradient returned for each constraint function is its derivative: the function is
`offset + sign * value` of one element of one constraint, whatever the current values are, and the gradient is
`sign *` the row of the total Jacobian that belongs to this element. -/
theorem C24_gradient_is_derivative (cons : List (List Char × SciCon K)) (h : SciConsOk cons)
    (objRow : List K) (J : List Char → Nat → List K) (d : ConDict) (hd : d ∈ (buildCons 0 cons).1) :
    ∃ p ∈ cons, d.idx < p.2.size ∧ (d.name = p.1 ∨ d.name = dblPrefix ++ p.1) ∧ ∃ sign offset : K,
      (∀ v cache, CacheOk cons v cache → confunc cons cache d.name d.idx = .ok (offset + sign * v p.1 d.idx)) ∧
      congradfunc cons (totalJac objRow J cons) (buildCons 0 cons).2 d.name d.idx =
        .ok ((J p.1 d.idx).map (sign * ·)) := by
  obtain ⟨p, hp, hd⟩ := mem_buildCons.mp hd
  have hrow : ∀ j, j < p.2.size →
      gradRow (totalJac objRow J cons) (buildCons 0 cons).2 p.1 j = .ok (J p.1 j) := by
    intro j hj
    have hshift : ∀ i n, (buildCons (n + i) cons).2.lookup p.1 = ((buildCons n cons).2.lookup p.1).map (· + i) := by
      intro i
      generalize cons = cs
      induction cs with
      | nil => intro n; rfl
      | cons q cs ih =>
        intro n
        simp only [buildCons, List.lookup_cons]
        cases hq : p.1 == q.1 with
        | true => rfl
        | false => simp only; rw [show n + i + q.2.size = n + q.2.size + i by omega]; exact ih _
    obtain ⟨i, i1, i2⟩ := gradRow_ok [objRow] J cons h.nodup p hp j hj
    have := hshift 1 0
    simp only [Nat.zero_add] at this
    rw [List.length_singleton, this] at i1
    obtain ⟨i', e1, rfl⟩ := Option.map_eq_some_iff.mp i1
    simp only [gradRow, e1]
    rw [show i' + j + 1 = i' + 1 + j by omega]
    have : (totalJac objRow J cons)[i' + 1 + j]? = some (J p.1 j) := i2
    rw [this]
  have hlk := lookup_of_mem_nodup h.nodup hp
  have hsp := splitDbl_plain (h.noPrefix p hp)
  have hneg : ∀ l : List K, l.map (fun x => -x) = l.map ((-1 : K) * ·) := by intro l; simp
  simp only [conDicts, List.mem_append, List.mem_map, List.mem_range] at hd
  rcases hd with ⟨j, hj, rfl⟩ | hd
  · refine ⟨p, hp, hj, .inl rfl, ?_⟩
    rcases (h.ok p hp).kind with ⟨he, hlo, hup⟩ | ⟨he, hb⟩
    · obtain ⟨b, hb⟩ := Option.isSome_iff_exists.mp he
      obtain ⟨x, x1, -⟩ := boundIdx_ok ((h.ok p hp).fits b (.inl hb)) hj
      refine ⟨-1, x, fun v cache hc => ?_, ?_⟩
      · obtain ⟨x', x1', x2⟩ := (confunc_plain h hc hp hj).1 b hb
        rw [x1] at x1'; injection x1' with e; subst e
        rw [x2]; congr 1; ring
      · simp only [congradfunc, hsp, hlk, hb, hrow j hj, negRow, bind, Except.bind, pure, Except.pure, hneg]
    · cases hlo : p.2.lower with
      | some b =>
        obtain ⟨x, x1, -⟩ := boundIdx_ok ((h.ok p hp).fits b (.inr (.inl hlo))) hj
        refine ⟨1, -x, fun v cache hc => ?_, ?_⟩
        · obtain ⟨x', x1', x2⟩ := (confunc_plain h hc hp hj).2.1 he b hlo
          rw [x1] at x1'; injection x1' with e; subst e
          rw [x2]; congr 1; ring
        · simp [congradfunc, hsp, hlk, he, hlo, hrow j hj]
      | none =>
        obtain ⟨b, hb⟩ := Option.isSome_iff_exists.mp (hb.resolve_left (by simp [hlo]))
        obtain ⟨x, x1, -⟩ := boundIdx_ok ((h.ok p hp).fits b (.inr (.inr hb))) hj
        refine ⟨-1, x, fun v cache hc => ?_, ?_⟩
        · obtain ⟨x', x1', x2⟩ := (confunc_plain h hc hp hj).2.2.1 he hlo b hb
          rw [x1] at x1'; injection x1' with e; subst e
          rw [x2]; congr 1; ring
        · simp only [congradfunc, hsp, hlk, he, hlo, hrow j hj, negRow, bind, Except.bind, pure, Except.pure, hneg]
  · split_ifs at hd with hif
    · simp only [List.mem_map, List.mem_range] at hd
      obtain ⟨j, hj, rfl⟩ := hd
      simp only [Bool.and_eq_true] at hif
      refine ⟨p, hp, hj, .inr rfl, ?_⟩
      rcases (h.ok p hp).kind with ⟨-, hlo, -⟩ | ⟨he, -⟩
      · simp [hlo] at hif
      · obtain ⟨b, hb⟩ := Option.isSome_iff_exists.mp hif.1
        obtain ⟨x, x1, -⟩ := boundIdx_ok ((h.ok p hp).fits b (.inr (.inr hb))) hj
        refine ⟨-1, x, fun v cache hc => ?_, ?_⟩
        · obtain ⟨x', x1', x2⟩ := (confunc_plain h hc hp hj).2.2.2 he b hb
          rw [x1] at x1'; injection x1' with e; subst e
          rw [x2]; congr 1; ring
        · cases hlo : p.2.lower <;>
            simp only [congradfunc, splitDbl_dbl, hlk, he, hlo, hrow j hj, negRow, bind, Except.bind, pure,
              Except.pure, hneg]
    · simp at hd

/-- Three constraints: a two-sided array with one scalar and one array bound, an equality, an upper bound. -/
example : SciConsOk (K := ℚ) [(['g'], ⟨2, some (.s 0), some (.a [1, 2]), none⟩), (['h'], ⟨1, none, none, some (.s 3)⟩),
      (['k'], ⟨1, none, some (.s 3), none⟩)] ∧
    ((buildCons 0 ([(['g'], ⟨2, some (.s 0), some (.a [1, 2]), none⟩), (['h'], ⟨1, none, none, some (.s 3)⟩),
      (['k'], ⟨1, none, some (.s 3), none⟩)] : List (List Char × SciCon ℚ))).1.length = 6) := by
  refine ⟨⟨by decide, ?_, ?_⟩, rfl⟩
  · intro p hp; simp at hp; rcases hp with rfl | rfl | rfl <;> rfl
  · intro p hp
    simp at hp
    rcases hp with rfl | rfl | rfl
    · exact ⟨.inr ⟨rfl, .inl rfl⟩, by rintro b (h | h | h) <;> cases h <;> trivial⟩
    · exact ⟨.inl ⟨rfl, rfl, rfl⟩, by rintro b (h | h | h) <;> cases h; trivial⟩
    · exact ⟨.inr ⟨rfl, .inr rfl⟩, by rintro b (h | h | h) <;> cases h; trivial⟩

/-! ## C62 -/

omit [LinearOrder K] [Field K] [IsStrictOrderedRing K] in
/-- C62. Handing the optimizer's initial vector back to the model sets every design variable to the value it
had, for every list of design variables. -/
theorem C62_vector_round_trip (vals : List (List K)) : splitX (vals.map List.length) (xInit vals) = vals := by
  induction vals with
  | nil => rfl
  | cons v vals ih => simpa [splitX, xInit] using ih

omit [LinearOrder K] [Field K] [IsStrictOrderedRing K] in
/-- C62. Conversely any vector proposed by the optimizer is split completely: design variable `k` gets
`sizes[k]` entries and the parts put together are the vector. -/
theorem C62_split_covers (sizes : List Nat) (x : List K) (h : x.length = sizes.sum) :
    (splitX sizes x).flatten = x ∧ (splitX sizes x).map List.length = sizes := by
  induction sizes generalizing x with
  | nil => simp at h; simp [splitX, h]
  | cons n sizes ih =>
    simp only [List.sum_cons] at h
    obtain ⟨h1, h2⟩ := ih (x.drop n) (by simp; omega)
    refine ⟨by simp [splitX, h1], ?_⟩
    simp only [splitX, List.map_cons, h2, List.length_take]
    congr 1; omega

omit [LinearOrder K] [Field K] [IsStrictOrderedRing K] in
theorem desvarBounds_ok {n : Nat} {lo up : NumArr K} (h1 : boundFits n lo) (h2 : boundFits n up) :
    ∃ l, desvarBounds n lo up = .ok l ∧ l.length = n ∧
      ∀ j, j < n → ∃ x y, boundAt lo j = some x ∧ boundAt up j = some y ∧ l[j]? = some (x, y) := by
  have : ∀ js : List Nat, (∀ j ∈ js, j < n) → ∃ l,
      js.mapM (fun j => do return ((← boundIdx lo j), (← boundIdx up j)) : Nat → Except PyErr (K × K)) = .ok l ∧
      l.length = js.length ∧ ∀ (i j : Nat), js[i]? = some j → ∃ x y, boundAt lo j = some x ∧ boundAt up j = some y ∧
        l[i]? = some (x, y) := by
    intro js
    induction js with
    | nil => intro _; exact ⟨[], rfl, rfl, by simp⟩
    | cons j js ih =>
      intro hj
      obtain ⟨l, l1, l2, l3⟩ := ih (fun k hk => hj k (List.mem_cons_of_mem _ hk))
      obtain ⟨x, x1, x2⟩ := boundIdx_ok h1 (hj j List.mem_cons_self)
      obtain ⟨y, y1, y2⟩ := boundIdx_ok h2 (hj j List.mem_cons_self)
      refine ⟨(x, y) :: l, ?_, by simp [l2], ?_⟩
      · rw [List.mapM_cons, l1, x2, y2]; rfl
      · intro i k hk
        cases i with
        | zero => simp at hk; subst hk; exact ⟨x, y, x1, y1, rfl⟩
        | succ i => exact l3 i k (by simpa using hk)
  obtain ⟨l, l1, l2, l3⟩ := this (List.range n) (by simp)
  exact ⟨l, l1, by simpa using l2, fun j hj => l3 j j (by simp [hj])⟩

omit [LinearOrder K] [Field K] [IsStrictOrderedRing K] in
/-- C62. The bounds handed to SciPy line up with the design vector: split like the design vector, element `j`
of the part belonging to design variable `k` is that element's lower and upper bound. -/
theorem C62_bounds_line_up (ds : List (Nat × NumArr K × NumArr K))
    (h : ∀ d ∈ ds, boundFits d.1 d.2.1 ∧ boundFits d.1 d.2.2) :
    ∃ (bs : List (K × K)) (parts : List (List (K × K))), buildBounds ds = .ok bs ∧ bs = parts.flatten ∧ parts.map List.length = ds.map Prod.fst ∧
      ∀ (k : Nat) d part, ds[k]? = some d → parts[k]? = some part → ∀ j, j < d.1 →
        ∃ x y, boundAt d.2.1 j = some x ∧ boundAt d.2.2 j = some y ∧ part[j]? = some (x, y) := by
  have : ∃ parts : List (List (K × K)), ds.mapM (fun d => desvarBounds d.1 d.2.1 d.2.2) = .ok parts ∧
      parts.map List.length = ds.map Prod.fst ∧
      ∀ (k : Nat) d part, ds[k]? = some d → parts[k]? = some part → ∀ j, j < d.1 →
        ∃ x y, boundAt d.2.1 j = some x ∧ boundAt d.2.2 j = some y ∧ part[j]? = some (x, y) := by
    induction ds with
    | nil => exact ⟨[], rfl, rfl, by simp⟩
    | cons d ds ih =>
      obtain ⟨parts, p1, p2, p3⟩ := ih (fun e he => h e (List.mem_cons_of_mem _ he))
      obtain ⟨l, l1, l2, l3⟩ := desvarBounds_ok (h d List.mem_cons_self).1 (h d List.mem_cons_self).2
      refine ⟨l :: parts, ?_, by simp [l2, p2], ?_⟩
      · rw [List.mapM_cons, p1, l1]; rfl
      · intro k e part hk hp
        cases k with
        | zero => simp at hk hp; subst hk hp; exact l3
        | succ k => exact p3 k e part (by simpa using hk) (by simpa using hp)
  obtain ⟨parts, p1, p2, p3⟩ := this
  exact ⟨parts.flatten, parts, by simp [buildBounds, p1, bind, Except.bind, pure, Except.pure], rfl, p2, p3⟩

example : buildBounds [(2, .s 0, .a [3, 4]), (1, .s 5, .s 6)] = .ok [((0 : ℚ), 3), (0, 4), (5, 6)] := by
  decide +kernel

end OpenMDAO
