import Verif.Spec.Declare
import Verif.Lemmas.Connections
import Mathlib.Data.List.Nodup
/-!
# C55: variable declarations are validated
-/
namespace OpenMDAO
set_option linter.unusedSectionVars false

theorem char_le (a c : Char) : decide (a ≤ c) = decide (a.val ≤ c.val) := rfl

theorem isWordStart_iff (c : Char) : isWordStart c = true ↔ (c = '_' ∨ c.isAlpha = true) := by
  unfold isWordStart Char.isAlpha Char.isUpper Char.isLower
  simp only [Bool.or_eq_true, beq_iff_eq, Bool.and_eq_true, decide_eq_true_eq, ge_iff_le, Char.le_def]
  constructor
  · rintro ((h | h) | h)
    · exact .inl h
    · exact .inr (.inr h)
    · exact .inr (.inl h)
  · rintro (h | h | h)
    · exact .inl (.inl h)
    · exact .inr h
    · exact .inl (.inr h)

theorem isWordChar_iff (c : Char) : isWordChar c = true ↔ (c = '_' ∨ c.isAlphanum = true) := by
  unfold isWordChar Char.isAlphanum Char.isDigit
  simp only [Bool.or_eq_true, isWordStart_iff, Bool.and_eq_true, decide_eq_true_eq, ge_iff_le, Char.le_def]
  constructor
  · rintro ((h | h) | h)
    · exact .inl h
    · exact .inr (.inl h)
    · exact .inr (.inr h)
  · rintro (h | h | h)
    · exact .inl (.inl h)
    · exact .inl (.inr h)
    · exact .inr h

theorem colon_not_word : isWordChar ':' = false := by decide

theorem eatPieces_iff (s : List Char) : eatPieces s = [] ↔
    ∃ (w : List Char) (ps : List (List Char)), (∀ x ∈ w, isWordChar x = true) ∧ (∀ q ∈ ps, Ident q) ∧ s = w ++ ps.flatMap (fun q => ':' :: q) := by
  fun_induction eatPieces s with
  | case1 => simp only [true_iff]; exact ⟨[], [], by simp, by simp, by simp⟩
  | case2 c s hc ih =>
    rw [ih]
    constructor
    · rintro ⟨w, ps, hw, hp, rfl⟩
      exact ⟨c :: w, ps, by simpa [hc] using hw, hp, by simp⟩
    · rintro ⟨w, ps, hw, hp, h⟩
      cases w with
      | nil =>
        cases ps with
        | nil => simp at h
        | cons p ps =>
          simp only [List.nil_append, List.flatMap_cons, List.cons_append, List.cons.injEq] at h
          rw [h.1, colon_not_word] at hc
          exact absurd hc (by simp)
      | cons d w =>
        simp only [List.cons_append, List.cons.injEq] at h
        exact ⟨w, ps, fun x hx => hw x (by simp [hx]), hp, h.2⟩
  | case3 c hc h1 =>
    simp only [List.cons_ne_nil, false_iff, not_exists, not_and]
    rintro w ps hw hp h
    have hcol : c = ':' := by simpa using h1
    subst hcol
    cases w with
    | nil =>
      cases ps with
      | nil => simp at h
      | cons p ps =>
        obtain ⟨d, t, rfl, -⟩ := hp p (by simp)
        simp at h
    | cons d w =>
      simp only [List.cons_append, List.cons.injEq] at h
      exact hc (h.1 ▸ hw d (by simp))
  | case4 c hc h1 d s' hd ih =>
    rw [ih]
    have hcol : c = ':' := by simpa using h1
    subst hcol
    constructor
    · rintro ⟨w, ps, hw, hp, rfl⟩
      refine ⟨[], (d :: w) :: ps, by simp, ?_, by simp⟩
      intro q hq
      rcases List.mem_cons.1 hq with rfl | hq
      · exact ⟨d, w, rfl, (isWordStart_iff d).1 hd, fun x hx => (isWordChar_iff x).1 (hw x hx)⟩
      · exact hp q hq
    · rintro ⟨w, ps, hw, hp, h⟩
      cases w with
      | nil =>
        cases ps with
        | nil => simp at h
        | cons p ps =>
          obtain ⟨e, t, rfl, -, ht⟩ := hp p (by simp)
          simp only [List.nil_append, List.flatMap_cons, List.cons_append, List.cons.injEq, true_and] at h
          exact ⟨t, ps, fun x hx => (isWordChar_iff x).2 (ht x hx), fun q hq => hp q (by simp [hq]), h.2⟩
      | cons e w =>
        simp only [List.cons_append, List.cons.injEq] at h
        exact absurd (h.1 ▸ hw e (by simp)) hc
  | case5 c hc h1 d s' hd =>
    have hcol : c = ':' := by simpa using h1
    subst hcol
    simp only [List.cons_ne_nil, false_iff, not_exists, not_and]
    rintro w ps hw hp h
    cases w with
    | nil =>
      cases ps with
      | nil => simp at h
      | cons p ps =>
        obtain ⟨e, t, rfl, he, -⟩ := hp p (by simp)
        simp only [List.nil_append, List.flatMap_cons, List.cons_append, List.cons.injEq, true_and] at h
        rw [h.1] at hd
        exact hd ((isWordStart_iff e).2 he)
    | cons e w =>
      simp only [List.cons_append, List.cons.injEq] at h
      exact hc (h.1 ▸ hw e (by simp))
  | case6 c s hc h1 =>
    simp only [List.cons_ne_nil, false_iff, not_exists, not_and]
    rintro w ps hw hp h
    cases w with
    | nil =>
      cases ps with
      | nil => simp at h
      | cons p ps =>
        simp only [List.nil_append, List.flatMap_cons, List.cons_append, List.cons.injEq] at h
        exact h1 (by simp [h.1])
    | cons e w =>
      simp only [List.cons_append, List.cons.injEq] at h
      exact hc (h.1 ▸ hw e (by simp))

/-- The regular expression accepts exactly the identifiers joined by colons. -/
theorem C55_name_syntax (s : List Char) : varNameOk s = true ↔ ValidName s := by
  unfold ValidName
  cases s with
  | nil =>
    simp only [varNameOk, Bool.false_eq_true, false_iff, not_exists, not_and]
    rintro p ps hp h
    obtain ⟨c, t, rfl, -⟩ := hp p (by simp)
    simp at h
  | cons c s =>
    simp only [varNameOk, Bool.and_eq_true, List.isEmpty_iff, eatPieces_iff]
    constructor
    · rintro ⟨hc, w, ps, hw, hp, rfl⟩
      refine ⟨c :: w, ps, ?_, by simp⟩
      intro q hq
      rcases List.mem_cons.1 hq with rfl | hq
      · exact ⟨c, w, rfl, (isWordStart_iff c).1 hc, fun x hx => (isWordChar_iff x).1 (hw x hx)⟩
      · exact hp q hq
    · rintro ⟨p, ps, hp, h⟩
      obtain ⟨d, t, rfl, hd, ht⟩ := hp p (by simp)
      simp only [List.cons_append, List.cons.injEq] at h
      obtain ⟨rfl, rfl⟩ := h
      exact ⟨(isWordStart_iff c).2 hd, t, ps, fun x hx => (isWordChar_iff x).2 (ht x hx), fun q hq => hp q (by simp [hq]), rfl⟩

example : varNameOk "wing:span_2".toList = true ∧ varNameOk "2x".toList = false ∧ varNameOk "a::b".toList = false ∧ varNameOk "a b".toList = false := by decide +kernel

theorem declared_iff (c : CompDecl) (name : List Char) :
    ((c.params.lookup name).isSome || (c.unknowns.lookup name).isSome) = true ↔ Declared c name := by
  unfold Declared
  rw [Bool.or_eq_true, lookup_isSome_iff_mem_keys, lookup_isSome_iff_mem_keys]

theorem checkVarname_iff (c : CompDecl) (name : List Char) :
    checkVarname c name = .ok () ↔ c.post = false ∧ ¬ Declared c name ∧ ValidName name := by
  unfold checkVarname
  rw [← C55_name_syntax, ← declared_iff]
  cases c.post <;> cases ((c.params.lookup name).isSome || (c.unknowns.lookup name).isSome) <;> cases varNameOk name <;> simp

theorem checkVarname_cases (c : CompDecl) (name : List Char) : checkVarname c name = .ok () ∨ ∃ e, checkVarname c name = .error e := by
  cases h : checkVarname c name with
  | ok _ => exact .inl rfl
  | error e => exact .inr ⟨e, rfl⟩

theorem preCheck_iff (k : DeclKind) (a : DeclArgs) : preCheck k a = .ok () ↔
    (a.residScaler = none ∨ (k = .state ∧ a.residScaler = some false)) ∧ (k ≠ .param → a.val ≠ none ∨ a.shape ≠ none) := by
  unfold preCheck
  cases k
  · cases a.residScaler <;> simp
  · cases a.residScaler <;> cases a.val <;> cases a.shape <;> simp
  · rcases a.residScaler with _ | _ | _ <;> cases a.val <;> cases a.shape <;> simp

theorem initialVal_iff (a : DeclArgs) : (∃ v, initialVal a.val a.shape = .ok v) ↔ (a.val = none → ∀ n, a.shape = some (.int n) → 0 ≤ n) := by
  unfold initialVal
  cases a.val with
  | some v => simp
  | none =>
    rcases a.shape with _ | n | l
    · simp
    · simp only [forall_const, Option.some.injEq, PyShape.int.injEq, forall_eq']
      by_cases h1 : n = 1
      · simp [h1]
      · by_cases h2 : n < 0
        · simp [h1, h2]
        · simp only [h1, h2, if_false, Except.ok.injEq, exists_eq', true_iff]; omega
    · simp

/-- Outcome of `_add_variable`. -/
theorem addVariable_spec (c : CompDecl) (name : List Char) (a : DeclArgs) :
    (∃ v, c.post = false ∧ ¬ Declared c name ∧ ValidName name ∧ a.unit ≠ some false ∧ a.low = false ∧ a.high = false ∧ initialVal a.val a.shape = .ok v ∧
      addVariable c name a = ({ c with pboWarns := if (buildMeta a v).2 then c.pboWarns ++ [name] else c.pboWarns }, .ok (buildMeta a v).1)) ∨
    (¬ (c.post = false ∧ ¬ Declared c name ∧ ValidName name ∧ a.unit ≠ some false ∧ a.low = false ∧ a.high = false ∧ ∃ v, initialVal a.val a.shape = .ok v) ∧
      ∃ w e, addVariable c name a = ({ c with pboWarns := w }, .error e) ∧
        (a.low = false → a.high = false → w = c.pboWarns)) := by
  unfold addVariable
  rcases checkVarname_cases c name with hc | ⟨e, hc⟩
  · have hc' := (checkVarname_iff c name).1 hc
    rw [hc]
    simp only
    by_cases hu : a.unit = some false
    · right
      refine ⟨fun h => h.2.2.2.1 hu, c.pboWarns, .RuntimeError, ?_, fun _ _ => rfl⟩
      simp [hu]
    · rw [if_neg hu]
      cases hv : initialVal a.val a.shape with
      | error e =>
        right
        exact ⟨by rintro ⟨-, -, -, -, -, -, v, hv'⟩; simp at hv', c.pboWarns, e, rfl, fun _ _ => rfl⟩
      | ok v =>
        simp only
        by_cases hl : (a.low || a.high) = true
        · right
          refine ⟨?_, if (buildMeta a v).2 then c.pboWarns ++ [name] else c.pboWarns, .TypeError, ?_, ?_⟩
          · rintro ⟨-, -, -, -, h1, h2, -⟩
            simp [h1, h2] at hl
          · rw [if_pos hl]
            split <;> rfl
          · intro h1 h2
            simp [h1, h2] at hl
        · left
          have hl' : a.low = false ∧ a.high = false := by simpa using hl
          refine ⟨v, hc'.1, hc'.2.1, hc'.2.2, hu, hl'.1, hl'.2, rfl, ?_⟩
          rw [if_neg hl]
          split <;> rfl
  · right
    rw [hc]
    refine ⟨?_, c.pboWarns, e, rfl, fun _ _ => rfl⟩
    rintro ⟨h1, h2, h3, -⟩
    rw [(checkVarname_iff c name).2 ⟨h1, h2, h3⟩] at hc
    simp at hc

/-- C55: a declaration is accepted iff setup has not happened, the name is not declared yet and syntactically valid (and its arguments are acceptable). -/
theorem C55_accepted_iff (c : CompDecl) (k : DeclKind) (name : List Char) (a : DeclArgs) :
    (declare c k name a).2 = .ok () ↔ c.post = false ∧ ¬ Declared c name ∧ ValidName name ∧ ArgsOk k a := by
  unfold declare ArgsOk
  cases hp : preCheck k a with
  | error e =>
    have : ¬ preCheck k a = .ok () := by simp [hp]
    rw [preCheck_iff] at this
    simp only [reduceCtorEq, false_iff]
    rintro ⟨-, -, -, h1, -, -, -, h2, -⟩
    exact this ⟨h1, h2⟩
  | ok u =>
    obtain ⟨h1, h2⟩ := (preCheck_iff k a).1 hp
    simp only
    rcases addVariable_spec c name a with ⟨v, g1, g2, g3, g4, g5, g6, g7, g8⟩ | ⟨g1, w, e, g2, -⟩
    · rw [g8]
      simp only [true_iff]
      exact ⟨g1, g2, g3, h1, g4, g5, g6, h2, (initialVal_iff a).1 ⟨v, g7⟩⟩
    · rw [g2]
      simp only [reduceCtorEq, false_iff]
      rintro ⟨i1, i2, i3, -, i4, i5, i6, -, i7⟩
      exact g1 ⟨i1, i2, i3, i4, i5, i6, (initialVal_iff a).2 i7⟩

/-- C55 for a declaration with a value and no special arguments: only the name and the time matter. -/
theorem C55_plain (c : CompDecl) (k : DeclKind) (name : List Char) (v : ChkVal) :
    (declare c k name { val := some v }).2 = .ok () ↔ c.post = false ∧ ¬ Declared c name ∧ ValidName name := by
  rw [C55_accepted_iff]
  simp [ArgsOk]

/-- C55: a rejected declaration leaves the declared variables, the setup flag and the state flag unchanged; the list of warnings as well unless one of the misspelt bounds is given. -/
theorem C55_rejected_unchanged_partial (c : CompDecl) (k : DeclKind) (name : List Char) (a : DeclArgs) (e : PyErr)
    (h : (declare c k name a).2 = .error e) :
    (∃ w, (declare c k name a).1 = { c with pboWarns := w }) ∧ (a.low = false → a.high = false → (declare c k name a).1 = c) := by
  unfold declare at h ⊢
  cases hp : preCheck k a with
  | error e => exact ⟨⟨c.pboWarns, rfl⟩, fun _ _ => rfl⟩
  | ok u =>
    simp only [hp] at h ⊢
    rcases addVariable_spec c name a with ⟨v, -, -, -, -, -, -, -, g8⟩ | ⟨-, w, e', g2, g3⟩
    · rw [g8] at h; simp at h
    · rw [g2]
      refine ⟨⟨w, rfl⟩, fun h1 h2 => ?_⟩
      simp only
      rw [g3 h1 h2]

/-- A rejected declaration can change the component: a misspelt bound is noticed after the warning about an object value has been noted. -/
theorem C55_rejected_unchanged_refuted :
    (declare emptyDecl .param ['x'] { val := some (.other 0), low := true }) = ({ emptyDecl with pboWarns := [['x']] }, .error .TypeError) := by decide +kernel

theorem fresh_keys {d : List (List Char × DeclMeta)} {name : List Char} (h : name ∉ d.map Prod.fst) : ∀ x ∈ d, x.1 ≠ name := by
  intro x hx e
  exact h (List.mem_map.2 ⟨x, hx, e⟩)

theorem foldl_mul_prod (l : List Nat) : ∀ n, l.foldl (· * ·) n = n * l.prod := by
  induction l with
  | nil => simp
  | cons a l ih => intro n; rw [List.foldl_cons, ih]; simp [Nat.mul_assoc]

theorem buildMeta_spec (a : DeclArgs) (v : ChkVal) (hv : initialVal a.val a.shape = .ok v) (st : Bool) : MetaOf a { (buildMeta a v).1 with state := st } := by
  have hval : ValueOf a v := by
    unfold initialVal at hv
    unfold ValueOf
    cases h : a.val with
    | some w => rw [h] at hv; simp at hv; subst hv; simp
    | none =>
      rw [h] at hv
      right
      refine ⟨rfl, ?_⟩
      rcases hs : a.shape with _ | n | l
      · rw [hs] at hv; simp at hv; simp [hv]
      · rw [hs] at hv
        simp only at hv
        by_cases h1 : n = 1
        · simp [h1] at hv; simp [h1, hv]
        · by_cases h2 : n < 0
          · simp [h1, h2] at hv
          · simp only [h1, h2, if_false, Except.ok.injEq] at hv
            right; right; left
            exact ⟨n.toNat, by omega, by simp; omega, hv.symm⟩
      · rw [hs] at hv; simp at hv; simp [hv]
  have hfix : ∀ s, (∀ n, a.shape = some (.int n) → n ≤ 1) → fixShape a.shape s = s := by
    intro s h
    unfold fixShape
    rcases hs : a.shape with _ | n | l
    · rfl
    · have := h n hs; simp only; rw [if_neg (by omega)]
    · rfl
  have hfix2 : ∀ s (n : Nat), 1 < n → a.shape = some (.int n) → fixShape a.shape s = some (.tup [n]) := by
    intro s n h1 h
    unfold fixShape
    rw [h]; simp only
    rw [if_pos (by omega)]; simp
  unfold MetaOf buildMeta
  split
  · rename_i hd
    simp only [Bool.and_eq_true, decide_eq_true_eq] at hd
    obtain ⟨hd1, hd2⟩ := hd
    have hd2' : ¬ a.pbo = some true := by simpa using hd2
    refine ⟨hval, rfl, ?_, fun n h1 h2 => hfix2 _ n h1 h2⟩
    cases v with
    | real => left; exact ⟨rfl, hd2', rfl, rfl, fun h => hfix _ h⟩
    | array l f =>
      simp only [isDifferentiable] at hd1
      subst hd1
      right; left
      exact ⟨l, rfl, hd2', by simp [valSize, foldl_mul_prod], rfl, fun h => hfix _ h⟩
    | file _ _ => simp [isDifferentiable] at hd1
    | other _ => simp [isDifferentiable] at hd1
  · rename_i hd
    refine ⟨hval, rfl, ?_, fun n h1 h2 => hfix2 _ n h1 h2⟩
    right; right
    refine ⟨?_, rfl, rfl⟩
    by_cases hp : a.pbo = some true
    · exact .inr hp
    · left
      have : isDifferentiable v = false := by
        cases h : isDifferentiable v
        · rfl
        · exact absurd (by simp [h, hp]) hd
      cases v with
      | real => simp [isDifferentiable] at this
      | array l f => simp [isDifferentiable] at this; simp [this]
      | file _ _ => simp
      | other _ => simp

/-- C55: an accepted declaration adds exactly this variable, with the metadata of its value. -/
theorem C55_accepted_effect (c : CompDecl) (k : DeclKind) (name : List Char) (a : DeclArgs) (h : (declare c k name a).2 = .ok ()) :
    ∃ m : DeclMeta, m.state = decide (k = .state) ∧ MetaOf a m ∧
      (declare c k name a).1.params = (if k = .param then c.params ++ [(name, m)] else c.params) ∧
      (declare c k name a).1.unknowns = (if k = .param then c.unknowns else c.unknowns ++ [(name, m)]) ∧
      (declare c k name a).1.post = c.post ∧ (declare c k name a).1.runApply = (c.runApply || decide (k = .state)) := by
  have hacc := (C55_accepted_iff c k name a).1 h
  have hd : ¬ Declared c name := hacc.2.1
  unfold Declared at hd
  push Not at hd
  unfold declare at h ⊢
  cases hp : preCheck k a with
  | error e => rw [hp] at h; simp at h
  | ok u =>
    simp only [hp] at h ⊢
    rcases addVariable_spec c name a with ⟨v, -, -, -, -, -, -, g7, g8⟩ | ⟨-, w, e', g2, g3⟩
    · rw [g8]
      have hst : { (buildMeta a v).1 with state := false } = (buildMeta a v).1 := by unfold buildMeta; split <;> rfl
      cases k
      · refine ⟨{ (buildMeta a v).1 with state := false }, by simp, buildMeta_spec a v g7 false, ?_, ?_, rfl, ?_⟩
        · rw [hst]; simp [storeMeta, dictSet_fresh _ _ _ (fresh_keys hd.1)]
        · simp [storeMeta]
        · simp [storeMeta]
      · refine ⟨{ (buildMeta a v).1 with state := false }, by simp, buildMeta_spec a v g7 false, ?_, ?_, rfl, ?_⟩
        · simp [storeMeta]
        · rw [hst]; simp [storeMeta, dictSet_fresh _ _ _ (fresh_keys hd.2)]
        · simp [storeMeta]
      · refine ⟨{ (buildMeta a v).1 with state := true }, by simp, buildMeta_spec a v g7 true, ?_, ?_, rfl, ?_⟩
        · simp [storeMeta]
        · simp [storeMeta, dictSet_fresh _ _ _ (fresh_keys hd.2)]
        · simp [storeMeta]
    · rw [g2] at h; simp at h

/-- One declaration in a sequence; errors are caught by the caller. -/
def declareAll (c : CompDecl) (ds : List (DeclKind × List Char × DeclArgs)) : CompDecl := ds.foldl (fun c d => (declare c d.1 d.2.1 d.2.2).1) c

/-- C55 over histories: whatever is declared in whatever order, every declared name is valid and no name is declared twice, be it as parameter or as output. -/
theorem C55_history (ds : List (DeclKind × List Char × DeclArgs)) :
    let c := declareAll emptyDecl ds
    ((c.params ++ c.unknowns).map Prod.fst).Nodup ∧ (∀ n, Declared c n → ValidName n) ∧
      ∀ n, Declared c n → ∃ d ∈ ds, d.2.1 = n := by
  have gen : ∀ (ds : List (DeclKind × List Char × DeclArgs)) (c : CompDecl), ((c.params ++ c.unknowns).map Prod.fst).Nodup → (∀ n, Declared c n → ValidName n) →
      ((((declareAll c ds).params ++ (declareAll c ds).unknowns).map Prod.fst).Nodup ∧ (∀ n, Declared (declareAll c ds) n → ValidName n) ∧
      ∀ n, Declared (declareAll c ds) n → Declared c n ∨ ∃ d ∈ ds, d.2.1 = n) := by
    intro ds
    induction ds with
    | nil => intro c h1 h2; exact ⟨h1, h2, fun n h => .inl h⟩
    | cons d ds ih =>
      intro c h1 h2
      unfold declareAll
      rw [List.foldl_cons]
      have key : (((declare c d.1 d.2.1 d.2.2).1.params ++ (declare c d.1 d.2.1 d.2.2).1.unknowns).map Prod.fst).Nodup ∧
          (∀ n, Declared (declare c d.1 d.2.1 d.2.2).1 n → ValidName n ∧ (Declared c n ∨ n = d.2.1)) := by
        cases hr : (declare c d.1 d.2.1 d.2.2).2 with
        | error e =>
          obtain ⟨⟨w, hw⟩, -⟩ := C55_rejected_unchanged_partial c d.1 d.2.1 d.2.2 e hr
          rw [hw]
          exact ⟨h1, fun n hn => ⟨h2 n hn, .inl hn⟩⟩
        | ok u =>
          obtain ⟨-, hd, hv, -⟩ := (C55_accepted_iff c d.1 d.2.1 d.2.2).1 hr
          obtain ⟨m, -, -, e1, e2, -, -⟩ := C55_accepted_effect c d.1 d.2.1 d.2.2 hr
          rw [e1, e2]
          unfold Declared
          rw [e1, e2]
          have hd' : d.2.1 ∉ (c.params ++ c.unknowns).map Prod.fst := by
            rw [List.map_append, List.mem_append]; exact hd
          constructor
          · split
            · have hperm : ((c.params ++ [(d.2.1, m)] ++ c.unknowns).map Prod.fst).Perm (d.2.1 :: (c.params ++ c.unknowns).map Prod.fst) := by
                simp only [List.map_append, List.map_cons, List.map_nil, List.append_assoc, List.singleton_append]
                exact List.perm_middle
              rw [hperm.nodup_iff, List.nodup_cons]
              exact ⟨hd', h1⟩
            · have hperm : ((c.params ++ (c.unknowns ++ [(d.2.1, m)])).map Prod.fst).Perm (d.2.1 :: (c.params ++ c.unknowns).map Prod.fst) := by
                simp only [← List.append_assoc]
                rw [List.map_append]
                exact List.perm_append_singleton _ _
              rw [hperm.nodup_iff, List.nodup_cons]
              exact ⟨hd', h1⟩
          · intro n hn
            have : Declared c n ∨ n = d.2.1 := by
              split at hn
              · simp only [List.map_append, List.mem_append, List.map_cons, List.map_nil, List.mem_singleton] at hn
                rcases hn with (hn | hn) | hn
                · exact .inl (.inl hn)
                · exact .inr hn
                · exact .inl (.inr hn)
              · simp only [List.map_append, List.mem_append, List.map_cons, List.map_nil, List.mem_singleton] at hn
                rcases hn with hn | hn | hn
                · exact .inl (.inl hn)
                · exact .inl (.inr hn)
                · exact .inr hn
            refine ⟨?_, this⟩
            rcases this with h | rfl
            · exact h2 n h
            · exact hv
      obtain ⟨i1, i2, i3⟩ := ih _ key.1 (fun n hn => (key.2 n hn).1)
      refine ⟨i1, i2, ?_⟩
      intro n hn
      rcases i3 n hn with h | ⟨d', hd', e⟩
      · rcases (key.2 n h).2 with h | h
        · exact .inl h
        · exact .inr ⟨d, by simp, h.symm⟩
      · exact .inr ⟨d', by simp [hd'], e⟩
  intro c
  obtain ⟨a1, a2, a3⟩ := gen ds emptyDecl (by simp [emptyDecl]) (by simp [emptyDecl, Declared])
  refine ⟨a1, a2, fun n hn => ?_⟩
  rcases a3 n hn with h | h
  · simp [emptyDecl, Declared] at h
  · exact h

/-- After setup nothing can be declared. -/
theorem C55_after_setup (c : CompDecl) (h : c.post = true) (ds : List (DeclKind × List Char × DeclArgs)) :
    (declareAll c ds).params = c.params ∧ (declareAll c ds).unknowns = c.unknowns := by
  have gen : ∀ (ds : List (DeclKind × List Char × DeclArgs)) (d : CompDecl), d.post = true → (declareAll d ds).params = d.params ∧ (declareAll d ds).unknowns = d.unknowns := by
    intro ds
    induction ds with
    | nil => intro d _; exact ⟨rfl, rfl⟩
    | cons e ds ih =>
      intro d hd
      unfold declareAll
      rw [List.foldl_cons]
      cases hr : (declare d e.1 e.2.1 e.2.2).2 with
      | ok u =>
        have := ((C55_accepted_iff d e.1 e.2.1 e.2.2).1 hr).1
        rw [hd] at this; simp at this
      | error x =>
        obtain ⟨⟨w, hw⟩, -⟩ := C55_rejected_unchanged_partial d e.1 e.2.1 e.2.2 x hr
        rw [hw]
        exact ih { d with pboWarns := w } hd
  exact gen ds c h

example : declareAll emptyDecl [(.param, ['x'], { val := some .real }), (.output, ['x'], { val := some .real }), (.output, ['y'], { shape := some (.tup [2, 3]) }), (.state, ['z'], {})] =
    { emptyDecl with params := [(['x'], ⟨.real, some (.int 1), 1, none, none, false⟩)], unknowns := [(['y'], ⟨.array [2, 3] true, some (.tup [2, 3]), 6, none, none, false⟩)] } := by decide +kernel

/-- The unit is checked under the key `unit`, not `units`; a float declared with `shape=3` has size 1 and shape `(3,)`. -/
theorem finding_C55_shape :
    (declare emptyDecl .param ['x'] { val := some .real, shape := some (.int 3) }).1.params = [(['x'], ⟨.real, some (.tup [3]), 1, none, none, false⟩)] := by decide +kernel

/-- `set_var_indices` accepts only as many indices as the value has entries, and then changes just this variable. -/
theorem C55_set_indices (c c' : CompDecl) (name : List Char) (val shape : Option (List Nat)) (idx : Option (List Int))
    (h : setVarIndices c name val shape idx = .ok c') :
    ∃ is m, idx = some is ∧ m.srcIdx = some is ∧ m.size = is.length ∧ (∃ l f, m.val = .array l f ∧ m.shape = some (.tup l) ∧ l.prod = is.length) ∧
      Declared c name ∧ (c'.params.lookup name = some m ∨ c'.unknowns.lookup name = some m) ∧
      ∀ n, n ≠ name → c'.params.lookup n = c.params.lookup n ∧ c'.unknowns.lookup n = c.unknowns.lookup n := by
  unfold setVarIndices at h
  cases hf : findVar c name with
  | error e => rw [hf] at h; simp at h
  | ok r =>
    obtain ⟨isP, m⟩ := r
    rw [hf] at h
    cases idx with
    | none => simp at h
    | some is =>
      simp only at h
      cases hv : m.val with
      | array l f =>
        rw [hv] at h
        simp only at h
        by_cases hs : (distribShape val shape is.length).foldl (· * ·) 1 ≠ is.length
        · rw [if_pos hs] at h; simp at h
        · rw [if_neg hs] at h
          rw [not_not] at hs
          have hprod : (distribShape val shape is.length).prod = is.length := by
            rw [foldl_mul_prod] at hs; simpa using hs
          simp only [Except.ok.injEq] at h
          have hdec : Declared c name := by
            rw [← declared_iff]
            unfold findVar at hf
            cases h1 : c.params.lookup name
            · cases h2 : c.unknowns.lookup name
              · rw [h1, h2] at hf; simp at hf
              · simp
            · simp
          subst h
          refine ⟨is, { m with val := .array (distribShape val shape is.length) f, shape := some (.tup (distribShape val shape is.length)), size := (distribShape val shape is.length).foldl (· * ·) 1, srcIdx := some is }, rfl, rfl, hs, ⟨_, f, rfl, rfl, hprod⟩, hdec, ?_, ?_⟩
          · cases isP
            · right; simp [lookup_dictSet]
            · left; simp [lookup_dictSet]
          · intro n hn
            cases isP
            · simp [lookup_dictSet, hn]
            · simp [lookup_dictSet, hn]
      | real => rw [hv] at h; simp at h
      | file _ _ => rw [hv] at h; simp at h
      | other _ => rw [hv] at h; simp at h

example : setVarIndices { emptyDecl with params := [(['x'], ⟨.array [7] true, some (.tup [7]), 7, none, none, false⟩)] } ['x'] none none (some [2, 3]) =
    .ok { emptyDecl with params := [(['x'], ⟨.array [2] true, some (.tup [2]), 2, none, some [2, 3], false⟩)] } := by decide +kernel
