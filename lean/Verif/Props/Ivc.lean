import Verif.Spec.Ivc
import Verif.Props.Declare
import Mathlib.Data.List.Forall2
/-!
# C175: an IndepVarComp declares exactly the variables it is given
-/
namespace OpenMDAO
set_option linter.unusedSectionVars false

theorem ivcItem_ok (last : Option (List Char × DeclArgs)) (it : IvcItem) (d : List Char × DeclArgs) (h : ivcItem last it = .ok d) :
    it.Says d.1 d.2 ∨ last = some d := by
  cases it with
  | pair n v => cases h; exact Or.inl .pair
  | triple n v kw => cases h; exact Or.inl .triple
  | tuple len =>
    unfold ivcItem at h
    dsimp only at h
    split at h
    · cases last with
      | none => cases h
      | some e => cases h; exact Or.inr rfl
    · cases h
  | other t =>
    unfold ivcItem at h
    dsimp only at h
    split at h
    · cases h
    · cases last with
      | none => cases h
      | some e => cases h; exact Or.inr rfl

theorem says_item (last : Option (List Char × DeclArgs)) {it : IvcItem} {n a} (h : it.Says n a) : ivcItem last it = .ok (n, a) := by
  cases h <;> rfl

theorem says_name {it : IvcItem} {n a} (h : it.Says n a) : it.name = some n := by cases h <;> rfl

/-- The loop is in a state it can be in: the element before is declared. -/
def IvcInv (c : CompDecl) (last : Option (List Char × DeclArgs)) : Prop := ∀ d, last = some d → Declared c d.1

theorem declare_pair {c : CompDecl} {k n a} {e : PyErr} (h : (declare c k n a).2 = .error e) : declare c k n a = ((declare c k n a).1, .error e) := by
  rw [← h]

theorem declare_ok {c : CompDecl} {k n a} (h : (declare c k n a).2 = .ok ()) : declare c k n a = ((declare c k n a).1, .ok ()) := by
  rw [← h]

theorem ivcLoop_cons (c : CompDecl) (last : Option (List Char × DeclArgs)) (it : IvcItem) (l : List IvcItem) (c2 : CompDecl) :
    ivcLoop c last (it :: l) = .ok c2 ↔
      ∃ d, ivcItem last it = .ok d ∧ (declare c .output d.1 d.2).2 = .ok () ∧ ivcLoop (declare c .output d.1 d.2).1 (some d) l = .ok c2 := by
  conv_lhs => unfold ivcLoop
  cases hi : ivcItem last it with
  | error e => simp
  | ok d =>
    simp only [Except.ok.injEq, exists_eq_left']
    cases hd : (declare c .output d.1 d.2).2 with
    | error e => rw [declare_pair hd]; simp
    | ok u =>
      cases u
      rw [declare_ok hd]
      simp

theorem declared_after {c : CompDecl} {n a} (h : (declare c .output n a).2 = .ok ()) : ∃ m, MetaOf a m ∧ m.state = false ∧
    (declare c .output n a).1.params = c.params ∧ (declare c .output n a).1.unknowns = c.unknowns ++ [(n, m)] ∧
    (declare c .output n a).1.post = c.post := by
  obtain ⟨m, h1, h2, h3, h4, h5, _⟩ := C55_accepted_effect c .output n a h
  exact ⟨m, h2, by simpa using h1, by simpa using h3, by simpa using h4, h5⟩

theorem ivcLoop_spec (l : List IvcItem) : ∀ (c : CompDecl) (last : Option (List Char × DeclArgs)), c.post = false → c.params = [] →
    IvcInv c last → (∀ c2, ivcLoop c last l = .ok c2 →
      c2.params = [] ∧ ∃ us, c2.unknowns = c.unknowns ++ us ∧
        List.Forall₂ (fun (it : IvcItem) u => ∃ a, it.Says u.1 a ∧ MetaOf a u.2 ∧ u.2.state = false) l us) ∧
      ((∃ c2, ivcLoop c last l = .ok c2) ↔ (∀ it ∈ l, it.Good) ∧ (l.map IvcItem.name).Nodup ∧
        ∀ it ∈ l, ∀ n, it.name = some n → n ∉ c.unknowns.map Prod.fst) := by
  induction l with
  | nil =>
    intro c last _ hp _
    refine ⟨?_, ?_⟩
    · intro c2 h
      cases h
      exact ⟨hp, [], by simp, .nil⟩
    · simp [ivcLoop]
  | cons it l ih =>
    intro c last hpost hp hinv
    have hstep : ∀ d, ivcItem last it = .ok d → (declare c .output d.1 d.2).2 = .ok () →
        it.Says d.1 d.2 ∧ ValidName d.1 ∧ ArgsOk .output d.2 ∧ d.1 ∉ c.unknowns.map Prod.fst ∧
        (declare c .output d.1 d.2).1.post = false ∧ (declare c .output d.1 d.2).1.params = [] ∧
        IvcInv (declare c .output d.1 d.2).1 (some d) := by
      intro d hi hd
      obtain ⟨_, h1, h2, h3⟩ := (C55_accepted_iff c .output d.1 d.2).1 hd
      obtain ⟨m, _, _, g3, g4, g5⟩ := declared_after hd
      refine ⟨?_, h2, h3, fun h => h1 (Or.inr h), g5.trans hpost, g3.trans hp, ?_⟩
      · rcases ivcItem_ok last it d hi with h | h
        · exact h
        · exact absurd (hinv d h) h1
      · rintro d' hd'
        cases hd'
        right
        rw [g4]
        simp
    refine ⟨?_, ?_⟩
    · intro c2 h
      obtain ⟨d, hi, hd, hl⟩ := (ivcLoop_cons c last it l c2).1 h
      obtain ⟨h1, _, _, _, h5, h6, h7⟩ := hstep d hi hd
      obtain ⟨m, g1, g2, _, g4, _⟩ := declared_after hd
      obtain ⟨q1, us, q2, q3⟩ := (ih _ (some d) h5 h6 h7).1 c2 hl
      refine ⟨q1, (d.1, m) :: us, ?_, .cons ⟨d.2, h1, g1, g2⟩ q3⟩
      rw [q2, g4]
      simp
    · constructor
      · rintro ⟨c2, h⟩
        obtain ⟨d, hi, hd, hl⟩ := (ivcLoop_cons c last it l c2).1 h
        obtain ⟨h1, h2, h3, h4, h5, h6, h7⟩ := hstep d hi hd
        obtain ⟨m, _, _, _, g4, _⟩ := declared_after hd
        obtain ⟨q1, q2, q3⟩ := ((ih _ (some d) h5 h6 h7).2).1 ⟨c2, hl⟩
        have hname := says_name h1
        refine ⟨?_, ?_, ?_⟩
        · intro it' hit
          rcases List.mem_cons.1 hit with rfl | hit
          · exact ⟨d.1, d.2, h1, h2, h3⟩
          · exact q1 it' hit
        · rw [List.map_cons, List.nodup_cons]
          refine ⟨?_, q2⟩
          rw [hname]
          intro hin
          obtain ⟨it', hit, hn⟩ := List.mem_map.1 hin
          refine q3 it' hit d.1 hn ?_
          rw [g4]
          simp
        · intro it' hit n hn
          rcases List.mem_cons.1 hit with rfl | hit
          · rw [hname] at hn
            cases hn
            exact h4
          · intro hin
            refine q3 it' hit n hn ?_
            rw [g4]
            simp only [List.map_append, List.mem_append]
            exact Or.inl hin
      · rintro ⟨h1, h2, h3⟩
        obtain ⟨n, a, hs, hv, ha⟩ := h1 it (by simp)
        have hname := says_name hs
        have hi := says_item last hs
        have hd : (declare c .output n a).2 = .ok () := by
          rw [C55_accepted_iff]
          refine ⟨hpost, ?_, hv, ha⟩
          rintro (h | h)
          · simp [hp] at h
          · exact h3 it (by simp) n hname h
        obtain ⟨_, _, _, _, h5, h6, h7⟩ := hstep (n, a) hi hd
        obtain ⟨m, _, _, _, g4, _⟩ := declared_after hd
        rw [List.map_cons, List.nodup_cons] at h2
        obtain ⟨c2, hl⟩ := ((ih _ (some (n, a)) h5 h6 h7).2).2 ⟨fun it' hit => h1 it' (by simp [hit]), h2.2, by
          intro it' hit n' hn' hin
          rw [g4] at hin
          simp only [List.map_append, List.map_cons, List.map_nil, List.mem_append, List.mem_singleton] at hin
          rcases hin with hin | hin
          · exact h3 it' (by simp [hit]) n' hn' hin
          · refine h2.1 ?_
            rw [hname, ← hin, ← hn']
            exact List.mem_map_of_mem hit⟩
        exact ⟨c2, (ivcLoop_cons c last it l c2).2 ⟨(n, a), hi, hd, hl⟩⟩

/-- **C175 (what is declared).** An `IndepVarComp` made from an iterable has one output for each element, in the order of the elements, with the
name of the element and the metadata of its value and its own keywords, and no parameters. -/
theorem C175_declared (l : List IvcItem) (val : Option ChkVal) (kw : DeclArgs) (c : CompDecl)
    (h : ivcInit (.items l) val kw false = .ok c) :
    c.params = [] ∧ List.Forall₂ (fun (it : IvcItem) u => ∃ a, it.Says u.1 a ∧ MetaOf a u.2 ∧ u.2.state = false) l c.unknowns := by
  obtain ⟨h1, us, h2, h3⟩ := (ivcLoop_spec l emptyDecl none rfl rfl (by intro d h; cases h)).1 c h
  refine ⟨h1, ?_⟩
  rw [h2]
  exact h3

/-- **C175 (what is accepted).** The iterable is accepted exactly if every element is a tuple of two or three with a valid name and acceptable
arguments, and no name comes twice. -/
theorem C175_accepted (l : List IvcItem) (val : Option ChkVal) (kw : DeclArgs) :
    (∃ c, ivcInit (.items l) val kw false = .ok c) ↔ (∀ it ∈ l, it.Good) ∧ (l.map IvcItem.name).Nodup := by
  have h := (ivcLoop_spec l emptyDecl none rfl rfl (by intro d h; cases h)).2
  refine h.trans ?_
  constructor
  · rintro ⟨h1, h2, _⟩; exact ⟨h1, h2⟩
  · rintro ⟨h1, h2⟩; exact ⟨h1, h2, fun _ _ _ _ hin => by cases hin⟩

/-- **C175 (a single name).** A string is accepted exactly if a value is given, the name is valid and the arguments are acceptable; then this
is the only variable, with the metadata of the value and the keywords. -/
theorem C175_single (n : List Char) (val : Option ChkVal) (kw : DeclArgs) :
    ((∃ c, ivcInit (.str n) val kw false = .ok c) ↔ ∃ v, val = some v ∧ ValidName n ∧ ArgsOk .output { kw with val := some v }) ∧
    ∀ c v, val = some v → ivcInit (.str n) val kw false = .ok c →
      c.params = [] ∧ ∃ m, c.unknowns = [(n, m)] ∧ MetaOf { kw with val := some v } m ∧ m.state = false := by
  have hiff : ∀ v c, ivcInit (.str n) (some v) kw false = .ok c ↔
      (declare emptyDecl .output n { kw with val := some v }).2 = .ok () ∧ (declare emptyDecl .output n { kw with val := some v }).1 = c := by
    intro v c
    unfold ivcInit
    simp only [Bool.false_eq_true, if_false]
    cases hd : (declare emptyDecl .output n { kw with val := some v }).2 with
    | error e => rw [declare_pair hd]; simp
    | ok u => cases u; rw [declare_ok hd]; simp
  constructor
  · cases val with
    | none => simp [ivcInit]
    | some v =>
      simp only [hiff, Option.some.injEq, exists_eq_left']
      rw [exists_and_left, C55_accepted_iff]
      simp [emptyDecl, Declared]
  · rintro c v rfl h
    obtain ⟨h1, rfl⟩ := (hiff v c).1 h
    obtain ⟨m, g1, g2, g3, g4, _⟩ := declared_after h1
    exact ⟨g3, m, by simpa [emptyDecl] using g4, g1, g2⟩

/-- **C175 (malformed elements).** If the elements before are in order, a tuple that is neither empty nor of length two or three, or something
that is no tuple and counts as true, raises a `ValueError`. Missing: an empty tuple, and things that count as false. -/
theorem C175_malformed_partial (l r : List IvcItem) (it : IvcItem) (val : Option ChkVal) (kw : DeclArgs)
    (h1 : ∀ x ∈ l, x.Good) (h2 : (l.map IvcItem.name).Nodup) (h : (∃ k, it = .tuple (k + 1)) ∨ it = .other true) :
    ivcInit (.items (l ++ it :: r)) val kw false = .error .ValueError := by
  have gen : ∀ (l : List IvcItem) (c : CompDecl) (last : Option (List Char × DeclArgs)) (c2 : CompDecl), ivcLoop c last l = .ok c2 →
      ivcLoop c last (l ++ it :: r) = .error .ValueError := by
    intro l
    induction l with
    | nil =>
      intro c last c2 _
      have hit : ivcItem last it = .error .ValueError := by
        rcases h with ⟨k, rfl⟩ | rfl <;> rfl
      simp [ivcLoop, hit]
    | cons x l ih =>
      intro c last c2 hc
      obtain ⟨d, hi, hd, hl⟩ := (ivcLoop_cons c last x l c2).1 hc
      rw [List.cons_append]
      unfold ivcLoop
      rw [hi]
      dsimp only
      rw [declare_ok hd]
      exact ih _ _ c2 hl
  obtain ⟨c, hc⟩ := (C175_accepted l val kw).2 ⟨h1, h2⟩
  exact gen l emptyDecl none c hc

/-! ## Concrete arguments -/

/-- Two variables, one of them with a keyword. -/
def ivcTwo : List IvcItem := [.pair ['x'] .real, .triple ['y'] (.array [2] true) { pbo := some true }]

theorem ident_one (c : Char) (h : c.isAlpha = true) : ValidName [c] :=
  ⟨[c], [], by intro q hq; simp only [List.mem_singleton] at hq; subst hq; exact ⟨c, [], rfl, Or.inr h, by simp⟩, rfl⟩

example : (∀ it ∈ ivcTwo, it.Good) ∧ (ivcTwo.map IvcItem.name).Nodup := by
  refine ⟨?_, by decide⟩
  intro it hit
  simp only [ivcTwo, List.mem_cons, List.not_mem_nil, or_false] at hit
  rcases hit with rfl | rfl
  · exact ⟨_, _, .pair, ident_one 'x' (by decide), by simp [ArgsOk]⟩
  · exact ⟨_, _, .triple, ident_one 'y' (by decide), by simp [ArgsOk]⟩

example : (ivcInit (.items ivcTwo) none {} false).toOption.map (fun c => c.unknowns.map fun u => (u.1, u.2.size, u.2.pbo)) =
    some [(['x'], 1, none), (['y'], 0, some true)] := by decide

/-- `promotes` is refused, whatever the other arguments are; so is a first argument that is neither a string nor iterable. -/
theorem C175_refused (arg : IvcArg) (val : Option ChkVal) (kw : DeclArgs) :
    ivcInit arg val kw true = .error .ValueError ∧ ivcInit .other val kw false = .error .ValueError := ⟨rfl, rfl⟩

/-- **Refutation: an empty tuple.** Alone it raises the error of an unbound variable (a `NameError`). After a good element it raises a
`RuntimeError`: the name of the element before is declared a second time. -/
theorem C175_empty_tuple_refuted : ivcInit (.items [.tuple 0]) none {} false = .error .NameError ∧
    ivcInit (.items [.pair ['x'] .real, .tuple 0]) none {} false = .error .RuntimeError := by decide

/-- **Refutation: keywords given beside an iterable.** They are silently dropped: the user asks for `pass_by_obj`, and the variable is not
passed by object. With a single name they are used. -/
theorem C175_keywords_refuted : ∃ (n : List Char) (kw : DeclArgs) (c1 c2 : CompDecl) (m1 m2 : DeclMeta), kw.pbo = some true ∧
    ivcInit (.items [.pair n .real]) none kw false = .ok c1 ∧ c1.unknowns = [(n, m1)] ∧ m1.pbo = none ∧
    ivcInit (.str n) (some .real) kw false = .ok c2 ∧ c2.unknowns = [(n, m2)] ∧ m2.pbo = some true :=
  ⟨['x'], { pbo := some true }, _, _, _, _, rfl, rfl, rfl, rfl, rfl, rfl, rfl⟩

end OpenMDAO
