import Verif.Lemmas.NamelistLines
import Verif.Lemmas.Connections
import Mathlib.Data.List.Induction
import Mathlib.Tactic.NormNum
/-!
# Properties C139 - C141 (namelist files)
-/
namespace OpenMDAO
set_option linter.unusedSectionVars false

/-! ## Lines -/

theorem tokHead_none {ws : Char → Bool} {s : Str} (h1 : '&' ∉ s) (h2 : '$' ∉ s) : tokHead ws s = none := by
  rw [tokHead]
  cases ha : tokLit ws '$' s with
  | some r => exact absurd (tokLit_mem ha).1 h2
  | none =>
    cases hb : tokLit ws '&' s with
    | some r => exact absurd (tokLit_mem hb).1 h1
    | none => rfl

theorem mem_expandTabs {c : Char} (hc : c ≠ ' ') : ∀ (s : Str) (k : Nat), c ∈ expandTabs k s → c ∈ s
  | [], _, h => h
  | d :: s, k, h => by
    rw [expandTabs] at h
    split at h
    · rcases List.mem_append.mp h with h | h
      · exact absurd (List.eq_of_mem_replicate h) hc
      · exact List.mem_cons_of_mem _ (mem_expandTabs hc s _ h)
    · rcases List.mem_cons.mp h with h | h
      · exact h ▸ List.mem_cons_self
      · exact List.mem_cons_of_mem _ (mem_expandTabs hc s _ h)

theorem pyStrip_subset {sp : Char → Bool} {c : Char} {s : Str} (h : c ∈ pyStrip sp s) : c ∈ s := by
  rw [pyStrip, rstrip, List.mem_reverse] at h
  exact (List.dropWhile_suffix sp).subset (List.mem_reverse.mp ((List.dropWhile_suffix sp).subset h))

theorem noHead {ws : Char → Bool} {t : Str} (h1 : '&' ∉ t) (h2 : '$' ∉ t) : hits (tokHead ws) (expandTabs 0 (pyStrip nlSpace (t ++ ['\n']))) = false := by
  have key : ∀ c : Char, c ≠ ' ' → c ≠ '\n' → c ∉ t → c ∉ expandTabs 0 (pyStrip nlSpace (t ++ ['\n'])) := by
    intro c a b hc h
    have := pyStrip_subset (mem_expandTabs a _ 0 h)
    simp only [List.mem_append, List.mem_singleton] at this
    tauto
  exact hits_false fun u hu => tokHead_none (fun h => key '&' (by decide) (by decide) h1 (hu.subset h)) (fun h => key '$' (by decide) (by decide) h2 (hu.subset h))

theorem free_nonblank {t : Str} (h : FreeText t) : pyStrip nlSpace (t ++ ['\n']) ≠ [] := by
  obtain ⟨⟨c, hc, hs⟩, _⟩ := h
  obtain ⟨a, rfl⟩ : ∃ a, t = a ++ [c] := by
    rcases List.eq_nil_or_concat t with rfl | ⟨a, b, rfl⟩
    · cases hc
    · simp at hc; subst hc; exact ⟨a, by simp⟩
  have hmem : c ∈ (a ++ [c] ++ ['\n']).dropWhile nlSpace := by
    have : c ∈ (a ++ [c] ++ ['\n']).takeWhile nlSpace ++ (a ++ [c] ++ ['\n']).dropWhile nlSpace := by
      rw [List.takeWhile_append_dropWhile]; simp
    rcases List.mem_append.mp this with h | h
    · rw [takeWhile_holds h] at hs; cases hs
    · exact h
  intro e
  rw [pyStrip] at e
  obtain ⟨w, hq, hall⟩ := rstrip_split nlSpace ((a ++ [c] ++ ['\n']).dropWhile nlSpace)
  rw [e] at hq
  rw [hq] at hmem
  rw [hall c (by simpa using hmem)] at hs
  cases hs

theorem line_free {ws : Char → Bool} {t : Str} (h : FreeText t) (r : NRes) (hr : ¬ (r.groups = [] ∧ r.title = [])) :
    nlLine ws (r, false) (t ++ ['\n']) = .ok (⟨r.title, r.groups ++ [(t, [])]⟩, false) := by
  have hne := free_nonblank h
  obtain ⟨⟨c, hc, hs⟩, _, h1, h2⟩ := h
  rw [nlLine]
  simp only [if_neg hne, Bool.false_eq_true, if_false, noHead h1 h2, if_neg hr]
  rw [rstrip_snoc (by decide), rstrip_last hc hs]

theorem line_title {ws : Char → Bool} {t : Str} (h : TitleText t) : nlLine ws (⟨[], []⟩, false) (t ++ ['\n']) = .ok (⟨t, []⟩, false) := by
  rcases h with rfl | ⟨hf, a, ha, hsa⟩
  · rfl
  · have hne := free_nonblank hf
    obtain ⟨⟨c, hc, hs⟩, _, h1, h2⟩ := hf
    rw [nlLine]
    simp only [if_neg hne, Bool.false_eq_true, if_false, noHead h1 h2]
    simp only [and_self, if_true]
    rw [(strip_line ha hsa hc hs).1]

theorem line_head {ws : Char → Bool} (hw : PlainWs ws) {g : Str} (hg : AlnumWord g) (r : NRes) :
    nlLine ws (r, false) ('&' :: g ++ ['\n']) = .ok (r.with g [], true) := by
  have hlast : ∃ z, ('&' :: g).getLast? = some z ∧ nlSpace z = false := by
    refine ⟨g.getLast hg.1, ?_, alnum_nlSpace (hg.2 _ (List.getLast_mem hg.1))⟩
    rw [List.getLast?_cons, List.getLast?_eq_some_getLast hg.1]
    rfl
  obtain ⟨z, hz, hsz⟩ := hlast
  have hstrip := (strip_line (a := '&') rfl (by decide) hz hsz).1
  have htab : '\t' ∉ '&' :: g := by
    intro h
    rcases List.mem_cons.mp h with h | h
    · revert h; decide
    · exact alnum_space (hg.2 _ h) (by decide)
  have htok : tokHead ws ('&' :: g) = some ((g, [], false), []) := by
    have hword := tokWord_spec hw hg (r := []) (by intro c t e; cases e)
    rw [List.append_nil] at hword
    rw [tokHead, tokLit_other hw (c := '$') (d := '&') (by decide) (by decide), tokLit_head hw (c := '&') (by decide)]
    simp only [Option.orElse, hword]
    rfl
  rw [nlLine]
  simp only [hstrip, expandTabs_free _ 0 htab, Bool.false_eq_true, if_false, hits_self htok, if_true, htok, headCards]
  rfl

/-! ## Texts -/

theorem readLines_line {a : Str} (h : '\n' ∉ a) (b : Str) : readLines (a ++ ['\n'] ++ b) = (a ++ ['\n']) :: readLines b := by
  induction a with
  | nil => simp [readLines]
  | cons c a ih =>
    have hc : c ≠ '\n' := fun e => h (by simp [e])
    have := ih (fun e => h (by simp [e]))
    simp only [List.cons_append, List.append_assoc, List.nil_append] at this ⊢
    rw [readLines, if_neg hc, this]

/-- Reading the text `t` leads from one state to another, whatever comes behind. -/
def Runs (ws : Char → Bool) (t : Str) (st st' : NRes × Bool) : Prop :=
  ∀ rest, (readLines (t ++ rest)).foldlM (nlLine ws) st = (readLines rest).foldlM (nlLine ws) st'

theorem runs_nil {ws : Char → Bool} {st : NRes × Bool} : Runs ws [] st st := fun _ => rfl

theorem Runs.trans {ws : Char → Bool} {t u : Str} {a b c : NRes × Bool} (h : Runs ws t a b) (h' : Runs ws u b c) : Runs ws (t ++ u) a c := by
  intro rest
  rw [List.append_assoc, h, h']

theorem runs_line {ws : Char → Bool} {t : Str} {a b : NRes × Bool} (hn : '\n' ∉ t) (h : nlLine ws a (t ++ ['\n']) = .ok b) : Runs ws (t ++ ['\n']) a b := by
  intro rest
  rw [readLines_line hn, List.foldlM_cons, h]
  rfl

theorem getLastD_split (n : Str) : ∀ m, ShortName n m → cardName n = m := by
  intro m hm
  have hno : ∀ s : Str, ':' ∉ s → pySplit ':' s = [s] := by
    intro s hs
    induction s with
    | nil => rfl
    | cons c s ih =>
      have hc : c ≠ ':' := fun e => hs (by simp [e])
      rw [pySplit, if_neg hc, ih (fun e => hs (by simp [e]))]
  have hmc : ':' ∉ m := fun h => alnum_space (hm.1.2 _ h) (by decide)
  have hne : ∀ s : Str, pySplit ':' s ≠ [] := by
    intro s
    induction s with
    | nil => simp [pySplit]
    | cons c s ih =>
      rw [pySplit]
      split
      · simp
      · split <;> simp
  rcases hm.2 with rfl | ⟨p, rfl⟩
  · rw [cardName, hno _ hmc]; rfl
  · rw [cardName]
    induction p with
    | nil => simp [pySplit, hno _ hmc]
    | cons c p ih =>
      rw [List.cons_append, pySplit]
      split
      · rw [List.getLastD_cons]
        cases hq : pySplit ':' (p ++ ':' :: m) with
        | nil => exact absurd hq (hne _)
        | cons x xs =>
          rw [hq] at ih
          rw [List.getLastD_cons] at ih ⊢
          exact ih ⟨hm.1, .inr ⟨p, rfl⟩⟩
      · cases hq : pySplit ':' (p ++ ':' :: m) with
        | nil => exact absurd hq (hne _)
        | cons x xs =>
          have ih' := ih ⟨hm.1, .inr ⟨p, rfl⟩⟩
          rw [hq] at ih'
          cases xs with
          | nil =>
            exfalso
            have hcount : ∀ s : Str, ':' ∈ s → 2 ≤ (pySplit ':' s).length := by
              intro s hs
              induction s with
              | nil => cases hs
              | cons d s ih2 =>
                rw [pySplit]
                split
                · have := List.length_pos_iff.mpr (hne s)
                  simp only [List.length_cons]
                  omega
                · rename_i hd
                  have h3 := ih2 (by rcases List.mem_cons.mp hs with h | h; exact absurd h.symm hd; exact h)
                  cases hx : pySplit ':' s with
                  | nil => exact absurd hx (hne s)
                  | cons y ys => rw [hx] at h3; simpa using h3
            have := hcount (p ++ ':' :: m) (by simp)
            rw [hq] at this
            simp at this
          | cons y ys =>
            rw [List.getLastD_cons, List.getLastD_cons] at ih' ⊢
            exact ih'

/-! ## Cards -/

theorem cardLine_shape (m text : Str) : cardLine m text = ("  ".toList ++ m ++ " = ".toList ++ text) ++ ['\n'] := by simp [cardLine]

theorem cardLine_nl {m text : Str} (hm : AlnumWord m) (ht : '\n' ∉ text) : '\n' ∉ "  ".toList ++ m ++ " = ".toList ++ text := by
  intro h
  simp only [List.mem_append] at h
  rcases h with ((h | h) | h) | h
  · revert h; decide
  · exact alnum_space (hm.2 _ h) (by decide)
  · revert h; decide
  · exact ht h

/-- A value of stacked rows. -/
def stk (D : List (List NNum)) : NRead :=
  match D with
  | [d] => .arr d
  | D => .mat D

/-- All integers, or no integer. -/
def Uniform (rows : List (List NNum)) : Prop := (∀ r ∈ rows, ∀ x ∈ r, x.isInt = true) ∨ (∀ r ∈ rows, ∀ x ∈ r, x.asFloat = x)

theorem uniform_np {rows : List (List NNum)} (h : Uniform rows) : npMat rows = rows ∧ ∀ r ∈ rows, npNums r = r := by
  rcases h with h | h
  · constructor
    · rw [npMat, if_pos]
      simp only [List.all_eq_true]
      exact h
    · intro r hr
      rw [npNums, if_pos]
      simp only [List.all_eq_true]
      exact h r hr
  · have h1 : ∀ r ∈ rows, r.map NNum.asFloat = r := fun r hr => (List.map_congr_left (g := id) (fun x hx => (h r hr x hx).trans rfl)).trans (List.map_id r)
    constructor
    · rw [npMat]
      split
      · rfl
      · conv_rhs => rw [← List.map_id rows]
        exact List.map_congr_left fun r hr => h1 r hr
    · intro r hr
      rw [npNums]
      split
      · rfl
      · exact h1 r hr

theorem Uniform.sub {a b : List (List NNum)} (h : Uniform b) (hs : ∀ r ∈ a, r ∈ b) : Uniform a := by
  rcases h with h | h
  · exact .inl fun r hr => h r (hs r hr)
  · exact .inr fun r hr => h r (hs r hr)

theorem vstack_stk {D : List (List NNum)} {x : List NNum} {w : Nat} (hD : D ≠ []) (hw : ∀ r ∈ D ++ [x], r.length = w) (hu : Uniform (D ++ [x])) : vstackRow (stk D) x = .ok (stk (D ++ [x])) := by
  have hx := hw x (by simp)
  match D, hD with
  | [d], _ =>
    have hd := hw d (by simp)
    have := (uniform_np hu).1
    simp only [stk, vstackRow, hd, hx, if_true, List.cons_append, List.nil_append] at this ⊢
    rw [this]
  | d :: e :: D, _ =>
    have hall : ((d :: e :: D).all fun r => decide (r.length = x.length)) = true := by
      rw [List.all_eq_true]
      intro r hr
      simp [hw r (by simp at hr ⊢; tauto), hx]
    have := (uniform_np hu).1
    simp only [stk, vstackRow, hall, if_true, List.cons_append] at this ⊢
    rw [this]

theorem row_nl {m : Str} (hm : AlnumWord m) {k : Nat} {t : Str} {ts : List Str} {x : NNum} {xs : List NNum} (ht : NumText t x) (hts : List.Forall₂ NumText ts xs) : '\n' ∉ rowBody m k t ts ++ [' '] := by
  intro h
  simp only [rowBody, List.mem_append, List.mem_cons, List.not_mem_nil, or_false] at h
  have hn : ∀ c : Char, isNumChar c = true → c ≠ '\n' := fun c hc e => by subst e; revert hc; decide
  rcases h with (h | h | h | h | h | h | h | h | h | h | h | h) | h
  · exact alnum_space (hm.2 _ h) (by decide)
  · revert h; decide
  · revert h; decide
  · revert h; decide
  · exact hn _ (digit_num ((natText_digits k).2 _ h)) rfl
  · revert h; decide
  · revert h; decide
  · revert h; decide
  · revert h; decide
  · exact hn _ (ht.chars _ h) rfl
  · rcases comma_chars 2 hts _ h with h | h | h
    · exact hn _ h rfl
    · revert h; decide
    · revert h; decide
  · revert h; decide
  · revert h; decide

section
variable {ws : Char → Bool} (hw : PlainWs ws)
include hw

theorem runs_nums {m : Str} (hm : AlnumWord m) {ts : List Str} {xs : List NNum} (h : List.Forall₂ NumText ts xs) (hne : ts ≠ []) (r : NRes) (g : Str) (cs : List (Str × NRead)) {v : NRead}
    (hv : (⟨m, none, none, xs.map .num, none⟩ : NRaw).value = .ok v) :
    Runs ws (cardLine m (joinTexts ts)) (r.with g cs, true) (r.with g (cs ++ [(m, v)]), true) := by
  cases h with
  | nil => exact absurd rfl hne
  | cons h1 h2 =>
    rename_i t x ts xs
    have hl := line_nums hw (r := r.with g cs) hm h1 h2 hv
    rw [addCards_with] at hl
    rw [cardLine_shape] at hl ⊢
    refine runs_line (cardLine_nl hm ?_) hl
    rw [joinTexts_cons]
    intro hc
    have hn : ∀ c : Char, isNumChar c = true → c ≠ '\n' := fun c hc e => by subst e; revert hc; decide
    rcases List.mem_append.mp hc with hc | hc
    · exact hn _ (h1.chars _ hc) rfl
    · rcases comma_chars 1 h2 _ hc with h | h | h
      · exact hn _ h rfl
      · revert h; decide
      · revert h; decide

theorem runs_rows {m : Str} (hm : AlnumWord m) (r : NRes) (g : Str) (cs : List (Str × NRead)) (w : Nat) (hwp : 0 < w) :
    ∀ (rows : List (List NScalar)) (xs D : List (List NNum)) (k : Nat), List.Forall₂ (List.Forall₂ NumReads) rows xs → 1 < k → D ≠ [] → (∀ d ∈ D ++ xs, d.length = w) → Uniform (D ++ xs) →
    ∃ t, matText m k rows = .ok t ∧ Runs ws t (r.with g (cs ++ [(m, stk D)]), true) (r.with g (cs ++ [(m, stk (D ++ xs))]), true) := by
  intro rows
  induction rows with
  | nil =>
    intro xs D k h _ _ _ _
    cases h
    exact ⟨[], rfl, by rw [List.append_nil]; exact runs_nil⟩
  | cons row rows ih =>
    intro xs D k h hk hD hlen hu
    cases h with
    | cons h1 h2 =>
      rename_i x xs
      obtain ⟨ts, e1, e2⟩ := texts_of h1
      obtain ⟨t, e3, e4⟩ := ih xs (D ++ [x]) (k + 1) h2 (by omega) (by simp) (by simpa using hlen) (by simpa using hu)
      refine ⟨rowText m k ts ++ t, by simp only [matText, e1, e3], ?_⟩
      have hx : x.length = w := hlen x (by simp)
      cases e2 with
      | nil => simp at hx; omega
      | cons f1 f2 =>
        rename_i t1 x1 ts xs1
        have hux : Uniform (D ++ [x1 :: xs1]) := hu.sub (by intro q hq; simp at hq ⊢; tauto)
        have hvs := vstack_stk hD (w := w) (fun q hq => hlen q (by simp at hq ⊢; tauto)) hux
        rw [← (uniform_np hux).2 (x1 :: xs1) (by simp)] at hvs
        have hline := row_next hw hk hm f1 f2 _ (stk D) _ (last_with r g m cs (stk D)) hvs
        rw [setLast_with, (uniform_np hux).2 (x1 :: xs1) (by simp)] at hline
        have hrun : Runs ws (rowText m k (t1 :: ts)) (r.with g (cs ++ [(m, stk D)]), true) (r.with g (cs ++ [(m, stk (D ++ [x1 :: xs1]))]), true) := by
          rw [rowText_body] at hline ⊢
          exact runs_line (row_nl hm f1 f2) hline
        refine hrun.trans ?_
        simpa using e4

theorem runs_mat {m : Str} (hm : AlnumWord m) (r : NRes) (g : Str) (cs : List (Str × NRead)) (w : Nat) (hwp : 0 < w) {rows : List (List NScalar)} {xs : List (List NNum)}
    (h : List.Forall₂ (List.Forall₂ NumReads) rows xs) (h2 : 2 ≤ rows.length) (hlen : ∀ d ∈ rows, d.length = w) (hu : Uniform xs) :
    ∃ t, matText m 1 rows = .ok t ∧ Runs ws ("  ".toList ++ t) (r.with g cs, true) (r.with g (cs ++ [(m, .mat xs)]), true) := by
  have hlen' : ∀ d ∈ xs, d.length = w := by
    clear h2 hu
    induction h with
    | nil => intro d hd; cases hd
    | cons a b ih =>
      intro d hd
      rcases List.mem_cons.mp hd with rfl | hd
      · rw [← a.length_eq]; exact hlen _ (by simp)
      · exact ih (fun e he => hlen e (by simp [he])) d hd
  cases h with
  | nil => simp at h2
  | cons a b =>
    rename_i row x rows xs
    obtain ⟨ts, e1, e2⟩ := texts_of a
    obtain ⟨t, e3, e4⟩ := runs_rows hw hm r g cs w hwp rows xs [x] 2 b (by omega) (by simp) (by simpa using hlen') (by simpa using hu)
    refine ⟨rowText m 1 ts ++ t, by simp only [matText, e1, e3], ?_⟩
    have hx : x.length = w := hlen' x (by simp)
    cases e2 with
    | nil => simp at hx; omega
    | cons f1 f2 =>
      rename_i t1 x1 ts xs1
      have hline := row_first hw hm f1 f2 (r.with g cs) "  ".toList (.inr rfl)
      rw [addCards_with, (uniform_np hu).2 (x1 :: xs1) (by simp)] at hline
      have hrun : Runs ws ("  ".toList ++ rowText m 1 (t1 :: ts)) (r.with g cs, true) (r.with g (cs ++ [(m, stk [x1 :: xs1])]), true) := by
        rw [rowText_body, ← List.append_assoc] at hline ⊢
        refine runs_line ?_ hline
        intro hc
        rcases List.mem_append.mp hc with hc | hc
        · revert hc; decide
        · exact row_nl hm f1 f2 hc
      have hfin : stk ([x1 :: xs1] ++ xs) = .mat ((x1 :: xs1) :: xs) := by
        cases xs with
        | nil => cases b; simp at h2
        | cons y ys => rfl
      rw [hfin] at e4
      rw [← List.append_assoc]
      exact hrun.trans e4

theorem runs_card {c : NCard} {new : List (Str × NRead)} (h : CardReads c new) (r : NRes) (g : Str) (cs : List (Str × NRead)) :
    ∃ t, cardText c = .ok t ∧ Runs ws t (r.with g cs, true) (r.with g (cs ++ new), true) := by
  cases h with
  | comment t hb hn hs =>
    refine ⟨_, rfl, ?_⟩
    rw [List.append_nil]
    refine runs_line ?_ (line_comment hw _ hb hs)
    intro hc
    rcases List.mem_append.mp hc with hc | hc
    · revert hc; decide
    · exact hn hc
  | num n m v x hm hv =>
    obtain ⟨t, ht, hnt⟩ := numReads_text hv
    refine ⟨cardLine m t, by simp only [cardText, ht, getLastD_split n m hm]; rfl, ?_⟩
    have := runs_nums hw hm.1 (ts := [t]) (xs := [x]) (.cons hnt .nil) (by simp) r g cs (value_one m (.num x))
    simpa [joinTexts] using this
  | bool n m b hm =>
    refine ⟨cardLine m (if b then ['T'] else ['F']), by simp only [cardText, scalarText, getLastD_split n m hm]; rfl, ?_⟩
    have hl := line_bool hw (r := r.with g cs) hm.1 b
    rw [addCards_with] at hl
    rw [cardLine_shape] at hl ⊢
    exact runs_line (cardLine_nl hm.1 (by cases b <;> decide)) hl
  | str n m s hm hs =>
    refine ⟨cardLine m ('\'' :: s ++ ['\'']), by simp only [cardText, scalarText, getLastD_split n m hm]; rfl, ?_⟩
    have hl := line_str hw (r := r.with g cs) hm.1 hs
    rw [addCards_with] at hl
    rw [cardLine_shape] at hl ⊢
    refine runs_line (cardLine_nl hm.1 ?_) hl
    intro hc
    simp only [List.cons_append, List.mem_cons, List.mem_append, List.not_mem_nil, or_false] at hc
    rcases hc with h | h | h
    · revert h; decide
    · exact hs _ h (by decide)
    · revert h; decide
  | ints n m v l hm hv hl =>
    have hr : List.Forall₂ NumReads (l.map .int) (l.map .int) := by
      clear hv hl
      induction l with
      | nil => exact .nil
      | cons z l ih => exact .cons (.int z) ih
    obtain ⟨ts, h1, h2⟩ := texts_of hr
    have hne : l.map NScalar.int ≠ [] := by intro e; simp at e; subst e; simp at hl
    have hts : ts ≠ [] := by intro e; subst e; have := h2.length_eq; simp at this; omega
    refine ⟨cardLine m (joinTexts ts), ?_, runs_nums hw hm.1 h2 hts r g cs ?_⟩
    · rcases hv with rfl | rfl
      · simp only [cardText, h1, getLastD_split n m hm]; rfl
      · simp only [cardText, if_neg hne, h1, getLastD_split n m hm]; rfl
    · match l, hl with
      | a :: b :: l, _ =>
        have := value_many m (.int a) (.int b) (l.map .int)
        rw [show NNum.int a :: NNum.int b :: l.map .int = (a :: b :: l).map NNum.int from rfl, npNums_ints] at this
        exact this
  | floats n m v l xs hm hv hl hf h =>
    obtain ⟨ys, hr, hnp⟩ := floats_raw h hf
    obtain ⟨ts, h1, h2⟩ := texts_of hr
    have hne : l ≠ [] := by intro e; subst e; simp at hl
    have hlen : ts.length = l.length := by rw [h2.length_eq, hr.length_eq]
    have hts : ts ≠ [] := by intro e; subst e; simp at hlen; omega
    refine ⟨cardLine m (joinTexts ts), ?_, runs_nums hw hm.1 h2 hts r g cs ?_⟩
    · rcases hv with rfl | rfl
      · simp only [cardText, h1, getLastD_split n m hm]; rfl
      · simp only [cardText, if_neg hne, h1, getLastD_split n m hm]; rfl
    · have hy : 2 ≤ ys.length := by rw [← hr.length_eq]; exact hl
      match ys, hy with
      | a :: b :: ys, _ =>
        have := value_many m a b ys
        rw [hnp] at this
        exact this
  | noArr n => exact ⟨[], rfl, by rw [List.append_nil]; exact runs_nil⟩
  | noMat n => exact ⟨[], rfl, by rw [List.append_nil]; exact runs_nil⟩
  | intMat n m rows w hm hl hwp hlen =>
    have hr : List.Forall₂ (List.Forall₂ NumReads) (rows.map (List.map .int)) (rows.map (List.map .int)) := by
      clear hl hlen
      induction rows with
      | nil => exact .nil
      | cons row rows ih =>
        refine .cons ?_ ih
        show List.Forall₂ NumReads (row.map .int) (row.map .int)
        induction row with
        | nil => exact .nil
        | cons z l ih2 => exact .cons (.int z) ih2
    obtain ⟨t, h1, h2⟩ := runs_mat hw hm.1 r g cs w hwp hr (by simpa using hl) (by simpa using hlen) (.inl (by
      intro q hq x hx
      obtain ⟨a, _, rfl⟩ := List.mem_map.mp hq
      obtain ⟨b, _, rfl⟩ := List.mem_map.mp hx
      rfl))
    have hne : rows.map (List.map NScalar.int) ≠ [] := by intro e; simp at e; subst e; simp at hl
    exact ⟨_, by simp only [cardText, if_neg hne, getLastD_split n m hm, h1]; rfl, h2⟩
  | fltMat n m rows xs w hm hl hwp hlen hflt hr =>
    have hu : ∀ q ∈ xs, ∀ x ∈ q, x.asFloat = x := by
      clear hl hlen
      induction hr with
      | nil => intro q hq; cases hq
      | cons a b ih =>
        intro q hq
        rcases List.mem_cons.mp hq with rfl | hq
        · have hrow := hflt _ List.mem_cons_self
          clear ih hflt b hq
          induction a with
          | nil => intro x hx; cases hx
          | cons c d ih2 =>
            intro x hx
            rcases List.mem_cons.mp hx with rfl | hx
            · obtain ⟨t, ht⟩ := hrow _ List.mem_cons_self
              subst ht
              cases c
              rfl
            · exact ih2 (fun v hv => hrow v (List.mem_cons_of_mem _ hv)) x hx
        · exact ih (fun e he => hflt e (List.mem_cons_of_mem _ he)) q hq
    obtain ⟨t, h1, h2⟩ := runs_mat hw hm.1 r g cs w hwp hr hl hlen (.inr hu)
    have hne : rows ≠ [] := by intro e; subst e; simp at hl
    exact ⟨_, by simp only [cardText, if_neg hne, getLastD_split n m hm, h1]; rfl, h2⟩

theorem runs_cards {cards : List NCard} {rs : List (List (Str × NRead))} (h : List.Forall₂ CardReads cards rs) (r : NRes) (g : Str) (cs : List (Str × NRead)) :
    ∃ ts, cards.mapM cardText = .ok ts ∧ Runs ws ts.flatten (r.with g cs, true) (r.with g (cs ++ rs.flatten), true) := by
  induction h generalizing cs with
  | nil => exact ⟨[], rfl, by simpa using runs_nil⟩
  | cons h1 h2 ih =>
    obtain ⟨t, a, b⟩ := runs_card hw h1 r g cs
    obtain ⟨ts, c, d⟩ := ih (cs ++ _)
    refine ⟨t :: ts, ?_, ?_⟩
    · simp only [List.mapM_cons, a, c]; rfl
    · rw [List.flatten_cons, List.flatten_cons, ← List.append_assoc]
      exact b.trans d

theorem runs_group {g : Str × List NCard} {q : Str × List (Str × NRead)} (h : GroupReads g q) (r : NRes) (hr : r.groups = [] → r.title = [] → g.2 ≠ []) :
    ∃ t, groupText g = .ok t ∧ Runs ws t (r, false) (⟨r.title, r.groups ++ [q]⟩, false) := by
  cases h with
  | cards g cs rs hg hne h =>
    obtain ⟨ts, a, b⟩ := runs_cards hw h r g []
    refine ⟨'&' :: g ++ ['\n'] ++ ts.flatten ++ "/\n".toList, by simp only [groupText, if_neg hne, a]; rfl, ?_⟩
    have hhead : Runs ws ('&' :: g ++ ['\n']) (r, false) (r.with g [], true) := by
      refine runs_line ?_ (line_head hw hg r)
      intro hc
      rcases List.mem_cons.mp hc with hc | hc
      · revert hc; decide
      · exact alnum_space (hg.2 _ hc) (by decide)
    have hend : Runs ws "/\n".toList (r.with g ([] ++ rs.flatten), true) (r.with g ([] ++ rs.flatten), false) :=
      runs_line (t := ['/']) (by decide) (line_end hw _)
    exact (hhead.trans b).trans hend
  | free g hg =>
    refine ⟨g ++ ['\n'], rfl, runs_line hg.2.1 (line_free hg r ?_)⟩
    rintro ⟨h1, h2⟩
    exact hr h1 h2 rfl

theorem runs_groups {gs : List (Str × List NCard)} {qs : List (Str × List (Str × NRead))} (h : List.Forall₂ GroupReads gs qs) (r : NRes)
    (hr : r.groups = [] → r.title = [] → ∀ g, gs.head? = some g → g.2 ≠ []) :
    ∃ ts, gs.mapM groupText = .ok ts ∧ Runs ws ts.flatten (r, false) (⟨r.title, r.groups ++ qs⟩, false) := by
  induction h generalizing r with
  | nil => exact ⟨[], rfl, by rw [List.append_nil]; exact runs_nil⟩
  | cons h1 h2 ih =>
    obtain ⟨t, a, b⟩ := runs_group hw h1 r (fun x y => hr x y _ rfl)
    obtain ⟨ts, c, d⟩ := ih ⟨r.title, r.groups ++ [_]⟩ (by intro e; simp at e)
    refine ⟨t :: ts, ?_, ?_⟩
    · simp only [List.mapM_cons, a, c]; rfl
    · rw [List.flatten_cons]
      refine b.trans ?_
      simpa using d

end

/-! ## C139 -/

/-- C139 (partial, see the refutations below for what is left out). A file that `generate` writes is read by `parse_file` with the same title, groups, names and values. -/
theorem C139_roundtrip_partial (ws : Char → Bool) (hw : PlainWs ws) (d : NDeck) (r : NRes) (h : DeckReads d r) : ∃ text, nlText d = .ok text ∧ parseNl ws text = .ok r := by
  obtain ⟨ts, a, b⟩ := runs_groups hw h.groups ⟨d.title, []⟩ (fun _ e => h.first e)
  refine ⟨d.title ++ ['\n'] ++ ts.flatten, by rw [nlText, a]; rfl, ?_⟩
  have hnl : '\n' ∉ d.title := by
    rcases h.title with e | e
    · rw [e]; simp
    · exact e.1.2.1
  have hrun := (runs_line hnl (line_title (ws := ws) h.title)).trans b []
  rw [List.append_nil] at hrun
  rw [parseNl, hrun]
  have : (⟨d.title, [] ++ r.groups⟩ : NRes) = r := by
    rw [List.nil_append, ← h.same]
  exact congrArg Except.ok this

theorem mapM_isOk {α β ε : Type} (f : α → Except ε β) (l : List α) : (∃ r, l.mapM f = .ok r) ↔ ∀ a ∈ l, ∃ b, f a = .ok b := by
  induction l with
  | nil => simp [pure, Except.pure]
  | cons a l ih =>
    rw [List.mapM_cons]
    cases ha : f a with
    | error e => simp [ha, bind, Except.bind]
    | ok b =>
      simp only [bind, Except.bind, pure, Except.pure, List.mem_cons, forall_eq_or_imp, ha]
      rw [← ih]
      cases l.mapM f with
      | error e => simp
      | ok r => simp

theorem map_isOk {α β ε : Type} (x : Except ε α) (f : α → β) : (∃ r, x.map f = .ok r) ↔ ∃ r, x = .ok r := by
  cases x <;> simp [Except.map]

theorem scalarText_isOk (v : NScalar) : (∃ t, scalarText v = .ok t) ↔ Writable v := by
  cases v <;> simp [scalarText, Writable]

theorem matText_isOk (n : Str) (rows : List (List NScalar)) (k : Nat) : (∃ t, matText n k rows = .ok t) ↔ ∀ r ∈ rows, ∀ v ∈ r, Writable v := by
  induction rows generalizing k with
  | nil => simp [matText]
  | cons r rs ih =>
    have h1 := mapM_isOk scalarText r
    simp only [scalarText_isOk] at h1
    rw [matText, List.forall_mem_cons, ← h1, ← ih (k + 1)]
    cases r.mapM scalarText with
    | error e => simp
    | ok ts => cases matText n (k + 1) rs <;> simp

theorem cardText_isOk (c : NCard) : (∃ t, cardText c = .ok t) ↔ CardWritable c := by
  have hm : ∀ l : List NScalar, (∃ r, l.mapM scalarText = .ok r) ↔ ∀ v ∈ l, Writable v := by
    intro l; rw [mapM_isOk]; simp only [scalarText_isOk]
  cases c with
  | comment t => exact ⟨fun _ => .comment t, fun _ => ⟨_, rfl⟩⟩
  | var n v =>
    cases v with
    | scal v => rw [cardText, map_isOk, scalarText_isOk]; exact ⟨.scal n v, fun h => by cases h; assumption⟩
    | list l => rw [cardText, map_isOk, hm]; exact ⟨.list n l, fun h => by cases h; assumption⟩
    | arr l =>
      rw [cardText]
      by_cases h : l = []
      · subst h; rw [if_pos rfl]; exact ⟨fun _ => .arr n _ (by simp), fun _ => ⟨_, rfl⟩⟩
      · rw [if_neg h, map_isOk, hm]; exact ⟨.arr n l, fun h => by cases h; assumption⟩
    | mat rows =>
      rw [cardText]
      by_cases h : rows = []
      · subst h; rw [if_pos rfl]; exact ⟨fun _ => .mat n _ (by simp), fun _ => ⟨_, rfl⟩⟩
      · rw [if_neg h, map_isOk, matText_isOk]; exact ⟨.mat n rows, fun h => by cases h; assumption⟩
    | nd => exact ⟨fun ⟨_, h⟩ => by simp [cardText] at h, fun h => by cases h⟩
    | obj => exact ⟨fun ⟨_, h⟩ => by simp [cardText] at h, fun h => by cases h⟩

/-- C139. A deck is written exactly if all of its cards can be: nothing is left out silently, an array of more than two dimensions, an object of another type and nan raise an exception. -/
theorem C139_written (d : NDeck) : (∃ text, nlText d = .ok text) ↔ ∀ g ∈ d.groups, ∀ c ∈ g.2, CardWritable c := by
  rw [nlText, map_isOk, mapM_isOk]
  refine forall₂_congr fun g _ => ?_
  rw [groupText]
  by_cases h : g.2 = []
  · rw [if_pos h, h]; simp
  · rw [if_neg h, map_isOk, mapM_isOk]
    exact forall₂_congr fun c _ => cardText_isOk c

/-- Both sides of `C139_written` occur. -/
example : (∃ text, nlText ⟨[], [("a".toList, [.var "x".toList (.arr [.int 1, .bool true])])]⟩ = .ok text) ∧ ¬ ∃ text, nlText ⟨[], [("a".toList, [.comment [], .var "x".toList .nd])]⟩ = .ok text := by
  constructor
  · exact (C139_written _).mpr (by simp; exact .arr _ _ (by simp [Writable]))
  · intro h
    have := (C139_written _).mp h _ (List.mem_singleton.mpr rfl) (.var "x".toList .nd) (List.mem_cons_of_mem _ (List.mem_singleton.mpr rfl))
    cases this

/-! ## Loading: C140 -/

theorem firstParam_spec (params : List (Str × NRead)) (pre n p : Str) :
    firstParam params (pre ++ n) (pre ++ lowerStr n) = some p ↔ FoundAs (fun q => (params.lookup q).isSome = true) pre n p := by
  unfold firstParam FoundAs lowerStr
  by_cases h : (params.lookup (pre ++ n)).isSome = true
  · rw [if_pos h]
    constructor
    · intro e; cases e; exact ⟨h, .inl rfl⟩
    · rintro ⟨_, rfl | ⟨h2, _⟩⟩
      · rfl
      · exact absurd h h2
  · rw [if_neg h]
    by_cases h2 : (params.lookup (pre ++ n.map Char.toLower)).isSome = true
    · rw [if_pos h2]
      constructor
      · intro e; cases e; exact ⟨h2, .inr ⟨h, rfl⟩⟩
      · rintro ⟨h3, rfl | ⟨_, rfl⟩⟩
        · exact absurd h3 h
        · rfl
    · rw [if_neg h2]
      constructor
      · intro e; cases e
      · rintro ⟨h3, rfl | ⟨_, rfl⟩⟩
        · exact absurd h3 h
        · exact absurd h3 h2

theorem last_filterMap {α β : Type} (f : α → Option β) (l : List α) (p : β) :
    (l.filterMap f).getLast? = some p ↔ ∃ a c b, l = a ++ c :: b ∧ f c = some p ∧ ∀ d ∈ b, f d = none := by
  induction l using List.reverseRecOn with
  | nil => simp
  | append_singleton l x ih =>
    rw [List.filterMap_append]
    cases hx : f x with
    | none =>
      rw [show [x].filterMap f = [] by simp [hx], List.append_nil, ih]
      constructor
      · rintro ⟨a, c, b, rfl, hc, hb⟩
        refine ⟨a, c, b ++ [x], by simp, hc, ?_⟩
        intro d hd
        rcases List.mem_append.mp hd with hd | hd
        · exact hb d hd
        · rw [List.mem_singleton.mp hd, hx]
      · rintro ⟨a, c, b, e, hc, hb⟩
        rcases List.eq_nil_or_concat b with rfl | ⟨b, y, rfl⟩
        · have := List.append_inj' e rfl
          simp at this
          rw [this.2, hc] at hx
          cases hx
        · rw [List.concat_eq_append, show a ++ c :: (b ++ [y]) = (a ++ c :: b) ++ [y] by simp] at e
          have := List.append_inj' e rfl
          exact ⟨a, c, b, this.1, hc, fun d hd => hb d (by simp [hd])⟩
    | some q =>
      rw [show [x].filterMap f = [q] by simp [hx], List.getLast?_concat]
      constructor
      · intro e
        cases e
        exact ⟨l, x, [], by simp, hx, by simp⟩
      · rintro ⟨a, c, b, e, hc, hb⟩
        rcases List.eq_nil_or_concat b with rfl | ⟨b, y, rfl⟩
        · have := List.append_inj' e rfl
          simp at this
          rw [this.2, hc] at hx
          exact hx.symm
        · rw [List.concat_eq_append, show a ++ c :: (b ++ [y]) = (a ++ c :: b) ++ [y] by simp] at e
          have := List.append_inj' e rfl
          simp at this
          rw [this.2, hb y (by simp)] at hx
          cases hx

theorem cardTarget_spec (params : List (Str × NRead)) (cs : Option (List Str)) (n p : Str) :
    cardTarget params cs n = some p ↔ TargetOf (fun q => (params.lookup q).isSome = true) cs n p := by
  cases cs with
  | none => exact firstParam_spec params [] n p
  | some cs =>
    simp only [cardTarget, TargetOf]
    rw [last_filterMap]
    have h : ∀ c q, firstParam params (c ++ ':' :: n) (c ++ ':' :: lowerStr n) = some q ↔ FoundAs (fun q => (params.lookup q).isSome = true) (c ++ [':']) n q := by
      intro c q
      have := firstParam_spec params (c ++ [':']) n q
      simpa using this
    constructor
    · rintro ⟨a, c, b, e, hc, hb⟩
      refine ⟨a, c, b, e, (h c p).mp hc, ?_⟩
      intro d hd q hq
      have := (h d q).mpr hq
      rw [hb d hd] at this
      cases this
    · rintro ⟨a, c, b, e, hc, hb⟩
      refine ⟨a, c, b, e, (h c p).mpr hc, ?_⟩
      intro d hd
      cases hq : firstParam params (d ++ ':' :: n) (d ++ ':' :: lowerStr n) with
      | none => rfl
      | some q => exact absurd ((h d q).mp hq) (hb d hd q)

theorem cardTarget_congr {params params' : List (Str × NRead)} (h : ∀ q, (params'.lookup q).isSome = (params.lookup q).isSome) (cs : Option (List Str)) (n : Str) : cardTarget params' cs n = cardTarget params cs n := by
  have hf : ∀ a b, firstParam params' a b = firstParam params a b := fun a b => by unfold firstParam; rw [h, h]
  cases cs with
  | none => exact hf _ _
  | some cs => simp only [cardTarget, hf]

theorem stored_wrap (setup : Bool) (old v : NRead) : Stored setup old v (if setup && old.isArr then v.wrap else v) := by
  unfold Stored
  cases setup <;> cases old <;> (try rfl) <;> cases v <;> (try rfl) <;> rename_i t <;> cases t <;> rfl

/-- The loop over the cards of all groups. -/
def cardLoop (setup : Bool) (ignore : List Str) (params : List (Str × NRead)) (l : List (Option (List Str) × Str × NRead)) : List (Str × NRead) × List Str :=
  l.foldl (fun st e => loadCard setup ignore e.1 st e.2) (params, [])

theorem cardLoop_snoc (setup : Bool) (ignore : List Str) (params : List (Str × NRead)) (l : List (Option (List Str) × Str × NRead)) (e : Option (List Str) × Str × NRead) :
    cardLoop setup ignore params (l ++ [e]) = loadCard setup ignore e.1 (cardLoop setup ignore params l) e.2 := by simp [cardLoop]

theorem loadCard_same (setup : Bool) (ignore : List Str) (cs : Option (List Str)) (st : List (Str × NRead) × List Str) (card : Str × NRead) (q : Str) :
    ((loadCard setup ignore cs st card).1.lookup q).isSome = (st.1.lookup q).isSome := by
  rw [loadCard]
  split
  · split <;> rfl
  · rename_i p _
    split
    · rfl
    · rename_i old hold
      simp only [lookup_dictSet]
      by_cases hq : q = p
      · subst hq; simp [hold]
      · simp [hq]

theorem cardLoop_same (setup : Bool) (ignore : List Str) (params : List (Str × NRead)) (l : List (Option (List Str) × Str × NRead)) (q : Str) :
    ((cardLoop setup ignore params l).1.lookup q).isSome = (params.lookup q).isSome := by
  induction l using List.reverseRecOn with
  | nil => rfl
  | append_singleton l e ih => rw [cardLoop_snoc, loadCard_same, ih]

theorem cardLoop_val (setup : Bool) (ignore : List Str) (params : List (Str × NRead)) (l : List (Option (List Str) × Str × NRead)) (p : Str) (v : NRead) (hp : params.lookup p = some v) :
    ∃ w, (cardLoop setup ignore params l).1.lookup p = some w ∧
      EndsWith setup (fun e : Option (List Str) × Str × NRead => TargetOf (fun q => (params.lookup q).isSome = true) e.1 e.2.1 p) (fun e => e.2.2) v l w := by
  induction l using List.reverseRecOn with
  | nil => exact ⟨v, hp, .none⟩
  | append_singleton l e ih =>
    obtain ⟨w, h1, h2⟩ := ih
    rw [cardLoop_snoc]
    have ht := cardTarget_congr (cardLoop_same setup ignore params l) e.1 e.2.1
    by_cases hT : TargetOf (fun q => (params.lookup q).isSome = true) e.1 e.2.1 p
    · refine ⟨if setup && w.isArr then e.2.2.wrap else e.2.2, ?_, .new l e w _ h2 hT (stored_wrap _ _ _)⟩
      rw [loadCard, ht, (cardTarget_spec params e.1 e.2.1 p).mpr hT]
      simp only [h1, lookup_dictSet, if_true]
    · refine ⟨w, ?_, .other l e w h2 hT⟩
      rw [loadCard, ht]
      cases hq : cardTarget params e.1 e.2.1 with
      | none => simp only; split <;> exact h1
      | some q =>
        have hne : p ≠ q := by rintro rfl; exact hT ((cardTarget_spec params e.1 e.2.1 p).mp hq)
        simp only
        split
        · exact h1
        · simp only [lookup_dictSet, if_neg hne, h1]

open Classical in
theorem cardLoop_unlinked (setup : Bool) (ignore : List Str) (params : List (Str × NRead)) (l : List (Option (List Str) × Str × NRead)) :
    (cardLoop setup ignore params l).2 = (l.filter fun e => decide ((∀ p, ¬ TargetOf (fun q => (params.lookup q).isSome = true) e.1 e.2.1 p) ∧ e.2.1 ∉ ignore ∧ e.2.1.map Char.toLower ∉ ignore)).map fun e => e.2.1 := by
  induction l using List.reverseRecOn with
  | nil => rfl
  | append_singleton l e ih =>
    rw [cardLoop_snoc, List.filter_append, List.map_append, ← ih, loadCard, cardTarget_congr (cardLoop_same setup ignore params l)]
    cases hq : cardTarget params e.1 e.2.1 with
    | none =>
      have hno : ∀ p, ¬ TargetOf (fun q => (params.lookup q).isSome = true) e.1 e.2.1 p := by
        intro p hp
        rw [(cardTarget_spec params e.1 e.2.1 p).mpr hp] at hq
        cases hq
      simp only
      rw [show lowerStr e.2.1 = e.2.1.map Char.toLower from rfl]
      by_cases hi : e.2.1 ∉ ignore ∧ e.2.1.map Char.toLower ∉ ignore
      · rw [if_pos hi, List.filter_cons_of_pos (by simp only [decide_eq_true_eq]; exact ⟨hno, hi⟩)]
        rfl
      · rw [if_neg hi, List.filter_cons_of_neg (by simp only [decide_eq_true_eq]; tauto)]
        simp
    | some q =>
      have hT := (cardTarget_spec params e.1 e.2.1 q).mp hq
      have hsome : ((cardLoop setup ignore params l).1.lookup q).isSome = true := by
        rw [cardLoop_same]
        unfold TargetOf at hT
        split at hT
        · exact hT.1
        · obtain ⟨_, _, _, _, h, _⟩ := hT; exact h.1
      rw [List.filter_cons_of_neg (by simp only [decide_eq_true_eq]; intro h; exact h.1 q hT)]
      simp only
      split
      · rename_i h; rw [h] at hsome; cases hsome
      · simp

theorem numbered_snoc {α : Type} (l : List α) (a : α) : ∀ i, numbered i (l ++ [a]) = numbered i l ++ [(i + l.length, a)] := by
  induction l with
  | nil => intro i; rfl
  | cons b l ih =>
    intro i
    simp only [List.cons_append, numbered, ih, List.length_cons]
    congr 4
    omega

theorem notLoadable_prefix (rules : List (Str × List Str)) (gs : List (Str × List (Str × NRead))) (g : Str × List (Str × NRead)) (i : Nat) (hi : i ≤ gs.length) (n : Str) :
    NotLoadable rules (gs ++ [g]) i n ↔ NotLoadable rules gs i n := by
  unfold NotLoadable
  refine or_congr ?_ Iff.rfl
  constructor
  · rintro ⟨j, cs, hj, h, hc⟩
    exact ⟨j, cs, hj, by rwa [List.getElem?_append_left (by omega)] at h, hc⟩
  · rintro ⟨j, cs, hj, h, hc⟩
    exact ⟨j, cs, hj, by rwa [List.getElem?_append_left (by omega)], hc⟩

open Classical in
theorem served_snoc (rules : List (Str × List Str)) (gs : List (Str × List (Str × NRead))) (g : Str × List (Str × NRead)) :
    servedCards rules (gs ++ [g]) = servedCards rules gs ++ (if NotLoadable rules gs gs.length g.1 then [] else g.2.map fun c => (rules.lookup g.1, c)) := by
  unfold servedCards
  rw [List.length_append, List.length_singleton, List.range_succ, List.flatMap_append]
  congr 1
  · rw [List.flatMap_def, List.flatMap_def]
    congr 1
    refine List.map_congr_left fun i hi => ?_
    have hi' := List.mem_range.mp hi
    simp only [List.getElem?_append_left hi']
    cases gs[i]? with
    | none => rfl
    | some q => simp only [notLoadable_prefix rules gs g i (by omega)]
  · simp [notLoadable_prefix rules gs g gs.length (by omega)]

/-- What holds after the first groups. -/
structure NlInv (setup : Bool) (rules : List (Str × List Str)) (ignore : List Str) (params : List (Str × NRead)) (gs : List (Str × List (Str × NRead))) (st : NLoad) : Prop where
  used : ∀ n, n ∈ st.used ↔ ∃ (j : Nat) (cs : List (Str × NRead)), gs[j]? = some (n, cs) ∧ cs ≠ []
  empty : ∀ (i : Nat) (n : Str), (i, n) ∈ st.empty ↔ gs[i]? = some (n, [])
  emptyOrd : st.empty.Pairwise (fun a b => a.1 < b.1)
  unlisted : ∀ (i : Nat) (n : Str), (i, n) ∈ st.unlisted ↔ ∃ cs, gs[i]? = some (n, cs) ∧ cs ≠ [] ∧ NotLoadable rules gs i n
  unlistedOrd : st.unlisted.Pairwise (fun a b => a.1 < b.1)
  cards : (st.params, st.unlinked) = cardLoop setup ignore params (servedCards rules gs)

theorem get_lt {α : Type} {l : List α} {i : Nat} {a : α} (h : l[i]? = some a) : i < l.length := (List.getElem?_eq_some_iff.mp h).1

theorem get_snoc_iff {α : Type} (l : List α) (g : α) (i : Nat) (a : α) : (l ++ [g])[i]? = some a ↔ l[i]? = some a ∨ (i = l.length ∧ a = g) := by
  by_cases h : i < l.length
  · rw [List.getElem?_append_left h]
    constructor
    · exact .inl
    · rintro (h1 | ⟨h1, _⟩)
      · exact h1
      · omega
  · rw [List.getElem?_append_right (by omega)]
    constructor
    · intro h1
      have := get_lt h1
      simp only [List.length_singleton] at this
      have hi : i = l.length := by omega
      subst hi
      simp at h1
      exact .inr ⟨rfl, h1.symm⟩
    · rintro (h1 | ⟨rfl, rfl⟩)
      · exact absurd (get_lt h1) h
      · simp

theorem ordered_snoc {l : List (Nat × Str)} {k : Nat} {n : Str} (h : l.Pairwise (fun a b => a.1 < b.1)) (hl : ∀ e ∈ l, e.1 < k) : (l ++ [(k, n)]).Pairwise (fun a b => a.1 < b.1) := by
  rw [List.pairwise_append]
  refine ⟨h, by simp, ?_⟩
  intro a ha b hb
  rw [List.mem_singleton.mp hb]
  exact hl a ha

theorem cardLoop_append (setup : Bool) (ignore : List Str) (params : List (Str × NRead)) (l : List (Option (List Str) × Str × NRead)) (cs : Option (List Str)) (cards : List (Str × NRead)) :
    cards.foldl (loadCard setup ignore cs) (cardLoop setup ignore params l) = cardLoop setup ignore params (l ++ cards.map fun c => (cs, c)) := by
  simp only [cardLoop, List.foldl_append, List.foldl_map]

theorem rule_mem (rules : List (Str × List Str)) (n : Str) : rules.lookup n = none ↔ ∀ e ∈ rules, e.1 ≠ n := by
  induction rules with
  | nil => simp
  | cons a rules ih =>
    rw [List.lookup_cons]
    by_cases h : n = a.1
    · simp [h]
    · have : (n == a.1) = false := by simpa using h
      rw [this]
      simp only [ih, List.mem_cons, forall_eq_or_imp]
      constructor
      · intro h2; exact ⟨fun e => h e.symm, h2⟩
      · exact fun h2 => h2.2

theorem loadGroup_inv (setup : Bool) (rules : List (Str × List Str)) (ignore : List Str) (params : List (Str × NRead)) (gs : List (Str × List (Str × NRead))) (g : Str × List (Str × NRead)) (st : NLoad)
    (h : NlInv setup rules ignore params gs st) : NlInv setup rules ignore params (gs ++ [g]) (loadGroup setup rules ignore st (gs.length, g)) := by
  have hElt : ∀ e ∈ st.empty, e.1 < gs.length := fun e he => get_lt ((h.empty e.1 e.2).mp he)
  have hUlt : ∀ e ∈ st.unlisted, e.1 < gs.length := fun e he => by obtain ⟨cs, h1, _⟩ := (h.unlisted e.1 e.2).mp he; exact get_lt h1
  have hU : ∀ (i : Nat) (n : Str), (∃ cs, (gs ++ [g])[i]? = some (n, cs) ∧ cs ≠ [] ∧ NotLoadable rules (gs ++ [g]) i n) ↔
      (i, n) ∈ st.unlisted ∨ (i = gs.length ∧ n = g.1 ∧ g.2 ≠ [] ∧ NotLoadable rules gs gs.length g.1) := by
    intro i n
    rw [h.unlisted]
    constructor
    · rintro ⟨cs, h1, h2, h3⟩
      rcases (get_snoc_iff gs g i _).mp h1 with h1 | ⟨rfl, e⟩
      · exact .inl ⟨cs, h1, h2, (notLoadable_prefix rules gs g i (get_lt h1).le n).mp h3⟩
      · subst e
        exact .inr ⟨rfl, rfl, h2, (notLoadable_prefix rules gs _ _ le_rfl n).mp h3⟩
    · rintro (⟨cs, h1, h2, h3⟩ | ⟨rfl, rfl, h2, h3⟩)
      · exact ⟨cs, (get_snoc_iff gs g i _).mpr (.inl h1), h2, (notLoadable_prefix rules gs g i (get_lt h1).le n).mpr h3⟩
      · exact ⟨g.2, (get_snoc_iff gs g _ _).mpr (.inr ⟨rfl, rfl⟩), h2, (notLoadable_prefix rules gs _ _ le_rfl _).mpr h3⟩
  have hE : ∀ (i : Nat) (n : Str), (gs ++ [g])[i]? = some (n, []) ↔ (i, n) ∈ st.empty ∨ (i = gs.length ∧ n = g.1 ∧ g.2 = []) := by
    intro i n
    rw [h.empty, get_snoc_iff]
    refine or_congr Iff.rfl (and_congr Iff.rfl ?_)
    constructor
    · intro e; rw [← e]; exact ⟨rfl, rfl⟩
    · rintro ⟨rfl, e⟩; rw [← e]
  have hD : ∀ n, (∃ (j : Nat) (cs : List (Str × NRead)), (gs ++ [g])[j]? = some (n, cs) ∧ cs ≠ []) ↔ n ∈ st.used ∨ (n = g.1 ∧ g.2 ≠ []) := by
    intro n
    rw [h.used]
    constructor
    · rintro ⟨j, cs, h1, h2⟩
      rcases (get_snoc_iff gs g j _).mp h1 with h1 | ⟨rfl, e⟩
      · exact .inl ⟨j, cs, h1, h2⟩
      · subst e; exact .inr ⟨rfl, h2⟩
    · rintro (⟨j, cs, h1, h2⟩ | ⟨rfl, h2⟩)
      · exact ⟨j, cs, (get_snoc_iff gs g j _).mpr (.inl h1), h2⟩
      · exact ⟨gs.length, g.2, (get_snoc_iff gs g _ _).mpr (.inr ⟨rfl, rfl⟩), h2⟩
  have hN : NotLoadable rules gs gs.length g.1 ↔ g.1 ∈ st.used ∨ (rules ≠ [] ∧ ∀ e ∈ rules, e.1 ≠ g.1) := by
    unfold NotLoadable
    rw [h.used]
    refine or_congr ?_ Iff.rfl
    constructor
    · rintro ⟨j, cs, _, h1, h2⟩; exact ⟨j, cs, h1, h2⟩
    · rintro ⟨j, cs, h1, h2⟩; exact ⟨j, cs, get_lt h1, h1, h2⟩
  have hC := h.cards
  rw [loadGroup]
  by_cases h0 : g.2 = []
  · rw [if_pos h0]
    refine ⟨?_, ?_, ordered_snoc h.emptyOrd hElt, ?_, h.unlistedOrd, ?_⟩
    · intro n; rw [hD]; simp [h0]
    · intro i n; rw [hE]; simp [h0]
    · intro i n; rw [hU]; simp [h0]
    · rw [served_snoc, h0]; simpa using hC
  · rw [if_neg h0]
    by_cases h1 : g.1 ∈ st.used
    · rw [if_pos h1]
      have hN' := hN.mpr (.inl h1)
      refine ⟨?_, ?_, h.emptyOrd, ?_, ordered_snoc h.unlistedOrd hUlt, ?_⟩
      · intro n; rw [hD]; constructor
        · exact .inl
        · rintro (h2 | ⟨rfl, _⟩)
          · exact h2
          · exact h1
      · intro i n; rw [hE]; simp [h0]
      · intro i n; rw [hU]; simp [h0, hN']
      · rw [served_snoc, if_pos hN', List.append_nil]; exact hC
    · rw [if_neg h1]
      by_cases h2 : rules = []
      · have hN' : ¬ NotLoadable rules gs gs.length g.1 := by rw [hN]; simp [h1, h2]
        rw [if_pos h2]
        refine ⟨?_, ?_, h.emptyOrd, ?_, h.unlistedOrd, ?_⟩
        · intro n; rw [hD]; simp [h0]
        · intro i n; rw [hE]; simp [h0]
        · intro i n; rw [hU]; simp [hN']
        · rw [served_snoc, if_neg hN', hC, cardLoop_append, h2]
          rfl
      · rw [if_neg h2]
        cases h3 : rules.lookup g.1 with
        | none =>
          have hN' : NotLoadable rules gs gs.length g.1 := hN.mpr (.inr ⟨h2, (rule_mem rules g.1).mp h3⟩)
          simp only
          refine ⟨?_, ?_, h.emptyOrd, ?_, ordered_snoc h.unlistedOrd hUlt, ?_⟩
          · intro n; rw [hD]; simp [h0]
          · intro i n; rw [hE]; simp [h0]
          · intro i n; rw [hU]; simp [h0, hN']
          · rw [served_snoc, if_pos hN', List.append_nil]; exact hC
        | some cs =>
          have hN' : ¬ NotLoadable rules gs gs.length g.1 := by
            rw [hN]
            rintro (h4 | ⟨_, h4⟩)
            · exact h1 h4
            · rw [(rule_mem rules g.1).mpr h4] at h3; cases h3
          simp only
          refine ⟨?_, ?_, h.emptyOrd, ?_, h.unlistedOrd, ?_⟩
          · intro n; rw [hD]; simp [h0]
          · intro i n; rw [hE]; simp [h0]
          · intro i n; rw [hU]; simp [hN']
          · rw [served_snoc, if_neg hN', hC, cardLoop_append, h3]

theorem loadModel_inv (setup : Bool) (rules : List (Str × List Str)) (ignore : List Str) (params : List (Str × NRead)) (gs : List (Str × List (Str × NRead))) :
    NlInv setup rules ignore params gs ((numbered 0 gs).foldl (loadGroup setup rules ignore) ⟨params, [], [], [], []⟩) := by
  induction gs using List.reverseRecOn with
  | nil => exact ⟨by simp [numbered], by simp [numbered], by simp [numbered], by simp [numbered], by simp [numbered], rfl⟩
  | append_singleton gs g ih =>
    rw [numbered_snoc, List.foldl_append, Nat.zero_add]
    exact loadGroup_inv setup rules ignore params gs g _ ih

theorem loadModel_ok {setup : Bool} {rules : List (Str × List Str)} {ignore : List Str} {single : Int} {r : NRes} {params : List (Str × NRead)} {out : NLoad}
    (hs : single < 0) (h : loadModel setup rules ignore single r params = .ok out) : NlInv setup rules ignore params r.groups out := by
  rw [loadModel] at h
  split at h
  · cases h
  · rw [if_neg (by omega)] at h
    cases h
    exact loadModel_inv setup rules ignore params r.groups

/-- C140. The groups without cards are reported, with their numbers and in their order. -/
theorem C140_empty (setup : Bool) (rules : List (Str × List Str)) (ignore : List Str) (single : Int) (r : NRes) (params : List (Str × NRead)) (out : NLoad)
    (hs : single < 0) (h : loadModel setup rules ignore single r params = .ok out) :
    (∀ (i : Nat) (n : Str), (i, n) ∈ out.empty ↔ r.groups[i]? = some (n, [])) ∧ out.empty.Pairwise (fun a b => a.1 < b.1) :=
  ⟨(loadModel_ok hs h).empty, (loadModel_ok hs h).emptyOrd⟩

/-- C140. So are the groups with cards that cannot be loaded. -/
theorem C140_unlisted (setup : Bool) (rules : List (Str × List Str)) (ignore : List Str) (single : Int) (r : NRes) (params : List (Str × NRead)) (out : NLoad)
    (hs : single < 0) (h : loadModel setup rules ignore single r params = .ok out) :
    (∀ (i : Nat) (n : Str), (i, n) ∈ out.unlisted ↔ ∃ cs, r.groups[i]? = some (n, cs) ∧ cs ≠ [] ∧ NotLoadable rules r.groups i n) ∧ out.unlisted.Pairwise (fun a b => a.1 < b.1) :=
  ⟨(loadModel_ok hs h).unlisted, (loadModel_ok hs h).unlistedOrd⟩

/-- C140. The params are the same, each holds what the cards for it have put there. -/
theorem C140_values (setup : Bool) (rules : List (Str × List Str)) (ignore : List Str) (single : Int) (r : NRes) (params : List (Str × NRead)) (out : NLoad)
    (hs : single < 0) (h : loadModel setup rules ignore single r params = .ok out) (p : Str) :
    (params.lookup p = none → out.params.lookup p = none) ∧
    ∀ v, params.lookup p = some v → ∃ w, out.params.lookup p = some w ∧
      EndsWith setup (fun e : Option (List Str) × Str × NRead => TargetOf (fun q => (params.lookup q).isSome = true) e.1 e.2.1 p) (fun e => e.2.2) v (servedCards rules r.groups) w := by
  have hc := (loadModel_ok hs h).cards
  have h1 : out.params = (cardLoop setup ignore params (servedCards rules r.groups)).1 := congrArg Prod.fst hc
  rw [h1]
  constructor
  · intro hn
    have := cardLoop_same setup ignore params (servedCards rules r.groups) p
    rw [hn] at this
    exact Option.isNone_iff_eq_none.mp (by rw [← Option.not_isSome, this]; rfl)
  · intro v hv
    exact cardLoop_val setup ignore params _ p v hv

open Classical in
/-- C140. The variables without a param are reported in their order, unless they are to be ignored. -/
theorem C140_unlinked (setup : Bool) (rules : List (Str × List Str)) (ignore : List Str) (single : Int) (r : NRes) (params : List (Str × NRead)) (out : NLoad)
    (hs : single < 0) (h : loadModel setup rules ignore single r params = .ok out) :
    out.unlinked = ((servedCards rules r.groups).filter fun e =>
      decide ((∀ p, ¬ TargetOf (fun q => (params.lookup q).isSome = true) e.1 e.2.1 p) ∧ e.2.1 ∉ ignore ∧ e.2.1.map Char.toLower ∉ ignore)).map fun e => e.2.1 := by
  have hc := (loadModel_ok hs h).cards
  rw [← cardLoop_unlinked setup ignore params]
  exact congrArg Prod.snd hc

theorem mem_served {rules : List (Str × List Str)} {groups : List (Str × List (Str × NRead))} {i : Nat} {n : Str} {cs : List (Str × NRead)} {c : Str × NRead}
    (hg : groups[i]? = some (n, cs)) (hc : c ∈ cs) (hl : ¬ NotLoadable rules groups i n) : (rules.lookup n, c) ∈ servedCards rules groups := by
  classical
  rw [servedCards, List.mem_flatMap]
  refine ⟨i, List.mem_range.mpr (get_lt hg), ?_⟩
  rw [hg]
  simp only
  rw [if_neg hl]
  exact List.mem_map.mpr ⟨c, hc, rfl⟩

/-- C140. No variable is lost without notice: its group is reported, or it is reported itself, or it is to be ignored, or there is a param for it. -/
theorem C140_accounted (setup : Bool) (rules : List (Str × List Str)) (ignore : List Str) (single : Int) (r : NRes) (params : List (Str × NRead)) (out : NLoad)
    (hs : single < 0) (h : loadModel setup rules ignore single r params = .ok out) (i : Nat) (n : Str) (cs : List (Str × NRead)) (hg : r.groups[i]? = some (n, cs)) (c : Str × NRead) (hc : c ∈ cs) :
    (i, n) ∈ out.unlisted ∨ c.1 ∈ out.unlinked ∨ (c.1 ∈ ignore ∨ c.1.map Char.toLower ∈ ignore) ∨
      ∃ p, TargetOf (fun q => (params.lookup q).isSome = true) (rules.lookup n) c.1 p := by
  classical
  by_cases hl : NotLoadable rules r.groups i n
  · left
    exact ((C140_unlisted setup rules ignore single r params out hs h).1 i n).mpr ⟨cs, hg, List.ne_nil_of_mem hc, hl⟩
  · have hm := mem_served hg hc hl
    by_cases ht : ∃ p, TargetOf (fun q => (params.lookup q).isSome = true) (rules.lookup n) c.1 p
    · exact .inr (.inr (.inr ht))
    · by_cases hi : c.1 ∈ ignore ∨ c.1.map Char.toLower ∈ ignore
      · exact .inr (.inr (.inl hi))
      · right; left
        rw [C140_unlinked setup rules ignore single r params out hs h]
        refine List.mem_map.mpr ⟨_, List.mem_filter.mpr ⟨hm, ?_⟩, rfl⟩
        simp only [decide_eq_true_eq]
        push Not at ht hi
        exact ⟨ht, hi⟩

theorem ends_last {α : Type} {arrays : Bool} {isFor : α → Prop} {val : α → NRead} {v w : NRead} {l : List α} (h : EndsWith arrays isFor val v l w) :
    ∀ a c b, l = a ++ c :: b → isFor c → (∀ d ∈ b, ¬ isFor d) → ∃ old, EndsWith arrays isFor val v a old ∧ Stored arrays old (val c) w := by
  induction h with
  | none => intro a c b e; simp at e
  | other l x w h1 h2 ih =>
    intro a c b e hc hb
    rcases List.eq_nil_or_concat b with rfl | ⟨b, y, rfl⟩
    · have := List.append_inj' e rfl
      simp at this
      rw [this.2] at h2
      exact absurd hc h2
    · rw [List.concat_eq_append, show a ++ c :: (b ++ [y]) = (a ++ c :: b) ++ [y] by simp] at e
      exact ih a c b (List.append_inj' e rfl).1 hc fun d hd => hb d (by simp [hd])
  | new l x old w h1 h2 h3 ih =>
    intro a c b e hc hb
    rcases List.eq_nil_or_concat b with rfl | ⟨b, y, rfl⟩
    · have := List.append_inj' e rfl
      simp at this
      rw [← this.1, ← this.2]
      exact ⟨old, h1, h3⟩
    · rw [List.concat_eq_append, show a ++ c :: (b ++ [y]) = (a ++ c :: b) ++ [y] by simp] at e
      have := List.append_inj' e rfl
      simp at this
      exact absurd h2 (this.2 ▸ hb y (by simp))

theorem ends_same {α : Type} {arrays : Bool} {isFor : α → Prop} {val : α → NRead} {v w : NRead} {l : List α} (h : EndsWith arrays isFor val v l w) (hn : ∀ c ∈ l, ¬ isFor c) : w = v := by
  induction h with
  | none => rfl
  | other l x w h1 h2 ih => exact ih fun c hc => hn c (by simp [hc])
  | new l x old w h1 h2 h3 ih => exact absurd h2 (hn x (by simp))

/-- C140. A param for which there is no card keeps its value; before setup a param holds the value of the last card for it. -/
theorem C140_last (rules : List (Str × List Str)) (ignore : List Str) (single : Int) (r : NRes) (params : List (Str × NRead)) (out : NLoad) (setup : Bool)
    (hs : single < 0) (h : loadModel setup rules ignore single r params = .ok out) (p : Str) (v : NRead) (hp : params.lookup p = some v) :
    ((∀ e ∈ servedCards rules r.groups, ¬ TargetOf (fun q => (params.lookup q).isSome = true) e.1 e.2.1 p) → out.params.lookup p = some v) ∧
    (setup = false → ∀ a e b, servedCards rules r.groups = a ++ e :: b → TargetOf (fun q => (params.lookup q).isSome = true) e.1 e.2.1 p →
      (∀ d ∈ b, ¬ TargetOf (fun q => (params.lookup q).isSome = true) d.1 d.2.1 p) → out.params.lookup p = some e.2.2) := by
  obtain ⟨w, h1, h2⟩ := (C140_values setup rules ignore single r params out hs h p).2 v hp
  constructor
  · intro hn
    rw [h1, ends_same h2 hn]
  · intro h0 a e b he ht hb
    obtain ⟨old, _, h3⟩ := ends_last h2 a e b he ht hb
    subst h0
    rw [h1]
    exact congrArg some h3

/-- C140. Errors: nothing was read, or there is no such group. -/
theorem C140_errors (setup : Bool) (rules : List (Str × List Str)) (ignore : List Str) (single : Int) (r : NRes) (params : List (Str × NRead)) :
    (r.groups = [] → loadModel setup rules ignore single r params = .error .RuntimeError) ∧
    (r.groups ≠ [] → (r.groups.length : Int) ≤ single → loadModel setup rules ignore single r params = .error .IndexError) ∧
    (r.groups ≠ [] → single < r.groups.length → ∃ out, loadModel setup rules ignore single r params = .ok out) := by
  refine ⟨fun h => by rw [loadModel, if_pos h], fun h h2 => ?_, fun h h2 => ?_⟩
  · have hp : 0 < r.groups.length := List.length_pos_iff.mpr h
    rw [loadModel, if_neg h, if_pos (by omega), List.getElem?_eq_none (by omega)]
  · rw [loadModel, if_neg h]
    split
    · rw [List.getElem?_eq_getElem (by omega)]
      exact ⟨_, rfl⟩
    · exact ⟨_, rfl⟩

/-- C140. With `single_group` the group is loaded as if it were the only one, and reported under its number. -/
theorem C140_single (setup : Bool) (rules : List (Str × List Str)) (ignore : List Str) (k : Nat) (r : NRes) (params : List (Str × NRead)) (g : Str × List (Str × NRead)) (hg : r.groups[k]? = some g) (out : NLoad)
    (h : loadModel setup rules ignore (-1) ⟨r.title, [g]⟩ params = .ok out) :
    ∃ o, loadModel setup rules ignore k r params = .ok o ∧ o.params = out.params ∧ o.unlinked = out.unlinked ∧
      o.empty = out.empty.map (fun e => (k, e.2)) ∧ o.unlisted = out.unlisted.map (fun e => (k, e.2)) := by
  have hne : r.groups ≠ [] := by intro e; rw [e] at hg; simp at hg
  have e1 : loadModel setup rules ignore (k : Int) r params = .ok (loadGroup setup rules ignore ⟨params, [], [], [], []⟩ (k, g)) := by
    rw [loadModel, if_neg hne, if_pos (by omega), Int.toNat_natCast, hg]
  have e2 : loadModel setup rules ignore (-1) ⟨r.title, [g]⟩ params = .ok (loadGroup setup rules ignore ⟨params, [], [], [], []⟩ (0, g)) := rfl
  rw [e2] at h
  cases h
  refine ⟨_, e1, ?_⟩
  unfold loadGroup
  simp only
  split
  · exact ⟨rfl, rfl, rfl, rfl⟩
  · split
    · exact ⟨rfl, rfl, rfl, rfl⟩
    · split
      · exact ⟨rfl, rfl, rfl, rfl⟩
      · split
        · exact ⟨rfl, rfl, rfl, rfl⟩
        · exact ⟨rfl, rfl, rfl, rfl⟩

/-! ## C141 -/

theorem lookup_first {β : Type} (l : List (Str × β)) (k : Str) (v : β) : l.lookup k = some v ↔ ∃ a b, l = a ++ (k, v) :: b ∧ ∀ e ∈ a, e.1 ≠ k := by
  induction l with
  | nil => simp
  | cons x l ih =>
    rw [List.lookup_cons]
    by_cases h : k = x.1
    · rw [show (k == x.1) = true by simp [h]]
      simp only [Option.some.injEq]
      constructor
      · intro e; subst e; exact ⟨[], l, by rw [h]; rfl, by simp⟩
      · rintro ⟨a, b, e, ha⟩
        cases a with
        | nil => cases e; rfl
        | cons y a => cases e; exact absurd h.symm (ha x (by simp))
    · rw [show (k == x.1) = false by simpa using h]
      simp only [ih]
      constructor
      · rintro ⟨a, b, rfl, ha⟩
        refine ⟨x :: a, b, rfl, ?_⟩
        intro e he
        rcases List.mem_cons.mp he with rfl | he
        · exact fun e => h e.symm
        · exact ha e he
      · rintro ⟨a, b, e, ha⟩
        cases a with
        | nil => cases e; exact absurd rfl h
        | cons y a => cases e; exact ⟨a, b, rfl, fun e he => ha e (by simp [he])⟩

/-- C141 (partial: only the first group of that name is searched, see `C141_second_refuted`). `find_card` gives the value of the first card of that name in the first group of that name. -/
theorem C141_find_partial (r : NRes) (group name : Str) (v : NRead) :
    findCard r group name = .ok v ↔ ∃ a cs b x y, r.groups = a ++ (group, cs) :: b ∧ (∀ g ∈ a, g.1 ≠ group) ∧ cs = x ++ (name, v) :: y ∧ ∀ c ∈ x, c.1 ≠ name := by
  rw [findCard]
  constructor
  · intro h
    split at h
    · cases h
    · rename_i cs hcs
      split at h
      · cases h
      · rename_i w hw
        cases h
        obtain ⟨a, b, e1, h1⟩ := (lookup_first _ _ _).mp hcs
        obtain ⟨x, y, e2, h2⟩ := (lookup_first _ _ _).mp hw
        exact ⟨a, cs, b, x, y, e1, h1, e2, h2⟩
  · rintro ⟨a, cs, b, x, y, e1, h1, e2, h2⟩
    rw [(lookup_first _ _ _).mpr ⟨a, b, e1, h1⟩]
    simp only
    rw [(lookup_first _ _ _).mpr ⟨x, y, e2, h2⟩]

/-- C141. Which error is raised. -/
theorem C141_errors (r : NRes) (group name : Str) :
    (findCard r group name = .error .ValueError ↔ ∀ g ∈ r.groups, g.1 ≠ group) ∧
    (findCard r group name = .error .RuntimeError ↔ ∃ a cs b, r.groups = a ++ (group, cs) :: b ∧ (∀ g ∈ a, g.1 ≠ group) ∧ ∀ c ∈ cs, c.1 ≠ name) := by
  have hnone : ∀ {β : Type} (l : List (Str × β)) (k : Str), l.lookup k = none ↔ ∀ e ∈ l, e.1 ≠ k := by
    intro β l k
    induction l with
    | nil => simp
    | cons a l ih =>
      rw [List.lookup_cons]
      by_cases h : k = a.1
      · simp [h]
      · rw [show (k == a.1) = false by simpa using h]
        simp only [ih, List.mem_cons, forall_eq_or_imp]
        exact ⟨fun h2 => ⟨fun e => h e.symm, h2⟩, fun h2 => h2.2⟩
  rw [findCard]
  cases hg : r.groups.lookup group with
  | none =>
    refine ⟨⟨fun _ => (hnone _ _).mp hg, fun _ => rfl⟩, ⟨fun e => by simp at e, ?_⟩⟩
    rintro ⟨a, cs, b, e, _, _⟩
    exact absurd rfl ((hnone _ _).mp hg (group, cs) (by rw [e]; simp))
  | some cs =>
    obtain ⟨a, b, e1, h1⟩ := (lookup_first _ _ _).mp hg
    have hnot : ¬ ∀ g ∈ r.groups, g.1 ≠ group := fun h => absurd rfl (h (group, cs) (by rw [e1]; simp))
    have huniq : ∀ a' cs' b', r.groups = a' ++ (group, cs') :: b' → (∀ g ∈ a', g.1 ≠ group) → cs' = cs := by
      intro a' cs' b' e h
      have := (lookup_first _ _ _).mpr ⟨a', b', e, h⟩
      rw [hg] at this
      exact (Option.some.inj this).symm
    simp only
    cases hc : cs.lookup name with
    | none =>
      refine ⟨⟨fun e => by simp at e, fun h => absurd h hnot⟩, ⟨fun _ => ⟨a, cs, b, e1, h1, (hnone _ _).mp hc⟩, fun _ => rfl⟩⟩
    | some v =>
      refine ⟨⟨fun e => by simp at e, fun h => absurd h hnot⟩, ⟨fun e => by simp at e, ?_⟩⟩
      rintro ⟨a', cs', b', e, h, hn⟩
      rw [huniq a' cs' b' e h] at hn
      rw [(hnone _ _).mpr hn] at hc
      cases hc

/-! ## Cases -/

/-- A deck with every kind of card. -/
def exNlDeck : NDeck := ⟨"Title here".toList, [
  ("FREE form line".toList, []),
  ("IN".toList, [.comment "! first".toList, .var "top:x".toList (.scal (.int (-3))), .var "f".toList (.scal (.flt "2.5".toList)), .var "b".toList (.scal (.bool true)), .var "s".toList (.scal (.str "a / b".toList)),
    .var "none".toList (.arr []), .var "l".toList (.arr [.int 1, .int 20]), .var "a".toList (.list [.flt "1.0".toList, .flt "0.5".toList, .int 2]),
    .var "m".toList (.mat [[.int 1, .int 2], [.int 3, .int 4], [.int 5, .int 6]])]),
  ("IN".toList, [.var "q".toList (.mat [[.flt "1.0".toList], [.flt "2.0".toList]])])]⟩

/-- What is to be read for it. -/
def exNlRes : NRes := ⟨"Title here".toList, [
  ("FREE form line".toList, []),
  ("IN".toList, [("x".toList, .tok (.num (.int (-3)))), ("f".toList, .tok (.num (.flt (5 / 2)))), ("b".toList, .tok (.bool true)), ("s".toList, .tok (.str "a / b".toList)),
    ("l".toList, .arr [.int 1, .int 20]), ("a".toList, .arr [.flt 1, .flt (1 / 2), .flt 2]), ("m".toList, .mat [[.int 1, .int 2], [.int 3, .int 4], [.int 5, .int 6]])]),
  ("IN".toList, [("q".toList, .mat [[.flt 1], [.flt 2]])])]⟩

/-- The text that is written. -/
example : (nlText exNlDeck).toOption.map String.ofList = some ("Title here\nFREE form line\n&IN\n  ! first\n  x = -3\n  f = 2.5\n  b = T\n  s = 'a / b'\n  l = 1, 20\n  a = 1.0, 0.5, 2\n" ++
    "  m(1,1) = 1,  2, \nm(1,2) = 3,  4, \nm(1,3) = 5,  6, \n/\n&IN\n  q(1,1) = 1.0, \nq(1,2) = 2.0, \n/\n") := by decide +kernel


theorem exNlName (n m : Str) (h : n = m ∨ ∃ p, n = p ++ ':' :: m) (hm : m ≠ []) (ha : m.all (fun c => c.isAlphanum) = true) : ShortName n m := ⟨⟨hm, by simpa using ha⟩, h⟩

theorem exNlFlt (ip fp : Str) (q : ℚ) (h : (ip ++ fp).all (fun c => c.isDigit) = true) (hne : ip ++ fp ≠ []) (d : Nat) (hd : decimal (ip ++ fp) = d) (hq : q = (1 : ℤ) * (d : ℤ) * (10 : ℚ) ^ (-(fp.length : ℤ))) :
    Stands (fun _ => false) (ip ++ '.' :: fp) (.flt q) := by
  rw [← hd] at hq
  subst hq
  exact_mod_cast Stands.point [] ip fp 1 .none (by rw [List.all_eq_true] at h; exact h) hne

/-- The hypotheses of `C139_roundtrip_partial` hold for it. -/
theorem exNlReads : DeckReads exNlDeck exNlRes := by
  have f1 : Stands (fun _ => false) "1.0".toList (.flt 1) := exNlFlt ['1'] ['0'] 1 (by decide) (by decide) 10 (by decide) (by norm_num)
  have f2 : Stands (fun _ => false) "2.0".toList (.flt 2) := exNlFlt ['2'] ['0'] 2 (by decide) (by decide) 20 (by decide) (by norm_num)
  have f3 : Stands (fun _ => false) "0.5".toList (.flt (1 / 2)) := exNlFlt ['0'] ['5'] (1 / 2) (by decide) (by decide) 5 (by decide) (by norm_num)
  have f4 : Stands (fun _ => false) "2.5".toList (.flt (5 / 2)) := exNlFlt ['2'] ['5'] (5 / 2) (by decide) (by decide) 25 (by decide) (by norm_num)
  refine ⟨.inr ⟨⟨⟨'e', by decide, by decide⟩, by decide, by decide, by decide⟩, 'T', by decide, by decide⟩, rfl, ?_, by intro h; exact absurd h (by decide)⟩
  refine .cons (.free _ ⟨⟨'e', by decide, by decide⟩, by decide, by decide, by decide⟩) (.cons ?_ (.cons ?_ .nil))
  · refine GroupReads.cards "IN".toList _ [[], [("x".toList, .tok (.num (.int (-3))))], [("f".toList, .tok (.num (.flt (5 / 2))))], [("b".toList, .tok (.bool true))], [("s".toList, .tok (.str "a / b".toList))], [],
      [("l".toList, .arr [.int 1, .int 20])], [("a".toList, .arr [.flt 1, .flt (1 / 2), .flt 2])], [("m".toList, .mat [[.int 1, .int 2], [.int 3, .int 4], [.int 5, .int 6]])]]
      ⟨by decide, by decide⟩ (by simp) ?_
    refine .cons (.comment _ (by decide) (by decide) ?_) (.cons (.num _ _ _ _ (exNlName _ _ (.inr ⟨"top".toList, rfl⟩) (by decide) (by decide)) (.int _))
      (.cons (.num _ _ _ _ (exNlName _ _ (.inl rfl) (by decide) (by decide)) (.flt _ _ f4)) (.cons (.bool _ _ _ (exNlName _ _ (.inl rfl) (by decide) (by decide)))
      (.cons (.str _ _ _ (exNlName _ _ (.inl rfl) (by decide) (by decide)) (by intro c hc; revert c; decide)) (.cons (.noArr _)
      (.cons (.ints _ _ _ [1, 20] (exNlName _ _ (.inl rfl) (by decide) (by decide)) (.inr rfl) (by decide))
      (.cons (.floats _ _ _ _ _ (exNlName _ _ (.inl rfl) (by decide) (by decide)) (.inl rfl) (by decide) ⟨"1.0".toList, by simp⟩ (.cons (.flt _ _ f1) (.cons (.flt _ _ f3) (.cons (by exact_mod_cast FloatReads.int 2) .nil))))
      (.cons (.intMat _ _ [[1, 2], [3, 4], [5, 6]] 2 (exNlName _ _ (.inl rfl) (by decide) (by decide)) (by decide) (by decide) (by decide)) .nil))))))))
    intro a b e
    exact absurd (show '/' ∈ "! first".toList by rw [e]; simp) (by decide)
  · refine GroupReads.cards "IN".toList _ [[("q".toList, .mat [[.flt 1], [.flt 2]])]] ⟨by decide, by decide⟩ (by simp) (.cons ?_ .nil)
    exact .fltMat _ _ _ _ 1 (exNlName _ _ (.inl rfl) (by decide) (by decide)) (by decide) (by decide) (by simp) (by simp) (.cons (.cons (.flt _ _ f1) .nil) (.cons (.cons (.flt _ _ f2) .nil) .nil))

theorem exNlWs : PlainWs defaultWs := ⟨rfl, by intro c h; simpa [defaultWs, or_assoc, or_comm, or_left_comm] using h⟩

example : ∃ text, nlText exNlDeck = .ok text ∧ parseNl defaultWs text = .ok exNlRes := C139_roundtrip_partial _ exNlWs _ _ exNlReads

/-- What is read for a deck that was written. -/
def reread (d : NDeck) : Except FErr NRes :=
  match nlText d with
  | .error e => .error (.py e)
  | .ok t => parseNl defaultWs t

/-- A deck with one group. -/
def oneGroup (g : String) (cs : List NCard) : NDeck := ⟨"T".toList, [(g.toList, cs)]⟩

/-- What is read for a deck with one group. -/
def oneRead (g : String) (cs : List (Str × NRead)) : NRes := ⟨"T".toList, [(g.toList, cs)]⟩

/-- C139 is false: a negative float that is written with an exponent and without a point comes back as an integer, and a wrong one. -/
theorem C139_exponent_refuted : (reread (oneGroup "IN" [.var "x".toList (.scal (.flt "-1e-05".toList))])).toOption = some (oneRead "IN" [("x".toList, .tok (.num (.int (-1))))]) := by decide +kernel

/-- C139 is false: a string with an exclamation mark is lost. -/
theorem C139_exclamation_refuted : (reread (oneGroup "IN" [.var "s".toList (.scal (.str "go!".toList)), .var "x".toList (.scal (.int 1))])).toOption = some (oneRead "IN" [("x".toList, .tok (.num (.int 1)))]) := by decide +kernel

/-- C139 is false: a quote ends a string. -/
theorem C139_quote_refuted : (reread (oneGroup "IN" [.var "s".toList (.scal (.str "it's".toList))])).toOption = some (oneRead "IN" [("s".toList, .tok (.str "it".toList))]) := by decide +kernel

/-- C139 is false: of a list of strings or of truth values only the first is read. -/
theorem C139_lists_refuted :
    (reread (oneGroup "IN" [.var "s".toList (.list [.str "a".toList, .str "b".toList]), .var "b".toList (.list [.bool true, .bool false])])).toOption =
      some (oneRead "IN" [("s".toList, .tok (.str "a".toList)), ("b".toList, .tok (.bool true))]) := by decide +kernel

/-- C139 is false: an array of one element becomes a number, an array of one row becomes 1-D. -/
theorem C139_shape_refuted :
    (reread (oneGroup "IN" [.var "a".toList (.arr [.flt "1.0".toList]), .var "m".toList (.mat [[.int 1, .int 2]])])).toOption =
      some (oneRead "IN" [("a".toList, .tok (.num (.flt 1))), ("m".toList, .arr [.int 1, .int 2])]) := by decide +kernel

/-- C139 is false: a variable with an underscore in its name cannot be read, and the name of a group ends before the underscore. -/
theorem C139_underscore_refuted :
    (reread (oneGroup "IN" [.var "my_x".toList (.scal (.int 1))])).toOption ≠ some (oneRead "IN" [("my_x".toList, .tok (.num (.int 1)))]) ∧
    (reread (oneGroup "MY_IN" [.var "x".toList (.scal (.int 1))])).toOption = some (oneRead "MY" [("x".toList, .tok (.num (.int 1)))]) := by decide +kernel

/-- C139 is false: without a title a free-form line becomes the title. -/
theorem C139_title_refuted : (reread ⟨[], [("free".toList, [])]⟩).toOption = some ⟨"free".toList, []⟩ := by decide +kernel

/-- C139 is false: a comment with a slash at its end ends the group. -/
theorem C139_comment_refuted : (reread (oneGroup "IN" [.comment "! m/".toList, .var "x".toList (.scal (.int 1))])).toOption ≠ some (oneRead "IN" [("x".toList, .tok (.num (.int 1)))]) := by decide +kernel

/-- C139 is false: nan cannot be written. -/
theorem C139_nan_refuted : (nlText (oneGroup "IN" [.var "x".toList (.scal .nan)])).toOption = none := by decide +kernel

/-- C139 is false after `FileParser` has been given the comma as delimiter: it is white space of all parsers then, and of an array nothing but the first number is left. -/
theorem C139_delimiters_refuted :
    (match nlText (oneGroup "IN" [.var "a".toList (.arr [.int 1, .int 2, .int 3])]) with
      | .error _ => none
      | .ok t => (parseNl (fun c => c = ' ' || c = ',') t).toOption) = some (oneRead "IN" [("a".toList, .tok (.num (.int 1)))]) := by decide +kernel

/-- A finding: a card on the line of the group with a slash in a string is dropped. -/
theorem finding_head_slash : (parseNl defaultWs "T\n&IN f='a/b' /\n".toList).toOption = some (oneRead "IN" []) := by decide +kernel

/-! ### C140, C141 -/

/-- A file with an empty group, a group that is loaded, one of the same name and one without rules. -/
def exLoadFile : NRes := ⟨[], [("free".toList, []), ("IN".toList, [("X".toList, .tok (.num (.int 3))), ("z".toList, .tok (.num (.int 4))), ("w".toList, .tok (.num (.int 5)))]), ("IN".toList, [("y".toList, .tok (.bool true))]),
  ("OUT".toList, [("y".toList, .tok (.bool true))])]⟩

/-- Params of a component. -/
def exLoadParams : List (Str × NRead) := [("b:x".toList, .arr [.flt 0]), ("b:y".toList, .tok (.bool false))]

/-- What is loaded. -/
def exLoad (setup : Bool) : Except PyErr NLoad := loadModel setup [("IN".toList, ["a".toList, "b".toList])] ["w".toList] (-1) exLoadFile exLoadParams

example : (exLoad true).toOption.map (fun o => (o.params, o.empty)) = some ([("b:x".toList, .arr [.int 3]), ("b:y".toList, .tok (.bool false))], [(0, "free".toList)]) ∧
    (exLoad true).toOption.map (fun o => (o.unlisted, o.unlinked)) = some ([(2, "IN".toList), (3, "OUT".toList)], ["z".toList]) := by decide +kernel

example : ∃ out, exLoad true = .ok out := (C140_errors _ _ _ _ exLoadFile _).2.2 (by decide) (by decide)

/-- C140 is false before setup: a number for an array does not become an array. -/
theorem C140_before_setup_refuted : (exLoad false).toOption.map (fun o => o.params.lookup "b:x".toList) = some (some (.tok (.num (.int 3)))) := by decide +kernel

/-- A finding: if two containers have the variable, only the last one gets it. -/
theorem finding_two_containers : (loadModel true [("IN".toList, ["a".toList, "b".toList])] [] (-1) ⟨[], [("IN".toList, [("x".toList, .tok (.num (.int 1)))])]⟩ [("a:x".toList, .tok (.num (.int 0))), ("b:x".toList, .tok (.num (.int 0)))]).toOption.map
    (fun o => o.params) = some [("a:x".toList, .tok (.num (.int 0))), ("b:x".toList, .tok (.num (.int 1)))] := by decide +kernel

example : (findCard exLoadFile "IN".toList "z".toList).toOption = some (.tok (.num (.int 4))) := by decide +kernel

/-- C141 is false: a variable in a second group of the same name is not found. -/
theorem C141_second_refuted : (∃ cs ∈ exLoadFile.groups, cs.1 = "IN".toList ∧ ("y".toList, .tok (.bool true)) ∈ cs.2) ∧ findCard exLoadFile "IN".toList "y".toList = .error .RuntimeError := by
  refine ⟨⟨("IN".toList, [("y".toList, .tok (.bool true))]), by simp [exLoadFile], rfl, by simp⟩, ?_⟩
  exact (C141_errors _ _ _).2.mpr ⟨[("free".toList, [])], _, _, rfl, by decide, by decide⟩

/-- C139. Rows of a matrix that differ in length are not read: a row after the first raises `ValueError`, whether one row or several were read before. -/
theorem C139_ragged_rows (ws : Char → Bool) (r : NRes) (l : Str) {x : (Str × ℤ × List NNum) × Str} {old : NRead} {rows : List (List NNum)} (hc : '!' ∉ l) (h1 : hits (tokCards ws) l = false)
    (h2 : hits (tokRow ws) l = true) (hx : tokRow ws l = some x) (hrow : 1 < x.1.2.1) (hold : r.last = .ok old) (ho : old = .mat rows ∨ ∃ row, rows = [row] ∧ old = .arr row)
    (hd : ∃ row ∈ rows, row.length ≠ (npNums x.1.2.2).length) : nlInside ws r l = .error (.py .ValueError) := by
  have hv : vstackRow old (npNums x.1.2.2) = .error .ValueError := by
    rcases ho with rfl | ⟨row, rfl, rfl⟩
    · dsimp only [vstackRow]
      obtain ⟨row, hm, hne⟩ := hd
      rw [if_neg]
      simp only [List.all_eq_true, decide_eq_true_eq]
      intro hall
      exact hne (hall row hm)
    · obtain ⟨q, hm, hne⟩ := hd
      rw [List.mem_singleton] at hm
      subst hm
      dsimp only [vstackRow]
      rw [if_neg hne]
  unfold nlInside
  rw [if_neg hc]
  simp only [h1, h2, Bool.false_eq_true, if_false, if_true, hx, hold, hv, if_pos hrow]

/-- A second row of one number after a row of two. -/
example : nlInside nlSpace (NRes.addCards ⟨[], [([], [])]⟩ [(['a'], .arr [.int 1, .int 2])]) "a(1,2) = 3".toList = .error (.py .ValueError) := by
  decide +kernel

end OpenMDAO
