import Verif.Lemmas.Namelist
/-!
# Lemmas for namelist files: values, 2-D arrays, other lines
-/
namespace OpenMDAO
set_option linter.unusedSectionVars false

/-! ## Values -/

theorem mapM_num (xs : List NNum) : (xs.map NTok.num).mapM NTok.num? = some xs := by
  induction xs with
  | nil => rfl
  | cons x xs ih => simp only [List.map_cons, List.mapM_cons, ih, NTok.num?]; rfl

theorem value_one (m : Str) (t : NTok) : (⟨m, none, none, [t], none⟩ : NRaw).value = .ok (.tok t) := rfl

theorem value_many (m : Str) (x y : NNum) (xs : List NNum) : (⟨m, none, none, (x :: y :: xs).map .num, none⟩ : NRaw).value = .ok (.arr (npNums (x :: y :: xs))) := by
  have : (⟨m, none, none, (x :: y :: xs).map .num, none⟩ : NRaw).value = .ok (npToks ((x :: y :: xs).map .num)) := by
    simp [NRaw.value, NRaw.dim, NRaw.toks, dimTok]
  rw [this, npToks, mapM_num]

theorem npNums_ints (l : List ℤ) : npNums (l.map .int) = l.map .int := by
  rw [npNums, if_pos]
  simp [NNum.isInt]

/-- Raw numbers of a list with a float are read as floats. -/
theorem floats_raw {l : List NScalar} {xs : List NNum} (h : List.Forall₂ FloatReads l xs) (ht : ∃ t, NScalar.flt t ∈ l) :
    ∃ ys, List.Forall₂ NumReads l ys ∧ npNums ys = xs := by
  have h1 : ∃ ys, List.Forall₂ NumReads l ys ∧ ys.map NNum.asFloat = xs ∧ ((∃ t, NScalar.flt t ∈ l) → ys.all NNum.isInt = false) := by
    clear ht
    induction h with
    | nil => exact ⟨[], .nil, rfl, by simp⟩
    | cons h1 h2 ih =>
      obtain ⟨ys, a, b, c⟩ := ih
      cases h1 with
      | int z =>
        refine ⟨.int z :: ys, .cons (.int z) a, by simp [b, NNum.asFloat], ?_⟩
        rintro ⟨t, ht⟩
        simp only [List.mem_cons] at ht
        rcases ht with ht | ht
        · cases ht
        · simp [NNum.isInt, c ⟨t, ht⟩]
      | flt t q hs => exact ⟨.flt q :: ys, .cons (.flt t q hs) a, by simp [b, NNum.asFloat], fun _ => by simp [NNum.isInt]⟩
  obtain ⟨ys, a, b, c⟩ := h1
  exact ⟨ys, a, by rw [npNums, if_neg (by simp [c ht]), b]⟩

/-- The texts of numbers. -/
theorem texts_of {l : List NScalar} {ys : List NNum} (h : List.Forall₂ NumReads l ys) : ∃ ts, l.mapM scalarText = .ok ts ∧ List.Forall₂ NumText ts ys := by
  induction h with
  | nil => exact ⟨[], rfl, .nil⟩
  | cons h1 h2 ih =>
    obtain ⟨ts, a, b⟩ := ih
    obtain ⟨t, c, d⟩ := numReads_text h1
    refine ⟨t :: ts, ?_, .cons d b⟩
    simp only [List.mapM_cons, c, a]
    rfl

theorem joinTexts_cons (t : Str) : ∀ ts, joinTexts (t :: ts) = t ++ commaTexts 1 ts
  | [] => by simp [joinTexts, commaTexts]
  | u :: ts => by
    rw [joinTexts, joinTexts_cons u ts]
    · simp [commaTexts]
    · simp

theorem comma_chars (g : Nat) {ts : List Str} {xs : List NNum} (h : List.Forall₂ NumText ts xs) : ∀ c ∈ commaTexts g ts, isNumChar c = true ∨ c = ',' ∨ c = ' ' := by
  induction h with
  | nil => intro c hc; simp [commaTexts] at hc
  | cons h1 h2 ih =>
    intro c hc
    simp only [commaTexts, List.map_cons, List.flatten_cons, List.mem_append] at hc
    rcases hc with hc | hc
    · rcases List.mem_cons.mp hc with rfl | hc
      · simp
      · rcases List.mem_append.mp hc with hc | hc
        · exact .inr (.inr (List.eq_of_mem_replicate hc))
        · exact .inl (h1.chars c hc)
    · exact ih c hc

theorem comma_last {t : Str} {x : NNum} (ht : NumText t x) {ts : List Str} {xs : List NNum} (h : List.Forall₂ NumText ts xs) :
    ∃ z, (t ++ commaTexts 1 ts).getLast? = some z ∧ isNumChar z = true := by
  induction h generalizing t x with
  | nil =>
    simp only [commaTexts, List.map_nil, List.flatten_nil, List.append_nil]
    exact ⟨t.getLast ht.ne, List.getLast?_eq_some_getLast ht.ne, ht.chars _ (List.getLast_mem ht.ne)⟩
  | cons h1 h2 ih =>
    rename_i a b as bs
    obtain ⟨z, h3, h4⟩ := ih h1
    refine ⟨z, ?_, h4⟩
    have e : t ++ commaTexts 1 (a :: as) = t ++ ", ".toList ++ (a ++ commaTexts 1 as) := by simp [commaTexts]
    rw [e, List.getLast?_append, h3]
    rfl

theorem numChar_space {z : Char} (h : isNumChar z = true) : nlSpace z = false ∧ z ≠ '/' := by
  have := numChar_plain h
  simp only [List.mem_cons, List.not_mem_nil, or_false, not_or] at this
  exact ⟨nlSpace_false (by simp [this]), by tauto⟩

/-- A line with one number or more. -/
theorem line_nums {ws : Char → Bool} (hw : PlainWs ws) {r : NRes} {m t : Str} (hm : AlnumWord m) {x : NNum} (ht : NumText t x) {ts : List Str} {xs : List NNum} (h : List.Forall₂ NumText ts xs)
    {v : NRead} (hv : (⟨m, none, none, (x :: xs).map .num, none⟩ : NRaw).value = .ok v) :
    nlLine ws (r, true) (cardLine m (joinTexts (t :: ts))) = .ok (r.addCards [(m, v)], true) := by
  rw [joinTexts_cons]
  have hch : ∀ c ∈ t ++ commaTexts 1 ts, isNumChar c = true ∨ c = ',' ∨ c = ' ' := by
    intro c hc
    rcases List.mem_append.mp hc with hc | hc
    · exact .inl (ht.chars c hc)
    · exact comma_chars 1 h c hc
  have hno : ∀ c ∈ ['!', '\t', '*'], c ∉ t ++ commaTexts 1 ts := by
    intro c hc hm
    rcases hch c hm with h1 | h1 | h1
    · have := numChar_plain h1
      simp only [List.mem_cons, List.not_mem_nil, or_false, not_or] at this hc
      rcases hc with rfl | rfl | rfl <;> simp_all
    · subst h1; revert hc; decide
    · subst h1; revert hc; decide
  obtain ⟨z, hz, hzn⟩ := comma_last ht h
  refine line_card hw hm hz (numChar_space hzn).1 (numChar_space hzn).2 (hno _ (by decide)) (hno _ (by decide)) (dimL_none ?_) (tokData_nums hw 1 ht h) hv
  intro hc
  rcases List.mem_cons.mp hc with hc | hc
  · revert hc; decide
  · exact hno _ (by decide) hc

theorem line_str {ws : Char → Bool} (hw : PlainWs ws) {r : NRes} {m s : Str} (hm : AlnumWord m) (hs : PlainText s) :
    nlLine ws (r, true) (cardLine m ('\'' :: s ++ ['\''])) = .ok (r.addCards [(m, .tok (.str s))], true) := by
  have hno : ∀ c ∈ ['!', '\t'], c ∉ '\'' :: s ++ ['\''] := by
    intro c hc hm
    simp only [List.cons_append, List.mem_cons, List.mem_append, List.not_mem_nil, or_false] at hm hc
    rcases hm with rfl | hm | rfl
    · revert hc; decide
    · have := hs c hm
      simp only [List.mem_cons, List.not_mem_nil, or_false, not_or] at this
      rcases hc with rfl | rfl <;> simp_all
    · revert hc; decide
  exact line_card hw hm (z := '\'') (List.getLast?_concat (l := '\'' :: s)) (by decide) (by decide) (hno _ (by decide)) (hno _ (by decide)) (dimL_quote hw _) (tokData_str hw hs) (value_one m _)

theorem line_bool {ws : Char → Bool} (hw : PlainWs ws) {r : NRes} {m : Str} (hm : AlnumWord m) (b : Bool) :
    nlLine ws (r, true) (cardLine m (if b then ['T'] else ['F'])) = .ok (r.addCards [(m, .tok (.bool b))], true) := by
  have hd : optTok (tokDimL ws) (' ' :: (if b then ['T'] else ['F'])) = (none, ' ' :: (if b then ['T'] else ['F'])) := dimL_none (by cases b <;> decide)
  exact line_card hw hm (z := if b then 'T' else 'F') (by cases b <;> rfl) (by cases b <;> decide) (by cases b <;> decide) (by cases b <;> decide) (by cases b <;> decide) hd
    (tokData_bool hw b) (value_one m _)

/-! ## 2-D arrays -/

theorem suffix_split {t x y : Str} (h : t <:+ x ++ y) : t <:+ y ∨ ∃ x', x' ≠ [] ∧ x' <:+ x ∧ t = x' ++ y := by
  obtain ⟨a, ha⟩ := h
  rcases List.append_eq_append_iff.mp ha with ⟨b, h1, h2⟩ | ⟨b, h1, h2⟩
  · cases b with
    | nil => left; exact ⟨[], by simpa using h2⟩
    | cons c b => right; exact ⟨c :: b, by simp, ⟨a, h1.symm⟩, h2⟩
  · left; exact ⟨b, h2.symm⟩

theorem tokWord_suffix {ws : Char → Bool} {s : Str} {x : Str × Str} (h : tokWord ws s = some x) : x.2 <:+ s := by
  rw [tokWord] at h
  split at h
  · cases h
  · cases h
    exact (List.dropWhile_suffix _).trans (List.dropWhile_suffix _)

theorem tokIndex_suffix {ws : Char → Bool} (s : Str) : (optTok (tokIndex ws) s).2 <:+ s := by
  rw [optTok]
  cases h : tokIndex ws s with
  | none => exact List.suffix_refl _
  | some x =>
    simp only
    rw [tokIndex] at h
    cases h1 : tokLit ws '(' s with
    | none => rw [h1] at h; cases h
    | some r =>
      rw [h1] at h
      simp only at h
      cases h2 : tokInt ws r with
      | none => rw [h2] at h; cases h
      | some y =>
        rw [h2] at h
        simp only at h
        cases h3 : tokLit ws ')' y.2 with
        | none => rw [h3] at h; cases h
        | some r' =>
          rw [h3] at h
          cases h
          exact (tokLit_mem h3).2.trans ((tokInt_suffix (r := y.2) (z := y.1) h2).trans (tokLit_mem h1).2)

/-- A card has an equals sign. -/
theorem tokCard_eq {ws : Char → Bool} {s : Str} (h : '=' ∉ s) : tokCard ws s = none := by
  rw [tokCard]
  cases h1 : tokWord ws s with
  | none => rfl
  | some n =>
    simp only
    cases h2 : tokLit ws '=' (optTok (tokIndex ws) n.2).2 with
    | none => rfl
    | some r => exact absurd ((tokWord_suffix h1).subset ((tokIndex_suffix n.2).subset (tokLit_mem h2).1)) h

theorem tokCards_none {ws : Char → Bool} {s : Str} (h : tokCard ws s = none) : tokCards ws s = none := by rw [tokCards, h]; rfl

section
variable {ws : Char → Bool} (hw : PlainWs ws)
include hw

/-- No word at the beginning. -/
theorem tokCard_noWord {c : Char} {s : Str} (h : c ∉ [' ', '\t', '\n', '\r']) (ha : c.isAlphanum = false) : tokCard ws (c :: s) = none := by
  have : tokWord ws (c :: s) = none := by
    rw [tokWord, skip_of hw h, if_pos]
    simp [List.takeWhile, ha]
  rw [tokCard, this]

/-- A word that is followed by neither an index nor an equals sign. -/
theorem tokCard_word {m s : Str} {c : Char} (hm : AlnumWord m) (ha : c.isAlphanum = false) (h : c ∉ [' ', '\t', '\n', '\r', '=', '(']) : tokCard ws (m ++ c :: s) = none := by
  simp only [List.mem_cons, List.not_mem_nil, or_false, not_or] at h
  have h1 : c ∉ [' ', '\t', '\n', '\r'] := by simp [h]
  rw [tokCard, tokWord_spec hw hm (by intro d t e; cases e; exact ha)]
  have : optTok (tokIndex ws) (c :: s) = (none, c :: s) := by
    rw [optTok, tokIndex, tokLit_other hw h1 h.2.2.2.2.2]
  simp only [this, tokLit_other hw h1 h.2.2.2.2.1]

theorem tokInt_digits {ds : Str} (hd : Digits ds) {c : Char} {s : Str} (hc : isInner c = false) : tokInt ws (ds ++ c :: s) = some ((decimal ds : ℤ), c :: s) := by
  have hs : (ds ++ c :: s).dropWhile ws = ds ++ c :: s := by
    cases ds with
    | nil => exact absurd rfl hd.1
    | cons d ds =>
      refine skip_alnum hw ?_
      have := hd.2 d (by simp)
      simp [Char.isAlphanum, this]
  have hstop : Stops isInner (c :: s) := by intro d t e; cases e; exact hc
  obtain ⟨h1, h2⟩ := lexSign_spec .none (unsigned_digits (r := c :: s) hd)
  rw [tokInt, hs]
  have hl : lexInt (ds ++ c :: s) = some (.int (decimal ds), c :: s) := by
    simp only [List.nil_append] at h1 h2
    rw [lexInt, h1, lexDigits_stop hd hstop.digit]
    simp only [Option.map_some, Option.some.injEq, Prod.mk.injEq, and_true, FVal.int.injEq]
    have hb : (lexSign (ds ++ c :: s)).1 = false := by
      by_contra hb
      have hb : (lexSign (ds ++ c :: s)).1 = true := by simpa using hb
      simp [hb] at h2
    simp [hb, digitsVal_eq]
  rw [hl]

/-- The body of a row. -/
def rowBody (m : Str) (k : Nat) (t : Str) (ts : List Str) : Str := m ++ '(' :: '1' :: ',' :: (natText k ++ ')' :: ' ' :: '=' :: ' ' :: (t ++ (commaTexts 2 ts ++ [','])))

theorem digits_alnum {ds : Str} (h : Digits ds) : AlnumWord ds := ⟨h.1, fun c hc => by simp [Char.isAlphanum, h.2 c hc]⟩

theorem suffix_word {m m' : Str} (h : AlnumWord m) (hs : m' <:+ m) (hne : m' ≠ []) : AlnumWord m' := ⟨hne, fun c hc => h.2 c (hs.subset hc)⟩

theorem tokIndex_two {s : Str} : optTok (tokIndex ws) ('(' :: '1' :: ',' :: s) = (none, '(' :: '1' :: ',' :: s) := by
  have hi : tokInt ws ('1' :: ',' :: s) = some (1, ',' :: s) := by
    have := tokInt_digits hw (ds := ['1']) (c := ',') (s := s) ⟨by simp, by decide⟩ (by decide)
    simpa [decimal] using this
  rw [optTok, tokIndex, tokLit_head hw (by decide)]
  simp only [hi, tokLit_other hw (c := ')') (d := ',') (by decide) (by decide)]
  rfl

theorem row_noCard {m t : Str} {k : Nat} {ts : List Str} (hm : AlnumWord m) {x : NNum} {xs : List NNum} (ht : NumText t x) (hts : List.Forall₂ NumText ts xs) :
    hits (tokCards ws) (rowBody m k t ts) = false := by
  refine hits_false fun u hu => tokCards_none ?_
  have hnoeq : '=' ∉ ' ' :: (t ++ (commaTexts 2 ts ++ [','])) := by
    intro h
    simp only [List.mem_cons, List.mem_append, List.not_mem_nil, or_false] at h
    have hnum : ∀ c : Char, isNumChar c = true → c ≠ '=' := fun c hc e => by subst e; revert hc; decide
    rcases h with h | h | h | h
    · revert h; decide
    · exact hnum _ (ht.chars _ h) rfl
    · rcases comma_chars 2 hts _ h with h | h | h
      · exact hnum _ h rfl
      · revert h; decide
      · revert h; decide
    · revert h; decide
  rw [rowBody] at hu
  rcases suffix_split hu with hu | ⟨m', hne, hs, rfl⟩
  · rcases List.suffix_cons_iff.mp hu with rfl | hu
    · exact tokCard_noWord hw (by decide) (by decide)
    rcases List.suffix_cons_iff.mp hu with rfl | hu
    · exact tokCard_word hw (m := ['1']) (c := ',') ⟨by simp, by decide⟩ (by decide) (by decide)
    rcases List.suffix_cons_iff.mp hu with rfl | hu
    · exact tokCard_noWord hw (by decide) (by decide)
    rcases suffix_split hu with hu | ⟨k', hne, hs, rfl⟩
    · rcases List.suffix_cons_iff.mp hu with rfl | hu
      · exact tokCard_noWord hw (by decide) (by decide)
      rcases List.suffix_cons_iff.mp hu with rfl | hu
      · rw [tokCard, tokWord, skip_blank hw, skip_of hw (by decide)]
        rfl
      rcases List.suffix_cons_iff.mp hu with rfl | hu
      · exact tokCard_noWord hw (by decide) (by decide)
      exact tokCard_eq fun h => hnoeq (hu.subset h)
    · exact tokCard_word hw (suffix_word hw (digits_alnum hw (natText_digits k)) hs hne) (by decide) (by decide)
  · rw [tokCard, tokWord_spec hw (suffix_word hw hm hs hne) (by intro d t e; cases e; decide)]
    simp only [tokIndex_two hw, tokLit_other hw (c := '=') (d := '(') (by decide) (by decide)]

theorem tokRow_spec {m t : Str} {k : Nat} {ts : List Str} (hm : AlnumWord m) {x : NNum} {xs : List NNum} (ht : NumText t x) (hts : List.Forall₂ NumText ts xs) :
    tokRow ws (rowBody m k t ts) = some ((m, (k : ℤ), x :: xs), [',']) := by
  have hi : tokInt ws ('1' :: ',' :: (natText k ++ ')' :: ' ' :: '=' :: ' ' :: (t ++ (commaTexts 2 ts ++ [','])))) = some (1, ',' :: (natText k ++ ')' :: ' ' :: '=' :: ' ' :: (t ++ (commaTexts 2 ts ++ [','])))) := by
    have := tokInt_digits hw (ds := ['1']) (c := ',') (s := natText k ++ ')' :: ' ' :: '=' :: ' ' :: (t ++ (commaTexts 2 ts ++ [',']))) ⟨by simp, by decide⟩ (by decide)
    simpa [decimal] using this
  have hk := tokInt_digits hw (natText_digits k) (c := ')') (s := ' ' :: '=' :: ' ' :: (t ++ (commaTexts 2 ts ++ [',']))) (by decide)
  have hstop : ∀ r, tokLit ws ',' [','] = some r → tokNum ws r = none := by
    intro r hr
    rw [tokLit_head hw (by decide)] at hr
    cases hr
    rfl
  rw [rowBody, tokRow, tokWord_spec hw hm (by intro d t e; cases e; decide)]
  simp only [tokLit_head hw (c := '(') (by decide), Option.bind_some, hi, tokLit_head hw (c := ',') (by decide), hk, tokLit_head hw (c := ')') (by decide), tokLit_blank hw (c := '=') (by decide),
    (tokNum_spec hw ht (stops_commaTexts 2 ts (stops_comma []))).2, moreNums_spec hw 2 (stops_comma []) hstop ts xs _ hts (commaTexts_length 2 hts _), natText_decimal]

end

/-! ## The state -/

theorem onLast_snoc {α : Type} (f : α → α) (a : α) : ∀ l, onLast f (l ++ [a]) = l ++ [f a]
  | [] => rfl
  | [b] => rfl
  | b :: c :: l => by
    have := onLast_snoc f a (c :: l)
    simp only [List.cons_append] at this ⊢
    rw [onLast, this]

/-- What was read, with a group `g` at the end that has the cards `cs`. -/
def NRes.with (r : NRes) (g : Str) (cs : List (Str × NRead)) : NRes := ⟨r.title, r.groups ++ [(g, cs)]⟩

theorem addCards_with (r : NRes) (g : Str) (cs ds : List (Str × NRead)) : (r.with g cs).addCards ds = r.with g (cs ++ ds) := by
  simp [NRes.addCards, NRes.with, onLast_snoc]

theorem last_with (r : NRes) (g m : Str) (cs : List (Str × NRead)) (v : NRead) : (r.with g (cs ++ [(m, v)])).last = .ok v := by
  simp [NRes.last, NRes.with]

theorem setLast_with (r : NRes) (g m : Str) (cs : List (Str × NRead)) (v w : NRead) : (r.with g (cs ++ [(m, v)])).setLast w = r.with g (cs ++ [(m, w)]) := by
  simp [NRes.setLast, NRes.with, onLast_snoc]

/-! ## Rows -/

theorem rowText_body (m : Str) (k : Nat) (t : Str) (ts : List Str) : rowText m k (t :: ts) = rowBody m k t ts ++ [' '] ++ ['\n'] := by
  have h : ∀ (u : List Str) (x : Str), ((x :: u).map fun t => ' ' :: t ++ ", ".toList).flatten = ' ' :: (x ++ (commaTexts 2 u ++ [',', ' '])) := by
    intro u
    induction u with
    | nil => intro x; simp [commaTexts]
    | cons y u ih =>
      intro x
      rw [List.map_cons, List.flatten_cons, ih y]
      simp [commaTexts]
  rw [rowText, h ts t]
  simp [rowBody]

section
variable {ws : Char → Bool} (hw : PlainWs ws)
include hw

theorem row_line {m t : Str} {k : Nat} {ts : List Str} (hm : AlnumWord m) {x : NNum} {xs : List NNum} (ht : NumText t x) (hts : List.Forall₂ NumText ts xs) (r : NRes) (lead : Str)
    (hl : lead = [] ∨ lead = "  ".toList) :
    nlLine ws (r, true) (lead ++ rowText m k (t :: ts)) = (nlInside ws r (rowBody m k t ts)).map fun s => (s.1, s.2 && true) := by
  obtain ⟨a, ha, haa⟩ := hm.head
  have ha' : (rowBody m k t ts ++ [' ']).head? = some a := by
    cases m with
    | nil => cases ha
    | cons c m => simpa [rowBody] using ha
  have hlast : (rowBody m k t ts).getLast? = some ',' := by
    rw [rowBody]
    have : m ++ '(' :: '1' :: ',' :: (natText k ++ ')' :: ' ' :: '=' :: ' ' :: (t ++ (commaTexts 2 ts ++ [',']))) = (m ++ '(' :: '1' :: ',' :: (natText k ++ ')' :: ' ' :: '=' :: ' ' :: (t ++ (commaTexts 2 ts)))) ++ [','] := by simp
    rw [this, List.getLast?_concat]
  have hdrop : (lead ++ (rowBody m k t ts ++ [' '] ++ ['\n'])).dropWhile nlSpace = rowBody m k t ts ++ [' '] ++ ['\n'] := by
    have hb : nlSpace ' ' = true := by decide
    have h1 : (rowBody m k t ts ++ [' '] ++ ['\n']).dropWhile nlSpace = rowBody m k t ts ++ [' '] ++ ['\n'] := by
      cases hq : rowBody m k t ts ++ [' '] with
      | nil => rw [hq] at ha'; cases ha'
      | cons c q =>
        rw [hq] at ha'
        cases ha'
        simp [alnum_nlSpace haa]
    rcases hl with rfl | rfl
    · exact h1
    · show ((' ' :: ' ' :: (rowBody m k t ts ++ [' '] ++ ['\n'])).dropWhile nlSpace) = _
      rw [List.dropWhile_cons_of_pos hb, List.dropWhile_cons_of_pos hb, h1]
  have hstrip : pyStrip nlSpace (lead ++ rowText m k (t :: ts)) = rowBody m k t ts := by
    rw [rowText_body, pyStrip, hdrop, rstrip_snoc (by decide), rstrip_snoc (by decide), rstrip_last hlast (by decide)]
  have htab : '\t' ∉ rowBody m k t ts := by
    intro h
    simp only [rowBody, List.mem_append, List.mem_cons, List.not_mem_nil, or_false] at h
    have hn : ∀ c : Char, isNumChar c = true → c ≠ '\t' := fun c hc e => by subst e; revert hc; decide
    rcases h with h | h | h | h | h | h | h | h | h | h | h | h
    · exact alnum_space (hm.2 _ h) (by decide)
    · revert h; decide
    · revert h; decide
    · revert h; decide
    · exact hn _ (digit_num ((natText_digits k).2 _ h)) rfl
    · revert h; decide
    · revert h; decide
    · revert h; decide
    · revert h; decide
    · exact hn _ (ht.chars _ h) rfl
    · rcases comma_chars 2 hts _ h with h | h | h
      · exact hn _ h rfl
      · revert h; decide
      · revert h; decide
    · revert h; decide
  have hne : rowBody m k t ts ≠ [] := by intro e; rw [e] at hlast; cases hlast
  rw [nlLine]
  simp only [hstrip, if_neg hne, if_true, expandTabs_free _ 0 htab, hlast]
  cases nlInside ws r (rowBody m k t ts) <;> rfl

theorem row_bang {m t : Str} {k : Nat} {ts : List Str} (hm : AlnumWord m) {x : NNum} {xs : List NNum} (ht : NumText t x) (hts : List.Forall₂ NumText ts xs) : '!' ∉ rowBody m k t ts := by
  intro h
  simp only [rowBody, List.mem_append, List.mem_cons, List.not_mem_nil, or_false] at h
  have hn : ∀ c : Char, isNumChar c = true → c ≠ '!' := fun c hc e => by subst e; revert hc; decide
  rcases h with h | h | h | h | h | h | h | h | h | h | h | h
  · exact alnum_space (hm.2 _ h) (by decide)
  · revert h; decide
  · revert h; decide
  · revert h; decide
  · exact hn _ (digit_num ((natText_digits k).2 _ h)) rfl
  · revert h; decide
  · revert h; decide
  · revert h; decide
  · revert h; decide
  · exact hn _ (ht.chars _ h) rfl
  · rcases comma_chars 2 hts _ h with h | h | h
    · exact hn _ h rfl
    · revert h; decide
    · revert h; decide
  · revert h; decide

/-- The first row makes a card. -/
theorem row_first {m t : Str} {ts : List Str} (hm : AlnumWord m) {x : NNum} {xs : List NNum} (ht : NumText t x) (hts : List.Forall₂ NumText ts xs) (r : NRes) (lead : Str)
    (hl : lead = [] ∨ lead = "  ".toList) :
    nlLine ws (r, true) (lead ++ rowText m 1 (t :: ts)) = .ok (r.addCards [(m, .arr (npNums (x :: xs)))], true) := by
  rw [row_line hw hm ht hts r lead hl, nlInside, if_neg (row_bang hw hm ht hts), row_noCard hw hm ht hts]
  simp only [Bool.false_eq_true, if_false, hits_self (tokRow_spec hw hm ht hts (k := 1)), if_true, tokRow_spec hw hm ht hts]
  rfl

/-- A further row is stacked onto the last value. -/
theorem row_next {m t : Str} {k : Nat} (hk : 1 < k) {ts : List Str} (hm : AlnumWord m) {x : NNum} {xs : List NNum} (ht : NumText t x) (hts : List.Forall₂ NumText ts xs) (r : NRes) (old v : NRead)
    (ho : r.last = .ok old) (hv : vstackRow old (npNums (x :: xs)) = .ok v) :
    nlLine ws (r, true) (rowText m k (t :: ts)) = .ok (r.setLast v, true) := by
  have h0 := row_line hw hm ht hts r [] (.inl rfl) (k := k)
  simp only [List.nil_append] at h0
  rw [h0, nlInside, if_neg (row_bang hw hm ht hts), row_noCard hw hm ht hts]
  have hk' : ((k : ℤ) > 1) := by omega
  simp only [Bool.false_eq_true, if_false, hits_self (tokRow_spec hw hm ht hts (k := k)), if_true, tokRow_spec hw hm ht hts, hk', ho, hv]
  rfl

/-! ## Other lines -/

theorem line_end (r : NRes) : nlLine ws (r, true) "/\n".toList = .ok (r, false) := by
  have h1 : ∀ u : Str, u <:+ ['/'] → u = ['/'] ∨ u = [] := by
    intro u hu
    rcases List.suffix_cons_iff.mp hu with rfl | hu
    · exact .inl rfl
    · exact .inr (List.suffix_nil.mp hu)
  have hs : pyStrip nlSpace "/\n".toList = ['/'] := by decide
  have he : expandTabs 0 ['/'] = ['/'] := by decide
  have hd : (['/'] : Str).dropWhile ws = ['/'] := skip_of hw (by decide)
  have c1 : hits (tokCards ws) ['/'] = false := hits_false fun u hu => by
    rcases h1 u hu with rfl | rfl
    · exact tokCards_none (tokCard_noWord hw (by decide) (by decide))
    · rfl
  have c2 : hits (tokRow ws) ['/'] = false := hits_false fun u hu => by
    rcases h1 u hu with rfl | rfl
    · rw [tokRow, tokWord, hd]; rfl
    · rfl
  have c3 : hits (tokNumStr ws) ['/'] = false := hits_false fun u hu => by
    rcases h1 u hu with rfl | rfl
    · rw [tokNumStr, tokNum, tokStr, hd]; rfl
    · rfl
  have c4 : hits (tokEnd ws) ['/'] = true := hits_self (a := (['/'], [])) (by rw [tokEnd, hd]; decide)
  rw [nlLine]
  simp only [hs, he, if_true, nlInside, c1, c2, c3, c4, Bool.false_eq_true, if_false]
  rfl

omit hw in
theorem takeWhile_holds {p : Char → Bool} {s : Str} {c : Char} (h : c ∈ s.takeWhile p) : p c = true := by
  have := List.all_takeWhile (p := p) (l := s)
  rw [List.all_eq_true] at this
  exact this c h

omit hw in
theorem rstrip_split (sp : Char → Bool) (q : Str) : ∃ w, q = rstrip sp q ++ w ∧ ∀ c ∈ w, sp c = true := by
  refine ⟨(q.reverse.takeWhile sp).reverse, ?_, fun c hc => takeWhile_holds (List.mem_reverse.mp hc)⟩
  rw [rstrip, ← List.reverse_append, List.takeWhile_append_dropWhile, List.reverse_reverse]

/-- A comment with an exclamation mark. -/
theorem line_comment (r : NRes) {t : Str} (hb : '!' ∈ t) (hs : NoSlashEnd t) : nlLine ws (r, true) ("  ".toList ++ t ++ ['\n']) = .ok (r, true) := by
  have hmem : ∀ (s : Str), '!' ∈ s → '!' ∈ pyStrip nlSpace s := by
    intro s h
    have h1 : '!' ∈ s.dropWhile nlSpace := by
      rw [← List.takeWhile_append_dropWhile (p := nlSpace) (l := s)] at h
      rcases List.mem_append.mp h with h | h
      · exact absurd (takeWhile_holds h) (by decide)
      · exact h
    rw [pyStrip, rstrip, List.mem_reverse]
    have h2 : '!' ∈ (s.dropWhile nlSpace).reverse := by simpa using h1
    rw [← List.takeWhile_append_dropWhile (p := nlSpace) (l := (s.dropWhile nlSpace).reverse)] at h2
    rcases List.mem_append.mp h2 with h | h
    · exact absurd (takeWhile_holds h) (by decide)
    · exact h
  have hin : '!' ∈ pyStrip nlSpace ("  ".toList ++ t ++ ['\n']) := hmem _ (by simp [hb])
  have htabs : ∀ (s : Str) (k : Nat), '!' ∈ s → '!' ∈ expandTabs k s := by
    intro s
    induction s with
    | nil => intro k h; cases h
    | cons c s ih =>
      intro k h
      rw [expandTabs]
      rcases List.mem_cons.mp h with rfl | h
      · simp
      · split
        · exact List.mem_append_right _ (ih _ h)
        · exact List.mem_cons_of_mem _ (ih _ h)
  have hlast : (pyStrip nlSpace ("  ".toList ++ t ++ ['\n'])).getLast? ≠ some '/' := by
    intro h
    obtain ⟨w, hq, hwsp⟩ := rstrip_split nlSpace (("  ".toList ++ t ++ ['\n']).dropWhile nlSpace)
    obtain ⟨p, hp⟩ : ∃ p, rstrip nlSpace (("  ".toList ++ t ++ ['\n']).dropWhile nlSpace) = p ++ ['/'] := by
      rcases List.eq_nil_or_concat (rstrip nlSpace (("  ".toList ++ t ++ ['\n']).dropWhile nlSpace)) with e | ⟨p, b, e⟩
      · rw [pyStrip, e] at h; cases h
      · rw [pyStrip, e, List.concat_eq_append, List.getLast?_concat] at h
        cases h
        exact ⟨p, by rw [e, List.concat_eq_append]⟩
    rw [hp] at hq
    have hfull : "  ".toList ++ t ++ ['\n'] = ("  ".toList ++ t ++ ['\n']).takeWhile nlSpace ++ (p ++ ['/'] ++ w) := by
      rw [← hq, List.takeWhile_append_dropWhile]
    generalize ("  ".toList ++ t ++ ['\n']).takeWhile nlSpace = a at hfull
    -- w is not empty as the text ends in a line break
    rcases List.eq_nil_or_concat w with rfl | ⟨w', b, rfl⟩
    · have := congrArg List.getLast? hfull
      rw [List.getLast?_concat] at this
      have e2 : a ++ (p ++ ['/'] ++ []) = (a ++ p) ++ ['/'] := by simp
      rw [e2, List.getLast?_concat] at this
      revert this; decide
    · have e2 : a ++ (p ++ ['/'] ++ w'.concat b) = (a ++ p ++ '/' :: w') ++ [b] := by simp
      rw [e2] at hfull
      have e3 := (List.append_inj' hfull rfl).1
      -- the two blanks are in front of the slash
      have e4 : ∃ a', t = a' ++ '/' :: w' := by
        rcases List.append_eq_append_iff.mp (show "  ".toList ++ t = (a ++ p) ++ '/' :: w' by simpa using e3) with ⟨c, h1, h2⟩ | ⟨c, h1, h2⟩
        · exact ⟨c, h2⟩
        · cases c with
          | nil => exact ⟨[], by simpa using h2.symm⟩
          | cons d c =>
            exfalso
            rw [List.cons_append] at h2
            injection h2 with h2 _
            have : '/' ∈ "  ".toList := by rw [h1, ← h2]; simp
            revert this; decide
      obtain ⟨a', ha'⟩ := e4
      obtain ⟨c, hc, hcs⟩ := hs a' w' ha'
      rw [hwsp c (by simp [hc])] at hcs
      cases hcs
  have hne : pyStrip nlSpace ("  ".toList ++ t ++ ['\n']) ≠ [] := by intro e; rw [e] at hin; cases hin
  rw [nlLine]
  simp only [if_neg hne, if_true, nlInside, if_pos (htabs _ 0 hin)]
  have hl2 : ((pyStrip nlSpace ("  ".toList ++ t ++ ['\n'])).getLast? = some '/') = False := eq_false hlast
  simp only [hl2]
  rfl

end
end OpenMDAO
