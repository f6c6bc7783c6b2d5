import Verif.Props.Namelist
import Verif.Spec.NamelistHand
/-!
# Property C142 (namelist files written by hand)
-/
namespace OpenMDAO
set_option linter.unusedSectionVars false

/-! ## Words -/

theorem numWord_text {t : Str} {x : NNum} (h : NumWord t x) : NumText t x := by
  rcases h with ⟨z, h, rfl⟩ | ⟨q, h, rfl⟩
  · obtain ⟨a, b⟩ := numStands_chars h (by simp) (by simp)
    exact ⟨a, b, fun r hr => lexNumber_stands h hr (by simp) (by simp) (by simp), .inl ⟨z, rfl⟩⟩
  · exact numText_flt h

theorem numWords_text {ts : List Str} {xs : List NNum} (h : List.Forall₂ NumWord ts xs) : List.Forall₂ NumText ts xs := h.imp fun _ _ => numWord_text

theorem listed_cons (t : Str) (ts : List Str) : listed (t :: ts) = t ++ commaTexts 1 ts := by
  induction ts generalizing t with
  | nil => simp [listed, commaTexts]
  | cons u ts ih =>
    rw [listed, ih]
    · simp [commaTexts]
    · simp

theorem unified_np {l ys : List NNum} (h : Unified l ys) : npNums l = ys := by
  have hf : ∀ x : NNum, x.asFloat = toFlt x := fun x => by cases x <;> rfl
  rcases h with ⟨h, rfl⟩ | ⟨⟨q, hq⟩, rfl⟩
  · rw [npNums, if_pos]
    rw [List.all_eq_true]
    intro x hx
    obtain ⟨z, rfl⟩ := h x hx
    rfl
  · rw [npNums, if_neg]
    · exact List.map_congr_left fun x _ => hf x
    · intro hc
      have := List.all_eq_true.mp hc _ hq
      cases this

theorem numsValue_raw {m : Str} {xs : List NNum} {v : NRead} (h : NumsValue xs v) : (⟨m, none, none, xs.map .num, none⟩ : NRaw).value = .ok v := by
  cases h with
  | one x => exact value_one m _
  | more _ ys hl hu =>
    match xs, hl with
    | a :: b :: xs, _ => rw [value_many, unified_np hu]

theorem numsValue_ne {xs : List NNum} {v : NRead} (h : NumsValue xs v) : xs ≠ [] := by
  rintro rfl
  cases h with
  | more _ ys hl hu => simp at hl

/-! ## Tokens -/

theorem lexNumber_none {c : Char} {s : Str} (h : c.isDigit = false) (h1 : c ≠ '+') (h2 : c ≠ '-') (h3 : c ≠ '.') : lexNumber (c :: s) = none := by
  have hs : lexSign (c :: s) = (false, c :: s) := by
    rw [lexSign.eq_def]
    split
    · rename_i e; cases e; exact absurd rfl h1
    · rename_i e; cases e; exact absurd rfl h2
    · rfl
  have hd : lexDigits (c :: s) = none := by rw [lexDigits, if_pos]; simp [List.takeWhile, h]
  have hp : lexPoint (c :: s) = none := by
    rw [lexPoint, hd]
    rintro r e
    cases e
    exact h3 rfl
  simp [lexNumber, lexFloat, lexMixed, lexInt, hs, hd, hp]

section
variable {ws : Char → Bool} (hw : PlainWs ws)
include hw

theorem tokNum_name {m s : Str} (hm : AlnumWord m) (hf : NumFree m) : tokNum ws (' ' :: (m ++ (' ' :: s))) = none := by
  obtain ⟨a, ha, haa⟩ := hm.head
  obtain ⟨m', rfl⟩ : ∃ m', m = a :: m' := by
    cases m with
    | nil => cases ha
    | cons c m => simp at ha; subst ha; exact ⟨m, rfl⟩
  have hstop : Stops isInner (' ' :: s) := by intro c t e; cases e; decide
  have hno : ∀ c : Char, c.isAlphanum = false → a ≠ c := by rintro c hc rfl; rw [hc] at haa; cases haa
  have hpre : ∀ w : Str, (∀ c ∈ w.tail, isInner c = true) → ¬ w <+: a :: m' → w.isPrefixOf (a :: m' ++ ' ' :: s) = false := by
    intro w hwt hn
    by_contra hc
    rw [Bool.not_eq_false, List.isPrefixOf_iff_prefix] at hc
    exact hn (prefix_stop hwt (by simp) hstop hc)
  have h1 := hpre "NaN".toList (by decide) hf.2.1
  have h2 := hpre "Inf".toList (by decide) hf.2.2
  have h3 : "-Inf".toList.isPrefixOf (a :: m' ++ ' ' :: s) = false := by
    have : ('-' == a) = false := by simpa using fun e => hno '-' (by decide) (Eq.symm e)
    simp [List.isPrefixOf, this]
  rw [tokNum, skip_blank hw, List.cons_append, skip_alnum hw haa, lexNumber_none (hf.1 a rfl) (hno _ (by decide)) (hno _ (by decide)) (hno _ (by decide))]
  rw [← List.cons_append]
  simp only [lexNanWord, h1, h2, h3, Bool.false_eq_true, if_false]

theorem tokCard_blank (s : Str) : tokCard ws (' ' :: s) = tokCard ws s := by
  rw [tokCard, tokCard, tokWord, tokWord, skip_blank hw]

/-- What may follow a card. -/
structure AfterCard (ws : Char → Bool) (rest : Str) : Prop where
  stops : Stops isInner rest
  noNum : ∀ r, tokLit ws ',' rest = some r → tokNum ws r = none
  noStar : '*' ∉ rest

omit hw in
theorem dimR_none {s : Str} (h : '*' ∉ s) : optTok (tokDimR ws) s = (none, s) := by
  have : tokDimR ws s = none := by
    rw [tokDimR]
    cases hl : tokLit ws '*' s with
    | none => rfl
    | some r => exact absurd (tokLit_mem hl).1 h
  rw [optTok, this]

omit hw in
theorem nums_noStar {t : Str} {x : NNum} (h : NumText t x) {ts : List Str} {xs : List NNum} (hs : List.Forall₂ NumText ts xs) : '*' ∉ t ++ commaTexts 1 ts := by
  intro hc
  rcases List.mem_append.mp hc with hc | hc
  · exact numChar_plain (h.chars _ hc) (by decide)
  · rcases comma_chars 1 hs _ hc with h | h | h
    · exact numChar_plain h (by decide)
    · revert h; decide
    · revert h; decide

theorem tokCard_rest {m t : Str} (hm : AlnumWord m) {x : NNum} (h : NumText t x) {ts : List Str} {xs : List NNum} (hs : List.Forall₂ NumText ts xs) {rest : Str} (hr : AfterCard ws rest) :
    tokCard ws (m ++ (" = ".toList ++ (t ++ commaTexts 1 ts) ++ rest)) = some (⟨m, none, none, (x :: xs).map .num, none⟩, rest) := by
  have e : m ++ (" = ".toList ++ (t ++ commaTexts 1 ts) ++ rest) = m ++ (' ' :: '=' :: ' ' :: (t ++ (commaTexts 1 ts ++ rest))) := by simp
  have hword : tokWord ws (m ++ (' ' :: '=' :: ' ' :: (t ++ (commaTexts 1 ts ++ rest)))) = some (m, ' ' :: '=' :: ' ' :: (t ++ (commaTexts 1 ts ++ rest))) :=
    tokWord_spec hw hm (by intro c t e; cases e; decide)
  have hidx : optTok (tokIndex ws) (' ' :: '=' :: ' ' :: (t ++ (commaTexts 1 ts ++ rest))) = (none, ' ' :: '=' :: ' ' :: (t ++ (commaTexts 1 ts ++ rest))) := by
    have : tokLit ws '(' (' ' :: '=' :: ' ' :: (t ++ (commaTexts 1 ts ++ rest))) = none := by
      rw [tokLit, skip_blank hw, skip_of hw (by decide)]
      rfl
    rw [optTok, tokIndex, this]
  have hstar : '*' ∉ ' ' :: (t ++ (commaTexts 1 ts ++ rest)) := by
    intro hc
    rcases List.mem_cons.mp hc with hc | hc
    · revert hc; decide
    · rw [← List.append_assoc] at hc
      rcases List.mem_append.mp hc with hc | hc
      · exact nums_noStar h hs hc
      · exact hr.noStar hc
  have hdata : tokData ws (' ' :: (t ++ (commaTexts 1 ts ++ rest))) = some ((x :: xs).map .num, rest) := by
    rw [tokData, tokNumStr_nums hw 1 h hs hr.stops hr.noNum _ (.inr rfl)]
  rw [e, tokCard, hword]
  simp only [hidx, tokLit_blank hw (c := '=') (by decide), dimL_none hstar, hdata, dimR_none hr.noStar]

end

/-- A card with numbers in pieces. -/
structure NumCardOf (text : Str) (c : NRaw) (out : Str × NRead) : Prop where
  shape : ∃ m t x ts xs, text = m ++ (" = ".toList ++ (t ++ commaTexts 1 ts)) ∧ AlnumWord m ∧ NumFree m ∧ NumText t x ∧ List.Forall₂ NumText ts xs ∧ c = ⟨m, none, none, (x :: xs).map .num, none⟩
  value : c.value = .ok out.2
  name : c.name = out.1

theorem handCard_pieces {text : Str} {out : Str × NRead} (h : HandCard text out) : ∃ c, NumCardOf text c out := by
  cases h with
  | nums m ts xs v hm hf hts hv =>
    have hne := numsValue_ne hv
    have ht := numWords_text hts
    cases ht with
    | nil => exact absurd rfl hne
    | cons h1 h2 =>
      refine ⟨⟨m, none, none, _, none⟩, ⟨m, _, _, _, _, ?_, hm, hf, h1, h2, rfl⟩, numsValue_raw hv, rfl⟩
      rw [listed_cons]
      simp

theorem handCards_pieces {texts : List Str} {new : List (Str × NRead)} (h : List.Forall₂ HandCard texts new) :
    ∃ raws, List.Forall₂ (fun t c => ∃ o, NumCardOf t c o) texts raws ∧ raws.mapM rawCard = .ok new ∧ List.Forall₂ (fun (c : NRaw) (o : Str × NRead) => c.name = o.1) raws new := by
  induction h with
  | nil => exact ⟨[], .nil, rfl, .nil⟩
  | cons h1 h2 ih =>
    obtain ⟨raws, a, b, d⟩ := ih
    obtain ⟨c, hc⟩ := handCard_pieces h1
    refine ⟨c :: raws, .cons ⟨_, hc⟩ a, ?_, .cons hc.name d⟩
    simp only [List.mapM_cons, b, rawCard, hc.value, hc.name]
    rfl

/-- Cards behind the first. -/
def moreText (l : List Str) : Str := (l.map fun t => ',' :: ' ' :: t).flatten

theorem listed_more (t : Str) (l : List Str) : listed (t :: l) = t ++ moreText l := by
  induction l generalizing t with
  | nil => simp [listed, moreText]
  | cons u l ih =>
    rw [listed, ih]
    · simp [moreText]
    · simp

theorem card_noStar {text : Str} {c : NRaw} {o : Str × NRead} (h : NumCardOf text c o) : '*' ∉ text := by
  obtain ⟨m, t, x, ts, xs, rfl, hm, _, h1, h2, _⟩ := h.shape
  intro hc
  rcases List.mem_append.mp hc with hc | hc
  · exact alnum_space (hm.2 _ hc) (by decide)
  · rcases List.mem_append.mp hc with hc | hc
    · revert hc; decide
    · exact nums_noStar h1 h2 hc

section
variable {ws : Char → Bool} (hw : PlainWs ws)
include hw

theorem after_more {texts : List Str} {raws : List NRaw} (h : List.Forall₂ (fun t c => ∃ o, NumCardOf t c o) texts raws) {tail : Str} (ht : AfterCard ws tail) : AfterCard ws (moreText texts ++ tail) := by
  cases h with
  | nil => exact ht
  | cons h1 h2 =>
    rename_i t c l raws
    obtain ⟨o, h1⟩ := h1
    refine ⟨?_, ?_, ?_⟩
    · intro d s e; cases e; decide
    · intro r hr
      obtain ⟨m, u, x, ts, xs, rfl, hm, hf, _, _, _⟩ := h1.shape
      have e : moreText ((m ++ (" = ".toList ++ (u ++ commaTexts 1 ts))) :: l) ++ tail = ',' :: (' ' :: (m ++ (' ' :: ('=' :: ' ' :: (u ++ commaTexts 1 ts) ++ (moreText l ++ tail))))) := by
        simp [moreText]
      rw [e, tokLit_head hw (by decide)] at hr
      cases hr
      exact tokNum_name hw hm hf
    · intro hc
      have hall : ∀ l raws, List.Forall₂ (fun t c => ∃ o, NumCardOf t c o) l raws → '*' ∉ moreText l := by
        intro l raws h
        induction h with
        | nil => simp [moreText]
        | cons a b ih =>
          obtain ⟨o, a⟩ := a
          intro hc
          simp only [moreText, List.map_cons, List.flatten_cons, List.cons_append, List.mem_cons, List.mem_append] at hc ih
          rcases hc with h | h | h | h
          · revert h; decide
          · revert h; decide
          · exact card_noStar a h
          · exact ih h
      rcases List.mem_append.mp hc with hc | hc
      · exact hall _ _ (.cons ⟨o, h1⟩ h2) hc
      · exact ht.noStar hc

theorem tokCard_piece {text : Str} {c : NRaw} {o : Str × NRead} (h : NumCardOf text c o) {rest : Str} (hr : AfterCard ws rest) : tokCard ws (text ++ rest) = some (c, rest) := by
  obtain ⟨m, t, x, ts, xs, rfl, hm, _, h1, h2, rfl⟩ := h.shape
  have := tokCard_rest hw hm h1 h2 hr
  rw [List.append_assoc]
  exact this

omit hw in
theorem more_length (texts : List Str) (tail : Str) : texts.length ≤ (moreText texts ++ tail).length := by
  induction texts with
  | nil => simp
  | cons t l ih =>
    simp only [moreText, List.map_cons, List.flatten_cons, List.cons_append, List.length_cons, List.length_append] at ih ⊢
    omega

theorem moreCards_spec {texts : List Str} {raws : List NRaw} (h : List.Forall₂ (fun t c => ∃ o, NumCardOf t c o) texts raws) {tail : Str} (ht : AfterCard ws tail)
    (hstop : ∀ r, tokLit ws ',' tail = some r → tokCard ws r = none) : ∀ n, texts.length ≤ n → moreCards ws n (moreText texts ++ tail) = (raws, tail) := by
  induction h with
  | nil =>
    intro n _
    cases n with
    | zero => rfl
    | succ n =>
      simp only [moreText, List.map_nil, List.flatten_nil, List.nil_append, moreCards]
      cases hl : tokLit ws ',' tail with
      | none => rfl
      | some r => simp only [hstop r hl]
  | cons h1 h2 ih =>
    rename_i t c l raws
    intro n hn
    obtain ⟨o, h1⟩ := h1
    cases n with
    | zero => simp at hn
    | succ n =>
      have e : moreText (t :: l) ++ tail = ',' :: (' ' :: (t ++ (moreText l ++ tail))) := by simp [moreText]
      rw [e, moreCards, tokLit_head hw (by decide)]
      simp only [tokCard_blank hw, tokCard_piece hw h1 (after_more hw h2 ht), ih n (by simpa using hn)]

theorem tokCards_list {t : Str} {c : NRaw} {texts : List Str} {raws : List NRaw} (h : List.Forall₂ (fun t c => ∃ o, NumCardOf t c o) (t :: texts) (c :: raws)) {tail : Str} (ht : AfterCard ws tail)
    (hstop : ∀ r, tokLit ws ',' tail = some r → tokCard ws r = none) (b : Str) (hb : b = [] ∨ b = [' ']) : tokCards ws (b ++ (listed (t :: texts) ++ tail)) = some (c :: raws, tail) := by
  cases h with
  | cons h1 h2 =>
    obtain ⟨o, h1⟩ := h1
    have hc : tokCard ws (b ++ (listed (t :: texts) ++ tail)) = some (c, moreText texts ++ tail) := by
      have := tokCard_piece hw h1 (after_more hw h2 ht)
      rw [listed_more, List.append_assoc]
      rcases hb with rfl | rfl
      · exact this
      · exact (tokCard_blank hw _).trans this
    rw [tokCards, hc]
    simp only [Option.map_some, moreCards_spec hw h2 ht hstop _ (more_length texts tail)]

/-! ## Lines -/

omit hw in
theorem strip_any {body : Str} {a z : Char} (n : Nat) (ha : body.head? = some a) (hsa : nlSpace a = false) (hz : body.getLast? = some z) (hsz : nlSpace z = false) :
    pyStrip nlSpace (List.replicate n ' ' ++ body ++ ['\n']) = body := by
  have h : pyStrip nlSpace (List.replicate n ' ' ++ body ++ ['\n']) = pyStrip nlSpace (body ++ ['\n']) := by
    rw [pyStrip, pyStrip]
    congr 1
    induction n with
    | zero => rfl
    | succ n ih =>
      rw [List.replicate_succ, List.cons_append, List.cons_append, List.dropWhile_cons, if_pos (by decide)]
      exact ih
  rw [h, (strip_line ha hsa hz hsz).1]

omit hw in
theorem line_inside {body : Str} {a z : Char} (n : Nat) (ha : body.head? = some a) (hsa : nlSpace a = false) (hz : body.getLast? = some z) (hsz : nlSpace z = false) (hsl : z ≠ '/') (htab : '\t' ∉ body) {r r' : NRes}
    (h : nlInside ws r body = .ok (r', true)) : nlLine ws (r, true) (List.replicate n ' ' ++ body ++ ['\n']) = .ok (r', true) := by
  have hne : body ≠ [] := by rintro rfl; cases ha
  rw [nlLine]
  simp only [strip_any n ha hsa hz hsz, expandTabs_free _ 0 htab, if_neg hne, if_true, h, hz]
  simp [hsl]

end

theorem sub_chars {a : Str} {l : List Char} (h : ∀ c ∈ a, c ∈ l) {c : Char} (hc : c ∈ a) : c ∈ l := h c hc

/-- Characters of lines with numbers. -/
def LineChar (c : Char) : Prop := c.isAlphanum = true ∨ isNumChar c = true ∨ c ∈ [' ', '=', ',', '(', ')', '*']

theorem lineChar_plain {c : Char} (h : LineChar c) : c ∉ ['!', '\t', '\n', '/', '\r', '\'', '"', '&', '$'] := by
  rcases h with h | h | h
  · have := alnum_space h
    simp only [List.mem_cons, List.not_mem_nil, or_false, not_or] at this ⊢
    tauto
  · intro hc
    simp only [List.mem_cons, List.not_mem_nil, or_false] at hc
    rcases hc with rfl | rfl | rfl | rfl | rfl | rfl | rfl | rfl | rfl <;> revert h <;> decide
  · intro hc
    revert h
    simp only [List.mem_cons, List.not_mem_nil, or_false] at hc
    rcases hc with rfl | rfl | rfl | rfl | rfl | rfl | rfl | rfl | rfl <;> decide

theorem num_nlSpace {c : Char} (h : isNumChar c = true) : nlSpace c = false := by
  apply nlSpace_false
  have := numChar_plain h
  simp only [List.mem_cons, List.not_mem_nil, or_false, not_or] at this ⊢
  tauto

/-- A line of which the characters are plain and which neither begins nor ends with a blank. -/
structure PlainLine (body : Str) : Prop where
  chars : ∀ c ∈ body, LineChar c
  first : ∃ a, body.head? = some a ∧ nlSpace a = false
  last : ∃ z, body.getLast? = some z ∧ nlSpace z = false

theorem nums_plain {t : Str} {x : NNum} (h : NumText t x) {ts : List Str} {xs : List NNum} (hs : List.Forall₂ NumText ts xs) : PlainLine (t ++ commaTexts 1 ts) := by
  refine ⟨?_, ?_, ?_⟩
  · intro c hc
    rcases List.mem_append.mp hc with hc | hc
    · exact .inr (.inl (h.chars c hc))
    · rcases comma_chars 1 hs c hc with h | rfl | rfl
      · exact .inr (.inl h)
      · exact .inr (.inr (by decide))
      · exact .inr (.inr (by decide))
  · cases t with
    | nil => exact absurd rfl h.ne
    | cons c t => exact ⟨c, rfl, num_nlSpace (h.chars c (by simp))⟩
  · obtain ⟨z, h1, h2⟩ := comma_last h hs
    exact ⟨z, h1, num_nlSpace h2⟩

theorem PlainLine.append {a b : Str} (ha : PlainLine a) (hb : PlainLine b) (mid : Str) (hm : ∀ c ∈ mid, LineChar c) : PlainLine (a ++ mid ++ b) := by
  refine ⟨?_, ?_, ?_⟩
  · intro c hc
    rcases List.mem_append.mp hc with hc | hc
    · rcases List.mem_append.mp hc with hc | hc
      · exact ha.chars c hc
      · exact hm c hc
    · exact hb.chars c hc
  · obtain ⟨z, h1, h2⟩ := ha.first
    refine ⟨z, ?_, h2⟩
    cases a with
    | nil => cases h1
    | cons c a => exact h1
  · obtain ⟨z, h1, h2⟩ := hb.last
    exact ⟨z, by rw [List.getLast?_append, h1]; rfl, h2⟩

theorem word_plain {m : Str} (h : AlnumWord m) : PlainLine m := by
  refine ⟨fun c hc => .inl (h.2 c hc), ?_, ⟨m.getLast h.1, List.getLast?_eq_some_getLast h.1, alnum_nlSpace (h.2 _ (List.getLast_mem h.1))⟩⟩
  obtain ⟨a, h1, h2⟩ := h.head
  exact ⟨a, h1, alnum_nlSpace h2⟩

theorem comma_plain {l e : Str} (h : PlainLine l) (he : CommaEnd e) : PlainLine (l ++ e) := by
  rcases he with rfl | rfl
  · rw [List.append_nil]; exact h
  · have hc : PlainLine [','] := ⟨by intro c hc; exact .inr (.inr (by rw [List.mem_singleton.mp hc]; decide)), ⟨',', rfl, by decide⟩, ⟨',', rfl, by decide⟩⟩
    have := h.append hc [] (by simp)
    rwa [List.append_nil] at this

theorem card_plain {text : Str} {c : NRaw} {o : Str × NRead} (h : NumCardOf text c o) : PlainLine text := by
  obtain ⟨m, t, x, ts, xs, rfl, hm, _, h1, h2, _⟩ := h.shape
  have := (word_plain hm).append (nums_plain h1 h2) " = ".toList (by intro c hc; exact .inr (.inr (by revert c; decide)))
  rwa [List.append_assoc] at this

theorem cards_plain {texts : List Str} {raws : List NRaw} (h : List.Forall₂ (fun t c => ∃ o, NumCardOf t c o) texts raws) (hne : texts ≠ []) : PlainLine (listed texts) := by
  induction h with
  | nil => exact absurd rfl hne
  | cons h1 h2 ih =>
    obtain ⟨o, h1⟩ := h1
    rename_i t c l raws
    cases l with
    | nil => exact card_plain h1
    | cons u l =>
      rw [listed]
      · exact (card_plain h1).append (ih (by simp)) _ (by intro c hc; exact .inr (.inr (by revert c; decide)))
      · simp

theorem plain_run {ws : Char → Bool} {body : Str} (hp : PlainLine body) (n : Nat) {r r' : NRes} (h : nlInside ws r body = .ok (r', true)) :
    Runs ws (List.replicate n ' ' ++ body ++ ['\n']) (r, true) (r', true) := by
  obtain ⟨a, h1, h2⟩ := hp.first
  obtain ⟨z, h3, h4⟩ := hp.last
  have hno : ∀ c, c ∈ body → c ∉ ['!', '\t', '\n', '/', '\r', '\'', '"', '&', '$'] := fun c hc => lineChar_plain (hp.chars c hc)
  refine runs_line ?_ (line_inside n h1 h2 h3 h4 ?_ ?_ h)
  · intro hc
    rcases List.mem_append.mp hc with hc | hc
    · exact absurd (List.eq_of_mem_replicate hc) (by decide)
    · exact hno _ hc (by decide)
  · rintro rfl
    exact hno _ (List.mem_of_getLast? h3) (by decide)
  · exact fun hc => hno _ hc (by decide)

theorem comma_after {ws : Char → Bool} (hw : PlainWs ws) {e : Str} (he : CommaEnd e) : AfterCard ws e ∧ ∀ r, tokLit ws ',' e = some r → tokCard ws r = none := by
  rcases he with rfl | rfl
  · refine ⟨⟨stops_nil, ?_, by simp⟩, ?_⟩ <;> intro r hr <;> cases hr
  · refine ⟨⟨by intro c t e; cases e; decide, ?_, by decide⟩, ?_⟩
    · intro r hr
      rw [tokLit_head hw (by decide)] at hr
      cases hr
      rfl
    · intro r hr
      rw [tokLit_head hw (by decide)] at hr
      cases hr
      rfl

theorem inside_cards {ws : Char → Bool} {r : NRes} {l tail : Str} {raws : List NRaw} {new : List (Str × NRead)} (hb : '!' ∉ l) (hc : tokCards ws l = some (raws, tail)) (hv : raws.mapM rawCard = .ok new) :
    nlInside ws r l = .ok (r.addCards new, true) := by
  rw [nlInside, if_neg hb, if_pos (hits_self hc), hc]
  simp only [hv]

theorem tokRow_eq {ws : Char → Bool} {s : Str} (h : '=' ∉ s) : tokRow ws s = none := by
  rw [tokRow]
  cases h1 : tokWord ws s with
  | none => rfl
  | some n =>
    simp only
    have hn := tokWord_suffix h1
    cases h2 : tokLit ws '(' n.2 with
    | none => rfl
    | some a =>
      have ha := (tokLit_mem h2).2
      cases h3 : tokInt ws a with
      | none => simp [h3]
      | some b =>
        have hb := tokInt_suffix h3
        simp only [Option.bind_some, h3]
        cases h4 : tokLit ws ',' b.2 with
        | none => rfl
        | some c =>
          have hc := (tokLit_mem h4).2
          cases h5 : tokInt ws c with
          | none => simp [h5]
          | some d =>
            have hd := tokInt_suffix h5
            simp only [Option.bind_some, h5]
            cases h6 : tokLit ws ')' d.2 with
            | none => rfl
            | some e =>
              have he := (tokLit_mem h6).2
              cases h7 : tokLit ws '=' e with
              | none => simp [h7]
              | some f => exact absurd (hn.subset (ha.subset (hb.subset (hc.subset (hd.subset (he.subset (tokLit_mem h7).1)))))) h

theorem inside_nums {ws : Char → Bool} {r : NRes} {l tail : Str} {toks : List NTok} {old new : NRead} (hb : '!' ∉ l) (he : '=' ∉ l) (hc : tokNumStr ws l = some (toks, tail)) (hl : r.last = .ok old) (hv : continueWith old toks = .ok new) :
    nlInside ws r l = .ok (r.setLast new, true) := by
  have h1 : hits (tokCards ws) l = false := hits_false fun u hu => tokCards_none (tokCard_eq fun h => he (hu.subset h))
  have h2 : hits (tokRow ws) l = false := hits_false fun u hu => tokRow_eq fun h => he (hu.subset h)
  rw [nlInside, if_neg hb]
  simp only [h1, h2, Bool.false_eq_true, if_false, hits_self hc, if_true, hc, hl, hv]

theorem pad_unified {k : Nat} {xs new : List NNum} (h : Unified (List.replicate k (.int 0) ++ xs) new) : padToks k (xs.map .num) = .arr new := by
  have hf : ∀ x : NNum, x.asFloat = toFlt x := fun x => by cases x <;> rfl
  rw [padToks, mapM_num]
  simp only
  rcases h with ⟨h, rfl⟩ | ⟨⟨q, hq⟩, rfl⟩
  · have : xs.all NNum.isInt = true := by
      rw [List.all_eq_true]
      intro x hx'
      obtain ⟨z, rfl⟩ := h x (by simp [hx'])
      rfl
    rw [if_pos this, npNums, if_pos this]
  · have : ¬ xs.all NNum.isInt = true := by
      intro hc
      rcases List.mem_append.mp hq with hq | hq
      · exact absurd (List.eq_of_mem_replicate hq) (by simp)
      · have := List.all_eq_true.mp hc _ hq
        cases this
    rw [if_neg this, npNums, if_neg this, List.map_append, List.map_replicate]
    have h0 : toFlt (.int 0) = .flt 0 := by simp [toFlt]
    rw [h0]
    have hm : xs.map NNum.asFloat = xs.map toFlt := List.map_congr_left fun x _ => hf x
    rw [hm]

theorem nums_run {ws : Char → Bool} (hw : PlainWs ws) {ts : List Str} {xs : List NNum} {e m : Str} (hne : ts ≠ []) (hts : List.Forall₂ NumWord ts xs) (he : CommaEnd e) {old new : NRead}
    (hcont : continueWith old (xs.map .num) = .ok new) (cs : List (Str × NRead)) (n : Nat) (r : NRes) (g : Str) :
    Runs ws (List.replicate n ' ' ++ (listed ts ++ e) ++ ['\n']) (r.with g (cs ++ [(m, old)]), true) (r.with g (cs ++ [(m, new)]), true) := by
  have ht := numWords_text hts
  cases ht with
  | nil => exact absurd rfl hne
  | cons h1 h2 =>
    rename_i t x ts xs
    have hp := comma_plain (nums_plain h1 h2) he
    rw [← listed_cons] at hp
    obtain ⟨ha, hs⟩ := comma_after hw he
    have hb : '!' ∉ listed (t :: ts) ++ e := fun h => lineChar_plain (hp.chars _ h) (by decide)
    have heq : '=' ∉ listed (t :: ts) ++ e := by
      rw [listed_cons]
      intro h
      rcases List.mem_append.mp h with h | h
      · rcases List.mem_append.mp h with h | h
        · exact numChar_plain (h1.chars _ h) (by decide)
        · rcases comma_chars 1 h2 _ h with h | h | h
          · exact numChar_plain h (by decide)
          · revert h; decide
          · revert h; decide
      · rcases he with rfl | rfl
        · cases h
        · revert h; decide
    have htok : tokNumStr ws (listed (t :: ts) ++ e) = some ((x :: xs).map .num, e) :=
      tokNumStr_nums hw 1 h1 h2 ha.stops ha.noNum _ (.inl (by rw [listed_cons, List.append_assoc]))
    have hin := inside_nums hb heq htok (last_with r g m cs old) hcont
    rw [setLast_with] at hin
    exact plain_run hp n hin

theorem special_num {ws : Char → Bool} (hw : PlainWs ws) {w : Str} {x : NNum} (h : SpecialWord w x) : tokNum ws (' ' :: w) = some (x, []) := by
  cases h
  · rw [tokNum, skip_blank hw, show "NaN".toList = 'N' :: "aN".toList from rfl, skip_of hw (by decide)]; decide
  · rw [tokNum, skip_blank hw, show "Inf".toList = 'I' :: "nf".toList from rfl, skip_of hw (by decide)]; decide
  · rw [tokNum, skip_blank hw, show "-Inf".toList = '-' :: "Inf".toList from rfl, skip_of hw (by decide)]; decide

theorem special_line {ws : Char → Bool} (hw : PlainWs ws) {m w : Str} {x : NNum} (hm : AlnumWord m) (h : SpecialWord w x) (cs : List (Str × NRead)) (n : Nat) (r : NRes) (g : Str) :
    Runs ws (List.replicate n ' ' ++ (m ++ " = ".toList ++ w) ++ ['\n']) (r.with g cs, true) (r.with g (cs ++ [(m, .tok (.num x))]), true) := by
  have hpw : PlainLine w := by
    cases h
    · exact ⟨fun c hc => by revert c; unfold LineChar; decide, ⟨'N', rfl, by decide⟩, ⟨'N', rfl, by decide⟩⟩
    · exact ⟨fun c hc => by revert c; unfold LineChar; decide, ⟨'I', rfl, by decide⟩, ⟨'f', rfl, by decide⟩⟩
    · exact ⟨fun c hc => by revert c; unfold LineChar; decide, ⟨'-', rfl, by decide⟩, ⟨'f', rfl, by decide⟩⟩
  have hstar : '*' ∉ ' ' :: w := by cases h <;> decide
  have hp : PlainLine (m ++ " = ".toList ++ w) := (word_plain hm).append hpw " = ".toList (by intro c hc; exact .inr (.inr (by revert c; decide)))
  have hb : '!' ∉ m ++ " = ".toList ++ w := fun h => lineChar_plain (hp.chars _ h) (by decide)
  have e : m ++ " = ".toList ++ w = m ++ (' ' :: '=' :: ' ' :: w) := by simp
  have hword : tokWord ws (m ++ (' ' :: '=' :: ' ' :: w)) = some (m, ' ' :: '=' :: ' ' :: w) := tokWord_spec hw hm (by intro c t e; cases e; decide)
  have hidx : optTok (tokIndex ws) (' ' :: '=' :: ' ' :: w) = (none, ' ' :: '=' :: ' ' :: w) := by
    have : tokLit ws '(' (' ' :: '=' :: ' ' :: w) = none := by
      rw [tokLit, skip_blank hw, skip_of hw (by decide)]
      rfl
    rw [optTok, tokIndex, this]
  have hdata : tokData ws (' ' :: w) = some ([.num x], []) := by
    rw [tokData, tokNumStr, special_num hw h]
    rfl
  have hcard : tokCards ws (m ++ " = ".toList ++ w) = some ([⟨m, none, none, [.num x], none⟩], []) := by
    rw [e, tokCards, tokCard, hword]
    simp only [hidx, tokLit_blank hw (c := '=') (by decide), dimL_none hstar, hdata, dimR_nil]
    rfl
  have hval : [(⟨m, none, none, [.num x], none⟩ : NRaw)].mapM rawCard = .ok [(m, .tok (.num x))] := by
    have hv : (⟨m, none, none, [.num x], none⟩ : NRaw).value = .ok (.tok (.num x)) := value_one m _
    simp only [List.mapM_cons, List.mapM_nil, rawCard, hv]
    rfl
  have hin := inside_cards (r := r.with g cs) hb hcard hval
  rw [addCards_with] at hin
  exact plain_run hp n hin

theorem tokNumStr_letters {ws : Char → Bool} (hw : PlainWs ws) {s : Str} (h : ∀ c ∈ s, c ∈ "$&ENDend".toList) (hne : "NaN".toList ≠ s.take 3) : tokNumStr ws s = none := by
  cases s with
  | nil => rfl
  | cons c s =>
    have hc := h c (by simp)
    have hskip : (c :: s).dropWhile ws = c :: s := skip_of hw (by clear h hne; revert c; decide)
    have hnum : lexNumber (c :: s) = none := by
      have h4 : c.isDigit = false ∧ c ≠ '+' ∧ c ≠ '-' ∧ c ≠ '.' := by clear hskip hne h; revert c; decide
      exact lexNumber_none h4.1 h4.2.1 h4.2.2.1 h4.2.2.2
    have hq : c ≠ '"' ∧ c ≠ '\'' ∧ c ≠ 'I' ∧ c ≠ '-' := by clear hskip hne h hnum; revert c; decide
    have hnan : lexNanWord (c :: s) = none := by
      have h1 : "NaN".toList.isPrefixOf (c :: s) = false := by
        by_contra hx
        rw [Bool.not_eq_false, List.isPrefixOf_iff_prefix] at hx
        exact hne (by rw [List.prefix_iff_eq_take] at hx; exact hx)
      have h2 : ('I' == c) = false := by simpa using fun e => hq.2.2.1 (Eq.symm e)
      have h3 : ('-' == c) = false := by simpa using fun e => hq.2.2.2 (Eq.symm e)
      rw [lexNanWord, h1]
      simp [List.isPrefixOf, h2, h3]
    rw [tokNumStr, tokNum, hskip, hnum]
    simp only [hnan, tokStr, hskip, lexQuoted, if_neg hq.1, if_neg hq.2.1]
    rfl

theorem line_end_any {ws : Char → Bool} (hw : PlainWs ws) (r : NRes) {e : Str} (he : GroupEnd e) : nlLine ws (r, true) (e ++ ['\n']) = .ok (r, false) := by
  have key : ∀ e : Str, e ∈ ["$END".toList, "$end".toList, "&END".toList, "&end".toList] → nlLine ws (r, true) (e ++ ['\n']) = .ok (r, false) := by
    intro e he
    have hs : pyStrip nlSpace (e ++ ['\n']) = e := by revert e; decide
    have hx : expandTabs 0 e = e := by revert e; decide
    have hch : ∀ c ∈ e, c ∈ "$&ENDend".toList := by clear hs hx; revert e; decide
    have hb : '!' ∉ e := by clear hs hx hch; revert e; decide
    have heq : '=' ∉ e := by clear hs hx hch hb; revert e; decide
    have hne : e ≠ [] := by clear hs hx hch hb heq; revert e; decide
    have hnn : ∀ u ∈ e.tails, "NaN".toList ≠ u.take 3 := by clear hs hx hch hb heq hne; revert e; decide
    have hend : ∃ x, tokEnd ws e = some x := by
      have hd : e.dropWhile ws = e := by
        clear hs hx hch hb heq hne hnn
        simp only [List.mem_cons, List.not_mem_nil, or_false] at he
        rcases he with rfl | rfl | rfl | rfl <;> exact skip_of hw (by decide)
      have hfd : (endWords.find? fun w => w.isPrefixOf e).isSome = true := by clear hs hx hch hb heq hne hnn hd; revert e; decide
      obtain ⟨w, hw'⟩ := Option.isSome_iff_exists.mp hfd
      exact ⟨_, by rw [tokEnd, hd, hw']; rfl⟩
    obtain ⟨x, hend⟩ := hend
    have h1 : hits (tokCards ws) e = false := hits_false fun u hu => tokCards_none (tokCard_eq fun h => heq (hu.subset h))
    have h2 : hits (tokRow ws) e = false := hits_false fun u hu => tokRow_eq fun h => heq (hu.subset h)
    have h3 : hits (tokNumStr ws) e = false := hits_false fun u hu => tokNumStr_letters hw (fun c hc => hch c (hu.subset hc)) (hnn u (by simpa using hu))
    have hin : nlInside ws r e = .ok (r, false) := by
      rw [nlInside, if_neg hb]
      simp only [h1, h2, h3, Bool.false_eq_true, if_false, hits_self hend, Bool.not_true]
    rw [nlLine]
    simp only [hs, hx, if_neg hne, if_true, hin, Bool.false_and]
  rcases List.mem_cons.mp he with rfl | he
  · exact line_end hw r
  · exact key e he
theorem handLine_run {ws : Char → Bool} (hw : PlainWs ws) {l : Str} {cs cs' : List (Str × NRead)} (h : HandLine l cs cs') (n : Nat) (r : NRes) (g : Str) :
    Runs ws (List.replicate n ' ' ++ l ++ ['\n']) (r.with g cs, true) (r.with g cs', true) := by
  cases h with
  | cards texts new e _ hne hc he =>
    obtain ⟨raws, h1, h2, _⟩ := handCards_pieces hc
    have hp := comma_plain (cards_plain h1 hne) he
    have hb : '!' ∉ listed texts ++ e := fun h => lineChar_plain (hp.chars _ h) (by decide)
    obtain ⟨ha, hs⟩ := comma_after hw he
    match texts, raws, h1 with
    | [], [], _ => exact absurd rfl hne
    | t :: texts, c :: raws, h1 =>
      have := tokCards_list hw h1 ha hs [] (.inl rfl)
      rw [List.nil_append] at this
      have hin := inside_cards (r := r.with g cs) hb this h2
      rw [addCards_with] at hin
      exact plain_run hp n hin
  | continued ts xs old new e m cs hne hts he hu =>
    refine nums_run hw hne hts he ?_ cs n r g
    rw [continueWith, ← List.map_append, npToks, mapM_num]
    simp only [unified_np hu]
  | second t x y new e m cs ht he hu =>
    refine nums_run (ts := [t]) (xs := [y]) hw (by simp) (.cons ht .nil) he ?_ cs n r g
    rw [continueWith, if_pos (by simp), show NTok.num x :: [y].map NTok.num = [x, y].map NTok.num from rfl, npToks, mapM_num]
    simp only [unified_np hu]
  | repeated m ds t x _ hm hd hpos ht =>
    have ht' := numWord_text ht
    have hdig : ∀ c ∈ ds, LineChar c := fun c hc => .inr (.inl (digit_num (hd.2 c hc)))
    have hp : PlainLine (m ++ " = ".toList ++ ds ++ "*".toList ++ t) := by
      have := (word_plain hm).append (nums_plain ht' .nil) (" = ".toList ++ ds ++ "*".toList) (by
        intro c hc
        rcases List.mem_append.mp hc with hc | hc
        · rcases List.mem_append.mp hc with hc | hc
          · exact .inr (.inr (sub_chars (by decide) hc))
          · exact hdig c hc
        · exact .inr (.inr (sub_chars (by decide) hc)))
      simpa [commaTexts] using this
    have hb : '!' ∉ m ++ " = ".toList ++ ds ++ "*".toList ++ t := fun h => lineChar_plain (hp.chars _ h) (by decide)
    have e : m ++ " = ".toList ++ ds ++ "*".toList ++ t = m ++ (' ' :: '=' :: ' ' :: (ds ++ '*' :: t)) := by simp
    have hword : tokWord ws (m ++ (' ' :: '=' :: ' ' :: (ds ++ '*' :: t))) = some (m, ' ' :: '=' :: ' ' :: (ds ++ '*' :: t)) :=
      tokWord_spec hw hm (by intro c t e; cases e; decide)
    have hidx : optTok (tokIndex ws) (' ' :: '=' :: ' ' :: (ds ++ '*' :: t)) = (none, ' ' :: '=' :: ' ' :: (ds ++ '*' :: t)) := by
      have : tokLit ws '(' (' ' :: '=' :: ' ' :: (ds ++ '*' :: t)) = none := by
        rw [tokLit, skip_blank hw, skip_of hw (by decide)]
        rfl
      rw [optTok, tokIndex, this]
    have hdim : optTok (tokDimL ws) (' ' :: (ds ++ '*' :: t)) = (some (decimal ds : ℤ), t) := by
      have h1 : tokInt ws (' ' :: (ds ++ '*' :: t)) = some ((decimal ds : ℤ), '*' :: t) := by
        have := tokInt_digits hw hd (c := '*') (s := t) (by decide)
        rw [tokInt] at this ⊢
        rw [skip_blank hw]
        exact this
      rw [optTok, tokDimL, h1]
      simp only [tokLit_head hw (c := '*') (by decide)]
      rfl
    have hdata : tokData ws t = some ([.num x], []) := by
      have := tokNumStr_nums hw 1 ht' (ts := []) (xs := []) .nil (rest := []) stops_nil (by intro r hr; cases hr) t (.inl (by simp [commaTexts]))
      rw [tokData, this]
      rfl
    have hcard : tokCards ws (m ++ " = ".toList ++ ds ++ "*".toList ++ t) = some ([⟨m, none, some (decimal ds : ℤ), [.num x], none⟩], []) := by
      rw [e, tokCards, tokCard, hword]
      simp only [hidx, tokLit_blank hw (c := '=') (by decide), hdim, hdata, dimR_nil]
      rfl
    have hval : [(⟨m, none, some (decimal ds : ℤ), [.num x], none⟩ : NRaw)].mapM rawCard = .ok [(m, .arr (List.replicate (decimal ds) (toFlt x)))] := by
      have hdm : (⟨m, none, some (decimal ds : ℤ), [.num x], none⟩ : NRaw).dim = some (decimal ds : ℤ) := by
        rw [NRaw.dim]
        simp only [Option.orElse]
        split
        · rename_i h0; simp at h0; omega
        · rfl
      have hv : (⟨m, none, some (decimal ds : ℤ), [.num x], none⟩ : NRaw).value = .ok (.arr (List.replicate (decimal ds) (toFlt x))) := by
        rw [NRaw.value]
        simp only [hdm, fillTok]
        rw [if_neg (by omega), Int.toNat_natCast]
        cases x <;> rfl
      simp only [List.mapM_cons, List.mapM_nil, rawCard, hv]
      rfl
    have hin := inside_cards (r := r.with g cs) hb hcard hval
    rw [addCards_with] at hin
    exact plain_run hp n hin
  | special m w x _ hm h => exact special_line hw hm h _ n r g
  | indexed m ds ts xs new e _ hm hd hpos hne hts he hu =>
    have ht := numWords_text hts
    have hpad := pad_unified hu
    cases ht with
    | nil => exact absurd rfl hne
    | cons h1 h2 =>
      rename_i t x ts xs
      obtain ⟨ha, hs⟩ := comma_after hw he
      have hdig : ∀ c ∈ ds, LineChar c := fun c hc => .inr (.inl (digit_num (hd.2 c hc)))
      have hp : PlainLine (m ++ "(".toList ++ ds ++ ") = ".toList ++ listed (t :: ts) ++ e) := by
        have := comma_plain ((word_plain hm).append (nums_plain h1 h2) ("(".toList ++ ds ++ ") = ".toList) (by
          intro c hc
          rcases List.mem_append.mp hc with hc | hc
          · rcases List.mem_append.mp hc with hc | hc
            · exact .inr (.inr (sub_chars (by decide) hc))
            · exact hdig c hc
          · exact .inr (.inr (sub_chars (by decide) hc)))) he
        rw [listed_cons]
        simpa using this
      have hb : '!' ∉ m ++ "(".toList ++ ds ++ ") = ".toList ++ listed (t :: ts) ++ e := fun h => lineChar_plain (hp.chars _ h) (by decide)
      have e1 : m ++ "(".toList ++ ds ++ ") = ".toList ++ listed (t :: ts) ++ e = m ++ ('(' :: (ds ++ (')' :: ' ' :: '=' :: ' ' :: (t ++ (commaTexts 1 ts ++ e))))) := by
        rw [listed_cons]; simp
      have hword : tokWord ws (m ++ ('(' :: (ds ++ (')' :: ' ' :: '=' :: ' ' :: (t ++ (commaTexts 1 ts ++ e)))))) = some (m, '(' :: (ds ++ (')' :: ' ' :: '=' :: ' ' :: (t ++ (commaTexts 1 ts ++ e))))) :=
        tokWord_spec hw hm (by intro c t e; cases e; decide)
      have hidx : optTok (tokIndex ws) ('(' :: (ds ++ (')' :: ' ' :: '=' :: ' ' :: (t ++ (commaTexts 1 ts ++ e))))) = (some (decimal ds : ℤ), ' ' :: '=' :: ' ' :: (t ++ (commaTexts 1 ts ++ e))) := by
        rw [optTok, tokIndex, tokLit_head hw (c := '(') (by decide)]
        simp only [tokInt_digits hw hd (c := ')') (by decide), tokLit_head hw (c := ')') (by decide)]
        rfl
      have hstar : '*' ∉ ' ' :: (t ++ (commaTexts 1 ts ++ e)) := by
        intro hc
        rcases List.mem_cons.mp hc with hc | hc
        · revert hc; decide
        · rw [← List.append_assoc] at hc
          rcases List.mem_append.mp hc with hc | hc
          · exact nums_noStar h1 h2 hc
          · exact ha.noStar hc
      have hdata : tokData ws (' ' :: (t ++ (commaTexts 1 ts ++ e))) = some ((x :: xs).map .num, e) := by
        rw [tokData, tokNumStr_nums hw 1 h1 h2 ha.stops ha.noNum _ (.inr rfl)]
      have hmore : ∀ k, moreCards ws k e = ([], e) := by
        intro k
        cases k with
        | zero => rfl
        | succ k =>
          rw [moreCards]
          cases hl : tokLit ws ',' e with
          | none => rfl
          | some r => simp only [hs r hl]
      have hcard : tokCards ws (m ++ "(".toList ++ ds ++ ") = ".toList ++ listed (t :: ts) ++ e) = some ([⟨m, some (decimal ds : ℤ), none, (x :: xs).map .num, none⟩], e) := by
        rw [e1, tokCards, tokCard, hword]
        simp only [hidx, tokLit_blank hw (c := '=') (by decide), dimL_none hstar, hdata, dimR_none ha.noStar]
        simp only [Option.map_some, hmore]
      have hval : [(⟨m, some (decimal ds : ℤ), none, (x :: xs).map .num, none⟩ : NRaw)].mapM rawCard = .ok [(m, .arr new)] := by
        have hv : (⟨m, some (decimal ds : ℤ), none, (x :: xs).map .num, none⟩ : NRaw).value = .ok (.arr new) := by
          rw [NRaw.value]
          simp only
          rw [if_neg (by omega), show ((decimal ds : ℤ) - 1).toNat = decimal ds - 1 by omega]
          simp only [NRaw.toks, dimTok, List.nil_append, List.append_nil, hpad]
        simp only [List.mapM_cons, List.mapM_nil, rawCard, hv]
        rfl
      have hin := inside_cards (r := r.with g cs) hb hcard hval
      rw [addCards_with] at hin
      exact plain_run hp n hin

theorem handLines_run {ws : Char → Bool} (hw : PlainWs ws) {t : Str} {cs cs' : List (Str × NRead)} (h : HandLines t cs cs') (r : NRes) (g : Str) :
    Runs ws t (r.with g cs, true) (r.with g cs', true) := by
  induction h with
  | none => exact runs_nil
  | line n l t a b c h1 h2 ih => exact (handLine_run hw h1 n r g).trans ih

/-! ## Groups -/

/-- A line that begins a group, with `&` or `$`. -/
theorem line_head_any {ws : Char → Bool} (hw : PlainWs ws) {g : Str} (hg : AlnumWord g) (r : NRes) (h : Char) (hh : h = '&' ∨ h = '$') :
    nlLine ws (r, false) (h :: g ++ ['\n']) = .ok (r.with g [], true) := by
  rcases hh with rfl | rfl
  · exact line_head hw hg r
  · obtain ⟨z, hz, hsz⟩ : ∃ z, ('$' :: g).getLast? = some z ∧ nlSpace z = false := by
      refine ⟨g.getLast hg.1, ?_, alnum_nlSpace (hg.2 _ (List.getLast_mem hg.1))⟩
      rw [List.getLast?_cons, List.getLast?_eq_some_getLast hg.1]
      rfl
    have hstrip := (strip_line (a := '$') rfl (by decide) hz hsz).1
    have htab : '\t' ∉ '$' :: g := by
      intro h
      rcases List.mem_cons.mp h with h | h
      · revert h; decide
      · exact alnum_space (hg.2 _ h) (by decide)
    have htok : tokHead ws ('$' :: g) = some ((g, [], false), []) := by
      have hword := tokWord_spec hw hg (r := []) (by intro c t e; cases e)
      rw [List.append_nil] at hword
      rw [tokHead, tokLit_head hw (c := '$') (by decide)]
      simp only [Option.orElse, hword]
      rfl
    rw [nlLine]
    simp only [hstrip, expandTabs_free _ 0 htab, Bool.false_eq_true, if_false, hits_self htok, if_true, htok, headCards]
    rfl

/-- A line with a whole group. -/
theorem line_group {ws : Char → Bool} (hw : PlainWs ws) {g : Str} (hg : AlnumWord g) {texts : List Str} {new : List (Str × NRead)} (hne : texts ≠ []) (hc : List.Forall₂ HandCard texts new) (r : NRes) (h : Char) (hh : h = '&' ∨ h = '$') :
    Runs ws (h :: (g ++ ' ' :: (listed texts ++ " /".toList)) ++ ['\n']) (r, false) (r.with g new, false) := by
  obtain ⟨raws, h1, h2, h3⟩ := handCards_pieces hc
  have hp := cards_plain h1 hne
  have hws : h ∉ [' ', '\t', '\n', '\r'] := by rcases hh with rfl | rfl <;> decide
  have hsp : nlSpace h = false := by rcases hh with rfl | rfl <;> decide
  have hchars : ∀ c ∈ h :: (g ++ ' ' :: (listed texts ++ " /".toList)), c ≠ '\t' ∧ c ≠ '\n' := by
    intro c hc
    simp only [List.mem_cons, List.mem_append] at hc
    rcases hc with rfl | hc | rfl | hc | hc
    · rcases hh with rfl | rfl <;> decide
    · have := alnum_space (hg.2 c hc)
      simp only [List.mem_cons, List.not_mem_nil, or_false, not_or] at this
      tauto
    · decide
    · have := lineChar_plain (hp.chars c hc)
      simp only [List.mem_cons, List.not_mem_nil, or_false, not_or] at this
      tauto
    · revert c; decide
  have hafter : AfterCard ws " /".toList := by
    refine ⟨by intro c t e; cases e; decide, ?_, by decide⟩
    intro r hr
    exact absurd (tokLit_mem hr).1 (by decide)
  have hstop : ∀ r, tokLit ws ',' " /".toList = some r → tokCard ws r = none := by
    intro r hr
    exact absurd (tokLit_mem hr).1 (by decide)
  match texts, raws, h1 with
  | [], [], _ => exact absurd rfl hne
  | t :: texts, c :: raws, h1 =>
    have hcards := tokCards_list hw h1 hafter hstop [' '] (.inr rfl)
    have hend : tokEnd ws " /".toList = some (['/'], []) := by
      have : (" /".toList).dropWhile ws = ['/'] := by
        show (' ' :: ['/']).dropWhile ws = ['/']
        rw [skip_blank hw, skip_of hw (by decide)]
      rw [tokEnd, this]
      decide
    have htok : tokHead ws (h :: (g ++ ' ' :: (listed (t :: texts) ++ " /".toList))) = some ((g, c :: raws, true), []) := by
      have hword := tokWord_spec hw hg (r := ' ' :: (listed (t :: texts) ++ " /".toList)) (by intro c t e; cases e; decide)
      have hl : ((tokLit ws '$' (h :: (g ++ ' ' :: (listed (t :: texts) ++ " /".toList)))).orElse fun _ => tokLit ws '&' (h :: (g ++ ' ' :: (listed (t :: texts) ++ " /".toList)))) =
          some (g ++ ' ' :: (listed (t :: texts) ++ " /".toList)) := by
        rcases hh with rfl | rfl
        · rw [tokLit_other hw (c := '$') (d := '&') (by decide) (by decide), tokLit_head hw (c := '&') (by decide)]
          rfl
        · rw [tokLit_head hw (c := '$') (by decide)]
          rfl
      have ho : optTok (tokCards ws) (' ' :: (listed (t :: texts) ++ " /".toList)) = (some (c :: raws), " /".toList) := by
        rw [optTok, show ' ' :: (listed (t :: texts) ++ " /".toList) = [' '] ++ (listed (t :: texts) ++ " /".toList) from rfl, hcards]
      have ho2 : optTok (tokEnd ws) " /".toList = (some ['/'], []) := by rw [optTok, hend]
      rw [tokHead, hl]
      simp only [hword, Option.map_some, ho, ho2]
      rfl
    have hhead : ∀ (raws : List NRaw) (new : List (Str × NRead)) (texts : List Str) (r : NRes) (cs : List (Str × NRead)), List.Forall₂ (fun t c => ∃ o, NumCardOf t c o) texts raws → raws.mapM rawCard = .ok new →
        headCards raws (r.with g cs, true) = .ok (r.with g (cs ++ new), true) := by
      intro raws
      induction raws with
      | nil =>
        intro new texts r cs _ hv
        cases hv
        simp [headCards]
      | cons c raws ih =>
        intro new texts r cs hf hv
        cases hf with
        | cons hf1 hf2 =>
          obtain ⟨o, hf1⟩ := hf1
          rw [List.mapM_cons] at hv
          have hraw : rawCard c = .ok (c.name, o.2) := by rw [rawCard, hf1.value]
          rw [hraw] at hv
          cases hm : raws.mapM rawCard with
          | error e => rw [hm] at hv; cases hv
          | ok new' =>
            rw [hm] at hv
            cases hv
            have hends : rawEnds c = false := by
              obtain ⟨m, t, x, ts, xs, _, hma, _, _, _, rfl⟩ := hf1.shape
              rw [rawEnds]
              have hnil : ((x :: xs).map NTok.num).filterMap NTok.str? = [] := by
                rw [List.filterMap_eq_nil_iff]
                intro a ha
                obtain ⟨b, _, rfl⟩ := List.mem_map.mp ha
                rfl
              simp only [hnil, List.any_cons, List.any_nil, Bool.or_false]
              rw [List.any_eq_false]
              intro w hwd
              have hbad : ∃ ch ∈ w, ch ∉ m := by
                have hno : ∀ ch : Char, ch ∈ ['/', '$', '&'] → ch ∉ m := by
                  intro ch hch hcm
                  have := alnum_space (hma.2 ch hcm)
                  simp only [List.mem_cons, List.not_mem_nil, or_false, not_or] at this hch
                  tauto
                simp only [endWords, List.mem_cons, List.not_mem_nil, or_false] at hwd
                rcases hwd with rfl | rfl | rfl | rfl | rfl
                · exact ⟨'/', by decide, hno _ (by decide)⟩
                · exact ⟨'$', by decide, hno _ (by decide)⟩
                · exact ⟨'$', by decide, hno _ (by decide)⟩
                · exact ⟨'&', by decide, hno _ (by decide)⟩
                · exact ⟨'&', by decide, hno _ (by decide)⟩
              obtain ⟨ch, hc1, hc2⟩ := hbad
              intro hs
              rw [hasSub_iff] at hs
              exact hc2 (hs.subset hc1)
            rw [headCards, hends]
            simp only [Bool.false_eq_true, if_false, hraw, addCards_with]
            rw [ih new' _ r _ hf2 hm]
            simp
    have hstrip : pyStrip nlSpace (h :: (g ++ ' ' :: (listed (t :: texts) ++ " /".toList)) ++ ['\n']) = h :: (g ++ ' ' :: (listed (t :: texts) ++ " /".toList)) :=
      (strip_line (a := h) (z := '/') rfl hsp (by
        rw [show h :: (g ++ ' ' :: (listed (t :: texts) ++ " /".toList)) = (h :: (g ++ ' ' :: (listed (t :: texts) ++ [' ']))) ++ ['/'] by simp, List.getLast?_concat]) (by decide)).1
    refine runs_line (fun hc => (hchars _ hc).2 rfl) ?_
    rw [nlLine]
    simp only [hstrip, expandTabs_free _ 0 (fun hc => (hchars _ hc).1 rfl), Bool.false_eq_true, if_false, hits_self htok, if_true, htok]
    have := hhead (c :: raws) new (t :: texts) r [] h1 h2
    rw [NRes.with] at this
    simp only [this, List.nil_append]
    simp

/-- C142. Several cards on a line, arrays over several lines, repeat counts and first indices: what is read for a group of lines written by hand. -/
theorem C142_lines (ws : Char → Bool) (hw : PlainWs ws) (title g body : Str) (cs : List (Str × NRead)) (h : Char) (ht : TitleText title) (hg : AlnumWord g) (hh : h = '&' ∨ h = '$') (hb : HandLines body [] cs)
    (e : Str) (he : GroupEnd e) : parseNl ws (title ++ ['\n'] ++ (h :: g ++ ['\n']) ++ body ++ (e ++ ['\n'])) = .ok ⟨title, [(g, cs)]⟩ := by
  have hnl : '\n' ∉ title := by
    rcases ht with e | e
    · rw [e]; simp
    · exact e.1.2.1
  have hhead : Runs ws (h :: g ++ ['\n']) (⟨title, []⟩, false) ((⟨title, []⟩ : NRes).with g [], true) := by
    refine runs_line ?_ (line_head_any hw hg _ h hh)
    intro hc
    rcases List.mem_cons.mp hc with hc | hc
    · rcases hh with rfl | rfl <;> revert hc <;> decide
    · exact alnum_space (hg.2 _ hc) (by decide)
  have hend : Runs ws (e ++ ['\n']) ((⟨title, []⟩ : NRes).with g cs, true) ((⟨title, []⟩ : NRes).with g cs, false) := runs_line (by clear hhead; revert e; unfold GroupEnd; decide) (line_end_any hw _ he)
  have hrun := (((runs_line hnl (line_title (ws := ws) ht)).trans hhead).trans (handLines_run hw hb _ g)).trans hend []
  rw [List.append_nil] at hrun
  rw [parseNl, hrun]
  rfl

/-- C142. A group on one line. -/
theorem C142_one_line (ws : Char → Bool) (hw : PlainWs ws) (title g : Str) (texts : List Str) (cs : List (Str × NRead)) (h : Char) (ht : TitleText title) (hg : AlnumWord g) (hh : h = '&' ∨ h = '$') (hne : texts ≠ [])
    (hc : List.Forall₂ HandCard texts cs) : parseNl ws (title ++ ['\n'] ++ (h :: (g ++ ' ' :: (listed texts ++ " /".toList)) ++ ['\n'])) = .ok ⟨title, [(g, cs)]⟩ := by
  have hnl : '\n' ∉ title := by
    rcases ht with e | e
    · rw [e]; simp
    · exact e.1.2.1
  have hrun := (runs_line hnl (line_title (ws := ws) ht)).trans (line_group hw hg hne hc ⟨title, []⟩ h hh) []
  rw [List.append_nil] at hrun
  rw [parseNl, hrun]
  rfl

/-- Several cards on a line, an array over two lines, a repeat count and a first index. -/
def exHand : Str := "deck\n$run\n  n = 4, w = 1.5, 2, \n  3\n    m = 3*2\nq(3) = 7, 8,\n/\n".toList

example : parseNl (fun c => decide (c ∈ [' ', '\t', '\n', '\r'])) exHand = .ok ⟨"deck".toList, [("run".toList, [("n".toList, .tok (.num (.int 4))), ("w".toList, .arr [.flt (3/2), .flt 2, .flt 3]),
    ("m".toList, .arr [.flt 2, .flt 2, .flt 2]), ("q".toList, .arr [.int 0, .int 0, .int 7, .int 8])])]⟩ := by decide +kernel

theorem exNumWord (ds : Str) (z : ℤ) (h : Digits ds) (hz : (decimal ds : ℤ) = z) : NumWord ds (.int z) := by
  refine .inl ⟨z, ?_, rfl⟩
  have := Stands.int (txt := fun _ => false) [] ds 1 .none h
  rwa [List.nil_append, one_mul, hz] at this

instance (s : Str) : Decidable (AlnumWord s) := inferInstanceAs (Decidable (_ ∧ _))

instance (s : Str) : Decidable (Digits s) := inferInstanceAs (Decidable (_ ∧ _))

/-- The hypotheses of `C142_lines` can be met by lines of every kind. -/
example : parseNl defaultWs "deck\n$run\n  n = 4, w = 15, 2,\n  3\nm = 3*2\nq(3) = 7\n z = 1\n 2,\nv = -Inf\n$END\n".toList = .ok ⟨"deck".toList, [("run".toList, [("n".toList, .tok (.num (.int 4))),
    ("w".toList, .arr [.int 15, .int 2, .int 3]), ("m".toList, .arr [.flt 2, .flt 2, .flt 2]), ("q".toList, .arr [.int 0, .int 0, .int 7]), ("z".toList, .arr [.int 1, .int 2]), ("v".toList, .tok (.num .ninf))])]⟩ := by
  have w := fun (ds : Str) (z : ℤ) => exNumWord ds z
  have free : ∀ m : Str, AlnumWord m → m.length = 1 → (∀ c, m.head? = some c → c.isDigit = false) → NumFree m := by
    intro m _ hl h
    refine ⟨h, fun hp => ?_, fun hp => ?_⟩ <;> · have := hp.length_le; rw [hl] at this; revert this; decide
  have card1 : ∀ (m t : Str) (z : ℤ), AlnumWord m → m.length = 1 → (∀ c, m.head? = some c → c.isDigit = false) → NumWord t (.int z) → HandCard (m ++ " = ".toList ++ t) (m, .tok (.num (.int z))) :=
    fun m t z a b c d => .nums m [t] [.int z] _ a (free m a b c) (.cons d .nil) (.one _)
  have ints : ∀ l : List ℤ, Unified (l.map .int) (l.map .int) := fun l => .inl ⟨by simp, rfl⟩
  have cardw : HandCard "w = 15, 2".toList ("w".toList, .arr [.int 15, .int 2]) :=
    .nums "w".toList ["15".toList, "2".toList] _ _ (by decide) (free _ (by decide) (by decide) (by decide)) (.cons (w _ 15 (by decide) (by decide)) (.cons (w _ 2 (by decide) (by decide)) .nil)) (.more _ _ (by decide) (ints [15, 2]))
  refine C142_lines _ exNlWs "deck".toList "run".toList "  n = 4, w = 15, 2,\n  3\nm = 3*2\nq(3) = 7\n z = 1\n 2,\nv = -Inf\n".toList _ '$' (.inr ⟨⟨⟨'k', rfl, by decide⟩, by decide, by decide, by decide⟩, 'd', rfl, by decide⟩) (by decide) (.inr rfl) ?_ "$END".toList (by unfold GroupEnd; decide)
  refine .line 2 "n = 4, w = 15, 2,".toList _ _ _ _ (.cards ["n = 4".toList, "w = 15, 2".toList] _ [','] _ (by simp)
    (.cons (card1 "n".toList "4".toList 4 (by decide) (by decide) (by decide) (w _ 4 (by decide) (by decide))) (.cons cardw .nil)) (.inr rfl)) ?_
  refine .line 2 "3".toList _ _ _ _ (.continued ["3".toList] [.int 3] _ _ [] "w".toList [("n".toList, .tok (.num (.int 4)))] (by simp) (.cons (w _ 3 (by decide) (by decide)) .nil) (.inl rfl) (ints [15, 2, 3])) ?_
  refine .line 0 "m = 3*2".toList _ _ _ _ (.repeated "m".toList "3".toList "2".toList (.int 2) _ (by decide) (by decide) (by decide) (w _ 2 (by decide) (by decide))) ?_
  refine .line 0 "q(3) = 7".toList _ _ _ _ (.indexed "q".toList "3".toList ["7".toList] [.int 7] _ [] _ (by decide) (by decide) (by decide) (by simp) (.cons (w _ 7 (by decide) (by decide)) .nil) (.inl rfl) (ints [0, 0, 7])) ?_
  refine .line 1 "z = 1".toList _ _ _ _ (.cards ["z = 1".toList] _ [] _ (by simp) (.cons (card1 "z".toList "1".toList 1 (by decide) (by decide) (by decide) (w _ 1 (by decide) (by decide))) .nil) (.inl rfl)) ?_
  refine .line 1 "2,".toList _ _ _ _ (.second "2".toList (.int 1) (.int 2) _ [','] "z".toList _ (w _ 2 (by decide) (by decide)) (.inr rfl) (ints [1, 2])) ?_
  refine .line 0 "v = -Inf".toList [] _ _ _ (.special "v".toList "-Inf".toList .ninf _ (by decide) .ninf) ?_
  exact .none _

/-- Finding. A repeat count of zero is read as a number. -/
theorem finding_repeat_zero : parseNl (fun c => decide (c ∈ [' ', '\t', '\n', '\r'])) "deck\n&run\n  m = 0*5\n/\n".toList = .ok ⟨"deck".toList, [("run".toList, [("m".toList, .arr [.int 0, .int 5])])]⟩ := by decide +kernel

/-- Finding (why C142 asks for names that cannot be taken for numbers). A card whose name begins with `Inf` is read as an infinite value of the card before it, and the rest of the line is lost. -/
theorem finding_inf_name : parseNl (fun c => decide (c ∈ [' ', '\t', '\n', '\r'])) "deck\n&run\n  x = 1, Infl = 2\n/\n".toList = .ok ⟨"deck".toList, [("run".toList, [("x".toList, .arr [.flt 1, .pinf])])]⟩ := by decide +kernel

/-- Finding (why C142 asks for an array before the line of a continuation). -/
theorem finding_scalar_continued : parseNl (fun c => decide (c ∈ [' ', '\t', '\n', '\r'])) "deck\n&run\n  x = 1,\n  2, 3\n/\n".toList = .error (.py .ValueError) := by decide +kernel

/-- The hypotheses of `C142_one_line` can be met. -/
example : parseNl defaultWs "deck\n&run n = 4, k = 5 /\n".toList = .ok ⟨"deck".toList, [("run".toList, [("n".toList, .tok (.num (.int 4))), ("k".toList, .tok (.num (.int 5)))])]⟩ := by
  have free : ∀ m : Str, m.length = 1 → (∀ c, m.head? = some c → c.isDigit = false) → NumFree m := by
    intro m hl h
    refine ⟨h, fun hp => ?_, fun hp => ?_⟩ <;> · have := hp.length_le; rw [hl] at this; revert this; decide
  refine C142_one_line _ exNlWs "deck".toList "run".toList ["n = 4".toList, "k = 5".toList] _ '&' (.inr ⟨⟨⟨'k', rfl, by decide⟩, by decide, by decide, by decide⟩, 'd', rfl, by decide⟩) (by decide) (.inl rfl) (by simp) ?_
  exact .cons (.nums "n".toList ["4".toList] [.int 4] _ (by decide) (free _ (by decide) (by decide)) (.cons (exNumWord _ 4 (by decide) (by decide)) .nil) (.one _))
    (.cons (.nums "k".toList ["5".toList] [.int 5] _ (by decide) (free _ (by decide) (by decide)) (.cons (exNumWord _ 5 (by decide) (by decide)) .nil) (.one _)) .nil)

end OpenMDAO
