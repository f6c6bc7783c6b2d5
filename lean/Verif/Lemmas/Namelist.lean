import Verif.Spec.Namelist
import Verif.Lemmas.FileParse
import Verif.Props.FileParse
/-!
# Lemmas for namelist files
-/
namespace OpenMDAO
set_option linter.unusedSectionVars false

section
variable {ws : Char → Bool} (hw : PlainWs ws)
include hw

theorem skip_of {c : Char} {s : Str} (h : c ∉ [' ', '\t', '\n', '\r']) : (c :: s).dropWhile ws = c :: s := by
  have : ws c = false := by
    by_contra hc
    exact h (hw.2 c (by simpa using hc))
  simp [List.dropWhile, this]

theorem skip_blank {s : Str} : (' ' :: s).dropWhile ws = s.dropWhile ws := by simp [List.dropWhile, hw.1]

theorem skip_alnum {c : Char} {s : Str} (h : c.isAlphanum = true) : (c :: s).dropWhile ws = c :: s := by
  apply skip_of hw
  intro hc
  revert h
  simp only [List.mem_cons, List.not_mem_nil, or_false] at hc
  rcases hc with rfl | rfl | rfl | rfl <;> decide

theorem tokWord_spec {m r : Str} (hm : AlnumWord m) (hr : Stops Char.isAlphanum r) : tokWord ws (m ++ r) = some (m, r) := by
  obtain ⟨h1, h2⟩ := takeWhile_stop hm.2 hr
  have hs : (m ++ r).dropWhile ws = m ++ r := by
    cases m with
    | nil => exact absurd rfl hm.1
    | cons c m => exact skip_alnum hw (hm.2 c (by simp))
  rw [tokWord, hs, h1, h2, if_neg hm.1]

theorem tokLit_head {c : Char} {s : Str} (h : c ∉ [' ', '\t', '\n', '\r']) : tokLit ws c (c :: s) = some s := by
  rw [tokLit, skip_of hw h]; simp

theorem tokLit_blank {c : Char} {s : Str} (h : c ∉ [' ', '\t', '\n', '\r']) : tokLit ws c (' ' :: c :: s) = some s := by
  rw [tokLit, skip_blank hw, skip_of hw h]; simp

theorem tokLit_other {c d : Char} {s : Str} (h : d ∉ [' ', '\t', '\n', '\r']) (hd : d ≠ c) : tokLit ws c (d :: s) = none := by
  rw [tokLit, skip_of hw h]; simp [hd]

end

theorem tokLit_mem {ws : Char → Bool} {c : Char} {s r : Str} (h : tokLit ws c s = some r) : c ∈ s ∧ r <:+ s := by
  rw [tokLit] at h
  have hsuf := List.dropWhile_suffix ws (l := s)
  cases hd : s.dropWhile ws with
  | nil => rw [hd] at h; cases h
  | cons d t =>
    rw [hd] at h hsuf
    simp only at h
    split at h
    · rename_i e
      cases h
      subst e
      exact ⟨hsuf.subset (by simp), (List.suffix_cons _ _).trans hsuf⟩
    · cases h

theorem lexDigits_suffix {s ds r : Str} (h : lexDigits s = some (ds, r)) : r <:+ s := by
  rw [lexDigits] at h
  split at h
  · cases h
  · cases h
    exact List.dropWhile_suffix _

theorem lexSign_suffix (s : Str) : (lexSign s).2 <:+ s := by
  rw [lexSign.eq_def]
  split
  · exact List.suffix_cons _ _
  · exact List.suffix_cons _ _
  · exact List.suffix_refl _

theorem lexInt_suffix {s r : Str} {v : FVal} (h : lexInt s = some (v, r)) : r <:+ s := by
  rw [lexInt] at h
  cases hd : lexDigits (lexSign s).2 with
  | none => rw [hd] at h; cases h
  | some x =>
    rw [hd] at h
    cases h
    exact (lexDigits_suffix hd).trans (lexSign_suffix s)

theorem tokInt_suffix {ws : Char → Bool} {s r : Str} {z : ℤ} (h : tokInt ws s = some (z, r)) : r <:+ s := by
  rw [tokInt] at h
  split at h
  · rename_i hl
    cases h
    exact (lexInt_suffix hl).trans (List.dropWhile_suffix _)
  · cases h

theorem dimL_none {ws : Char → Bool} {s : Str} (h : '*' ∉ s) : optTok (tokDimL ws) s = (none, s) := by
  have : tokDimL ws s = none := by
    rw [tokDimL]
    cases hi : tokInt ws s with
    | none => rfl
    | some x =>
      simp only
      cases hl : tokLit ws '*' x.2 with
      | none => rfl
      | some r => exact absurd ((tokInt_suffix (r := x.2) (z := x.1) hi).subset (tokLit_mem hl).1) h
  rw [optTok, this]

theorem dimR_nil {ws : Char → Bool} : optTok (tokDimR ws) [] = (none, []) := rfl

/-! ## Numbers -/

theorem lexNan_kind {s : Str} {v : FVal} {r : Str} (h : lexNan s = some (v, r)) : v = .inf ∨ v = .nan := by
  rw [lexNan] at h
  split at h
  · cases h; exact .inl rfl
  · rename_i hn
    cases ho : lexOneOf nanWords s with
    | none => rw [ho] at h; cases h
    | some x => rw [ho] at h; cases h; exact .inr rfl

/-- A number of `lexItem` is one of `lexNumber`. -/
theorem lexNumber_of_item {txt : Char → Bool} {s r : Str} {v : FVal} (h : lexItem txt s = some (v, r)) (hv : ∀ t, v ≠ .text t) (h1 : v ≠ .inf) (h2 : v ≠ .nan) :
    lexNumber s = some (v, r) := by
  rw [lexItem] at h
  cases hn : lexNan s with
  | some x =>
    rw [hn] at h
    simp only [Option.orElse] at h
    cases h
    rcases lexNan_kind hn with e | e
    · exact absurd e h1
    · exact absurd e h2
  | none =>
    rw [hn] at h
    rw [lexNumber]
    cases hf : lexFloat s with
    | some x => rw [hf] at h; exact h
    | none =>
      rw [hf] at h
      cases hm : lexMixed s with
      | some x => rw [hm] at h; exact h
      | none =>
        rw [hm] at h
        cases hi : lexInt s with
        | some x => rw [hi] at h; exact h
        | none =>
          rw [hi] at h
          simp only [Option.orElse] at h
          rw [lexText] at h
          split at h
          · cases h
          · cases h; exact absurd rfl (hv _)

theorem lexNumber_stands {w r : Str} {v : FVal} (h : Stands (fun _ => false) w v) (hr : Stops isInner r) (h1 : v ≠ .inf) (h2 : v ≠ .nan) (h3 : ∀ t, v ≠ .text t) :
    lexNumber (w ++ r) = some (v, r) :=
  lexNumber_of_item (lexItem_spec h hr (fun _ _ _ => rfl)) h3 h1 h2

theorem natTextF_fuel : ∀ f f' n, n < f → n < f' → natTextF f n = natTextF f' n := by
  intro f
  induction f with
  | zero => intro f' n h; omega
  | succ f ih =>
    intro f' n h h'
    cases f' with
    | zero => omega
    | succ f' =>
      rw [natTextF, natTextF]
      split
      · rfl
      · rw [ih f' (n / 10) (by omega) (by omega)]

theorem natText_eq (n : Nat) : natText n = if n < 10 then [Char.ofNat (n + 48)] else natText (n / 10) ++ [Char.ofNat (n % 10 + 48)] := by
  rw [natText, natTextF]
  split
  · rfl
  · rw [natText, natTextF_fuel n (n / 10 + 1) (n / 10) (by omega) (by omega)]

theorem natText_digits : ∀ n, Digits (natText n) := by
  intro n
  induction n using Nat.strongRecOn with
  | ind n ih =>
    have hd : ∀ k, k < 10 → (Char.ofNat (k + 48)).isDigit = true := by decide
    rw [natText_eq]
    split
    · rename_i h
      exact ⟨by simp, by simpa using hd n h⟩
    · obtain ⟨a, b⟩ := ih (n / 10) (by omega)
      refine ⟨by simp, ?_⟩
      intro c hc
      rcases List.mem_append.mp hc with hc | hc
      · exact b c hc
      · cases List.mem_singleton.mp hc; exact hd _ (by omega)

theorem decimal_append (a : Str) (c : Char) : decimal (a ++ [c]) = 10 * decimal a + (c.toNat - 48) := by
  induction a with
  | nil => simp [decimal]
  | cons d a ih =>
    simp only [List.cons_append, decimal, ih, List.length_append, List.length_singleton, pow_succ]
    ring

theorem natText_decimal : ∀ n, decimal (natText n) = n := by
  intro n
  induction n using Nat.strongRecOn with
  | ind n ih =>
    have hd : ∀ k, k < 10 → (Char.ofNat (k + 48)).toNat - 48 = k := by decide
    rw [natText_eq]
    split
    · rename_i h
      simpa [decimal] using hd n h
    · rw [decimal_append, ih (n / 10) (by omega), hd _ (by omega)]
      omega

theorem intText_stands (z : ℤ) : Stands (fun _ => false) (intText z) (.int z) := by
  rw [intText]
  split
  · rename_i h
    have := Stands.int (txt := fun _ => false) ['-'] (natText z.natAbs) (-1) .minus (natText_digits _)
    rw [natText_decimal] at this
    have e : (-1 : ℤ) * (z.natAbs : ℤ) = z := by omega
    rw [e] at this
    exact this
  · have := Stands.int (txt := fun _ => false) [] (natText z.natAbs) 1 .none (natText_digits _)
    rw [natText_decimal] at this
    have e : (1 : ℤ) * (z.natAbs : ℤ) = z := by omega
    rw [e] at this
    exact this

/-- The characters of a number. -/
theorem numStands_chars {w : Str} {v : FVal} (h : Stands (fun _ => false) w v) (h1 : v ≠ .inf) (h2 : v ≠ .nan) : w ≠ [] ∧ ∀ c ∈ w, isNumChar c = true := by
  cases h with
  | int sg ds z hs hd =>
    refine ⟨by simp [hd.1], ?_⟩
    intro c hc
    rcases List.mem_append.1 hc with hc | hc
    · exact sign_num hs c hc
    · exact digit_num (hd.2 c hc)
  | point sg ip fp z hs hd hne =>
    refine ⟨by simp, ?_⟩
    intro c hc
    simp only [List.mem_append, List.mem_cons] at hc
    rcases hc with hc | hc | rfl | hc
    · exact sign_num hs c hc
    · exact digit_num (hd c (by simp [hc]))
    · rfl
    · exact digit_num (hd c (by simp [hc]))
  | pointExp sg ip fp ex z e hs hd hne he =>
    refine ⟨by simp, ?_⟩
    intro c hc
    simp only [List.mem_append, List.mem_cons] at hc
    rcases hc with (hc | hc | rfl | hc) | hc
    · exact sign_num hs c hc
    · exact digit_num (hd c (by simp [hc]))
    · rfl
    · exact digit_num (hd c (by simp [hc]))
    · exact exponent_num he c hc
  | exp ip ex e hd he =>
    refine ⟨by simp [hd.1], ?_⟩
    intro c hc
    rcases List.mem_append.1 hc with hc | hc
    · exact digit_num (hd.2 c hc)
    · exact exponent_num he c hc
  | inf => exact absurd rfl h1
  | nan => exact absurd rfl h2
  | text w hne hall => exact ⟨hne, fun c hc => by cases hall c hc⟩

/-- A text that is read as a number. -/
structure NumText (t : Str) (x : NNum) : Prop where
  ne : t ≠ []
  chars : ∀ c ∈ t, isNumChar c = true
  lex : ∀ r, Stops isInner r → lexNumber (t ++ r) = some (match x with | .int z => .int z | .flt q => .flt q | _ => .nan, r)
  fin : (∃ z, x = .int z) ∨ ∃ q, x = .flt q

theorem numText_int (z : ℤ) : NumText (intText z) (.int z) := by
  have h := intText_stands z
  obtain ⟨a, b⟩ := numStands_chars h (by simp) (by simp)
  exact ⟨a, b, fun r hr => lexNumber_stands h hr (by simp) (by simp) (by simp), .inl ⟨z, rfl⟩⟩

theorem numText_flt {t : Str} {q : ℚ} (h : Stands (fun _ => false) t (.flt q)) : NumText t (.flt q) := by
  obtain ⟨a, b⟩ := numStands_chars h (by simp) (by simp)
  exact ⟨a, b, fun r hr => lexNumber_stands h hr (by simp) (by simp) (by simp), .inr ⟨q, rfl⟩⟩

theorem numReads_text {v : NScalar} {x : NNum} (h : NumReads v x) : ∃ t, scalarText v = .ok t ∧ NumText t x := by
  cases h with
  | int z => exact ⟨_, rfl, numText_int z⟩
  | flt t q hs => exact ⟨t, rfl, numText_flt hs⟩

theorem numChar_plain {c : Char} (h : isNumChar c = true) : c ∉ [' ', '\t', '\n', '\r', '*', '=', '(', ',', '/', '!', '\x0b', '\x0c', '"', '\'', ')'] := by
  intro hc
  revert h
  simp only [List.mem_cons, List.not_mem_nil, or_false] at hc
  rcases hc with rfl | rfl | rfl | rfl | rfl | rfl | rfl | rfl | rfl | rfl | rfl | rfl | rfl | rfl | rfl <;> decide

/-- Texts behind commas and `g` blanks. -/
def commaTexts (g : Nat) (ts : List Str) : Str := (ts.map fun t => ',' :: (List.replicate g ' ' ++ t)).flatten

theorem stops_comma (s : Str) : Stops isInner (',' :: s) := by
  intro c t e
  cases e
  decide

theorem stops_nil : Stops isInner [] := by intro c t e; cases e

theorem stops_commaTexts (g : Nat) (ts : List Str) {rest : Str} (hr : Stops isInner rest) : Stops isInner (commaTexts g ts ++ rest) := by
  cases ts with
  | nil => exact hr
  | cons t ts => exact stops_comma _

theorem commaTexts_length (g : Nat) {ts : List Str} {xs : List NNum} (h : List.Forall₂ NumText ts xs) (rest : Str) : ts.length ≤ (commaTexts g ts ++ rest).length := by
  induction h with
  | nil => simp
  | cons h1 h2 ih =>
    simp [commaTexts] at ih ⊢
    omega

section
variable {ws : Char → Bool} (hw : PlainWs ws)
include hw

theorem skip_num {t r : Str} {x : NNum} (h : NumText t x) : (t ++ r).dropWhile ws = t ++ r := by
  cases t with
  | nil => exact absurd rfl h.ne
  | cons c t =>
    refine skip_of hw fun hc => numChar_plain (h.chars c (by simp)) ?_
    simp only [List.mem_cons, List.not_mem_nil, or_false] at hc ⊢
    tauto

theorem tokNum_spec {t r : Str} {x : NNum} (h : NumText t x) (hr : Stops isInner r) : tokNum ws (t ++ r) = some (x, r) ∧ tokNum ws (' ' :: (t ++ r)) = some (x, r) := by
  have key : lexNumber ((t ++ r).dropWhile ws) = _ := (congrArg lexNumber (skip_num hw h)).trans (h.lex r hr)
  constructor
  · rw [tokNum, key]
    rcases h.fin with ⟨z, rfl⟩ | ⟨q, rfl⟩ <;> rfl
  · rw [tokNum, skip_blank hw, key]
    rcases h.fin with ⟨z, rfl⟩ | ⟨q, rfl⟩ <;> rfl

theorem skip_blanks (g : Nat) (s : Str) : (List.replicate g ' ' ++ s).dropWhile ws = s.dropWhile ws := by
  induction g with
  | zero => rfl
  | succ g ih => rw [List.replicate_succ, List.cons_append, skip_blank hw, ih]

theorem tokNum_blanks (g : Nat) {t r : Str} {x : NNum} (h : NumText t x) (hr : Stops isInner r) : tokNum ws (List.replicate g ' ' ++ (t ++ r)) = some (x, r) := by
  have := (tokNum_spec hw h hr).1
  rw [tokNum] at this ⊢
  rw [skip_blanks hw, this]

theorem moreNums_spec (g : Nat) {rest : Str} (hrest : Stops isInner rest) (hstop : ∀ r, tokLit ws ',' rest = some r → tokNum ws r = none) :
    ∀ (ts : List Str) (xs : List NNum) (n : Nat), List.Forall₂ NumText ts xs → ts.length ≤ n → moreNums ws n (commaTexts g ts ++ rest) = (xs, rest) := by
  intro ts
  induction ts with
  | nil =>
    intro xs n h hn
    cases h
    cases n with
    | zero => rfl
    | succ n =>
      simp only [commaTexts, List.map_nil, List.flatten_nil, List.nil_append, moreNums]
      cases hl : tokLit ws ',' rest with
      | none => rfl
      | some r => simp only [hstop r hl]
  | cons t ts ih =>
    intro xs n h hn
    cases h with
    | cons h1 h2 =>
      rename_i x xs
      cases n with
      | zero => simp at hn
      | succ n =>
        have e : commaTexts g (t :: ts) ++ rest = ',' :: (List.replicate g ' ' ++ (t ++ (commaTexts g ts ++ rest))) := by
          simp [commaTexts]
        rw [e, moreNums, tokLit_head hw (by decide)]
        simp only [tokNum_blanks hw g h1 (stops_commaTexts g ts hrest)]
        rw [ih xs n h2 (by simpa using hn)]

theorem tokNumStr_nums (g : Nat) {t : Str} {x : NNum} (h : NumText t x) {ts : List Str} {xs : List NNum} (hs : List.Forall₂ NumText ts xs) {rest : Str}
    (hrest : Stops isInner rest) (hstop : ∀ r, tokLit ws ',' rest = some r → tokNum ws r = none) (s : Str) (hsp : s = t ++ (commaTexts g ts ++ rest) ∨ s = ' ' :: (t ++ (commaTexts g ts ++ rest))) :
    tokNumStr ws s = some ((x :: xs).map .num, rest) := by
  have hn : tokNum ws s = some (x, commaTexts g ts ++ rest) := by
    rcases hsp with rfl | rfl
    · exact (tokNum_spec hw h (stops_commaTexts g ts hrest)).1
    · exact (tokNum_spec hw h (stops_commaTexts g ts hrest)).2
  rw [tokNumStr, hn]
  simp only [moreNums_spec hw g hrest hstop ts xs _ hs (commaTexts_length g hs rest)]

end

/-! ## Cards -/

theorem lexQuoted_spec {t : Str} (h : PlainText t) : lexQuoted '\'' ('\'' :: (t ++ ['\''])) = some (t, []) := by
  have hd : ∀ c ∈ t, (!(c = '\'' || c = '\n' || c = '\r') : Bool) = true := by
    intro c hc
    have := h c hc
    simp only [List.mem_cons, List.not_mem_nil, or_false, not_or] at this
    simp [this.1, this.2.2.1, this.2.2.2.1]
  obtain ⟨h1, h2⟩ := takeWhile_stop (p := fun x : Char => !(x = '\'' || x = '\n' || x = '\r')) (ds := t) (r := ['\'']) hd (by intro c t e; cases e; decide)
  rw [lexQuoted, if_pos rfl]
  simp only [h1, h2, if_true]

section
variable {ws : Char → Bool} (hw : PlainWs ws)
include hw

theorem tokData_nums (g : Nat) {t : Str} {x : NNum} (h : NumText t x) {ts : List Str} {xs : List NNum} (hs : List.Forall₂ NumText ts xs) :
    tokData ws (' ' :: (t ++ commaTexts g ts)) = some ((x :: xs).map .num, []) := by
  rw [tokData, tokNumStr_nums hw g h hs stops_nil (rest := []) (by intro r hr; cases hr) _ (.inr (by simp))]

theorem tokNum_quote (s : Str) : tokNum ws (' ' :: '\'' :: s) = none := by
  rw [tokNum, skip_blank hw, skip_of hw (by decide)]
  rfl

theorem tokData_str {t : Str} (h : PlainText t) : tokData ws (' ' :: '\'' :: (t ++ ['\''])) = some ([.str t], []) := by
  rw [tokData, tokNumStr, tokNum_quote hw, tokStr, skip_blank hw, skip_of hw (by decide)]
  have : lexQuoted '"' ('\'' :: (t ++ ['\''])) = none := by rw [lexQuoted, if_neg (by decide)]
  rw [this, lexQuoted_spec h]
  rfl

theorem tokData_bool (b : Bool) : tokData ws (' ' :: (if b then ['T'] else ['F'])) = some ([.bool b], []) := by
  cases b with
  | true =>
    have hs : (' ' :: ['T']).dropWhile ws = ['T'] := by rw [skip_blank hw, skip_alnum hw (by decide)]
    simp only [if_true, tokData, tokNumStr, tokNum, tokStr, tokBool, hs]
    rfl
  | false =>
    have hs : (' ' :: ['F']).dropWhile ws = ['F'] := by rw [skip_blank hw, skip_alnum hw (by decide)]
    simp only [Bool.false_eq_true, if_false, tokData, tokNumStr, tokNum, tokStr, tokBool, hs]
    rfl

theorem dimL_quote (s : Str) : optTok (tokDimL ws) (' ' :: '\'' :: s) = (none, ' ' :: '\'' :: s) := by
  have : tokInt ws (' ' :: '\'' :: s) = none := by
    rw [tokInt, skip_blank hw, skip_of hw (by decide)]
    rfl
  rw [optTok, tokDimL, this]

/-- A card of which the text is known. -/
theorem tokCards_spec {m text : Str} (hm : AlnumWord m) {toks : List NTok} (hd : optTok (tokDimL ws) (' ' :: text) = (none, ' ' :: text))
    (ht : tokData ws (' ' :: text) = some (toks, [])) :
    tokCards ws (m ++ " = ".toList ++ text) = some ([⟨m, none, none, toks, none⟩], []) := by
  have e : m ++ " = ".toList ++ text = m ++ (' ' :: '=' :: ' ' :: text) := by simp
  have hword : tokWord ws (m ++ (' ' :: '=' :: ' ' :: text)) = some (m, ' ' :: '=' :: ' ' :: text) :=
    tokWord_spec hw hm (by intro c t e; cases e; decide)
  have hidx : optTok (tokIndex ws) (' ' :: '=' :: ' ' :: text) = (none, ' ' :: '=' :: ' ' :: text) := by
    have : tokLit ws '(' (' ' :: '=' :: ' ' :: text) = none := by
      rw [tokLit, skip_blank hw, skip_of hw (by decide)]
      rfl
    rw [optTok, tokIndex, this]
  have hc : tokCard ws (m ++ " = ".toList ++ text) = some (⟨m, none, none, toks, none⟩, []) := by
    rw [e, tokCard, hword]
    simp only [hidx, tokLit_blank hw (c := '=') (by decide), hd, ht, dimR_nil]
  rw [tokCards, hc]
  rfl

end

theorem hits_self {α : Type} {p : Str → Option α} {s : Str} {a : α} (h : p s = some a) : hits p s = true := by
  rw [hits, List.any_eq_true]
  exact ⟨s, by simp, by simp [h]⟩

theorem hits_false {α : Type} {p : Str → Option α} {s : Str} (h : ∀ t, t <:+ s → p t = none) : hits p s = false := by
  rw [hits, List.any_eq_false]
  intro t ht
  simp [h t (by simpa using ht)]

/-- A line of a group with one card. -/
theorem inside_card {ws : Char → Bool} {r : NRes} {l : Str} {c : NRaw} {v : NRead} (hb : '!' ∉ l) (hc : tokCards ws l = some ([c], [])) (hv : c.value = .ok v) :
    nlInside ws r l = .ok (r.addCards [(c.name, v)], true) := by
  rw [nlInside, if_neg hb, if_pos (hits_self hc), hc]
  have : [c].mapM rawCard = .ok [(c.name, v)] := by
    simp only [List.mapM_cons, List.mapM_nil, rawCard, hv]
    rfl
  simp only [this]

/-! ## Lines -/

theorem rstrip_last {sp : Char → Bool} {s : Str} {c : Char} (h : s.getLast? = some c) (hc : sp c = false) : rstrip sp s = s := by
  obtain ⟨a, rfl⟩ : ∃ a, s = a ++ [c] := by
    rcases List.eq_nil_or_concat s with rfl | ⟨a, b, rfl⟩
    · cases h
    · simp at h; subst h; exact ⟨a, by simp⟩
  simp [rstrip, hc]

theorem rstrip_snoc {sp : Char → Bool} {s : Str} {c : Char} (hc : sp c = true) : rstrip sp (s ++ [c]) = rstrip sp s := by
  simp [rstrip, hc]

/-- The line that is left of one with two blanks in front and a line break at the end. -/
theorem strip_line {body : Str} {a z : Char} (ha : body.head? = some a) (hsa : nlSpace a = false) (hz : body.getLast? = some z) (hsz : nlSpace z = false) :
    pyStrip nlSpace (body ++ ['\n']) = body ∧ pyStrip nlSpace ("  ".toList ++ body ++ ['\n']) = body := by
  cases body with
  | nil => cases ha
  | cons a' body =>
    cases ha
    have h1 : (a :: body ++ ['\n']).dropWhile nlSpace = a :: body ++ ['\n'] := by simp [hsa]
    have h2 : ("  ".toList ++ (a :: body) ++ ['\n']).dropWhile nlSpace = a :: body ++ ['\n'] := by
      have : nlSpace ' ' = true := by decide
      show ((' ' :: ' ' :: (a :: body ++ ['\n'])).dropWhile nlSpace) = _
      rw [List.dropWhile_cons_of_pos this, List.dropWhile_cons_of_pos this, h1]
    constructor
    · rw [pyStrip, h1, rstrip_snoc (by decide), rstrip_last hz hsz]
    · rw [pyStrip, h2, rstrip_snoc (by decide), rstrip_last hz hsz]

theorem alnum_space {c : Char} (h : c.isAlphanum = true) : c ∉ [' ', '\t', '\n', '\r', '!', '/', '&', '$', '=', '(', ')', ',', '*', '\x0b', '\x0c', ':', '"', '\''] := by
  intro hc
  revert h
  simp only [List.mem_cons, List.not_mem_nil, or_false] at hc
  rcases hc with rfl | rfl | rfl | rfl | rfl | rfl | rfl | rfl | rfl | rfl | rfl | rfl | rfl | rfl | rfl | rfl | rfl | rfl <;> decide

theorem nlSpace_false {c : Char} (h : c ∉ [' ', '\t', '\n', '\r', '\x0b', '\x0c']) : nlSpace c = false := by
  simp only [List.mem_cons, List.not_mem_nil, or_false, not_or] at h
  simp [nlSpace, h]

theorem alnum_nlSpace {c : Char} (h : c.isAlphanum = true) : nlSpace c = false := by
  have := alnum_space h
  apply nlSpace_false
  simp only [List.mem_cons, List.not_mem_nil, or_false] at this ⊢
  tauto

theorem AlnumWord.head {m : Str} (h : AlnumWord m) : ∃ a, m.head? = some a ∧ a.isAlphanum = true := by
  cases m with
  | nil => exact absurd rfl h.1
  | cons c m => exact ⟨c, rfl, h.2 c (by simp)⟩

/-- A line `  m = text` of a group. -/
theorem line_card {ws : Char → Bool} (hw : PlainWs ws) {r : NRes} {m text : Str} (hm : AlnumWord m) {toks : List NTok} {v : NRead} {z : Char}
    (hz : text.getLast? = some z) (hsz : nlSpace z = false) (hsl : z ≠ '/') (hx : '!' ∉ text) (htab : '\t' ∉ text)
    (hd : optTok (tokDimL ws) (' ' :: text) = (none, ' ' :: text)) (ht : tokData ws (' ' :: text) = some (toks, []))
    (hv : (⟨m, none, none, toks, none⟩ : NRaw).value = .ok v) :
    nlLine ws (r, true) (cardLine m text) = .ok (r.addCards [(m, v)], true) := by
  obtain ⟨a, ha, haa⟩ := hm.head
  have e : cardLine m text = "  ".toList ++ (m ++ " = ".toList ++ text) ++ ['\n'] := by simp [cardLine]
  have hz' : (m ++ " = ".toList ++ text).getLast? = some z := by
    rw [List.getLast?_append, hz]; rfl
  have ha' : (m ++ " = ".toList ++ text).head? = some a := by
    cases m with
    | nil => cases ha
    | cons c m => simpa using ha
  have hstrip := (strip_line ha' (alnum_nlSpace haa) hz' hsz).2
  have hbody : ∀ c : Char, c ∈ m ++ " = ".toList ++ text → c ∈ text ∨ c ∉ ['!', '\t'] := by
    intro c hc
    simp only [List.mem_append] at hc
    rcases hc with (hc | hc) | hc
    · right
      have := alnum_space (hm.2 c hc)
      simp only [List.mem_cons, List.not_mem_nil, or_false] at this ⊢
      tauto
    · right
      revert hc c
      decide
    · exact .inl hc
  have htab' : '\t' ∉ m ++ " = ".toList ++ text := fun h => by
    rcases hbody _ h with h | h
    · exact htab h
    · exact h (by decide)
  have hx' : '!' ∉ m ++ " = ".toList ++ text := fun h => by
    rcases hbody _ h with h | h
    · exact hx h
    · exact h (by decide)
  have hne : m ++ " = ".toList ++ text ≠ [] := by simp [hm.1]
  rw [e, nlLine]
  simp only [hstrip, expandTabs_free _ 0 htab', if_neg hne, if_true, inside_card hx' (tokCards_spec hw hm hd ht) hv, hz']
  simp [hsl]

end OpenMDAO
