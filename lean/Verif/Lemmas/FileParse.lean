import Verif.Spec.FileParse
import Mathlib.Tactic.Ring
import Mathlib.Tactic.NormNum
/-! # Tokens of `FileParser` on words -/
namespace OpenMDAO
set_option linter.unusedSectionVars false

/-- The rest behind a word: its first character, if there is one, fails `p`. -/
def Stops (p : Char → Bool) (r : Str) : Prop := ∀ c t, r = c :: t → p c = false

theorem takeWhile_stop {p : Char → Bool} {ds r : Str} (hd : ∀ c ∈ ds, p c = true) (hr : Stops p r) :
    (ds ++ r).takeWhile p = ds ∧ (ds ++ r).dropWhile p = r := by
  induction ds with
  | nil =>
    cases r with
    | nil => simp
    | cons c t => simp [hr c t rfl]
  | cons c ds ih =>
    obtain ⟨h1, h2⟩ := ih (fun x hx => hd x (List.mem_cons_of_mem _ hx))
    simp [hd c List.mem_cons_self, h1, h2]

theorem lexDigits_stop {ds r : Str} (hd : Digits ds) (hr : Stops Char.isDigit r) : lexDigits (ds ++ r) = some (ds, r) := by
  obtain ⟨h1, h2⟩ := takeWhile_stop hd.2 hr
  rw [lexDigits, h1, h2, if_neg hd.1]

theorem lexDigits_none {r : Str} (hr : Stops Char.isDigit r) : lexDigits r = none := by
  have := (takeWhile_stop (ds := []) (by simp) hr).1
  rw [lexDigits, if_pos]
  simpa using this

theorem foldl_decimal (ds : Str) : ∀ n, ds.foldl (fun n c => 10 * n + (c.toNat - '0'.toNat)) n = n * 10 ^ ds.length + decimal ds := by
  induction ds with
  | nil => simp [decimal]
  | cons c ds ih =>
    intro n
    have : '0'.toNat = 48 := rfl
    rw [List.foldl_cons, ih, decimal, List.length_cons, this]
    ring

theorem digitsVal_eq (ds : Str) : digitsVal ds = decimal ds := by rw [digitsVal, foldl_decimal]; simp

/-- The text behind a sign is no sign. -/
def Unsigned (r : Str) : Prop := Stops (fun c => c = '+' || c = '-') r

theorem lexSign_spec {sg : Str} {z : ℤ} (h : Sign sg z) {r : Str} (hr : Unsigned r) : (lexSign (sg ++ r)).2 = r ∧ (if (lexSign (sg ++ r)).1 then (-1 : ℤ) else 1) = z := by
  cases h with
  | none =>
    cases r with
    | nil => simp [lexSign]
    | cons c t =>
      have := hr c t rfl
      have h1 : c ≠ '+' := by rintro rfl; simp at this
      have h2 : c ≠ '-' := by rintro rfl; simp at this
      simp only [List.nil_append]
      have hl : lexSign (c :: t) = (false, c :: t) := by
        rw [lexSign.eq_def]
        split
        · rename_i s e; exact absurd (List.cons.inj e).1 h1
        · rename_i s e; exact absurd (List.cons.inj e).1 h2
        · rfl
      simp [hl]
  | plus => simp [lexSign]
  | minus => simp [lexSign]

theorem digit_facts {c : Char} (h : c.isDigit = true) : c ≠ '+' ∧ c ≠ '-' ∧ c ≠ '.' ∧ isExpChar c = false := by
  refine ⟨?_, ?_, ?_, ?_⟩
  · rintro rfl; revert h; decide
  · rintro rfl; revert h; decide
  · rintro rfl; revert h; decide
  · by_contra hh
    simp only [isExpChar, Bool.or_eq_false_iff, not_and, Bool.not_eq_false] at hh
    simp only [decide_eq_false_iff_not, decide_eq_true_eq] at hh
    by_cases h1 : c = 'e'
    · subst h1; revert h; decide
    by_cases h2 : c = 'E'
    · subst h2; revert h; decide
    by_cases h3 : c = 'd'
    · subst h3; revert h; decide
    have h4 : c = 'D' := by
      apply hh
      simp [h1, h2, h3]
    subst h4; revert h; decide

theorem unsigned_digits {ds r : Str} (h : Digits ds) : Unsigned (ds ++ r) := by
  intro c t e
  cases ds with
  | nil => exact absurd rfl h.1
  | cons d ds =>
    obtain ⟨rfl, _⟩ := List.cons.inj e
    obtain ⟨h1, h2, _⟩ := digit_facts (h.2 _ List.mem_cons_self)
    simp [h1, h2]

theorem lexExp_spec {ex r : Str} {e : ℤ} (h : Exponent ex e) (hr : Stops Char.isDigit r) : lexExp (ex ++ r) = some (e, r) := by
  cases h with
  | mk c sg ds z hc hs hd =>
    have h1 : isExpChar c = true := by
      simp only [List.mem_cons, List.not_mem_nil, or_false] at hc
      rcases hc with rfl | rfl | rfl | rfl <;> rfl
    obtain ⟨h2, h3⟩ := lexSign_spec hs (unsigned_digits (r := r) hd)
    rw [show (c :: sg ++ ds) ++ r = c :: (sg ++ (ds ++ r)) by simp, lexExp, if_pos h1, h2, lexDigits_stop hd hr]
    simp only [Option.map_some, digitsVal_eq]
    rw [← h3]
    split_ifs <;> simp

theorem optExp_none {r : Str} (hr : Stops isExpChar r) : optExp r = (0, r) := by
  cases r with
  | nil => rfl
  | cons c t => rw [optExp, lexExp, hr c t rfl]; rfl

theorem optExp_spec {ex r : Str} {e : ℤ} (h : Exponent ex e) (hr : Stops Char.isDigit r) : optExp (ex ++ r) = (e, r) := by
  rw [optExp, lexExp_spec h hr]; rfl

/-- Characters of numbers. -/
def isNumChar (c : Char) : Bool := c.isDigit || c = '.' || c = '+' || c = '-' || isExpChar c

/-- Characters inside of numbers and names, but the first. -/
def isInner (c : Char) : Bool := c.isAlphanum || c = '.' || c = '#' || c = '%'

theorem inner_digit {c : Char} (h : isInner c = false) : c.isDigit = false ∧ c ≠ '.' ∧ isExpChar c = false := by
  simp only [isInner, Char.isAlphanum, Bool.or_eq_false_iff, decide_eq_false_iff_not] at h
  refine ⟨h.1.1.1.2, h.1.1.2, ?_⟩
  by_contra hh
  simp only [isExpChar, Bool.not_eq_false, Bool.or_eq_true, decide_eq_true_eq] at hh
  rcases hh with ((rfl | rfl) | rfl) | rfl <;> exact absurd h.1.1.1.1 (by decide)

theorem Stops.digit {r : Str} (h : Stops isInner r) : Stops Char.isDigit r := fun c t e => (inner_digit (h c t e)).1
theorem Stops.expc {r : Str} (h : Stops isInner r) : Stops isExpChar r := fun c t e => (inner_digit (h c t e)).2.2

theorem prefix_stop {s w r : Str} (hs : ∀ c ∈ s.tail, isInner c = true) (hw : w ≠ []) (hr : Stops isInner r) (h : s <+: w ++ r) : s <+: w := by
  obtain ⟨t, ht⟩ := h
  rcases List.append_eq_append_iff.1 ht with ⟨a, h1, h2⟩ | ⟨a, h1, h2⟩
  · exact ⟨a, h1.symm⟩
  · cases a with
    | nil => exact ⟨[], by simpa using h1⟩
    | cons c a =>
      exfalso
      have hc := hr c (a ++ t) h2
      have : c ∈ s.tail := by
        cases w with
        | nil => exact absurd rfl hw
        | cons x w => rw [h1]; simp
      rw [hs c this] at hc
      cases hc

theorem special_inner : ∀ s ∈ infWords ++ nanWords, ∀ c ∈ s.tail, isInner c = true := by decide +kernel

theorem oneOf_stop {words : List Str} (hsub : ∀ s ∈ words, s ∈ infWords ++ nanWords) {w r : Str} (hw : w ≠ []) (hr : Stops isInner r) :
    (words.find? fun s => s.isPrefixOf (w ++ r)) = words.find? fun s => s.isPrefixOf w := by
  induction words with
  | nil => rfl
  | cons s words ih =>
    have ih := ih (fun x hx => hsub x (List.mem_cons_of_mem _ hx))
    have e : s.isPrefixOf (w ++ r) = s.isPrefixOf w := by
      rw [Bool.eq_iff_iff, List.isPrefixOf_iff_prefix, List.isPrefixOf_iff_prefix]
      exact ⟨prefix_stop (special_inner s (hsub s List.mem_cons_self)) hw hr, fun h => h.trans (List.prefix_append _ _)⟩
    rw [List.find?_cons, List.find?_cons, e, ih]

theorem lexOneOf_some {words : List Str} (hsub : ∀ s ∈ words, s ∈ infWords ++ nanWords) {w r : Str} (hw : w ≠ []) (hr : Stops isInner r)
    (h : (words.find? fun s => s.isPrefixOf w) = some w) : lexOneOf words (w ++ r) = some r := by
  rw [lexOneOf, oneOf_stop hsub hw hr, h]
  simp

theorem lexOneOf_none {words : List Str} (hsub : ∀ s ∈ words, s ∈ infWords ++ nanWords) {w r : Str} (hw : w ≠ []) (hr : Stops isInner r)
    (h : ∀ s ∈ words, ¬ s <+: w) : lexOneOf words (w ++ r) = none := by
  have : (words.find? fun s => s.isPrefixOf w) = none := by
    rw [List.find?_eq_none]
    intro s hs
    rw [List.isPrefixOf_iff_prefix]
    exact h s hs
  rw [lexOneOf, oneOf_stop hsub hw hr, this]; rfl

theorem lexNan_none {w r : Str} (hw : w ≠ []) (hr : Stops isInner r) (h : ∀ s ∈ infWords ++ nanWords, ¬ s <+: w) : lexNan (w ++ r) = none := by
  rw [lexNan, lexOneOf_none (by simp +contextual) hw hr fun s hs => h s (by simp [hs])]
  simp only [lexOneOf_none (words := nanWords) (by simp +contextual) hw hr fun s hs => h s (by simp [hs])]
  rfl

theorem special_notnum : ∀ s ∈ infWords ++ nanWords, ∃ c ∈ s, isNumChar c = false := by decide +kernel

theorem lexNan_num {w r : Str} (hw : w ≠ []) (hr : Stops isInner r) (h : ∀ c ∈ w, isNumChar c = true) : lexNan (w ++ r) = none := by
  refine lexNan_none hw hr fun s hs hp => ?_
  obtain ⟨c, hc, hn⟩ := special_notnum s hs
  rw [h c (hp.subset hc)] at hn
  cases hn

theorem sign_num {sg : Str} {z : ℤ} (h : Sign sg z) : ∀ c ∈ sg, isNumChar c = true := by
  cases h <;> decide

theorem digit_num {c : Char} (h : c.isDigit = true) : isNumChar c = true := by simp [isNumChar, h]

theorem exponent_num {ex : Str} {e : ℤ} (h : Exponent ex e) : ∀ c ∈ ex, isNumChar c = true := by
  cases h with
  | mk c sg ds z hc hs hd =>
    intro x hx
    simp only [List.cons_append, List.mem_cons, List.mem_append] at hx
    rcases hx with rfl | hx | hx
    · simp only [List.mem_cons, List.not_mem_nil, or_false] at hc
      rcases hc with rfl | rfl | rfl | rfl <;> rfl
    · exact sign_num hs x hx
    · exact digit_num (hd.2 x hx)

theorem lexPoint_none {ds r : Str} (hd : Digits ds) (hr : Stops isInner r ∨ ∃ c t, r = c :: t ∧ isExpChar c = true) : lexPoint (ds ++ r) = none := by
  have hdig : Stops Char.isDigit r := by
    rcases hr with hr | ⟨c, t, rfl, hc⟩
    · exact hr.digit
    · intro c' t' e
      obtain ⟨rfl, _⟩ := List.cons.inj e
      by_contra hh
      rw [(digit_facts (by simpa using hh)).2.2.2] at hc
      cases hc
  have hdot : ∀ t, r ≠ '.' :: t := by
    rintro t rfl
    rcases hr with hr | ⟨c, t', e, hc⟩
    · exact absurd (hr '.' t rfl) (by decide)
    · obtain ⟨rfl, _⟩ := List.cons.inj e
      exact absurd hc (by decide)
  have hs : ∀ t, ds ++ r ≠ '.' :: t := by
    intro t e
    cases ds with
    | nil => exact hd.1 rfl
    | cons d ds =>
      obtain ⟨rfl, _⟩ := List.cons.inj e
      exact (digit_facts (hd.2 _ List.mem_cons_self)).2.2.1 rfl
  rw [lexPoint]
  split
  · rename_i ip t h
    rw [lexDigits_stop hd hdig] at h
    have := congrArg Prod.snd (Option.some.inj h)
    exact absurd this (hdot t)
  · rfl
  · exact hs

theorem lexPoint_spec {ip fp r : Str} (hd : ∀ c ∈ ip ++ fp, c.isDigit = true) (hne : ip ++ fp ≠ []) (hr : Stops Char.isDigit r) :
    lexPoint (ip ++ '.' :: fp ++ r) = some (ip, fp, r) := by
  have hfp : ∀ c ∈ fp, c.isDigit = true := fun c hc => hd c (by simp [hc])
  obtain ⟨h1, h2⟩ := takeWhile_stop hfp hr
  have hdot : Stops Char.isDigit ('.' :: (fp ++ r)) := by
    intro c t e
    obtain ⟨rfl, _⟩ := List.cons.inj e
    rfl
  rw [show ip ++ '.' :: fp ++ r = ip ++ '.' :: (fp ++ r) by simp]
  by_cases hip : ip = []
  · subst hip
    have hfd : Digits fp := ⟨by simpa using hne, hfp⟩
    simp only [List.nil_append, lexPoint, lexDigits_none hdot, lexDigits_stop hfd hr, Option.map_some]
  · have hid : Digits ip := ⟨hip, fun c hc => hd c (by simp [hc])⟩
    simp only [lexPoint, lexDigits_stop hid hdot, h1, h2]

theorem unsigned_point {ip fp r : Str} (hd : ∀ c ∈ ip ++ fp, c.isDigit = true) : Unsigned (ip ++ '.' :: fp ++ r) := by
  cases ip with
  | nil =>
    intro c t e
    obtain ⟨rfl, _⟩ := List.cons.inj e
    rfl
  | cons d ip =>
    intro c t e
    obtain ⟨rfl, _⟩ := List.cons.inj e
    obtain ⟨h1, h2, _⟩ := digit_facts (hd d (by simp))
    simp [h1, h2]

theorem decVal_eq {s : Str} {z : ℤ} (h : (if (lexSign s).1 then (-1 : ℤ) else 1) = z) (ip fp : Str) (e : ℤ) :
    decVal (lexSign s).1 ip fp e = z * decimal (ip ++ fp) * (10 : ℚ) ^ (e - (fp.length : ℤ)) := by
  rw [decVal, digitsVal_eq, ← h]
  split_ifs <;> simp

/-- The item that a word with a value is read as. -/
theorem lexItem_spec {txt : Char → Bool} {w r : Str} {v : FVal} (h : Stands txt w v) (hr : Stops isInner r) (ht : Stops txt r) : lexItem txt (w ++ r) = some (v, r) := by
  have hrd := hr.digit
  cases h with
  | int sg ds z hs hd =>
    have hu := unsigned_digits (r := r) hd
    obtain ⟨h1, h2⟩ := lexSign_spec hs hu
    have hnan : lexNan (sg ++ ds ++ r) = none := by
      refine lexNan_num (by simp [hd.1]) hr ?_
      intro c hc
      rcases List.mem_append.1 hc with hc | hc
      · exact sign_num hs c hc
      · exact digit_num (hd.2 c hc)
    rw [lexItem, hnan]
    rw [List.append_assoc]
    have hf : lexFloat (sg ++ (ds ++ r)) = none := by rw [lexFloat, h1, lexPoint_none hd (.inl hr)]; rfl
    have hm : lexMixed (sg ++ (ds ++ r)) = none := by
      cases hs with
      | none =>
        simp only [lexMixed, List.nil_append, lexDigits_stop hd hrd]
        cases r with
        | nil => rfl
        | cons c t => simp [lexExp, hr.expc c t rfl]
      | plus =>
        have : lexDigits (['+'] ++ (ds ++ r)) = none := lexDigits_none (by intro c t e; obtain ⟨rfl, _⟩ := List.cons.inj e; rfl)
        rw [lexMixed, this]
      | minus =>
        have : lexDigits (['-'] ++ (ds ++ r)) = none := lexDigits_none (by intro c t e; obtain ⟨rfl, _⟩ := List.cons.inj e; rfl)
        rw [lexMixed, this]
    have hi : lexInt (sg ++ (ds ++ r)) = some (.int (z * decimal ds), r) := by
      rw [lexInt, h1, lexDigits_stop hd hrd, Option.map_some, digitsVal_eq, ← h2]
      split_ifs <;> simp
    rw [hf, hm, hi]
    rfl
  | point sg ip fp z hs hd hne =>
    obtain ⟨h1, h2⟩ := lexSign_spec hs (unsigned_point (r := r) hd)
    have hnan : lexNan (sg ++ (ip ++ '.' :: fp) ++ r) = none := by
      refine lexNan_num (by simp) hr ?_
      intro c hc
      simp only [List.mem_append, List.mem_cons] at hc
      rcases hc with hc | hc | rfl | hc
      · exact sign_num hs c hc
      · exact digit_num (hd c (by simp [hc]))
      · rfl
      · exact digit_num (hd c (by simp [hc]))
    rw [lexItem, hnan]
    have hf : lexFloat (sg ++ (ip ++ '.' :: fp) ++ r) = some (.flt (z * decimal (ip ++ fp) * (10 : ℚ) ^ (-(fp.length : ℤ))), r) := by
      rw [List.append_assoc, lexFloat, h1, lexPoint_spec hd hne hrd, Option.map_some]
      simp only [optExp_none hr.expc, decVal_eq h2]
      simp
    rw [hf]
    rfl
  | pointExp sg ip fp ex z e hs hd hne he =>
    obtain ⟨h1, h2⟩ := lexSign_spec hs (unsigned_point (r := ex ++ r) hd)
    have hexd : Stops Char.isDigit (ex ++ r) := by
      cases he with
      | mk c sg' ds z' hc hs' hd' =>
        intro c' t' e'
        obtain ⟨rfl, _⟩ := List.cons.inj e'
        simp only [List.mem_cons, List.not_mem_nil, or_false] at hc
        rcases hc with rfl | rfl | rfl | rfl <;> rfl
    have hnan : lexNan (sg ++ (ip ++ '.' :: fp) ++ ex ++ r) = none := by
      refine lexNan_num (by simp) hr ?_
      intro c hc
      simp only [List.mem_append, List.mem_cons] at hc
      rcases hc with (hc | hc | rfl | hc) | hc
      · exact sign_num hs c hc
      · exact digit_num (hd c (by simp [hc]))
      · rfl
      · exact digit_num (hd c (by simp [hc]))
      · exact exponent_num he c hc
    rw [lexItem, hnan]
    have hf : lexFloat (sg ++ (ip ++ '.' :: fp) ++ ex ++ r) = some (.flt (z * decimal (ip ++ fp) * (10 : ℚ) ^ (e - (fp.length : ℤ))), r) := by
      rw [show sg ++ (ip ++ '.' :: fp) ++ ex ++ r = sg ++ (ip ++ '.' :: fp ++ (ex ++ r)) by simp, lexFloat, h1, lexPoint_spec hd hne hexd, Option.map_some]
      simp only [optExp_spec he hrd, decVal_eq h2]
    rw [hf]
    rfl
  | exp ip ex e hd he =>
    have hec : ∃ c t, ex ++ r = c :: t ∧ isExpChar c = true := by
      cases he with
      | mk c sg' ds z' hc hs' hd' =>
        refine ⟨c, _, rfl, ?_⟩
        simp only [List.mem_cons, List.not_mem_nil, or_false] at hc
        rcases hc with rfl | rfl | rfl | rfl <;> rfl
    have hexd : Stops Char.isDigit (ex ++ r) := by
      obtain ⟨c, t, e1, e2⟩ := hec
      intro c' t' e'
      rw [e1] at e'
      obtain ⟨rfl, _⟩ := List.cons.inj e'
      by_contra hh
      rw [(digit_facts (by simpa using hh)).2.2.2] at e2
      cases e2
    have hnan : lexNan (ip ++ ex ++ r) = none := by
      refine lexNan_num (by simp [hd.1]) hr ?_
      intro c hc
      rcases List.mem_append.1 hc with hc | hc
      · exact digit_num (hd.2 c hc)
      · exact exponent_num he c hc
    rw [lexItem, hnan, List.append_assoc]
    have hsg := lexSign_spec Sign.none (unsigned_digits (r := ex ++ r) hd)
    rw [List.nil_append] at hsg
    have hf : lexFloat (ip ++ (ex ++ r)) = none := by rw [lexFloat, hsg.1, lexPoint_none hd (.inr hec)]; rfl
    have hm : lexMixed (ip ++ (ex ++ r)) = some (.flt (decimal ip * (10 : ℚ) ^ e), r) := by
      simp only [lexMixed, lexDigits_stop hd hexd, lexExp_spec he hrd, Option.map_some]
      simp [decVal, digitsVal_eq]
    rw [hf, hm]
    rfl
  | inf =>
    have : lexNan ("Inf".toList ++ r) = some (.inf, r) := by
      rw [lexNan, lexOneOf_some (by simp +contextual) (by decide) hr (by decide +kernel)]
    rw [lexItem, this]
    rfl
  | nan _ hw =>
    have e1 : ∀ s ∈ nanSpellings, s ≠ [] ∧ (∀ x ∈ infWords, ¬ x <+: s) ∧ (nanWords.find? fun x => x.isPrefixOf s) = some s := by decide +kernel
    obtain ⟨h1, h2, h3⟩ := e1 w hw
    have : lexNan (w ++ r) = some (.nan, r) := by
      rw [lexNan, lexOneOf_none (by simp +contextual) h1 hr h2]
      simp only [lexOneOf_some (words := nanWords) (by simp +contextual) h1 hr h3, Option.map_some]
    rw [lexItem, this]
    rfl
  | text _ hw hall hnum hsp =>
    have hnan : lexNan (w ++ r) = none := by
      refine lexNan_none hw hr fun s hs => hsp s ?_
      have : ∀ s ∈ infWords ++ nanWords, s ∈ "Inf".toList :: "-Inf".toList :: nanSpellings := by decide +kernel
      exact this s hs
    -- no number begins here
    have key : ∀ sg z rest, Sign sg z → w ++ r = sg ++ rest → Stops Char.isDigit rest ∧ ∀ t, rest = '.' :: t → Stops Char.isDigit t := by
      intro sg z rest hsg he
      have hsplit : ∃ rest', w = sg ++ rest' ∧ rest = rest' ++ r := by
        cases hsg with
        | none => exact ⟨w, rfl, by simpa using he.symm⟩
        | plus =>
          cases w with
          | nil => exact absurd rfl hw
          | cons x w => obtain ⟨rfl, h2⟩ := List.cons.inj he; exact ⟨w, rfl, h2.symm⟩
        | minus =>
          cases w with
          | nil => exact absurd rfl hw
          | cons x w => obtain ⟨rfl, h2⟩ := List.cons.inj he; exact ⟨w, rfl, h2.symm⟩
      obtain ⟨rest', hw', rfl⟩ := hsplit
      constructor
      · intro c t e
        cases rest' with
        | nil => exact hrd c t e
        | cons d rest' =>
          obtain ⟨rfl, _⟩ := List.cons.inj e
          by_contra hh
          exact hnum ⟨sg, z, _, hsg, hw', d, rest', by simpa using hh, .inl rfl⟩
      · intro t e c t' e'
        cases rest' with
        | nil => exact absurd (hr '.' t e) (by decide)
        | cons d rest' =>
          obtain ⟨rfl, e2⟩ := List.cons.inj e
          cases rest' with
          | nil =>
            rw [e'] at e2
            exact hrd c t' e2
          | cons d2 rest2 =>
            rw [e'] at e2
            obtain ⟨rfl, _⟩ := List.cons.inj e2
            by_contra hh
            exact hnum ⟨sg, z, _, hsg, hw', d2, rest2, by simpa using hh, .inr rfl⟩
    obtain ⟨sg, z, hsg, hsp2⟩ : ∃ sg z, Sign sg z ∧ w ++ r = sg ++ (lexSign (w ++ r)).2 := by
      rw [lexSign.eq_def]
      split
      · rename_i s heq
        exact ⟨_, _, .plus, by simp [heq]⟩
      · rename_i s heq
        exact ⟨_, _, .minus, by simp [heq]⟩
      · exact ⟨_, _, .none, by simp⟩
    obtain ⟨k1, k2⟩ := key sg z _ hsg hsp2
    have hf : lexFloat (w ++ r) = none := by
      have : lexPoint (lexSign (w ++ r)).2 = none := by
        generalize hu : (lexSign (w ++ r)).2 = u at k1 k2
        simp only [lexPoint, lexDigits_none k1]
        split
        · rename_i t
          rw [lexDigits_none (k2 t rfl)]
          rfl
        · rfl
      rw [lexFloat, this]; rfl
    have hi : lexInt (w ++ r) = none := by rw [lexInt, lexDigits_none k1]; rfl
    have hm : lexMixed (w ++ r) = none := by
      have := (key [] 1 (w ++ r) .none rfl).1
      rw [lexMixed, lexDigits_none this]
    obtain ⟨t1, t2⟩ := takeWhile_stop hall ht
    have hx : lexText txt (w ++ r) = some (.text w, r) := by rw [lexText, t1, t2, if_neg hw]
    rw [lexItem, hnan, hf, hm, hi, hx]
    rfl

end OpenMDAO
