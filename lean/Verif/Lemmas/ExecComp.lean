import Verif.Spec.ExecComp
import Verif.Props.FileWrap
import Verif.Lemmas.Recorder
import Verif.Lemmas.Connections
import Mathlib.Data.List.Infix
/-! # Helper lemmas for the construction of `ExecComp` -/
namespace OpenMDAO
set_option linter.unusedSectionVars false

theorem eatName_word {c : Char} (s : Str) (h : isWordChar c = true) : eatName (c :: s) = (c :: (eatName s).1, (eatName s).2) := by
  cases s <;> simp [eatName, h]

theorem eatName_stop {c : Char} (s : Str) (h : isWordChar c = false) (hc : c ≠ ':') : eatName (c :: s) = ([], c :: s) := by
  cases s <;> simp [eatName, h, hc]

theorem eatName_piece {d : Char} (s : Str) (h : isWordStart d = true) : eatName (':' :: d :: s) = (':' :: d :: (eatName s).1, (eatName s).2) := by
  have h0 : isWordChar ':' = false := by decide
  simp [eatName, h, h0]

theorem eatName_noPiece {d : Char} (s : Str) (h : isWordStart d = false) : eatName (':' :: d :: s) = ([], ':' :: d :: s) := by
  have h0 : isWordChar ':' = false := by decide
  simp [eatName, h, h0]

theorem eatName_colon : eatName [':'] = ([], [':']) := by decide

theorem eatPieces_word {c : Char} (s : Str) (h : isWordChar c = true) : eatPieces (c :: s) = eatPieces s := by
  cases s <;> simp [eatPieces, h]

theorem eatPieces_stop {c : Char} (s : Str) (h : isWordChar c = false) (hc : c ≠ ':') : eatPieces (c :: s) = c :: s := by
  cases s <;> simp [eatPieces, h, hc]

/-- Induction over a text as the matcher for the rest of a name passes it. -/
theorem nameInduct {P : Str → Prop} (h0 : P []) (hw : ∀ c s, isWordChar c = true → P s → P (c :: s))
    (hs : ∀ c s, isWordChar c = false → c ≠ ':' → P (c :: s)) (h1 : P [':'])
    (hp : ∀ d s, isWordStart d = true → P s → P (':' :: d :: s)) (hn : ∀ d s, isWordStart d = false → P (':' :: d :: s)) : ∀ s, P s := by
  intro s
  induction s using eatName.induct with
  | case1 => exact h0
  | case2 c s hc ih => exact hw c s hc ih
  | case3 c hc hcol => rw [beq_iff_eq] at hcol; subst hcol; exact h1
  | case4 c hc hcol d s hd ih => rw [beq_iff_eq] at hcol; subst hcol; exact hp d s hd ih
  | case5 c hc hcol d s hd => rw [beq_iff_eq] at hcol; subst hcol; exact hn d s (by simpa using hd)
  | case6 c s hc hcol => exact hs c s (by simpa using hc) (by simpa using hcol)

theorem eatName_length (s : Str) : (eatName s).2.length ≤ s.length := by
  induction s using nameInduct with
  | h0 => simp [eatName]
  | hw c s h ih => rw [eatName_word s h]; simp; omega
  | hs c s h hc => rw [eatName_stop s h hc]
  | h1 => rw [eatName_colon]
  | hp d s h ih => rw [eatName_piece s h]; simp; omega
  | hn d s h => rw [eatName_noPiece s h]

theorem eatParen_length (s : Str) : (eatParen s).2.length ≤ s.length := by
  unfold eatParen; split <;> simp

theorem dropWhile_length (p : Char → Bool) (s : Str) : (s.dropWhile p).length ≤ s.length := (List.dropWhile_suffix p).length_le

/-- The number of steps does not matter once it reaches the length of the text. -/
theorem findNames_fuel (n m : Nat) (s : Str) (hn : s.length ≤ n) (hm : s.length ≤ m) : findNames n s = findNames m s := by
  induction n generalizing m s with
  | zero =>
    have : s = [] := List.length_eq_zero_iff.mp (by omega)
    subst this; cases m <;> rfl
  | succ n ih =>
    cases s with
    | nil => cases m <;> rfl
    | cons c s =>
      cases m with
      | zero => simp at hm
      | succ m =>
        simp only [List.length_cons] at hn hm
        simp only [findNames]
        have h1 := eatName_length s
        have h2 := dropWhile_length (· == ' ') (eatName s).2
        have h3 := eatParen_length ((eatName s).2.dropWhile (· == ' '))
        rw [ih m s (by omega) (by omega), ih m (eatParen ((eatName s).2.dropWhile (· == ' '))).2 (by omega) (by omega)]

/-- All matches. -/
def scanNames (s : Str) : List (Str × Bool) := findNames s.length s

theorem scan_nil : scanNames [] = [] := rfl

theorem scan_other {c : Char} (s : Str) (h : isWordStart c = false) : scanNames (c :: s) = scanNames s := by
  simp [scanNames, findNames, h]

theorem scan_blanks (s : Str) : scanNames (s.dropWhile (· == ' ')) = scanNames s := by
  induction s with
  | nil => rfl
  | cons c s ih =>
    by_cases h : c = ' '
    · subst h
      rw [List.dropWhile_cons_of_pos (by decide), ih, scan_other s (by decide)]
    · rw [List.dropWhile_cons_of_neg (by simpa using h)]

theorem scan_paren (s : Str) : scanNames (eatParen s).2 = scanNames s := by
  unfold eatParen; split
  · rw [scan_other _ (by decide)]
  · rfl

theorem scan_start {c : Char} (s : Str) (h : isWordStart c = true) :
    scanNames (c :: s) = (c :: (eatName s).1, (eatParen ((eatName s).2.dropWhile (· == ' '))).1) :: scanNames (eatName s).2 := by
  have h1 := eatName_length s
  have h2 := dropWhile_length (· == ' ') (eatName s).2
  have h3 := eatParen_length ((eatName s).2.dropWhile (· == ' '))
  rw [← scan_blanks (eatName s).2, ← scan_paren ((eatName s).2.dropWhile _)]
  simp only [scanNames, List.length_cons, findNames, h, if_true]
  rw [findNames_fuel s.length _ _ (by omega) (Nat.le_refl _)]

/-- What follows cannot be added to a name. -/
def NameEnds : Str → Prop
  | [] => True
  | c :: s => isWordChar c = false ∧ (c = ':' → match s with
      | [] => True
      | d :: _ => isWordStart d = false)

theorem wordChar_of_start {c : Char} (h : isWordStart c = true) : isWordChar c = true := by simp [isWordChar, h]

theorem start_of_wordChar {c : Char} (h : isWordChar c = false) : isWordStart c = false := by
  cases hs : isWordStart c
  · rfl
  · rw [wordChar_of_start hs] at h; cases h

theorem eatName_ends (rest : Str) (h : NameEnds rest) : eatName rest = ([], rest) := by
  cases rest with
  | nil => rfl
  | cons c s =>
    obtain ⟨h1, h2⟩ := h
    unfold eatName
    by_cases hc : c = ':'
    · have h3 := h2 hc
      subst hc
      cases s with
      | nil => simp [h1]
      | cons d s => simp only at h3; simp [h1, h3]
    · simp [h1, hc]

/-- A name that may not be lengthened is matched whole. -/
theorem eatName_append (n rest : Str) (hn : eatPieces n = []) (h : NameEnds rest) : eatName (n ++ rest) = (n, rest) := by
  induction n using nameInduct with
  | h0 => exact eatName_ends rest h
  | hw c s hw ih =>
    rw [eatPieces_word s hw] at hn
    rw [List.cons_append, eatName_word _ hw, ih hn]
  | hs c s h hc => rw [eatPieces_stop s h hc] at hn; cases hn
  | h1 => simp [eatPieces, isWordChar, isWordStart] at hn
  | hp d s hd ih =>
    have : eatPieces s = [] := by
      have h0 : isWordChar ':' = false := by decide
      simpa [eatPieces, h0, hd] using hn
    rw [List.cons_append, List.cons_append, eatName_piece _ hd, ih this]
  | hn d s hd =>
    have h0 : isWordChar ':' = false := by decide
    simp [eatPieces, h0, hd] at hn

theorem digit_not_start {c : Char} (h : c.isDigit = true) : isWordStart c = false := by
  simp only [Char.isDigit, Bool.and_eq_true, decide_eq_true_eq] at h
  have h1 : 48 ≤ c.toNat := h.1
  have h2 : c.toNat ≤ 57 := h.2
  cases hs : isWordStart c
  · rfl
  · exfalso
    simp only [isWordStart, Bool.or_eq_true, beq_iff_eq, Bool.and_eq_true, decide_eq_true_eq] at hs
    rcases hs with (hs | hs) | hs
    · subst hs; simp at h2
    · have : 97 ≤ c.toNat := hs.1
      omega
    · have : 65 ≤ c.toNat := hs.1
      omega

theorem numChar_not_start {c : Char} (h : c.isDigit = true ∨ c = '.') : isWordStart c = false := by
  rcases h with h | h
  · exact digit_not_start h
  · subst h; decide

theorem scan_num (ds rest : Str) (h : ∀ c ∈ ds, c.isDigit = true ∨ c = '.') : scanNames (ds ++ rest) = scanNames rest := by
  induction ds with
  | nil => rfl
  | cons c ds ih =>
    rw [List.cons_append, scan_other _ (numChar_not_start (h c (by simp))), ih (fun c hc => h c (by simp [hc]))]

theorem tokens_ends {n : Str} {ts : List ETok} (h : Tokens (.name n :: ts)) : NameEnds (tokText ts) := by
  cases ts with
  | nil => trivial
  | cons t ts =>
    obtain ⟨-, h2, h3⟩ := h
    cases t with
    | name m => exact h2.elim
    | num ds => exact h2.elim
    | sym c =>
      refine ⟨h3.1, fun hc => ?_⟩
      have h2 := h2.resolve_left (fun h => h hc)
      cases ts with
      | nil => trivial
      | cons t ts =>
        cases t with
        | name m => exact h2.elim
        | num ds =>
          cases ds with
          | nil => exact absurd rfl h3.2.1
          | cons d ds => exact numChar_not_start (h3.2.2.1 d (by simp))
        | sym d => exact start_of_wordChar h3.2.1

/-- The names of a statement with the mark whether they are called. -/
def markedNames : List ETok → List (Str × Bool)
  | [] => []
  | .name n :: ts => (n, callNext ts) :: markedNames ts
  | _ :: ts => markedNames ts

theorem paren_call (ts : List ETok) (h : Tokens ts) : (eatParen ((tokText ts).dropWhile (· == ' '))).1 = callNext ts := by
  induction ts with
  | nil => rfl
  | cons t ts ih =>
    cases t with
    | name n =>
      obtain ⟨h1, -, -⟩ := h
      cases n with
      | nil => simp [varNameOk] at h1
      | cons c n =>
        simp only [varNameOk, Bool.and_eq_true] at h1
        have hc : c ≠ ' ' := by intro hc; subst hc; exact absurd h1.1 (by decide)
        have hp : c ≠ '(' := by intro hc; subst hc; exact absurd h1.1 (by decide)
        simp only [tokText, List.flatMap_cons, ETok.text, List.cons_append, callNext]
        rw [List.dropWhile_cons_of_neg (by simpa using hc)]
        unfold eatParen
        split
        · rename_i heq; simp only [List.cons.injEq] at heq; exact absurd heq.1 hp
        · rfl
    | num ds =>
      obtain ⟨h0, h1, -, -⟩ := h
      cases ds with
      | nil => exact absurd rfl h0
      | cons c n =>
        have h1 := h1 c (by simp)
        have hc : c ≠ ' ' := by intro hc; subst hc; exact absurd h1 (by decide)
        have hp : c ≠ '(' := by intro hc; subst hc; exact absurd h1 (by decide)
        simp only [tokText, List.flatMap_cons, ETok.text, List.cons_append, callNext]
        rw [List.dropWhile_cons_of_neg (by simpa using hc)]
        unfold eatParen
        split
        · rename_i heq; simp only [List.cons.injEq] at heq; exact absurd heq.1 hp
        · rfl
    | sym c =>
      simp only [tokText, List.flatMap_cons, ETok.text, List.cons_append, List.nil_append, callNext]
      by_cases hc : c = ' '
      · subst hc
        rw [List.dropWhile_cons_of_pos (by decide)]
        simpa [tokText] using ih h.2
      · rw [List.dropWhile_cons_of_neg (by simpa using hc), if_neg hc]
        unfold eatParen
        split
        · rename_i heq; simp only [List.cons.injEq] at heq; simp [heq.1]
        · rename_i hne
          symm; rw [decide_eq_false_iff_not]
          intro hp; subst hp; exact hne _ rfl

/-- The regular expression finds exactly the names. -/
theorem scan_tokens (ts : List ETok) (h : Tokens ts) : scanNames (tokText ts) = markedNames ts := by
  induction ts with
  | nil => rfl
  | cons t ts ih =>
    cases t with
    | name n =>
      have he := tokens_ends h
      obtain ⟨h1, -, h3⟩ := h
      cases n with
      | nil => simp [varNameOk] at h1
      | cons c n =>
        simp only [varNameOk, Bool.and_eq_true, List.isEmpty_iff] at h1
        have hap := eatName_append n (tokText ts) h1.2 he
        show scanNames (c :: n ++ tokText ts) = _
        rw [List.cons_append, scan_start _ h1.1, hap]
        simp only [markedNames]
        rw [paren_call ts h3, ih h3]
    | num ds =>
      show scanNames (ds ++ tokText ts) = _
      rw [scan_num ds _ h.2.1, ih h.2.2.2]; rfl
    | sym c =>
      show scanNames (c :: tokText ts) = _
      rw [scan_other _ (start_of_wordChar h.1), ih h.2]; rfl

theorem mem_markedNames (ts : List ETok) (x : Str) : (x, false) ∈ markedNames ts ↔ x ∈ varNames ts := by
  induction ts with
  | nil => simp [markedNames, varNames]
  | cons t ts ih =>
    cases t with
    | name n =>
      simp only [markedNames, varNames, List.mem_cons, Prod.mk.injEq, ih]
      cases callNext ts <;> simp
    | num ds => simpa [markedNames, varNames] using ih
    | sym c => simpa [markedNames, varNames] using ih

end OpenMDAO
