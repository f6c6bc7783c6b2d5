import Verif.Lemmas.FileParse
/-!
# Properties of `FileParser`
-/
namespace OpenMDAO
set_option linter.unusedSectionVars false

/-! ## Fields of a line -/

theorem good_txt {delim : Str} (hg : GoodDelims delim) {c : Char} (h : c ∈ delim) : isInner c = false ∧ textChars delim c = false := by
  obtain ⟨h1, h2⟩ := hg c h
  simp only [List.mem_cons, List.not_mem_nil, or_false, not_or] at h2
  refine ⟨by simp [isInner, h1, h2], ?_⟩
  rw [textChars]
  split_ifs with hw
  · have := List.all_eq_true.1 hw.2 c h
    simp only [Char.isWhitespace, Bool.or_eq_true, decide_eq_true_eq] at this
    rcases this with ((rfl | rfl) | rfl) | rfl <;> decide
  · simp [h1, h]

theorem newline_txt (delim : Str) : isInner '\n' = false ∧ textChars delim '\n' = false := by
  refine ⟨by decide, ?_⟩
  rw [textChars]
  split_ifs
  · decide
  · have h1 : Char.isAlphanum '\n' = false := by decide
    have h2 : textSymbols.contains '\n' = false := by decide +kernel
    simp only [h1, h2, Bool.false_and, Bool.or_false]

theorem lexItem_newline (delim : Str) : lexItem (textChars delim) [] = none ∧ lexItem (textChars delim) ['\n'] = none := by
  have h := (newline_txt delim).2
  constructor
  · rfl
  · have : lexText (textChars delim) ['\n'] = none := by simp [lexText, h]
    rw [lexItem, this]
    rfl

theorem dropWhile_all_nil (p : Char → Bool) : ∀ l : Str, (∀ c ∈ l, p c = true) → l.dropWhile p = []
  | [], _ => rfl
  | c :: l, h => by
    rw [List.dropWhile_cons, if_pos (h c List.mem_cons_self)]
    exact dropWhile_all_nil p l fun x hx => h x (List.mem_cons_of_mem _ hx)

theorem lexItems_fields {delim : Str} (hg : GoodDelims delim) {e : Str} (he : LineEnd e) : ∀ (fs : List (Str × Str)) (vals : List FVal) (n : Nat) (d : Str),
    Delims (fun c => delim.contains c) d → IsFields (fun c => delim.contains c) fs → List.Forall₂ (fun f v => Stands (textChars delim) f.1 v) fs vals → fs.length ≤ n →
    lexItems (fun c => delim.contains c) (textChars delim) n (d ++ (renderF fs ++ e)) = vals
  | [], vals, n, d, hd, _, hv, _ => by
    cases hv
    cases n with
    | zero => rfl
    | succ n =>
      rw [lexItems]
      have : lexItem (textChars delim) ((d ++ (renderF [] ++ e)).dropWhile fun c => delim.contains c) = none := by
        simp only [renderF, List.nil_append]
        by_cases hn : delim.contains '\n' = true
        · have : (d ++ e).dropWhile (fun c => delim.contains c) = [] := by
            refine dropWhile_all_nil _ (d ++ e) ?_
            intro c hc
            rcases List.mem_append.1 hc with hc | hc
            · exact hd c hc
            · rcases he with rfl | rfl
              · simp at hc
              · simp only [List.mem_singleton] at hc; subst hc; exact hn
          rw [this]; exact (lexItem_newline delim).1
        · have := (takeWhile_delims (rest := e) hd (by
            rintro c cs rfl
            rcases he with h | h
            · cases h
            · obtain ⟨rfl, _⟩ := List.cons.inj h; simpa using hn)).2
          rw [this]
          rcases he with rfl | rfl
          · exact (lexItem_newline delim).1
          · exact (lexItem_newline delim).2
      rw [this]
  | f :: fs, vals, 0, d, _, _, _, hn => absurd hn (by simp)
  | f :: fs, vals, n + 1, d, hd, hf, hv, hn => by
    cases hv with
    | cons h1 h2 =>
      rename_i v vs
      have hskip : (d ++ (renderF (f :: fs) ++ e)).dropWhile (fun c => delim.contains c) = renderF (f :: fs) ++ e := by
        refine (takeWhile_delims hd ?_).2
        intro c cs hc
        obtain ⟨hw, hw2⟩ := hf.1
        cases hfw : f.1 with
        | nil => exact absurd hfw hw
        | cons x xs =>
          rw [renderF, hfw] at hc
          obtain ⟨rfl, _⟩ := List.cons.inj hc
          exact hw2 x (by simp [hfw])
      have hstop : ∀ (p : Char → Bool), (∀ c ∈ delim, p c = false) → p '\n' = false → Stops p (f.2 ++ (renderF fs ++ e)) := by
        intro p hp hpn c t hc
        cases hf2 : f.2 with
        | cons x xs =>
          rw [hf2] at hc
          obtain ⟨rfl, _⟩ := List.cons.inj hc
          have := hf.2.1 x (by simp [hf2])
          exact hp x (by simpa using this)
        | nil =>
          have hfs : fs = [] := by
            by_contra hh
            exact hf.2.2.1 hh hf2
          subst hfs
          rw [hf2] at hc
          rcases he with rfl | rfl
          · cases hc
          · obtain ⟨rfl, _⟩ := List.cons.inj hc; exact hpn
      have hitem := lexItem_spec h1 (hstop isInner (fun c hc => (good_txt hg hc).1) (newline_txt delim).1)
        (hstop (textChars delim) (fun c hc => (good_txt hg hc).2) (newline_txt delim).2)
      rw [lexItems, hskip, show renderF (f :: fs) ++ e = f.1 ++ (f.2 ++ (renderF fs ++ e)) by simp [renderF], hitem]
      have ih := lexItems_fields hg he fs vs n f.2 hf.2.1 hf.2.2.2 h2 (by simpa using hn)
      simp only [ih]

/-! ## Tabs -/

theorem expandTabs_free : ∀ (s : Str) (col : Nat), '\t' ∉ s → expandTabs col s = s
  | [], _, _ => rfl
  | c :: s, col, h => by
    have hc : c ≠ '\t' := fun e => h (by simp [e])
    rw [expandTabs, if_neg hc, expandTabs_free s _ (fun e => h (List.mem_cons_of_mem _ e))]

/-- The column behind a text. -/
def tabCol (col : Nat) : Str → Nat
  | [] => col
  | c :: s => tabCol (if c = '\t' then 0 else if c = '\n' ∨ c = '\r' then 0 else (col + 1) % 8) s

theorem expandTabs_append : ∀ (s t : Str) (col : Nat), expandTabs col (s ++ t) = expandTabs col s ++ expandTabs (tabCol col s) t
  | [], _, _ => rfl
  | c :: s, t, col => by
    simp only [List.cons_append, expandTabs, tabCol]
    by_cases hc : c = '\t'
    · simp [hc, expandTabs_append s t]
    · simp [hc, expandTabs_append s t]

theorem tabCol_lt : ∀ (s : Str) (col : Nat), col < 8 → tabCol col s < 8
  | [], _, h => h
  | c :: s, col, h => by
    rw [tabCol]
    apply tabCol_lt
    split_ifs <;> omega

theorem expandTabs_delims {isD : Char → Bool} (hb : isD ' ' = true) : ∀ (d : Str) (col : Nat), col < 8 → Delims isD d → Delims isD (expandTabs col d) ∧ (d ≠ [] → expandTabs col d ≠ [])
  | [], _, _, _ => ⟨fun _ h => by simp [expandTabs] at h, by simp⟩
  | c :: d, col, hcol, hd => by
    rw [expandTabs]
    by_cases hc : c = '\t'
    · rw [if_pos hc]
      have ih := expandTabs_delims hb d 0 (by omega) (fun x hx => hd x (List.mem_cons_of_mem _ hx))
      refine ⟨?_, fun _ => ?_⟩
      · intro x hx
        rcases List.mem_append.1 hx with hx | hx
        · rw [(List.mem_replicate.1 hx).2]; exact hb
        · exact ih.1 x hx
      · have : (List.replicate (8 - col) ' ') ≠ [] := by simp; omega
        simp [this]
    · rw [if_neg hc]
      have ih := expandTabs_delims hb d (if c = '\n' ∨ c = '\r' then 0 else (col + 1) % 8) (by split_ifs <;> omega) (fun x hx => hd x (List.mem_cons_of_mem _ hx))
      refine ⟨?_, by simp⟩
      intro x hx
      rcases List.mem_cons.1 hx with rfl | hx
      · exact hd x List.mem_cons_self
      · exact ih.1 x hx

theorem expandTabs_fields {isD : Char → Bool} (hb : isD ' ' = true) (ht : isD '\t' = true) : ∀ (fs : List (Str × Str)) (col : Nat), col < 8 → IsFields isD fs →
    ∃ fs', expandTabs col (renderF fs) = renderF fs' ∧ IsFields isD fs' ∧ fs'.map Prod.fst = fs.map Prod.fst
  | [], _, _, _ => ⟨[], rfl, trivial, rfl⟩
  | f :: fs, col, hcol, hf => by
    have hw : expandTabs col f.1 = f.1 := expandTabs_free f.1 col (fun h => by
      have := hf.1.2 _ h
      rw [ht] at this
      cases this)
    have hc1 := tabCol_lt f.1 col hcol
    have hc2 := tabCol_lt f.2 _ hc1
    obtain ⟨h1, h2⟩ := expandTabs_delims hb f.2 _ hc1 hf.2.1
    obtain ⟨fs', e1, e2, e3⟩ := expandTabs_fields hb ht fs _ hc2 hf.2.2.2
    refine ⟨(f.1, expandTabs (tabCol col f.1) f.2) :: fs', ?_, ⟨hf.1, h1, ?_, e2⟩, by simp [e3]⟩
    · rw [renderF, List.append_assoc, expandTabs_append, expandTabs_append, hw, e1]
      simp [renderF]
    · intro hne
      refine h2 (hf.2.2.1 ?_)
      rintro rfl
      simp at e3
      exact hne e3

theorem expandTabs_layout {delim body d₀ e : Str} {fs : List (Str × Str)} (hl : IsLayout (fun c => delim.contains c) body d₀ fs) (he : LineEnd e) (ht : TabsDelimit delim body) :
    ∃ d₀' fs', expandTabs 0 (body ++ e) = d₀' ++ (renderF fs' ++ e) ∧ Delims (fun c => delim.contains c) d₀' ∧ IsFields (fun c => delim.contains c) fs' ∧ fs'.map Prod.fst = fs.map Prod.fst := by
  have hete : ∀ col, expandTabs col e = e := fun col => expandTabs_free e col (by rcases he with rfl | rfl <;> decide)
  by_cases hm : '\t' ∈ body
  · obtain ⟨h1, h2⟩ := ht hm
    obtain ⟨g1, g2⟩ := expandTabs_delims (isD := fun c => delim.contains c) (by simpa using h2) d₀ 0 (by omega) hl.2.1
    obtain ⟨fs', e1, e2, e3⟩ := expandTabs_fields (isD := fun c => delim.contains c) (by simpa using h2) (by simpa using h1) fs _ (tabCol_lt d₀ 0 (by omega)) hl.2.2
    exact ⟨_, fs', by rw [hl.1, List.append_assoc, expandTabs_append, expandTabs_append, e1, hete], g1, e2, e3⟩
  · refine ⟨d₀, fs, ?_, hl.2.1, hl.2.2, rfl⟩
    rw [expandTabs_append, hete, expandTabs_free body 0 hm, hl.1, List.append_assoc]

theorem fields_length {isD : Char → Bool} : ∀ fs, IsFields isD fs → fs.length ≤ (renderF fs).length
  | [], _ => by simp
  | f :: fs, h => by
    have := fields_length fs h.2.2.2
    have h1 : 0 < f.1.length := List.length_pos_iff.2 h.1.1
    simp only [renderF, List.length_cons, List.length_append]
    omega

theorem forall₂_fst {txt : Char → Bool} : ∀ {fs fs' : List (Str × Str)} {vals : List FVal}, fs'.map Prod.fst = fs.map Prod.fst → List.Forall₂ (fun f v => Stands txt f.1 v) fs vals →
    List.Forall₂ (fun f v => Stands txt f.1 v) fs' vals
  | [], [], _, _, h => h
  | [], _ :: _, _, e, _ => by simp at e
  | _ :: _, [], _, e, _ => by simp at e
  | f :: fs, f' :: fs', _, e, h => by
    cases h with
    | cons h1 h2 =>
      simp only [List.map_cons, List.cons.injEq] at e
      exact .cons (by rw [e.1]; exact h1) (forall₂_fst e.2 h2)

/-- **C117 (a line).** A line of words that are numbers or texts, separated by delimiters that are no parts of such words, is read as the values of the words, one for each and in order. Missing from the full claim: signed numbers with an
exponent and without a point, minus infinity, words that begin as a number or a spelling of nan and are none, and tabs as the only delimiters. All of these are refuted below. -/
theorem C117_fields_partial (delim line : Str) (hg : GoodDelims delim) (vals : List FVal) (h : LineReads delim line vals) : parseLine delim line = .ok vals := by
  obtain ⟨body, e, d₀, fs, rfl, he, hl, ht, hne, hv⟩ := h
  obtain ⟨d', fs', h1, h2, h3, h4⟩ := expandTabs_layout hl he ht
  have hv' := forall₂_fst h4 hv
  have hlen := fields_length fs' h3
  rw [parseLine, h1, lexItems_fields hg he fs' vals _ d' h2 h3 hv' (by simp only [List.length_append]; omega)]
  cases hv with
  | nil => exact absurd rfl hne
  | cons _ _ => rfl

/-- A word has one value at most. -/
theorem stands_unique {txt : Char → Bool} {w : Str} {v v' : FVal} (h : Stands txt w v) (h' : Stands txt w v') : v = v' := by
  have hs : ∀ p, Stops p [] := fun p c t e => by cases e
  have h1 := lexItem_spec h (hs _) (hs _)
  rw [lexItem_spec h' (hs _) (hs _)] at h1
  exact (congrArg Prod.fst (Option.some.inj h1)).symm

theorem pyItem_nat {α : Type} (l : List α) (k : Nat) (j : Int) (hj : j = (k : Int)) : pyItem l j = (match l[k]? with | none => .error (.py .IndexError) | some v => .ok v) := by
  subst hj
  rw [pyItem, rowIdx, if_pos (by omega)]
  by_cases h : k < l.length
  · simp [h]
  · simp [h]

/-- **C117.** `transfer_var(row, field)` returns the value of the word with number `field`, counted from 1, in the line `row` lines from the anchor. A number beyond the last word, and a row beyond the file, raise IndexError. -/
theorem C117_var_partial (delim : Str) (hg : GoodDelims delim) (w : FWrap) (row : Int) (j : Nat) (hj : (j : Int) = w.cur + row) (line : Str) (hline : w.data[j]? = some line) (vals : List FVal)
    (h : LineReads delim line vals) :
    (∀ (k : Nat) (v : FVal), vals[k]? = some v → readVar delim w row (k + 1) = .ok v) ∧ (∀ field : Int, field > vals.length → readVar delim w row field = .error (.py .IndexError)) := by
  have h0 : ∀ field, readVar delim w row field = pyItem vals (field - 1) := by
    intro field
    simp only [readVar, pyItem_nat w.data j _ hj.symm, hline, C117_fields_partial delim line hg vals h]
  refine ⟨?_, ?_⟩
  · intro k v hk
    rw [h0, pyItem_nat vals k _ (by omega), hk]
  · intro field hf
    have : ∃ k : Nat, field - 1 = k := ⟨(field - 1).toNat, by omega⟩
    obtain ⟨k, hk⟩ := this
    rw [h0, pyItem_nat vals k _ hk, List.getElem?_eq_none (by omega)]

theorem C117_no_row (delim : Str) (w : FWrap) (row field : Int) (h : w.data.length ≤ w.cur + row) : readVar delim w row field = .error (.py .IndexError) := by
  obtain ⟨k, hk⟩ : ∃ k : Nat, (w.cur : Int) + row = k := ⟨((w.cur : Int) + row).toNat, by omega⟩
  simp only [readVar, pyItem_nat w.data k _ hk, List.getElem?_eq_none (show w.data.length ≤ k by omega)]

/-- **C117 (blank lines).** A line of delimiters only raises the exception of the parser for every field. -/
theorem C117_blank (delim : Str) (hg : GoodDelims delim) (d e : Str) (hd : ∀ c ∈ d, c ∈ delim) (he : LineEnd e) (ht : TabsDelimit delim d) : parseLine delim (d ++ e) = .error .parse := by
  have hl : IsLayout (fun c => delim.contains c) d d [] := ⟨by simp [renderF], fun c hc => by simpa using hd c hc, trivial⟩
  obtain ⟨d', fs', h1, h2, h3, h4⟩ := expandTabs_layout hl he ht
  obtain rfl : fs' = [] := by simpa using h4
  rw [parseLine, h1, lexItems_fields hg he [] [] _ d' h2 trivial .nil (by simp)]

/-! ## Writing and reading -/

theorem reSub_line {S : Type} (ws : Char → Bool) (rep : S → Str → S × Str) (e : Str) (he : LineEnd e) : ∀ (n : Nat) (body : Str) (s : S), body.length ≤ n → '\n' ∉ body →
    (reSub (fun c => ws c || c = '\n') rep s (body ++ e)).2 = (reSub ws rep s body).2 ++ e
  | _, [], s, _, _ => by
    rcases he with rfl | rfl
    · simp [reSub]
    · simp [reSub]
  | 0, c :: cs, s, h, _ => absurd h (by simp)
  | n + 1, c :: cs, s, h, hn => by
    have hc : c ≠ '\n' := fun x => hn (by simp [x])
    have hcs : '\n' ∉ cs := fun x => hn (List.mem_cons_of_mem _ x)
    have hlen : cs.length ≤ n := by simpa using h
    rw [List.cons_append, reSub, reSub]
    by_cases hw : ws c = true
    · simp only [hw, Bool.true_or, if_true]
      rw [reSub_line ws rep e he n cs s hlen hcs, List.cons_append]
    · have hd : ∀ (l : Str), '\n' ∉ l → (l ++ e).takeWhile (fun x => !(ws x || decide (x = '\n'))) = l.takeWhile (fun x => !ws x) ∧
          (l ++ e).dropWhile (fun x => !(ws x || decide (x = '\n'))) = l.dropWhile (fun x => !ws x) ++ e := by
        intro l hl
        induction l with
        | nil => rcases he with rfl | rfl <;> simp
        | cons x l ih =>
          have hx : x ≠ '\n' := fun y => hl (by simp [y])
          obtain ⟨i1, i2⟩ := ih (fun y => hl (List.mem_cons_of_mem _ y))
          by_cases hwx : ws x = true
          · simp [hwx]
          · have hwx : ws x = false := by simpa using hwx
            simp only [List.cons_append, List.takeWhile_cons, List.dropWhile_cons, hwx, hx, decide_false, Bool.or_false, Bool.not_false, if_true, i1, i2]
            exact ⟨trivial, trivial⟩
      have hwf : ws c = false := by simpa using hw
      have h1 : (ws c || decide (c = '\n')) = false := by simp [hwf, hc]
      simp only [hwf, hc, decide_false, Bool.or_false, Bool.false_eq_true, if_false]
      have ht := (hd (c :: cs) hn).1
      rw [List.cons_append] at ht
      rw [ht, (hd cs hcs).2]
      have hsub : (cs.dropWhile fun x => !ws x).length ≤ n := le_trans (List.dropWhile_suffix _).length_le hlen
      have hnn : '\n' ∉ cs.dropWhile fun x => !ws x := fun x => hcs ((List.dropWhile_suffix _).subset x)
      rw [reSub_line ws rep e he n _ _ hsub hnn, List.append_assoc]

theorem mem_renderF {c : Char} : ∀ {fs : List (Str × Str)}, c ∈ renderF fs ↔ ∃ f ∈ fs, c ∈ f.1 ∨ c ∈ f.2
  | [] => by simp [renderF]
  | f :: fs => by simp only [renderF, List.mem_append, mem_renderF (fs := fs), List.mem_cons, exists_eq_or_imp, or_assoc]

theorem stands_ne {txt : Char → Bool} {w : Str} {v : FVal} (h : Stands txt w v) : w ≠ [] := by
  cases h with
  | int sg ds z hs hd => simp [hd.1]
  | point => simp
  | pointExp => simp
  | exp ip ex e hd he => simp [hd.1]
  | inf => decide
  | nan _ hw => rintro rfl; revert hw; decide +kernel
  | text _ hw => exact hw

theorem stands_chars {txt : Char → Bool} {w : Str} {v : FVal} (h : Stands txt w v) : ∀ c ∈ w, isNumChar c = true ∨ isInner c = true ∨ txt c = true := by
  cases h with
  | int sg ds z hs hd =>
    intro c hc
    rcases List.mem_append.1 hc with hc | hc
    · exact .inl (sign_num hs c hc)
    · exact .inl (digit_num (hd.2 c hc))
  | point sg ip fp z hs hd =>
    intro c hc
    simp only [List.mem_append, List.mem_cons] at hc
    rcases hc with hc | hc | rfl | hc
    · exact .inl (sign_num hs c hc)
    · exact .inl (digit_num (hd c (by simp [hc])))
    · exact .inl rfl
    · exact .inl (digit_num (hd c (by simp [hc])))
  | pointExp sg ip fp ex z e hs hd _ he =>
    intro c hc
    simp only [List.mem_append, List.mem_cons] at hc
    rcases hc with (hc | hc | rfl | hc) | hc
    · exact .inl (sign_num hs c hc)
    · exact .inl (digit_num (hd c (by simp [hc])))
    · exact .inl rfl
    · exact .inl (digit_num (hd c (by simp [hc])))
    · exact .inl (exponent_num he c hc)
  | exp ip ex e hd he =>
    intro c hc
    rcases List.mem_append.1 hc with hc | hc
    · exact .inl (digit_num (hd.2 c hc))
    · exact .inl (exponent_num he c hc)
  | inf =>
    have : ∀ c ∈ "Inf".toList, isInner c = true := by decide +kernel
    exact fun c hc => .inr (.inl (this c hc))
  | nan _ hw =>
    have : ∀ s ∈ nanSpellings, ∀ c ∈ s, isNumChar c = true ∨ isInner c = true := by decide +kernel
    intro c hc
    rcases this w hw c hc with h | h
    · exact .inl h
    · exact .inr (.inl h)
  | text _ _ hall => exact fun c hc => .inr (.inr (hall c hc))

theorem stands_tab {delim w : Str} {v : FVal} (h : Stands (textChars delim) w v) : '\t' ∉ w := by
  intro hm
  rcases stands_chars h _ hm with h | h | h
  · exact absurd h (by decide)
  · exact absurd h (by decide)
  · revert h
    rw [textChars]
    split_ifs
    · decide
    · have h1 : Char.isAlphanum '\t' = false := by decide
      have h2 : textSymbols.contains '\t' = false := by decide +kernel
      simp only [h1, h2, Bool.false_and, Bool.or_false, Bool.false_eq_true, imp_self]

/-- **C117 (written and read back).** `InputFileGenerator.transfer_var` writes a text without delimiters that stands for `v` into a line whose words have values. `FileParser.transfer_var` with the same delimiters then returns `v` for that field, and the
old values for all others. The delimiters of the writer contain the line feed. -/
theorem C117_round_trip_partial (delim : Str) (hg : GoodDelims delim) (w : FWrap) (row : Int) (j : Nat) (hj : (j : Int) = w.cur + row) (body e : Str) (he : LineEnd e) (hnl : '\n' ∉ body)
    (hline : w.data[j]? = some (body ++ e)) (d₀ : Str) (fs : List (Str × Str)) (hl : IsLayout (fun c => delim.contains c) body d₀ fs) (ht : TabsDelimit delim body)
    (vals : List FVal) (hv : List.Forall₂ (fun f v => Stands (textChars delim) f.1 v) fs vals)
    (k : Nat) (hk : k < fs.length) (text : Str) (v : FVal) (hd : ∀ c ∈ text, c ∉ delim) (hs : Stands (textChars delim) text v) :
    ∃ w', transferVar (fun c => delim.contains c || c = '\n') w text row (k + 1) = .ok w' ∧ readVar delim w' row (k + 1) = .ok v ∧
      ∀ (i : Nat) (u : FVal), i ≠ k → vals[i]? = some u → readVar delim w' row (i + 1) = .ok u := by
  have hjl : j < w.data.length := (List.getElem?_eq_some_iff.1 hline).1
  have h1 : rowIdx w.data.length (w.cur + row) = some j := by
    rw [rowIdx, if_pos (by omega), ← hj]
    simp [hjl]
  have hword : Word (fun c => delim.contains c) text := ⟨stands_ne hs, fun c hc => by simpa using hd c hc⟩
  let fs' := (mapFields (replaceOne text (k + 1)) 0 fs).2
  have hget : ∀ i : Nat, fs'[i]? = if i = k then fs[i]?.map (fun f => (text, f.2)) else fs[i]? := by
    intro i
    have := mapFields_one text (k + 1) fs 0 i
    simp only [Nat.zero_add, Nat.cast_inj, add_left_inj] at this
    exact this
  have hlen : fs'.length = fs.length := by
    by_contra hh
    rcases Nat.lt_or_gt_of_ne hh with h | h
    · have a := hget fs'.length
      rw [List.getElem?_eq_none (le_refl _), List.getElem?_eq_getElem h] at a
      (split_ifs at a; all_goals simp at a)
    · have a := hget fs.length
      rw [List.getElem?_eq_none (le_refl fs.length), List.getElem?_eq_getElem h] at a
      (split_ifs at a; all_goals simp at a)
  have hl' : IsLayout (fun c => delim.contains c) (d₀ ++ renderF fs') d₀ fs' := ⟨rfl, hl.2.1, isFields_set hword _ fs 0 hl.2.2⟩
  have hlv : vals.length = fs.length := hv.length_eq.symm
  have hv' : List.Forall₂ (fun f v => Stands (textChars delim) f.1 v) fs' (vals.set k v) := by
    rw [List.forall₂_iff_get]
    refine ⟨by simp [hlen, hlv], ?_⟩
    intro i hi hi'
    have a := hget i
    have hi2 : i < fs.length := by omega
    rw [List.getElem?_eq_getElem hi, List.getElem?_eq_getElem hi2] at a
    simp only [List.get_eq_getElem, List.getElem_set]
    by_cases hik : i = k
    · subst hik
      simp only [if_true, Option.map_some, Option.some.injEq] at a
      rw [a]
      simpa using hs
    · rw [if_neg hik, Option.some.injEq] at a
      rw [a, if_neg (Ne.symm hik)]
      exact (List.forall₂_iff_get.1 hv).2 i hi2 (by omega)
  have htab : TabsDelimit delim (d₀ ++ renderF fs') := by
    intro hm
    have : '\t' ∈ body := by
      rw [hl.1]
      rcases List.mem_append.1 hm with hm | hm
      · exact List.mem_append_left _ hm
      · apply List.mem_append_right
        rw [mem_renderF] at hm ⊢
        obtain ⟨f, hf, hc⟩ := hm
        obtain ⟨i, hi, rfl⟩ := List.getElem_of_mem hf
        have a := hget i
        have hi2 : i < fs.length := by omega
        rw [List.getElem?_eq_getElem hi, List.getElem?_eq_getElem hi2] at a
        refine ⟨fs[i], List.getElem_mem hi2, ?_⟩
        by_cases hik : i = k
        · subst hik
          simp only [if_true, Option.map_some, Option.some.injEq] at a
          rw [a] at hc
          rcases hc with hc | hc
          · exact absurd hc (stands_tab hs)
          · exact .inr hc
        · rw [if_neg hik, Option.some.injEq] at a
          rwa [a] at hc
    exact ht this
  have hne : fs' ≠ [] := by
    rintro hh
    rw [hh] at hlen
    simp at hlen
    omega
  have hreads : LineReads delim (d₀ ++ renderF fs' ++ e) (vals.set k v) := ⟨_, e, d₀, fs', rfl, he, hl', htab, hne, hv'⟩
  refine ⟨{ w with data := w.data.set j (d₀ ++ renderF fs' ++ e) }, ?_, ?_⟩
  · simp only [transferVar, h1, hline]
    rw [reSub_line _ _ e he body.length body 0 (le_refl _) hnl, reSub_layout _ _ 0 hl]
  · have hr := C117_var_partial delim hg { w with data := w.data.set j (d₀ ++ renderF fs' ++ e) } row j hj _ (by simp [hjl]) _ hreads
    refine ⟨hr.1 k v (by simp [hlv, hk]), ?_⟩
    intro i u hik hu
    exact hr.1 i u (by rw [List.getElem?_set_ne (Ne.symm hik)]; exact hu)

/-! ## What is not read back -/

/-- **C117 refuted (negative numbers with an exponent).** `-1e-05`, which is what the generator writes for the float -1e-5, is read as the integer -1 and the text `e-05`; the fields behind it have other numbers. -/
theorem C117_negative_exponent_refuted : (∃ w', transferVar (fun c => [' ', '\t'].contains c || c = '\n') ⟨["x 1.5 7\n".toList], 0, false⟩ "-1e-05".toList 0 2 = .ok w' ∧
      readVar [' ', '\t'] w' 0 2 = .ok (.int (-1)) ∧ readVar [' ', '\t'] w' 0 3 = .ok (.text "e-05".toList)) ∧
    readVar [' ', '\t'] ⟨["x 1.5 7\n".toList], 0, false⟩ 0 3 = .ok (.int 7) := by
  refine ⟨⟨⟨["x -1e-05 7\n".toList], 0, false⟩, ?_, by decide +kernel, by decide +kernel⟩, by decide +kernel⟩
  rw [transferVar]
  simp [rowIdx, reSub, replaceOne]

/-- **C117 refuted (minus infinity).** -/
theorem C117_minus_inf_refuted : readVar [' ', '\t'] ⟨["-Inf\n".toList], 0, false⟩ 0 1 = .ok .inf := by decide +kernel

/-- **C117 refuted (words that begin as numbers or names).** They are split into two fields. -/
theorem C117_split_refuted : parseLine [' ', '\t'] "3rd Info 2-4\n".toList =
    .ok [.int 3, .text "rd".toList, .inf, .text "o".toList, .int 2, .int (-4)] := by decide +kernel

/-- **C117 refuted (tabs).** With the tab as the only delimiter just the first field of a line is read: the parser replaces tabs by blanks before it looks for delimiters. -/
theorem C117_tab_refuted : readVar ['\t'] ⟨["1\t2\t3\n".toList], 0, false⟩ 0 1 = .ok (.int 1) ∧ readVar ['\t'] ⟨["1\t2\t3\n".toList], 0, false⟩ 0 2 = .error (.py .IndexError) := by
  decide +kernel

/-- Field 0 is the last one of the line. -/
theorem finding_field_zero : readVar [' ', '\t'] ⟨["1 2 3\n".toList], 0, false⟩ 0 0 = .ok (.int 3) := by decide +kernel

/-- A line with all kinds of words, with tabs, meets the hypotheses. -/
theorem line_example : LineReads [' ', '\t'] " mach\t-12 .5E+2\t NaN 3d-1 \n".toList [.text "mach".toList, .int (-12), .flt 50, .nan, .flt (3/10)] := by
  have hb : IsLayout (fun c => [' ', '\t'].contains c) " mach\t-12 .5E+2\t NaN 3d-1 ".toList [' ']
      [("mach".toList, ['\t']), ("-12".toList, [' ']), (".5E+2".toList, ['\t', ' ']), ("NaN".toList, [' ']), ("3d-1".toList, [' '])] := by
    refine ⟨by decide, by unfold Delims; decide, ?_⟩
    simp only [IsFields, Word, Delims]
    decide +kernel
  refine ⟨_, ['\n'], _, _, by decide, .inr rfl, hb, ?_, by decide, ?_⟩
  · unfold TabsDelimit; decide
  · have hexp : Exponent "E+2".toList 2 := Exponent.mk 'E' ['+'] ['2'] 1 (by decide) .plus (by unfold Digits; decide)
    have hexp2 : Exponent "d-1".toList (-1) := Exponent.mk 'd' ['-'] ['1'] (-1) (by decide) .minus (by unfold Digits; decide)
    have h2 := Stands.int (txt := textChars [' ', '\t']) ['-'] ['1', '2'] (-1) .minus (by unfold Digits; decide)
    have h3 := Stands.pointExp (txt := textChars [' ', '\t']) [] [] ['5'] "E+2".toList 1 2 .none (by decide) (by decide) hexp
    have h5 := Stands.exp (txt := textChars [' ', '\t']) ['3'] "d-1".toList (-1) (by unfold Digits; decide) hexp2
    refine .cons ?_ (.cons ?_ (.cons ?_ (.cons ?_ (.cons ?_ .nil))))
    · refine .text _ (by decide) (by decide +kernel) ?_ (by decide +kernel)
      rintro ⟨sg, z, rest, hs, h1, c, r, hc, h2⟩
      cases hs with
      | none =>
        rw [List.nil_append] at h1
        subst h1
        rcases h2 with h2 | h2
        · obtain ⟨rfl, _⟩ := List.cons.inj h2; revert hc; decide
        · exact absurd (List.cons.inj h2).1 (by decide)
      | plus => exact absurd (List.cons.inj h1).1 (by decide)
      | minus => exact absurd (List.cons.inj h1).1 (by decide)
    · exact h2
    · have : ((1 : ℤ) : ℚ) * (decimal ([] ++ ['5']) : ℕ) * (10 : ℚ) ^ ((2 : ℤ) - ((['5'] : Str).length : ℤ)) = 50 := by
        rw [show decimal ([] ++ ['5']) = 5 from rfl]; norm_num
      rw [this] at h3
      exact h3
    · exact .nan _ (by decide +kernel)
    · have : ((decimal ['3'] : ℕ) : ℚ) * (10 : ℚ) ^ (-1 : ℤ) = 3 / 10 := by
        rw [show decimal ['3'] = 3 from rfl]; norm_num
      rw [this] at h5
      exact h5

example : GoodDelims [' ', '\t'] := by unfold GoodDelims; decide
example : GoodDelims [',', ' ', '='] := by unfold GoodDelims; decide
example : readVar [' ', '\t'] ⟨["x\n".toList, " mach\t-12 .5E+2\t NaN 3d-1 \n".toList], 0, true⟩ 1 3 = .ok (.flt 50) := by decide +kernel

/-! ## Lines with a key -/

/-- The line with the first key replaced: `pre` has no key in it that ends before the end of the given one. -/
theorem replaceKey_skip (key : Str) : ∀ (n : Nat) (s : Str), n ≤ s.length → replaceKey key n s = replaceKey key 0 (s.drop n)
  | 0, s, _ => rfl
  | n + 1, [], h => absurd h (by simp)
  | n + 1, c :: s, h => by rw [replaceKey, replaceKey_skip key n s (by simpa using h)]; rfl

theorem replaceKey_free (key : Str) : ∀ s : Str, ¬ key <:+: s → replaceKey key 0 s = s
  | [], _ => rfl
  | c :: s, h => by
    have h1 : key.isPrefixOf (c :: s) = false := by
      by_contra hh
      exact h (List.isPrefixOf_iff_prefix.1 (by simpa using hh)).isInfix
    rw [replaceKey, h1]
    simp only [Bool.false_eq_true, if_false]
    rw [replaceKey_free key s fun x => h (x.trans (List.suffix_cons c s).isInfix)]

theorem replaceKey_first (k0 : Char) (ks : Str) (rest : Str) (hrest : ¬ (k0 :: ks) <:+: rest) : ∀ d : Str, k0 ∉ d →
    replaceKey (k0 :: ks) 0 (d ++ ((k0 :: ks) ++ rest)) = d ++ ("KeyField".toList ++ rest)
  | [], _ => by
    rw [List.nil_append, List.cons_append, replaceKey]
    have h1 : (k0 :: ks).isPrefixOf (k0 :: (ks ++ rest)) = true := by
      rw [List.isPrefixOf_iff_prefix]; exact ⟨rest, by simp⟩
    rw [if_pos h1, replaceKey_skip _ _ _ (by simp)]
    simp [replaceKey_free _ rest hrest]
  | c :: d, h => by
    have hc : c ≠ k0 := fun x => h (by simp [x])
    rw [List.cons_append, replaceKey]
    have h1 : (k0 :: ks).isPrefixOf (c :: (d ++ ((k0 :: ks) ++ rest))) = false := by
      simp [List.isPrefixOf, Ne.symm hc]
    rw [h1]
    simp only [Bool.false_eq_true, if_false]
    rw [replaceKey_first k0 ks rest hrest d fun x => h (List.mem_cons_of_mem _ x)]
    simp

theorem keyRow_nth (key : Str) : ∀ (ls : List Str) (n k : Nat), IsNth key ls n k → keyRow key n ls = k
  | [], n, k, h => by obtain ⟨l, hl, _⟩ := h; simp at hl
  | l :: ls, n, k, h => by
    obtain ⟨x, hx, hc, hn⟩ := h
    rw [keyRow, hasSub_eq]
    cases k with
    | zero =>
      simp only [List.getElem?_cons_zero, Option.some.injEq] at hx
      subst hx
      simp at hn
      simp [hc, ← hn]
    | succ k =>
      simp only [List.getElem?_cons_succ] at hx
      simp only [List.take_succ_cons, List.countP_cons] at hn
      by_cases hl : Contains key l = true
      · simp only [hl, if_true] at hn ⊢
        rw [if_neg (by omega), keyRow_nth key ls (n - 1) k ⟨x, hx, hc, by omega⟩]
      · simp only [hl, if_false, Nat.add_zero, Bool.false_eq_true] at hn ⊢
        rw [keyRow_nth key ls n k ⟨x, hx, hc, hn⟩]

theorem keyRow_none (key : Str) : ∀ (ls : List Str) (n : Nat), 0 < n → ls.countP (Contains key) < n → keyRow key n ls = ls.length
  | [], _, _, _ => rfl
  | l :: ls, n, hn, h => by
    rw [keyRow, hasSub_eq]
    rw [List.countP_cons] at h
    by_cases hl : Contains key l = true
    · simp only [hl, if_true] at h ⊢
      rw [if_neg (by omega), keyRow_none key ls (n - 1) (by omega) (by omega)]
      rfl
    · simp only [hl, if_false, Nat.add_zero, Bool.false_eq_true] at h ⊢
      rw [keyRow_none key ls n hn h]
      rfl

theorem keyLine_reads {delim : Str} (hg : GoodDelims delim) {key line : Str} {vals : List FVal} (hk : ∃ c t, key = c :: t ∧ c ∉ delim) (h : KeyLine delim key line vals) :
    LineReads delim (replaceKey key 0 line) (.text "KeyField".toList :: vals) := by
  obtain ⟨k0, ks, rfl, hk0⟩ := hk
  obtain ⟨d₀, d₁, e, fs, rfl, he, h0, h1, hne, hf, ht, hfree, hv⟩ := h
  have hd0 : k0 ∉ d₀ := fun x => hk0 (by simpa using h0 k0 x)
  rw [replaceKey_first k0 ks _ hfree d₀ hd0]
  have hkt : ∀ c ∈ "KeyField".toList, c.isAlphanum = true ∧ decide (33 ≤ c.toNat) = true ∧ decide (c.toNat ≤ 126) = true ∧ c ≠ '\t' := by decide +kernel
  have hstand : Stands (textChars delim) "KeyField".toList (.text "KeyField".toList) := by
    refine .text _ (by decide) ?_ ?_ (by decide +kernel)
    · intro c hc
      obtain ⟨a1, a2, a3, _⟩ := hkt c hc
      rw [textChars]
      split_ifs
      · simp only [a2, a3, Bool.and_self]
      · simp only [a1, Bool.true_or]
    · rintro ⟨sg, z, rest, hs, h1, c, r, hc, h2⟩
      cases hs with
      | none =>
        rw [List.nil_append] at h1
        subst h1
        rcases h2 with h2 | h2
        · obtain ⟨rfl, _⟩ := List.cons.inj h2; revert hc; decide
        · exact absurd (List.cons.inj h2).1 (by decide)
      | plus => exact absurd (List.cons.inj h1).1 (by decide)
      | minus => exact absurd (List.cons.inj h1).1 (by decide)
  refine ⟨d₀ ++ renderF (("KeyField".toList, d₁) :: fs), e, d₀, _, by simp [renderF], he, ⟨rfl, h0, ⟨⟨List.cons_ne_nil _ _, ?_⟩, h1, hne, hf⟩⟩, ?_, by simp, .cons hstand hv⟩
  · intro c hc
    by_contra hh
    have := (hg c (by simpa using hh)).1
    rw [(hkt c hc).1] at this
    cases this
  · intro hm
    apply ht
    simp only [renderF, List.mem_append] at hm ⊢
    rcases hm with hm | (hm | hm) | hm
    · exact .inl hm
    · exact absurd rfl (hkt _ hm).2.2.2
    · exact .inr (.inl hm)
    · exact .inr (.inr hm)

theorem readKeyVar_at {delim : Str} (hg : GoodDelims delim) (w : FWrap) (key : Str) (occ off : Int) (hocc : occ ≠ 0) (j : Nat)
    (hj : (w.cur : Int) + (if occ > 0 then (keyRow key occ.toNat (w.data.drop w.cur) : Int) else -1 - (keyRow key (-occ).toNat (w.data.drop w.cur).reverse : Int)) + off = j)
    (line : Str) (hline : w.data[j]? = some line) (vals : List FVal) (h : LineReads delim (replaceKey key 0 line) vals) (field : Int) : readKeyVar delim w key field occ off = pyItem vals field := by
  simp only [readKeyVar, if_neg hocc, pyItem_nat w.data j _ hj, hline, C117_fields_partial delim _ hg vals h]

/-- **C118 (forward).** `transfer_keyvar(key, field, occurrence)` with a positive occurrence takes the `occurrence`-th line at or behind the anchor that has the key in it. For a line that begins with the key, field 0 is the key (as the text
`KeyField`) and the fields behind it are numbered from 1. Beyond the last one there is IndexError. -/
theorem C118_forward_partial (delim : Str) (hg : GoodDelims delim) (w : FWrap) (key : Str) (hk : ∃ c t, key = c :: t ∧ c ∉ delim) (n k : Nat) (h : IsNth key (w.data.drop w.cur) n k)
    (line : Str) (hline : w.data[w.cur + k]? = some line) (vals : List FVal) (hl : KeyLine delim key line vals) :
    (∀ (i : Nat) (v : FVal), vals[i]? = some v → readKeyVar delim w key (i + 1) n 0 = .ok v) ∧ readKeyVar delim w key 0 n 0 = .ok (.text "KeyField".toList) ∧
    ∀ field : Int, field > vals.length → readKeyVar delim w key field n 0 = .error (.py .IndexError) := by
  have hn : 0 < n := by obtain ⟨_, _, _, h⟩ := h; omega
  have h0 := readKeyVar_at hg w key (n : Int) 0 (by omega) (w.cur + k) (by
    rw [if_pos (by omega), Int.toNat_natCast, keyRow_nth key _ n k h]; omega) line hline _ (keyLine_reads hg hk hl)
  refine ⟨?_, ?_, ?_⟩
  · intro i v hv
    rw [h0, pyItem_nat _ (i + 1) _ (by omega), List.getElem?_cons_succ, hv]
  · rw [h0, pyItem_nat _ 0 _ (by simp)]; rfl
  · intro field hf
    obtain ⟨m, hm⟩ : ∃ m : Nat, field = m := ⟨field.toNat, by omega⟩
    rw [h0, pyItem_nat _ m _ hm, List.getElem?_eq_none (by simp; omega)]

/-- **C118 (row offset).** With a row offset the line is that many lines away from the line with the key. It has no key in it, and its fields are numbered from 0. -/
theorem C118_offset_partial (delim : Str) (hg : GoodDelims delim) (w : FWrap) (key : Str) (n k : Nat) (h : IsNth key (w.data.drop w.cur) n k) (off : Int) (j : Nat) (hj : (j : Int) = w.cur + k + off)
    (line : Str) (hline : w.data[j]? = some line) (hfree : ¬ key <:+: line) (vals : List FVal) (hl : LineReads delim line vals) :
    ∀ (i : Nat) (v : FVal), vals[i]? = some v → readKeyVar delim w key i n off = .ok v := by
  intro i v hv
  have hn : 0 < n := by obtain ⟨_, _, _, h⟩ := h; omega
  rw [readKeyVar_at hg w key (n : Int) off (by omega) j (by
    rw [if_pos (by omega), Int.toNat_natCast, keyRow_nth key _ n k h]; omega) line hline vals (by rwa [replaceKey_free key line hfree]), pyItem_nat _ i _ rfl, hv]

/-- **C118 (not found).** Fewer lines with the key than asked for: IndexError. -/
theorem C118_missing (delim : Str) (w : FWrap) (key : Str) (hcur : w.cur ≤ w.data.length) (n : Nat) (hn : 0 < n) (h : (w.data.drop w.cur).countP (Contains key) < n) (field : Int) :
    readKeyVar delim w key field n 0 = .error (.py .IndexError) := by
  have hj : (w.cur : Int) + (keyRow key n (w.data.drop w.cur) : Int) + 0 = (w.data.length : Nat) := by
    rw [keyRow_none key _ n hn h, List.length_drop]; omega
  have hn0 : ¬ (n : Int) = 0 := by omega
  have hn1 : (n : Int) > 0 := by omega
  simp only [readKeyVar, hn0, hn1, if_true, if_false, Int.toNat_natCast, pyItem_nat w.data w.data.length _ hj, List.getElem?_eq_none (le_refl _)]

/-- **C118 (backward).** With a negative occurrence the lines are counted from the end of the file. Missing: the anchor has to be at the first line; otherwise see the refutation below. -/
theorem C118_backward_partial (delim : Str) (hg : GoodDelims delim) (w : FWrap) (hcur : w.cur = 0) (key : Str) (hk : ∃ c t, key = c :: t ∧ c ∉ delim) (n k : Nat) (h : IsNth key w.data.reverse n k)
    (line : Str) (hline : w.data.reverse[k]? = some line) (vals : List FVal) (hl : KeyLine delim key line vals) :
    ∀ (i : Nat) (v : FVal), vals[i]? = some v → readKeyVar delim w key (i + 1) (-n) 0 = .ok v := by
  have hn : 0 < n := by obtain ⟨_, _, _, h⟩ := h; omega
  have hkl : k < w.data.length := by
    have := (List.getElem?_eq_some_iff.1 hline).1
    simpa using this
  have hline' : w.data[w.data.length - 1 - k]? = some line := by
    rw [List.getElem?_reverse hkl] at hline
    exact hline
  intro i v hv
  have hrow : keyRow key (- -(n : Int)).toNat (w.data.drop w.cur).reverse = k := by
    rw [neg_neg, Int.toNat_natCast, hcur, List.drop_zero, keyRow_nth key _ n k h]
  have hneg : ¬ (-(n : Int)) = 0 := by omega
  have hneg1 : ¬ (-(n : Int)) > 0 := by omega
  have hit : pyItem w.data ((w.cur : Int) + (-1 - (k : Int)) + 0) = .ok line := by
    rw [pyItem, rowIdx, if_neg (by omega), if_pos (by omega)]
    have : ((w.cur : Int) + (-1 - (k : Int)) + 0 + (w.data.length : Int)).toNat = w.data.length - 1 - k := by omega
    rw [this]
    simp only [Option.bind_some, hline']
  simp only [readKeyVar, hneg, hneg1, if_false, hrow, hit, C117_fields_partial delim _ hg _ (keyLine_reads hg hk hl)]
  rw [pyItem_nat _ (i + 1) _ (by omega), List.getElem?_cons_succ, hv]

/-- **C118 refuted (backward from an anchor).** The anchor is at the second line. The last line with the key is the third, and the value 3 is asked for; the first line is read. -/
theorem C118_anchored_refuted : readKeyVar [' ', '\t'] ⟨["k 1\n".toList, "k 2\n".toList, "k 3\n".toList], 1, true⟩ ['k'] 1 (-1) 0 = .ok (.int 1) := by decide +kernel

/-- **C118 refuted (not found backward).** There is no line with the key behind the anchor, and still a value is returned. -/
theorem C118_backward_missing_refuted : readKeyVar [' ', '\t'] ⟨["a 1\n".toList, "b 2\n".toList, "c 3\n".toList], 2, true⟩ ['k'] 1 (-1) 0 = .ok (.int 1) := by decide +kernel

theorem C118_zero (delim : Str) (w : FWrap) (key : Str) (field off : Int) : readKeyVar delim w key field 0 off = .error (.py .ValueError) := by simp [readKeyVar]

/-- The hypotheses can be met: the second line with the key, and the last one. -/
example : KeyLine [' ', '\t'] "LIFT =".toList "  LIFT = 2.5 7\n".toList [.flt (5/2), .int 7] := by
  refine ⟨"  ".toList, [' '], ['\n'], [("2.5".toList, [' ']), ("7".toList, [])], by decide, .inr rfl, by unfold Delims; decide, by unfold Delims; decide, by decide, ?_, ?_, ?_, ?_⟩
  · simp only [IsFields, Word, Delims]; decide +kernel
  · unfold TabsDelimit; decide
  · rw [← hasSub_iff]; decide +kernel
  · have h1 := Stands.point (txt := textChars [' ', '\t']) [] ['2'] ['5'] 1 .none (by decide) (by decide)
    have h2 := Stands.int (txt := textChars [' ', '\t']) [] ['7'] 1 .none (by unfold Digits; decide)
    refine .cons ?_ (.cons h2 .nil)
    have : ((1 : ℤ) : ℚ) * (decimal (['2'] ++ ['5']) : ℕ) * (10 : ℚ) ^ (-((['5'] : Str).length : ℤ)) = 5 / 2 := by
      rw [show decimal (['2'] ++ ['5']) = 25 from rfl]; norm_num
    rw [this] at h1
    exact h1

example : IsNth "LIFT =".toList ["x\n".toList, "LIFT = 1\n".toList, "  LIFT = 2.5 7\n".toList] 2 2 := by
  refine ⟨_, rfl, ?_, ?_⟩
  · rw [← hasSub_eq]; decide +kernel
  · simp only [← hasSub_eq, List.take, List.countP_cons, List.countP_nil]; decide +kernel

/-! ## Arrays -/

theorem sliceBound_nat (n k : Nat) (j : Int) (hj : j = k) : sliceBound n j = min k n := by
  subst hj; simp [sliceBound]

theorem pySlice_nat {α : Type} (l : List α) (a b : Nat) (i j : Int) (hi : i = a) (hj : j = b) : pySliceOf l i (some j) = (l.take b).drop a := by
  simp only [pySliceOf, sliceBound_nat _ a _ hi, sliceBound_nat _ b _ hj]
  rw [← List.take_eq_take_min]
  by_cases h : a ≤ l.length
  · rw [min_eq_left h]
  · rw [min_eq_right (by omega), List.drop_eq_nil_of_le (by simp), List.drop_eq_nil_of_le (by simp; omega)]

/-- A negative start counts from the end. -/
theorem pySlice_neg {α : Type} (l : List α) (k : Nat) (hk : 0 < k) (i : Int) (hi : i = -k) : pySliceOf l i none = l.drop (l.length - k) := by
  subst hi
  simp only [pySliceOf, sliceBound, List.take_length]
  rw [if_pos (by omega)]
  congr 1
  omega

theorem pySlice_from {α : Type} (l : List α) (a : Nat) (i : Int) (hi : i = a) : pySliceOf l i none = l.drop a := by
  simp only [pySliceOf, sliceBound_nat _ a _ hi, List.take_length]
  by_cases h : a ≤ l.length
  · rw [min_eq_left h]
  · rw [min_eq_right (by omega), List.drop_eq_nil_of_le (by simp), List.drop_eq_nil_of_le (by omega)]

theorem arrayRows_spec {delim : Str} (hg : GoodDelims delim) (last : Nat) : ∀ (lines : List Str) (rows : List (List FVal)) (first : Nat), 0 < first → List.Forall₂ (LineReads delim) lines rows →
    arrayRows delim last lines ((lines.length : Int) - 1) first = .ok (arraySpec first last rows)
  | [], rows, _, _, h => by cases h; rfl
  | line :: lines, rows, first, hf, h => by
    cases h with
    | cons h1 h2 =>
      rename_i vs rows
      have ih := arrayRows_spec hg last lines rows 1 (by omega) h2
      have hl : (((line :: lines).length : Int) - 1 - 1) = (lines.length : Int) - 1 := by simp
      rw [arrayRows, C117_fields_partial delim line hg vs h1, hl]
      simp only [Nat.cast_one] at ih
      simp only [ih]
      cases h2 with
      | nil =>
        have h0 : (([line] : List Str).length : Int) - 1 = 0 := by simp
        rw [if_pos h0, pySlice_nat vs (first - 1) last _ _ (by omega) rfl]
        simp [arraySpec]
      | cons h3 h4 =>
        rename_i l' vs' lines' rows'
        have h0 : ¬ ((line :: l' :: lines').length : Int) - 1 = 0 := by simp; omega
        rw [if_neg h0, pySlice_from vs (first - 1) _ (by omega)]
        simp [arraySpec]

/-- **C119.** `transfer_array(rowstart, fieldstart, rowend, fieldend)` for rows that the file has, with values in all words: the values from field `fieldstart` of the first row to field `fieldend` of the last, with all fields of the rows
between, in this order. -/
theorem C119_array_partial (delim : Str) (hg : GoodDelims delim) (w : FWrap) (a b first last : Nat) (hf : 0 < first) (hl : 0 < last) (rowstart rowend : Int) (ha : (a : Int) = w.cur + rowstart) (hb : (b : Int) = w.cur + rowend)
    (hab : a ≤ b) (hlen : b < w.data.length) (rows : List (List FVal)) (h : List.Forall₂ (LineReads delim) ((w.data.take (b + 1)).drop a) rows) :
    readArray delim w rowstart first (some rowend) (some last) = .ok (arraySpec first last rows) := by
  have e1 := pySlice_nat w.data a (b + 1) (w.cur + rowstart) (w.cur + rowend + 1) ha.symm (by omega)
  have hlast : ¬ (last : Int) = 0 := by omega
  have hn : ((w.data.take (b + 1)).drop a).length = b + 1 - a := by simp; omega
  have hleft : ((w.cur : Int) + rowend + 1 - (w.cur + rowstart) - 1) = (((w.data.take (b + 1)).drop a).length : Int) - 1 := by rw [hn]; omega
  simp only [readArray, hlast, if_false, e1, hleft]
  exact arrayRows_spec hg last _ rows first hf h

/-- **C119 (one row).** Without `rowend` the values of one row. -/
theorem C119_one_row_partial (delim : Str) (hg : GoodDelims delim) (w : FWrap) (a first last : Nat) (hf : 0 < first) (hl : 0 < last) (rowstart : Int) (ha : (a : Int) = w.cur + rowstart)
    (line : Str) (hline : w.data[a]? = some line) (vals : List FVal) (h : LineReads delim line vals) :
    readArray delim w rowstart first none (some last) = .ok ((vals.take last).drop (first - 1)) := by
  have e1 := pySlice_nat w.data a (a + 1) (w.cur + rowstart) (w.cur + rowstart + 1) ha.symm (by omega)
  have hlast : ¬ (last : Int) = 0 := by omega
  have hal := (List.getElem?_eq_some_iff.1 hline).1
  have e2 : (w.data.take (a + 1)).drop a = [line] := by
    rw [List.drop_take, Nat.add_sub_cancel_left, List.take_one, List.head?_drop, hline]; rfl
  have hleft : ((w.cur : Int) + rowstart + 1 - (w.cur + rowstart) - 1) = (([line] : List Str).length : Int) - 1 := by simp
  simp only [readArray, hlast, if_false, e1, e2, hleft]
  exact arrayRows_spec hg last [line] [vals] first hf (.cons h .nil)

/-- **C119.** Without `fieldend`, or with `fieldend` 0, ValueError is raised. -/
theorem C119_no_end (delim : Str) (w : FWrap) (rowstart fieldstart : Int) (rowend : Option Int) :
    readArray delim w rowstart fieldstart rowend none = .error (.py .ValueError) ∧ readArray delim w rowstart fieldstart rowend (some 0) = .error (.py .ValueError) := ⟨rfl, rfl⟩

/-- **C119 refuted (rows beyond the file).** If the file ends before the last row that was asked for, then the last row that exists is not cut at `fieldend`, and no error is raised. -/
theorem C119_short_file_refuted : readArray [' ', '\t'] ⟨["1 2 3\n".toList, "4 5 6\n".toList], 0, false⟩ 0 1 (some 2) (some 2) = .ok [.int 1, .int 2, .int 3, .int 4, .int 5, .int 6] := by decide +kernel

theorem assignRow_ok {width : Nat} {vals : List FVal} {xs : List FNum} (h : List.Forall₂ (fun v x => IsNum v x) vals xs) (hw : vals.length = width) : assignRow width vals = .ok xs := by
  have h1 : vals.mapM FVal.num = .ok xs := by
    clear hw
    induction h with
    | nil => rfl
    | @cons v x vs xs h1 _ ih =>
      have : FVal.num v = .ok x := by
        cases h1 <;> rfl
      rw [List.mapM_cons, this]
      simp only [bind, Except.bind, ih]
      rfl
  have h2 : xs.length = width := by rw [← h.length_eq, hw]
  simp only [assignRow, h1, h2, if_true]

theorem matRows_spec {delim : Str} (hg : GoodDelims delim) (width : Nat) (fs : Int) (fe : Option Int) : ∀ (lines : List Str) (rows : List (List FVal)) (m : List (List FNum)),
    List.Forall₂ (LineReads delim) lines rows → List.Forall₂ (fun vs xs => List.Forall₂ (fun v x => IsNum v x) (pySliceOf vs (fs - 1) fe) xs) rows m → (∀ xs ∈ m, xs.length = width) → matRows delim width fs fe lines = .ok m
  | [], rows, m, h1, h2, _ => by cases h1; cases h2; rfl
  | line :: lines, rows, m, h1, h2, h3 => by
    cases h1 with
    | cons a1 a2 =>
      rename_i vs rows
      cases h2 with
      | cons b1 b2 =>
        rename_i xs m
        have ih := matRows_spec hg width fs fe lines rows m a2 b2 (fun x hx => h3 x (List.mem_cons_of_mem _ hx))
        simp only [matRows, C117_fields_partial delim line hg vs a1, assignRow_ok b1 (b1.length_eq.trans (h3 xs List.mem_cons_self)), ih]
        rfl

/-- **C119 (two dimensions).** `transfer_2Darray(rowstart, fieldstart, rowend, fieldend)`: if the file has the rows, if the words from field `fieldstart` to field `fieldend`, or to the end of the row, are numbers, and if these are the same number in
all rows, then the result has for each line the row of these numbers. -/
theorem C119_matrix_partial (delim : Str) (hg : GoodDelims delim) (w : FWrap) (a b first : Nat) (last : Option Nat) (hf : 0 < first) (hl : ∀ k, last = some k → first ≤ k) (rowstart rowend : Int) (ha : (a : Int) = w.cur + rowstart)
    (hb : (b : Int) = w.cur + rowend) (hab : a ≤ b) (hlen : b < w.data.length) (rows : List (List FVal)) (h : List.Forall₂ (LineReads delim) ((w.data.take (b + 1)).drop a) rows)
    (m : List (List FNum)) (width : Nat) (hm : List.Forall₂ (fun vs xs => List.Forall₂ (fun v x => IsNum v x) (fieldsOf first last vs) xs) rows m) (hwidth : ∀ xs ∈ m, xs.length = width) :
    readMat delim w rowstart first rowend (last.map fun k : Nat => (k : Int)) = .ok m := by
  have e1 := pySlice_nat w.data a (b + 1) (w.cur + rowstart) (w.cur + rowend + 1) ha.symm (by omega)
  have hfe : (if (last.map fun k : Nat => (k : Int)) = some 0 then none else (last.map fun k : Nat => (k : Int))) = last.map fun k : Nat => (k : Int) := by
    apply if_neg
    intro hh
    cases last with
    | none => cases hh
    | some k =>
      have := hl k rfl
      simp only [Option.map_some, Option.some.injEq] at hh
      omega
  have hord : endBefore first (last.map fun k : Nat => (k : Int)) = false := by
    cases last with
    | none => rfl
    | some k =>
      have := hl k rfl
      simp [endBefore]; omega
  have hsl : ∀ vs : List FVal, pySliceOf vs ((first : Int) - 1) (last.map fun k : Nat => (k : Int)) = fieldsOf first last vs := by
    intro vs
    cases last with
    | none => exact pySlice_from vs (first - 1) _ (by omega)
    | some k => exact pySlice_nat vs (first - 1) k _ _ (by omega) rfl
  have hn : ((w.data.take (b + 1)).drop a).length = b + 1 - a := by simp; omega
  have hrow : ¬ rowstart > rowend := by omega
  rw [readMat]
  simp only [hfe, hord, Bool.false_eq_true, if_false, hrow, e1]
  cases hd : (w.data.take (b + 1)).drop a with
  | nil => rw [hd] at hn; simp at hn; omega
  | cons line lines =>
    rw [hd] at h hn
    cases h with
    | cons a1 a2 =>
      rename_i vs rows
      cases hm with
      | cons b1 b2 =>
        rename_i xs m
        have hx := hwidth xs List.mem_cons_self
        have hrl : (fieldsOf first last vs).length = width := by rw [b1.length_eq, hx]
        have hmr := matRows_spec hg width first (last.map fun k : Nat => (k : Int)) lines rows m a2 (by simpa only [hsl] using b2) (fun x hx => hwidth x (List.mem_cons_of_mem _ hx))
        have hml : m.length = lines.length := by rw [← b2.length_eq, ← a2.length_eq]
        have hz : (rowend - rowstart).toNat - m.length = 0 := by
          simp only [List.length_cons] at hn
          omega
        simp only [C117_fields_partial delim line hg vs a1, hsl, hrl, assignRow_ok b1 hrl, hmr, Except.map, hz, List.replicate_zero, List.append_nil]

/-- **C119 refuted (rows of different lengths).** With `fieldend` a row with fewer fields than the first is returned as zeros, and a row with a single field is repeated over all columns, without any error. -/
theorem C119_short_row_refuted : readMat [' ', '\t'] ⟨["1 2 3\n".toList, "4 5\n".toList, "6\n".toList], 0, false⟩ 0 1 2 (some 3) = .ok [[.num 1, .num 2, .num 3], [.num 0, .num 0, .num 0], [.num 6, .num 6, .num 6]] := by decide +kernel

/-- **C119 refuted (text).** A text among the fields of a later row makes this row zero. -/
theorem C119_text_row_refuted : readMat [' ', '\t'] ⟨["1 2\n".toList, "4 x\n".toList], 0, false⟩ 0 1 1 (some 2) = .ok [[.num 1, .num 2], [.num 0, .num 0]] := by decide +kernel

/-- **C119 refuted (missing rows).** Rows that the file does not have are returned as zeros. -/
theorem C119_missing_rows_refuted : readMat [' ', '\t'] ⟨["1 2\n".toList, "3 4\n".toList], 0, false⟩ 0 1 3 none = .ok [[.num 1, .num 2], [.num 3, .num 4], [.num 0, .num 0], [.num 0, .num 0]] := by decide +kernel

/-- Without `fieldend` a row of another length raises ValueError. -/
theorem finding_ragged : readMat [' ', '\t'] ⟨["1 2 3\n".toList, "4 5\n".toList], 0, false⟩ 0 1 1 none = .error (.py .ValueError) := by decide +kernel

/-- **C119 (wrong order).** Field or row numbers in the wrong order raise ValueError. -/
theorem C119_order (delim : Str) (w : FWrap) (rowstart fieldstart rowend : Int) (fieldend : Option Int) (h : rowend < rowstart ∨ ∃ k, fieldend = some k ∧ k ≠ 0 ∧ k < fieldstart) :
    readMat delim w rowstart fieldstart rowend fieldend = .error (.py .ValueError) := by
  rcases h with h | ⟨k, rfl, h0, h1⟩
  · simp only [readMat]
    split_ifs <;> rfl
  · simp [readMat, endBefore, h0, h1]

/-- **C119 (two dimensions).** `fieldend` 0 is the same as no `fieldend`. -/
theorem C119_zero_end (delim : Str) (w : FWrap) (rowstart fieldstart rowend : Int) : readMat delim w rowstart fieldstart rowend (some 0) = readMat delim w rowstart fieldstart rowend none := by
  simp [readMat]

/-- **C119 (two dimensions).** If the first row is beyond the end of the file IndexError is raised. -/
theorem C119_beyond (delim : Str) (w : FWrap) (a b : Nat) (rowstart fieldstart rowend : Int) (ha : (a : Int) = w.cur + rowstart) (hb : (b : Int) = w.cur + rowend) (h : w.data.length ≤ a) (hab : a ≤ b) :
    readMat delim w rowstart fieldstart rowend none = .error (.py .IndexError) := by
  have e1 : pySliceOf w.data (w.cur + rowstart) (some (w.cur + rowend + 1)) = [] := by
    rw [pySlice_nat w.data a (b + 1) _ _ ha.symm (by push_cast; omega), List.drop_eq_nil_iff]
    simp; omega
  have e2 : ¬ rowstart > rowend := by omega
  simp [readMat, endBefore, e1, e2]

example : readMat [' ', '\t'] ⟨["1 2\n".toList], 0, false⟩ 1 1 2 none = .error (.py .IndexError) :=
  C119_beyond _ _ 1 2 _ _ _ (by decide) (by decide) (by decide) (by decide)

example : readArray [' ', '\t'] ⟨["x\n".toList, "1 2 3\n".toList, "4 5 6\n".toList, "7 8\n".toList], 1, true⟩ 0 2 (some 2) (some 1) = .ok [.int 2, .int 3, .int 4, .int 5, .int 6, .int 7] := by decide +kernel
example : List.Forall₂ (LineReads [' ', '\t']) [" mach\t-12 .5E+2\t NaN 3d-1 \n".toList] [[.text "mach".toList, .int (-12), .flt 50, .nan, .flt (3/10)]] := .cons line_example .nil
example : readMat [' ', '\t'] ⟨["a 1 2 3\n".toList, "b 4 5 6\n".toList], 0, false⟩ 0 2 1 (some 3) = .ok [[.num 1, .num 2], [.num 4, .num 5]] := by decide +kernel

/-! ## Comments -/

/-- **C120 (comments at the end of lines).** With a character for comments at the end of lines, and perhaps one for whole lines: the data are the lines that do not begin with the latter, in order, each one cut before the first comment character. -/
theorem C120_eol_partial (c : Char) (full : Option Char) (lines : List Str) : ∃ data, setFile (some c) full lines = .ok data ∧
    List.Forall₂ (fun (l d : Str) => c ∉ d ∧ (d = l ∨ ∃ rest, l = d ++ c :: rest)) (lines.filter fun l => decide (∀ x, full = some x → l.head? ≠ some x)) data := by
  have hp : (fun l : Str => decide (full = none ∨ l.head? ≠ full)) = fun l : Str => decide (∀ x, full = some x → l.head? ≠ some x) := by
    funext l
    cases full with
    | none => simp
    | some y => simp
  have hif : ¬ (some c = none ∧ full = none) := by simp
  rw [setFile, if_neg hif, hp]
  simp only
  induction (lines.filter fun l => decide (∀ x, full = some x → l.head? ≠ some x)) with
  | nil => exact ⟨[], rfl, .nil⟩
  | cons l ls ih =>
    obtain ⟨data, h1, h2⟩ := ih
    refine ⟨l.takeWhile (· ≠ c) :: data, ?_, .cons ⟨?_, ?_⟩ h2⟩
    · rw [List.mapM_cons]
      simp only [bind, Except.bind, h1]
      rfl
    · intro hm
      have := List.all_takeWhile (p := fun x => decide (x ≠ c)) (l := l)
      rw [List.all_eq_true] at this
      simpa using this c hm
    · have := List.takeWhile_append_dropWhile (p := fun x => decide (x ≠ c)) (l := l)
      cases hd : l.dropWhile (fun x => decide (x ≠ c)) with
      | nil => rw [hd, List.append_nil] at this; exact .inl this
      | cons y ys =>
        have hy : y = c := by
          have := List.head?_dropWhile_not (fun x => decide (x ≠ c)) l
          rw [hd] at this
          simpa using this
        subst hy
        rw [hd] at this
        exact .inr ⟨ys, this.symm⟩

/-- **C120 (no comments).** Without comment characters the data are the lines of the file. -/
theorem C120_none (lines : List Str) : setFile none none lines = .ok lines := by simp [setFile]

/-- **C120 refuted (comments of whole lines only).** All other lines lose everything behind their first word. -/
theorem C120_full_line_refuted : setFile none (some '#') ["# head\n".toList, "mach 0.8 1.2\n".toList] = .ok ["mach".toList] := by decide +kernel

/-- **C120 refuted (blank lines).** And a blank line raises IndexError. -/
theorem C120_blank_line_refuted : setFile none (some '#') ["1 2\n".toList, "\n".toList] = .error .IndexError := by decide +kernel

example : setFile (some '#') (some '*') ["* head\n".toList, "mach 0.8 # 1.2\n".toList, "x\n".toList] = .ok ["mach 0.8 ".toList, "x\n".toList] := by decide +kernel

end OpenMDAO
