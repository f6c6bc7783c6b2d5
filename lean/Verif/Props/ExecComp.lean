import Verif.Lemmas.ExecComp
import Verif.Lemmas.Totals
import Verif.Props.Paths
/-! # Properties of the construction of `ExecComp` (C70, C71) -/
namespace OpenMDAO
set_option linter.unusedSectionVars false

/-! ### C70 -/

/-- A statement: left-hand side and right-hand side. -/
abbrev EStmt := List ETok × List ETok

/-- All tokens of a statement. -/
def EStmt.toks (s : EStmt) : List ETok := s.1 ++ .sym '=' :: s.2

/-- The text of a statement. -/
def EStmt.text (s : EStmt) : Str := tokText s.toks

/-- The statement is divided into its tokens and the equals sign is the first one. -/
def EStmt.Ok (s : EStmt) : Prop := Tokens s.toks ∧ ETok.sym '=' ∉ s.1

theorem parseForVars_spec (known : List Str) (ts : List ETok) (h : Tokens ts) (x : Str) :
    x ∈ parseForVars known (tokText ts) ↔ x ∈ varNames ts ∧ x ∉ known := by
  unfold parseForVars
  rw [List.mem_dedup, List.mem_map]
  have hs : findNames (tokText ts).length (tokText ts) = markedNames ts := scan_tokens ts h
  rw [hs]
  constructor
  · rintro ⟨⟨y, b⟩, hy, rfl⟩
    rw [List.mem_filter] at hy
    simp only [Bool.and_eq_true, Bool.not_eq_true', List.contains_eq_mem, decide_eq_false_iff_not] at hy
    obtain ⟨h1, h2, h3⟩ := hy
    subst h2
    exact ⟨(mem_markedNames ts y).mp h1, h3⟩
  · rintro ⟨h1, h2⟩
    refine ⟨(x, false), ?_, rfl⟩
    rw [List.mem_filter]
    exact ⟨(mem_markedNames ts x).mpr h1, by simpa using h2⟩

theorem tokens_left (a b : List ETok) (h : Tokens (a ++ b)) : Tokens a := by
  induction a with
  | nil => trivial
  | cons t a ih =>
    cases t with
    | name n =>
      obtain ⟨h1, h2, h3⟩ := h
      refine ⟨h1, ?_, ih h3⟩
      cases a with
      | nil => trivial
      | cons t a =>
        cases t with
        | name m => exact h2.elim
        | num m => exact h2.elim
        | sym c =>
          rcases h2 with h2 | h2
          · exact Or.inl h2
          · right
            cases a with
            | nil => trivial
            | cons t a => cases t with
              | name m => exact h2.elim
              | num m => trivial
              | sym m => trivial
    | num ds =>
      obtain ⟨h0, h1, h2, h3⟩ := h
      refine ⟨h0, h1, ?_, ih h3⟩
      cases a with
      | nil => trivial
      | cons t a => cases t with
        | name m => exact h2.elim
        | num m => trivial
        | sym m => trivial
    | sym c => exact ⟨h.1, ih h.2⟩

theorem eatPieces_chars (n : Str) (h : eatPieces n = []) : ∀ c ∈ n, isWordChar c = true ∨ c = ':' := by
  induction n using nameInduct with
  | h0 => simp
  | hw c s hw ih =>
    rw [eatPieces_word s hw] at h
    intro d hd
    rcases List.mem_cons.mp hd with rfl | hd
    · exact Or.inl hw
    · exact ih h d hd
  | hs c s h' hc => rw [eatPieces_stop s h' hc] at h; cases h
  | h1 => simp
  | hp d s hd ih =>
    have : eatPieces s = [] := by
      have h0 : isWordChar ':' = false := by decide
      simpa [eatPieces, h0, hd] using h
    intro c hc
    simp only [List.mem_cons] at hc
    rcases hc with rfl | rfl | hc
    · exact Or.inr rfl
    · exact Or.inl (wordChar_of_start hd)
    · exact ih this c hc
  | hn d s hd =>
    have h0 : isWordChar ':' = false := by decide
    simp [eatPieces, h0, hd] at h

theorem varName_chars {n : Str} (h : varNameOk n = true) : ∀ c ∈ n, isWordChar c = true ∨ c = ':' := by
  cases n with
  | nil => simp
  | cons c n =>
    simp only [varNameOk, Bool.and_eq_true, List.isEmpty_iff] at h
    intro d hd
    rcases List.mem_cons.mp hd with rfl | hd
    · exact Or.inl (wordChar_of_start h.1)
    · exact eatPieces_chars n h.2 d hd

theorem sym_in_text (ts : List ETok) (h : Tokens ts) (c : Char) (h1 : isWordChar c = false) (h2 : c ≠ ':') (h3 : c ≠ '.') :
    c ∈ tokText ts → ETok.sym c ∈ ts := by
  induction ts with
  | nil => simp [tokText]
  | cons t ts ih =>
    intro hc
    have hc : c ∈ t.text ∨ c ∈ tokText ts := by simpa [tokText] using hc
    cases t with
    | name n =>
      rcases hc with hc | hc
      · rcases varName_chars h.1 c hc with h' | h'
        · rw [h1] at h'; cases h'
        · exact absurd h' h2
      · exact List.mem_cons_of_mem _ (ih h.2.2 hc)
    | num n =>
      rcases hc with hc | hc
      · rcases h.2.1 c hc with h' | h'
        · exfalso
          have : isWordChar c = true := by
            simp only [Char.isDigit, Bool.and_eq_true, decide_eq_true_eq] at h'
            have e1 : '0' ≤ c := h'.1
            have e2 : c ≤ '9' := h'.2
            simp [isWordChar, e1, e2]
          rw [h1] at this; cases this
        · exact absurd h' h3
      · exact List.mem_cons_of_mem _ (ih h.2.2.2 hc)
    | sym d =>
      rcases hc with hc | hc
      · have : c = d := by simpa [ETok.text] using hc
        rw [this]; simp
      · exact List.mem_cons_of_mem _ (ih h.2 hc)

theorem lhsOf_text (s : EStmt) (h : s.Ok) : lhsOf s.text = .ok (tokText s.1) := by
  have hne : '=' ∉ tokText s.1 := fun hm => h.2 (sym_in_text s.1 (tokens_left _ _ h.1) '=' (by decide) (by decide) (by decide) hm)
  have ht : s.text = tokText s.1 ++ '=' :: tokText s.2 := by simp [EStmt.text, EStmt.toks, tokText, ETok.text]
  unfold lhsOf
  rw [ht, if_pos (by simp), (pyHead_spec '=' _ _ hne).1]

/-- A name that is a variable of some statement. -/
def IsVar (known : List Str) (stmts : List EStmt) (x : Str) : Prop := ∃ s ∈ stmts, x ∈ varNames s.toks ∧ x ∉ known

/-- A name that is assigned. -/
def IsAssigned (known : List Str) (stmts : List EStmt) (x : Str) : Prop := ∃ s ∈ stmts, x ∈ varNames s.1 ∧ x ∉ known

theorem scan_all (known : List Str) (stmts : List EStmt) (hs : ∀ s ∈ stmts, s.Ok) :
    ∃ st, (stmts.map EStmt.text).foldlM (scanExpr known) ([], []) = .ok st ∧ st.2.Nodup ∧
      (∀ x, x ∈ st.1 ↔ IsAssigned known stmts x) ∧ (∀ x, x ∈ st.2 ↔ IsVar known stmts x) := by
  rw [List.foldlM_map]
  obtain ⟨st, h1, h2⟩ := foldlM_ok (fun st (s : EStmt) => scanExpr known st s.text) stmts
    (fun pre st => st.2.Nodup ∧ (∀ x, x ∈ st.1 ↔ IsAssigned known pre x) ∧ (∀ x, x ∈ st.2 ↔ IsVar known pre x))
    (by
      rintro pre s st hmem ⟨hn, ho, hv⟩
      have hok := hs s hmem
      refine ⟨(setUpdate st.1 (parseForVars known (tokText s.1)), setUpdate st.2 (parseForVars known s.text)), ?_, ?_, ?_, ?_⟩
      · simp only [scanExpr, lhsOf_text s hok]; rfl
      · exact List.nodup_dedup _
      · intro x
        simp only [setUpdate, List.mem_dedup, List.mem_append, ho, parseForVars_spec known s.1 (tokens_left _ _ hok.1) x]
        simp only [IsAssigned, List.mem_append, List.mem_singleton]
        grind
      · intro x
        simp only [setUpdate, List.mem_dedup, List.mem_append, hv, EStmt.text, parseForVars_spec known s.toks hok.1 x]
        simp only [IsVar, List.mem_append, List.mem_singleton]
        grind)
    ([], []) (by simp [IsAssigned, IsVar])
  exact ⟨st, h1, h2⟩

theorem merge_keys {V : Type} (kwargs l : List (Str × V)) (x : Str) :
    x ∈ (l.foldl (fun d kv => dictSet d kv.1 kv.2) kwargs).map Prod.fst ↔ x ∈ kwargs.map Prod.fst ∨ x ∈ l.map Prod.fst := by
  induction l generalizing kwargs with
  | nil => simp
  | cons kv l ih => rw [List.foldl_cons, ih, mem_keys_dictSet, List.map_cons, List.mem_cons]; grind

theorem merge_lookup {V : Type} (kwargs l : List (Str × V)) (hl : (l.map Prod.fst).Nodup) (x : Str) :
    (l.foldl (fun d kv => dictSet d kv.1 kv.2) kwargs).lookup x = (l.lookup x).or (kwargs.lookup x) := by
  induction l generalizing kwargs with
  | nil => simp
  | cons kv l ih =>
    rw [List.map_cons, List.nodup_cons] at hl
    rw [List.foldl_cons, ih _ hl.2, lookup_dictSet, List.lookup_cons]
    by_cases hx : x = kv.1
    · subst hx
      have : l.lookup kv.1 = none := by
        rw [List.lookup_eq_none_iff]
        intro p hp
        simp only [beq_eq_false_iff_ne, ne_eq, bne_iff_ne]
        intro he
        exact hl.1 (List.mem_map.mpr ⟨p, hp, he.symm⟩)
      simp [this]
    · rw [if_neg hx]
      have : (x == kv.1) = false := by simpa using hx
      rw [this]

theorem strLe_total (a b : Str) : strLe a b = true ∨ strLe b a = true := by
  induction a generalizing b with
  | nil => simp [strLe]
  | cons c a ih =>
    cases b with
    | nil => simp [strLe]
    | cons d b =>
      simp only [strLe]
      by_cases h1 : c.toNat < d.toNat
      · simp [h1]
      · by_cases h2 : d.toNat < c.toNat
        · simp [h2]
        · simpa [h1, h2] using ih b

theorem strLe_trans (a b c : Str) (h1 : strLe a b = true) (h2 : strLe b c = true) : strLe a c = true := by
  induction a generalizing b c with
  | nil => simp [strLe]
  | cons x a ih =>
    cases b with
    | nil => simp [strLe] at h1
    | cons y b =>
      cases c with
      | nil => simp [strLe] at h2
      | cons z c =>
        simp only [strLe] at h1 h2 ⊢
        split at h1
        · split at h2
          · rw [if_pos (by omega)]
          · split at h2
            · cases h2
            · rw [if_pos (by omega)]
        · split at h1
          · cases h1
          · split at h2
            · rw [if_pos (by omega)]
            · split at h2
              · cases h2
              · rw [if_neg (by omega), if_neg (by omega)]; exact ih b c h1 h2

/-- Strictly earlier in the order of code points. -/
def Earlier (a b : Str) : Prop := List.Lex (fun x y : Char => x.toNat < y.toNat) a b

theorem earlier_of_le (a b : Str) (h : strLe a b = true) (hne : a ≠ b) : Earlier a b := by
  induction a generalizing b with
  | nil => cases b with
    | nil => exact absurd rfl hne
    | cons d b => exact List.Lex.nil
  | cons c a ih =>
    cases b with
    | nil => simp [strLe] at h
    | cons d b =>
      simp only [strLe] at h
      split at h
      · exact List.Lex.rel (by assumption)
      · split at h
        · cases h
        · have : c = d := Char.ext (UInt32.toNat_inj.mp (by
            have : c.toNat = d.toNat := by omega
            exact this))
          subst this
          exact List.Lex.cons (ih b h (fun he => hne (by rw [he])))

/-- The names of the keyword arguments, initial values and units. -/
def givenNames {V : Type} (kwargs : List (Str × V)) (inits : Option (List (Str × V))) (units : List (Str × Str)) : List Str :=
  kwargs.map Prod.fst ++ (inits.getD []).map Prod.fst ++ units.map Prod.fst

/-- **C70, declarations.** When every keyword, initial value and unit belongs to a variable of the statements, the component declares each variable of the statements once, in alphabetical order: as an
output if it stands on the left of an equals sign and as a parameter otherwise, with the value given in `inits`, else by keyword, else zero, and with the given units. Numbers with exponent are
excluded (`C70_exponent_refuted`). -/
theorem C70_declared_partial {V : Type} (zero : V) (known : List Str) (stmts : List EStmt) (hs : ∀ s ∈ stmts, s.Ok) (kwargs : List (Str × V)) (inits : Option (List (Str × V))) (units : List (Str × Str))
    (hi : ((inits.getD []).map Prod.fst).Nodup) (hgiven : ∀ x ∈ givenNames kwargs inits units, IsVar known stmts x) :
    ∃ ds, execInit zero known (stmts.map EStmt.text) kwargs inits units = .ok ds ∧ (ds.map ExecVar.name).Pairwise Earlier ∧
      (∀ x, x ∈ ds.map ExecVar.name ↔ IsVar known stmts x) ∧
      ∀ d ∈ ds, (d.isOut = true ↔ IsAssigned known stmts d.name) ∧
        d.val = (((inits.getD []).lookup d.name).or (kwargs.lookup d.name)).getD zero ∧ d.units = units.lookup d.name := by
  obtain ⟨st, h1, hnd, ho, hv⟩ := scan_all known stmts hs
  have e1 : ((mergeInits kwargs inits).any fun kv => !st.2.contains kv.1) = false := by
    rw [List.any_eq_false]
    intro kv hkv
    have : kv.1 ∈ givenNames kwargs inits units := by
      have := (merge_keys kwargs (inits.getD []) kv.1).mp (List.mem_map.mpr ⟨kv, hkv, rfl⟩)
      simp only [givenNames, List.mem_append]
      exact Or.inl this
    simpa using (hv kv.1).mpr (hgiven _ this)
  have e2 : (units.any fun kv => !st.2.contains kv.1) = false := by
    rw [List.any_eq_false]
    intro kv hkv
    have : kv.1 ∈ givenNames kwargs inits units := by
      simp only [givenNames, List.mem_append]
      exact Or.inr (List.mem_map.mpr ⟨kv, hkv, rfl⟩)
    simpa using (hv kv.1).mpr (hgiven _ this)
  have hp := List.perm_insertionSort (fun a b => strLe a b = true) st.2
  have hnames : (List.map ExecVar.name ((st.2.insertionSort fun a b => strLe a b = true).map (execVar zero st.1 (mergeInits kwargs inits) units))) =
      st.2.insertionSort fun a b => strLe a b = true := by
    rw [List.map_map]
    exact (List.map_congr_left (fun _ _ => rfl)).trans (List.map_id _)
  refine ⟨(st.2.insertionSort fun a b => strLe a b = true).map (execVar zero st.1 (mergeInits kwargs inits) units), ?_, ?_, ?_, ?_⟩
  · unfold execInit
    simp only [h1, bind, Except.bind, pure, Except.pure, e1, e2, Bool.false_eq_true, if_false]
  · rw [hnames]
    have : Std.Total (fun a b : Str => strLe a b = true) := ⟨strLe_total⟩
    have : IsTrans Str (fun a b : Str => strLe a b = true) := ⟨strLe_trans⟩
    have hsort := List.pairwise_insertionSort (fun a b : Str => strLe a b = true) st.2
    exact (hsort.and (hp.nodup_iff.mpr hnd)).imp fun h => earlier_of_le _ _ h.1 h.2
  · intro x
    rw [hnames, hp.mem_iff, hv]
  · intro d hd
    obtain ⟨v, hv', rfl⟩ := List.mem_map.mp hd
    refine ⟨?_, ?_, rfl⟩
    · rw [← ho]; simp [execVar]
    · simp only [execVar, mergeInits]
      rw [merge_lookup _ _ hi]

/-- **C70, foreign keywords.** A keyword, initial value or unit for a name that is not a variable of the statements is refused with a `RuntimeError`. -/
theorem C70_unknown_keyword_partial {V : Type} (zero : V) (known : List Str) (stmts : List EStmt) (hs : ∀ s ∈ stmts, s.Ok) (kwargs : List (Str × V)) (inits : Option (List (Str × V))) (units : List (Str × Str))
    (x : Str) (hx : x ∈ givenNames kwargs inits units) (hno : ¬ IsVar known stmts x) :
    execInit zero known (stmts.map EStmt.text) kwargs inits units = .error .RuntimeError := by
  obtain ⟨st, h1, -, -, hv⟩ := scan_all known stmts hs
  unfold execInit
  simp only [h1, bind, Except.bind, pure, Except.pure]
  by_cases e1 : ((mergeInits kwargs inits).any fun kv => !st.2.contains kv.1) = true
  · rw [if_pos e1]
  · rw [if_neg e1, if_pos]
    rw [List.any_eq_true]
    simp only [givenNames, List.mem_append] at hx
    rcases hx with hx | hx
    · exfalso; apply e1
      obtain ⟨kv, hkv, he⟩ := List.mem_map.mp ((merge_keys kwargs (inits.getD []) x).mpr hx)
      rw [List.any_eq_true]
      exact ⟨kv, hkv, by rw [he]; simpa [hv] using hno⟩
    · obtain ⟨kv, hkv, he⟩ := List.mem_map.mp hx
      exact ⟨kv, hkv, by rw [he]; simpa [hv] using hno⟩

/-- **C70, no assignment.** A statement without equals sign is refused with a `ValueError`, whatever the other statements are. -/
theorem C70_no_assignment {V : Type} (zero : V) (known exprs : List Str) (kwargs : List (Str × V)) (inits : Option (List (Str × V))) (units : List (Str × Str)) (e : Str) (he : e ∈ exprs) (hne : '=' ∉ e) :
    execInit zero known exprs kwargs inits units = .error .ValueError := by
  have gen : ∀ (l : List Str) st, e ∈ l → l.foldlM (scanExpr known) st = .error .ValueError := by
    intro l
    induction l with
    | nil => simp
    | cons x l ih =>
      intro st hm
      rw [List.foldlM_cons]
      by_cases hx : '=' ∈ x
      · have : e ∈ l := by
          rcases List.mem_cons.mp hm with rfl | h
          · exact absurd hx hne
          · exact h
        simp only [scanExpr, lhsOf, List.contains_eq_mem, hx, decide_true, if_true, bind, Except.bind, pure, Except.pure]
        exact ih _ this
      · simp [scanExpr, lhsOf, hx, bind, Except.bind]
  unfold execInit
  simp only [gen exprs _ he, bind, Except.bind]

/-- The text `y=2.5*f(x)+a:b`. -/
def execToks : EStmt := ([.name ['y']], [.num ['2', '.', '5'], .sym '*', .name ['f'], .sym '(', .name ['x'], .sym ')', .sym '+', .name ['a', ':', 'b']])

example : execToks.text = "y=2.5*f(x)+a:b".toList := by decide +kernel

example : execToks.Ok := by
  refine ⟨?_, by decide⟩
  simp only [execToks, EStmt.toks, List.cons_append, List.nil_append, Tokens]
  decide +kernel

example : execInit (0 : Int) [] [execToks.text] [("x".toList, 3)] (some [("y".toList, 4)]) [("x".toList, "ft".toList)] =
    .ok [⟨"a:b".toList, false, 0, none⟩, ⟨"x".toList, false, 3, some "ft".toList⟩, ⟨"y".toList, true, 4, none⟩] := by decide +kernel

example : execInit (0 : Int) [] [execToks.text] [("z".toList, 3)] none [] = .error .RuntimeError := by decide +kernel

/-- **C70, numbers with exponent.** The claim fails for numbers written with an exponent: `y=1e3*x` makes the component declare a parameter `e3`, which is not a variable of the statement. -/
theorem C70_exponent_refuted : execInit (0 : Int) [] ["y=1e3*x".toList] [] none [] =
    .ok [⟨"e3".toList, false, 0, none⟩, ⟨"x".toList, false, 0, none⟩, ⟨"y".toList, true, 0, none⟩] := by decide +kernel

/-- Two variables that are the bounds of a slice are taken for one variable with a colon in its name. -/
theorem finding_slice_bounds : execInit (0 : Int) [] ["y=x[i:j]".toList] [] none [] =
    .ok [⟨"i:j".toList, false, 0, none⟩, ⟨"x".toList, false, 0, none⟩, ⟨"y".toList, true, 0, none⟩] := by decide +kernel

/-- The keywords of a call are taken for parameters. -/
theorem finding_call_keyword : execInit (0 : Int) ["numpy".toList] ["y=numpy.sum(x,axis=0)".toList] [] none [] =
    .ok [⟨"axis".toList, false, 0, none⟩, ⟨"x".toList, false, 0, none⟩, ⟨"y".toList, true, 0, none⟩] := by decide +kernel

/-! ### C71 -/

theorem noColon_cons (i : Nat) (c : Char) (s : Str) : noColon i (c :: s) = (if c = ':' then natStr i else [c]) ++ noColon i s := by
  simp [noColon, List.flatMap_cons]

theorem noColon_none (i : Nat) (s : Str) : ':' ∉ noColon i s := by
  induction s with
  | nil => simp [noColon]
  | cons c s ih =>
    rw [noColon_cons, List.mem_append, not_or]
    refine ⟨?_, ih⟩
    split
    · exact natStr_not (by decide)
    · rename_i h; simpa using fun h' => h h'.symm

theorem noColon_length (i : Nat) (s : Str) (h : ':' ∈ s) : (natStr i).length ≤ (noColon i s).length := by
  induction s with
  | nil => cases h
  | cons c s ih =>
    rw [noColon_cons, List.length_append]
    rcases List.mem_cons.mp h with h | h
    · rw [if_pos h.symm]; omega
    · have := ih h; omega

theorem validNameLoop_spec (check s : Str) (n i : Nat) :
    ∃ k, validNameLoop check s n i = noColon (i + k) s ∧ (hasSub (noColon (i + k) s) check = false ∨ k = n) := by
  induction n generalizing i with
  | zero => exact ⟨0, rfl, Or.inr rfl⟩
  | succ n ih =>
    unfold validNameLoop
    by_cases h : hasSub (noColon i s) check = true
    · rw [if_pos h]
      obtain ⟨k, h1, h2⟩ := ih (i + 1)
      refine ⟨k + 1, ?_, ?_⟩
      · rw [h1]; congr 1; omega
      · rw [show i + (k + 1) = i + 1 + k by omega]
        rcases h2 with h2 | h2
        · exact Or.inl h2
        · exact Or.inr (by omega)
    · rw [if_neg h]
      exact ⟨0, rfl, Or.inl (by simpa using h)⟩

/-- The replacement for a name with colons replaces them by a number and does not occur in the statements. -/
theorem validName_fresh (s : Str) (exprs : List Str) (h : ':' ∈ s) :
    (∃ i, validName s exprs = noColon i s) ∧ ¬ validName s exprs <:+: joinExprs exprs := by
  obtain ⟨k, h1, h2⟩ := validNameLoop_spec (joinExprs exprs) s (10 ^ ((joinExprs exprs).length + 1)) 0
  rw [Nat.zero_add] at h1 h2
  refine ⟨⟨k, h1⟩, ?_⟩
  unfold validName
  rw [h1, ← hasSub_iff]
  rcases h2 with h2 | h2
  · rw [h2]; decide
  · rw [hasSub_iff]
    intro hin
    have hl := hin.length_le
    have h3 := noColon_length k s h
    have h4 : ¬ (natStr k).length ≤ (joinExprs exprs).length + 1 := by
      unfold natStr
      rw [Nat.length_toDigits_le_iff (by decide) (by omega), h2]
      exact Nat.lt_irrefl _
    omega

theorem natStr_ne_nil (n : Nat) : natStr n ≠ [] := Nat.toDigits_ne_nil

theorem takeWhile_digits (i : Nat) (d : Char) (s : Str) (h : d.isDigit = false) : (natStr i ++ d :: s).takeWhile Char.isDigit = natStr i := by
  rw [List.takeWhile_append_of_pos (fun c hc => natStr_digit hc), List.takeWhile_cons_of_neg (by simp [h]), List.append_nil]

theorem start_not_digit {c : Char} (h : isWordStart c = true) : c.isDigit = false := by
  cases hd : c.isDigit
  · rfl
  · rw [digit_not_start hd] at h; cases h

theorem noColon_inj (i j : Nat) (s t : Str) (hs : eatPieces s = []) (ht : eatPieces t = []) (ds : ∀ c ∈ s, c.isDigit = false) (dt : ∀ c ∈ t, c.isDigit = false)
    (h : noColon i s = noColon j t) : s = t := by
  have h0 : isWordChar ':' = false := by decide
  have piece : ∀ {d : Char} {s : Str}, isWordStart d = true → eatPieces (':' :: d :: s) = [] → eatPieces s = [] := by
    intro d s hd h
    simpa [eatPieces, h0, hd] using h
  have nopiece : ∀ {d : Char} {s : Str}, isWordStart d = false → eatPieces (':' :: d :: s) ≠ [] := by
    intro d s hd
    simp [eatPieces, h0, hd]
  have headDigit : ∀ (n : Nat) (s : Str) (c : Char) (t : Str), c.isDigit = false → natStr n ++ s ≠ c :: t := by
    intro n s c t hc he
    cases hn : natStr n with
    | nil => exact natStr_ne_nil n hn
    | cons a l =>
      have : a.isDigit = true := natStr_digit (n := n) (by rw [hn]; simp)
      rw [hn, List.cons_append, List.cons.injEq] at he
      rw [he.1, hc] at this; cases this
  induction s using nameInduct generalizing t with
  | h0 =>
    cases t with
    | nil => rfl
    | cons c t =>
      exfalso
      rw [noColon_cons] at h
      simp only [noColon, List.flatMap_nil] at h
      have h := h.symm
      rw [List.append_eq_nil_iff] at h
      have h := h.1
      split at h
      · exact natStr_ne_nil j h
      · cases h
  | hw c s hw ih =>
    have hc : c ≠ ':' := by intro hc; subst hc; rw [h0] at hw; cases hw
    rw [noColon_cons, if_neg hc, List.singleton_append] at h
    rw [eatPieces_word s hw] at hs
    cases t with
    | nil => simp [noColon] at h
    | cons d t =>
      rw [noColon_cons] at h
      by_cases hd : d = ':'
      · rw [if_pos hd] at h
        exact absurd h.symm (headDigit j _ c _ (ds c (by simp)))
      · rw [if_neg hd, List.singleton_append, List.cons.injEq] at h
        have hdw : isWordChar d = true := by rw [← h.1]; exact hw
        rw [eatPieces_word t hdw] at ht
        rw [h.1, ih t hs ht (fun c hc => ds c (by simp [hc])) (fun c hc => dt c (by simp [hc])) h.2]
  | hs c s h' hc => rw [eatPieces_stop s h' hc] at hs; cases hs
  | h1 => exact absurd hs (by decide)
  | hp d s hd ih =>
    have hdc : d ≠ ':' := by intro hc; subst hc; exact absurd hd (by decide)
    rw [noColon_cons, if_pos rfl, noColon_cons, if_neg hdc, List.singleton_append] at h
    have hs' := piece hd hs
    cases t with
    | nil =>
      exfalso
      simp [noColon] at h
    | cons e t =>
      by_cases he : e = ':'
      · subst he
        cases t with
        | nil => exact absurd ht (by decide)
        | cons e t =>
          have hest : isWordStart e = true := by
            cases hh : isWordStart e
            · exact absurd ht (nopiece hh)
            · rfl
          have hec : e ≠ ':' := by intro hc; subst hc; exact absurd hest (by decide)
          rw [noColon_cons, if_pos rfl, noColon_cons, if_neg hec, List.singleton_append] at h
          have e1 : natStr i = natStr j := by
            rw [← takeWhile_digits i d (noColon i s) (start_not_digit hd), h, takeWhile_digits j e _ (start_not_digit hest)]
          rw [e1, List.append_cancel_left_eq, List.cons.injEq] at h
          rw [h.1, ih t hs' (piece hest ht) (fun c hc => ds c (by simp [hc])) (fun c hc => dt c (by simp [hc])) h.2]
      · rw [noColon_cons, if_neg he, List.singleton_append] at h
        exact absurd h (headDigit i _ e _ (dt e (by simp)))
  | hn d s hd => exact absurd hs (nopiece hd)

theorem replaceStr_skip (a b u rest : Str) (k : Nat) (h : u.length = k) : replaceStr a b k (u ++ rest) = replaceStr a b 0 rest := by
  induction u generalizing k with
  | nil => subst h; rfl
  | cons c u ih => subst h; rw [List.cons_append, List.length_cons, replaceStr]; exact ih _ rfl

theorem replaceStr_no {a : Str} (b : Str) {c : Char} (s : Str) (h : ¬ a <+: c :: s) : replaceStr a b 0 (c :: s) = c :: replaceStr a b 0 s := by
  rw [replaceStr, if_neg]
  rwa [List.isPrefixOf_iff_prefix]

theorem replaceStr_yes {a : Str} (b rest : Str) (ha : a ≠ []) : replaceStr a b 0 (a ++ rest) = b ++ replaceStr a b 0 rest := by
  cases a with
  | nil => exact absurd rfl ha
  | cons c a =>
    rw [List.cons_append, replaceStr, if_pos (by rw [List.isPrefixOf_iff_prefix, ← List.cons_append]; exact List.prefix_append _ _)]
    rw [replaceStr_skip _ _ _ _ _ (by simp)]

theorem colon_followed (u v : Str) (h : eatPieces (u ++ ':' :: v) = []) : ∃ d w, v = d :: w ∧ isWordStart d = true := by
  have h0 : isWordChar ':' = false := by decide
  induction u using nameInduct with
  | h0 =>
    cases v with
    | nil => exact absurd h (by decide)
    | cons d w =>
      refine ⟨d, w, rfl, ?_⟩
      cases hd : isWordStart d
      · simp [eatPieces, h0, hd] at h
      · rfl
  | hw c s hw ih => rw [List.cons_append, eatPieces_word _ hw] at h; exact ih h
  | hs c s h' hc => rw [List.cons_append, eatPieces_stop _ h' hc] at h; cases h
  | h1 =>
    have hd : isWordStart ':' = false := by decide
    simp [eatPieces, h0, hd] at h
  | hp d s hd ih =>
    apply ih
    simpa [eatPieces, h0, hd] using h
  | hn d s hd => simp [eatPieces, h0, hd] at h

/-- Where a name can occur in a text: inside a name. -/
theorem prefix_inside {a u rest : Str} (ha : varNameOk a = true) (hr : NameEnds rest) (hu : u ≠ []) (h : a <+: u ++ rest) : a <+: u := by
  rcases List.prefix_or_prefix_of_prefix h (List.prefix_append u rest) with h' | ⟨v, rfl⟩
  · exact h'
  · rw [List.prefix_append_right_inj] at h
    cases v with
    | nil => rw [List.append_nil]
    | cons c v =>
      exfalso
      obtain ⟨w, rfl⟩ := h
      obtain ⟨h1, h2⟩ := hr
      have hc : c = ':' := by
        rcases varName_chars ha c (by simp) with h | h
        · rw [h1] at h; cases h
        · exact h
      subst hc
      cases u with
      | nil => exact hu rfl
      | cons x u =>
        simp only [List.cons_append, varNameOk, Bool.and_eq_true, List.isEmpty_iff] at ha
        obtain ⟨d, w', rfl, hd⟩ := colon_followed u v ha.2
        have := h2 rfl
        rw [this] at hd; cases hd

theorem renameToks_cons (f : Str → Str) (t : ETok) (ts : List ETok) : renameToks f (t :: ts) = renameToks f [t] ++ renameToks f ts := rfl

theorem tokText_cons (t : ETok) (ts : List ETok) : tokText (t :: ts) = t.text ++ tokText ts := by simp [tokText]

theorem replace_name {a : Str} (b n rest : Str) (ha : varNameOk a = true) (hr : NameEnds rest) (hno : ¬ a <:+: n) :
    replaceStr a b 0 (n ++ rest) = n ++ replaceStr a b 0 rest := by
  induction n with
  | nil => rfl
  | cons c n ih =>
    rw [List.cons_append, replaceStr_no, ih, List.cons_append]
    · exact fun h => hno (List.infix_cons_iff.mpr (Or.inr h))
    · intro h
      exact hno (prefix_inside ha hr (u := c :: n) (by simp) h).isInfix

theorem replace_other {a : Str} (b u rest : Str) (ha : varNameOk a = true) (hu : ∀ c ∈ u, isWordStart c = false) :
    replaceStr a b 0 (u ++ rest) = u ++ replaceStr a b 0 rest := by
  induction u with
  | nil => rfl
  | cons c u ih =>
    rw [List.cons_append, replaceStr_no, ih (fun d hd => hu d (by simp [hd])), List.cons_append]
    cases a with
    | nil => simp [varNameOk] at ha
    | cons x a =>
      simp only [varNameOk, Bool.and_eq_true] at ha
      intro h
      have := (List.cons_prefix_cons.mp h).1
      rw [this, hu c (by simp)] at ha
      exact absurd ha.1 (by simp)

/-- Replacing a name in the text is replacing it among the tokens, if it does not occur inside another name. -/
theorem replace_tokens {a : Str} (b : Str) (ha : varNameOk a = true) (ts : List ETok) (h : Tokens ts) (hsub : ∀ n ∈ allNames ts, a <:+: n → a = n) :
    replaceStr a b 0 (tokText ts) = tokText (renameToks (fun n => if n = a then b else n) ts) := by
  induction ts with
  | nil => rfl
  | cons t ts ih =>
    cases t with
    | name n =>
      have he := tokens_ends h
      have ih := ih h.2.2 (fun m hm => hsub m (by simp [allNames, hm]))
      rw [renameToks_cons, tokText_cons]
      by_cases hn : n = a
      · subst hn
        have hne : n ≠ [] := by intro h'; subst h'; simp [varNameOk] at ha
        simp only [ETok.text]
        rw [replaceStr_yes _ _ hne, ih]
        simp [renameToks, tokText, ETok.text]
      · simp only [ETok.text]
        rw [replace_name b n _ ha he (fun hi => hn (hsub n (by simp [allNames]) hi).symm), ih]
        simp [renameToks, tokText, ETok.text, hn]
    | num ds =>
      have ih := ih h.2.2.2 (fun m hm => hsub m (by simp [allNames, hm]))
      rw [renameToks_cons, tokText_cons]
      simp only [ETok.text]
      rw [replace_other b ds _ ha (fun c hc => numChar_not_start (h.2.1 c hc)), ih]
      simp [renameToks, tokText, ETok.text]
    | sym c =>
      have ih := ih h.2 (fun m hm => hsub m (by simp [allNames, hm]))
      rw [renameToks_cons, tokText_cons]
      simp only [ETok.text]
      rw [replace_other b [c] _ ha (fun d hd => by rw [List.mem_singleton.mp hd]; exact start_of_wordChar h.1), ih]
      simp [renameToks, tokText, ETok.text]

theorem tokens_rename (f : Str → Str) (ts : List ETok) (h : Tokens ts) (hf : ∀ n ∈ allNames ts, varNameOk n = true → varNameOk (f n) = true) : Tokens (renameToks f ts) := by
  induction ts with
  | nil => trivial
  | cons t ts ih =>
    cases t with
    | name n =>
      obtain ⟨h1, h2, h3⟩ := h
      refine ⟨hf n (by simp [allNames]) h1, ?_, ih h3 (fun m hm => hf m (by simp [allNames, hm]))⟩
      cases ts with
      | nil => trivial
      | cons t ts =>
        cases t with
        | name m => exact h2.elim
        | num m => exact h2.elim
        | sym c =>
          rcases h2 with h2 | h2
          · exact Or.inl h2
          · right
            cases ts with
            | nil => trivial
            | cons t ts => cases t with
              | name m => exact h2.elim
              | num m => trivial
              | sym m => trivial
    | num ds =>
      obtain ⟨h0, h1, h2, h3⟩ := h
      refine ⟨h0, h1, ?_, ih h3 (fun m hm => hf m (by simpa [allNames] using hm))⟩
      cases ts with
      | nil => trivial
      | cons t ts => cases t with
        | name m => exact h2.elim
        | num m => trivial
        | sym m => trivial
    | sym c => exact ⟨h.1, ih h.2 (fun m hm => hf m (by simpa [allNames] using hm))⟩

theorem allNames_rename (f : Str → Str) (ts : List ETok) : allNames (renameToks f ts) = (allNames ts).map f := by
  induction ts with
  | nil => rfl
  | cons t ts ih => cases t <;> simp_all [renameToks, allNames]

theorem renameToks_comp (f g : Str → Str) (ts : List ETok) : renameToks f (renameToks g ts) = renameToks (fun n => f (g n)) ts := by
  induction ts with
  | nil => rfl
  | cons t ts ih => cases t <;> simp_all [renameToks]

theorem renameToks_congr (f g : Str → Str) (ts : List ETok) (h : ∀ n ∈ allNames ts, f n = g n) : renameToks f ts = renameToks g ts := by
  induction ts with
  | nil => rfl
  | cons t ts ih =>
    cases t with
    | name n =>
      have := ih (fun m hm => h m (by simp [allNames, hm]))
      have h1 := h n (by simp [allNames])
      simp_all [renameToks]
    | num n => have := ih (fun m hm => h m (by simpa [allNames] using hm)); simp_all [renameToks]
    | sym n => have := ih (fun m hm => h m (by simpa [allNames] using hm)); simp_all [renameToks]

theorem eatPieces_words (s : Str) (h : ∀ c ∈ s, isWordChar c = true) : eatPieces s = [] := by
  induction s with
  | nil => rfl
  | cons c s ih => rw [eatPieces_word s (h c (by simp)), ih (fun d hd => h d (by simp [hd]))]

theorem digit_wordChar {c : Char} (h : c.isDigit = true) : isWordChar c = true := by
  simp only [Char.isDigit, Bool.and_eq_true, decide_eq_true_eq] at h
  have e1 : '0' ≤ c := h.1
  have e2 : c ≤ '9' := h.2
  simp [isWordChar, e1, e2]

theorem noColon_ok (i : Nat) (n : Str) (h : varNameOk n = true) : varNameOk (noColon i n) = true := by
  cases n with
  | nil => simp [varNameOk] at h
  | cons c n =>
    have h' := varName_chars h
    simp only [varNameOk, Bool.and_eq_true, List.isEmpty_iff] at h
    have hc : c ≠ ':' := by intro hc; subst hc; exact absurd h.1 (by decide)
    rw [noColon_cons, if_neg hc, List.singleton_append]
    simp only [varNameOk, Bool.and_eq_true, List.isEmpty_iff]
    refine ⟨h.1, eatPieces_words _ ?_⟩
    intro d hd
    simp only [noColon, List.mem_flatMap] at hd
    obtain ⟨e, he, hd⟩ := hd
    split at hd
    · exact digit_wordChar (natStr_digit hd)
    · rename_i hne
      rw [List.mem_singleton.mp hd]
      exact (h' e (by simp [he])).resolve_right hne

theorem toks_names_ok (ts : List ETok) (h : Tokens ts) : ∀ n ∈ allNames ts, varNameOk n = true := by
  induction ts with
  | nil => simp [allNames]
  | cons t ts ih =>
    cases t with
    | name n =>
      intro m hm
      rcases List.mem_cons.mp hm with rfl | hm
      · exact h.1
      · exact ih h.2.2 m hm
    | num n => exact ih h.2.2.2
    | sym n => exact ih h.2

theorem varNames_all (ts : List ETok) : ∀ n ∈ varNames ts, n ∈ allNames ts := by
  induction ts with
  | nil => simp [varNames]
  | cons t ts ih =>
    cases t with
    | name n =>
      intro m hm
      simp only [varNames] at hm
      simp only [allNames, List.mem_cons]
      split at hm
      · exact Or.inr (ih m hm)
      · rcases List.mem_cons.mp hm with h | h
        · exact Or.inl h
        · exact Or.inr (ih m h)
    | num n => exact ih
    | sym n => exact ih

theorem name_in_text (ts : List ETok) : ∀ n ∈ allNames ts, n <:+: tokText ts := by
  induction ts with
  | nil => simp [allNames]
  | cons t ts ih =>
    intro m hm
    rw [tokText_cons]
    cases t with
    | name n =>
      rcases List.mem_cons.mp hm with rfl | hm
      · exact (List.prefix_append _ _).isInfix
      · exact (ih m hm).trans (List.suffix_append _ _).isInfix
    | num n => exact (ih m hm).trans (List.suffix_append _ _).isInfix
    | sym n => exact (ih m hm).trans (List.suffix_append _ _).isInfix

theorem infix_join (c : Char) (l : List Str) (e : Str) (he : e ∈ l) : e <:+: pyJoin c l := by
  induction l with
  | nil => cases he
  | cons x l ih =>
    cases l with
    | nil =>
      rw [List.mem_singleton.mp he]
      exact List.infix_rfl
    | cons y l =>
      simp only [pyJoin]
      rcases List.mem_cons.mp he with rfl | he
      · exact (List.prefix_append _ _).isInfix
      · exact (ih he).trans ((List.suffix_cons c _).trans (List.suffix_append _ _)).isInfix

theorem lookup_toColons (f : Str → Str) (vars : List Str) (n : Str) (hinj : ∀ m ∈ vars, f m = f n → m = n) (d : List (Str × Str))
    (h : n ∈ vars ∨ d.lookup (f n) = some n) : (vars.foldl (fun d m => dictSet d (f m) m) d).lookup (f n) = some n := by
  induction vars generalizing d with
  | nil => simpa using h
  | cons m vars ih =>
    rw [List.foldl_cons]
    apply ih (fun x hx => hinj x (by simp [hx]))
    by_cases hm : f n = f m
    · right
      rw [lookup_dictSet, if_pos hm, hinj m (by simp) hm.symm]
    · rcases h with h | h
      · rcases List.mem_cons.mp h with rfl | h
        · exact absurd rfl hm
        · exact Or.inl h
      · right; rw [lookup_dictSet, if_neg hm, h]

/-- **C71, names with colons.** If names with colons contain no digits and do not occur inside other names, the compiled statements are the given statements with every variable renamed to a python name,
and the names are translated back to the variables they stand for, whatever the order in which the sets are passed. -/
theorem C71_transparent_partial (known : List Str) (stmts : List EStmt) (hs : ∀ s ∈ stmts, s.Ok) (vars order : List Str) (hv : ∀ x, x ∈ vars ↔ IsVar known stmts x)
    (ho : ∀ x, x ∈ order ↔ x ∈ vars ∧ ':' ∈ x)
    (hdig : ∀ x, IsVar known stmts x → ':' ∈ x → ∀ c ∈ x, c.isDigit = false)
    (hsub : ∀ x, IsVar known stmts x → ':' ∈ x → ∀ s ∈ stmts, ∀ n ∈ allNames s.toks, x <:+: n → x = n) :
    ∃ f : Str → Str, (∀ x, IsVar known stmts x → ':' ∉ f x ∧ varNameOk (f x) = true ∧ (toColons (stmts.map EStmt.text) vars).lookup (f x) = some x) ∧
      (∀ x, ¬ IsVar known stmts x → f x = x) ∧
      ∀ s ∈ stmts, compileText (stmts.map EStmt.text) order s.text = tokText (renameToks f s.toks) := by
  have hok : ∀ x, IsVar known stmts x → varNameOk x = true := by
    rintro x ⟨s, hsm, hx, -⟩
    exact toks_names_ok _ (hs s hsm).1 x (varNames_all _ x hx)
  have hmk : ∀ x, varNameOk x = true → ':' ∈ x → ∃ i, fromColons (stmts.map EStmt.text) x = noColon i x := by
    intro x _ hc
    unfold fromColons
    rw [if_pos (by simpa using hc)]
    exact (validName_fresh x _ hc).1
  have hplain : ∀ x, ':' ∉ x → fromColons (stmts.map EStmt.text) x = x := by
    intro x hc
    unfold fromColons
    rw [if_neg (by simpa using hc)]
  have hfok : ∀ x, varNameOk x = true → varNameOk (fromColons (stmts.map EStmt.text) x) = true := by
    intro x hx
    by_cases hc : ':' ∈ x
    · obtain ⟨i, hi⟩ := hmk x hx hc
      rw [hi]; exact noColon_ok i x hx
    · rw [hplain x hc]; exact hx
  have hfnc : ∀ x, varNameOk x = true → ':' ∉ fromColons (stmts.map EStmt.text) x := by
    intro x hx
    by_cases hc : ':' ∈ x
    · obtain ⟨i, hi⟩ := hmk x hx hc
      rw [hi]; exact noColon_none i x
    · rw [hplain x hc]; exact hc
  have hinText : ∀ x, IsVar known stmts x → x <:+: joinExprs (stmts.map EStmt.text) := by
    rintro x ⟨s, hsm, hx, -⟩
    exact (name_in_text _ x (varNames_all _ x hx)).trans (infix_join ' ' _ _ (List.mem_map.mpr ⟨s, hsm, rfl⟩))
  have hfresh : ∀ x y, IsVar known stmts y → ':' ∈ x → ':' ∉ y → fromColons (stmts.map EStmt.text) x ≠ fromColons (stmts.map EStmt.text) y := by
    intro x y hy hcx hcy he
    rw [hplain y hcy] at he
    have h2 := (validName_fresh x (stmts.map EStmt.text) hcx).2
    unfold fromColons at he
    rw [if_pos (by simpa using hcx)] at he
    rw [he] at h2
    exact h2 (hinText y hy)
  have hinj : ∀ x y, IsVar known stmts x → IsVar known stmts y → fromColons (stmts.map EStmt.text) x = fromColons (stmts.map EStmt.text) y → x = y := by
    intro x y hx hy he
    by_cases hcx : ':' ∈ x
    · by_cases hcy : ':' ∈ y
      · obtain ⟨i, hi⟩ := hmk x (hok x hx) hcx
        obtain ⟨j, hj⟩ := hmk y (hok y hy) hcy
        rw [hi, hj] at he
        have ox := hok x hx
        have oy := hok y hy
        have dx := hdig x hx hcx
        have dy := hdig y hy hcy
        cases x with
        | nil => cases hcx
        | cons c x =>
          cases y with
          | nil => cases hcy
          | cons d y =>
            simp only [varNameOk, Bool.and_eq_true, List.isEmpty_iff] at ox oy
            have e1 := wordChar_of_start ox.1
            have e2 := wordChar_of_start oy.1
            apply noColon_inj i j _ _ _ _ dx dy he
            · rw [eatPieces_word _ e1]; exact ox.2
            · rw [eatPieces_word _ e2]; exact oy.2
      · exact absurd he (hfresh x y hy hcx hcy)
    · by_cases hcy : ':' ∈ y
      · exact absurd he.symm (hfresh y x hx hcy hcx)
      · rwa [hplain x hcx, hplain y hcy] at he
  refine ⟨fun x => if x ∈ order then fromColons (stmts.map EStmt.text) x else x, ?_, ?_, ?_⟩
  · intro x hx
    have hfx : (if x ∈ order then fromColons (stmts.map EStmt.text) x else x) = fromColons (stmts.map EStmt.text) x := by
      by_cases hxo : x ∈ order
      · rw [if_pos hxo]
      · rw [if_neg hxo, hplain x (fun hc => hxo ((ho x).mpr ⟨(hv x).mpr hx, hc⟩))]
    simp only [hfx]
    refine ⟨hfnc x (hok x hx), hfok x (hok x hx), ?_⟩
    exact lookup_toColons _ vars x (fun m hm he => hinj m x ((hv m).mp hm) hx he) [] (Or.inl ((hv x).mpr hx))
  · intro x hx
    exact if_neg (fun hxo => hx ((hv x).mp ((ho x).mp hxo).1))
  · intro s hsm
    have hT := (hs s hsm).1
    have hnok := toks_names_ok _ hT
    have gen : ∀ (l : List Str), (∀ x ∈ l, x ∈ order) → ∀ (done : List Str), (∀ x ∈ done, x ∈ order) →
        l.foldl (fun t n => replaceStr n (fromColons (stmts.map EStmt.text) n) 0 t) (tokText (renameToks (fun x => if x ∈ done then fromColons (stmts.map EStmt.text) x else x) s.toks)) =
          tokText (renameToks (fun x => if x ∈ done ++ l then fromColons (stmts.map EStmt.text) x else x) s.toks) := by
      intro l
      induction l with
      | nil => intro _ done _; simp
      | cons a l ih =>
        intro hl done hdone
        have ha := (ho a).mp (hl a (by simp))
        have hav := (hv a).mp ha.1
        rw [List.foldl_cons, replace_tokens _ (hok a hav)]
        · rw [renameToks_comp]
          have : renameToks (fun n => if (if n ∈ done then fromColons (stmts.map EStmt.text) n else n) = a then fromColons (stmts.map EStmt.text) a else
                (if n ∈ done then fromColons (stmts.map EStmt.text) n else n)) s.toks =
              renameToks (fun x => if x ∈ done ++ [a] then fromColons (stmts.map EStmt.text) x else x) s.toks := by
            apply renameToks_congr
            intro n hn
            by_cases hnd : n ∈ done
            · have : fromColons (stmts.map EStmt.text) n ≠ a := fun he => hfnc n (hnok n hn) (by rw [he]; exact ha.2)
              simp [hnd, this]
            · by_cases hna : n = a
              · subst hna; simp [hnd]
              · simp [hnd, hna]
          rw [this, ih (fun x hx => hl x (by simp [hx])) (done ++ [a])]
          · simp
          · intro x hx
            rcases List.mem_append.mp hx with hx | hx
            · exact hdone x hx
            · rw [List.mem_singleton.mp hx]; exact hl a (by simp)
        · apply tokens_rename _ _ hT
          intro n _ hn
          split
          · exact hfok n hn
          · exact hn
        · intro n hn hin
          rw [allNames_rename] at hn
          obtain ⟨m, hm, rfl⟩ := List.mem_map.mp hn
          by_cases hmd : m ∈ done
          · rw [if_pos hmd] at hin
            exact absurd (hin.subset ha.2) (hfnc m (hnok m hm))
          · rw [if_neg hmd] at hin ⊢
            exact hsub a hav ha.2 s hsm m hm hin
    have hid : renameToks (fun x => if x ∈ ([] : List Str) then fromColons (stmts.map EStmt.text) x else x) s.toks = s.toks := by
      have : ∀ ts : List ETok, renameToks (fun x => if x ∈ ([] : List Str) then fromColons (stmts.map EStmt.text) x else x) ts = ts := by
        intro ts
        induction ts with
        | nil => rfl
        | cons t ts ih => cases t <;> simp_all [renameToks]
      exact this _
    have := gen order (fun x hx => hx) [] (by simp)
    rw [hid, List.nil_append] at this
    exact this

/-- The statement `y=f(a:b)+a:b*c` with its variables. -/
def colonStmt : EStmt := ([.name ['y']], [.name ['f'], .sym '(', .name ['a', ':', 'b'], .sym ')', .sym '+', .name ['a', ':', 'b'], .sym '*', .name ['c', ':', 'd', ':', 'e']])

example : compileText [colonStmt.text] ["c:d:e".toList, "a:b".toList] colonStmt.text = "y=f(a0b)+a0b*c0d0e".toList ∧
    (toColons [colonStmt.text] ["a:b".toList, "y".toList, "c:d:e".toList]).lookup "c0d0e".toList = some "c:d:e".toList := by decide +kernel

example : (∀ x, x ∈ ["y".toList, "a:b".toList, "c:d:e".toList] ↔ IsVar [] [colonStmt] x) ∧ colonStmt.Ok ∧
    ∀ x ∈ ["y".toList, "a:b".toList, "c:d:e".toList], ':' ∈ x → (∀ c ∈ x, c.isDigit = false) ∧ ∀ n ∈ allNames colonStmt.toks, x <:+: n → x = n := by
  refine ⟨?_, ⟨?_, by decide⟩, by decide +kernel⟩
  · intro x
    simp only [IsVar, List.mem_singleton, exists_eq_left]
    rw [show varNames colonStmt.toks = ["y".toList, "a:b".toList, "a:b".toList, "c:d:e".toList] by decide +kernel]
    simp
  · simp only [colonStmt, EStmt.toks, List.cons_append, List.nil_append, Tokens]
    decide +kernel

/-- **C71, two names become one.** The variables `a:b:c` and `a:b0c` are both compiled to `a0b0c`: the statement `y=a:b:c-a:b0c` becomes `y=a0b0c-a0b0c` and computes zero whatever the two variables are. -/
theorem C71_collision_refuted (order : List Str) (h : order = ["a:b:c".toList, "a:b0c".toList] ∨ order = ["a:b0c".toList, "a:b:c".toList]) :
    compileText ["y=a:b:c-a:b0c".toList] order "y=a:b:c-a:b0c".toList = "y=a0b0c-a0b0c".toList := by
  rcases h with rfl | rfl <;> decide +kernel

/-- **C71, a name inside another one.** With the variables `a:b` and `a:b:c` the result depends on the order in which the set is passed: `y=a:b+a:b:c` is compiled to a valid statement in one order and
to the text `y=a0b+a0b:c` in the other one, which is no python statement. -/
theorem C71_prefix_refuted : compileText ["y=a:b+a:b:c".toList] ["a:b:c".toList, "a:b".toList] "y=a:b+a:b:c".toList = "y=a0b+a0b0c".toList ∧
    compileText ["y=a:b+a:b:c".toList] ["a:b".toList, "a:b:c".toList] "y=a:b+a:b:c".toList = "y=a0b+a0b:c".toList := by decide +kernel

end OpenMDAO
