import Verif.Model.Constraint
import Verif.Spec.Constraint
import Verif.Props.FileWrap
import Mathlib.Algebra.Order.Field.Basic
import Mathlib.Algebra.Field.Rat
import Mathlib.Algebra.Order.Ring.Rat
/-! # C75: the text of a constraint component -/
namespace OpenMDAO
set_option linter.unusedSectionVars false

/-- A character of no comparator. -/
def Plain (c : Char) : Prop := c ≠ '<' ∧ c ≠ '>' ∧ c ≠ '='

theorem plain_name {c : Char} (h : nameChar c = true) : Plain c := by
  refine ⟨?_, ?_, ?_⟩ <;> rintro rfl <;> revert h <;> decide

theorem plain_digit {c : Char} (h : c.isDigit = true) : Plain c := by
  refine ⟨?_, ?_, ?_⟩ <;> rintro rfl <;> revert h <;> decide

theorem plain_lit {s : Str} (h : IsLit s) : ∀ c ∈ s, Plain c := by
  obtain ⟨m, x, rfl, -, hm, hx⟩ := h
  intro c hc
  rcases List.mem_append.1 hc with hc | hc
  · rcases hm c hc with h | rfl
    · exact plain_digit h
    · unfold Plain; decide
  · rcases hx with rfl | ⟨e, sg, d, rfl, he, hs, -, hd⟩
    · simp at hc
    · rcases List.mem_cons.1 hc with rfl | hc
      · rcases he with rfl | rfl <;> (unfold Plain; decide)
      · rcases List.mem_append.1 hc with hc | hc
        · rcases hs with rfl | rfl | rfl
          · simp at hc
          · simp only [List.mem_singleton] at hc; subst hc; unfold Plain; decide
          · simp only [List.mem_singleton] at hc; subst hc; unfold Plain; decide
        · exact plain_digit (hd c hc)

/-- All characters are plain. -/
def AllPlain (s : Str) : Prop := ∀ c ∈ s, Plain c

theorem AllPlain.app {s t : Str} (h : AllPlain s) (h' : AllPlain t) : AllPlain (s ++ t) := by
  intro c hc
  rcases List.mem_append.1 hc with hc | hc
  · exact h c hc
  · exact h' c hc

theorem allPlain_lit (s : Str) (h : s.all (fun c => c != '<' && c != '>' && c != '=') = true) : AllPlain s := by
  intro c hc
  have := List.all_eq_true.1 h c hc
  simp only [Bool.and_eq_true, bne_iff_ne] at this
  exact ⟨this.1.1, this.1.2, this.2⟩

variable {K : Type} [Field K]

mutual
theorem PyE.plain {env : PyEnv K} {l : PyLevel} {s : Str} {x : K} : PyE env l s x → AllPlain s
  | .name s h => fun c hc => plain_name (h.2 c hc)
  | .lit s h => plain_lit h
  | .paren s x h => ((allPlain_lit _ (by decide)).app h.plain).app (allPlain_lit _ (by decide))
  | .call f s xs hf h => ((((show AllPlain f from fun c hc => plain_name (hf.2 c hc))).app (allPlain_lit _ (by decide))).app h.plain).app (allPlain_lit _ (by decide))
  | .pow a b x y h h' => (h.plain.app (allPlain_lit _ (by decide))).app h'.plain
  | .neg s x h => (allPlain_lit _ (by decide)).app h.plain
  | .pos s x h => (allPlain_lit _ (by decide)).app h.plain
  | .mul a b x y h h' => (h.plain.app (allPlain_lit _ (by decide))).app h'.plain
  | .div a b x y h h' => (h.plain.app (allPlain_lit _ (by decide))).app h'.plain
  | .add a b x y h h' => (h.plain.app (allPlain_lit _ (by decide))).app h'.plain
  | .sub a b x y h h' => (h.plain.app (allPlain_lit _ (by decide))).app h'.plain
  | .term s x h => h.plain
  | .factor s x h => h.plain
  | .power s x h => h.plain
  | .atom s x h => h.plain
  | .before l s x h => (allPlain_lit _ (by decide)).app h.plain
  | .after l s x h => h.plain.app (allPlain_lit _ (by decide))

theorem PyArgs.plain {env : PyEnv K} {s : Str} {xs : List K} : PyArgs env s xs → AllPlain s
  | .one s x h => h.plain
  | .more s t x xs h h' => (h.plain.app (allPlain_lit _ (by decide))).app h'.plain
end

theorem splitStr_none (a : Str) (s acc : Str) (h : ¬ a <:+: s) : splitStr a 0 acc s = [acc ++ s] := by
  induction s generalizing acc with
  | nil => simp [splitStr]
  | cons c s ih =>
    rw [List.infix_cons_iff, not_or] at h
    rw [splitStr, if_neg (by rw [List.isPrefixOf_iff_prefix]; exact h.1), ih _ h.2]
    simp

theorem splitStr_skip (a : Str) (k : Nat) (acc s t : Str) (h : s.length = k) : splitStr a k acc (s ++ t) = splitStr a 0 acc t := by
  induction s generalizing k with
  | nil => simp at h; subst h; rfl
  | cons c s ih =>
    simp only [List.length_cons] at h
    subst h
    exact ih _ rfl

theorem splitStr_at (o : Char) (os : Str) (s t acc : Str) (h : ∀ c ∈ s, c ≠ o) : splitStr (o :: os) 0 acc (s ++ ((o :: os) ++ t)) = (acc ++ s) :: splitStr (o :: os) 0 [] t := by
  induction s generalizing acc with
  | nil =>
    rw [List.nil_append, List.cons_append, splitStr, if_pos (by rw [List.isPrefixOf_iff_prefix]; exact List.prefix_append (o :: os) t)]
    rw [splitStr_skip _ _ _ _ _ (by simp)]
    simp
  | cons c s ih =>
    rw [List.cons_append, splitStr, if_neg]
    · rw [ih _ (fun d hd => h d (List.mem_cons_of_mem _ hd))]
      simp
    · rw [List.isPrefixOf_iff_prefix, List.cons_prefix_cons]
      intro e
      exact h c (by simp) e.1.symm

/-- No white space at the ends. -/
def Trimmed (ws : Char → Bool) (s : Str) : Prop := (∀ c ∈ s.head?, ws c = false) ∧ ∀ c ∈ s.getLast?, ws c = false

theorem dropWhile_all_append (p : Char → Bool) (u s : Str) (hu : ∀ c ∈ u, p c = true) (hs : ∀ c ∈ s.head?, p c = false) : (u ++ s).dropWhile p = s := by
  induction u with
  | nil =>
    cases s with
    | nil => rfl
    | cons c s => simp [List.dropWhile, hs c (by simp)]
  | cons c u ih => simp [List.dropWhile, hu c (by simp), ih (fun d hd => hu d (List.mem_cons_of_mem _ hd))]

theorem pyStrip_eq (ws : Char → Bool) (u s v : Str) (hu : ∀ c ∈ u, ws c = true) (hv : ∀ c ∈ v, ws c = true) (hne : s ≠ []) (hs : Trimmed ws s) : pyStrip ws (u ++ s ++ v) = s := by
  have h1 : (u ++ s ++ v).dropWhile ws = s ++ v := by
    rw [List.append_assoc]
    apply dropWhile_all_append _ _ _ hu
    intro c hc
    apply hs.1
    cases s with
    | nil => exact absurd rfl hne
    | cons d s => simpa using hc
  rw [pyStrip, h1, rstrip, List.reverse_append, dropWhile_all_append _ _ _ (by simpa using hv) (by simpa [List.head?_reverse] using hs.2), List.reverse_reverse]

/-- The comparators a constraint may have. -/
inductive Cmp where
  | lt | le | gt | ge | eq
  deriving DecidableEq

/-- As written. -/
def Cmp.text : Cmp → Str
  | .lt => ['<'] | .le => ['<', '='] | .gt => ['>'] | .ge => ['>', '='] | .eq => ['=']

theorem PyE.ne_nil {env : PyEnv K} {l : PyLevel} {s : Str} {x : K} (h : PyE env l s x) : s ≠ [] := by
  induction h using PyE.rec (motive_2 := fun _ _ _ => True) <;> simp_all [IsLit, IsName]
  all_goals aesop

/-- the comparator that is found is the one written -/
theorem parse_cmp (ws : Char → Bool) (op : Cmp) (a b : Str) (ha : AllPlain a) (hb : AllPlain b) : parseConstraint ws (a ++ (op.text ++ b)) = .ok (pyStrip ws a, op.text, pyStrip ws b) := by
  have a1 : '<' ∉ a := fun h => (ha _ h).1 rfl
  have a2 : '>' ∉ a := fun h => (ha _ h).2.1 rfl
  have a3 : '=' ∉ a := fun h => (ha _ h).2.2 rfl
  have b1 : '<' ∉ b := fun h => (hb _ h).1 rfl
  have b2 : '>' ∉ b := fun h => (hb _ h).2.1 rfl
  have b3 : '=' ∉ b := fun h => (hb _ h).2.2 rfl
  have ha1 : ∀ c ∈ a, c ≠ '<' := fun c h e => a1 (e ▸ h)
  have ha2 : ∀ c ∈ a, c ≠ '>' := fun c h e => a2 (e ▸ h)
  have ha3 : ∀ c ∈ a, c ≠ '=' := fun c h e => a3 (e ▸ h)
  have nomem : ∀ (c : Char) (o s : Str), c ∈ o → c ∉ s → ¬ o <:+: s := fun c o s h h' hi => h' (hi.subset h)
  have noeq : ¬ (['=', '='] : Str) <:+: a ++ (op.text ++ b) := by
    intro hi
    have := hi.sublist.count_le '='
    rw [List.count_append, List.count_append, List.count_eq_zero.2 a3, List.count_eq_zero.2 b3] at this
    cases op <;> simp [Cmp.text] at this
  have one : ∀ (o : Char) (os : Str), o :: os = op.text → (o = '<' ∨ o = '>' ∨ o = '=') → splitStr (o :: os) 0 [] (a ++ (op.text ++ b)) = [a, b] := by
    intro o os he ho
    rw [← he, splitStr_at o os a b [] (by rcases ho with rfl | rfl | rfl <;> assumption), splitStr_none]
    · rfl
    · apply nomem o _ _ (by simp)
      rcases ho with rfl | rfl | rfl <;> assumption
  unfold parseConstraint
  cases op
  · have n1 : splitStr ['=', '='] 0 [] (a ++ (Cmp.text .lt ++ b)) = [a ++ (Cmp.text .lt ++ b)] := splitStr_none _ _ _ noeq
    have n2 := splitStr_none ['>', '='] (a ++ (Cmp.text .lt ++ b)) [] (nomem '=' _ _ (by simp) (by simp [Cmp.text, a3, b3]))
    have n3 := splitStr_none ['<', '='] (a ++ (Cmp.text .lt ++ b)) [] (nomem '=' _ _ (by simp) (by simp [Cmp.text, a3, b3]))
    have n4 := splitStr_none ['>'] (a ++ (Cmp.text .lt ++ b)) [] (nomem '>' _ _ (by simp) (by simp [Cmp.text, a2, b2]))
    have n5 := one '<' [] rfl (by simp)
    simp only [parseLoop, n1, n2, n3, n4, n5]
    simp [Cmp.text]
  · have n1 : splitStr ['=', '='] 0 [] (a ++ (Cmp.text .le ++ b)) = [a ++ (Cmp.text .le ++ b)] := splitStr_none _ _ _ noeq
    have n2 := splitStr_none ['>', '='] (a ++ (Cmp.text .le ++ b)) [] (nomem '>' _ _ (by simp) (by simp [Cmp.text, a2, b2]))
    have n3 := one '<' ['='] rfl (by simp)
    simp only [parseLoop, n1, n2, n3]
    simp [Cmp.text]
  · have n1 : splitStr ['=', '='] 0 [] (a ++ (Cmp.text .gt ++ b)) = [a ++ (Cmp.text .gt ++ b)] := splitStr_none _ _ _ noeq
    have n2 := splitStr_none ['>', '='] (a ++ (Cmp.text .gt ++ b)) [] (nomem '=' _ _ (by simp) (by simp [Cmp.text, a3, b3]))
    have n3 := splitStr_none ['<', '='] (a ++ (Cmp.text .gt ++ b)) [] (nomem '=' _ _ (by simp) (by simp [Cmp.text, a3, b3]))
    have n4 := one '>' [] rfl (by simp)
    simp only [parseLoop, n1, n2, n3, n4]
    simp [Cmp.text]
  · have n1 : splitStr ['=', '='] 0 [] (a ++ (Cmp.text .ge ++ b)) = [a ++ (Cmp.text .ge ++ b)] := splitStr_none _ _ _ noeq
    have n2 := one '>' ['='] rfl (by simp)
    simp only [parseLoop, n1, n2]
    simp [Cmp.text]
  · have n1 : splitStr ['=', '='] 0 [] (a ++ (Cmp.text .eq ++ b)) = [a ++ (Cmp.text .eq ++ b)] := splitStr_none _ _ _ noeq
    have n2 := splitStr_none ['>', '='] (a ++ (Cmp.text .eq ++ b)) [] (nomem '>' _ _ (by simp) (by simp [Cmp.text, a2, b2]))
    have n3 := splitStr_none ['<', '='] (a ++ (Cmp.text .eq ++ b)) [] (nomem '<' _ _ (by simp) (by simp [Cmp.text, a1, b1]))
    have n4 := splitStr_none ['>'] (a ++ (Cmp.text .eq ++ b)) [] (nomem '>' _ _ (by simp) (by simp [Cmp.text, a2, b2]))
    have n5 := splitStr_none ['<'] (a ++ (Cmp.text .eq ++ b)) [] (nomem '<' _ _ (by simp) (by simp [Cmp.text, a1, b1]))
    have n6 := one '=' [] rfl (by simp)
    simp only [parseLoop, n1, n2, n3, n4, n5, n6]
    simp [Cmp.text]

/-- The comparator of the constraint holds, strict comparators being taken as the others. -/
def Cmp.holds {K : Type} [LE K] : Cmp → K → K → Prop
  | .lt, x, y => x ≤ y
  | .le, x, y => x ≤ y
  | .gt, x, y => y ≤ x
  | .ge, x, y => y ≤ x
  | .eq, x, y => x = y

/-- What `ExecComp` computes for the output: an equality has to be zero, the others at most zero. -/
def Cmp.met {K : Type} [Zero K] [LE K] : Cmp → K → Prop
  | .eq, z => z = 0
  | _, z => z ≤ 0

/-- the value of the generated text -/
theorem combined_value (env : PyEnv K) (ws : Char → Bool) (isZero : Str → Bool) (hws : ∀ c, ws c = true → Plain c) (hz : ∀ s x, isZero s = true → PyE env .sum s x → x = 0) (op : Cmp) (L R : Str) (x y : K)
    (hL : PyE env .sum L x) (hR : PyE env .sum R y) (tL : Trimmed ws L) (tR : Trimmed ws R) (u1 u2 u3 u4 : Str) (hu : ∀ c ∈ u1 ++ u2 ++ u3 ++ u4, ws c = true) :
    ∃ t z, combinedExpr ws isZero (u1 ++ L ++ u2 ++ (op.text ++ (u3 ++ R ++ u4))) = .ok t ∧ PyE env .sum t z ∧ z = (if op = .gt ∨ op = .ge then y - x else x - y) := by
  have h1 : ∀ c ∈ u1, ws c = true := fun c hc => hu c (by simp [hc])
  have h2 : ∀ c ∈ u2, ws c = true := fun c hc => hu c (by simp [hc])
  have h3 : ∀ c ∈ u3, ws c = true := fun c hc => hu c (by simp [hc])
  have h4 : ∀ c ∈ u4, ws c = true := fun c hc => hu c (by simp [hc])
  have pl : ∀ u : Str, (∀ c ∈ u, ws c = true) → AllPlain u := fun u h c hc => hws c (h c hc)
  have hp := parse_cmp ws op (u1 ++ L ++ u2) (u3 ++ R ++ u4) (((pl u1 h1).app hL.plain).app (pl u2 h2)) (((pl u3 h3).app hR.plain).app (pl u4 h4))
  rw [pyStrip_eq ws u1 L u2 h1 h2 hL.ne_nil tL, pyStrip_eq ws u3 R u4 h3 h4 hR.ne_nil tR] at hp
  have key : ∀ (F S : Str) (a b : K), PyE env .sum F a → PyE env .sum S b →
      ∃ t z, (if isZero F then Except.ok (['-', '('] ++ S ++ [')']) else if isZero S then .ok F else .ok (F ++ ['-', '('] ++ S ++ [')']) : Except PyErr Str) = .ok t ∧ PyE env .sum t z ∧ z = a - b := by
    intro F S a b hF hS
    have hpar : PyE env .factor (['('] ++ S ++ [')']) b := .power _ _ (.atom _ _ (.paren S b hS))
    split_ifs with z1 z2
    · refine ⟨_, -b, rfl, ?_, by rw [hz F a z1 hF]; simp⟩
      exact .term _ _ (.factor _ _ (.neg _ _ hpar))
    · exact ⟨_, a, rfl, hF, by rw [hz S b z2 hS]; simp⟩
    · refine ⟨_, a - b, rfl, ?_, rfl⟩
      have := PyE.sub F (['('] ++ S ++ [')']) a b hF (.factor _ _ hpar)
      simpa using this
  simp only [combinedExpr, hp]
  cases op
  · exact key L R x y hL hR
  · exact key L R x y hL hR
  · exact key R L y x hR hL
  · exact key R L y x hR hL
  · exact key L R x y hL hR

/-- **C75.** For two arithmetic expressions `L` and `R` with any white space around them, the constraint text `L op R` is turned into a text whose value is at most zero (for `=`: is zero) exactly when the constraint holds.
`float` and Python's expressions are assumed to agree on which texts are zero. -/
theorem C75_satisfied_iff [LinearOrder K] [IsStrictOrderedRing K] (env : PyEnv K) (ws : Char → Bool) (isZero : Str → Bool) (hws : ∀ c, ws c = true → Plain c) (hz : ∀ s x, isZero s = true → PyE env .sum s x → x = 0)
    (op : Cmp) (L R : Str) (x y : K) (hL : PyE env .sum L x) (hR : PyE env .sum R y) (tL : Trimmed ws L) (tR : Trimmed ws R) (u1 u2 u3 u4 : Str) (hu : ∀ c ∈ u1 ++ u2 ++ u3 ++ u4, ws c = true) :
    ∃ t z, combinedExpr ws isZero (u1 ++ L ++ u2 ++ (op.text ++ (u3 ++ R ++ u4))) = .ok t ∧ PyE env .sum t z ∧ (op.met z ↔ op.holds x y) := by
  obtain ⟨t, z, h1, h2, rfl⟩ := combined_value env ws isZero hws hz op L R x y hL hR tL tR u1 u2 u3 u4 hu
  refine ⟨t, _, h1, h2, ?_⟩
  cases op <;> simp [Cmp.met, Cmp.holds, sub_nonpos, sub_eq_zero]

/-- **C75, no comparator.** A text without a comparator is a `ValueError`. -/
theorem C75_no_comparator (ws : Char → Bool) (isZero : Str → Bool) (out s : Str) (h : ∀ c ∈ s, c ≠ '<' ∧ c ≠ '>' ∧ c ≠ '=') : constraintStmt ws isZero out s = .error .ValueError := by
  have n : ∀ (o : Str) (c : Char), c ∈ o → (c = '<' ∨ c = '>' ∨ c = '=') → splitStr o 0 [] s = [s] := by
    intro o c hc hcc
    rw [splitStr_none]
    · rfl
    · intro hi
      have := h c (hi.subset hc)
      rcases hcc with rfl | rfl | rfl
      · exact this.1 rfl
      · exact this.2.1 rfl
      · exact this.2.2 rfl
  have m1 := n ['=', '='] '=' (by simp) (by simp)
  have m2 := n ['>', '='] '=' (by simp) (by simp)
  have m3 := n ['<', '='] '=' (by simp) (by simp)
  have m4 := n ['>'] '>' (by simp) (by simp)
  have m5 := n ['<'] '<' (by simp) (by simp)
  have m6 := n ['='] '=' (by simp) (by simp)
  simp only [constraintStmt, combinedExpr, parseConstraint, parseLoop, m1, m2, m3, m4, m5, m6]

/-- **C75, double equals sign.** A text with `==` between two texts without comparators is a `ValueError`. -/
theorem C75_double_equals (ws : Char → Bool) (isZero : Str → Bool) (out a b : Str) (ha : ∀ c ∈ a, c ≠ '=') (hb : ∀ c ∈ b, c ≠ '=') : constraintStmt ws isZero out (a ++ (['=', '='] ++ b)) = .error .ValueError := by
  have m1 : splitStr ['=', '='] 0 [] (a ++ (['=', '='] ++ b)) = [a, b] := by
    rw [splitStr_at '=' ['='] a b [] ha, splitStr_none]
    · rfl
    · intro hi
      exact hb '=' (hi.subset (by simp)) rfl
  simp only [constraintStmt, combinedExpr, parseConstraint, parseLoop, m1, if_true]

/-- The statement is an assignment to the given name. -/
theorem C75_output (ws : Char → Bool) (isZero : Str → Bool) (out s t : Str) (h : combinedExpr ws isZero s = .ok t) : constraintStmt ws isZero out s = .ok (out ++ [' ', '=', ' '] ++ t) := by
  simp only [constraintStmt, h]

def blankOnly : Char → Bool := fun c => c == ' '
def zeroText : Str → Bool := fun s => s == ['0']

/-- Names have the value 5, numbers one, but `0` has the value 0. -/
def fiveEnv : PyEnv ℚ := { name := fun _ => 5, lit := fun s => if s = ['0'] then 0 else 1, call := fun _ _ => 7, pow := fun x _ => x }

theorem fiveEnv_zero {l : PyLevel} {s : Str} {x : ℚ} (h : PyE fiveEnv l s x) : s = ['0'] → x = 0 := by
  induction h using PyE.rec (motive_2 := fun _ _ _ => True)
  case name s h =>
    rintro rfl
    obtain ⟨⟨c, t, h1, h2⟩, -⟩ := h
    simp only [List.cons.injEq] at h1
    rw [← h1.1] at h2
    exact absurd h2 (by decide)
  case lit s h => intro e; simp [fiveEnv, e]
  case paren => intro e; simp at e
  case call f s xs hf hs _ =>
    intro e
    have := congrArg List.length e
    simp at this
    omega
  case pow a b x y ha hb _ _ => intro e; have := congrArg List.length e; simp at this; omega
  case neg => intro e; simp at e
  case pos => intro e; simp at e
  case mul a b x y ha hb _ _ => intro e; have := congrArg List.length e; have := List.length_pos_of_ne_nil ha.ne_nil; have := List.length_pos_of_ne_nil hb.ne_nil; simp at *; omega
  case div a b x y ha hb _ _ => intro e; have := congrArg List.length e; have := List.length_pos_of_ne_nil ha.ne_nil; have := List.length_pos_of_ne_nil hb.ne_nil; simp at *; omega
  case add a b x y ha hb _ _ => intro e; have := congrArg List.length e; have := List.length_pos_of_ne_nil ha.ne_nil; have := List.length_pos_of_ne_nil hb.ne_nil; simp at *; omega
  case sub a b x y ha hb _ _ => intro e; have := congrArg List.length e; have := List.length_pos_of_ne_nil ha.ne_nil; have := List.length_pos_of_ne_nil hb.ne_nil; simp at *; omega
  case term ih => exact ih
  case factor ih => exact ih
  case power ih => exact ih
  case atom ih => exact ih
  case before => intro e; simp at e
  case after l s x h _ =>
    intro e
    have h1 := congrArg List.length e
    have h2 := List.length_pos_of_ne_nil h.ne_nil
    rw [List.length_append] at h1
    simp only [List.length_singleton] at h1
    omega
  all_goals trivial

/-- `x*y < x+2` with the values 5, 5 and 1: the value is not at most zero. -/
example : ∃ t z, combinedExpr blankOnly zeroText "x*y < x+2".toList = .ok t ∧ PyE fiveEnv .sum t z ∧ (z ≤ 0 ↔ (5 : ℚ) * 5 ≤ 5 + 1) := by
  have name : ∀ c : Char, (c == '_' || c.isAlpha) = true → nameChar c = true → PyE fiveEnv .atom [c] 5 := fun c h h' => .name [c] ⟨⟨c, [], rfl, h⟩, by simpa using h'⟩
  have up : ∀ s x, PyE fiveEnv .atom s x → PyE fiveEnv .term s x := fun s x h => .factor _ _ (.power _ _ (.atom _ _ h))
  have hL : PyE fiveEnv .sum ['x', '*', 'y'] (5 * 5) :=
    .term _ _ (.mul ['x'] ['y'] _ _ (up _ _ (name 'x' (by decide) (by decide))) (.power _ _ (.atom _ _ (name 'y' (by decide) (by decide)))))
  have hR : PyE fiveEnv .sum ['x', '+', '2'] (5 + 1) :=
    .add ['x'] ['2'] _ _ (.term _ _ (up _ _ (name 'x' (by decide) (by decide)))) (up _ _ (.lit ['2'] ⟨['2'], [], rfl, by simp, by simp, Or.inl rfl⟩))
  exact C75_satisfied_iff fiveEnv blankOnly zeroText (fun c h => by simp [blankOnly] at h; subst h; unfold Plain; decide) (fun s x h hx => fiveEnv_zero hx (by simpa [zeroText] using h)) .lt _ _ _ _ hL hR
    ⟨by decide, by decide⟩ ⟨by decide, by decide⟩ [] [' '] [' '] [] (by decide)

example : combinedExpr blankOnly zeroText "x*y < x+2".toList = .ok "x*y-(x+2)".toList := by rfl
example : combinedExpr blankOnly zeroText "0 < x+2".toList = .ok "-(x+2)".toList := by rfl
example : combinedExpr blankOnly zeroText "x-y >= 0".toList = .ok "-(x-y)".toList := by rfl

/-- Two different comparators are accepted: the first of the list `>=`, `<=`, … wins and the other becomes part of the expression. -/
theorem finding_two_comparators : combinedExpr blankOnly zeroText "a <= b >= c".toList = .ok "c-(a <= b)".toList := by rfl

/-- `=>` gives a text that is no expression. -/
theorem finding_arrow : combinedExpr blankOnly zeroText "x => 3".toList = .ok "3-(x =)".toList := by rfl

end OpenMDAO
