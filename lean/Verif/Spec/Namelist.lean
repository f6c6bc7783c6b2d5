import Verif.Model.Namelist
import Verif.Spec.FileParse
/-!
# Specification of namelist files (C139 - C141)

What is to be read from a file that was written with the cards of a deck, independently of how the file looks and of how it is parsed.
-/
namespace OpenMDAO

/-- A number to be written and the number to be read: integers, and floats whose text is the notation of a float. -/
inductive NumReads : NScalar → NNum → Prop
  | int (z : ℤ) : NumReads (.int z) (.int z)
  | flt (t : Str) (q : ℚ) : Stands (fun _ => false) t (.flt q) → NumReads (.flt t) (.flt q)

/-- A number to be written and the float to be read. -/
inductive FloatReads : NScalar → NNum → Prop
  | int (z : ℤ) : FloatReads (.int z) (.flt z)
  | flt (t : Str) (q : ℚ) : Stands (fun _ => false) t (.flt q) → FloatReads (.flt t) (.flt q)

/-- A string that can be written: no quote, exclamation mark, line break, tab or backslash. -/
def PlainText (s : Str) : Prop := ∀ c ∈ s, c ∉ ['\'', '!', '\n', '\r', '\t', '\\']

/-- A word of letters and digits. -/
def AlnumWord (s : Str) : Prop := s ≠ [] ∧ ∀ c ∈ s, c.isAlphanum = true

/-- `m` is what stands behind the last colon of `n`, a word of letters and digits. -/
def ShortName (n m : Str) : Prop := AlnumWord m ∧ (n = m ∨ ∃ p, n = p ++ ':' :: m)

/-- Blanks and other white space at the end do not count: the last character is no slash. -/
def NoSlashEnd (t : Str) : Prop := ∀ a b, t = a ++ '/' :: b → ∃ c ∈ b, nlSpace c = false

/-- A card and what is to be read for it: nothing for a comment and for an empty array, otherwise one card. -/
inductive CardReads : NCard → List (Str × NRead) → Prop
  | comment (t : Str) : '!' ∈ t → '\n' ∉ t → NoSlashEnd t → CardReads (.comment t) []
  | num (n m : Str) (v : NScalar) (x : NNum) : ShortName n m → NumReads v x → CardReads (.var n (.scal v)) [(m, .tok (.num x))]
  | bool (n m : Str) (b : Bool) : ShortName n m → CardReads (.var n (.scal (.bool b))) [(m, .tok (.bool b))]
  | str (n m s : Str) : ShortName n m → PlainText s → CardReads (.var n (.scal (.str s))) [(m, .tok (.str s))]
  | ints (n m : Str) (v : NlVal) (l : List ℤ) : ShortName n m → v = .list (l.map .int) ∨ v = .arr (l.map .int) → 2 ≤ l.length →
      CardReads (.var n v) [(m, .arr (l.map .int))]
  | floats (n m : Str) (v : NlVal) (l : List NScalar) (xs : List NNum) : ShortName n m → v = .list l ∨ v = .arr l → 2 ≤ l.length →
      (∃ t, NScalar.flt t ∈ l) → List.Forall₂ FloatReads l xs → CardReads (.var n v) [(m, .arr xs)]
  | noArr (n : Str) : CardReads (.var n (.arr [])) []
  | noMat (n : Str) : CardReads (.var n (.mat [])) []
  | intMat (n m : Str) (rows : List (List ℤ)) (w : Nat) : ShortName n m → 2 ≤ rows.length → 0 < w → (∀ r ∈ rows, r.length = w) →
      CardReads (.var n (.mat (rows.map (List.map .int)))) [(m, .mat (rows.map (List.map .int)))]
  | fltMat (n m : Str) (rows : List (List NScalar)) (xs : List (List NNum)) (w : Nat) : ShortName n m → 2 ≤ rows.length → 0 < w →
      (∀ r ∈ rows, r.length = w) → (∀ r ∈ rows, ∀ v ∈ r, ∃ t, v = .flt t) → List.Forall₂ (List.Forall₂ NumReads) rows xs →
      CardReads (.var n (.mat rows)) [(m, .mat xs)]

/-- A number, truth value or string that can be written: anything but nan. -/
def Writable (v : NScalar) : Prop := v ≠ .nan

/-- A card that can be written. -/
inductive CardWritable : NCard → Prop
  | comment (t) : CardWritable (.comment t)
  | scal (n v) : Writable v → CardWritable (.var n (.scal v))
  | list (n l) : (∀ v ∈ l, Writable v) → CardWritable (.var n (.list l))
  | arr (n l) : (∀ v ∈ l, Writable v) → CardWritable (.var n (.arr l))
  | mat (n rows) : (∀ r ∈ rows, ∀ v ∈ r, Writable v) → CardWritable (.var n (.mat rows))

/-- A line outside of the groups: not blank, no white space at the end, no line break and none of the characters that begin a group. -/
def FreeText (t : Str) : Prop := (∃ c, t.getLast? = some c ∧ nlSpace c = false) ∧ '\n' ∉ t ∧ '&' ∉ t ∧ '$' ∉ t

/-- A title: none, or such a line without white space at the beginning. -/
def TitleText (t : Str) : Prop := t = [] ∨ (FreeText t ∧ ∃ c, t.head? = some c ∧ nlSpace c = false)

/-- A group and what is to be read for it. -/
inductive GroupReads : Str × List NCard → Str × List (Str × NRead) → Prop
  | cards (g : Str) (cs : List NCard) (rs : List (List (Str × NRead))) : AlnumWord g → cs ≠ [] → List.Forall₂ CardReads cs rs →
      GroupReads (g, cs) (g, rs.flatten)
  | free (g : Str) : FreeText g → GroupReads (g, []) (g, [])

/-- A deck and what is to be read for it. Without a title the first group must not be free-form. -/
structure DeckReads (d : NDeck) (r : NRes) : Prop where
  title : TitleText d.title
  same : r.title = d.title
  groups : List.Forall₂ GroupReads d.groups r.groups
  first : d.title = [] → ∀ g, d.groups.head? = some g → g.2 ≠ []

/-- White space of pyparsing: the blank, perhaps tab and line breaks, nothing else. -/
def PlainWs (ws : Char → Bool) : Prop := ws ' ' = true ∧ ∀ c, ws c = true → c ∈ [' ', '\t', '\n', '\r']

/-! ## Loading -/

/-- `p` is the param for the variable `n` below the prefix `pre`: under its own name or, if there is none, under its name in lower case. -/
def FoundAs (isParam : Str → Prop) (pre n p : Str) : Prop := isParam p ∧ (p = pre ++ n ∨ (¬ isParam (pre ++ n) ∧ p = pre ++ n.map Char.toLower))

/-- `p` is the param for the variable `n`: without rules at the top level, with rules in the last of the containers that has one. -/
def TargetOf (isParam : Str → Prop) (containers : Option (List Str)) (n p : Str) : Prop :=
  match containers with
  | none => FoundAs isParam [] n p
  | some cs => ∃ a c b, cs = a ++ c :: b ∧ FoundAs isParam (c ++ [':']) n p ∧ ∀ d ∈ b, ∀ q, ¬ FoundAs isParam (d ++ [':']) n q

/-- Group `i` with cards, whose cards cannot be loaded: an earlier group with cards has its name, or rules are given and none for it. -/
def NotLoadable (rules : List (Str × List Str)) (groups : List (Str × List (Str × NRead))) (i : Nat) (n : Str) : Prop :=
  (∃ j cs, j < i ∧ groups[j]? = some (n, cs) ∧ cs ≠ []) ∨ (rules ≠ [] ∧ ∀ e ∈ rules, e.1 ≠ n)

open Classical in
/-- The cards to be loaded with their containers, in the order of the file. -/
noncomputable def servedCards (rules : List (Str × List Str)) (groups : List (Str × List (Str × NRead))) : List (Option (List Str) × Str × NRead) :=
  (List.range groups.length).flatMap fun i => match groups[i]? with
    | none => []
    | some g => if NotLoadable rules groups i g.1 then [] else g.2.map fun c => (rules.lookup g.1, c)

/-- What is stored for a value: a number or a truth value for a param that holds an array becomes an array of one element. -/
def Stored (arrays : Bool) (old v w : NRead) : Prop :=
  w = match arrays, old, v with
    | true, .arr _, .tok (.num x) => .arr [x]
    | true, .mat _, .tok (.num x) => .arr [x]
    | true, .other _, .tok (.num x) => .arr [x]
    | true, .arr _, .tok (.bool b) => .other [.bool b]
    | true, .mat _, .tok (.bool b) => .other [.bool b]
    | true, .other _, .tok (.bool b) => .other [.bool b]
    | _, _, v => v

/-- What a param holds after a list of cards of which some are for it. -/
inductive EndsWith {α : Type} (arrays : Bool) (isFor : α → Prop) (val : α → NRead) (v : NRead) : List α → NRead → Prop
  | none : EndsWith arrays isFor val v [] v
  | other (l c w) : EndsWith arrays isFor val v l w → ¬ isFor c → EndsWith arrays isFor val v (l ++ [c]) w
  | new (l c old w) : EndsWith arrays isFor val v l old → isFor c → Stored arrays old (val c) w → EndsWith arrays isFor val v (l ++ [c]) w

end OpenMDAO
