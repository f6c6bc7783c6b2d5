import Verif.Model.FileParse
import Verif.Props.FileWrap
import Mathlib.Data.List.Forall2
/-!
# Specification of the values of fields

Which value a word of a line stands for, independently of how the tokens are matched.
-/
namespace OpenMDAO

/-- The number that a row of digits stands for in the decimal system. -/
def decimal : Str → ℕ
  | [] => 0
  | c :: s => (c.toNat - 48) * 10 ^ s.length + decimal s

/-- A non-empty row of digits. -/
def Digits (s : Str) : Prop := s ≠ [] ∧ ∀ c ∈ s, c.isDigit = true

/-- A sign or none, and the factor it stands for. -/
inductive Sign : Str → ℤ → Prop
  | none : Sign [] 1
  | plus : Sign ['+'] 1
  | minus : Sign ['-'] (-1)

/-- An exponent: letter, sign, digits. -/
inductive Exponent : Str → ℤ → Prop
  | mk (c : Char) (sg ds : Str) (z : ℤ) : c ∈ ['e', 'E', 'd', 'D'] → Sign sg z → Digits ds → Exponent (c :: sg ++ ds) (z * decimal ds)

/-- The spellings of a number that is none, and of infinity. -/
def nanSpellings : List Str := ["NaN", "nan", "NaN%", "NaNQ", "NaNS", "qNaN", "sNaN", "1.#SNAN", "1.#QNAN", "-1.#IND"].map String.toList

/-- Begins with a number: a digit, or a point and a digit, with or without a sign. -/
def StartsNumber (s : Str) : Prop :=
  ∃ sg z rest, Sign sg z ∧ s = sg ++ rest ∧ ∃ c r, c.isDigit = true ∧ (rest = c :: r ∨ rest = '.' :: c :: r)

/-- `w` is written correctly and stands for `v`. Text may not begin as a number or as one of the spellings of nan and infinity. -/
inductive Stands (txt : Char → Bool) : Str → FVal → Prop
  | int (sg ds : Str) (z : ℤ) : Sign sg z → Digits ds → Stands txt (sg ++ ds) (.int (z * decimal ds))
  | point (sg ip fp : Str) (z : ℤ) : Sign sg z → (∀ c ∈ ip ++ fp, c.isDigit = true) → ip ++ fp ≠ [] →
      Stands txt (sg ++ (ip ++ '.' :: fp)) (.flt (z * decimal (ip ++ fp) * (10 : ℚ) ^ (-(fp.length : ℤ))))
  | pointExp (sg ip fp ex : Str) (z e : ℤ) : Sign sg z → (∀ c ∈ ip ++ fp, c.isDigit = true) → ip ++ fp ≠ [] → Exponent ex e →
      Stands txt (sg ++ (ip ++ '.' :: fp) ++ ex) (.flt (z * decimal (ip ++ fp) * (10 : ℚ) ^ (e - (fp.length : ℤ))))
  | exp (ip ex : Str) (e : ℤ) : Digits ip → Exponent ex e → Stands txt (ip ++ ex) (.flt (decimal ip * (10 : ℚ) ^ e))
  | inf : Stands txt "Inf".toList .inf
  | nan (w : Str) : w ∈ nanSpellings → Stands txt w .nan
  | text (w : Str) : w ≠ [] → (∀ c ∈ w, txt c = true) → ¬ StartsNumber w → (∀ s ∈ "Inf".toList :: "-Inf".toList :: nanSpellings, ¬ s <+: w) →
      Stands txt w (.text w)

/-- Delimiters that cannot be part of a number or a name: no letter, no digit and none of `. # %`. -/
def GoodDelims (delim : Str) : Prop := ∀ c ∈ delim, c.isAlphanum = false ∧ c ∉ ['.', '#', '%']

/-- A tab in the line is a delimiter, and so is the blank. -/
def TabsDelimit (delim line : Str) : Prop := '\t' ∈ line → '\t' ∈ delim ∧ ' ' ∈ delim

/-- The end of a line: nothing or a line feed. -/
def LineEnd (e : Str) : Prop := e = [] ∨ e = ['\n']

/-- The line consists of words, one at least, that are separated by delimiters and stand for the values `vals`. -/
def LineReads (delim line : Str) (vals : List FVal) : Prop :=
  ∃ (body e d₀ : Str) (fs : List (Str × Str)), line = body ++ e ∧ LineEnd e ∧ IsLayout (fun c => delim.contains c) body d₀ fs ∧ TabsDelimit delim body ∧ fs ≠ [] ∧
    List.Forall₂ (fun f v => Stands (textChars delim) f.1 v) fs vals

/-- The line begins with the key, perhaps after delimiters. The key is nowhere else in the line, and the words behind it stand for the values `vals`. -/
def KeyLine (delim key line : Str) (vals : List FVal) : Prop :=
  ∃ (d₀ d₁ e : Str) (fs : List (Str × Str)), line = d₀ ++ (key ++ (d₁ ++ renderF fs ++ e)) ∧ LineEnd e ∧ Delims (fun c => delim.contains c) d₀ ∧ Delims (fun c => delim.contains c) d₁ ∧ (fs ≠ [] → d₁ ≠ []) ∧
    IsFields (fun c => delim.contains c) fs ∧ TabsDelimit delim (d₀ ++ (d₁ ++ renderF fs)) ∧ ¬ key <:+: d₁ ++ renderF fs ++ e ∧ List.Forall₂ (fun f v => Stands (textChars delim) f.1 v) fs vals

/-- What `transfer_array` is to return for rows with the values `rows`: from field `first` of the first row to field `last` of the last. -/
def arraySpec (first last : Nat) : List (List FVal) → List FVal
  | [] => []
  | [vs] => (vs.take last).drop (first - 1)
  | vs :: rows => vs.drop (first - 1) ++ arraySpec 1 last rows

/-- The fields from number `first` to number `last`, or to the end. -/
def fieldsOf (first : Nat) (last : Option Nat) (vals : List FVal) : List FVal :=
  match last with
  | none => vals.drop (first - 1)
  | some k => (vals.take k).drop (first - 1)

/-- The value of a field as element of an array of floats. -/
inductive IsNum : FVal → FNum → Prop
  | nan : IsNum .nan .nan
  | inf : IsNum .inf .inf
  | flt (q : ℚ) : IsNum (.flt q) (.num q)
  | int (z : ℤ) : IsNum (.int z) (.num z)

end OpenMDAO
