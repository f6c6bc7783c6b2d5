import Verif.Spec.Namelist
/-!
# Specification for C142: namelist files written by hand
-/
namespace OpenMDAO

/-- A word that stands for a finite number. -/
def NumWord (t : Str) (x : NNum) : Prop := (∃ z, Stands (fun _ => false) t (.int z) ∧ x = .int z) ∨ (∃ q, Stands (fun _ => false) t (.flt q) ∧ x = .flt q)

/-- As a float. -/
def toFlt : NNum → NNum
  | .int z => .flt z
  | v => v

/-- The elements of an array of the numbers `xs`: integers if all are integers, floats otherwise. -/
def Unified (xs ys : List NNum) : Prop := ((∀ x ∈ xs, ∃ z, x = .int z) ∧ ys = xs) ∨ ((∃ q, NNum.flt q ∈ xs) ∧ ys = xs.map toFlt)

/-- The value for one or more numbers. -/
inductive NumsValue : List NNum → NRead → Prop
  | one (x) : NumsValue [x] (.tok (.num x))
  | more (xs ys) : 2 ≤ xs.length → Unified xs ys → NumsValue xs (.arr ys)

/-- Words with a comma and a blank between them. -/
def listed : List Str → Str
  | [] => []
  | [w] => w
  | w :: ws => w ++ ", ".toList ++ listed ws

/-- A name that cannot be taken for a number. -/
def NumFree (m : Str) : Prop := (∀ c, m.head? = some c → c.isDigit = false) ∧ ¬ "NaN".toList <+: m ∧ ¬ "Inf".toList <+: m

/-- `m = 1, 2, 3` and what is to be read for it. -/
inductive HandCard : Str → Str × NRead → Prop
  | nums (m : Str) (ts : List Str) (xs : List NNum) (v : NRead) : AlnumWord m → NumFree m → List.Forall₂ NumWord ts xs → NumsValue xs v → HandCard (m ++ " = ".toList ++ listed ts) (m, v)

/-- The words for values that are no finite numbers. -/
inductive SpecialWord : Str → NNum → Prop
  | nan : SpecialWord "NaN".toList .nan
  | pinf : SpecialWord "Inf".toList .pinf
  | ninf : SpecialWord "-Inf".toList .ninf

/-- The words that end a group. -/
def GroupEnd (e : Str) : Prop := e ∈ ["/".toList, "$END".toList, "$end".toList, "&END".toList, "&end".toList]

/-- Nothing or a comma. -/
def CommaEnd (e : Str) : Prop := e = [] ∨ e = [',']

/-- A line of a group, the cards before and the cards after it. -/
inductive HandLine : Str → List (Str × NRead) → List (Str × NRead) → Prop
  | cards (texts : List Str) (new : List (Str × NRead)) (e : Str) (cs) : texts ≠ [] → List.Forall₂ HandCard texts new → CommaEnd e → HandLine (listed texts ++ e) cs (cs ++ new)
  | continued (ts : List Str) (xs old new : List NNum) (e m : Str) (cs) : ts ≠ [] → List.Forall₂ NumWord ts xs → CommaEnd e → Unified (old ++ xs) new →
      HandLine (listed ts ++ e) (cs ++ [(m, .arr old)]) (cs ++ [(m, .arr new)])
  | second (t : Str) (x y : NNum) (new : List NNum) (e m : Str) (cs) : NumWord t y → CommaEnd e → Unified [x, y] new →
      HandLine (t ++ e) (cs ++ [(m, .tok (.num x))]) (cs ++ [(m, .arr new)])
  | repeated (m ds t : Str) (x : NNum) (cs) : AlnumWord m → Digits ds → 0 < decimal ds → NumWord t x →
      HandLine (m ++ " = ".toList ++ ds ++ "*".toList ++ t) cs (cs ++ [(m, .arr (List.replicate (decimal ds) (toFlt x)))])
  | special (m w : Str) (x : NNum) (cs) : AlnumWord m → SpecialWord w x → HandLine (m ++ " = ".toList ++ w) cs (cs ++ [(m, .tok (.num x))])
  | indexed (m ds : Str) (ts : List Str) (xs new : List NNum) (e : Str) (cs) : AlnumWord m → Digits ds → 0 < decimal ds → ts ≠ [] → List.Forall₂ NumWord ts xs → CommaEnd e →
      Unified (List.replicate (decimal ds - 1) (.int 0) ++ xs) new → HandLine (m ++ "(".toList ++ ds ++ ") = ".toList ++ listed ts ++ e) cs (cs ++ [(m, .arr new)])

/-- The lines of a group, with blanks in front, and the cards before and after them. -/
inductive HandLines : Str → List (Str × NRead) → List (Str × NRead) → Prop
  | none (cs) : HandLines [] cs cs
  | line (n : Nat) (l t : Str) (cs cs' cs'') : HandLine l cs cs' → HandLines t cs' cs'' → HandLines (List.replicate n ' ' ++ l ++ ['\n'] ++ t) cs cs''

end OpenMDAO
