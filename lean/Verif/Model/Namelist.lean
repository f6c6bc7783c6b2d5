import Verif.Model.Constraint
import Verif.Model.FileParse
/-!
# Model of `Namelist`

`openmdao/util/namelist_util.py`: writing (`generate`), reading (`parse_file`), `load_model` and `find_card`. The combinators of pyparsing are modelled as in `Model/FileParse`: every token skips white space first. What white space is, is an argument
(`ws`), as pyparsing keeps it in a global that `FileParser.set_delimiters` changes (`file_wrap.py:475`). Numbers are read exactly. The text of a written float (`"%.1f"` or `"%.16g"`) is part of the value to be written. Not modelled: infinite values to be
written, carriage returns, and strings with backslashes, in which newer versions of pyparsing replace escapes.
-/
namespace OpenMDAO

/-! ## Values -/

/-- A number in a namelist file. Serves `lexNanWord` (`:376`). -/
inductive NNum
  | int (z : ℤ)
  | flt (q : ℚ)
  | nan
  | pinf
  | ninf
  deriving DecidableEq

/-- The value of one token. Serves `tokNumStr` (`:385-386`). -/
inductive NTok
  | num (v : NNum)
  | str (s : Str)
  | bool (b : Bool)
  deriving DecidableEq

/-- The value of a card that was read: a token, a 1-D array of numbers, a 2-D array, a list of strings. `other` are arrays of strings, of booleans or of a mixture, of which only the tokens are modelled. Serves `padToks` (`:61-73`). -/
inductive NRead
  | tok (t : NTok)
  | arr (l : List NNum)
  | mat (rows : List (List NNum))
  | strs (l : List Str)
  | other (l : List NTok)
  deriving DecidableEq

/-- A scalar to be written; a float comes with its text. Serves `scalarText` (`:25-52`). -/
inductive NScalar
  | bool (b : Bool)
  | int (z : ℤ)
  | flt (text : Str)
  | nan
  | str (s : Str)
  deriving DecidableEq

/-- A value to be written: scalar, list, array of one or two dimensions, array of more dimensions, anything else. Serves `NCard` (`:89-96`). -/
inductive NlVal
  | scal (v : NScalar)
  | list (l : List NScalar)
  | arr (l : List NScalar)
  | mat (rows : List (List NScalar))
  | nd
  | obj

/-- `Card` (`:89-96`): a comment or a variable. -/
inductive NCard
  | comment (text : Str)
  | var (name : Str) (v : NlVal)

/-- A `Namelist` that is written: title and groups with their cards. Serves `nlText` (`:230-347`). -/
structure NDeck where
  title : Str
  groups : List (Str × List NCard)

/-- A `Namelist` that was read. Serves `nlInside` (`:427-479`). -/
structure NRes where
  title : Str
  groups : List (Str × List (Str × NRead))
  deriving DecidableEq

/-! ## Writing -/

/-- The digits of a number; `f` bounds their number. Serves `rowText` (`:319-325`). -/
def natTextF : Nat → Nat → Str
  | 0, _ => []
  | f + 1, n => if n < 10 then [Char.ofNat (n + 48)] else natTextF f (n / 10) ++ [Char.ofNat (n % 10 + 48)]

/-- The digits of a number (a number has fewer digits than its successor counts). Serves `rowText` (`:319-325`). -/
def natText (n : Nat) : Str := natTextF (n + 1) n

/-- `"%d"`. Serves `scalarText` (`:25-52`). -/
def intText (z : ℤ) : Str := if z < 0 then '-' :: natText z.natAbs else natText z.natAbs

/-- A value in its format (`_floatfmt`, `_intfmt`, `_strfmt`, `_boolfmt`, `:25-52`). `int(nan)` raises `ValueError`. -/
def scalarText : NScalar → Except PyErr Str
  | .bool b => .ok (if b then ['T'] else ['F'])
  | .int z => .ok (intText z)
  | .flt t => .ok t
  | .nan => .error .ValueError
  | .str s => .ok ('\'' :: s ++ ['\''])

/-- Values with `", "` between them (`:270-290,307-314`). -/
def joinTexts : List Str → Str
  | [] => []
  | [t] => t
  | t :: ts => t ++ ", ".toList ++ joinTexts ts

/-- One row of a 2-D array (`:319-325`), `k` counts from one. -/
def rowText (name : Str) (k : Nat) (ts : List Str) : Str :=
  name ++ "(1,".toList ++ natText k ++ ") =".toList ++ (ts.map fun t => ' ' :: t ++ ", ".toList).flatten ++ ['\n']

/-- The rows of a 2-D array from number `k` on. Serves `cardText` (`:244-338`). -/
def matText (name : Str) : Nat → List (List NScalar) → Except PyErr Str
  | _, [] => .ok []
  | k, r :: rs =>
    match r.mapM scalarText with
    | .error e => .error e
    | .ok ts =>
      match matText name (k + 1) rs with
      | .error e => .error e
      | .ok t => .ok (rowText name k ts ++ t)

/-- `card.name.split(":")[-1]` (`:248`). -/
def cardName (n : Str) : Str := (pySplit ':' n).getLastD []

/-- `"  %s = …\n"`. Serves `cardText` (`:244-338`). -/
def cardLine (name text : Str) : Str := "  ".toList ++ name ++ " = ".toList ++ text ++ ['\n']

/-- The text of a card (`:244-338`). Empty arrays are left out (`:304-305`). -/
def cardText : NCard → Except PyErr Str
  | .comment t => .ok ("  ".toList ++ t ++ ['\n'])
  | .var n (.scal v) => (scalarText v).map (cardLine (cardName n))
  | .var n (.list l) => (l.mapM scalarText).map fun ts => cardLine (cardName n) (joinTexts ts)
  | .var n (.arr l) => if l = [] then .ok [] else (l.mapM scalarText).map fun ts => cardLine (cardName n) (joinTexts ts)
  | .var n (.mat rows) => if rows = [] then .ok [] else (matText (cardName n) 1 rows).map fun t => "  ".toList ++ t
  | .var _ .nd => .error .RuntimeError
  | .var _ .obj => .error .RuntimeError

/-- The text of a group (`:236-342`): one without cards is a line of its own. -/
def groupText (g : Str × List NCard) : Except PyErr Str :=
  if g.2 = [] then .ok (g.1 ++ ['\n'])
  else (g.2.mapM cardText).map fun ts => '&' :: g.1 ++ ['\n'] ++ ts.flatten ++ "/\n".toList

/-- `generate` (`:230-347`): the text of the file. -/
def nlText (d : NDeck) : Except PyErr Str := (d.groups.mapM groupText).map fun ts => d.title ++ ['\n'] ++ ts.flatten

/-! ## Tokens -/

section
variable (ws : Char → Bool)

/-- `Word(alphanums)`. Serves `tokCard` (`:390-395`). -/
def tokWord (s : Str) : Option (Str × Str) :=
  if (s.dropWhile ws).takeWhile Char.isAlphanum = [] then none
  else some ((s.dropWhile ws).takeWhile Char.isAlphanum, (s.dropWhile ws).dropWhile Char.isAlphanum)

/-- A literal of one character. Serves `tokIndex` (`:388`). -/
def tokLit (c : Char) (s : Str) : Option Str :=
  match s.dropWhile ws with
  | [] => none
  | d :: r => if d = c then some r else none

/-- The number of a token of `Model/FileParse`; the last two do not occur. Serves `tokNum` (`:364-378`). -/
def FVal.asNum : FVal → NNum
  | .int z => .int z
  | .flt q => .flt q
  | .nan => .nan
  | .inf => .pinf
  | .text _ => .nan

/-- `ToFloat(oneOf("NaN Inf -Inf"))` (`:376`). -/
def lexNanWord (s : Str) : Option (NNum × Str) :=
  if "NaN".toList.isPrefixOf s then some (.nan, s.drop 3)
  else if "Inf".toList.isPrefixOf s then some (.pinf, s.drop 3)
  else if "-Inf".toList.isPrefixOf s then some (.ninf, s.drop 4)
  else none

/-- `num_float | mixed_exp | num_int`. Serves `tokNum` (`:364-378`). -/
def lexNumber (s : Str) : Option (FVal × Str) := (lexFloat s).orElse fun _ => (lexMixed s).orElse fun _ => lexInt s

/-- `numval` (`:364-378`). -/
def tokNum (s : Str) : Option (NNum × Str) :=
  match lexNumber (s.dropWhile ws) with
  | some r => some (r.1.asNum, r.2)
  | none => lexNanWord (s.dropWhile ws)

/-- `ZeroOrMore(Suppress(',') + numval)`; every pass takes a character at least. Serves `tokNumStr` (`:385-386`). -/
def moreNums : Nat → Str → List NNum × Str
  | 0, s => ([], s)
  | n + 1, s =>
    match tokLit ws ',' s with
    | none => ([], s)
    | some r =>
      match tokNum ws r with
      | none => ([], s)
      | some x => (x.1 :: (moreNums n x.2).1, (moreNums n x.2).2)

/-- `QuotedString(quoteChar=q)`. Serves `tokStr` (`:379`). -/
def lexQuoted (q : Char) (s : Str) : Option (Str × Str) :=
  match s with
  | [] => none
  | c :: r =>
    if c = q then
      match r.dropWhile (fun x => !(x = q || x = '\n' || x = '\r')) with
      | [] => none
      | d :: r' => if d = q then some (r.takeWhile (fun x => !(x = q || x = '\n' || x = '\r')), r') else none
    else none

/-- `strval` (`:379`). -/
def tokStr (s : Str) : Option (Str × Str) := (lexQuoted '"' (s.dropWhile ws)).orElse fun _ => lexQuoted '\'' (s.dropWhile ws)

/-- `numstr_token` (`:385-386`). -/
def tokNumStr (s : Str) : Option (List NTok × Str) :=
  match tokNum ws s with
  | some x => some ((x.1 :: (moreNums ws x.2.length x.2).1).map .num, (moreNums ws x.2.length x.2).2)
  | none => (tokStr ws s).map fun x => ([.str x.1], x.2)

/-- Spellings of true (`:380`, `:103`); `oneOf` tries a word before its prefixes. -/
def trueWords : List Str := ["TRUE".toList, "True".toList, "true".toList, ".TRUE.".toList, ".T.".toList, "T".toList]

/-- Spellings of false. Serves `tokBool` (`:381`). -/
def falseWords : List Str := ["FALSE".toList, "False".toList, "false".toList, ".FALSE.".toList, ".F.".toList, "F".toList]

/-- `boolval` (`:381`). -/
def tokBool (s : Str) : Option (Bool × Str) :=
  match lexOneOf trueWords (s.dropWhile ws) with
  | some r => some (true, r)
  | none => (lexOneOf falseWords (s.dropWhile ws)).map fun r => (false, r)

/-- `data_token` (`:387`). -/
def tokData (s : Str) : Option (List NTok × Str) :=
  match tokNumStr ws s with
  | some x => some x
  | none => (tokBool ws s).map fun x => ([.bool x.1], x.2)

/-- `num_int` (`:364`). -/
def tokInt (s : Str) : Option (ℤ × Str) :=
  match lexInt (s.dropWhile ws) with
  | some (.int z, r) => some (z, r)
  | _ => none

/-- `index_token` (`:388`). -/
def tokIndex (s : Str) : Option (ℤ × Str) :=
  match tokLit ws '(' s with
  | none => none
  | some r =>
    match tokInt ws r with
    | none => none
    | some x => (tokLit ws ')' x.2).map fun r' => (x.1, r')

/-- `Optional(…)`. Serves `tokCard` (`:390-395`). -/
def optTok {α : Type} (p : Str → Option (α × Str)) (s : Str) : Option α × Str :=
  match p s with
  | some x => (some x.1, x.2)
  | none => (none, s)

/-- `num_int("dimension") + Suppress('*')`. Serves `tokCard` (`:390-395`). -/
def tokDimL (s : Str) : Option (ℤ × Str) :=
  match tokInt ws s with
  | none => none
  | some x => (tokLit ws '*' x.2).map fun r => (x.1, r)

/-- `Suppress('*') + num_int("dimension")`. Serves `tokCard` (`:390-395`). -/
def tokDimR (s : Str) : Option (ℤ × Str) :=
  match tokLit ws '*' s with
  | none => none
  | some r => tokInt ws r

/-- A card as it was parsed: `data` are the tokens of `data_token`. Serves `tokCard` (`:390-395`). -/
structure NRaw where
  name : Str
  index : Option ℤ
  dimL : Option ℤ
  data : List NTok
  dimR : Option ℤ

/-- `card_token` (`:390-395`). -/
def tokCard (s : Str) : Option (NRaw × Str) :=
  match tokWord ws s with
  | none => none
  | some n =>
    let i := optTok (tokIndex ws) n.2
    match tokLit ws '=' i.2 with
    | none => none
    | some r =>
      let l := optTok (tokDimL ws) r
      match tokData ws l.2 with
      | none => none
      | some d => some (⟨n.1, i.1, l.1, d.1, (optTok (tokDimR ws) d.2).1⟩, (optTok (tokDimR ws) d.2).2)

/-- `ZeroOrMore(Suppress(',') + card_token)`. Serves `tokCards` (`:396`). -/
def moreCards : Nat → Str → List NRaw × Str
  | 0, s => ([], s)
  | n + 1, s =>
    match tokLit ws ',' s with
    | none => ([], s)
    | some r =>
      match tokCard ws r with
      | none => ([], s)
      | some x => (x.1 :: (moreCards n x.2).1, (moreCards n x.2).2)

/-- `multi_card_token` (`:396`). -/
def tokCards (s : Str) : Option (List NRaw × Str) :=
  (tokCard ws s).map fun x => (x.1 :: (moreCards ws x.2.length x.2).1, (moreCards ws x.2.length x.2).2)

/-- `array2D_token` (`:398-402`): name, index of the row, numbers. -/
def tokRow (s : Str) : Option ((Str × ℤ × List NNum) × Str) :=
  match tokWord ws s with
  | none => none
  | some n =>
    match (tokLit ws '(' n.2).bind (tokInt ws) with
    | none => none
    | some a =>
      match (tokLit ws ',' a.2).bind (tokInt ws) with
      | none => none
      | some k =>
        match ((tokLit ws ')' k.2).bind (tokLit ws '=')).bind (tokNum ws) with
        | none => none
        | some v => some ((n.1, k.1, v.1 :: (moreNums ws v.2.length v.2).1), (moreNums ws v.2.length v.2).2)

/-- The words that end a group (`:405-407`). -/
def endWords : List Str := ["/".toList, "$END".toList, "$end".toList, "&END".toList, "&end".toList]

/-- `group_end_token`. Serves `tokHead` (`:408-411`). -/
def tokEnd (s : Str) : Option (Str × Str) := (endWords.find? fun w => w.isPrefixOf (s.dropWhile ws)).map fun w => (w, (s.dropWhile ws).drop w.length)

/-- `group_name_token` (`:408-411`): name, cards, whether the group ends on the same line. -/
def tokHead (s : Str) : Option ((Str × List NRaw × Bool) × Str) :=
  match (tokLit ws '$' s).orElse fun _ => tokLit ws '&' s with
  | none => none
  | some r =>
    (tokWord ws r).map fun n =>
      let c := optTok (tokCards ws) n.2
      let e := optTok (tokEnd ws) c.2
      ((n.1, c.1.getD [], e.1.isSome), e.2)

end

/-- `token.searchString(line)` is not empty: the token matches somewhere in the line. Serves `nlInside` (`:427-479`). -/
def hits {α : Type} (p : Str → Option α) (s : Str) : Bool := s.tails.any fun t => (p t).isSome

/-! ## Reading -/

/-- An element of an array of floats. Serves `fillTok` (`:76-79`). -/
def NNum.asFloat : NNum → NNum
  | .int z => .flt z
  | v => v

/-- Is it an integer?. Serves `padToks` (`:61-73`). -/
def NNum.isInt : NNum → Bool
  | .int _ => true
  | _ => false

/-- `array(…)` of numbers: floats if there is a float among them. Serves `padToks` (`:61-73`). -/
def npNums (l : List NNum) : List NNum := if l.all NNum.isInt then l else l.map NNum.asFloat

/-- The numbers of tokens that are all numbers. Serves `padToks` (`:61-73`). -/
def NTok.num? : NTok → Option NNum
  | .num v => some v
  | _ => none

/-- The strings of tokens that are all strings. Serves `padToks` (`:61-73`). -/
def NTok.str? : NTok → Option Str
  | .str s => some s
  | _ => none

/-- `array(…)` of tokens. Serves `NRaw.value` (`:55-87`). -/
def npToks (l : List NTok) : NRead :=
  match l.mapM NTok.num? with
  | some v => .arr (npNums v)
  | none => .other l

/-- A 1-D array declared by element (`:61-73`): zeros, or empty strings, before the values. -/
def padToks (k : Nat) (l : List NTok) : NRead :=
  match l.mapM NTok.num? with
  | some v => .arr (List.replicate k (if v.all NNum.isInt then .int 0 else .flt 0) ++ npNums v)
  | none =>
    match l.mapM NTok.str? with
    | some v => .strs (List.replicate k [] ++ v)
    | none => .other l

/-- `zeros(dim)` filled with a value (`:76-79`). A string raises `ValueError` (one that `float` accepts is not distinguished). -/
def fillTok (dim : ℤ) (t : NTok) : Except PyErr NRead :=
  if dim < 0 then .error .ValueError
  else
    match t with
    | .num v => .ok (.arr (List.replicate dim.toNat v.asFloat))
    | .bool b => .ok (.arr (List.replicate dim.toNat (.flt (if b then 1 else 0))))
    | .str _ => .error .ValueError

/-- A dimension, as a token. Serves `NRaw.value` (`:55-87`). -/
def dimTok : Option ℤ → List NTok
  | none => []
  | some z => [.num (.int z)]

/-- The tokens behind the name and the index. Serves `NRaw.value` (`:55-87`). -/
def NRaw.toks (c : NRaw) : List NTok := dimTok c.dimL ++ c.data ++ dimTok c.dimR

/-- `card.dimension`: the last one; 0 is as good as none (`:76`). -/
def NRaw.dim (c : NRaw) : Option ℤ :=
  match c.dimR.orElse fun _ => c.dimL with
  | some 0 => none
  | d => d

/-- `_process_card_info` (`:55-87`). Indices below one are taken to raise `ValueError`. -/
def NRaw.value (c : NRaw) : Except PyErr NRead :=
  match c.index with
  | some k => if k < 1 then .error .ValueError else .ok (padToks (k - 1).toNat c.toks)
  | none =>
    match c.dim with
    | some d =>
      match c.data with
      | [] => .error .ValueError
      | t :: _ => fillTok d t
    | none =>
      match c.toks with
      | [t] => .ok (.tok t)
      | ts => .ok (npToks ts)

/-- Change of the last element. Serves `nlInside` (`:427-479`). -/
def onLast {α : Type} (f : α → α) : List α → List α
  | [] => []
  | [a] => [f a]
  | a :: b :: l => a :: onLast f (b :: l)

/-- `self.cards[-1].append(Card(…))` for some cards. Serves `nlInside` (`:427-479`). -/
def NRes.addCards (r : NRes) (cs : List (Str × NRead)) : NRes := { r with groups := onLast (fun g => (g.1, g.2 ++ cs)) r.groups }

/-- `self.cards[-1][-1].value = v`. Serves `nlInside` (`:427-479`). -/
def NRes.setLast (r : NRes) (v : NRead) : NRes := { r with groups := onLast (fun g => (g.1, onLast (fun c => (c.1, v)) g.2)) r.groups }

/-- `self.cards[-1][-1].value`. Serves `nlInside` (`:427-479`). -/
def NRes.last (r : NRes) : Except PyErr NRead :=
  match r.groups.getLast?.bind fun g => g.2.getLast? with
  | none => .error .IndexError
  | some c => .ok c.2

/-- A 2-D array of numbers: floats if there is a float among them. Serves `vstackRow` (`:449-452`). -/
def npMat (rows : List (List NNum)) : List (List NNum) := if rows.all fun r => r.all NNum.isInt then rows else rows.map fun r => r.map NNum.asFloat

/-- `vstack((old, row))` (`:449-452`). A number is a row of one. Strings and others are not modelled. -/
def vstackRow (old : NRead) (row : List NNum) : Except PyErr NRead :=
  match old with
  | .arr l => if l.length = row.length then .ok (.mat (npMat [l, row])) else .error .ValueError
  | .mat rows => if rows.all fun r => r.length = row.length then .ok (.mat (npMat (rows ++ [row]))) else .error .ValueError
  | .tok (.num v) => if row.length = 1 then .ok (.mat (npMat [[v], row])) else .error .ValueError
  | .tok t => .ok (.other [t])
  | .strs _ => .error .ValueError
  | .other l => .ok (.other l)

/-- A continued array (`:459-472`): arrays are flattened; a scalar can be continued by one value only. -/
def continueWith (old : NRead) (ts : List NTok) : Except PyErr NRead :=
  match old with
  | .arr l => .ok (npToks (l.map .num ++ ts))
  | .mat rows => .ok (npToks (rows.flatten.map .num ++ ts))
  | .tok t => if ts.length = 1 then .ok (npToks (t :: ts)) else .error .ValueError
  | .strs l => .ok (.other (l.map .str ++ ts))
  | .other l => .ok (.other (l ++ ts))

/-- White space of `str.strip`. Serves `nlLine` (`:419-516`). -/
def nlSpace (c : Char) : Bool := c = ' ' || c = '\t' || c = '\n' || c = '\r' || c = '\x0b' || c = '\x0c'

/-- Name and value of a parsed card. Serves `nlInside` (`:427-479`). -/
def rawCard (c : NRaw) : Except FErr (Str × NRead) :=
  match c.value with
  | .error e => .error (.py e)
  | .ok v => .ok (c.name, v)

/-- A line of a group (`:427-479`) without the test for a final `/`; whether the group goes on. -/
def nlInside (ws : Char → Bool) (r : NRes) (l : Str) : Except FErr (NRes × Bool) :=
  if '!' ∈ l then .ok (r, true)
  else if hits (tokCards ws) l then
    match tokCards ws l with
    | none => .error .parse
    | some cs =>
      match cs.1.mapM rawCard with
      | .error e => .error e
      | .ok vs => .ok (r.addCards vs, true)
  else if hits (tokRow ws) l then
    match tokRow ws l with
    | none => .error .parse
    | some x =>
      if x.1.2.1 > 1 then
        match r.last with
        | .error e => .error (.py e)
        | .ok old =>
          match vstackRow old (npNums x.1.2.2) with
          | .error e => .error (.py e)
          | .ok v => .ok (r.setLast v, true)
      else .ok (r.addCards [(x.1.1, .arr (npNums x.1.2.2))], true)
  else if hits (tokNumStr ws) l then
    match tokNumStr ws l with
    | none => .error .parse
    | some x =>
      match r.last with
      | .error e => .error (.py e)
      | .ok old =>
        match continueWith old x.1 with
        | .error e => .error (.py e)
        | .ok v => .ok (r.setLast v, true)
  else .ok (r, !hits (tokEnd ws) l)

/-- `group_end_token.searchString(card)` for a card on the line of the group name (`:500`): the text of the card, name and values, has one of the words. -/
def rawEnds (c : NRaw) : Bool :=
  (c.name :: c.data.filterMap NTok.str?).any fun s => endWords.any fun w => hasSub w s

/-- The cards on the line of the group name (`:494-504`); whether the group goes on. -/
def headCards : List NRaw → NRes × Bool → Except FErr (NRes × Bool)
  | [], st => .ok st
  | c :: cs, st =>
    if rawEnds c then headCards cs (st.1, false)
    else
      match rawCard c with
      | .error e => .error e
      | .ok v => headCards cs (st.1.addCards [v], st.2)

/-- One line of the file (`:419-516`); the state is what was read and whether the line is inside of a group. -/
def nlLine (ws : Char → Bool) (st : NRes × Bool) (base : Str) : Except FErr (NRes × Bool) :=
  let line := pyStrip nlSpace base
  let l := expandTabs 0 line
  if line = [] then .ok st
  else if st.2 then
    match nlInside ws st.1 l with
    | .error e => .error e
    | .ok s => .ok (s.1, s.2 && !(line.getLast? = some '/'))
  else if hits (tokHead ws) l then
    match tokHead ws l with
    | none => .error .parse
    | some h =>
      match headCards h.1.2.1 ({ st.1 with groups := st.1.groups ++ [(h.1.1, [])] }, true) with
      | .error e => .error e
      | .ok s => .ok (s.1, s.2 && !h.1.2.2)
  else if st.1.groups = [] ∧ st.1.title = [] then .ok ({ st.1 with title := line }, false)
  else .ok ({ st.1 with groups := st.1.groups ++ [(rstrip nlSpace base, [])] }, false)

/-- `readlines()`. Serves `parseNl` (`:349-516`). -/
def readLines : Str → List Str
  | [] => []
  | c :: s =>
    if c = '\n' then [c] :: readLines s
    else
      match readLines s with
      | [] => [[c]]
      | l :: ls => (c :: l) :: ls

/-- `parse_file` (`:349-516`) of a new `Namelist`. -/
def parseNl (ws : Char → Bool) (text : Str) : Except FErr NRes :=
  match (readLines text).foldlM (nlLine ws) (⟨[], []⟩, false) with
  | .error e => .error e
  | .ok st => .ok st.1

/-- White space of pyparsing, if nothing has changed it. pyparsing, not code of /repo. -/
def defaultWs (c : Char) : Bool := c = ' ' || c = '\n' || c = '\t' || c = '\r'

/-! ## Loading -/

/-- `isinstance(·, ndarray)`. Serves `loadCard` (`:602-654`). -/
def NRead.isArr : NRead → Bool
  | .arr _ => true
  | .mat _ => true
  | .other _ => true
  | .tok _ => false
  | .strs _ => false

/-- `array([value])` of a number or a truth value, others as they are (`:647-649`). -/
def NRead.wrap : NRead → NRead
  | .tok (.num v) => .arr [v]
  | .tok (.bool b) => .other [.bool b]
  | v => v

/-- `name.lower()`. Serves `cardTarget` (`:608-634`). -/
def lowerStr (s : Str) : Str := s.map Char.toLower

/-- The first of two names that is a param (`:623-627`, `:630-634`). -/
def firstParam (params : List (Str × NRead)) (a b : Str) : Option Str :=
  if (params.lookup a).isSome then some a else if (params.lookup b).isSome then some b else none

/-- The param for a variable (`:608-634`); `none` for the containers is a call without rules. The loop over the containers goes on after a container that has the variable. -/
def cardTarget (params : List (Str × NRead)) (containers : Option (List Str)) (name : Str) : Option Str :=
  match containers with
  | none => firstParam params name (lowerStr name)
  | some cs => (cs.filterMap fun c => firstParam params (c ++ ':' :: name) (c ++ ':' :: lowerStr name)).getLast?

/-- One card (`:602-654`): params and `unlinked_vars`. `setup` tells whether the component has a vector of params; before, the metadata of the param is a dictionary and no array. -/
def loadCard (setup : Bool) (ignore : List Str) (containers : Option (List Str)) (st : List (Str × NRead) × List Str) (card : Str × NRead) : List (Str × NRead) × List Str :=
  match cardTarget st.1 containers card.1 with
  | none => if card.1 ∉ ignore ∧ lowerStr card.1 ∉ ignore then (st.1, st.2 ++ [card.1]) else st
  | some p =>
    match st.1.lookup p with
    | none => st
    | some old => (dictSet st.1 p (if setup && old.isArr then card.2.wrap else card.2), st.2)

/-- The state of the loop over the groups. Serves `loadGroup` (`:585-654`). -/
structure NLoad where
  params : List (Str × NRead)
  empty : List (Nat × Str)
  unlisted : List (Nat × Str)
  unlinked : List Str
  used : List Str

/-- One group (`:585-654`). No rules at all is the same as an empty dictionary. A group that has no rule is given up at its first card. -/
def loadGroup (setup : Bool) (rules : List (Str × List Str)) (ignore : List Str) (st : NLoad) (g : Nat × Str × List (Str × NRead)) : NLoad :=
  if g.2.2 = [] then { st with empty := st.empty ++ [(g.1, g.2.1)] }
  else if g.2.1 ∈ st.used then { st with unlisted := st.unlisted ++ [(g.1, g.2.1)] }
  else if rules = [] then
    let r := g.2.2.foldl (loadCard setup ignore none) (st.params, st.unlinked)
    { st with params := r.1, unlinked := r.2, used := st.used ++ [g.2.1] }
  else
    match rules.lookup g.2.1 with
    | none => { st with unlisted := st.unlisted ++ [(g.1, g.2.1)], used := st.used ++ [g.2.1] }
    | some cs =>
      let r := g.2.2.foldl (loadCard setup ignore (some cs)) (st.params, st.unlinked)
      { st with params := r.1, unlinked := r.2, used := st.used ++ [g.2.1] }

/-- `enumerate(self.groups)`. Serves `loadModel` (`:519-656`). -/
def numbered {α : Type} : Nat → List α → List (Nat × α)
  | _, [] => []
  | i, a :: l => (i, a) :: numbered (i + 1) l

/-- `load_model` (`:519-656`); `single` is `single_group`. -/
def loadModel (setup : Bool) (rules : List (Str × List Str)) (ignore : List Str) (single : Int) (r : NRes) (params : List (Str × NRead)) : Except PyErr NLoad :=
  if r.groups = [] then .error .RuntimeError
  else if single > -1 then
    match r.groups[single.toNat]? with
    | none => .error .IndexError
    | some g => .ok (loadGroup setup rules ignore ⟨params, [], [], [], []⟩ (single.toNat, g))
  else .ok ((numbered 0 r.groups).foldl (loadGroup setup rules ignore) ⟨params, [], [], [], []⟩)

/-- `find_card` (`:658-677`). -/
def findCard (r : NRes) (group name : Str) : Except PyErr NRead :=
  match r.groups.lookup group with
  | none => .error .ValueError
  | some cs =>
    match cs.lookup name with
    | none => .error .RuntimeError
    | some v => .ok v

end OpenMDAO
