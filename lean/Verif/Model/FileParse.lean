import Verif.Model.FileWrap
import Mathlib.Algebra.Field.Rat
/-!
# Model of `FileParser`

`openmdao/util/file_wrap.py:413-880`: `set_file`, `transfer_var`, `transfer_keyvar`, `transfer_array`, `transfer_2Darray` and the tokens of `_reset_tokens`, for delimiters that are sets of characters. The combinators of pyparsing are
modelled as functions from the rest of the line to the token and the new rest: `Word` takes the longest run, `|` the first alternative that matches, `Combine` forbids white space inside a token, and every token first skips white space, which
`set_delimiters` has set to the delimiters (473-476). Numbers are read exactly: `float(text)` is the rational number that the text denotes, without rounding. Not modelled: the delimiter `"columns"`.
-/
namespace OpenMDAO

/-- A parsed field. Serves `lexInt` (`:862`). -/
inductive FVal
  | nan
  | inf
  | flt (q : ℚ)
  | int (z : ℤ)
  | text (s : Str)
  deriving DecidableEq

/-- `pyparsing.ParseException` or a python exception. Serves `parseLine` (`:829-834`). -/
inductive FErr
  | parse
  | py (e : PyErr)
  deriving DecidableEq

/-! ## Tokens -/

/-- `int(text)` for a text of digits. Serves `lexInt` (`:862`). -/
def digitsVal (ds : Str) : Nat := ds.foldl (fun n c => 10 * n + (c.toNat - '0'.toNat)) 0

/-- `Word(nums)`. Serves `lexInt` (`:862`). -/
def lexDigits (s : Str) : Option (Str × Str) :=
  if s.takeWhile Char.isDigit = [] then none else some (s.takeWhile Char.isDigit, s.dropWhile Char.isDigit)

/-- `Optional(oneOf("+ -"))`: is the sign negative?. Serves `lexInt` (`:862`). -/
def lexSign : Str → Bool × Str
  | '+' :: s => (false, s)
  | '-' :: s => (true, s)
  | s => (false, s)

/-- `ee`, the letter of an exponent (`file_wrap.py:860`). -/
def isExpChar (c : Char) : Bool := c = 'e' || c = 'E' || c = 'd' || c = 'D'

/-- `ee + Optional(sign) + digits`: the exponent. Serves `lexMixed` (`:871`). -/
def lexExp : Str → Option (ℤ × Str)
  | [] => none
  | c :: s =>
    if isExpChar c then
      (lexDigits (lexSign s).2).map fun r => ((if (lexSign s).1 then -(digitsVal r.1 : ℤ) else digitsVal r.1), r.2)
    else none

/-- `Optional(ee + Optional(sign) + digits)`. Serves `lexFloat` (`:864-868`). -/
def optExp (s : Str) : ℤ × Str := (lexExp s).getD (0, s)

/-- `float` of the parts of a number. Serves `lexFloat` (`:864-868`). -/
def decVal (neg : Bool) (ip fp : Str) (e : ℤ) : ℚ :=
  (if neg then -1 else 1) * (digitsVal (ip ++ fp) : ℚ) * (10 : ℚ) ^ (e - fp.length)

/-- `num_int` (`:862`). -/
def lexInt (s : Str) : Option (FVal × Str) :=
  (lexDigits (lexSign s).2).map fun r => (.int (if (lexSign s).1 then -(digitsVal r.1 : ℤ) else digitsVal r.1), r.2)

/-- `(digits + dot + Optional(digits)) | (dot + digits)`: integer part, fraction, rest. Serves `lexFloat` (`:864-868`). -/
def lexPoint (s : Str) : Option (Str × Str × Str) :=
  match lexDigits s with
  | some (ip, '.' :: r) => some (ip, r.takeWhile Char.isDigit, r.dropWhile Char.isDigit)
  | _ =>
    match s with
    | '.' :: r => (lexDigits r).map fun x => ([], x.1, x.2)
    | _ => none

/-- `num_float` (`:864-868`). -/
def lexFloat (s : Str) : Option (FVal × Str) :=
  (lexPoint (lexSign s).2).map fun r => (.flt (decVal (lexSign s).1 r.1 r.2.1 (optExp r.2.2).1), (optExp r.2.2).2)

/-- `mixed_exp` (`:871`). -/
def lexMixed (s : Str) : Option (FVal × Str) :=
  match lexDigits s with
  | none => none
  | some (ip, r) => (lexExp r).map fun x => (.flt (decVal false ip [] x.1), x.2)

/-- Spellings of infinity (`:873`). -/
def infWords : List Str := ["Inf".toList, "-Inf".toList]

/-- Spellings of nan (`:874-875`); `oneOf` tries a word before its prefixes. -/
def nanWords : List Str :=
  ["NaN%".toList, "NaNQ".toList, "NaNS".toList, "NaN".toList, "nan".toList, "qNaN".toList, "sNaN".toList, "1.#SNAN".toList, "1.#QNAN".toList, "-1.#IND".toList]

/-- `oneOf(words)`: rest behind the first word that matches. Serves `lexNan` (`:873-875`). -/
def lexOneOf (words : List Str) (s : Str) : Option Str :=
  (words.find? fun w => w.isPrefixOf s).map fun w => s.drop w.length

/-- `ToInf(oneOf(…)) | ToNan(oneOf(…))` (`:873-875`). -/
def lexNan (s : Str) : Option (FVal × Str) :=
  match lexOneOf infWords s with
  | some r => some (.inf, r)
  | none => (lexOneOf nanWords s).map fun r => (.nan, r)

/-- `Word(textchars)`. Serves `lexItem` (`:879-880`). -/
def lexText (txt : Char → Bool) (s : Str) : Option (FVal × Str) :=
  if s.takeWhile txt = [] then none else some (.text (s.takeWhile txt), s.dropWhile txt)

/-- The symbols of `_reset_tokens` (`:849-851`). -/
def textSymbols : Str := "./+*^()[]=:;?%&!#|<>{}-_@$~".toList

/-- `textchars` (`:844-855`): all printable characters if the delimiters are white space, otherwise letters, digits and the symbols that are no delimiters. -/
def textChars (delim : Str) (c : Char) : Bool :=
  if delim ≠ [] ∧ delim.all Char.isWhitespace then decide (33 ≤ c.toNat) && decide (c.toNat ≤ 126)
  else c.isAlphanum || (textSymbols.contains c && !delim.contains c)

/-- One alternative of `line_parse_token` (`:879-880`), white space already skipped. -/
def lexItem (txt : Char → Bool) (s : Str) : Option (FVal × Str) :=
  (lexNan s).orElse fun _ => (lexFloat s).orElse fun _ => (lexMixed s).orElse fun _ => (lexInt s).orElse fun _ => lexText txt s

/-- `OneOrMore(…)` without the test for at least one. Every item takes at least one character, so that the length of the line is enough fuel. Serves `parseLine` (`:829-834`). -/
def lexItems (ws txt : Char → Bool) : Nat → Str → List FVal
  | 0, _ => []
  | n + 1, s =>
    match lexItem txt (s.dropWhile ws) with
    | none => []
    | some (v, r) => v :: lexItems ws txt n r

/-- `str.expandtabs`, which `parseString` applies to its argument; `col` is the column modulo 8. Serves `parseLine` (`:829-834`). -/
def expandTabs (col : Nat) : Str → Str
  | [] => []
  | c :: s =>
    if c = '\t' then List.replicate (8 - col) ' ' ++ expandTabs 0 s
    else c :: expandTabs (if c = '\n' ∨ c = '\r' then 0 else (col + 1) % 8) s

/-- `self._parse_line().parseString(line)` (`:829-834`): text behind the last item that matches is ignored. -/
def parseLine (delim : Str) (line : Str) : Except FErr (List FVal) :=
  match lexItems (fun c => delim.contains c) (textChars delim) (expandTabs 0 line).length (expandTabs 0 line) with
  | [] => .error .parse
  | vs => .ok vs

/-! ## Reading -/

/-- `FileParser.set_file` (`:449-457`): the lines after removal of comments. `line.split(None)` splits at white space. An empty piece list or an empty line has no element 0. -/
def setFile (eol full : Option Char) (lines : List Str) : Except PyErr (List Str) :=
  if eol = none ∧ full = none then .ok lines
  else
    (lines.filter fun l => decide (full = none ∨ l.head? ≠ full)).mapM fun l =>
      match eol with
      | some c => .ok (l.takeWhile (· ≠ c))
      | none =>
        let w := (l.dropWhile Char.isWhitespace).takeWhile fun x => !x.isWhitespace
        if w = [] then .error .IndexError else .ok w

/-- `data[k]` of a parsed line for a python index. Serves `readVar` (`:590-612`). -/
def pyItem {α : Type} (l : List α) (k : Int) : Except FErr α :=
  match (rowIdx l.length k).bind fun i => l[i]? with
  | none => .error (.py .IndexError)
  | some v => .ok v

/-- `transfer_var` (`:590-612`). -/
def readVar (delim : Str) (w : FWrap) (row field : Int) : Except FErr FVal :=
  match pyItem w.data (w.cur + row) with
  | .error e => .error e
  | .ok line =>
    match parseLine delim line with
    | .error e => .error e
    | .ok vs => pyItem vs (field - 1)

/-- `line.replace(key, "KeyField")` for a key that is not empty. Serves `readKeyVar` (`:640-670`). -/
def replaceKey (key : Str) : Nat → Str → Str
  | _, [] => []
  | k + 1, _ :: s => replaceKey key k s
  | 0, c :: s => if key.isPrefixOf (c :: s) then "KeyField".toList ++ replaceKey key (key.length - 1) s else c :: replaceKey key 0 s

/-- The loop over the lines (`:645-663`): number of lines passed before the `occ`-th line with the key, or the number of all lines. -/
def keyRow (key : Str) : Nat → List Str → Nat
  | _, [] => 0
  | occ, l :: ls =>
    if hasSub key l then (if occ = 1 then 0 else keyRow key (occ - 1) ls + 1) else keyRow key occ ls + 1

/-- `transfer_keyvar` (`:640-670`). -/
def readKeyVar (delim : Str) (w : FWrap) (key : Str) (field : Int) (occurrence rowoffset : Int) : Except FErr FVal :=
  if occurrence = 0 then .error (.py .ValueError)
  else
    let row : Int := if occurrence > 0 then keyRow key occurrence.toNat (w.data.drop w.cur)
      else -1 - (keyRow key (-occurrence).toNat (w.data.drop w.cur).reverse : Int)
    match pyItem w.data (w.cur + row + rowoffset) with
    | .error e => .error e
    | .ok line =>
      match parseLine delim (replaceKey key 0 line) with
      | .error e => .error e
      | .ok vs => pyItem vs field

/-! ## Arrays -/

/-- Bound of a python slice. Serves `arrayRows` (`:716-741`). -/
def sliceBound (n : Nat) (k : Int) : Nat := if k < 0 then (k + n).toNat else min k.toNat n

/-- `l[a:b]`; `b = none` for `l[a:]`. Serves `arrayRows` (`:716-741`). -/
def pySliceOf {α : Type} (l : List α) (a : Int) (b : Option Int) : List α :=
  (l.take (match b with | none => l.length | some k => sliceBound l.length k)).drop (sliceBound l.length a)

/-- The loop of `transfer_array` (`:716-741`): `left` counts down to the last of the rows that were asked for. -/
def arrayRows (delim : Str) (fieldend : Int) : List Str → Int → Int → Except FErr (List FVal)
  | [], _, _ => .ok []
  | line :: lines, left, fs =>
    match parseLine delim line with
    | .error e => .error e
    | .ok vs =>
      match arrayRows delim fieldend lines (left - 1) 1 with
      | .error e => .error e
      | .ok rest => .ok (pySliceOf vs (fs - 1) (if left = 0 then some fieldend else none) ++ rest)

/-- `transfer_array` (`:702-743`): the fields in order. The conversion to a numpy array, which makes all numbers floats, or all fields texts if there is a text among them, is not modelled. -/
def readArray (delim : Str) (w : FWrap) (rowstart fieldstart : Int) (rowend fieldend : Option Int) : Except FErr (List FVal) :=
  let j1 : Int := w.cur + rowstart
  let j2 : Int := match rowend with | none => j1 + 1 | some r => w.cur + r + 1
  match fieldend with
  | none => .error (.py .ValueError)
  | some fe =>
    if fe = 0 then .error (.py .ValueError)
    else arrayRows delim fe (pySliceOf w.data j1 (some j2)) (j2 - j1 - 1) fieldstart

/-- Element of an array of floats. Serves `matRows` (`:816-825`). -/
inductive FNum
  | nan
  | inf
  | num (q : ℚ)
  deriving DecidableEq

/-- A field stored in an array of floats. Texts raise ValueError; texts that `float` accepts and the tokens do not know (such as `inf`) are not distinguished from others. Serves `matRows` (`:816-825`). -/
def FVal.num : FVal → Except FErr FNum
  | .nan => .ok .nan
  | .inf => .ok .inf
  | .flt q => .ok (.num q)
  | .int z => .ok (.num z)
  | .text _ => .error (.py .ValueError)

/-- `data[i, :] = np.array(fields)` for a row of `width` zeros: the new row. One field is broadcast to the whole row. Serves `matRows` (`:816-825`). -/
def assignRow (width : Nat) (fields : List FVal) : Except FErr (List FNum) :=
  match fields.mapM FVal.num with
  | .error e => .error e
  | .ok xs =>
    if xs.length = width then .ok xs
    else match xs with
      | [x] => .ok (List.replicate width x)
      | _ => .error (.py .ValueError)

/-- The rows after the first (`:816-825`). With `fieldend` an exception of the assignment is caught and the row stays zero; `parseString` is outside of the `try`. -/
def matRows (delim : Str) (width : Nat) (fs : Int) (fe : Option Int) : List Str → Except FErr (List (List FNum))
  | [] => .ok []
  | line :: lines =>
    match parseLine delim line with
    | .error e => .error e
    | .ok vs =>
      match assignRow width (pySliceOf vs (fs - 1) fe) with
      | .ok r => (matRows delim width fs fe lines).map fun m => r :: m
      | .error e => if fe = none then .error e else (matRows delim width fs fe lines).map fun m => List.replicate width (.num 0) :: m

/-- `fieldend and (fieldstart > fieldend)` (`:773`), `fieldend` not being 0. -/
def endBefore (fs : Int) : Option Int → Bool
  | none => false
  | some k => decide (fs > k)

/-- `transfer_2Darray` (`:773-827`). Lines that the file does not have leave rows of zeros. `fieldend = 0` is the same as no `fieldend`. -/
def readMat (delim : Str) (w : FWrap) (rowstart fieldstart rowend : Int) (fieldend : Option Int) : Except FErr (List (List FNum)) :=
  let fe : Option Int := if fieldend = some 0 then none else fieldend
  if endBefore fieldstart fe then .error (.py .ValueError)
  else if rowstart > rowend then .error (.py .ValueError)
  else
    match pySliceOf w.data (w.cur + rowstart) (some (w.cur + rowend + 1)) with
    | [] => .error (.py .IndexError)
    | line :: lines =>
      match parseLine delim line with
      | .error e => .error e
      | .ok vs =>
        let row := pySliceOf vs (fieldstart - 1) fe
        match assignRow row.length row with
        | .error e => .error e
        | .ok r =>
          (matRows delim row.length fieldstart fe lines).map fun m =>
            r :: m ++ List.replicate ((rowend - rowstart).toNat - m.length) (List.replicate row.length (.num 0))

end OpenMDAO
