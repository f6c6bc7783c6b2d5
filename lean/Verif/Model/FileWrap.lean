import Verif.Model.Numpy
import Verif.Model.Paths
/-!
# Model of the file wrapping utilities

`openmdao/util/file_wrap.py`: `_SubHelper`, `InputFileGenerator` and the anchor of `FileParser`. Lines are lists of characters as `readlines` returns them, with their line ends.
-/
namespace OpenMDAO

/-- A file wrapper: lines, current row, and whether an anchor is set (`file_wrap.py:133-143,426-437`). -/
structure FWrap where
  data : List Str
  cur : Nat
  anchored : Bool
  deriving DecidableEq

/-! ### Substitution of fields -/

/-- `re.sub(reg, rep, line)` for the regular expression `[^…\n]+` (`file_wrap.py:139,180`): every longest run of characters that are no delimiters is replaced by the result of `rep`, which has a state.
`isD` tells the delimiters, among them the line feed. Simplified: characters with a meaning inside brackets of a regular expression (`^ - ] \`) are taken literally. -/
def reSub {S : Type} (isD : Char → Bool) (rep : S → Str → S × Str) : S → Str → S × Str
  | s, [] => (s, [])
  | s, c :: cs =>
    if isD c then
      ((reSub isD rep s cs).1, c :: (reSub isD rep s cs).2)
    else
      let w := (c :: cs).takeWhile fun x => !isD x
      let r := rep s w
      let rest := reSub isD rep r.1 (cs.dropWhile fun x => !isD x)
      (rest.1, r.2 ++ rest.2)
termination_by _ line => line.length
decreasing_by
  · simp
  · have : (cs.dropWhile fun x => !isD x).length ≤ cs.length := (List.dropWhile_suffix _).length_le
    simp; omega

/-- `_SubHelper.replace` (`file_wrap.py:63-76`): the state is `current_location`. `text` is the value as text (`_getformat(v) % v` for a float, `str(v)` otherwise). -/
def replaceOne (text : Str) (field : Int) (loc : Nat) (w : Str) : Nat × Str := (loc + 1, if ((loc + 1 : Nat) : Int) = field then text else w)

/-- `self.data[j]` for a python index. Serves `transferVar` (`file_wrap.py:256-280`). -/
def rowIdx (n : Nat) (j : Int) : Option Nat :=
  if 0 ≤ j then (if j.toNat < n then some j.toNat else none) else if 0 ≤ j + n then some (j + n).toNat else none

/-- `InputFileGenerator.transfer_var` (`file_wrap.py:256-280`). -/
def transferVar (isD : Char → Bool) (w : FWrap) (text : Str) (row field : Int) : Except PyErr FWrap :=
  match rowIdx w.data.length (w.cur + row) with
  | none => .error .IndexError
  | some j =>
    match w.data[j]? with
    | none => .error .IndexError
    | some line => .ok { w with data := w.data.set j (reSub isD (replaceOne text field) 0 line).2 }

/-- `_SubHelper.replace_array` (`file_wrap.py:78-97`): the state is `current_location` and `counter`; `vals` are the values as text. -/
def replaceArr (vals : List Str) (fstart fend : Int) (s : Nat × Nat) (w : Str) : (Nat × Nat) × Str :=
  if fstart ≤ ((s.1 + 1 : Nat) : Int) ∧ ((s.1 + 1 : Nat) : Int) ≤ fend then
    match vals[s.2]? with
    | some v => ((s.1 + 1, s.2 + 1), v)
    | none => ((s.1 + 1, s.2), w)
  else ((s.1 + 1, s.2), w)

/-- `s.rstrip()`; `ws` tells white space. Serves `appendVals` (`file_wrap.py:333-335`). -/
def rstrip (ws : Char → Bool) (s : Str) : Str := (s.reverse.dropWhile ws).reverse

/-- The loop of `transfer_array` over the rows (`file_wrap.py:315-329`): lines, `counter`, the first field, and the index of the row done last. -/
def arrRows (isD : Char → Bool) (vals : List Str) (fend : Int) (cur : Nat) (rowEnd : Int) : List Int → List Str × Nat × Int × Option Nat → Except PyErr (List Str × Nat × Int × Option Nat)
  | [], st => .ok st
  | row :: rows, (data, counter, fstart, _) =>
    match rowIdx data.length (cur + row) with
    | none => .error .IndexError
    | some j =>
      match data[j]? with
      | none => .error .IndexError
      | some line =>
        let r := reSub isD (replaceArr vals fstart (if row = rowEnd then fend else 99999)) (0, counter) line
        arrRows isD vals fend cur rowEnd rows (data.set j r.2, r.1.2, 0, some j)

/-- `newline = newline.rstrip() + sep + str(val)` for the values that are left (`file_wrap.py:333-335`). -/
def appendVals (ws : Char → Bool) (sep : Str) : Str → List Str → Str
  | line, [] => line
  | line, v :: vs => appendVals ws sep (rstrip ws line ++ sep ++ v) vs

/-- `range(a, b+1)`. Serves `transferArray` (`file_wrap.py:282-347`). -/
def intRange (a b : Int) : List Int := (List.range (b + 1 - a).toNat).map fun i : Nat => a + (i : Int)

/-- `InputFileGenerator.transfer_array` (`file_wrap.py:282-347`). `vals`: the values as `replace_array` writes them; `strs`: the values under `str`, used beyond the template. An empty range of rows leaves `newline` and `j`
undefined. -/
def transferArray (isD ws : Char → Bool) (w : FWrap) (vals strs : List Str) (rowStart fieldStart fieldEnd : Int) (rowEnd : Option Int) (sep : Str) : Except PyErr FWrap :=
  let rowEnd := rowEnd.getD rowStart
  match arrRows isD vals fieldEnd w.cur rowEnd (intRange rowStart rowEnd) (w.data, 0, fieldStart, none) with
  | .error e => .error e
  | .ok (_, _, _, none) => .error .NameError
  | .ok (data, counter, _, some j) =>
    match data[j]? with
    | none => .error .IndexError
    | some line => .ok { w with data := data.set j (appendVals ws sep line (strs.drop counter) ++ ['\n']) }

/-! ### Anchors -/

/-- The loop of `transfer_2Darray` over the rows (`file_wrap.py:376-390`): line and array row per turn; `value[i, :]` beyond the array is an `IndexError`. -/
def arr2Rows (isD : Char → Bool) (vals : List (List Str)) (fstart fend : Int) (cur : Nat) : List Int → Nat → List Str → Except PyErr (List Str)
  | [], _, data => .ok data
  | row :: rows, i, data =>
    match rowIdx data.length (cur + row) with
    | none => .error .IndexError
    | some j =>
      match data[j]?, vals[i]? with
      | some line, some v => arr2Rows isD vals fstart fend cur rows (i + 1) (data.set j (reSub isD (replaceArr v fstart fend) (0, 0) line).2)
      | _, _ => .error .IndexError

/-- `InputFileGenerator.transfer_2Darray` (`file_wrap.py:349-390`). `vals`: the rows of the array as `replace_array` writes them. After an error the lines already written stay written; the model reports the error only. -/
def transfer2D (isD : Char → Bool) (w : FWrap) (vals : List (List Str)) (rowStart rowEnd fieldStart fieldEnd : Int) : Except PyErr FWrap :=
  match arr2Rows isD vals fieldStart fieldEnd w.cur (intRange rowStart rowEnd) 0 w.data with
  | .error e => .error e
  | .ok data => .ok { w with data := data }

/-- `InputFileGenerator.clearline` (`file_wrap.py:395-403`). -/
def clearLine (w : FWrap) (row : Int) : Except PyErr FWrap :=
  match rowIdx w.data.length (w.cur + row) with
  | none => .error .IndexError
  | some j => .ok { w with data := w.data.set j ['\n'] }

/-- `line.find(anchor) > -1`, `anchor in line`. Serves `fwdLoop` (`file_wrap.py:203-222`). -/
def hasSub (a : Str) : Str → Bool
  | [] => a.isEmpty
  | c :: cs => a.isPrefixOf (c :: cs) || hasSub a cs

/-- `line.split(anchor)` for a non-empty anchor, from left to right: `skip` counts the characters of a found anchor that are still to be passed over, `acc` is the piece so far. Serves `fwdLoop` (`file_wrap.py:203-222`). -/
def splitStr (a : Str) : Nat → Str → Str → List Str
  | _, acc, [] => [acc]
  | skip + 1, acc, _ :: cs => splitStr a skip acc cs
  | 0, acc, c :: cs => if a.isPrefixOf (c :: cs) then acc :: splitStr a (a.length - 1) [] cs else splitStr a 0 (acc ++ [c]) cs

/-- The forward loop (`file_wrap.py:203-222`): `count` and `instance`; the result is the `count` at which the loop returns. The first line of an anchored wrapper is cut by `line.split(anchor)[-1]`. -/
def fwdLoop (a : Str) (occ : Nat) (anchored : Bool) : Nat → Nat → List Str → Except PyErr (Option Nat)
  | _, _, [] => .ok none
  | count, inst, l :: ls =>
    if count = 0 ∧ anchored = true ∧ a = [] then .error .ValueError
    else
      let l' := if count = 0 ∧ anchored = true then (splitStr a 0 [] l).getLast?.getD l else l
      if hasSub a l' then
        if inst + 1 = occ then .ok (some count) else fwdLoop a occ anchored (count + 1) (inst + 1) ls
      else fwdLoop a occ anchored (count + 1) inst ls

/-- The backward loop (`file_wrap.py:224-243`) on the reversed lines: `k` is `max_lines - count`, `inst` the negated `instance`; the first line looked at is cut by `line.split(anchor)[0]` when anchored. -/
def bwdLoop (a : Str) (occ : Nat) (anchored : Bool) : Nat → Nat → List Str → Except PyErr (Option Nat)
  | _, _, [] => .ok none
  | k, inst, l :: ls =>
    if k = 0 ∧ anchored = true ∧ a = [] then .error .ValueError
    else
      let l' := if k = 0 ∧ anchored = true then (splitStr a 0 [] l).head?.getD l else l
      if hasSub a l' then
        if inst + 1 = occ then .ok (some k) else bwdLoop a occ anchored (k + 1) (inst + 1) ls
      else bwdLoop a occ anchored (k + 1) inst ls

/-- `mark_anchor` of `InputFileGenerator` (`file_wrap.py:182-248`) and of `FileParser` (`file_wrap.py:478-544`): the wrapper afterwards and the exception, if any. -/
def markAnchor (w : FWrap) (a : Str) (occurrence : Int) : FWrap × Except PyErr Unit :=
  if 0 < occurrence then
    match fwdLoop a occurrence.toNat w.anchored 0 0 (w.data.drop w.cur) with
    | .error e => (w, .error e)
    | .ok none => (w, .error .RuntimeError)
    | .ok (some count) => ({ w with cur := w.cur + count, anchored := true }, .ok ())
  else if occurrence < 0 then
    match bwdLoop a (-occurrence).toNat w.anchored 0 0 w.data.reverse with
    | .error e => (w, .error e)
    | .ok none => (w, .error .RuntimeError)
    | .ok (some k) => ({ w with cur := w.data.length - 1 - k, anchored := true }, .ok ())
  else (w, .error .ValueError)

end OpenMDAO
