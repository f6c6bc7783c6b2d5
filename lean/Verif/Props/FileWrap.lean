import Verif.Model.FileWrap
import Mathlib.Data.List.Infix
/-!
# C49, C50, C65: file wrapping
-/
namespace OpenMDAO
set_option linter.unusedSectionVars false

/-! ### Lines as fields and delimiters -/

/-- The fields of a line with the delimiters that follow them. -/
def renderF : List (Str × Str) → Str
  | [] => []
  | f :: fs => f.1 ++ f.2 ++ renderF fs

/-- Only delimiters. -/
def Delims (isD : Char → Bool) (d : Str) : Prop := ∀ c ∈ d, isD c = true
/-- A field: not empty, no delimiter in it. -/
def Word (isD : Char → Bool) (w : Str) : Prop := w ≠ [] ∧ ∀ c ∈ w, isD c = false

/-- Fields alternate with non-empty delimiters; only the last may have none behind it. -/
def IsFields (isD : Char → Bool) : List (Str × Str) → Prop
  | [] => True
  | f :: fs => Word isD f.1 ∧ Delims isD f.2 ∧ (fs ≠ [] → f.2 ≠ []) ∧ IsFields isD fs

/-- `line` consists of the delimiters `d₀` and the fields `fs` with the delimiters behind them. -/
def IsLayout (isD : Char → Bool) (line d₀ : Str) (fs : List (Str × Str)) : Prop := line = d₀ ++ renderF fs ∧ Delims isD d₀ ∧ IsFields isD fs

theorem exists_layout (isD : Char → Bool) (line : Str) : ∃ d₀ fs, IsLayout isD line d₀ fs := by
  induction line with
  | nil => exact ⟨[], [], rfl, by simp [Delims], trivial⟩
  | cons c cs ih =>
    obtain ⟨d₀, fs, h1, h2, h3⟩ := ih
    by_cases hc : isD c = true
    · refine ⟨c :: d₀, fs, by simp [h1], ?_, h3⟩
      intro x hx
      rcases List.mem_cons.1 hx with rfl | hx
      · exact hc
      · exact h2 x hx
    · have hc' : isD c = false := by simpa using hc
      rcases d₀ with _ | ⟨x, d₀⟩
      · rcases fs with _ | ⟨f, fs⟩
        · exact ⟨[], [([c], [])], by simp [h1, renderF], by simp [Delims], ⟨by simp [Word, hc'], by simp [Delims], by simp, trivial⟩⟩
        · obtain ⟨hw, hd, hn, hr⟩ := h3
          refine ⟨[], (c :: f.1, f.2) :: fs, by simp [h1, renderF], by simp [Delims], ⟨⟨by simp, ?_⟩, hd, hn, hr⟩⟩
          intro y hy
          rcases List.mem_cons.1 hy with rfl | hy
          · exact hc'
          · exact hw.2 y hy
      · exact ⟨[], ([c], x :: d₀) :: fs, by simp [h1, renderF], by simp [Delims], ⟨by simp [Word, hc'], h2, by simp, h3⟩⟩

theorem takeWhile_word {isD : Char → Bool} {w rest : Str} (hw : ∀ c ∈ w, isD c = false) (hr : ∀ c cs, rest = c :: cs → isD c = true) :
    (w ++ rest).takeWhile (fun x => !isD x) = w ∧ (w ++ rest).dropWhile (fun x => !isD x) = rest := by
  induction w with
  | nil =>
    cases rest with
    | nil => simp
    | cons c cs => simp [hr c cs rfl]
  | cons c w ih =>
    obtain ⟨h1, h2⟩ := ih (fun x hx => hw x (List.mem_cons_of_mem _ hx))
    simp [hw c (by simp), h1, h2]

theorem takeWhile_delims {isD : Char → Bool} {d rest : Str} (hw : ∀ c ∈ d, isD c = true) (hr : ∀ c cs, rest = c :: cs → isD c = false) :
    (d ++ rest).takeWhile isD = d ∧ (d ++ rest).dropWhile isD = rest := by
  induction d with
  | nil =>
    cases rest with
    | nil => simp
    | cons c cs => simp [hr c cs rfl]
  | cons c w ih =>
    obtain ⟨h1, h2⟩ := ih (fun x hx => hw x (List.mem_cons_of_mem _ hx))
    simp [hw c (by simp), h1, h2]

theorem fields_head {isD : Char → Bool} {fs : List (Str × Str)} (h : IsFields isD fs) : ∀ c cs, renderF fs = c :: cs → isD c = false := by
  intro c cs hc
  cases fs with
  | nil => simp [renderF] at hc
  | cons f fs =>
    obtain ⟨⟨h1, h2⟩, -⟩ := h
    obtain ⟨x, xs, hx⟩ := List.exists_cons_of_ne_nil h1
    simp only [renderF, hx, List.cons_append, List.cons.injEq] at hc
    rw [← hc.1]
    exact h2 x (by simp [hx])

theorem tail_head {isD : Char → Bool} {f : Str × Str} {fs : List (Str × Str)} (h : IsFields isD (f :: fs)) : ∀ c cs, f.2 ++ renderF fs = c :: cs → isD c = true := by
  obtain ⟨-, hd, hn, -⟩ := h
  intro c cs hc
  cases h2 : f.2 with
  | nil =>
    cases fs with
    | nil => simp [h2, renderF] at hc
    | cons g gs => exact absurd h2 (hn (by simp))
  | cons x xs =>
    rw [h2, List.cons_append, List.cons.injEq] at hc
    rw [← hc.1]
    exact hd x (by simp [h2])

theorem fields_unique {isD : Char → Bool} : ∀ (fs gs : List (Str × Str)), IsFields isD fs → IsFields isD gs → renderF fs = renderF gs → fs = gs
  | [], [], _, _, _ => rfl
  | [], g :: gs, _, h2, h => by
    simp only [renderF] at h
    have := h2.1.1
    have h0 : g.1 = [] := by
      have := congrArg List.length h
      simp only [List.length_nil, List.length_append] at this
      exact List.length_eq_zero_iff.1 (by omega)
    exact absurd h0 this
  | f :: fs, [], h1, _, h => by
    simp only [renderF] at h
    have := h1.1.1
    have h0 : f.1 = [] := by
      have := congrArg List.length h
      simp at this
      exact this.1
    exact absurd h0 this
  | f :: fs, g :: gs, h1, h2, h => by
    simp only [renderF, List.append_assoc] at h
    have a1 := takeWhile_word h1.1.2 (tail_head h1)
    have a2 := takeWhile_word h2.1.2 (tail_head h2)
    have e1 : f.1 = g.1 := by rw [← a1.1, h, a2.1]
    have e2 : f.2 ++ renderF fs = g.2 ++ renderF gs := by rw [← a1.2, h, a2.2]
    have b1 := takeWhile_delims h1.2.1 (fields_head h1.2.2.2)
    have b2 := takeWhile_delims h2.2.1 (fields_head h2.2.2.2)
    have e3 : f.2 = g.2 := by rw [← b1.1, e2, b2.1]
    have e4 : renderF fs = renderF gs := by rw [← b1.2, e2, b2.2]
    rw [fields_unique fs gs h1.2.2.2 h2.2.2.2 e4, Prod.ext e1 e3]

/-- Fields and delimiters of a line are well defined. -/
theorem C49_layout_unique (isD : Char → Bool) (line : Str) : ∃ d₀ fs, IsLayout isD line d₀ fs ∧ ∀ d' fs', IsLayout isD line d' fs' → d' = d₀ ∧ fs' = fs := by
  obtain ⟨d₀, fs, h⟩ := exists_layout isD line
  refine ⟨d₀, fs, h, ?_⟩
  intro d' fs' h'
  have b1 := takeWhile_delims h.2.1 (fields_head h.2.2)
  have b2 := takeWhile_delims h'.2.1 (fields_head h'.2.2)
  have hl := h'.1.symm.trans h.1
  have e3 : d' = d₀ := by rw [← b2.1, hl, b1.1]
  have e4 : renderF fs' = renderF fs := by rw [← b2.2, hl, b1.2]
  exact ⟨e3, fields_unique _ _ h'.2.2 h.2.2 e4⟩

/-! ### Substitution -/

/-- What the replacement function does on the fields one after another. -/
def mapFields {S : Type} (rep : S → Str → S × Str) : S → List (Str × Str) → S × List (Str × Str)
  | s, [] => (s, [])
  | s, f :: fs => ((mapFields rep (rep s f.1).1 fs).1, ((rep s f.1).2, f.2) :: (mapFields rep (rep s f.1).1 fs).2)

theorem reSub_delims {S : Type} (isD : Char → Bool) (rep : S → Str → S × Str) (s : S) (d rest : Str) (hd : Delims isD d) :
    reSub isD rep s (d ++ rest) = ((reSub isD rep s rest).1, d ++ (reSub isD rep s rest).2) := by
  induction d with
  | nil => rfl
  | cons c d ih =>
    rw [List.cons_append, reSub, if_pos (hd c (by simp)), ih (fun x hx => hd x (List.mem_cons_of_mem _ hx))]
    rfl

theorem reSub_word {S : Type} (isD : Char → Bool) (rep : S → Str → S × Str) (s : S) (w rest : Str) (hw : Word isD w) (hr : ∀ c cs, rest = c :: cs → isD c = true) :
    reSub isD rep s (w ++ rest) = ((reSub isD rep (rep s w).1 rest).1, (rep s w).2 ++ (reSub isD rep (rep s w).1 rest).2) := by
  obtain ⟨c, cs, rfl⟩ := List.exists_cons_of_ne_nil hw.1
  have a := takeWhile_word hw.2 hr
  have hc : isD c = false := hw.2 c (by simp)
  have a2 : (cs ++ rest).dropWhile (fun x => !isD x) = rest := (takeWhile_word (fun x hx => hw.2 x (List.mem_cons_of_mem _ hx)) hr).2
  rw [List.cons_append] at a ⊢
  rw [reSub, if_neg (by simp [hc])]
  simp only [a.1, a2]

theorem reSub_fields {S : Type} (isD : Char → Bool) (rep : S → Str → S × Str) : ∀ (fs : List (Str × Str)) (s : S), IsFields isD fs →
    reSub isD rep s (renderF fs) = ((mapFields rep s fs).1, renderF (mapFields rep s fs).2)
  | [], s, _ => by rw [renderF, reSub]; rfl
  | f :: fs, s, h => by
    rw [renderF, List.append_assoc, reSub_word isD rep s f.1 _ h.1 (tail_head h), reSub_delims isD rep _ f.2 _ h.2.1, reSub_fields isD rep fs _ h.2.2.2]
    simp [mapFields, renderF]

theorem reSub_layout {S : Type} (isD : Char → Bool) (rep : S → Str → S × Str) (s : S) {line d₀ : Str} {fs : List (Str × Str)} (h : IsLayout isD line d₀ fs) :
    reSub isD rep s line = ((mapFields rep s fs).1, d₀ ++ renderF (mapFields rep s fs).2) := by
  rw [h.1, reSub_delims isD rep s d₀ _ h.2.1, reSub_fields isD rep fs s h.2.2]

/-- The fields with number `field` (counted from 1) replaced. -/
def FieldSet (fs fs' : List (Str × Str)) (field : Int) (text : Str) : Prop :=
  ∀ i : Nat, fs'[i]? = if (i : Int) + 1 = field then fs[i]?.map (fun f => (text, f.2)) else fs[i]?

theorem mapFields_one (text : Str) (field : Int) : ∀ (fs : List (Str × Str)) (loc i : Nat),
    (mapFields (replaceOne text field) loc fs).2[i]? = if ((loc + i : Nat) : Int) + 1 = field then fs[i]?.map (fun f => (text, f.2)) else fs[i]?
  | [], loc, i => by simp [mapFields]
  | f :: fs, loc, 0 => by
    simp only [mapFields, replaceOne, List.getElem?_cons_zero, Option.map_some, Nat.add_zero]
    have : ((loc + 1 : Nat) : Int) = (loc : Int) + 1 := by omega
    rw [this]
    split_ifs <;> rfl
  | f :: fs, loc, i + 1 => by
    have h := mapFields_one text field fs (loc + 1) i
    rw [show loc + 1 + i = loc + (i + 1) by omega] at h
    exact h

/-- What one substitution may change: the field in its line, nothing else. -/
def OneFieldChanged (isD : Char → Bool) (w w' : FWrap) (j : Nat) (field : Int) (text : Str) : Prop :=
  w'.cur = w.cur ∧ w'.anchored = w.anchored ∧ w'.data.length = w.data.length ∧ (∀ k, k ≠ j → w'.data[k]? = w.data[k]?) ∧
    ∀ line d₀ fs, w.data[j]? = some line → IsLayout isD line d₀ fs → ∃ fs', w'.data[j]? = some (d₀ ++ renderF fs') ∧ FieldSet fs fs' field text

/-- **C49.** Replacing field `field` in a line `row` lines from the anchor: in that line the field with this number becomes the value, all other fields and all delimiters stay; all other lines stay; the anchor stays. A row beyond the
file raises IndexError. Numbers of fields that the line does not have change nothing. -/
theorem C49_transfer_var (isD : Char → Bool) (w : FWrap) (text : Str) (row field : Int) (hrow : 0 ≤ w.cur + row) :
    (∀ j : Nat, (j : Int) = w.cur + row → j < w.data.length → ∃ w', transferVar isD w text row field = .ok w' ∧ OneFieldChanged isD w w' j field text) ∧
    ((w.data.length : Int) ≤ w.cur + row → transferVar isD w text row field = .error .IndexError) := by
  constructor
  · intro j hj hlt
    have h1 : rowIdx w.data.length (w.cur + row) = some j := by
      rw [rowIdx, if_pos hrow, ← hj]
      simp [hlt]
    have h2 : w.data[j]? = some w.data[j] := List.getElem?_eq_getElem hlt
    simp only [transferVar, h1, h2]
    refine ⟨_, rfl, rfl, rfl, by simp, ?_, ?_⟩
    · intro k hk
      exact List.getElem?_set_ne (fun e => hk e.symm)
    · intro line d₀ fs hline hlay
      rw [h2] at hline
      have hline := Option.some.inj hline
      refine ⟨(mapFields (replaceOne text field) 0 fs).2, ?_, ?_⟩
      · simp only [List.getElem?_set, hlt, if_true, hline, reSub_layout isD _ 0 hlay]
      · intro i
        rw [mapFields_one]
        simp
  · intro h
    have h1 : rowIdx w.data.length (w.cur + row) = none := by
      rw [rowIdx, if_pos hrow, if_neg (by omega)]
    simp only [transferVar, h1]

theorem isFields_set {isD : Char → Bool} {text : Str} (ht : Word isD text) (field : Int) : ∀ (fs : List (Str × Str)) (loc : Nat), IsFields isD fs →
    IsFields isD (mapFields (replaceOne text field) loc fs).2
  | [], _, _ => trivial
  | f :: fs, loc, h => by
    refine ⟨?_, h.2.1, ?_, isFields_set ht field fs _ h.2.2.2⟩
    · simp only [replaceOne]
      split_ifs
      · exact ht
      · exact h.1
    · intro hne
      apply h.2.2.1
      intro e
      subst e
      exact hne rfl

/-- **C49 (reading back).** If the value is not empty and has no delimiter in it, then the fields of the new line are those of the old line with the one replaced: the value is read back as that field. -/
theorem C49_read_back (isD : Char → Bool) (text : Str) (ht : Word isD text) (field : Int) (line d₀ : Str) (fs : List (Str × Str)) (h : IsLayout isD line d₀ fs) :
    ∃ fs', IsLayout isD (reSub isD (replaceOne text field) 0 line).2 d₀ fs' ∧ FieldSet fs fs' field text := by
  refine ⟨(mapFields (replaceOne text field) 0 fs).2, ⟨by rw [reSub_layout isD _ 0 h], h.2.1, isFields_set ht field fs 0 h.2.2⟩, ?_⟩
  intro i
  rw [mapFields_one]
  simp

/-- Second field of the second line of a template with two blanks and a tab. -/
def spaceTab : Char → Bool := fun c => c = ' ' || c = '\n'
example : transferVar spaceTab ⟨["x 1\n".toList, "  ab  7 cd\n".toList, "z\n".toList], 0, false⟩ "3.5".toList 1 2 =
    .ok ⟨["x 1\n".toList, "  ab  3.5 cd\n".toList, "z\n".toList], 0, false⟩ := by
  rw [transferVar]
  simp [rowIdx, reSub, spaceTab, replaceOne]

/-- Finding: a row before the beginning of the file is not rejected, python counts it from the end of the file. -/
theorem finding_C49_wraps : transferVar spaceTab ⟨["x 1\n".toList, "y 2\n".toList], 0, false⟩ ['9'] (-1) 2 = .ok ⟨["x 1\n".toList, "y 9\n".toList], 0, false⟩ := by
  rw [transferVar]
  simp [rowIdx, reSub, spaceTab, replaceOne]

/-! ### C65: arrays in one line -/

theorem mapFields_arr (vals : List Str) (fstart fend : Int) : ∀ (fs : List (Str × Str)) (loc cnt : Nat),
    (∀ i : Nat, (mapFields (replaceArr vals fstart fend) (loc, cnt) fs).2[i]? =
      if fstart ≤ ((loc + i : Nat) : Int) + 1 ∧ ((loc + i : Nat) : Int) + 1 ≤ fend then
        (match vals[cnt + (i - (fstart - 1 - loc).toNat)]? with | some v => fs[i]?.map (fun f => (v, f.2)) | none => fs[i]?)
      else fs[i]?) ∧
    (mapFields (replaceArr vals fstart fend) (loc, cnt) fs).1.2 =
      cnt + min (vals.length - cnt) (min ((loc : Int) + fs.length) fend - max (loc : Int) (fstart - 1)).toNat
  | [], loc, cnt => by
    constructor
    · intro i; simp [mapFields]; intros; split <;> rfl
    · simp only [mapFields, List.length_nil]
      omega
  | f :: fs, loc, cnt => by
    by_cases hin : fstart ≤ ((loc + 1 : Nat) : Int) ∧ ((loc + 1 : Nat) : Int) ≤ fend
    · cases hv : vals[cnt]? with
      | some v =>
        have hr : replaceArr vals fstart fend (loc, cnt) f.1 = ((loc + 1, cnt + 1), v) := by simp only [replaceArr, if_pos hin, hv]
        have hlt : cnt < vals.length := (List.getElem?_eq_some_iff.1 hv).1
        obtain ⟨ih1, ih2⟩ := mapFields_arr vals fstart fend fs (loc + 1) (cnt + 1)
        constructor
        · intro i
          cases i with
          | zero =>
            have hz : (fstart - 1 - (loc : Int)).toNat = 0 := by omega
            simp only [mapFields, hr, List.getElem?_cons_zero, Nat.add_zero, hz, Nat.zero_sub, hv, Option.map_some]
            rw [if_pos (by push_cast at hin ⊢; omega)]
          | succ i =>
            simp only [mapFields, hr, List.getElem?_cons_succ, ih1]
            have hz : (fstart - 1 - (loc : Int)).toNat = 0 := by omega
            have hz2 : (fstart - 1 - ((loc + 1 : Nat) : Int)).toNat = 0 := by omega
            rw [hz, hz2]
            rw [show loc + 1 + i = loc + (i + 1) by omega, show cnt + 1 + (i - 0) = cnt + (i + 1 - 0) by omega]
        · simp only [mapFields, hr, ih2, List.length_cons]
          push_cast
          omega
      | none =>
        have hr : replaceArr vals fstart fend (loc, cnt) f.1 = ((loc + 1, cnt), f.1) := by simp only [replaceArr, if_pos hin, hv]
        have hge : vals.length ≤ cnt := List.getElem?_eq_none_iff.1 hv
        obtain ⟨ih1, ih2⟩ := mapFields_arr vals fstart fend fs (loc + 1) cnt
        have hnone : ∀ k, vals[cnt + k]? = none := fun k => List.getElem?_eq_none_iff.2 (by omega)
        constructor
        · intro i
          cases i with
          | zero => simp only [mapFields, hr, List.getElem?_cons_zero, hnone]; split_ifs <;> rfl
          | succ i =>
            simp only [mapFields, hr, List.getElem?_cons_succ, ih1, hnone]
            split_ifs <;> rfl
        · simp only [mapFields, hr, ih2, List.length_cons]
          push_cast
          omega
    · have hr : replaceArr vals fstart fend (loc, cnt) f.1 = ((loc + 1, cnt), f.1) := by simp only [replaceArr, if_neg hin]
      obtain ⟨ih1, ih2⟩ := mapFields_arr vals fstart fend fs (loc + 1) cnt
      constructor
      · intro i
        cases i with
        | zero =>
          simp only [mapFields, hr, List.getElem?_cons_zero, Nat.add_zero]
          rw [if_neg (by push_cast at hin; omega)]
        | succ i =>
          simp only [mapFields, hr, List.getElem?_cons_succ, ih1]
          rw [show loc + 1 + i = loc + (i + 1) by omega]
          split_ifs with h1
          · have : i - (fstart - 1 - ((loc + 1 : Nat) : Int)).toNat = i + 1 - (fstart - 1 - (loc : Int)).toNat := by push_cast at hin h1 ⊢; omega
            rw [this]
          · rfl
      · simp only [mapFields, hr, ih2, List.length_cons]
        push_cast at hin ⊢
        omega

/-- **C65, partial.** An array written into one line: the fields with numbers `fieldStart … fieldEnd` get the values in order, as long as there are values; all other fields, all delimiters, all other lines and the anchor stay;
the values for which there is no field are appended. Missing: the line gets an additional line feed (`C65_line_feed_refuted`); arrays over several lines. -/
theorem C65_array_fields_partial (isD ws : Char → Bool) (w : FWrap) (vals strs : List Str) (row fieldStart fieldEnd : Int) (sep : Str) (h1 : 1 ≤ fieldStart)
    (j : Nat) (hj : (j : Int) = w.cur + row) (hlt : j < w.data.length) (line d₀ : Str) (fs : List (Str × Str)) (hline : w.data[j]? = some line) (hlay : IsLayout isD line d₀ fs) :
    ∃ fs' : List (Str × Str),
      (∀ i : Nat, fs'[i]? = if fieldStart ≤ (i : Int) + 1 ∧ (i : Int) + 1 ≤ fieldEnd then
        (match vals[i + 1 - fieldStart.toNat]? with | some v => fs[i]?.map (fun f => (v, f.2)) | none => fs[i]?) else fs[i]?) ∧
      transferArray isD ws w vals strs row fieldStart fieldEnd none sep = .ok { w with data := w.data.set j (appendVals ws sep (d₀ ++ renderF fs') (strs.drop (min vals.length (min (fs.length : Int) fieldEnd - (fieldStart - 1)).toNat)) ++ ['\n']) } := by
  obtain ⟨a1, a2⟩ := mapFields_arr vals fieldStart fieldEnd fs 0 0
  refine ⟨(mapFields (replaceArr vals fieldStart fieldEnd) (0, 0) fs).2, ?_, ?_⟩
  · intro i
    rw [a1 i]
    have e1 : ((0 + i : Nat) : Int) = i := by omega
    have e2 : 0 + (i - (fieldStart - 1 - ((0 : Nat) : Int)).toNat) = i + 1 - fieldStart.toNat := by omega
    rw [e1, e2]
  · have hr : rowIdx w.data.length (w.cur + row) = some j := by
      rw [rowIdx, if_pos (by omega), ← hj]
      simp [hlt]
    have hrange : intRange row row = [row] := by
      simp only [intRange]
      rw [show (row + 1 - row).toNat = 1 by omega]
      simp
    have hcnt : (mapFields (replaceArr vals fieldStart fieldEnd) (0, 0) fs).1.2 = min vals.length (min (fs.length : Int) fieldEnd - (fieldStart - 1)).toNat := by
      rw [a2]
      have : max ((0 : Nat) : Int) (fieldStart - 1) = fieldStart - 1 := by omega
      rw [this]
      simp
    simp only [transferArray, Option.getD_none, hrange, arrRows, hr, hline, if_true, reSub_layout isD _ (0, 0) hlay, hcnt]
    rw [List.getElem?_set_self hlt]
    simp

/-- Values fit exactly: the line now ends with two line feeds. -/
theorem C65_line_feed_refuted : transferArray spaceTab (fun c => c = ' ' || c = '\n') ⟨["a 1 2 b\n".toList, "z\n".toList], 0, false⟩ [['8'], ['9']] [['8'], ['9']] 0 2 3 none [','] =
    .ok ⟨["a 8 9 b\n\n".toList, "z\n".toList], 0, false⟩ := by
  rw [transferArray]
  simp [rowIdx, reSub, spaceTab, replaceArr, intRange, arrRows, appendVals]

/-- Three values for two fields: hypotheses of the theorem hold and the third value is appended. -/
example : transferArray spaceTab (fun c => c = ' ' || c = '\n') ⟨["a 1 2\n".toList, "z\n".toList], 0, false⟩ [['7'], ['8'], ['9']] [['7'], ['8'], ['9']] 0 2 3 none [','] =
    .ok ⟨["a 7 8,9\n".toList, "z\n".toList], 0, false⟩ := by
  rw [transferArray]
  simp [rowIdx, reSub, spaceTab, replaceArr, intRange, arrRows, appendVals, rstrip]

/-! ### C65: arrays over several lines -/

/-- The fields of a line before, inside and behind the window from field number `first` to field number `last`. -/
def winParts {β : Type} (first last : Int) (fs : List β) : List β × List β × List β :=
  (fs.take (first - 1).toNat, (fs.take last.toNat).drop (first - 1).toNat, fs.drop (max (first - 1).toNat last.toNat))

/-- The windows of an array that starts at field `first` of the first line and ends at field `last` of the last one; lines before the last one are used to their end (at most 99999 fields), later ones
from the first field. -/
def rowParts {β : Type} (last : Int) : Int → List (List β) → List (List β × List β × List β)
  | _, [] => []
  | first, [fs] => [winParts first last fs]
  | first, fs :: rest => winParts first 99999 fs :: rowParts last 1 rest

/-- All fields of the windows in reading order. -/
def inWindow {β : Type} (last first : Int) (ls : List (List β)) : List β := (rowParts last first ls).flatMap fun p => p.2.1

/-- Everything else. -/
def offWindow {β : Type} (last first : Int) (ls : List (List β)) : List (List β × List β) := (rowParts last first ls).map fun p => (p.1, p.2.2)

/-- Values written over a list: as many as there are of both. -/
def overlay {β : Type} (vals old : List β) : List β := vals.take old.length ++ old.drop vals.length

theorem overlay_length {β : Type} (v o : List β) : (overlay v o).length = o.length := by simp [overlay]; omega

theorem overlay_getElem? {β : Type} (v o : List β) (i : Nat) : (overlay v o)[i]? = if i < o.length then (match v[i]? with | some x => some x | none => o[i]?) else none := by
  unfold overlay
  by_cases hi : i < o.length
  · rw [if_pos hi]
    by_cases hv : i < v.length
    · rw [List.getElem?_append_left (by rw [List.length_take]; omega), List.getElem?_take_of_lt hi, List.getElem?_eq_getElem hv]
    · have hl : (v.take o.length).length = v.length := by rw [List.length_take]; omega
      rw [List.getElem?_append_right (by omega), hl, List.getElem?_drop, List.getElem?_eq_none (l := v) (by omega), show v.length + (i - v.length) = i by omega]
  · rw [if_neg hi]
    apply List.getElem?_eq_none
    have := overlay_length v o
    unfold overlay at this
    omega

theorem overlay_append {β : Type} (v a b : List β) : overlay v (a ++ b) = overlay v a ++ overlay (v.drop a.length) b := by
  apply List.ext_getElem?
  intro i
  by_cases hi : i < a.length
  · rw [List.getElem?_append_left (by rw [overlay_length]; exact hi), overlay_getElem?, overlay_getElem?, if_pos hi, if_pos (by simp; omega), List.getElem?_append_left hi]
  · rw [List.getElem?_append_right (by rw [overlay_length]; omega), overlay_length, overlay_getElem?, overlay_getElem?, List.getElem?_drop, List.getElem?_append_right (by omega),
      show a.length + (i - a.length) = i by omega]
    by_cases h2 : i < (a ++ b).length
    · rw [if_pos h2, if_pos (by simp at h2; omega)]
    · rw [if_neg h2, if_neg (by simp at h2; omega)]

/-- One line: the window is overwritten, everything else stays. -/
theorem mapFields_win (vals : List Str) (first last : Int) (fs : List (Str × Str)) (cnt : Nat) :
    let new := (mapFields (replaceArr vals first last) (0, cnt) fs).2
    new.map Prod.snd = fs.map Prod.snd ∧ (winParts first last new).1 = (winParts first last fs).1 ∧ (winParts first last new).2.2 = (winParts first last fs).2.2 ∧
    (winParts first last new).2.1.map Prod.fst = overlay (vals.drop cnt) ((winParts first last fs).2.1.map Prod.fst) ∧
    (mapFields (replaceArr vals first last) (0, cnt) fs).1.2 = cnt + min (vals.length - cnt) (winParts first last fs).2.1.length := by
  obtain ⟨a1, a2⟩ := mapFields_arr vals first last fs 0 cnt
  intro new
  have hlo : ∀ i : Nat, new[i]? = if (first - 1).toNat ≤ i ∧ i < last.toNat then
      (match (vals.drop cnt)[i - (first - 1).toNat]? with | some v => fs[i]?.map (fun f => (v, f.2)) | none => fs[i]?) else fs[i]? := by
    intro i
    rw [a1 i, List.getElem?_drop]
    have e : i - (first - 1 - ((0 : Nat) : Int)).toNat = i - (first - 1).toNat := by omega
    rw [e]
    by_cases h : (first - 1).toNat ≤ i ∧ i < last.toNat
    · rw [if_pos h, if_pos (by omega)]
    · rw [if_neg h, if_neg (by omega)]
  have hlen : new.length = fs.length := by
    have h1 : ∀ i : Nat, new[i]? = none ↔ fs[i]? = none := by
      intro i
      rw [hlo i]
      split
      · split <;> simp
      · rfl
    have h2 := h1 fs.length
    have h3 := h1 new.length
    simp only [List.getElem?_eq_none_iff] at h2 h3
    have := h2.2 (le_refl _)
    have := h3.1 (le_refl _)
    omega
  refine ⟨?_, ?_, ?_, ?_, ?_⟩
  · apply List.ext_getElem?
    intro i
    rw [List.getElem?_map, List.getElem?_map, hlo i]
    split
    · split <;> simp [Option.map_map, Function.comp_def]
    · rfl
  · simp only [winParts]
    apply List.ext_getElem?
    intro i
    by_cases hi : i < (first - 1).toNat
    · rw [List.getElem?_take_of_lt hi, List.getElem?_take_of_lt hi, hlo i, if_neg (by omega)]
    · rw [List.getElem?_eq_none (by simp; omega), List.getElem?_eq_none (by simp; omega)]
  · simp only [winParts]
    apply List.ext_getElem?
    intro i
    rw [List.getElem?_drop, List.getElem?_drop, hlo, if_neg (by omega)]
  · simp only [winParts]
    apply List.ext_getElem?
    intro i
    rw [overlay_getElem?, List.getElem?_map, List.getElem?_drop]
    simp only [List.getElem?_map, List.getElem?_drop, List.length_map, List.length_drop, List.length_take]
    by_cases hi : i < min last.toNat fs.length - (first - 1).toNat
    · rw [if_pos hi, List.getElem?_take_of_lt (by omega), List.getElem?_take_of_lt (by omega), hlo, if_pos (by omega), show (first - 1).toNat + i - (first - 1).toNat = i by omega, List.getElem?_drop]
      have hf : (first - 1).toNat + i < fs.length := by omega
      rw [List.getElem?_eq_getElem hf]
      cases vals[cnt + i]? <;> rfl
    · rw [if_neg hi]
      by_cases h2 : (first - 1).toNat + i < last.toNat
      · rw [List.getElem?_take_of_lt h2, List.getElem?_eq_none (by omega)]
        rfl
      · rw [List.getElem?_eq_none (by simp; omega)]
        rfl
  · rw [a2]
    simp only [winParts, List.length_drop, List.length_take]
    omega

theorem rowParts_cons {β : Type} (last first : Int) (fs : List β) (rest : List (List β)) (h : rest ≠ []) :
    rowParts last first (fs :: rest) = winParts first 99999 fs :: rowParts last 1 rest := by
  cases rest with
  | nil => exact absurd rfl h
  | cons a b => rfl

theorem winParts_zero {β : Type} (last : Int) (fs : List β) : winParts 0 last fs = winParts 1 last fs := by simp [winParts]

theorem rowParts_zero {β : Type} (last : Int) : ∀ ls : List (List β), rowParts last 0 ls = rowParts last 1 ls
  | [] => rfl
  | [fs] => by simp [rowParts, winParts_zero]
  | fs :: a :: b => by simp [rowParts, winParts_zero]

/-- The loop over the lines. -/
theorem arrRows_spec (isD : Char → Bool) (vals : List Str) (last : Int) (cur : Nat) : ∀ (lay : List (Str × List (Str × Str))) (data : List Str) (cnt : Nat) (first row : Int) (o : Option Nat) (j : Nat),
    lay ≠ [] → (j : Int) = cur + row → cnt ≤ vals.length →
    (∀ k p, lay[k]? = some p → ∃ line, data[j + k]? = some line ∧ IsLayout isD line p.1 p.2) →
    ∃ (out : List Str) (new : List (List (Str × Str))), new.length = lay.length ∧
      arrRows isD vals last cur (row + lay.length - 1) ((List.range lay.length).map fun i : Nat => row + (i : Int)) (data, cnt, first, o) =
        .ok (out, cnt + min (vals.length - cnt) (inWindow last first (lay.map Prod.snd)).length, 0, some (j + lay.length - 1)) ∧
      new.map (·.map Prod.snd) = (lay.map Prod.snd).map (·.map Prod.snd) ∧
      offWindow last first new = offWindow last first (lay.map Prod.snd) ∧
      (inWindow last first new).map Prod.fst = overlay (vals.drop cnt) ((inWindow last first (lay.map Prod.snd)).map Prod.fst) ∧
      out.length = data.length ∧ (∀ i, i < j ∨ j + lay.length ≤ i → out[i]? = data[i]?) ∧
      ∀ k p fs, lay[k]? = some p → new[k]? = some fs → out[j + k]? = some (p.1 ++ renderF fs) := by
  intro lay
  induction lay with
  | nil => intro _ _ _ _ _ _ h; exact absurd rfl h
  | cons p lay ih =>
    intro data cnt first row o j _ hj hcnt hlay
    obtain ⟨line, hl1, hl2⟩ := hlay 0 p rfl
    have hjl : j < data.length := (List.getElem?_eq_some_iff.1 hl1).1
    have hr : rowIdx data.length (cur + row) = some j := by
      rw [rowIdx, if_pos (by omega), ← hj]
      simp [hjl]
    by_cases hne : lay = []
    · subst hne
      obtain ⟨b1, b2, b3, b4, b5⟩ := mapFields_win vals first last p.2 cnt
      refine ⟨data.set j (p.1 ++ renderF (mapFields (replaceArr vals first last) (0, cnt) p.2).2), [(mapFields (replaceArr vals first last) (0, cnt) p.2).2], rfl, ?_, ?_, ?_, ?_, by simp, ?_, ?_⟩
      · have hl1' : data[j]? = some line := hl1
        have e1 : row + ((([p] : List (Str × List (Str × Str))).length : Nat) : Int) - 1 = row := by simp
        rw [e1]
        simp only [List.length_singleton, List.range_one, List.map_cons, List.map_nil, Int.cast_ofNat_Int, Int.add_zero]
        simp only [arrRows, hr, hl1', if_true, reSub_layout isD _ (0, cnt) hl2, b5, inWindow, rowParts, List.flatMap_cons, List.flatMap_nil, List.append_nil]
        congr
      · simpa using b1
      · simp [offWindow, rowParts, b2, b3]
      · simpa [inWindow, rowParts] using b4
      · intro i hi
        rw [List.getElem?_set_ne (by simp at hi; omega)]
      · intro k q fs hk hf
        cases k with
        | zero =>
          simp only [List.getElem?_cons_zero, Option.some.injEq] at hk hf
          subst hk hf
          rw [Nat.add_zero, List.getElem?_set_self hjl]
        | succ k => simp at hk
    · obtain ⟨b1, b2, b3, b4, b5⟩ := mapFields_win vals first 99999 p.2 cnt
      set nf := (mapFields (replaceArr vals first 99999) (0, cnt) p.2).2 with hnf
      set d1 := data.set j (p.1 ++ renderF nf) with hd1
      set c1 := cnt + min (vals.length - cnt) (winParts first 99999 p.2).2.1.length with hc1
      obtain ⟨out, new, n1, n2, n3, n4, n5, n6, n7, n8⟩ := ih d1 c1 0 (row + 1) (some j) (j + 1) hne (by push_cast; omega) (by omega) (by
        intro k q hk
        obtain ⟨l2, h1, h2⟩ := hlay (k + 1) q hk
        refine ⟨l2, ?_, h2⟩
        rw [hd1, List.getElem?_set_ne (by omega), show j + 1 + k = j + (k + 1) by omega]
        exact h1)
      have hnew : new ≠ [] := by
        intro h
        rw [h] at n1
        exact hne (List.length_eq_zero_iff.1 n1.symm)
      have hlm : lay.map Prod.snd ≠ [] := by simpa using hne
      have hin : ∀ ls : List (List (Str × Str)), inWindow last 0 ls = inWindow last 1 ls := fun ls => by simp [inWindow, rowParts_zero]
      have hoff : ∀ ls : List (List (Str × Str)), offWindow last 0 ls = offWindow last 1 ls := fun ls => by simp [offWindow, rowParts_zero]
      rw [hin] at n2
      rw [hoff, hoff] at n4
      rw [hin, hin] at n5
      have hic : ∀ (fs : List (Str × Str)) (rest : List (List (Str × Str))), rest ≠ [] → inWindow last first (fs :: rest) = (winParts first 99999 fs).2.1 ++ inWindow last 1 rest := by
        intro fs rest h
        simp [inWindow, rowParts_cons _ _ _ _ h]
      refine ⟨out, nf :: new, by simp [n1], ?_, ?_, ?_, ?_, by simp [n6, hd1], ?_, ?_⟩
      · have hl1' : data[j]? = some line := hl1
        have hpos : 0 < lay.length := List.length_pos_iff.2 hne
        rw [List.length_cons, List.range_succ_eq_map, List.map_cons, List.map_map]
        simp only [arrRows, Int.cast_ofNat_Int, Int.add_zero, hr, hl1']
        rw [if_neg (by push_cast; omega)]
        rw [reSub_layout isD _ (0, cnt) hl2]
        have hrow : List.map ((fun i : Nat => row + (i : Int)) ∘ Nat.succ) (List.range lay.length) = (List.range lay.length).map fun i : Nat => row + 1 + (i : Int) := by
          apply List.map_congr_left
          intro i _
          simp only [Function.comp, Nat.succ_eq_add_one]
          push_cast
          omega
        rw [hrow, show row + ((lay.length + 1 : Nat) : Int) - 1 = row + 1 + lay.length - 1 by push_cast; omega]
        simp only [← hnf, ← hd1, b5, ← hc1]
        rw [n2, List.map_cons, hic _ _ hlm, List.length_append]
        rw [show c1 + min (vals.length - c1) (inWindow last 1 (lay.map Prod.snd)).length =
          cnt + min (vals.length - cnt) ((winParts first 99999 p.2).2.1.length + (inWindow last 1 (lay.map Prod.snd)).length) by omega,
          show j + 1 + lay.length - 1 = j + (lay.length + 1) - 1 by omega]
      · rw [List.map_cons, List.map_cons, List.map_cons, n3, b1]
      · rw [List.map_cons]
        simp only [offWindow] at n4 ⊢
        rw [rowParts_cons _ _ _ _ hnew, rowParts_cons _ _ _ _ hlm, List.map_cons, List.map_cons, n4, b2, b3]
      · rw [List.map_cons, hic _ _ hnew, hic _ _ hlm, List.map_append, List.map_append, overlay_append, n5, b4]
        congr 2
        rw [List.drop_drop, List.length_map, hc1]
        by_cases h : (winParts first 99999 p.2).2.1.length ≤ vals.length - cnt
        · rw [Nat.min_eq_right h]
        · rw [List.drop_eq_nil_of_le (by omega), List.drop_eq_nil_of_le (by omega)]
      · intro i hi
        rw [n7 i (by simp at hi; omega), hd1, List.getElem?_set_ne (by simp at hi; omega)]
      · intro k q fs hk hf
        cases k with
        | zero =>
          simp only [List.getElem?_cons_zero, Option.some.injEq] at hk hf
          subst hk hf
          rw [Nat.add_zero, n7 j (by omega), hd1, List.getElem?_set_self hjl]
        | succ k =>
          rw [show j + (k + 1) = j + 1 + k by omega]
          exact n8 k q fs (by simpa using hk) (by simpa using hf)

/-- **C65, partial (arrays over several lines).** The array is written into the fields of its windows in reading order, as far as both reach; separators, the fields before and behind the windows and all
other lines stay; the values for which there is no field are appended to the last line. Missing: the last line gets an additional line feed (`C65_line_feed_refuted`). -/
theorem C65_array_rows_partial (isD ws : Char → Bool) (w : FWrap) (vals strs : List Str) (row fieldStart fieldEnd : Int) (sep : Str) (lay : List (Str × List (Str × Str))) (hne : lay ≠ [])
    (hvs : strs.length = vals.length) (j : Nat) (hj : (j : Int) = w.cur + row)
    (hlay : ∀ k p, lay[k]? = some p → ∃ line, w.data[j + k]? = some line ∧ IsLayout isD line p.1 p.2) :
    ∃ (out : List Str) (new : List (List (Str × Str))), transferArray isD ws w vals strs row fieldStart fieldEnd (some (row + lay.length - 1)) sep = .ok { w with data := out } ∧
      new.map (·.map Prod.snd) = (lay.map Prod.snd).map (·.map Prod.snd) ∧
      offWindow fieldEnd fieldStart new = offWindow fieldEnd fieldStart (lay.map Prod.snd) ∧
      (inWindow fieldEnd fieldStart new).map Prod.fst = overlay vals ((inWindow fieldEnd fieldStart (lay.map Prod.snd)).map Prod.fst) ∧
      (∀ i, i < j ∨ j + lay.length ≤ i → out[i]? = w.data[i]?) ∧
      ∀ k p fs, lay[k]? = some p → new[k]? = some fs → out[j + k]? = some (if k + 1 = lay.length then
        appendVals ws sep (p.1 ++ renderF fs) (strs.drop (inWindow fieldEnd fieldStart (lay.map Prod.snd)).length) ++ ['\n'] else p.1 ++ renderF fs) := by
  obtain ⟨out, new, n1, n2, n3, n4, n5, n6, n7, n8⟩ := arrRows_spec isD vals fieldEnd w.cur lay w.data 0 fieldStart row none j hne hj (Nat.zero_le _) hlay
  have hpos : 0 < lay.length := List.length_pos_iff.2 hne
  obtain ⟨p, hp⟩ : ∃ p, lay[lay.length - 1]? = some p := ⟨_, List.getElem?_eq_getElem (by omega)⟩
  obtain ⟨fs, hfs⟩ : ∃ fs, new[lay.length - 1]? = some fs := ⟨_, List.getElem?_eq_getElem (by omega)⟩
  have hlast := n8 _ p fs hp hfs
  have hll : j + (lay.length - 1) < out.length := (List.getElem?_eq_some_iff.1 hlast).1
  have hdrop : strs.drop (0 + min (vals.length - 0) (inWindow fieldEnd fieldStart (lay.map Prod.snd)).length) = strs.drop (inWindow fieldEnd fieldStart (lay.map Prod.snd)).length := by
    by_cases h : (inWindow fieldEnd fieldStart (lay.map Prod.snd)).length ≤ vals.length
    · rw [show 0 + min (vals.length - 0) (inWindow fieldEnd fieldStart (lay.map Prod.snd)).length = (inWindow fieldEnd fieldStart (lay.map Prod.snd)).length by omega]
    · rw [List.drop_eq_nil_of_le (by omega), List.drop_eq_nil_of_le (by omega)]
  have hrange : intRange row (row + lay.length - 1) = (List.range lay.length).map fun i : Nat => row + (i : Int) := by
    simp only [intRange]
    rw [show (row + (lay.length : Int) - 1 + 1 - row).toNat = lay.length by omega]
  refine ⟨out.set (j + (lay.length - 1)) (appendVals ws sep (p.1 ++ renderF fs) (strs.drop (inWindow fieldEnd fieldStart (lay.map Prod.snd)).length) ++ ['\n']), new, ?_, n3, n4, by simpa using n5, ?_, ?_⟩
  · simp only [transferArray, Option.getD_some, hrange, n2, hdrop, show j + lay.length - 1 = j + (lay.length - 1) by omega, hlast]
  · intro i hi
    rw [List.getElem?_set_ne (by omega), n7 i hi]
  · intro k q gs hk hg
    by_cases hkl : k + 1 = lay.length
    · rw [if_pos hkl]
      have hk' : k = lay.length - 1 := by omega
      subst hk'
      rw [hp] at hk
      rw [hfs] at hg
      cases hk
      cases hg
      rw [List.getElem?_set_self hll]
    · rw [if_neg hkl]
      have : k < lay.length := (List.getElem?_eq_some_iff.1 hk).1
      rw [List.getElem?_set_ne (by omega), n8 k q gs hk hg]

/-- Values without white space at their end are appended one after the other, each behind the separator, to the line without its trailing white space. -/
theorem C65_appended (ws : Char → Bool) (sep : Str) (line : Str) (v : Str) (vs : List Str) (h : ∀ x ∈ v :: vs, ∃ c, x.getLast? = some c ∧ ws c = false) :
    appendVals ws sep line (v :: vs) = rstrip ws line ++ (v :: vs).flatMap (sep ++ ·) := by
  induction vs generalizing v line with
  | nil => simp [appendVals]
  | cons u vs ih =>
    rw [appendVals, ih _ _ (fun x hx => h x (List.mem_cons_of_mem _ hx))]
    have : rstrip ws (rstrip ws line ++ sep ++ v) = rstrip ws line ++ sep ++ v := by
      obtain ⟨c, hc, hw⟩ := h v List.mem_cons_self
      unfold rstrip
      rw [List.getLast?_eq_head?_reverse] at hc
      cases hr : v.reverse with
      | nil => rw [hr] at hc; simp at hc
      | cons x xs =>
        rw [hr] at hc
        simp only [List.head?_cons, Option.some.injEq] at hc
        subst hc
        rw [List.reverse_append, hr, List.cons_append, List.dropWhile_cons, hw]
        have hv : v = xs.reverse ++ [x] := by rw [← List.reverse_reverse v, hr, List.reverse_cons]
        rw [hv]
        simp
    rw [this]
    simp

/-- Two lines, five values: the first line is used to its end, the second from its first field on; the fifth value is appended. -/
example : transferArray spaceTab (fun c => c = ' ' || c = '\n') ⟨["h\n".toList, "a 1 2\n".toList, "3 4\n".toList], 1, false⟩
    [['5'], ['6'], ['7'], ['8'], ['9']] [['5'], ['6'], ['7'], ['8'], ['9']] 0 2 2 (some 1) [','] =
    .ok ⟨["h\n".toList, "a 5 6\n".toList, "7 8,9\n".toList], 1, false⟩ := by
  rw [transferArray]
  simp [rowIdx, reSub, spaceTab, replaceArr, intRange, arrRows, appendVals, rstrip, List.range_succ]

/-! ### C69: two-dimensional arrays, cleared lines -/

theorem arr2Rows_spec (isD : Char → Bool) (vals : List (List Str)) (first last : Int) (cur : Nat) : ∀ (lay : List (Str × List (Str × Str))) (data : List Str) (row : Int) (i j : Nat),
    (j : Int) = cur + row → i + lay.length ≤ vals.length →
    (∀ k p, lay[k]? = some p → ∃ line, data[j + k]? = some line ∧ IsLayout isD line p.1 p.2) →
    ∃ (out : List Str) (new : List (List (Str × Str))), new.length = lay.length ∧
      arr2Rows isD vals first last cur ((List.range lay.length).map fun i : Nat => row + (i : Int)) i data = .ok out ∧
      (∀ k p fs v, lay[k]? = some p → new[k]? = some fs → vals[i + k]? = some v → out[j + k]? = some (p.1 ++ renderF fs) ∧ fs.map Prod.snd = p.2.map Prod.snd ∧
        (winParts first last fs).1 = (winParts first last p.2).1 ∧ (winParts first last fs).2.2 = (winParts first last p.2).2.2 ∧
        (winParts first last fs).2.1.map Prod.fst = overlay v ((winParts first last p.2).2.1.map Prod.fst)) ∧
      out.length = data.length ∧ (∀ i, i < j ∨ j + lay.length ≤ i → out[i]? = data[i]?) := by
  intro lay
  induction lay with
  | nil => intro data row i j hj _ _; exact ⟨data, [], rfl, rfl, by simp, rfl, fun _ _ => rfl⟩
  | cons p lay ih =>
    intro data row i j hj hi hlay
    obtain ⟨line, hl1, hl2⟩ := hlay 0 p rfl
    have hl1' : data[j]? = some line := hl1
    have hjl : j < data.length := (List.getElem?_eq_some_iff.1 hl1).1
    have hr : rowIdx data.length (cur + row) = some j := by
      rw [rowIdx, if_pos (by omega), ← hj]
      simp [hjl]
    rw [List.length_cons] at hi
    obtain ⟨v, hv⟩ : ∃ v, vals[i]? = some v := ⟨_, List.getElem?_eq_getElem (by omega)⟩
    obtain ⟨b1, b2, b3, b4, -⟩ := mapFields_win v first last p.2 0
    set nf := (mapFields (replaceArr v first last) (0, 0) p.2).2 with hnf
    set d1 := data.set j (p.1 ++ renderF nf) with hd1
    obtain ⟨out, new, n1, n2, n3, n4, n5⟩ := ih d1 (row + 1) (i + 1) (j + 1) (by push_cast; omega) (by omega) (by
      intro k q hk
      obtain ⟨l2, h1, h2⟩ := hlay (k + 1) q hk
      refine ⟨l2, ?_, h2⟩
      rw [hd1, List.getElem?_set_ne (by omega), show j + 1 + k = j + (k + 1) by omega]
      exact h1)
    refine ⟨out, nf :: new, by simp [n1], ?_, ?_, by simp [n4, hd1], ?_⟩
    · rw [List.length_cons, List.range_succ_eq_map, List.map_cons, List.map_map]
      simp only [arr2Rows, Int.cast_ofNat_Int, Int.add_zero, hr, hl1', hv]
      rw [reSub_layout isD _ (0, 0) hl2]
      have hrow : List.map ((fun i : Nat => row + (i : Int)) ∘ Nat.succ) (List.range lay.length) = (List.range lay.length).map fun i : Nat => row + 1 + (i : Int) := by
        apply List.map_congr_left
        intro i _
        simp only [Function.comp, Nat.succ_eq_add_one]
        push_cast
        omega
      rw [hrow]
      exact n2
    · intro k q fs u hk hf hu
      cases k with
      | zero =>
        simp only [List.getElem?_cons_zero, Option.some.injEq] at hk hf
        rw [Nat.add_zero, hv] at hu
        cases hu
        subst hk hf
        refine ⟨?_, b1, b2, b3, by simpa using b4⟩
        rw [Nat.add_zero, n5 j (by omega), hd1, List.getElem?_set_self hjl]
      | succ k =>
        rw [show j + (k + 1) = j + 1 + k by omega]
        exact n3 k q fs u (by simpa using hk) (by simpa using hf) (by rw [← hu]; congr 1; omega)
    · intro x hx
      rw [n5 x (by simp at hx; omega), hd1, List.getElem?_set_ne (by simp at hx; omega)]

/-- **C69 (two-dimensional arrays).** With at least as many array rows as lines, row `k` of the array is written into fields `fieldStart … fieldEnd` of line `rowStart + k`, as far as both reach; separators, all
other fields and all other lines stay. -/
theorem C69_rows (isD : Char → Bool) (w : FWrap) (vals : List (List Str)) (row fieldStart fieldEnd : Int) (lay : List (Str × List (Str × Str)))
    (hvs : lay.length ≤ vals.length) (j : Nat) (hj : (j : Int) = w.cur + row)
    (hlay : ∀ k p, lay[k]? = some p → ∃ line, w.data[j + k]? = some line ∧ IsLayout isD line p.1 p.2) :
    ∃ (out : List Str) (new : List (List (Str × Str))), transfer2D isD w vals row (row + lay.length - 1) fieldStart fieldEnd = .ok { w with data := out } ∧ new.length = lay.length ∧
      (∀ k p fs v, lay[k]? = some p → new[k]? = some fs → vals[k]? = some v → out[j + k]? = some (p.1 ++ renderF fs) ∧ fs.map Prod.snd = p.2.map Prod.snd ∧
        (winParts fieldStart fieldEnd fs).1 = (winParts fieldStart fieldEnd p.2).1 ∧ (winParts fieldStart fieldEnd fs).2.2 = (winParts fieldStart fieldEnd p.2).2.2 ∧
        (winParts fieldStart fieldEnd fs).2.1.map Prod.fst = overlay v ((winParts fieldStart fieldEnd p.2).2.1.map Prod.fst)) ∧
      (∀ i, i < j ∨ j + lay.length ≤ i → out[i]? = w.data[i]?) := by
  obtain ⟨out, new, n1, n2, n3, n4, n5⟩ := arr2Rows_spec isD vals fieldStart fieldEnd w.cur lay w.data row 0 j hj (by omega) hlay
  refine ⟨out, new, ?_, n1, ?_, n5⟩
  · have hrange : intRange row (row + lay.length - 1) = (List.range lay.length).map fun i : Nat => row + (i : Int) := by
      simp only [intRange]
      rw [show (row + (lay.length : Int) - 1 + 1 - row).toNat = lay.length by omega]
    simp only [transfer2D, hrange, n2]
  · intro k p fs v hk hf hv
    exact n3 k p fs v hk hf (by simpa using hv)

/-- **C69 (too few rows).** If the range of lines is longer than the array, the call fails. -/
theorem C69_too_few_rows (isD : Char → Bool) (w : FWrap) (vals : List (List Str)) (rowStart rowEnd fieldStart fieldEnd : Int) (h : (vals.length : Int) < rowEnd + 1 - rowStart) :
    transfer2D isD w vals rowStart rowEnd fieldStart fieldEnd = .error .IndexError := by
  have key : ∀ (rows : List Int) (i : Nat) (data : List Str), vals.length < i + rows.length → i ≤ vals.length →
      arr2Rows isD vals fieldStart fieldEnd w.cur rows i data = .error .IndexError := by
    intro rows
    induction rows with
    | nil => intro i data h1 h2; simp at h1; omega
    | cons r rows ih =>
      intro i data h1 h2
      rw [arr2Rows]
      split
      · rfl
      · split
        · rename_i hv
          have := (List.getElem?_eq_some_iff.1 hv).1
          exact ih _ _ (by simp at h1; omega) (by omega)
        · rfl
  unfold transfer2D
  rw [key _ 0 w.data (by simp [intRange]; omega) (Nat.zero_le _)]

/-- **C69 (cleared lines).** Exactly the line `row` behind the anchor is emptied. -/
theorem C69_clear_line (w : FWrap) (row : Int) (j : Nat) (hj : (j : Int) = w.cur + row) (h : j < w.data.length) :
    ∃ out, clearLine w row = .ok { w with data := out } ∧ out.length = w.data.length ∧ out[j]? = some ['\n'] ∧ ∀ i, i ≠ j → out[i]? = w.data[i]? := by
  have hr : rowIdx w.data.length (w.cur + row) = some j := by
    rw [rowIdx, if_pos (by omega), ← hj]
    simp [h]
  refine ⟨w.data.set j ['\n'], by simp only [clearLine, hr], by simp, by rw [List.getElem?_set_self h], ?_⟩
  intro i hi
  rw [List.getElem?_set_ne (by omega)]

example : transfer2D spaceTab ⟨["h\n".toList, "a 1 2\n".toList, "b 3 4\n".toList], 1, false⟩ [[['5'], ['6']], [['7'], ['8']]] 0 1 2 3 =
    .ok ⟨["h\n".toList, "a 5 6\n".toList, "b 7 8\n".toList], 1, false⟩ := by
  rw [transfer2D]
  simp [rowIdx, reSub, spaceTab, replaceArr, intRange, arr2Rows, List.range_succ]

/-! ### C50 -/

/-- Does a line contain the text. -/
def Contains (a l : Str) : Bool := decide (a <:+: l)

theorem hasSub_iff (a l : Str) : hasSub a l = true ↔ a <:+: l := by
  induction l with
  | nil => simp [hasSub]
  | cons c cs ih => simp only [hasSub, Bool.or_eq_true, List.isPrefixOf_iff_prefix, ih, List.infix_cons_iff]

theorem hasSub_eq (a l : Str) : hasSub a l = Contains a l := by
  rw [Bool.eq_iff_iff, hasSub_iff]
  simp [Contains]

theorem splitStr_free (a : Str) (ha : a ≠ []) : ∀ (l : Str) (skip : Nat) (acc : Str), (0 < skip → acc = []) → (∀ s, s <:+ acc → s ≠ [] → ¬ a <+: s ++ l) →
    ∀ p ∈ splitStr a skip acc l, ¬ a <:+: p
  | [], skip, acc, hs, hi, p, hp => by
    have : p = acc := by cases skip <;> simpa [splitStr] using hp
    subst this
    rintro ⟨s, t, h⟩
    refine hi (a ++ t) ⟨s, by rw [← h]; simp⟩ (by simp [ha]) ?_
    exact ⟨t ++ [], by simp⟩
  | c :: cs, skip + 1, acc, hs, hi, p, hp => by
    have hacc := hs (by omega)
    subst hacc
    refine splitStr_free a ha cs skip [] (fun _ => rfl) ?_ p (by simpa [splitStr] using hp)
    intro s h1 h2
    exact absurd (List.suffix_nil.1 h1) h2
  | c :: cs, 0, acc, hs, hi, p, hp => by
    simp only [splitStr] at hp
    split_ifs at hp with h
    · rcases List.mem_cons.1 hp with rfl | hp
      · rintro ⟨s, t, h2⟩
        refine hi (a ++ t) ⟨s, by rw [← h2]; simp⟩ (by simp [ha]) ?_
        exact ⟨t ++ c :: cs, by simp⟩
      · refine splitStr_free a ha cs _ [] (fun _ => rfl) ?_ p hp
        intro s h1 h2
        exact absurd (List.suffix_nil.1 h1) h2
    · refine splitStr_free a ha cs 0 (acc ++ [c]) (by omega) ?_ p hp
      intro s h1 h2 h3
      rw [List.isPrefixOf_iff_prefix] at h
      rcases List.eq_nil_or_concat s with rfl | ⟨s', x, rfl⟩
      · exact h2 rfl
      · obtain ⟨t, ht⟩ := h1
        rw [List.concat_eq_append] at ht h3
        rw [← List.append_assoc] at ht
        have := List.append_inj' ht rfl
        simp only [List.cons.injEq, and_true] at this
        obtain ⟨e1, rfl⟩ := this
        by_cases hs' : s' = []
        · subst hs'
          exact h (by simpa using h3)
        · exact hi s' ⟨t, e1⟩ hs' (by simpa using h3)

theorem splitStr_last (a : Str) (ha : a ≠ []) (l : Str) : hasSub a ((splitStr a 0 [] l).getLast?.getD l) = false ∧ hasSub a ((splitStr a 0 [] l).head?.getD l) = false := by
  have hne : splitStr a 0 [] l ≠ [] := by
    have : ∀ (l : Str) (k : Nat) (acc : Str), splitStr a k acc l ≠ [] := by
      intro l
      induction l with
      | nil => intro k acc; cases k <;> simp [splitStr]
      | cons c cs ih =>
        intro k acc
        cases k with
        | zero => simp only [splitStr]; split_ifs <;> simp [ih]
        | succ k => simpa [splitStr] using ih k acc
    exact this l 0 []
  have hfree := splitStr_free a ha l 0 [] (by omega) (by
    intro s h1 h2
    exact absurd (List.suffix_nil.1 h1) h2)
  constructor
  · rw [List.getLast?_eq_some_getLast hne, Option.getD_some]
    have := hfree _ (List.getLast_mem hne)
    rw [← hasSub_iff] at this
    simpa using this
  · rw [List.head?_eq_some_head hne, Option.getD_some]
    have := hfree _ (List.head_mem hne)
    rw [← hasSub_iff] at this
    simpa using this

/-- Splitting a line at the anchor and joining the pieces with the anchor gives the line back. -/
theorem splitStr_join (a : Str) (ha : a ≠ []) : ∀ (l : Str) (skip : Nat) (acc : Str), skip ≤ l.length → List.intercalate a (splitStr a skip acc l) = acc ++ l.drop skip
  | [], skip, acc, h => by
    have : skip = 0 := by simpa using h
    subst this
    simp [splitStr, List.intercalate]
  | c :: cs, skip + 1, acc, h => by
    rw [splitStr, splitStr_join a ha cs skip acc (by simpa using h)]
    rfl
  | c :: cs, 0, acc, h => by
    simp only [splitStr]
    have hpos : 0 < a.length := List.length_pos_iff.2 ha
    split_ifs with hp
    · rw [List.isPrefixOf_iff_prefix] at hp
      obtain ⟨t, ht⟩ := hp
      have hlen : a.length - 1 ≤ cs.length := by
        have := congrArg List.length ht
        simp at this
        omega
      have hne : splitStr a (a.length - 1) [] cs ≠ [] := by
        have : ∀ (l : Str) (k : Nat) (acc : Str), splitStr a k acc l ≠ [] := by
          intro l
          induction l with
          | nil => intro k acc; cases k <;> simp [splitStr]
          | cons c cs ih =>
            intro k acc
            cases k with
            | zero => simp only [splitStr]; split_ifs <;> simp [ih]
            | succ k => simpa [splitStr] using ih k acc
        exact this _ _ _
      have hi := splitStr_join a ha cs (a.length - 1) [] hlen
      have hcs : cs.drop (a.length - 1) = t := by
        have := congrArg (List.drop a.length) ht
        rw [List.drop_left' rfl] at this
        rw [this, show a.length = (a.length - 1) + 1 by omega, List.drop_succ_cons]
        rfl
      rw [hcs] at hi
      cases hs : splitStr a (a.length - 1) [] cs with
      | nil => exact absurd hs hne
      | cons y ys =>
        rw [hs] at hi
        have : List.intercalate a (acc :: y :: ys) = acc ++ a ++ List.intercalate a (y :: ys) := by
          simp [List.intercalate, List.intersperse]
        rw [this, hi, List.drop_zero, ← ht]
        simp
    · rw [splitStr_join a ha cs 0 _ (Nat.zero_le _)]
      simp

/-- **C50 (cutting the current line).** The line of the current anchor is cut at all occurrences of the anchor: joined by the anchor the pieces give the line, and no piece contains the anchor. -/
theorem C50_anchor_cut (a : Str) (ha : a ≠ []) (l : Str) : List.intercalate a (splitStr a 0 [] l) = l ∧ ∀ p ∈ splitStr a 0 [] l, ¬ a <:+: p := by
  refine ⟨by simpa using splitStr_join a ha l 0 [] (Nat.zero_le _), splitStr_free a ha l 0 [] (by omega) ?_⟩
  intro s h1 h2
  exact absurd (List.suffix_nil.1 h1) h2

example : splitStr ['a', 'b'] 0 [] "xabyabab".toList = ["x".toList, "y".toList, [], []] := by decide +kernel

/-- `k` is the position of the `n`-th line that contains the text. -/
def IsNth (a : Str) (ls : List Str) (n k : Nat) : Prop := ∃ l, ls[k]? = some l ∧ Contains a l = true ∧ (ls.take k).countP (Contains a) + 1 = n

theorem fwdLoop_spec (a : Str) (occ : Nat) (anchored : Bool) : ∀ (ls : List Str) (count inst : Nat), inst < occ → (anchored = true → 0 < count) →
    (∃ k, fwdLoop a occ anchored count inst ls = .ok (some (count + k)) ∧ IsNth a ls (occ - inst) k) ∨
      (fwdLoop a occ anchored count inst ls = .ok none ∧ ls.countP (Contains a) < occ - inst)
  | [], count, inst, h, _ => .inr ⟨rfl, by simp; omega⟩
  | l :: ls, count, inst, h, hc => by
    have hno : ¬ (count = 0 ∧ anchored = true) := by
      rintro ⟨h1, h2⟩
      have := hc h2
      omega
    have hno2 : ¬ (count = 0 ∧ anchored = true ∧ a = []) := fun h => hno ⟨h.1, h.2.1⟩
    simp only [fwdLoop, if_neg hno, if_neg hno2, hasSub_eq]
    by_cases hm : Contains a l = true
    · simp only [hm, if_true]
      split_ifs with ho
      · refine .inl ⟨0, by simp, l, by simp, hm, ?_⟩
        simp
        omega
      · rcases fwdLoop_spec a occ anchored ls (count + 1) (inst + 1) (by omega) (by omega) with ⟨k, h1, l', h2, h3, h4⟩ | ⟨h1, h2⟩
        · refine .inl ⟨k + 1, by rw [h1]; congr 2; omega, l', by simpa using h2, h3, ?_⟩
          simp only [List.take_succ_cons, List.countP_cons, hm, if_true]
          omega
        · refine .inr ⟨h1, ?_⟩
          simp only [List.countP_cons, hm, if_true]
          omega
    · simp only [hm]
      rcases fwdLoop_spec a occ anchored ls (count + 1) inst h (by omega) with ⟨k, h1, l', h2, h3, h4⟩ | ⟨h1, h2⟩
      · refine .inl ⟨k + 1, by simp only [Bool.false_eq_true, if_false]; rw [h1]; congr 2; omega, l', by simpa using h2, h3, ?_⟩
        simp only [List.take_succ_cons, List.countP_cons, hm]
        simpa using h4
      · refine .inr ⟨by simpa using h1, ?_⟩
        simp only [List.countP_cons, hm]
        simpa using h2

theorem bwdLoop_spec (a : Str) (occ : Nat) (anchored : Bool) : ∀ (ls : List Str) (count inst : Nat), inst < occ → (anchored = true → 0 < count) →
    (∃ k, bwdLoop a occ anchored count inst ls = .ok (some (count + k)) ∧ IsNth a ls (occ - inst) k) ∨
      (bwdLoop a occ anchored count inst ls = .ok none ∧ ls.countP (Contains a) < occ - inst)
  | [], count, inst, h, _ => .inr ⟨rfl, by simp; omega⟩
  | l :: ls, count, inst, h, hc => by
    have hno : ¬ (count = 0 ∧ anchored = true) := by
      rintro ⟨h1, h2⟩
      have := hc h2
      omega
    have hno2 : ¬ (count = 0 ∧ anchored = true ∧ a = []) := fun h => hno ⟨h.1, h.2.1⟩
    simp only [bwdLoop, if_neg hno, if_neg hno2, hasSub_eq]
    by_cases hm : Contains a l = true
    · simp only [hm, if_true]
      split_ifs with ho
      · refine .inl ⟨0, by simp, l, by simp, hm, ?_⟩
        simp
        omega
      · rcases bwdLoop_spec a occ anchored ls (count + 1) (inst + 1) (by omega) (by omega) with ⟨k, h1, l', h2, h3, h4⟩ | ⟨h1, h2⟩
        · refine .inl ⟨k + 1, by rw [h1]; congr 2; omega, l', by simpa using h2, h3, ?_⟩
          simp only [List.take_succ_cons, List.countP_cons, hm, if_true]
          omega
        · refine .inr ⟨h1, ?_⟩
          simp only [List.countP_cons, hm, if_true]
          omega
    · simp only [hm]
      rcases bwdLoop_spec a occ anchored ls (count + 1) inst h (by omega) with ⟨k, h1, l', h2, h3, h4⟩ | ⟨h1, h2⟩
      · refine .inl ⟨k + 1, by simp only [Bool.false_eq_true, if_false]; rw [h1]; congr 2; omega, l', by simpa using h2, h3, ?_⟩
        simp only [List.take_succ_cons, List.countP_cons, hm]
        simpa using h4
      · refine .inr ⟨by simpa using h1, ?_⟩
        simp only [List.countP_cons, hm]
        simpa using h2

/-- First line of a forward search: the current line, or the one behind it if that line is already the anchor. -/
def searchStart (w : FWrap) : Nat := if w.anchored then w.cur + 1 else w.cur

/-- **C50 (forward).** For a positive occurrence `n` the wrapper is put on the `n`-th line with the text, counted from the current row (from the next one if the current row is an anchor), and is then anchored; if there are fewer
such lines RuntimeError is raised and the wrapper stays as it was. -/
theorem C50_forward (w : FWrap) (a : Str) (ha : a ≠ []) (n : Nat) (hn : 0 < n) :
    (∃ k, markAnchor w a n = ({ w with cur := searchStart w + k, anchored := true }, .ok ()) ∧ IsNth a (w.data.drop (searchStart w)) n k) ∨
    (markAnchor w a n = (w, .error .RuntimeError) ∧ (w.data.drop (searchStart w)).countP (Contains a) < n) := by
  have hn' : (0 : Int) < (n : Int) := by omega
  simp only [markAnchor, hn', if_true, Int.toNat_natCast, searchStart]
  by_cases hanc : w.anchored = true
  · simp only [hanc, if_true]
    cases hd : w.data.drop w.cur with
    | nil =>
      refine .inr ⟨by simp [fwdLoop], ?_⟩
      have : w.data.drop (w.cur + 1) = [] := by
        rw [List.drop_eq_nil_iff] at hd ⊢
        omega
      rw [this]
      simpa using hn
    | cons l ls =>
      have hls : w.data.drop (w.cur + 1) = ls := by
        rw [← List.drop_drop, hd]
        rfl
      have hfirst : fwdLoop a n true 0 0 (l :: ls) = fwdLoop a n true 1 0 ls := by
        simp only [fwdLoop, ha, and_false, if_false, and_self, if_true, (splitStr_last a ha l).1]
        simp
      rw [hfirst, hls]
      rcases fwdLoop_spec a n true ls 1 0 hn (by omega) with ⟨k, h1, h2⟩ | ⟨h1, h2⟩
      · refine .inl ⟨k, ?_, by simpa using h2⟩
        rw [h1]
        simp only [Nat.add_assoc]
      · refine .inr ⟨by rw [h1], by simpa using h2⟩
  · simp only [hanc]
    simp only [Bool.false_eq_true, if_false]
    rcases fwdLoop_spec a n false (w.data.drop w.cur) 0 0 hn (by simp) with ⟨k, h1, h2⟩ | ⟨h1, h2⟩
    · refine .inl ⟨k, ?_, by simpa using h2⟩
      rw [h1]
      simp
    · refine .inr ⟨by rw [h1], by simpa using h2⟩

theorem isNth_reverse {a : Str} {ls : List Str} {n k : Nat} (h : IsNth a ls.reverse n k) : k < ls.length ∧
    ∃ l, ls[ls.length - 1 - k]? = some l ∧ Contains a l = true ∧ (ls.drop (ls.length - k)).countP (Contains a) + 1 = n := by
  obtain ⟨l, h1, h2, h3⟩ := h
  have hk : k < ls.length := by
    have := (List.getElem?_eq_some_iff.1 h1).1
    simpa using this
  refine ⟨hk, l, ?_, h2, ?_⟩
  · rw [List.getElem?_reverse hk] at h1
    exact h1
  · rw [← h3, List.take_reverse, List.countP_reverse]

/-- **C50 (backward), partial.** For a negative occurrence `-n` a wrapper without anchor is put on the `n`-th line from the end of the file that contains the text; if there are fewer, RuntimeError is raised and the wrapper stays.
Missing: a wrapper that has an anchor; there the last line is not searched (`C50_backward_anchored_refuted`). -/
theorem C50_backward_partial (w : FWrap) (a : Str) (n : Nat) (hn : 0 < n) (hw : w.anchored = false) :
    (∃ r l, markAnchor w a (-(n : Int)) = ({ w with cur := r, anchored := true }, .ok ()) ∧ w.data[r]? = some l ∧ Contains a l = true ∧
      (w.data.drop (r + 1)).countP (Contains a) + 1 = n) ∨
    (markAnchor w a (-(n : Int)) = (w, .error .RuntimeError) ∧ w.data.countP (Contains a) < n) := by
  have hn1 : ¬ (0 : Int) < -(n : Int) := by omega
  have hn2 : -(n : Int) < 0 := by omega
  simp only [markAnchor, hn1, if_false, hn2, if_true, Int.neg_neg, Int.toNat_natCast, hw]
  rcases bwdLoop_spec a n false w.data.reverse 0 0 hn (by simp) with ⟨k, h1, h2⟩ | ⟨h1, h2⟩
  · obtain ⟨hk, l, e1, e2, e3⟩ := isNth_reverse (by simpa using h2)
    refine .inl ⟨w.data.length - 1 - k, l, ?_, e1, e2, ?_⟩
    · rw [h1]
      simp
    · rw [show w.data.length - 1 - k + 1 = w.data.length - k by omega]
      exact e3
  · exact .inr ⟨by rw [h1], by simpa using h2⟩

/-- **C50 (backward), what happens with an anchor.** The search then covers all lines but the last. -/
theorem C50_backward_anchored (w : FWrap) (a : Str) (ha : a ≠ []) (n : Nat) (hn : 0 < n) (hw : w.anchored = true) :
    (∃ r l, markAnchor w a (-(n : Int)) = ({ w with cur := r, anchored := true }, .ok ()) ∧ w.data.dropLast[r]? = some l ∧ Contains a l = true ∧
      (w.data.dropLast.drop (r + 1)).countP (Contains a) + 1 = n) ∨
    (markAnchor w a (-(n : Int)) = (w, .error .RuntimeError) ∧ w.data.dropLast.countP (Contains a) < n) := by
  have hn1 : ¬ (0 : Int) < -(n : Int) := by omega
  have hn2 : -(n : Int) < 0 := by omega
  simp only [markAnchor, hn1, if_false, hn2, if_true, Int.neg_neg, Int.toNat_natCast, hw]
  rcases List.eq_nil_or_concat w.data with hd | ⟨ds, l, hd⟩
  · refine .inr ⟨by simp [hd, bwdLoop], ?_⟩
    simpa [hd] using hn
  · rw [List.concat_eq_append] at hd
    have hfirst : bwdLoop a n true 0 0 (l :: ds.reverse) = bwdLoop a n true 1 0 ds.reverse := by
      simp only [bwdLoop, ha, and_false, if_false, and_self, if_true, (splitStr_last a ha l).2]
      simp
    simp only [hd, List.reverse_append, List.reverse_cons, List.reverse_nil, List.nil_append, List.singleton_append, List.dropLast_concat, hfirst]
    rcases bwdLoop_spec a n true ds.reverse 1 0 hn (by omega) with ⟨k, h1, h2⟩ | ⟨h1, h2⟩
    · obtain ⟨hk, l', e1, e2, e3⟩ := isNth_reverse (by simpa using h2)
      refine .inl ⟨ds.length - 1 - k, l', ?_, e1, e2, ?_⟩
      · rw [h1]
        simp only [List.length_append, List.length_singleton]
        rw [show ds.length + 1 - 1 - (1 + k) = ds.length - 1 - k by omega]
      · rw [show ds.length - 1 - k + 1 = ds.length - k by omega]
        exact e3
    · exact .inr ⟨by rw [h1], by simpa using h2⟩

/-- **C50 (zero).** Occurrence 0 raises ValueError, the wrapper stays. -/
theorem C50_zero (w : FWrap) (a : Str) : markAnchor w a 0 = (w, .error .ValueError) := by simp [markAnchor]

/-- **C50 (backward), refuted with an anchor.** The last line contains the text, but after an anchor was set `mark_anchor(text, -1)` does not find it, although "reverse searches always start at the end of the file no matter the state
of any previous anchor". -/
theorem C50_backward_anchored_refuted : markAnchor ⟨["A\n".toList, "B\n".toList, "A\n".toList], 1, true⟩ ['A'] (-1) =
    (⟨["A\n".toList, "B\n".toList, "A\n".toList], 0, true⟩, .ok ()) := by decide

/-- **C50 (same line), refuted.** The comment in the code says that the line of the anchor is still searched behind the anchor. It is not: after marking `A` the text `B` behind it on the same line is not found. -/
theorem C50_same_line_refuted : (markAnchor ⟨["A B\n".toList, "C\n".toList], 0, false⟩ ['A'] 1).1 = ⟨["A B\n".toList, "C\n".toList], 0, true⟩ ∧
    markAnchor ⟨["A B\n".toList, "C\n".toList], 0, true⟩ ['B'] 1 = (⟨["A B\n".toList, "C\n".toList], 0, true⟩, .error .RuntimeError) := by decide

/-- Second occurrence after the anchor in row 0 is row 3; second from the end is row 1. -/
example : markAnchor ⟨["A\n".toList, "xA\n".toList, "b\n".toList, "A".toList], 0, true⟩ ['A'] 2 = (⟨["A\n".toList, "xA\n".toList, "b\n".toList, "A".toList], 3, true⟩, .ok ()) ∧
    markAnchor ⟨["A\n".toList, "xA\n".toList, "b\n".toList, "A".toList], 0, false⟩ ['A'] (-2) = (⟨["A\n".toList, "xA\n".toList, "b\n".toList, "A".toList], 1, true⟩, .ok ()) := by decide

end OpenMDAO
