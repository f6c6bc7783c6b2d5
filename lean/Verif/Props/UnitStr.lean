import Verif.Lemmas.UnitLibrary
import Verif.Lemmas.UnitName
import Mathlib.Tactic.FinCases
import Mathlib.Tactic.FieldSimp
import Mathlib.Tactic.Ring
import Mathlib.Algebra.Order.Ring.Rat
import Mathlib.Algebra.Field.Rat
import Mathlib.Tactic.NormNum
/-!
# Properties C123 - C126 (unit strings, unit libraries, names of units, quantities)
-/
namespace OpenMDAO
set_option linter.unusedSectionVars false

variable {K : Type} [Field K] [DecidableEq K]

/-! ## C123 -/

/-- C123 (partial: names with one reading only, see `C123_history_refuted` and `C123_valid_refuted`). A unit string
whose names are settled, i.e. are units of the library or one prefix before such a unit without a second way to split
them, gives the same unit or the same exception after any unit strings have been looked up before. -/
theorem C123_history_partial (ws : Char → Bool) (undef : PyErr) (parse : Str → Except PyErr (UExpr K))
    (lib : UnitLib K) (hp : PyNames parse lib) (hc : lib.cache = []) (s : Str) (e : UExpr K)
    (he : parse (pyStrip ws s) = .ok e) (hn : ∀ v ∈ e.names, v ∈ unitItems (pyStrip ws s))
    (hs : ∀ v ∈ unitItems (pyStrip ws s), (∃ u, Settled lib v u) ∧ parse v = .ok (.var v)) (h : List Str) :
    (findUnit ws undef parse (lib.after ws undef parse h) s).2 = (findUnit ws undef parse lib s).2 := by
  classical
  let lk : Str → Option (UVal K) := fun v => if hv : ∃ u, Settled lib v u then some (.unit hv.choose) else none
  have hlk : ∀ v ∈ e.names, ∀ u, Settled lib v u → lk v = some (.unit u) := by
    intro v _ u hu
    have hex : ∃ u, Settled lib v u := ⟨u, hu⟩
    simp only [lk, dif_pos hex]
    congr 2
    exact reads_settled hu hex.choose_spec.reads
  have h0 := findUnit_settled hp (after_inv (ws := ws) (undef := undef) hp hc []) he hn hs lk hlk
  rw [findUnit_settled hp (after_inv hp hc h) he hn hs lk hlk]
  exact h0.symm

theorem itemStart_alpha (c : Char) (h : c.isAlpha = true) : isItemStart c = true := by
  simp only [Char.isAlpha, Char.isUpper, Char.isLower, Bool.or_eq_true, decide_eq_true_eq, Bool.and_eq_true] at h
  simp only [isItemStart, Bool.or_eq_true, Bool.and_eq_true, decide_eq_true_eq, Char.le_def]
  exact Or.inl h

theorem itemChar_alphanum (c : Char) (h : c.isAlphanum = true) : isItemChar c = true := by
  simp only [Char.isAlphanum, Bool.or_eq_true] at h
  simp only [isItemChar, Bool.or_eq_true]
  rcases h with h | h
  · exact Or.inl (itemStart_alpha c h)
  · simp only [Char.isDigit, Bool.and_eq_true, decide_eq_true_eq] at h
    simp only [Bool.and_eq_true, decide_eq_true_eq, Char.le_def]
    exact Or.inr h

theorem itemsFrom_name (cur cs : Str) (hc : cur ≠ []) (h : ∀ d ∈ cs, d.isAlphanum = true) :
    itemsFrom cur cs = [cur ++ cs] := by
  induction cs generalizing cur with
  | nil => simp [itemsFrom, hc]
  | cons d cs ih =>
    have hd := itemChar_alphanum d (h d (by simp))
    rw [itemsFrom, if_neg hc, if_pos hd, ih _ (by simp) (fun e he => h e (by simp [he]))]
    simp

/-- A letter followed by letters and digits is one name of the unit string. -/
theorem unitItems_name (n : Str) (h : LetterName n) : unitItems n = [n] := by
  obtain ⟨c, cs, rfl, hc, hcs⟩ := h
  rw [unitItems, itemsFrom, if_pos rfl, if_pos (itemStart_alpha c hc), itemsFrom_name _ _ (by simp) hcs]
  rfl

/-- C123 (partial). A settled name of letters and digits means its unit, after any unit strings have been looked up before. -/
theorem C123_name_partial (ws : Char → Bool) (undef : PyErr) (parse : Str → Except PyErr (UExpr K))
    (lib : UnitLib K) (hp : PyNames parse lib) (hc : lib.cache = []) (s n : Str) (hn : pyStrip ws s = n)
    (he : parse n = .ok (.var n)) (hl : LetterName n) (u : PhysUnit K) (hs : Settled lib n u) (h : List Str) :
    (findUnit ws undef parse (lib.after ws undef parse h) s).2 = .ok u := by
  have hi := unitItems_name n hl
  subst hn
  rw [findUnit_settled hp (after_inv hp hc h) he (by simp [UExpr.names, hi])
    (by intro v hv; rw [hi] at hv; cases List.mem_singleton.mp hv; exact ⟨⟨u, hs⟩, he⟩)
    (fun _ => some (.unit u)) (by
      intro v hv w hw
      cases List.mem_singleton.mp hv
      rw [reads_settled hs hw.reads])]
  rfl

/-- C123. A name of the library means the unit of the library, whatever was looked up before. -/
theorem C123_library (ws : Char → Bool) (undef : PyErr) (parse : Str → Except PyErr (UExpr K))
    (lib : UnitLib K) (hp : PyNames parse lib) (hc : lib.cache = []) (s : Str) (u : PhysUnit K)
    (hu : lib.table.lookup (pyStrip ws s) = some u) (h : List Str) :
    (findUnit ws undef parse (lib.after ws undef parse h) s).2 = .ok u := by
  have hi := after_inv (ws := ws) (undef := undef) hp hc h
  have hpn := hp.lib _ u hu
  have he : evalStr undef parse (lib.after ws undef parse h) (pyStrip ws s) = .ok (.unit u) := by
    rw [evalStr_name hpn, hi.keep _ u hu]
  simp only [findUnit]
  cases hc' : (lib.after ws undef parse h).cache.lookup (pyStrip ws s) with
  | some v =>
    have := hi.cache _ v hc'
    rw [he] at this; cases this
    rfl
  | none => simp only [he]; rfl

/-- C123. A name is only ever given a unit that one of its readings has: a unit of the library, or prefixes before
one. -/
theorem C123_sound (ws : Char → Bool) (undef : PyErr) (parse : Str → Except PyErr (UExpr K))
    (lib : UnitLib K) (hp : PyNames parse lib) (hc : lib.cache = []) (s : Str)
    (he : parse (pyStrip ws s) = .ok (.var (pyStrip ws s))) (h : List Str) (u : PhysUnit K)
    (hu : (findUnit ws undef parse (lib.after ws undef parse h) s).2 = .ok u) : UReads lib (pyStrip ws s) u := by
  have hi := after_inv (ws := ws) (undef := undef) hp hc h
  have key : ∀ (l : UnitLib K) v, UnitInv undef parse lib l → evalStr undef parse l (pyStrip ws s) = .ok v →
      v.asUnit = .ok u → UReads lib (pyStrip ws s) u := by
    intro l v hl hv hvu
    rw [evalStr_name he] at hv
    cases ht : l.table.lookup (pyStrip ws s) with
    | none => rw [ht] at hv; cases hv
    | some w =>
      rw [ht] at hv; cases hv
      cases hvu
      exact hl.reads _ _ ht
  simp only [findUnit] at hu
  cases hc' : (lib.after ws undef parse h).cache.lookup (pyStrip ws s) with
  | some v => rw [hc'] at hu; exact key _ v hi (hi.cache _ v hc') hu
  | none =>
    rw [hc'] at hu
    cases h1 : evalStr undef parse (lib.after ws undef parse h) (pyStrip ws s) with
    | ok v => rw [h1] at hu; exact key _ v hi h1 hu
    | error e =>
      have h2 := (addItems_inv (undef := undef) hp (unitItems (pyStrip ws s)) _ hi).1
      rw [h1] at hu
      simp only at hu
      rcases hk : addItems undef parse (lib.after ws undef parse h) (unitItems (pyStrip ws s)) with ⟨lib', _ | e'⟩
      · rw [hk] at hu h2
        simp only at hu h2
        cases h3 : evalStr undef parse lib' (pyStrip ws s) with
        | ok v => rw [h3] at hu; exact key _ v h2 h3 hu
        | error e => rw [h3] at hu; cases hu
      · rw [hk] at hu; cases hu

/-- C123. A string that python cannot parse is never a unit: reserved words such as `as` for attoseconds. -/
theorem C123_unparsed (ws : Char → Bool) (undef : PyErr) (parse : Str → Except PyErr (UExpr K))
    (lib : UnitLib K) (hp : PyNames parse lib) (hc : lib.cache = []) (s : Str) (e : PyErr)
    (he : parse (pyStrip ws s) = .error e) (h : List Str) :
    ∃ e', (findUnit ws undef parse (lib.after ws undef parse h) s).2 = .error e' := by
  have hi := after_inv (ws := ws) (undef := undef) hp hc h
  have hev : ∀ l, evalStr undef parse l (pyStrip ws s) = .error e := by
    intro l
    simp only [evalStr, bind, Except.bind, he]
  simp only [findUnit]
  cases hc' : (lib.after ws undef parse h).cache.lookup (pyStrip ws s) with
  | some v =>
    have := hi.cache _ v hc'
    rw [hev] at this; cases this
  | none =>
    simp only [hev]
    rcases hk : addItems undef parse (lib.after ws undef parse h) (unitItems (pyStrip ws s)) with ⟨lib', _ | e'⟩
    · exact ⟨e, rfl⟩
    · exact ⟨e', rfl⟩

/-- Part of python's parser: names, the reserved words `as` and `in`, and the strings `1e3*km` and `1e3`. -/
def exUnitParse (s : Str) : Except PyErr (UExpr ℚ) :=
  if s = "1e3*km".toList then .ok (.mul (.num 1000) (.var "km".toList))
  else if s = "1e3".toList then .ok (.num 1000)
  else if s = "as".toList ∨ s = "in".toList ∨ s = [] ∨ ¬ s.all Char.isAlpha then .error .ValueError
  else .ok (.var s)

/-- Metre and second with some of the prefixes of `unit_library.ini`. -/
def exUnitLib : UnitLib ℚ where
  prefixes := [("k".toList, 1000), ("da".toList, 10), ("d".toList, 1 / 10), ("c".toList, 1 / 100),
    ("a".toList, 1 / 10 ^ 18)]
  table := [("m".toList, ⟨1, [1, 0], 0⟩), ("s".toList, ⟨1, [0, 1], 0⟩)]
  cache := []

/-- `str.strip` removes blanks. -/
def blank (c : Char) : Bool := c = ' '

theorem exUnit_names : PyNames exUnitParse exUnitLib := by
  constructor
  · intro s e h v hv
    simp only [exUnitParse] at h
    split at h
    · cases h
      simp [UExpr.names] at hv
      subst hv
      decide
    · split at h
      · cases h
        simp [UExpr.names] at hv
      · split at h
        · cases h
        · cases h
          simp [UExpr.names] at hv
          subst hv
          rename_i h1 h2 h3
          simp only [exUnitParse, if_neg h1, if_neg h2, if_neg h3]
  · intro n u h
    simp only [exUnitLib, List.lookup] at h
    split at h
    · rename_i hb; rw [beq_iff_eq] at hb; subst hb; decide
    · split at h
      · rename_i hb; rw [beq_iff_eq] at hb; subst hb; decide
      · cases h

theorem exUnit_km : Settled exUnitLib "km".toList ⟨1000, [1, 0], 0⟩ := by
  have := Settled.pre (lib := exUnitLib) (p := "k".toList) (b := "m".toList) (c := 1000) (u := ⟨1, [1, 0], 0⟩)
    (by decide +kernel) (by decide +kernel) (by decide) (by decide +kernel) rfl ?_
  · have e1 : (1 : ℚ) * 1000 = 1000 := by norm_num
    rw [e1] at this
    exact this
  · intro p' b' c' u' h hc hl hr
    match p', hl with
    | [], _ => simp [exUnitLib, List.lookup] at hc
    | [x], _ =>
      have h1 : x = 'k' := by
        have h2 : ['k', 'm'] = x :: b' := h
        simp only [List.cons.injEq] at h2
        exact h2.1.symm
      subst h1; rfl
    | [x, y], _ =>
      have h1 : x = 'k' ∧ y = 'm' := by
        have h2 : ['k', 'm'] = x :: y :: b' := h
        simp only [List.cons.injEq] at h2
        exact ⟨h2.1.symm, h2.2.1.symm⟩
      obtain ⟨rfl, rfl⟩ := h1
      have : exUnitLib.prefixes.lookup ['k', 'm'] = none := by decide +kernel
      rw [this] at hc; cases hc

/-- `km` and `s` are settled, so that `km` is 1000 metres whatever was looked up before. -/
example (h : List Str) : (findUnit blank .NameError exUnitParse (exUnitLib.after blank .NameError exUnitParse h)
    " km ".toList).2 = .ok ⟨1000, [1, 0], 0⟩ :=
  C123_name_partial blank .NameError exUnitParse exUnitLib exUnit_names rfl _ "km".toList (by decide +kernel)
    (by decide +kernel) ⟨'k', ['m'], rfl, by decide, by decide⟩ _ exUnit_km h
example (h : List Str) : (findUnit blank .NameError exUnitParse (exUnitLib.after blank .NameError exUnitParse h)
    "s".toList).2 = .ok ⟨1, [0, 1], 0⟩ :=
  C123_library blank .NameError exUnitParse exUnitLib exUnit_names rfl _ _ (by decide +kernel) h
example (h : List Str) : (findUnit blank .NameError exUnitParse (exUnitLib.after blank .NameError exUnitParse h)
    "km".toList).2 = (findUnit blank .NameError exUnitParse exUnitLib "km".toList).2 :=
  C123_history_partial blank .NameError exUnitParse exUnitLib exUnit_names rfl _ (.var "km".toList) (by decide +kernel)
    (by decide +kernel) (by
      have : unitItems (pyStrip blank "km".toList) = ["km".toList] := by decide +kernel
      rw [this]
      intro v hv
      cases List.mem_singleton.mp hv
      exact ⟨⟨_, exUnit_km⟩, by decide +kernel⟩) h
example (h : List Str) : ∃ e', (findUnit blank .NameError exUnitParse (exUnitLib.after blank .NameError exUnitParse h)
    "as".toList).2 = .error e' :=
  C123_unparsed blank .NameError exUnitParse exUnitLib exUnit_names rfl _ .ValueError (by decide +kernel) h
example : UReads exUnitLib "dam".toList ⟨1 / 10 ^ 19, [1, 0], 0⟩ :=
  C123_sound blank .NameError exUnitParse exUnitLib exUnit_names rfl "dam".toList (by decide +kernel) ["am".toList] _
    (by decide +kernel)

/-- C123 fails: `dam` is ten metres, but after `am` has been looked up it is a tenth of an attometre. -/
theorem C123_history_refuted :
    (findUnit blank .NameError exUnitParse exUnitLib "dam".toList).2 = .ok ⟨10, [1, 0], 0⟩ ∧
    (findUnit blank .NameError exUnitParse (exUnitLib.after blank .NameError exUnitParse ["am".toList])
      "dam".toList).2 = .ok ⟨1 / 10 ^ 19, [1, 0], 0⟩ := by
  constructor <;> decide +kernel

/-- C123 fails: `ccm` is not a unit, but after `cm` has been looked up it is. -/
theorem C123_valid_refuted :
    (findUnit blank .NameError exUnitParse exUnitLib "ccm".toList).2 = .error .ValueError ∧
    (findUnit blank .NameError exUnitParse (exUnitLib.after blank .NameError exUnitParse ["cm".toList])
      "ccm".toList).2 = .ok ⟨1 / 10000, [1, 0], 0⟩ := by
  constructor <;> decide +kernel

/-- C123 fails: `1e3*km` is refused for the "unit" `e3`, but after `km` has been looked up it is a unit. -/
theorem C123_number_refuted :
    (findUnit blank .NameError exUnitParse exUnitLib "1e3*km".toList).2 = .error .ValueError ∧
    (findUnit blank .NameError exUnitParse (exUnitLib.after blank .NameError exUnitParse ["km".toList])
      "1e3*km".toList).2 = .ok ⟨1000000, [1, 0], 0⟩ := by
  constructor <;> decide +kernel

/-! ## C124 -/

/-- C124 (partial: definitions by expression, and an unknown name raises `NameError` as in python 2, see
`C124_python3_refuted` and `C124_offset_refuted`). If a library loads then it loads with its definitions in any order,
whatever the order in which python iterates over the sets of definitions to retry, and defines the same units. -/
theorem C124_any_order_partial (ws : Char → Bool) (parse : Str → Except PyErr (UExpr K)) (pi : K)
    (order order' : Nat → List (UDef K) → List (UDef K)) (ho : ∀ k l, (order k l).Perm l)
    (ho' : ∀ k l, (order' k l).Perm l) (lib t : UnitLib K) (defs defs' : List (UDef K)) (hd : defs'.Perm defs)
    (hx : ∀ d ∈ defs, d.IsExpr) (hnd : (defs.map UDef.name).Nodup)
    (hnew : ∀ d ∈ defs, lib.table.lookup d.name = none) (hpi : lib.table.lookup "pi".toList = none)
    (hpi' : "pi".toList ∉ defs.map UDef.name)
    (h : updateLibrary ws .NameError parse pi order lib defs = .ok t) :
    ∃ t', updateLibrary ws .NameError parse pi order' lib defs' = .ok t' ∧
      ∀ n, t'.table.lookup n = t.table.lookup n := by
  obtain ⟨seq, hs, hc⟩ := updateLibrary_chain ho hx h
  have hxs : ∀ d ∈ seq, d.IsExpr := fun d hd => hx d (hs.mem_iff.mp hd)
  have hnds : (seq.map UDef.name).Nodup := (hs.map _).nodup_iff.mpr hnd
  have hnews : ∀ d ∈ seq, lib.table.lookup d.name = none := fun d hd => hnew d (hs.mem_iff.mp hd)
  have hpit : t.table.lookup "pi".toList = none := by
    rw [chain_other hc hxs _ (fun hm => hpi' ((hs.map _).mem_iff.mp hm))]; exact hpi
  have hmem : ∀ d, d ∈ defs' → d ∈ seq := fun d h => hs.mem_iff.mpr (hd.mem_iff.mp h)
  have hnd' : (defs'.map UDef.name).Nodup := (hd.map _).nodup_iff.mpr hnd
  have hi : LoadInv t lib fun m => m ∈ defs'.map UDef.name := by
    constructor
    · intro n hn
      obtain ⟨d, hd', rfl⟩ := List.mem_map.mp hn
      exact hnews d (hmem d hd')
    · intro n hn
      rw [chain_other hc hxs n (fun hm => hn ((hd.map _).mem_iff.mpr ((hs.map _).mem_iff.mp hm)))]
  obtain ⟨lib', rest, g1, g2, g3, -⟩ := defPass_load (ws := ws) (parse := parse) (pi := pi) hpit defs'
    (fun d hd' => hxs d (hmem d hd')) (fun n e hd' => chain_def hc hxs hnds hnews hpit (hmem _ hd')) hnd' lib _
    (fun d hd' => List.mem_map_of_mem hd') hi
  simp only [updateLibrary, g1]
  refine retryLoop_load hc hxs hnds hnews hpit ho' _ none 0 lib' rest (fun d hd' => hmem d (g2.subset hd'))
    ((g2.map _).nodup hnd') ?_ (by omega) (.inl ⟨rfl, rfl⟩)
  have e1 : ∀ m, m ∈ rest.map UDef.name ↔ (m ∈ defs'.map UDef.name ∧
      (m ∈ defs'.map UDef.name → m ∈ rest.map UDef.name)) := by
    intro m
    constructor
    · intro hm; exact ⟨(g2.map _).subset hm, fun _ => hm⟩
    · rintro ⟨a, b⟩; exact b a
  exact ⟨fun m hm => g3.1 m ((e1 m).mp hm), fun m hm => g3.2 m (fun hc => hm ((e1 m).mpr hc))⟩

/-- C124 (partial: definitions by expression). In a library that loads every definition holds: evaluated with the
units of the library its expression is the unit of its name, and all other units are unchanged. -/
theorem C124_holds_partial (ws : Char → Bool) (undef : PyErr) (parse : Str → Except PyErr (UExpr K)) (pi : K)
    (order : Nat → List (UDef K) → List (UDef K)) (ho : ∀ k l, (order k l).Perm l)
    (lib t : UnitLib K) (defs : List (UDef K)) (hx : ∀ d ∈ defs, d.IsExpr) (hnd : (defs.map UDef.name).Nodup)
    (hnew : ∀ d ∈ defs, lib.table.lookup d.name = none) (hpi : lib.table.lookup "pi".toList = none)
    (hpi' : "pi".toList ∉ defs.map UDef.name)
    (h : updateLibrary ws undef parse pi order lib defs = .ok t) :
    (∀ n e, UDef.expr n e ∈ defs → ∃ u, t.table.lookup n = some u ∧
      e.eval undef (fun m => if m = "pi".toList then some (.num pi) else (t.table.lookup m).map .unit) =
        .ok (.unit u)) ∧
    ∀ n, n ∉ defs.map UDef.name → t.table.lookup n = lib.table.lookup n := by
  obtain ⟨seq, hs, hc⟩ := updateLibrary_chain ho hx h
  have hxs : ∀ d ∈ seq, d.IsExpr := fun d hd => hx d (hs.mem_iff.mp hd)
  have hnds : (seq.map UDef.name).Nodup := (hs.map _).nodup_iff.mpr hnd
  have hnews : ∀ d ∈ seq, lib.table.lookup d.name = none := fun d hd => hnew d (hs.mem_iff.mp hd)
  have hother : ∀ n, n ∉ defs.map UDef.name → t.table.lookup n = lib.table.lookup n := fun n hn =>
    chain_other hc hxs n (fun hm => hn ((hs.map _).mem_iff.mp hm))
  have hpit : t.table.lookup "pi".toList = none := by rw [hother _ hpi']; exact hpi
  refine ⟨?_, hother⟩
  intro n e hd
  obtain ⟨u, h1, h2⟩ := chain_def hc hxs hnds hnews hpit (hs.mem_iff.mpr hd)
  refine ⟨u, h2, ?_⟩
  rw [← h1]
  apply eval_congr
  intro m _
  simp only [UnitLib.lkPi]
  by_cases hm : m = "pi".toList
  · rw [if_pos hm, hm, hpit]; simp
  · rw [if_neg hm]
    cases t.table.lookup m with
    | none => simp only [if_neg hm]; rfl
    | some u => rfl

/-- Foot before inch, and Fahrenheit with an offset. -/
def exFoot : UDef ℚ := .expr "ft".toList (.mul (.num 12) (.var "inch".toList))
def exInch : UDef ℚ := .expr "inch".toList (.mul (.num (254 / 10000)) (.var "m".toList))
def exDegF : UDef ℚ := .offset "degF".toList 1 "degR".toList (45967 / 100)
def exDegR : UDef ℚ := .expr "degR".toList (.mul (.num (5 / 9)) (.var "s".toList))

theorem exFoot_loads : (updateLibrary blank .NameError exUnitParse 3 (fun _ l => l) exUnitLib [exFoot, exInch]).map
    (fun t => t.table.lookup "ft".toList) = .ok (some ⟨3048 / 10000, [1, 0], 0⟩) := by decide +kernel

example : ∃ t', updateLibrary blank .NameError exUnitParse 3 (fun _ l => l) exUnitLib [exInch, exFoot] = .ok t' ∧
    t'.table.lookup "ft".toList = some ⟨3048 / 10000, [1, 0], 0⟩ := by
  have h := exFoot_loads
  cases ht : updateLibrary blank .NameError exUnitParse 3 (fun _ l => l) exUnitLib [exFoot, exInch] with
  | error e => rw [ht] at h; cases h
  | ok t =>
    rw [ht] at h
    obtain ⟨t', h1, h2⟩ := C124_any_order_partial blank exUnitParse 3 (fun _ l => l) (fun _ l => l)
      (fun _ l => .refl l) (fun _ l => .refl l) exUnitLib t [exFoot, exInch] [exInch, exFoot] (List.Perm.swap _ _ _)
      (by intro d hd; fin_cases hd <;> trivial) (by decide) (by intro d hd; fin_cases hd <;> decide +kernel)
      (by decide +kernel) (by decide) ht
    exact ⟨t', h1, by rw [h2]; simpa [Except.map] using h⟩
example : ∀ t, updateLibrary blank .NameError exUnitParse 3 (fun _ l => l) exUnitLib [exFoot, exInch] = .ok t →
    ∃ u, t.table.lookup "inch".toList = some u := by
  intro t ht
  obtain ⟨u, hu, -⟩ := (C124_holds_partial blank .NameError exUnitParse 3 (fun _ l => l) (fun _ l => .refl l) exUnitLib t
    [exFoot, exInch] (by intro d hd; fin_cases hd <;> trivial) (by decide)
    (by intro d hd; fin_cases hd <;> decide +kernel) (by decide +kernel) (by decide) ht).1 "inch".toList _
      (List.mem_cons_of_mem _ List.mem_cons_self)
  exact ⟨u, hu⟩

/-- C124 fails in python 3, where an unknown name raises `TypeError`: a definition that refers to a later one ends
the import, in the other order the library loads. -/
theorem C124_python3_refuted :
    (updateLibrary blank .TypeError exUnitParse 3 (fun _ l => l) exUnitLib [exFoot, exInch]).map
      (fun t => t.table.lookup "ft".toList) = .error .TypeError ∧
    (updateLibrary blank .TypeError exUnitParse 3 (fun _ l => l) exUnitLib [exInch, exFoot]).map
      (fun t => t.table.lookup "ft".toList) = .ok (some ⟨3048 / 10000, [1, 0], 0⟩) := by
  constructor <;> decide +kernel

/-- C124 fails for units with an offset: their base is looked up with `_find_unit`, which raises `ValueError`. -/
theorem C124_offset_refuted :
    (updateLibrary blank .NameError exUnitParse 3 (fun _ l => l) exUnitLib [exDegF, exDegR]).map
      (fun t => t.table.lookup "degF".toList) = .error .ValueError ∧
    (updateLibrary blank .NameError exUnitParse 3 (fun _ l => l) exUnitLib [exDegR, exDegF]).map
      (fun t => t.table.lookup "degF".toList) = .ok (some ⟨5 / 9, [0, 1], 45967 / 100⟩) := by
  constructor <;> decide +kernel

/-! ## C125 -/

/-- C125. The names kept with a unit do not change its value. -/
theorem C125_same_unit (undef : PyErr) (lk : Str → Option (PhysUnit K × NumDict K)) (e : UExpr K) :
    (e.evalN undef lk).map NVal.erase = e.eval undef fun n => (lk n).map fun v => .unit v.1 := by
  induction e with
  | num c => rfl
  | var n =>
    simp only [UExpr.evalN, UExpr.eval]
    cases lk n <;> rfl
  | mul a b iha ihb =>
    simp only [UExpr.evalN, UExpr.eval, bind, Except.bind]
    rw [← iha, ← ihb]
    cases a.evalN undef lk with
    | error e => rfl
    | ok x => cases b.evalN undef lk with
      | error e => rfl
      | ok y => exact NVal.erase_mul x y
  | div a b iha ihb =>
    simp only [UExpr.evalN, UExpr.eval, bind, Except.bind]
    rw [← iha, ← ihb]
    cases a.evalN undef lk with
    | error e => rfl
    | ok x => cases b.evalN undef lk with
      | error e => rfl
      | ok y => exact NVal.erase_div x y
  | pow a n iha =>
    simp only [UExpr.evalN, UExpr.eval, bind, Except.bind]
    rw [← iha]
    cases a.evalN undef lk with
    | error e => rfl
    | ok x => exact NVal.erase_pow x n

/-- C125 (partial: units without offset, of which one does not cancel, see `C125_cancelled_refuted` and
`C125_offset_refuted`). The printed name of a unit, read as a unit string, is that unit. -/
theorem C125_name_partial (undef : PyErr) (N : Nat) (lk : Str → Option (PhysUnit K × NumDict K)) (hlib : NamedUnits N lk)
    (e : UExpr K) (he : e.NonZero) (u : PhysUnit K) (d : NumDict K) (h : e.evalN undef lk = .ok (.unit u d))
    (hd : ∃ n p, (UKey.name n, p) ∈ d ∧ p ≠ 0) :
    (nameExpr d).eval undef (fun n => (lk n).map fun v => .unit v.1) = .ok (.unit u) := by
  classical
  let P : UKey K → Prop := fun k => match k with
    | .name n => (lk n).isSome
    | .num c => c ≠ 0
  let q : UKey K → UGrp K N := fun k => match k with
    | .name n => match lk n with
      | some v => if hv : v.1.factor ≠ 0 then
          (Units.mk0 v.1.factor hv, Multiplicative.ofAdd fun i : Fin N => v.1.powers.getD i 0) else 1
      | none => 1
    | .num c => if hc : c ≠ 0 then (Units.mk0 c hc, 1) else 1
  have hP : ∀ c, c ≠ 0 → P (.num c) := fun c hc => hc
  have hq : ∀ c, c ≠ 0 → URep (q (.num c)) (.num c) := by
    intro c hc
    simp only [q, dif_pos hc]
    exact ⟨rfl, rfl⟩
  have hqn : ∀ n v, lk n = some v → URep (q (.name n)) (.unit v.1) := by
    intro n v hv
    obtain ⟨h1, h2, h3, -⟩ := hlib n v hv
    simp only [q, hv, dif_pos h1]
    refine ⟨rfl, ?_, h2⟩
    apply List.ext_getElem
    · simp [h3]
    · intro i hi1 hi2
      simp [List.getElem?_eq_getElem hi1]
  have heval : ∀ (e : UExpr K) z, e.NonZero → e.evalN undef lk = .ok z → ∃ a, NRep P q a z := by
    intro e
    induction e with
    | num c => intro z hz h; cases h; exact ⟨_, hq c hz⟩
    | var n =>
      intro z _ h
      simp only [UExpr.evalN] at h
      cases hl : lk n with
      | none => rw [hl] at h; cases h
      | some v =>
        rw [hl] at h; cases h
        obtain ⟨h1, h2, h3, n', d', h4, h5⟩ := hlib n v hl
        refine ⟨q (.name n'), hqn n' (v.1, d') h5, ?_, ?_⟩
        · rw [h4]
          intro kv hkv
          cases List.mem_singleton.mp hkv
          show (lk n').isSome = true
          rw [h5]; rfl
        · rw [h4]; simp [NumDict.total]
    | mul a b iha ihb =>
      intro z hz h
      simp only [UExpr.evalN, bind, Except.bind] at h
      cases ha : a.evalN undef lk with
      | error e => rw [ha] at h; cases h
      | ok x =>
        rw [ha] at h
        cases hb : b.evalN undef lk with
        | error e => rw [hb] at h; cases h
        | ok y =>
          rw [hb] at h
          obtain ⟨a', ha'⟩ := iha x hz.1 ha
          obtain ⟨b', hb'⟩ := ihb y hz.2 hb
          exact ⟨_, NRep.mul hP hq ha' hb' h⟩
    | div a b iha ihb =>
      intro z hz h
      simp only [UExpr.evalN, bind, Except.bind] at h
      cases ha : a.evalN undef lk with
      | error e => rw [ha] at h; cases h
      | ok x =>
        rw [ha] at h
        cases hb : b.evalN undef lk with
        | error e => rw [hb] at h; cases h
        | ok y =>
          rw [hb] at h
          obtain ⟨a', ha'⟩ := iha x hz.1 ha
          obtain ⟨b', hb'⟩ := ihb y hz.2 hb
          exact ⟨_, NRep.div hP hq ha' hb' h⟩
    | pow a n iha =>
      intro z hz h
      simp only [UExpr.evalN, bind, Except.bind] at h
      cases ha : a.evalN undef lk with
      | error e => rw [ha] at h; cases h
      | ok x =>
        rw [ha] at h
        obtain ⟨a', ha'⟩ := iha x hz ha
        exact ⟨_, NRep.pow ha' n h⟩
  obtain ⟨a, hrep, hkeys, htot⟩ := heval e _ he h
  have hk : ∀ k, P k → Evals undef (fun n => (lk n).map fun v => .unit v.1) k.expr (q k) k.isName := by
    intro k hPk
    cases k with
    | name n =>
      have hPk' : (lk n).isSome = true := hPk
      obtain ⟨v, hv⟩ := Option.isSome_iff_exists.mp hPk'
      exact ⟨.unit v.1, by simp [UKey.expr, UExpr.eval, hv], hqn n v hv, rfl⟩
    | num c => exact ⟨.num c, rfl, hq c hPk, rfl⟩
  obtain ⟨v, hv1, hv2, hv3⟩ := evals_name hk d hkeys
  rw [htot] at hv2
  have : v = .unit u := by
    refine hv2.unique hrep ?_
    rw [hv3]
    obtain ⟨n, p, h1, h2⟩ := hd
    simp only [UVal.isUnit, List.any_eq_true]
    exact ⟨_, h1, by simp [UKey.isName, h2]⟩
  rw [hv1, this]

/-- Metre, second and degree Celsius. -/
def exNamed (n : Str) : Option (PhysUnit ℚ × NumDict ℚ) :=
  if n = "m".toList then some (⟨1, [1, 0, 0], 0⟩, [(.name n, 1)])
  else if n = "s".toList then some (⟨1, [0, 1, 0], 0⟩, [(.name n, 1)])
  else none

theorem exNamed_named : NamedUnits 3 exNamed := by
  intro n v h
  simp only [exNamed] at h
  split at h
  · rename_i hn
    cases h
    exact ⟨one_ne_zero, rfl, rfl, n, [(.name n, 1)], rfl, by simp [exNamed, hn]⟩
  · split at h
    · rename_i hm hn
      cases h
      exact ⟨one_ne_zero, rfl, rfl, n, [(.name n, 1)], rfl, by simp only [exNamed, if_neg hm, if_pos hn]⟩
    · cases h

/-- `2/s**2*m` has the name `2*m/s**2`, which is the same unit. -/
theorem exNamed_eval : UExpr.evalN .NameError exNamed
    (.mul (.div (.num 2) (.pow (.var "s".toList) 2)) (.var "m".toList)) =
    .ok (.unit ⟨2, [1, -2, 0], 0⟩ [(.num 2, 1), (.name "s".toList, -2), (.name "m".toList, 1)]) := by
  decide +kernel

example : nameExpr (K := ℚ) [(.num 2, 1), (.name "s".toList, -2), (.name "m".toList, 1)] =
      .div (.mul (.num 2) (.var "m".toList)) (.pow (.var "s".toList) 2) ∧
    UExpr.eval .NameError (fun n => (exNamed n).map fun v => .unit v.1)
      (nameExpr [(.num 2, 1), (.name "s".toList, -2), (.name "m".toList, 1)]) = .ok (.unit ⟨2, [1, -2, 0], 0⟩) :=
  ⟨by decide +kernel, C125_name_partial .NameError 3 exNamed exNamed_named _ (by simp [UExpr.NonZero]) _ _
    exNamed_eval ⟨"s".toList, -2, by simp, by decide⟩⟩

/-- C125 fails if the units cancel: `m/m` is a unit with the name `1`, which is not a unit. -/
theorem C125_cancelled_refuted :
    UExpr.evalN .NameError exNamed (.div (.var "m".toList) (.var "m".toList)) =
      .ok (.unit ⟨1, [0, 0, 0], 0⟩ [(.name "m".toList, 0)]) ∧
    nameExpr (K := ℚ) [(.name "m".toList, 0)] = .num 1 ∧
    UExpr.eval .NameError (fun n => (exNamed n).map fun v => .unit v.1) (nameExpr [(.name "m".toList, 0)]) =
      .ok (.num 1) ∧ (UVal.num (1 : ℚ)).asUnit = .error .TypeError := by
  refine ⟨by decide +kernel, by decide +kernel, by decide +kernel, rfl⟩

/-- Metre and degree Celsius. -/
def exOffset (n : Str) : Option (PhysUnit ℚ × NumDict ℚ) :=
  if n = "m".toList then some (⟨1, [1, 0], 0⟩, [(.name n, 1)])
  else if n = "degC".toList then some (⟨1, [0, 1], 27315 / 100⟩, [(.name n, 1)])
  else none

/-- C125 fails with an offset: `2/degC*m` is a unit with the name `2*m/degC`, which raises `TypeError`. -/
theorem C125_offset_refuted :
    UExpr.evalN .NameError exOffset (.mul (.div (.num 2) (.var "degC".toList)) (.var "m".toList)) =
      .ok (.unit ⟨2, [1, -1], 0⟩ [(.num 2, 1), (.name "degC".toList, -1), (.name "m".toList, 1)]) ∧
    UExpr.eval .NameError (fun n => (exOffset n).map fun v => .unit v.1)
      (nameExpr [(.num 2, 1), (.name "degC".toList, -1), (.name "m".toList, 1)]) = .error .TypeError := by
  constructor <;> decide +kernel

/-! ## C126 -/

/-- C126 (partial: units without offset, see `C126_eq_refuted`). Two quantities are equal exactly if they have the
same dimensions and the same base quantity. -/
theorem C126_eq_partial (x y : K) (u v : PhysUnit K) (hu : u.factor ≠ 0) (hou : u.offset = 0) (hov : v.offset = 0) :
    ∃ b, quantityEq x u y v = .ok b ∧ (b = true ↔ u.powers = v.powers ∧ baseOf x u = baseOf y v) := by
  by_cases hp : u.powers = v.powers
  · refine ⟨x == y * (v.factor / u.factor), by simp [quantityEq, PhysUnit.conversionFactorTo, hp, hou, hov, hu], ?_⟩
    simp only [beq_iff_eq, hp, true_and, baseOf, hou, hov, add_zero]
    rw [← mul_div_assoc, eq_div_iff hu]
  · exact ⟨false, by simp [quantityEq, PhysUnit.conversionFactorTo, Ne.symm hp], by simp [hp]⟩

/-- C126 (partial: units without offset, see `C126_lt_refuted`). Quantities of the same dimensions compare as their
base quantities; those of different dimensions raise `TypeError`. -/
theorem C126_lt_partial [LinearOrder K] [IsStrictOrderedRing K] (x y : K) (u v : PhysUnit K) (hu : 0 < u.factor)
    (hou : u.offset = 0) (hov : v.offset = 0) :
    (u.powers = v.powers → ∃ b, quantityLt x u y v = .ok b ∧ (b = true ↔ baseOf x u < baseOf y v)) ∧
    (u.powers ≠ v.powers → quantityLt x u y v = .error .TypeError) := by
  constructor
  · intro hp
    refine ⟨decide (1 * x + -1 * y * (v.factor / u.factor) < 0), by
      simp [quantityLt, sumQuantities, PhysUnit.conversionFactorTo, hp, hou, hov, hu.ne', bind, Except.bind, pure,
        Except.pure], ?_⟩
    simp only [decide_eq_true_eq, baseOf, hou, hov, add_zero]
    have e1 : 1 * x + -1 * y * (v.factor / u.factor) = (x * u.factor - y * v.factor) / u.factor := by
      field_simp; ring
    rw [e1, div_lt_iff₀ hu, zero_mul, sub_lt_zero]
  · intro hp
    simp [quantityLt, sumQuantities, PhysUnit.conversionFactorTo, Ne.symm hp, bind, Except.bind]

/-- C126. The product of two quantities without offset has the product of the base quantities, and is a number
exactly if its dimensions cancel; with an offset it raises `TypeError`. -/
theorem C126_mul (x y : K) (u v : PhysUnit K) :
    (u.offset = 0 → v.offset = 0 → ∃ r, quantityMul x u y v = .ok r ∧ r.base = baseOf x u * baseOf y v ∧
      r.dims = if (∀ a ∈ List.zipWith (· + ·) u.powers v.powers, a = 0) then none
        else some (List.zipWith (· + ·) u.powers v.powers)) ∧
    (u.offset ≠ 0 ∨ v.offset ≠ 0 → quantityMul x u y v = .error .TypeError) := by
  constructor
  · intro h1 h2
    have hm : u.mul v = .ok ⟨u.factor * v.factor, List.zipWith (· + ·) u.powers v.powers, 0⟩ := by
      simp [PhysUnit.mul, h1, h2]
    simp only [quantityMul, hm, bind, Except.bind, pure, Except.pure]
    refine ⟨_, rfl, ?_, ?_⟩
    · by_cases hz : (⟨u.factor * v.factor, List.zipWith (· + ·) u.powers v.powers, 0⟩ : PhysUnit K).isDimensionless = true
      · rw [if_pos hz]; simp only [QVal.base, baseOf, h1, h2, add_zero]; ring
      · rw [if_neg hz]; simp only [QVal.base, baseOf, h1, h2, add_zero]; ring
    · simp only [PhysUnit.isDimensionless, List.all_eq_true, beq_iff_eq]
      split <;> rfl
  · intro h
    simp [quantityMul, PhysUnit.mul, h, bind, Except.bind]

/-- C126. The quotient of two quantities without offset has the quotient of the base quantities, and is a number
exactly if its dimensions cancel; with an offset it raises `TypeError`. -/
theorem C126_div (x y : K) (u v : PhysUnit K) (hy : y ≠ 0) (hv : v.factor ≠ 0) :
    (u.offset = 0 → v.offset = 0 → ∃ r, quantityDiv x u y v = .ok r ∧ r.base = baseOf x u / baseOf y v ∧
      r.dims = if (∀ a ∈ List.zipWith (· - ·) u.powers v.powers, a = 0) then none
        else some (List.zipWith (· - ·) u.powers v.powers)) ∧
    (u.offset ≠ 0 ∨ v.offset ≠ 0 → quantityDiv x u y v = .error .TypeError) := by
  constructor
  · intro h1 h2
    have hm : u.div v = .ok ⟨u.factor / v.factor, List.zipWith (· - ·) u.powers v.powers, 0⟩ := by
      simp [PhysUnit.div, h1, h2, hv]
    simp only [quantityDiv, if_neg hy, hm, bind, Except.bind, pure, Except.pure]
    refine ⟨_, rfl, ?_, ?_⟩
    · by_cases hz : (⟨u.factor / v.factor, List.zipWith (· - ·) u.powers v.powers, 0⟩ : PhysUnit K).isDimensionless = true
      · rw [if_pos hz]; simp only [QVal.base, baseOf, h1, h2, add_zero]; field_simp
      · rw [if_neg hz]; simp only [QVal.base, baseOf, h1, h2, add_zero]; field_simp
    · simp only [PhysUnit.isDimensionless, List.all_eq_true, beq_iff_eq]
      split <;> rfl
  · intro h
    simp [quantityDiv, hy, PhysUnit.div, h, bind, Except.bind]

/-- C126. The integer power of a quantity without offset has the power of the base quantity; with an offset it raises
`TypeError`. -/
theorem C126_pow (x : K) (u : PhysUnit K) (n : ℤ) (hx : x ≠ 0) (hu : u.factor ≠ 0) :
    (u.offset = 0 → ∃ y w, quantityPow x u n = .ok (y, w) ∧ baseOf y w = baseOf x u ^ n ∧
      w.powers = u.powers.map fun a => a * n) ∧
    (u.offset ≠ 0 → quantityPow x u n = .error .TypeError) := by
  constructor
  · intro h
    refine ⟨x ^ n, ⟨u.factor ^ n, u.powers.map fun a => a * n, 0⟩, by
      simp [quantityPow, PhysUnit.pow, hx, hu, h, bind, Except.bind, pure, Except.pure], ?_, rfl⟩
    simp only [baseOf, h, add_zero, mul_zpow]
  · intro h
    simp [quantityPow, PhysUnit.pow, hx, h, bind, Except.bind]

/-- C126 (partial: units without offset that have a dimension, see `C126_base_refuted`). `in_base_units` gives the
base quantity in the base unit of the same dimensions. -/
theorem C126_base_partial (x : K) (u : PhysUnit K) (hou : u.offset = 0) (hd : ∃ a ∈ u.powers, a ≠ 0) :
    ∃ y w, inBaseUnits x u = .ok (y, w) ∧ baseOf y w = baseOf x u ∧ y = baseOf x u ∧ w.powers = u.powers := by
  have h : u.isDimensionless = false := by
    obtain ⟨a, ha, hne⟩ := hd
    simp only [PhysUnit.isDimensionless, List.all_eq_false]
    exact ⟨a, ha, by simpa using hne⟩
  refine ⟨x * u.factor, ⟨1, u.powers, 0⟩, by simp [inBaseUnits, h], ?_, ?_, rfl⟩
  · simp [baseOf, hou]
  · simp [baseOf, hou]

/-- Degree Celsius and Kelvin. -/
def exCelsius : PhysUnit ℚ := ⟨1, [1], 27315 / 100⟩
def exKelvin : PhysUnit ℚ := ⟨1, [1], 0⟩

/-- C126 fails with an offset: one degree Celsius equals one Kelvin. -/
theorem C126_eq_refuted : quantityEq 1 exCelsius 1 exKelvin = .ok true ∧ baseOf 1 exCelsius ≠ baseOf 1 exKelvin := by
  constructor <;> decide +kernel

/-- C126 fails with an offset: zero degrees Celsius is less than one Kelvin. -/
theorem C126_lt_refuted : quantityLt 0 exCelsius 1 exKelvin = .ok true ∧ baseOf 1 exKelvin < baseOf 0 exCelsius := by
  constructor <;> decide +kernel

/-- C126 fails: in base units, 20 degrees Celsius are 20 Kelvin, and a quantity without dimension raises
`TypeError`. -/
theorem C126_base_refuted : inBaseUnits 20 exCelsius = .ok (20, exKelvin) ∧ baseOf 20 exKelvin ≠ baseOf 20 exCelsius ∧
    inBaseUnits 1 (⟨1, [0], 0⟩ : PhysUnit ℚ) = .error .TypeError := by
  refine ⟨by decide +kernel, by decide +kernel, by decide +kernel⟩

/-- Metre and kilometre. -/
example : quantityEq 2000 (⟨1, [1], 0⟩ : PhysUnit ℚ) 2 ⟨1000, [1], 0⟩ = .ok true ∧
    quantityLt 1999 (⟨1, [1], 0⟩ : PhysUnit ℚ) 2 ⟨1000, [1], 0⟩ = .ok true ∧
    quantityMul 2 (⟨1000, [1], 0⟩ : PhysUnit ℚ) 3 ⟨1, [-1], 0⟩ = .ok (.num 6000) ∧
    quantityDiv 2 (⟨1000, [1], 0⟩ : PhysUnit ℚ) 4 ⟨10, [-1], 0⟩ = .ok (.quantity (1 / 2) ⟨100, [2], 0⟩) ∧
    quantityPow 2 (⟨1000, [1], 0⟩ : PhysUnit ℚ) 2 = .ok (4, ⟨1000000, [2], 0⟩) ∧
    inBaseUnits 2 (⟨1000, [1], 0⟩ : PhysUnit ℚ) = .ok (2000, ⟨1, [1], 0⟩) := by
  refine ⟨by decide +kernel, by decide +kernel, by decide +kernel, by decide +kernel, by decide +kernel,
    by decide +kernel⟩

end OpenMDAO
