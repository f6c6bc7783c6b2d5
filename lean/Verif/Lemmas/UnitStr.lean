import Verif.Spec.UnitStr
import Verif.Lemmas.Connections
import Mathlib.Data.List.Basic
/-!
# Lemmas about unit strings (C123)
-/
namespace OpenMDAO
set_option linter.unusedSectionVars false

variable {K : Type} [Field K] [DecidableEq K]

theorem eval_mono (undef : PyErr) (lk lk' : Str → Option (UVal K)) (e : UExpr K) (v : UVal K)
    (h : ∀ n ∈ e.names, ∀ y, lk n = some y → lk' n = some y) (he : e.eval undef lk = .ok v) :
    e.eval undef lk' = .ok v := by
  induction e generalizing v with
  | num c => exact he
  | var n =>
    simp only [UExpr.eval] at he ⊢
    cases hn : lk n with
    | none => rw [hn] at he; cases he
    | some y =>
      rw [hn] at he; cases he
      rw [h n (by simp [UExpr.names]) v hn]
  | mul a b iha ihb =>
    simp only [UExpr.eval, bind, Except.bind] at he ⊢
    cases ha : a.eval undef lk with
    | error e => rw [ha] at he; cases he
    | ok x =>
      rw [ha] at he
      cases hb : b.eval undef lk with
      | error e => rw [hb] at he; cases he
      | ok y =>
        rw [hb] at he
        rw [iha x (fun n hn => h n (by simp [UExpr.names, hn])) ha,
          ihb y (fun n hn => h n (by simp [UExpr.names, hn])) hb]
        exact he
  | div a b iha ihb =>
    simp only [UExpr.eval, bind, Except.bind] at he ⊢
    cases ha : a.eval undef lk with
    | error e => rw [ha] at he; cases he
    | ok x =>
      rw [ha] at he
      cases hb : b.eval undef lk with
      | error e => rw [hb] at he; cases he
      | ok y =>
        rw [hb] at he
        rw [iha x (fun n hn => h n (by simp [UExpr.names, hn])) ha,
          ihb y (fun n hn => h n (by simp [UExpr.names, hn])) hb]
        exact he
  | pow a k iha =>
    simp only [UExpr.eval, bind, Except.bind] at he ⊢
    cases ha : a.eval undef lk with
    | error e => rw [ha] at he; cases he
    | ok x =>
      rw [ha] at he
      rw [iha x h ha]
      exact he

theorem eval_congr (undef : PyErr) (lk lk' : Str → Option (UVal K)) (e : UExpr K)
    (h : ∀ n ∈ e.names, lk n = lk' n) : e.eval undef lk = e.eval undef lk' := by
  induction e with
  | num c => rfl
  | var n => simp only [UExpr.eval, h n (by simp [UExpr.names])]
  | mul a b iha ihb =>
    simp only [UExpr.eval]
    rw [iha (fun n hn => h n (by simp [UExpr.names, hn])), ihb (fun n hn => h n (by simp [UExpr.names, hn]))]
  | div a b iha ihb =>
    simp only [UExpr.eval]
    rw [iha (fun n hn => h n (by simp [UExpr.names, hn])), ihb (fun n hn => h n (by simp [UExpr.names, hn]))]
  | pow a k iha =>
    simp only [UExpr.eval]
    rw [iha h]

/-- What looking up unit strings keeps: `lib` is the state reached from `lib0`. -/
structure UnitInv (undef : PyErr) (parse : Str → Except PyErr (UExpr K)) (lib0 lib : UnitLib K) : Prop where
  pre : lib.prefixes = lib0.prefixes
  keep : ∀ n u, lib0.table.lookup n = some u → lib.table.lookup n = some u
  reads : ∀ n w, lib.table.lookup n = some w → UReads lib0 n w
  cache : ∀ n v, lib.cache.lookup n = some v → evalStr undef parse lib n = .ok v

/-- Names that python parses keep their unit. -/
def Keeps (parse : Str → Except PyErr (UExpr K)) (lib lib' : UnitLib K) : Prop :=
  ∀ n w, parse n = .ok (.var n) → lib.table.lookup n = some w → lib'.table.lookup n = some w

theorem evalStr_keeps {undef : PyErr} {parse : Str → Except PyErr (UExpr K)} {lib0 lib lib' : UnitLib K}
    (hp : PyNames parse lib0) (hk : Keeps parse lib lib') {s : Str} {v : UVal K}
    (h : evalStr undef parse lib s = .ok v) : evalStr undef parse lib' s = .ok v := by
  simp only [evalStr, bind, Except.bind] at h ⊢
  cases hs : parse s with
  | error e => rw [hs] at h; cases h
  | ok e =>
    rw [hs] at h
    refine eval_mono undef lib.lk lib'.lk e v ?_ h
    intro n hn y hy
    simp only [UnitLib.lk, Option.map_eq_some_iff] at hy ⊢
    obtain ⟨u, hu, rfl⟩ := hy
    exact ⟨u, hk n u (hp.inner s e hs n hn) hu, rfl⟩

theorem evalStr_name {undef : PyErr} {parse : Str → Except PyErr (UExpr K)} {lib : UnitLib K} {n : Str}
    (hn : parse n = .ok (.var n)) :
    evalStr undef parse lib n = match lib.table.lookup n with
      | some u => .ok (.unit u)
      | none => .error undef := by
  simp only [evalStr, bind, Except.bind, hn, UExpr.eval, UnitLib.lk]
  cases lib.table.lookup n <;> rfl

/-- Setting a name that could not be evaluated keeps everything. -/
theorem inv_set {undef : PyErr} {parse : Str → Except PyErr (UExpr K)} {lib0 lib : UnitLib K}
    (hp : PyNames parse lib0) (hi : UnitInv undef parse lib0 lib) {item : Str} {w : PhysUnit K} {e : PyErr}
    (he : evalStr undef parse lib item = .error e) (hr : UReads lib0 item w) :
    UnitInv undef parse lib0 { lib with table := dictSet lib.table item w } ∧
    Keeps parse lib { lib with table := dictSet lib.table item w } := by
  have hk : Keeps parse lib { lib with table := dictSet lib.table item w } := by
    intro n u hn hu
    by_cases h : n = item
    · subst h
      rw [evalStr_name hn, hu] at he
      cases he
    · show (dictSet lib.table item w).lookup n = some u
      rw [lookup_dictSet, if_neg h]; exact hu
  refine ⟨⟨hi.pre, ?_, ?_, ?_⟩, hk⟩
  · intro n u hu
    exact hk n u (hp.lib n u hu) (hi.keep n u hu)
  · intro n u hu
    change (dictSet lib.table item w).lookup n = some u at hu
    rw [lookup_dictSet] at hu
    by_cases h : n = item
    · rw [if_pos h] at hu; cases hu; rw [h]; exact hr
    · rw [if_neg h] at hu; exact hi.reads n u hu
  · intro n v hv
    exact evalStr_keeps hp hk (hi.cache n v hv)

theorem not_in_lib {undef : PyErr} {parse : Str → Except PyErr (UExpr K)} {lib0 lib : UnitLib K}
    (hp : PyNames parse lib0) (hi : UnitInv undef parse lib0 lib) {item : Str} {e : PyErr}
    (he : evalStr undef parse lib item = .error e) : lib0.table.lookup item = none := by
  cases h : lib0.table.lookup item with
  | none => rfl
  | some u =>
    rw [evalStr_name (hp.lib item u h), hi.keep item u h] at he
    cases he

theorem prefixSplit_some {lib : UnitLib K} {k : Nat} {item : Str} {cu : K × PhysUnit K}
    (h : prefixSplit lib k item = some cu) :
    lib.prefixes.lookup (item.take k) = some cu.1 ∧ lib.table.lookup (item.drop k) = some cu.2 := by
  simp only [prefixSplit] at h
  cases hp : lib.prefixes.lookup (item.take k) with
  | none => rw [hp] at h; cases h
  | some c =>
    rw [hp] at h
    cases ht : lib.table.lookup (item.drop k) with
    | none => rw [ht] at h; cases h
    | some u => rw [ht] at h; cases h; exact ⟨rfl, rfl⟩

theorem addPrefixed_inv {undef : PyErr} {parse : Str → Except PyErr (UExpr K)} {lib0 lib : UnitLib K}
    (hp : PyNames parse lib0) (hi : UnitInv undef parse lib0 lib) {item : Str} {e : PyErr}
    (he : evalStr undef parse lib item = .error e) {k : Nat} (hk : k ≤ 2) {cu : K × PhysUnit K}
    (hs : prefixSplit lib k item = some cu) :
    UnitInv undef parse lib0 (addPrefixed lib item cu.1 cu.2).1 ∧
    Keeps parse lib (addPrefixed lib item cu.1 cu.2).1 := by
  obtain ⟨h1, h2⟩ := prefixSplit_some hs
  have hid : UnitInv undef parse lib0 lib ∧ Keeps parse lib lib := ⟨hi, fun _ _ _ h => h⟩
  simp only [addPrefixed, PhysUnit.mulNum]
  by_cases ho : cu.2.offset = 0
  · simp only [ho, ne_eq, not_true_eq_false, if_false, zero_mul]
    have hr : UReads lib0 item ⟨cu.2.factor * cu.1, cu.2.powers, 0⟩ := by
      have e0 : item = item.take k ++ item.drop k := (List.take_append_drop k item).symm
      have h0 := not_in_lib hp hi he
      rw [e0] at h0
      have := UReads.pre (lib := lib0) h0 (hi.pre ▸ h1)
        (by rw [List.length_take]; omega) (hi.reads _ _ h2) ho
      rwa [← e0] at this
    simp only [addUnit]
    cases ht : lib.table.lookup item with
    | none => exact inv_set hp hi he hr
    | some w =>
      by_cases hc : w.factor ≠ cu.2.factor * cu.1 ∨ w.powers ≠ cu.2.powers
      · simp only [if_pos hc]; exact hid
      · simp only [if_neg hc]; exact inv_set hp hi he hr
  · simp only [ho, ne_eq, not_false_eq_true, if_true]
    exact hid

theorem addItem_inv {undef : PyErr} {parse : Str → Except PyErr (UExpr K)} {lib0 lib : UnitLib K}
    (hp : PyNames parse lib0) (hi : UnitInv undef parse lib0 lib) (item : Str) :
    UnitInv undef parse lib0 (addItem undef parse lib item).1 ∧ Keeps parse lib (addItem undef parse lib item).1 := by
  have hid : UnitInv undef parse lib0 lib ∧ Keeps parse lib lib := ⟨hi, fun _ _ _ h => h⟩
  simp only [addItem]
  cases he : evalStr undef parse lib item with
  | ok v => exact hid
  | error e =>
    cases h1 : prefixSplit lib 1 item with
    | some cu => exact addPrefixed_inv hp hi he (by omega) h1
    | none =>
      cases h2 : prefixSplit lib 2 item with
      | some cu => exact addPrefixed_inv hp hi he (by omega) h2
      | none => exact hid

theorem addItems_inv {undef : PyErr} {parse : Str → Except PyErr (UExpr K)} {lib0 : UnitLib K}
    (hp : PyNames parse lib0) (items : List Str) (lib : UnitLib K) (hi : UnitInv undef parse lib0 lib) :
    UnitInv undef parse lib0 (addItems undef parse lib items).1 ∧ Keeps parse lib (addItems undef parse lib items).1 := by
  induction items generalizing lib with
  | nil => exact ⟨hi, fun _ _ _ h => h⟩
  | cons item items ih =>
    have h0 := addItem_inv (undef := undef) hp hi item
    simp only [addItems]
    rcases hk : addItem undef parse lib item with ⟨lib', _ | e⟩
    · rw [hk] at h0
      obtain ⟨a, b⟩ := ih lib' h0.1
      exact ⟨a, fun n w hn hw => b n w hn (h0.2 n w hn hw)⟩
    · rw [hk] at h0; exact h0

theorem store_inv {undef : PyErr} {parse : Str → Except PyErr (UExpr K)} {lib0 lib : UnitLib K}
    (hi : UnitInv undef parse lib0 lib) {s : Str} {v : UVal K} (h : evalStr undef parse lib s = .ok v) :
    UnitInv undef parse lib0 (lib.store s v) := by
  refine ⟨hi.pre, hi.keep, hi.reads, ?_⟩
  intro n w hw
  change (dictSet lib.cache s v).lookup n = some w at hw
  rw [lookup_dictSet] at hw
  show evalStr undef parse lib n = .ok w
  by_cases hn : n = s
  · rw [if_pos hn] at hw; cases hw; rw [hn]; exact h
  · rw [if_neg hn] at hw; exact hi.cache n w hw

theorem findUnit_inv {ws : Char → Bool} {undef : PyErr} {parse : Str → Except PyErr (UExpr K)} {lib0 lib : UnitLib K}
    (hp : PyNames parse lib0) (hi : UnitInv undef parse lib0 lib) (s : Str) :
    UnitInv undef parse lib0 (findUnit ws undef parse lib s).1 := by
  simp only [findUnit]
  generalize pyStrip ws s = name
  cases hc : lib.cache.lookup name with
  | some v => exact hi
  | none =>
    cases he : evalStr undef parse lib name with
    | ok v => exact store_inv hi he
    | error e =>
      have h0 := (addItems_inv (undef := undef) hp (unitItems name) lib hi).1
      simp only
      rcases hk : addItems undef parse lib (unitItems name) with ⟨lib', _ | e'⟩
      · rw [hk] at h0
        simp only
        cases he' : evalStr undef parse lib' name with
        | ok v => exact store_inv h0 he'
        | error e => exact h0
      · rw [hk] at h0; exact h0

theorem after_inv {ws : Char → Bool} {undef : PyErr} {parse : Str → Except PyErr (UExpr K)} {lib0 : UnitLib K}
    (hp : PyNames parse lib0) (hc : lib0.cache = []) (h : List Str) :
    UnitInv undef parse lib0 (lib0.after ws undef parse h) := by
  have key : ∀ (h : List Str) (lib : UnitLib K), UnitInv undef parse lib0 lib →
      UnitInv undef parse lib0 (lib.after ws undef parse h) := by
    intro h
    induction h with
    | nil => intro lib hi; exact hi
    | cons s h ih => intro lib hi; exact ih _ (findUnit_inv hp hi s)
  exact key h lib0 ⟨rfl, fun _ _ h => h, fun _ _ h => .unit h, fun n v hv => by rw [hc] at hv; cases hv⟩

theorem reads_settled {lib0 : UnitLib K} {v : Str} {u w : PhysUnit K} (hs : Settled lib0 v u) (hr : UReads lib0 v w) :
    w = u := by
  cases hs with
  | unit h =>
    cases hr with
    | unit h' => rw [h] at h'; cases h'; rfl
    | pre h' => rw [h] at h'; cases h'
  | @pre p b c u h0 hc hl hb ho huniq =>
    generalize hv : p ++ b = v at hr
    cases hr with
    | unit h' => rw [hv] at h0; rw [h0] at h'; cases h'
    | @pre p' b' c' u' h0' hc' hl' hr' ho' =>
      have hpp := huniq p' b' c' u' hv hc' hl' hr'
      subst hpp
      have hbb : b = b' := List.append_cancel_left hv
      subst hbb
      rw [hc] at hc'; cases hc'
      cases hr' with
      | unit h' => rw [hb] at h'; cases h'; rfl
      | pre h' => rw [hb] at h'; cases h'

theorem Settled.reads {lib0 : UnitLib K} {v : Str} {u : PhysUnit K} (hs : Settled lib0 v u) : UReads lib0 v u := by
  cases hs with
  | unit h => exact .unit h
  | pre h0 hc hlen hb ho _ => exact .pre h0 hc (by omega) (.unit hb) ho

/-- A settled name is always resolved, to its unit. -/
theorem addItem_settled {undef : PyErr} {parse : Str → Except PyErr (UExpr K)} {lib0 lib : UnitLib K}
    (hp : PyNames parse lib0) (hi : UnitInv undef parse lib0 lib) {v : Str} {u : PhysUnit K} (hs : Settled lib0 v u)
    (hv : parse v = .ok (.var v)) :
    (addItem undef parse lib v).2 = none ∧ (addItem undef parse lib v).1.table.lookup v = some u := by
  cases he : evalStr undef parse lib v with
  | ok x =>
    simp only [addItem, he, true_and]
    rw [evalStr_name hv] at he
    cases ht : lib.table.lookup v with
    | none => rw [ht] at he; cases he
    | some w => rw [reads_settled hs (hi.reads v w ht)]
  | error e =>
    have h0 := not_in_lib hp hi he
    have ht : lib.table.lookup v = none := by
      rw [evalStr_name hv] at he
      cases ht : lib.table.lookup v with
      | none => rfl
      | some w => rw [ht] at he; cases he
    cases hs with
    | unit h => rw [h0] at h; cases h
    | @pre p b c u h0' hc hl hb ho huniq =>
      have hset : ∀ k, p = (p ++ b).take k → b = (p ++ b).drop k → prefixSplit lib k (p ++ b) = some (c, u) := by
        intro k e1 e2
        simp only [prefixSplit]
        rw [← e1, ← e2, hi.pre, hc, hi.keep b u hb]
        rfl
      have hadd : addPrefixed lib (p ++ b) c u =
          ({ lib with table := dictSet lib.table (p ++ b) ⟨u.factor * c, u.powers, 0⟩ }, none) := by
        simp only [addPrefixed, PhysUnit.mulNum, ho, ne_eq, not_true_eq_false, if_false, zero_mul, addUnit, ht]
      have hgoal : ∀ r, r = addPrefixed lib (p ++ b) c u → r.2 = none ∧
          r.1.table.lookup (p ++ b) = some ⟨u.factor * c, u.powers, 0⟩ := by
        intro r hr
        rw [hr, hadd]
        refine ⟨rfl, ?_⟩
        show (dictSet lib.table (p ++ b) _).lookup (p ++ b) = _
        rw [lookup_dictSet, if_pos rfl]
      apply hgoal
      rcases hl with hl | hl
      · simp only [addItem, he]
        rw [hset 1 (by rw [← hl, List.take_left]) (by rw [← hl, List.drop_left])]
      · have h1 : prefixSplit lib 1 (p ++ b) = none := by
          cases h : prefixSplit lib 1 (p ++ b) with
          | none => rfl
          | some cu =>
            obtain ⟨a1, a2⟩ := prefixSplit_some h
            rw [hi.pre] at a1
            have := huniq _ _ _ _ (List.take_append_drop 1 (p ++ b)).symm a1
              (by rw [List.length_take]; omega) (hi.reads _ _ a2)
            have := congrArg List.length this
            rw [List.length_take, List.length_append] at this
            omega
        simp only [addItem, he, h1]
        rw [hset 2 (by rw [← hl, List.take_left]) (by rw [← hl, List.drop_left])]

theorem addItems_settled {undef : PyErr} {parse : Str → Except PyErr (UExpr K)} {lib0 : UnitLib K}
    (hp : PyNames parse lib0) (items : List Str) (lib : UnitLib K) (hi : UnitInv undef parse lib0 lib)
    (hs : ∀ v ∈ items, (∃ u, Settled lib0 v u) ∧ parse v = .ok (.var v)) :
    (addItems undef parse lib items).2 = none ∧
    ∀ v ∈ items, ∀ u, Settled lib0 v u → (addItems undef parse lib items).1.table.lookup v = some u := by
  induction items generalizing lib with
  | nil => exact ⟨rfl, fun v hv => by cases hv⟩
  | cons item items ih =>
    obtain ⟨⟨u, hu⟩, hpi⟩ := hs item List.mem_cons_self
    have h1 := addItem_settled hp hi hu hpi
    have h2 := addItem_inv (undef := undef) hp hi item
    simp only [addItems]
    rcases hk : addItem undef parse lib item with ⟨lib', o⟩
    rw [hk] at h1 h2
    obtain ⟨rfl, hl⟩ := h1
    obtain ⟨a, b⟩ := ih lib' h2.1 (fun v hv => hs v (List.mem_cons_of_mem _ hv))
    refine ⟨a, ?_⟩
    intro v hv w hw
    rcases List.mem_cons.mp hv with rfl | hv
    · rw [reads_settled hu hw.reads]
      exact (addItems_inv (undef := undef) hp items lib' h2.1).2 v u hpi hl
    · exact b v hv w hw

/-- What a unit string of settled names gives, whatever the state. -/
theorem findUnit_settled {ws : Char → Bool} {undef : PyErr} {parse : Str → Except PyErr (UExpr K)}
    {lib0 lib : UnitLib K} (hp : PyNames parse lib0) (hi : UnitInv undef parse lib0 lib) {s : Str} {e : UExpr K}
    (he : parse (pyStrip ws s) = .ok e) (hn : ∀ v ∈ e.names, v ∈ unitItems (pyStrip ws s))
    (hs : ∀ v ∈ unitItems (pyStrip ws s), (∃ u, Settled lib0 v u) ∧ parse v = .ok (.var v))
    (lk : Str → Option (UVal K)) (hlk : ∀ v ∈ e.names, ∀ u, Settled lib0 v u → lk v = some (.unit u)) :
    (findUnit ws undef parse lib s).2 = (e.eval undef lk).bind UVal.asUnit := by
  have hall := addItems_settled (undef := undef) hp (unitItems (pyStrip ws s)) lib hi hs
  have hinv := addItems_inv (undef := undef) hp (unitItems (pyStrip ws s)) lib hi
  have hfin : evalStr undef parse (addItems undef parse lib (unitItems (pyStrip ws s))).1 (pyStrip ws s) =
      e.eval undef lk := by
    simp only [evalStr, bind, Except.bind, he]
    apply eval_congr
    intro n hn'
    obtain ⟨⟨u, hu⟩, _⟩ := hs n (hn n hn')
    rw [hlk n hn' u hu]
    simp only [UnitLib.lk, hall.2 n (hn n hn') u hu, Option.map_some]
  have hok : ∀ v, evalStr undef parse lib (pyStrip ws s) = .ok v → e.eval undef lk = .ok v := by
    intro v hv
    rw [← hfin]
    exact evalStr_keeps hp hinv.2 hv
  simp only [findUnit]
  cases hc : lib.cache.lookup (pyStrip ws s) with
  | some v =>
    simp only [hok v (hi.cache _ v hc), Except.bind]
  | none =>
    simp only
    cases h1 : evalStr undef parse lib (pyStrip ws s) with
    | ok v => simp only [hok v h1, Except.bind]
    | error e1 =>
      simp only
      rcases hk : addItems undef parse lib (unitItems (pyStrip ws s)) with ⟨lib', o⟩
      rw [hk] at hall hfin
      obtain ⟨rfl, _⟩ := hall
      simp only at hfin ⊢
      rw [hfin]
      cases e.eval undef lk with
      | ok v => rfl
      | error e => rfl

end OpenMDAO
