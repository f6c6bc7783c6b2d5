import Verif.Lemmas.UnitStr
import Mathlib.Data.List.Perm.Basic
import Mathlib.Data.List.Nodup
/-!
# Lemmas about unit libraries (C124)
-/
namespace OpenMDAO
set_option linter.unusedSectionVars false

variable {K : Type} [Field K] [DecidableEq K]

theorem eval_sub (undef : PyErr) (lk lk' : Str → Option (UVal K)) (e : UExpr K) (v : UVal K)
    (h : ∀ n y, lk' n = some y → lk n = some y) (he : e.eval undef lk = .ok v) :
    e.eval undef lk' = .ok v ∨ e.eval undef lk' = .error undef := by
  induction e generalizing v with
  | num c => exact .inl he
  | var n =>
    simp only [UExpr.eval] at he ⊢
    cases hn : lk' n with
    | none => exact .inr rfl
    | some y => rw [h n y hn] at he; exact .inl he
  | mul a b iha ihb =>
    simp only [UExpr.eval, bind, Except.bind] at he ⊢
    cases ha : a.eval undef lk with
    | error e => rw [ha] at he; cases he
    | ok x =>
      rw [ha] at he
      cases hb : b.eval undef lk with
      | error e => rw [hb] at he; cases he
      | ok y =>
        rw [hb] at he
        rcases iha x ha with h1 | h1
        · rcases ihb y hb with h2 | h2
          · rw [h1, h2]; exact .inl he
          · rw [h1, h2]; exact .inr rfl
        · rw [h1]; exact .inr rfl
  | div a b iha ihb =>
    simp only [UExpr.eval, bind, Except.bind] at he ⊢
    cases ha : a.eval undef lk with
    | error e => rw [ha] at he; cases he
    | ok x =>
      rw [ha] at he
      cases hb : b.eval undef lk with
      | error e => rw [hb] at he; cases he
      | ok y =>
        rw [hb] at he
        rcases iha x ha with h1 | h1
        · rcases ihb y hb with h2 | h2
          · rw [h1, h2]; exact .inl he
          · rw [h1, h2]; exact .inr rfl
        · rw [h1]; exact .inr rfl
  | pow a k iha =>
    simp only [UExpr.eval, bind, Except.bind] at he ⊢
    cases ha : a.eval undef lk with
    | error e => rw [ha] at he; cases he
    | ok x =>
      rw [ha] at he
      rcases iha x ha with h1 | h1
      · rw [h1]; exact .inl he
      · rw [h1]; exact .inr rfl

section
variable (ws : Char → Bool) (undef : PyErr) (parse : Str → Except PyErr (UExpr K)) (pi : K)

/-- Definitions added one after the other without exception. -/
inductive LoadChain : UnitLib K → List (UDef K) → UnitLib K → Prop
  | nil (lib) : LoadChain lib [] lib
  | cons {lib d lib' ds t} : addDef ws undef parse pi lib d = (lib', none) → LoadChain lib' ds t → LoadChain lib (d :: ds) t

theorem LoadChain.append {l1 l2 l3 : UnitLib K} {a b : List (UDef K)} (h1 : LoadChain ws undef parse pi l1 a l2)
    (h2 : LoadChain ws undef parse pi l2 b l3) : LoadChain ws undef parse pi l1 (a ++ b) l3 := by
  induction h1 with
  | nil => exact h2
  | cons h _ ih => exact .cons h (ih h2)

theorem LoadChain.split {l1 l3 : UnitLib K} {a b : List (UDef K)} (h : LoadChain ws undef parse pi l1 (a ++ b) l3) :
    ∃ l2, LoadChain ws undef parse pi l1 a l2 ∧ LoadChain ws undef parse pi l2 b l3 := by
  induction a generalizing l1 with
  | nil => exact ⟨l1, .nil _, h⟩
  | cons d a ih =>
    cases h with
    | cons h1 h2 =>
      obtain ⟨l2, h3, h4⟩ := ih h2
      exact ⟨l2, .cons h1 h3, h4⟩

variable {ws undef parse pi}

theorem addDef_expr {lib lib' : UnitLib K} {n : Str} {e : UExpr K}
    (h : addDef ws undef parse pi lib (.expr n e) = (lib', none)) :
    ∃ u, e.eval undef (lib.lkPi pi) = .ok (.unit u) ∧ lib'.table = dictSet lib.table n u := by
  simp only [addDef, addExpr] at h
  cases he : e.eval undef (lib.lkPi pi) with
  | error err => rw [he] at h; cases h
  | ok v =>
    cases v with
    | num c => rw [he] at h; cases h
    | unit u =>
      rw [he] at h
      refine ⟨u, rfl, ?_⟩
      simp only [addUnit] at h
      cases ht : lib.table.lookup n with
      | none => rw [ht] at h; cases h; rfl
      | some w =>
        rw [ht] at h
        by_cases hc : w.factor ≠ u.factor ∨ w.powers ≠ u.powers
        · simp only [if_pos hc] at h; cases h
        · simp only [if_neg hc] at h; cases h; rfl

theorem chain_other {lib t : UnitLib K} {ds : List (UDef K)} (h : LoadChain ws undef parse pi lib ds t)
    (hx : ∀ d ∈ ds, d.IsExpr) (n : Str) (hn : n ∉ ds.map UDef.name) : t.table.lookup n = lib.table.lookup n := by
  induction h with
  | nil => rfl
  | @cons lib d lib' ds t h1 h2 ih =>
    simp only [List.map_cons, List.mem_cons, not_or] at hn
    rw [ih (fun d hd => hx d (List.mem_cons_of_mem _ hd)) hn.2]
    cases d with
    | offset => exact (hx _ List.mem_cons_self).elim
    | expr m e =>
      obtain ⟨u, _, hu⟩ := addDef_expr h1
      rw [hu, lookup_dictSet, if_neg (show n ≠ m from hn.1)]

/-- The units defined later do not change what is defined. -/
theorem chain_keeps {lib t : UnitLib K} {ds : List (UDef K)} (h : LoadChain ws undef parse pi lib ds t)
    (hx : ∀ d ∈ ds, d.IsExpr) (hnew : ∀ d ∈ ds, lib.table.lookup d.name = none) (n : Str) (u : PhysUnit K)
    (hu : lib.table.lookup n = some u) : t.table.lookup n = some u := by
  rw [chain_other h hx n, hu]
  intro hn
  obtain ⟨d, hd, rfl⟩ := List.mem_map.mp hn
  rw [hnew d hd] at hu; cases hu

theorem lkPi_sub {l l' : UnitLib K} (h : ∀ n u, l.table.lookup n = some u → l'.table.lookup n = some u)
    (hpi : l'.table.lookup "pi".toList = none) (n : Str) (y : UVal K) (hy : l.lkPi pi n = some y) :
    l'.lkPi pi n = some y := by
  simp only [UnitLib.lkPi] at hy ⊢
  cases hl : l.table.lookup n with
  | some u => rw [hl] at hy; rw [h n u hl]; exact hy
  | none =>
    rw [hl] at hy
    by_cases hn : n = "pi".toList
    · subst hn; rw [hpi]; exact hy
    · rw [if_neg hn] at hy; cases hy

theorem chain_at {lib t : UnitLib K} {a b : List (UDef K)} {n : Str} {e : UExpr K}
    (h : LoadChain ws undef parse pi lib (a ++ .expr n e :: b) t) (hx : ∀ d ∈ a ++ .expr n e :: b, d.IsExpr)
    (hnd : ((a ++ .expr n e :: b).map UDef.name).Nodup)
    (hnew : ∀ d ∈ a ++ .expr n e :: b, lib.table.lookup d.name = none) :
    ∃ l u, (∀ m w, l.table.lookup m = some w → t.table.lookup m = some w) ∧
      (∀ m, m ∉ a.map UDef.name → l.table.lookup m = lib.table.lookup m) ∧
      e.eval undef (UnitLib.lkPi pi l) = .ok (.unit u) ∧ t.table.lookup n = some u := by
  obtain ⟨l, h1, h2⟩ := LoadChain.split ws undef parse pi h
  have hxa : ∀ d ∈ a, d.IsExpr := fun d hd => hx d (List.mem_append_left _ hd)
  have hxb : ∀ d ∈ UDef.expr n e :: b, d.IsExpr := fun d hd => hx d (List.mem_append_right _ hd)
  have hother := chain_other h1 hxa
  rw [List.map_append, List.nodup_append] at hnd
  obtain ⟨-, hnb, hdis⟩ := hnd
  have hfresh : ∀ d ∈ UDef.expr n e :: b, l.table.lookup d.name = none := by
    intro d hd
    rw [hother d.name ?_]
    · exact hnew d (List.mem_append_right _ hd)
    · intro hc
      exact hdis _ hc _ (List.mem_map_of_mem hd) rfl
  have hkeep := chain_keeps h2 hxb hfresh
  cases h2 with
  | @cons _ _ l' _ _ h3 h4 =>
    obtain ⟨u, hu1, hu2⟩ := addDef_expr h3
    refine ⟨l, u, hkeep, hother, hu1, ?_⟩
    rw [chain_other h4 (fun d hd => hxb d (List.mem_cons_of_mem _ hd)) n ?_, hu2, lookup_dictSet, if_pos rfl]
    rw [List.map_cons, List.nodup_cons] at hnb
    exact hnb.1

/-- Every definition holds in the library that the chain ends with. -/
theorem chain_def {lib t : UnitLib K} {seq : List (UDef K)} (h : LoadChain ws undef parse pi lib seq t)
    (hx : ∀ d ∈ seq, d.IsExpr) (hnd : (seq.map UDef.name).Nodup)
    (hnew : ∀ d ∈ seq, lib.table.lookup d.name = none) (hpi : t.table.lookup "pi".toList = none) {n : Str} {e : UExpr K}
    (hd : UDef.expr n e ∈ seq) :
    ∃ u, e.eval undef (UnitLib.lkPi pi t) = .ok (.unit u) ∧ t.table.lookup n = some u := by
  obtain ⟨a, b, rfl⟩ := List.append_of_mem hd
  obtain ⟨l, u, h1, -, h3, h4⟩ := chain_at h hx hnd hnew
  exact ⟨u, eval_mono undef _ _ e _ (fun m _ y hy => lkPi_sub h1 hpi m y hy) h3, h4⟩

/-- What one pass over definitions does. -/
theorem defPass_chain {ds : List (UDef K)} {lib lib' : UnitLib K} {rest : List (UDef K)} (hx : ∀ d ∈ ds, d.IsExpr)
    (h : defPass ws undef parse pi lib ds = .ok (lib', rest)) :
    ∃ done, (done ++ rest).Perm ds ∧ LoadChain ws undef parse pi lib done lib' := by
  induction ds generalizing lib lib' rest with
  | nil => simp only [defPass] at h; cases h; exact ⟨[], .refl _, .nil _⟩
  | cons d ds ih =>
    have hx' : ∀ d ∈ ds, d.IsExpr := fun d hd => hx d (List.mem_cons_of_mem _ hd)
    simp only [defPass] at h
    split at h
    · rename_i l1 h1
      obtain ⟨done, hp, hc⟩ := ih hx' h
      exact ⟨d :: done, hp.cons d, .cons h1 hc⟩
    · rename_i l1 h1
      have hl : l1 = lib := by
        cases d with
        | offset => exact (hx _ List.mem_cons_self).elim
        | expr n e =>
          simp only [addDef] at h1
          cases ha : addExpr undef pi lib n e with
          | error err => rw [ha] at h1; cases h1; rfl
          | ok l => rw [ha] at h1; cases h1
      subst hl
      cases hr : defPass ws undef parse pi l1 ds with
      | error e => rw [hr] at h; cases h
      | ok r =>
        rw [hr] at h; cases h
        obtain ⟨done, hp, hc⟩ := ih hx' hr
        exact ⟨done, (List.perm_middle).trans (hp.cons d), hc⟩
    · cases h

theorem retryLoop_chain {order : Nat → List (UDef K) → List (UDef K)} (ho : ∀ k l, (order k l).Perm l) (fuel : Nat)
    {last : Option Nat} {count : Nat} {lib t : UnitLib K} {retry : List (UDef K)} (hx : ∀ d ∈ retry, d.IsExpr)
    (h : retryLoop ws undef parse pi order fuel last count lib retry = .ok t) :
    ∃ seq, seq.Perm retry ∧ LoadChain ws undef parse pi lib seq t := by
  induction fuel generalizing last count lib retry with
  | zero => simp only [retryLoop] at h; cases h
  | succ fuel ih =>
    simp only [retryLoop] at h
    split at h
    · cases hp : defPass ws undef parse pi lib (order fuel retry) with
      | error e => rw [hp] at h; cases h
      | ok r =>
        obtain ⟨lib', rest⟩ := r
        rw [hp] at h
        obtain ⟨done, hd1, hd2⟩ := defPass_chain (fun d hd => hx d ((ho fuel retry).mem_iff.mp hd)) hp
        have hd3 := hd1.trans (ho fuel retry)
        obtain ⟨seq, hs1, hs2⟩ := ih (fun d hd => hx d (hd3.mem_iff.mp (List.mem_append_right _ hd))) h
        exact ⟨done ++ seq, (hs1.append_left done).trans hd3, LoadChain.append ws undef parse pi hd2 hs2⟩
    · split at h
      · cases h
      · rename_i hr
        cases h
        simp only [ne_eq, Decidable.not_not] at hr
        rw [hr]
        exact ⟨[], .refl _, .nil _⟩

/-- A library that loads has its definitions added one after the other in some order. -/
theorem updateLibrary_chain {order : Nat → List (UDef K) → List (UDef K)} (ho : ∀ k l, (order k l).Perm l)
    {lib t : UnitLib K} {defs : List (UDef K)} (hx : ∀ d ∈ defs, d.IsExpr)
    (h : updateLibrary ws undef parse pi order lib defs = .ok t) :
    ∃ seq, seq.Perm defs ∧ LoadChain ws undef parse pi lib seq t := by
  simp only [updateLibrary] at h
  cases hp : defPass ws undef parse pi lib defs with
  | error e => rw [hp] at h; cases h
  | ok r =>
    obtain ⟨lib', rest⟩ := r
    rw [hp] at h
    obtain ⟨done, hd1, hd2⟩ := defPass_chain hx hp
    obtain ⟨seq, hs1, hs2⟩ := retryLoop_chain ho _ (fun d hd => hx d (hd1.mem_iff.mp (List.mem_append_right _ hd))) h
    exact ⟨done ++ seq, (hs1.append_left done).trans hd1, LoadChain.append ws undef parse pi hd2 hs2⟩

/-- The state of another load of definitions whose library is `t`: the definitions `P` are still missing. -/
def LoadInv (t lib : UnitLib K) (P : Str → Prop) : Prop :=
  (∀ n, P n → lib.table.lookup n = none) ∧ ∀ n, ¬ P n → lib.table.lookup n = t.table.lookup n

/-- A missing definition is added with the unit of `t`, or its names are not all there. -/
theorem addDef_load {t lib : UnitLib K} {P : Str → Prop} (hi : LoadInv t lib P) {n : Str} {e : UExpr K}
    {u : PhysUnit K} (he : e.eval undef (UnitLib.lkPi pi t) = .ok (.unit u)) (hu : t.table.lookup n = some u)
    (hpi : t.table.lookup "pi".toList = none) (hn : P n) :
    (∃ lib', addDef ws undef parse pi lib (.expr n e) = (lib', none) ∧ LoadInv t lib' fun m => P m ∧ m ≠ n) ∨
    addDef ws undef parse pi lib (.expr n e) = (lib, some undef) := by
  have hsub : ∀ m w, lib.table.lookup m = some w → t.table.lookup m = some w := by
    intro m w hm
    by_cases hP : P m
    · rw [hi.1 m hP] at hm; cases hm
    · rw [← hi.2 m hP]; exact hm
  rcases eval_sub undef (UnitLib.lkPi pi t) (UnitLib.lkPi pi lib) e _
      (fun m y hy => lkPi_sub hsub hpi m y hy) he with h | h
  · left
    refine ⟨{ lib with table := dictSet lib.table n u }, ?_, ?_, ?_⟩
    · simp only [addDef, addExpr, h, addUnit, hi.1 n hn]
    · intro m hm
      show (dictSet lib.table n u).lookup m = none
      rw [lookup_dictSet, if_neg hm.2]; exact hi.1 m hm.1
    · intro m hm
      show (dictSet lib.table n u).lookup m = _
      rw [lookup_dictSet]
      by_cases hmn : m = n
      · rw [if_pos hmn, hmn, hu]
      · rw [if_neg hmn]
        exact hi.2 m (fun hP => hm ⟨hP, hmn⟩)
  · right
    simp only [addDef, addExpr, h]

/-- One pass of another load. -/
theorem defPass_load {t : UnitLib K} (hpi : t.table.lookup "pi".toList = none) (ds : List (UDef K))
    (hx : ∀ d ∈ ds, d.IsExpr)
    (hdef : ∀ n e, UDef.expr n e ∈ ds → ∃ u, e.eval .NameError (UnitLib.lkPi pi t) = .ok (.unit u) ∧
      t.table.lookup n = some u) (hnd : (ds.map UDef.name).Nodup) (lib : UnitLib K) (P : Str → Prop)
    (hP : ∀ d ∈ ds, P d.name) (hi : LoadInv t lib P) :
    ∃ lib' rest, defPass ws .NameError parse pi lib ds = .ok (lib', rest) ∧ rest.Sublist ds ∧
      LoadInv t lib' (fun m => P m ∧ (m ∈ ds.map UDef.name → m ∈ rest.map UDef.name)) ∧
      (rest = ds → ∀ d ∈ ds, addDef ws .NameError parse pi lib d = (lib, some .NameError)) := by
  induction ds generalizing lib P with
  | nil => exact ⟨lib, [], rfl, .refl _, by simpa using hi, fun _ d hd => by cases hd⟩
  | cons d ds ih =>
    cases d with
    | offset => exact (hx _ List.mem_cons_self).elim
    | expr n e =>
      obtain ⟨u, hu1, hu2⟩ := hdef n e List.mem_cons_self
      rw [List.map_cons, List.nodup_cons] at hnd
      have hnn : n ∉ ds.map UDef.name := hnd.1
      have hx' : ∀ d ∈ ds, d.IsExpr := fun d hd => hx d (List.mem_cons_of_mem _ hd)
      have hdef' : ∀ n e, UDef.expr n e ∈ ds → ∃ u, e.eval .NameError (UnitLib.lkPi pi t) = .ok (.unit u) ∧
          t.table.lookup n = some u := fun n e hd => hdef n e (List.mem_cons_of_mem _ hd)
      rcases addDef_load (ws := ws) (parse := parse) hi hu1 hu2 hpi (hP _ List.mem_cons_self) with ⟨l1, h1, h2⟩ | h1
      · obtain ⟨lib', rest, g1, g2, g3, g4⟩ := ih hx' hdef' hnd.2 l1 _ (fun d hd => ⟨hP d (List.mem_cons_of_mem _ hd),
          fun hc => hnn (hc ▸ List.mem_map_of_mem hd)⟩) h2
        refine ⟨lib', rest, by simp only [defPass, h1]; exact g1, g2.cons _, ?_, ?_⟩
        · have e1 : ∀ m, (P m ∧ (m ∈ (UDef.expr n e :: ds).map UDef.name → m ∈ rest.map UDef.name)) ↔
              ((P m ∧ m ≠ n) ∧ (m ∈ ds.map UDef.name → m ∈ rest.map UDef.name)) := by
            intro m
            have hsub : m ∈ rest.map UDef.name → m ∈ ds.map UDef.name := fun h => (g2.map _).subset h
            have hm : m ∈ (UDef.expr n e :: ds).map UDef.name ↔ m = n ∨ m ∈ ds.map UDef.name := by
              simp [UDef.name]
            rw [hm]
            constructor
            · rintro ⟨a, b⟩
              refine ⟨⟨a, ?_⟩, fun h => b (.inr h)⟩
              rintro rfl
              exact hnn (hsub (b (.inl rfl)))
            · rintro ⟨⟨a, b⟩, c⟩
              refine ⟨a, ?_⟩
              rintro (h | h)
              · exact (b h).elim
              · exact c h
          exact ⟨fun m hm => g3.1 m ((e1 m).mp hm), fun m hm => g3.2 m (fun h => hm ((e1 m).mpr h))⟩
        · intro hr
          have := g2.length_le
          rw [hr] at this
          simp at this
      · obtain ⟨lib', rest, g1, g2, g3, g4⟩ := ih hx' hdef' hnd.2 lib P
          (fun d hd => hP d (List.mem_cons_of_mem _ hd)) hi
        refine ⟨lib', .expr n e :: rest, by simp only [defPass, h1, g1], g2.cons_cons _, ?_, ?_⟩
        · have e1 : ∀ m, (P m ∧ (m ∈ (UDef.expr n e :: ds).map UDef.name →
              m ∈ (UDef.expr n e :: rest).map UDef.name)) ↔
              (P m ∧ (m ∈ ds.map UDef.name → m ∈ rest.map UDef.name)) := by
            intro m
            have hm : ∀ l : List (UDef K), m ∈ (UDef.expr n e :: l).map UDef.name ↔ m = n ∨ m ∈ l.map UDef.name := by
              intro l; simp [UDef.name]
            rw [hm, hm]
            constructor
            · rintro ⟨a, b⟩
              refine ⟨a, fun h => ?_⟩
              rcases b (.inr h) with rfl | h'
              · exact (hnn h).elim
              · exact h'
            · rintro ⟨a, b⟩
              refine ⟨a, ?_⟩
              rintro (h | h)
              · exact .inl h
              · exact .inr (b h)
          exact ⟨fun m hm => g3.1 m ((e1 m).mp hm), fun m hm => g3.2 m (fun h => hm ((e1 m).mpr h))⟩
        · intro hr d hd
          rcases List.mem_cons.mp hd with rfl | hd
          · exact h1
          · exact g4 (by simpa using hr) d hd

/-- As long as definitions are missing, one of them can be added. -/
theorem load_progress {lib0 t lib : UnitLib K} {seq : List (UDef K)}
    (h : LoadChain ws .NameError parse pi lib0 seq t) (hx : ∀ d ∈ seq, d.IsExpr) (hnd : (seq.map UDef.name).Nodup)
    (hnew : ∀ d ∈ seq, lib0.table.lookup d.name = none) (hpi : t.table.lookup "pi".toList = none)
    {R : List (UDef K)} (hR : ∀ d ∈ R, d ∈ seq) (hne : R ≠ []) (hi : LoadInv t lib fun m => m ∈ R.map UDef.name) :
    ∃ d ∈ R, addDef ws .NameError parse pi lib d ≠ (lib, some .NameError) := by
  classical
  have hex : ∃ d ∈ seq, d ∈ R := by
    obtain ⟨d, hd⟩ := List.exists_mem_of_ne_nil R hne
    exact ⟨d, hR d hd, hd⟩
  obtain ⟨a, d, b, rfl, ha, hd⟩ : ∃ a d b, seq = a ++ d :: b ∧ (∀ x ∈ a, x ∉ R) ∧ d ∈ R := by
    clear h hx hnd hnew hR
    induction seq with
    | nil => obtain ⟨d, hd, _⟩ := hex; cases hd
    | cons x seq ih =>
      by_cases hxR : x ∈ R
      · exact ⟨[], x, seq, rfl, (fun y hy => by cases hy), hxR⟩
      · obtain ⟨a, d, b, rfl, ha, hd⟩ := ih (by
          obtain ⟨d, hd, hdR⟩ := hex
          rcases List.mem_cons.mp hd with rfl | hd
          · exact (hxR hdR).elim
          · exact ⟨d, hd, hdR⟩)
        refine ⟨x :: a, d, b, rfl, ?_, hd⟩
        intro y hy
        rcases List.mem_cons.mp hy with rfl | hy
        · exact hxR
        · exact ha y hy
  refine ⟨d, hd, ?_⟩
  cases d with
  | offset => exact (hx _ (hR _ hd)).elim
  | expr n e =>
    obtain ⟨l, u, h1, h2, h3, h4⟩ := chain_at h hx hnd hnew
    have hinj : ∀ x ∈ a, x.name ∉ R.map UDef.name := by
      intro x hxa hc
      obtain ⟨y, hy, hyx⟩ := List.mem_map.mp hc
      have : y = x := List.inj_on_of_nodup_map hnd (hR y hy) (List.mem_append_left _ hxa) hyx
      exact ha x hxa (this ▸ hy)
    have hsub : ∀ m w, l.table.lookup m = some w → lib.table.lookup m = some w := by
      intro m w hm
      rw [hi.2 m ?_]
      · exact h1 m w hm
      · intro hmR
        by_cases hma : m ∈ a.map UDef.name
        · obtain ⟨x, hxa, rfl⟩ := List.mem_map.mp hma
          exact hinj x hxa hmR
        · rw [h2 m hma] at hm
          obtain ⟨y, hy, rfl⟩ := List.mem_map.mp hmR
          rw [hnew y (hR y hy)] at hm
          cases hm
    have hpil : lib.table.lookup "pi".toList = none := by
      by_cases hc : "pi".toList ∈ R.map UDef.name
      · exact hi.1 _ hc
      · rw [hi.2 _ hc]; exact hpi
    have he := eval_mono PyErr.NameError _ _ e _ (fun m _ y hy => lkPi_sub hsub hpil m y hy) h3
    intro hc
    simp only [addDef, addExpr, he, addUnit] at hc
    rw [hi.1 n (List.mem_map_of_mem (f := UDef.name) hd)] at hc
    simp at hc

theorem retryLoop_load {lib0 t : UnitLib K} {seq : List (UDef K)}
    (h : LoadChain ws .NameError parse pi lib0 seq t) (hx : ∀ d ∈ seq, d.IsExpr) (hnd : (seq.map UDef.name).Nodup)
    (hnew : ∀ d ∈ seq, lib0.table.lookup d.name = none) (hpi : t.table.lookup "pi".toList = none)
    {order : Nat → List (UDef K) → List (UDef K)} (ho : ∀ k l, (order k l).Perm l) (fuel : Nat) (last : Option Nat)
    (count : Nat) (lib : UnitLib K) (R : List (UDef K)) (hR : ∀ d ∈ R, d ∈ seq) (hRn : (R.map UDef.name).Nodup)
    (hi : LoadInv t lib fun m => m ∈ R.map UDef.name) (hfuel : R.length < fuel)
    (hlast : (last = none ∧ count = 0) ∨ (count = R.length ∧ ∀ k, last = some k → k = 0 ∨ R.length < k)) :
    ∃ t', retryLoop ws .NameError parse pi order fuel last count lib R = .ok t' ∧
      ∀ n, t'.table.lookup n = t.table.lookup n := by
  induction fuel generalizing last count lib R with
  | zero => omega
  | succ fuel ih =>
    simp only [retryLoop]
    by_cases hne : R = []
    · subst hne
      simp only [ne_eq, not_true_eq_false, and_false, if_false]
      exact ⟨lib, rfl, fun n => hi.2 n (by simp)⟩
    · have hlen : 0 < R.length := List.length_pos_of_ne_nil hne
      have hl : last ≠ some count := by
        rcases hlast with ⟨h1, h2⟩ | ⟨h1, h2⟩
        · rw [h1]; simp
        · intro hc
          rcases h2 count hc with h3 | h3 <;> omega
      simp only [ne_eq, hl, hne, not_false_eq_true, and_self, if_true]
      have hperm := ho fuel R
      have hmem : ∀ d, d ∈ order fuel R ↔ d ∈ R := fun d => hperm.mem_iff
      have hmemn : ∀ m, m ∈ (order fuel R).map UDef.name ↔ m ∈ R.map UDef.name := fun m => (hperm.map _).mem_iff
      have hi' : LoadInv t lib fun m => m ∈ (order fuel R).map UDef.name :=
        ⟨fun n hn => hi.1 n ((hmemn n).mp hn), fun n hn => hi.2 n (fun hc => hn ((hmemn n).mpr hc))⟩
      obtain ⟨lib', rest, g1, g2, g3, g4⟩ := defPass_load (ws := ws) (parse := parse) (pi := pi) hpi (order fuel R)
        (fun d hd => hx d (hR d ((hmem d).mp hd)))
        (fun n e hd => chain_def h hx hnd hnew hpi (hR _ ((hmem _).mp hd)))
        ((hperm.map _).nodup_iff.mpr hRn) lib _ (fun d hd => List.mem_map_of_mem hd) hi'
      rw [g1]
      have hlt : rest.length < R.length := by
        rw [← hperm.length_eq]
        rcases Nat.lt_or_ge rest.length (order fuel R).length with hlt | hge
        · exact hlt
        · exfalso
          have heq : rest = order fuel R := g2.eq_of_length_le hge
          obtain ⟨d, hd, hnd'⟩ := load_progress h hx hnd hnew hpi hR hne hi
          exact hnd' (g4 heq d ((hmem d).mpr hd))
      have hrest : ∀ d ∈ rest, d ∈ R := fun d hd => (hmem d).mp (g2.subset hd)
      refine ih _ _ lib' rest (fun d hd => hR d (hrest d hd)) ((g2.map _).nodup ((hperm.map _).nodup_iff.mpr hRn)) ?_
        (by omega) (.inr ⟨rfl, ?_⟩)
      · have e1 : ∀ m, m ∈ rest.map UDef.name ↔ (m ∈ (order fuel R).map UDef.name ∧
            (m ∈ (order fuel R).map UDef.name → m ∈ rest.map UDef.name)) := by
          intro m
          constructor
          · intro hm; exact ⟨(g2.map _).subset hm, fun _ => hm⟩
          · rintro ⟨a, b⟩; exact b a
        exact ⟨fun m hm => g3.1 m ((e1 m).mp hm), fun m hm => g3.2 m (fun hc => hm ((e1 m).mpr hc))⟩
      · intro k hk
        cases hk
        rcases hlast with ⟨_, h2⟩ | ⟨h2, _⟩
        · exact .inl h2
        · right; omega

end
end OpenMDAO
