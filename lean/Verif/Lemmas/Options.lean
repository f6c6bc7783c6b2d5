import Verif.Model.Options
import Mathlib.Data.List.Lookmap
/-! Helper lemmas for C12 - C14, C61. -/
namespace OpenMDAO

/-- Specification: `v` is a legal value for an option declared with constraints `c` and a default of python
type `T`: one of the enumerated values if there is an enumeration, otherwise of type `T`, not below the lower
and not above the upper bound. -/
def Legal (c : Decl) (T : String) (v : OptVal) : Prop :=
  match c.values with
  | some vs => ∃ x ∈ vs, v.pyEq x = true
  | none => v.pyType = T ∧ (∀ l, c.lower = some l → v.pyLt l = .ok false) ∧
      ∀ u, c.upper = some u → u.pyLt v = .ok false

theorem checkOpt_ok {locked : Bool} {v cur : OptVal} {c : Decl} (h : checkOpt locked v cur c = .ok ()) :
    Legal c cur.pyType v ∧ ¬ (locked = true ∧ c.lockOnSetup = true) := by
  unfold checkOpt at h
  split at h
  · cases h
  · rename_i hl
    refine ⟨?_, by simpa using hl⟩
    unfold Legal
    cases hv : c.values with
    | some vs =>
      simp only [hv] at h
      split at h
      · rename_i hx; simpa using hx
      · cases h
    | none =>
      simp only [hv] at h
      split at h
      · cases h
      · rename_i ht
        refine ⟨by simpa using ht, ?_⟩
        cases hlo : c.lower with
        | none =>
          refine ⟨by simp, ?_⟩
          intro u hu
          simp only [hlo, hu, bind, Except.bind, pure, Except.pure] at h
          cases hr : u.pyLt v with
          | error e => simp [hr] at h
          | ok b => cases b <;> simp [hr, throw, throwThe, MonadExceptOf.throw] at h ⊢
        | some l =>
          simp only [hlo, bind, Except.bind, pure, Except.pure] at h
          cases hr : v.pyLt l with
          | error e => simp [hr] at h
          | ok b =>
            cases b
            · refine ⟨by rintro _ ⟨⟩; exact hr, ?_⟩
              intro u hu
              simp only [hr, hu] at h
              cases hr : u.pyLt v with
              | error e => simp [hr] at h
              | ok b => cases b <;> simp [hr, throw, throwThe, MonadExceptOf.throw] at h ⊢
            · simp [hr, throw, throwThe, MonadExceptOf.throw] at h

theorem checkOpt_legal {locked : Bool} {v cur : OptVal} {c : Decl} (hl : ¬ (locked = true ∧ c.lockOnSetup = true))
    (h : Legal c cur.pyType v) : checkOpt locked v cur c = .ok () := by
  unfold checkOpt
  rw [if_neg (by simpa using hl)]
  unfold Legal at h
  cases hv : c.values with
  | some vs => simp only [hv] at h; simpa using h
  | none =>
    simp only [hv] at h
    obtain ⟨h1, h2, h3⟩ := h
    simp only [h1, ne_eq, not_true_eq_false, if_false]
    cases hlo : c.lower with
    | none =>
      cases hup : c.upper with
      | none => rfl
      | some u => simp [h3 u hup, bind, Except.bind, pure, Except.pure]
    | some l =>
      cases hup : c.upper with
      | none => simp [h2 l hlo, bind, Except.bind, pure, Except.pure]
      | some u => simp [h2 l hlo, h3 u hup, bind, Except.bind, pure, Except.pure]

theorem lookup_map_ite {V : Type} (l : List (String × V)) (n m : String) (f : V → V) :
    (l.map fun p => if p.1 = n then (p.1, f p.2) else p).lookup m =
      if m = n then (l.lookup m).map f else l.lookup m := by
  induction l with
  | nil => simp
  | cons p l ih =>
    obtain ⟨k, v⟩ := p
    simp only [List.map_cons]
    by_cases hk : k = n
    · subst hk
      simp only [if_true, List.lookup_cons]
      by_cases hm : m = k
      · subst hm; simp
      · simp only [hm, if_false] at ih ⊢; have : (m == k) = false := by simpa using hm
        simp [this, ih]
    · simp only [hk, if_false, List.lookup_cons]
      by_cases hm : m = k
      · subst hm; simp [hk]
      · have : (m == k) = false := by simpa using hm
        simp [this, ih]

theorem OptDict.find_update (d : OptDict) (n m : String) (f : Opt → Opt) :
    (d.update n f).find m = if m = n then (d.find m).map f else d.find m := lookup_map_ite _ _ _ _

theorem lookup_filter_ne {V : Type} (l : List (String × V)) (n m : String) (h : m ≠ n) :
    (l.filter fun p => p.1 ≠ n).lookup m = l.lookup m := by
  induction l with
  | nil => rfl
  | cons p l ih =>
    obtain ⟨k, v⟩ := p
    by_cases hk : k = n
    · subst hk
      have : (m == k) = false := by simpa using h
      simp only [ne_eq, decide_not] at ih ⊢
      simp [List.lookup_cons, this, ih]
    · simp only [ne_eq, decide_not] at ih ⊢
      simp [List.lookup_cons, hk, ih]

theorem lookup_append_of_some {V : Type} {l l' : List (String × V)} {n : String} {v : V} (h : l.lookup n = some v) :
    (l ++ l').lookup n = some v := by
  simp [List.lookup_append, h]

/-- what an assignment through `setPlain` does -/
theorem setPlain_cases (locked : Bool) (name : String) (v : OptVal) (d : OptDict) :
    (∃ e, d.setPlain locked name v = (.error e, d)) ∨
    ∃ n o, (n = name ∨ (d.find name = none ∧ d.depr.lookup name = some n)) ∧ d.find n = some o ∧
      checkOpt locked v o.val o.decl = .ok () ∧
      d.setPlain locked name v = (.ok .none, d.update n fun o => { o with val := v, changed := true }) := by
  unfold OptDict.setPlain
  cases hn : d.find name with
  | some o =>
    simp only [hn]
    cases hc : checkOpt locked v o.val o.decl with
    | error e => exact .inl ⟨e, rfl⟩
    | ok u => exact .inr ⟨name, o, .inl rfl, hn, hc, rfl⟩
  | none =>
    cases hd : d.depr.lookup name with
    | none => exact .inl ⟨_, rfl⟩
    | some n =>
      simp only []
      cases hf : d.find n with
      | none => exact .inl ⟨_, rfl⟩
      | some o =>
        simp only []
        cases hc : checkOpt locked v o.val o.decl with
        | error e => exact .inl ⟨e, rfl⟩
        | ok u => exact .inr ⟨n, o, .inr ⟨trivial, rfl⟩, hf, hc, rfl⟩

theorem update_kind (d : OptDict) (n : String) (f : Opt → Opt) :
    (d.update n f).kind = d.kind ∧ (d.update n f).depr = d.depr ∧ (d.update n f).instLocked = d.instLocked :=
  ⟨rfl, rfl, rfl⟩

/-- the extra step of the derivative options changes at most the value under `key` -/
theorem defaultStep_cases (key : String) (v : OptVal) (d : OptDict) :
    (d.defaultStep key v).2 = d ∨
    ∃ q, (d.defaultStep key v).2 = d.update key fun o => { o with val := .float q } := by
  unfold OptDict.defaultStep
  cases d.find key with
  | none => exact .inl rfl
  | some o =>
    simp only []
    split
    · exact .inl rfl
    · split
      · exact .inr ⟨_, rfl⟩
      · split
        · exact .inr ⟨_, rfl⟩
        · exact .inl rfl

theorem setItem_cases (locked : Bool) (name : String) (v : OptVal) (d : OptDict) :
    ((d.setItem locked name v).2 = (d.setPlain locked name v).2) ∨
    (d.kind = .deriv ∧ ∃ key q, (key = "step_size" ∨ key = "check_step_size") ∧
      (d.setItem locked name v).2 = (d.setPlain locked name v).2.update key fun o => { o with val := .float q }) := by
  unfold OptDict.setItem
  split
  · rename_i h; left; simp [h]
  · rename_i r d' h
    simp only [h]
    cases hk : d.kind with
    | plain => left; rfl
    | deriv =>
      simp only []
      split
      · rcases defaultStep_cases "step_size" v d' with h | ⟨q, h⟩
        · left; exact h
        · right; exact ⟨trivial, _, q, .inl rfl, h⟩
      · split
        · rcases defaultStep_cases "check_step_size" v d' with h | ⟨q, h⟩
          · left; exact h
          · right; exact ⟨trivial, _, q, .inr rfl, h⟩
        · left; rfl

theorem setPlain_frame (locked : Bool) (name : String) (v : OptVal) (d : OptDict) :
    (d.setPlain locked name v).2.kind = d.kind ∧ (d.setPlain locked name v).2.depr = d.depr ∧
    (d.setPlain locked name v).2.instLocked = d.instLocked := by
  rcases setPlain_cases locked name v d with ⟨e, h⟩ | ⟨n, o, -, -, -, h⟩ <;> rw [h] <;> exact ⟨rfl, rfl, rfl⟩

theorem setItem_frame (locked : Bool) (name : String) (v : OptVal) (d : OptDict) :
    (d.setItem locked name v).2.kind = d.kind ∧ (d.setItem locked name v).2.depr = d.depr ∧
    (d.setItem locked name v).2.instLocked = d.instLocked := by
  have := setPlain_frame locked name v d
  rcases setItem_cases locked name v d with h | ⟨-, k, q, -, h⟩ <;> rw [h] <;> exact this

theorem step_kind (locked : Bool) (op : DOp) (d : OptDict) : (d.step locked op).2.kind = d.kind := by
  cases op with
  | addOption n v c =>
    simp only [OptDict.step, OptDict.addOption]
    split
    · rfl
    · split <;> rfl
  | setItem n v => exact (setItem_frame locked n v d).1
  | addDeprecation o n => simp only [OptDict.step, OptDict.addDeprecation]; split <;> rfl
  | _ => rfl

theorem step_instLocked (locked : Bool) (op : DOp) (d : OptDict) : (d.step locked op).2.instLocked = d.instLocked := by
  cases op with
  | addOption n v c =>
    simp only [OptDict.step, OptDict.addOption]
    split
    · rfl
    · split <;> rfl
  | setItem n v => exact (setItem_frame locked n v d).2.2
  | addDeprecation o n => simp only [OptDict.step, OptDict.addDeprecation]; split <;> rfl
  | _ => rfl

/-- effect of any operation except its removal on an existing option: untouched, or assigned a value that
passed the check, or (derivative options) a new default step -/
theorem step_find (locked : Bool) (op : DOp) (d : OptDict) (name : String) (o : Opt) (h : d.find name = some o)
    (hr : ∀ n, op = .remove n → n ≠ name) :
    ∃ o', (d.step locked op).2.find name = some o' ∧ o'.decl = o.decl ∧
      (o'.val = o.val ∨ checkOpt locked o'.val o.val o.decl = .ok () ∨
        (d.kind = .deriv ∧ (name = "step_size" ∨ name = "check_step_size"))) := by
  cases op with
  | addOption n v c =>
    simp only [OptDict.step, OptDict.addOption]
    split
    · exact ⟨o, h, rfl, .inl rfl⟩
    · split
      · exact ⟨o, h, rfl, .inl rfl⟩
      · exact ⟨o, lookup_append_of_some h, rfl, .inl rfl⟩
  | remove n =>
    exact ⟨o, (lookup_filter_ne _ _ _ (fun e => hr n rfl e.symm)).trans h, rfl, .inl rfl⟩
  | addDeprecation a n =>
    simp only [OptDict.step, OptDict.addDeprecation]
    split
    · exact ⟨o, h, rfl, .inl rfl⟩
    · exact ⟨o, h, rfl, .inl rfl⟩
  | setItem n v =>
    simp only [OptDict.step]
    have key : ∃ o', (d.setPlain locked n v).2.find name = some o' ∧ o'.decl = o.decl ∧
        (o'.val = o.val ∨ checkOpt locked o'.val o.val o.decl = .ok ()) := by
      rcases setPlain_cases locked n v d with ⟨e, he⟩ | ⟨m, o', -, hm, hc, he⟩
      · rw [he]; exact ⟨o, h, rfl, .inl rfl⟩
      · rw [he]
        simp only [OptDict.find_update]
        by_cases hnm : name = m
        · subst hnm
          rw [h] at hm; cases hm
          exact ⟨{ o with val := v, changed := true }, by simp [h], rfl, .inr hc⟩
        · exact ⟨o, by simp [hnm, h], rfl, .inl rfl⟩
    obtain ⟨o', k1, k2, k3⟩ := key
    rcases setItem_cases locked n v d with he | ⟨hk, key, q, hkey, he⟩
    · rw [he]; exact ⟨o', k1, k2, by tauto⟩
    · rw [he, OptDict.find_update]
      by_cases hnm : name = key
      · exact ⟨{ o' with val := .float q }, by simp [hnm ▸ k1, hnm], k2, .inr (.inr ⟨hk, hnm ▸ hkey⟩)⟩
      · exact ⟨o', by simp [hnm, k1], k2, by tauto⟩
  | getItem n => exact ⟨o, h, rfl, .inl rfl⟩
  | get n x => exact ⟨o, h, rfl, .inl rfl⟩
  | contains n => exact ⟨o, h, rfl, .inl rfl⟩

end OpenMDAO
