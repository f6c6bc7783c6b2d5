import Verif.Lemmas.Options
import Mathlib.Tactic.NormNum
/-!
# Properties C12 - C14, C61 (option dictionaries)
-/
namespace OpenMDAO

/-! ## C12 -/

/-- C12. Once an option has been declared with constraints `c` and default `v0`, then after any sequence of
operations (successful or failing, at any lock state) that does not remove it, it still exists and its value
is legal for that declaration. -/
theorem C12_value_stays_legal (d d1 : OptDict) (hd : d.kind = .plain) (locked : Bool) (name : String) (v0 : OptVal)
    (c : Decl) (r : OptVal) (h : d.step locked (.addOption name v0 c) = (.ok r, d1)) (ops : List (Bool × DOp))
    (hops : ∀ p ∈ ops, ∀ n, p.2 = .remove n → n ≠ name) :
    ∃ v, (d1.run ops).getItem name = .ok v ∧ Legal c v0.pyType v := by
  have start : d1.kind = .plain ∧ ∃ o, d1.find name = some o ∧ o.decl = c ∧ Legal c v0.pyType o.val := by
    have hk : d1.kind = .plain := by
      have := step_kind locked (.addOption name v0 c) d; rw [h] at this; exact this.trans hd
    simp only [OptDict.step, OptDict.addOption] at h
    split at h
    · simp at h
    · rename_i hn
      split at h
      · simp at h
      · rename_i hc
        simp only [Prod.mk.injEq] at h
        obtain ⟨-, rfl⟩ := h
        refine ⟨hk, ⟨v0, c, false⟩, ?_, rfl, (checkOpt_ok hc).1⟩
        have hn' : d.options.lookup name = none := hn
        simp [OptDict.find, List.lookup_append, hn']
  obtain ⟨hk, o, ho, hc, hl⟩ := start
  have inv : ∀ (ops : List (Bool × DOp)) (d1 : OptDict), (∀ p ∈ ops, ∀ n, p.2 = .remove n → n ≠ name) →
      d1.kind = .plain → (∃ o, d1.find name = some o ∧ o.decl = c ∧ Legal c v0.pyType o.val) →
      ∃ o, (d1.run ops).find name = some o ∧ o.decl = c ∧ Legal c v0.pyType o.val := by
    intro ops
    induction ops with
    | nil => intro d1 _ _ h; exact h
    | cons p ops ih =>
      intro d1 hops hk ⟨o, h1, h2, h3⟩
      simp only [OptDict.run, List.foldl_cons]
      refine ih _ (fun q hq => hops q (by simp [hq])) ((step_kind _ _ _).trans hk) ?_
      obtain ⟨o', g1, g2, g3⟩ := step_find p.1 p.2 d1 name o h1 (hops p (by simp))
      refine ⟨o', g1, g2.trans h2, ?_⟩
      rcases g3 with g3 | g3 | ⟨g3, -⟩
      · rw [g3]; exact h3
      · have := (checkOpt_ok g3).1
        rw [h2] at this
        unfold Legal at this h3 ⊢
        cases hv : c.values with
        | some vs => simpa only [hv] using this
        | none =>
          simp only [hv] at this h3 ⊢
          rw [h3.1] at this; exact this
      · rw [hk] at g3; cases g3
  obtain ⟨o', g1, -, g3⟩ := inv ops d1 hops hk ⟨o, ho, hc, hl⟩
  exact ⟨o'.val, by simp [OptDict.getItem, g1], g3⟩

/-- C12. An operation on a plain dictionary that raises leaves it unchanged. -/
theorem C12_error_leaves_unchanged (d : OptDict) (hd : d.kind = .plain) (locked : Bool) (op : DOp) (e : PyErr)
    (h : (d.step locked op).1 = .error e) : (d.step locked op).2 = d := by
  cases op with
  | addOption n v c =>
    simp only [OptDict.step, OptDict.addOption] at h ⊢
    split
    · rfl
    · rename_i hn
      simp only [hn] at h
      split
      · rfl
      · rename_i hc; simp [hc] at h
  | remove n => simp [OptDict.step, OptDict.removeOption] at h
  | addDeprecation o n =>
    simp only [OptDict.step, OptDict.addDeprecation] at h ⊢
    split
    · rfl
    · rename_i hn; simp [hn] at h
  | setItem n v =>
    simp only [OptDict.step, OptDict.setItem, hd] at h ⊢
    rcases setPlain_cases locked n v d with ⟨e, he⟩ | ⟨m, o', -, hm, hc, he⟩
    · simp [he]
    · simp [he] at h
  | getItem n => rfl
  | get n x => rfl
  | contains n => rfl

/-- C12. An accepted assignment is read back and changes no other option; an assignment to a declared, not
locked option is accepted exactly when the value is legal. -/
theorem C12_assignment (d : OptDict) (hd : d.kind = .plain) (locked : Bool) (name : String) (o : Opt)
    (ho : d.find name = some o) (hl : ¬ (locked = true ∧ o.decl.lockOnSetup = true)) (v : OptVal) :
    (Legal o.decl o.val.pyType v → (d.step locked (.setItem name v)).1 = .ok .none ∧
      (d.step locked (.setItem name v)).2.getItem name = .ok v ∧
      ∀ n, n ≠ name → (d.step locked (.setItem name v)).2.find n = d.find n) ∧
    (¬ Legal o.decl o.val.pyType v → ∃ e, (d.step locked (.setItem name v)).1 = .error e) := by
  constructor
  · intro h
    have hc := checkOpt_legal hl h
    have : d.step locked (.setItem name v) =
        (.ok .none, d.update name fun o => { o with val := v, changed := true }) := by
      simp [OptDict.step, OptDict.setItem, OptDict.setPlain, ho, hc, hd]
    rw [this]
    refine ⟨rfl, ?_, ?_⟩
    · simp [OptDict.getItem, OptDict.find_update, ho]
    · intro n hn; simp [OptDict.find_update, hn]
  · intro h
    cases hc : checkOpt locked v o.val o.decl with
    | error e => exact ⟨e, by simp [OptDict.step, OptDict.setItem, OptDict.setPlain, ho, hc]⟩
    | ok u => exact absurd (checkOpt_ok hc).1 h

/-- C12. Reading or assigning an option that was never declared (nor deprecated) raises `KeyError`; `get`
returns the given default. -/
theorem C12_undeclared_raises (d : OptDict) (locked : Bool) (name : String) (v : OptVal)
    (h : d.contains name = false) :
    d.getItem name = .error .KeyError ∧ d.get name v = .ok v ∧
    d.step locked (.setItem name v) = (.error .KeyError, d) := by
  simp only [OptDict.contains, Bool.or_eq_false_iff, Option.isSome_eq_false_iff, Option.isNone_iff_eq_none] at h
  simp [OptDict.getItem, OptDict.get, OptDict.step, OptDict.setItem, OptDict.setPlain, h.1, h.2]

/-- NaN is neither below nor above any bound: the code accepts it for a bounded float option. -/
theorem C12_nan_accepted (l u : ℚ) : Legal { lower := some (.float l), upper := some (.float u) } "float" .nan := by
  simp [Legal, OptVal.pyType, OptVal.pyLt, OptVal.num?]

/-- an option dictionary like a solver's -/
def demoOpts : OptDict := ((⟨.plain, [], [], none⟩ : OptDict).step false
  (.addOption "maxiter" (.int 10) { lower := some (.int 1) })).2

example : (demoOpts.run [(false, .setItem "maxiter" (.int 0)), (true, .setItem "maxiter" (.int 7)),
    (false, .setItem "maxiter" (.str "x"))]).getItem "maxiter" = .ok (.int 7) := by decide +kernel

/-! ## C13 -/

/-- C13 is false of the code: creating any options dictionary after setup (e.g. constructing another
component) resets the class-level lock (`options.py:35`). -/
theorem C13_lock_refuted_by_creation : ∃ (w : OptWorld) (ops : List WOp),
    w.classLocked = true ∧
    (∃ o, w.dicts[0]? = some ⟨.plain, [("zzz", o)], [], none⟩ ∧ o.decl.lockOnSetup = true ∧ o.val = .int 1) ∧
    (∀ op ∈ ops, ∀ i n, op ≠ .on i (.remove n)) ∧
    ∃ d, (w.run ops).dicts[0]? = some d ∧ d.getItem "zzz" = .ok (.int 2) := by
  refine ⟨⟨true, [⟨.plain, [("zzz", ⟨.int 1, { lockOnSetup := true }, false⟩)], [], none⟩]⟩,
    [.create .plain, .on 0 (.setItem "zzz" (.int 2))], rfl, ⟨_, rfl, rfl, rfl⟩, ?_, _, rfl, by decide +kernel⟩
  simp

/-- C13 is also false because a locked option may be removed and declared again without the lock. -/
theorem C13_lock_refuted_by_removal : ∃ (w : OptWorld) (ops : List WOp),
    w.classLocked = true ∧
    (∃ o, w.dicts[0]? = some ⟨.plain, [("zzz", o)], [], none⟩ ∧ o.decl.lockOnSetup = true ∧ o.val = .int 1) ∧
    (∀ op ∈ ops, ∀ k, op ≠ .create k) ∧
    ∃ d, (w.run ops).dicts[0]? = some d ∧ d.getItem "zzz" = .ok (.int 2) := by
  refine ⟨⟨true, [⟨.plain, [("zzz", ⟨.int 1, { lockOnSetup := true }, false⟩)], [], none⟩]⟩,
    [.on 0 (.remove "zzz"), .on 0 (.addOption "zzz" (.int 2) {})], rfl, ⟨_, rfl, rfl, rfl⟩, ?_, _, rfl,
    by decide +kernel⟩
  simp

/-- C13, what holds: after setup no program that creates no options dictionary, does not remove the option
and does not clear the lock on the instance changes the value of a lock-on-setup option. Missing: the
unrestricted claim, refuted above. -/
theorem C13_lock_partial (w : OptWorld) (ops : List WOp) (i : Nat) (d : OptDict) (name : String) (o : Opt)
    (hi : w.dicts[i]? = some d) (ho : d.find name = some o) (hlock : o.decl.lockOnSetup = true)
    (hstep : d.kind = .deriv → name ≠ "step_size" ∧ name ≠ "check_step_size")
    (hinst : d.instLocked ≠ some false)
    (hops : ∀ op ∈ ops, (∀ k, op ≠ .create k) ∧ op ≠ .setInstLocked i false ∧ op ≠ .on i (.remove name)) :
    ∃ d', ((w.step .setup).run ops).dicts[i]? = some d' ∧ d'.getItem name = .ok o.val := by
  have inv : ∀ (ops : List WOp) (w : OptWorld), w.classLocked = true →
      (∀ op ∈ ops, (∀ k, op ≠ .create k) ∧ op ≠ .setInstLocked i false ∧ op ≠ .on i (.remove name)) →
      (∃ d o', w.dicts[i]? = some d ∧ d.find name = some o' ∧ o'.decl = o.decl ∧ o'.val = o.val ∧
        (d.kind = .deriv → name ≠ "step_size" ∧ name ≠ "check_step_size") ∧ d.instLocked ≠ some false) →
      ∃ d o', (w.run ops).dicts[i]? = some d ∧ d.find name = some o' ∧ o'.val = o.val := by
    intro ops
    induction ops with
    | nil => intro w _ _ ⟨d, o', h1, h2, _, h3, _⟩; exact ⟨d, o', h1, h2, h3⟩
    | cons op ops ih =>
      intro w hcl hops ⟨d, o', h1, h2, h3, h4, h5, h6⟩
      simp only [OptWorld.run, List.foldl_cons]
      have hop := hops op (by simp)
      have hrest := fun q (hq : q ∈ ops) => hops q (by simp [hq])
      cases op with
      | create k => exact absurd rfl (hop.1 k)
      | setup => exact ih _ rfl hrest ⟨d, o', h1, h2, h3, h4, h5, h6⟩
      | setInstLocked j b =>
        refine ih _ hcl hrest ?_
        simp only [OptWorld.step, List.getElem?_modify, h1]
        by_cases hj : j = i
        · subst hj
          have : b = true := by
            cases b with
            | true => rfl
            | false => exact absurd rfl hop.2.1
          subst this
          exact ⟨{ d with instLocked := some true }, o', by simp, h2, h3, h4, h5, by simp⟩
        · exact ⟨d, o', by simp [hj], h2, h3, h4, h5, h6⟩
      | on j op =>
        refine ih _ hcl hrest ?_
        simp only [OptWorld.step, List.getElem?_modify, h1]
        by_cases hj : j = i
        · subst hj
          have hlk : w.locked d = true := by
            unfold OptWorld.locked
            cases hd : d.instLocked with
            | none => simpa using hcl
            | some b => cases b <;> simp_all
          obtain ⟨o'', g1, g2, g3⟩ := step_find (w.locked d) op d name o' h2 (by
            rintro n rfl rfl; exact hop.2.2 rfl)
          refine ⟨(d.step (w.locked d) op).2, o'', by simp, g1, g2.trans h3, ?_, ?_, ?_⟩
          · rcases g3 with g3 | g3 | ⟨g3, g4⟩
            · exact g3.trans h4
            · exact absurd ⟨hlk, by rw [h3]; exact hlock⟩ (checkOpt_ok g3).2
            · have := h5 g3; tauto
          · rw [step_kind]; exact h5
          · rw [step_instLocked]; exact h6
        · exact ⟨d, o', by simp [hj], h2, h3, h4, h5, h6⟩
  obtain ⟨d', o', h1, h2, h3⟩ := inv ops (w.step .setup) rfl hops ⟨d, o, hi, ho, rfl, rfl, hstep, hinst⟩
  exact ⟨d', h1, by simp [OptDict.getItem, h2, h3]⟩

example : ((⟨false, [derivOptions]⟩ : OptWorld).run [.setup, .on 0 (.setItem "type" (.str "cs")),
    .on 0 (.setItem "form" (.str "central"))]).dicts.map (fun d => (d.getItem "type", d.getItem "form")) =
    [(.ok (.str "user"), .ok (.str "central"))] := by decide +kernel

/-! ## C14 -/

/-- C14 is false of the code for `get`: reading through the deprecated name with `get` raises `KeyError`
(`options.py:157-160` looks the old name up again). -/
theorem C14_get_refuted : ∃ (d : OptDict) (old new : String), d.depr.lookup old = some new ∧
    d.get new .none = .ok (.str "user") ∧ d.get old .none = .error .KeyError := by
  exact ⟨derivOptions, "force_fd", "type", by decide, by decide, by decide⟩

/-- C14 is false of the code for assignments to a system's derivative options: assigning the type through its
deprecated name does not adapt the default step size (`system.py:43` compares the name as given). -/
theorem C14_set_refuted : ∃ (d : OptDict) (old new : String) (v : OptVal), d.depr.lookup old = some new ∧
    (d.setItem false old v).1 = .ok .none ∧ (d.setItem false new v).1 = .ok .none ∧
    (d.setItem false old v).2.getItem "step_size" = .ok (.float stepFD) ∧
    (d.setItem false new v).2.getItem "step_size" = .ok (.float stepCS) ∧ stepFD ≠ stepCS := by
  refine ⟨derivOptions, "force_fd", "type", .str "cs", by decide, by decide +kernel, by decide +kernel,
    by decide +kernel, by decide +kernel, by norm_num [stepFD, stepCS]⟩

/-- C14, what holds: for a deprecated name that is not itself an option and whose replacement exists, item
access, membership and (plain dictionaries) assignment behave exactly as with the new name. Missing: `get`,
and assignment to derivative options. -/
theorem C14_alias_partial (d : OptDict) (old new : String) (h : d.depr.lookup old = some new)
    (hold : d.find old = none) (hnew : d.find new ≠ none) :
    d.getItem old = d.getItem new ∧ d.contains old = d.contains new ∧
    (d.kind = .plain → ∀ locked v, d.setItem locked old v = d.setItem locked new v) := by
  obtain ⟨o, ho⟩ := Option.ne_none_iff_exists'.mp hnew
  refine ⟨by simp [OptDict.getItem, hold, h, ho], by simp [OptDict.contains, hold, h, ho], ?_⟩
  intro hk locked v
  simp [OptDict.setItem, OptDict.setPlain, hold, h, ho, hk]

example : ∃ d : OptDict, d.kind = .plain ∧ d.depr.lookup "tol" = some "atol" ∧ d.find "tol" = none ∧
    d.find "atol" ≠ none := by
  refine ⟨⟨.plain, [("atol", ⟨.int 1, {}, false⟩)], [("tol", "atol")], none⟩, rfl, by decide, rfl, ?_⟩
  simp [OptDict.find]

/-! ## C61 -/

/-- Specification state: the step size the user asked for, if any, and the default for the current type. -/
structure StepSpec where
  user : Option OptVal
  dflt : ℚ

/-- Specification: effect of assigning `value` to option `name` (when the options are `locked` or not). -/
def StepSpec.assign (key typeKey : String) (s : StepSpec) : Bool × String × OptVal → StepSpec
  | (locked, name, value) =>
    if name = key then
      match value with
      | .float q => if 0 ≤ q then { s with user := some value } else s
      | .nan => { s with user := some .nan }
      | _ => s
    else if name = typeKey ∧ locked = false then
      if value = .str "fd" then { s with dflt := stepFD }
      else if value = .str "cs" then { s with dflt := stepCS }
      else s
    else s

/-- The step size in force. -/
def StepSpec.value (s : StepSpec) : OptVal := s.user.getD (.float s.dflt)

theorem pyEq_str (v : OptVal) (s : String) : v.pyEq (.str s) = true ↔ v = .str s := by
  cases v <;> simp [OptVal.pyEq, OptVal.num?]

theorem legal_step (v : OptVal) : Legal { lower := some (.float 0) } "float" v ↔
    (v = .nan ∨ ∃ q, v = .float q ∧ 0 ≤ q) := by
  cases v <;> simp [Legal, OptVal.pyType, OptVal.pyLt, OptVal.num?]

/-- The assignments `deriv_options[name] = value`, at any lock state, failing or not. -/
def OptDict.assignAll (d : OptDict) (ops : List (Bool × String × OptVal)) : OptDict :=
  ops.foldl (fun d op => (d.setItem op.1 op.2.1 op.2.2).2) d

structure StepInv (key typeKey : String) (d : OptDict) (s : StepSpec) : Prop where
  kind : d.kind = .deriv
  depr : d.depr = derivOptions.depr
  type : ∃ ot vs, d.find typeKey = some ot ∧ ot.decl = { values := some vs, lockOnSetup := true } ∧
    (vs = [.str "user", .str "fd", .str "cs"] ∨ vs = [.str "fd", .str "cs"])
  step : ∃ os, d.find key = some os ∧ os.decl = { lower := some (.float 0) } ∧ os.val.pyType = "float" ∧
    os.val = s.value ∧ os.changed = s.user.isSome

theorem StepInv.assign {key typeKey : String}
    (hk : (key = "step_size" ∧ typeKey = "type") ∨ (key = "check_step_size" ∧ typeKey = "check_type"))
    {d : OptDict} {s : StepSpec} (h : StepInv key typeKey d s) (locked : Bool) (name : String) (v : OptVal)
    (hn : name ≠ "force_fd") :
    StepInv key typeKey (d.setItem locked name v).2 (s.assign key typeKey (locked, name, v)) := by
  obtain ⟨ot, vs, t1, t2, t3⟩ := h.type
  obtain ⟨os, s1, s2, s3, s4, s5⟩ := h.step
  have hne : key ≠ typeKey := by rcases hk with ⟨rfl, rfl⟩ | ⟨rfl, rfl⟩ <;> decide
  have frame := setItem_frame locked name v d
  refine ⟨frame.1.trans h.kind, frame.2.1.trans h.depr, ?_, ?_⟩
  · obtain ⟨o', g1, g2, -⟩ := step_find locked (.setItem name v) d typeKey ot t1 (by simp)
    exact ⟨o', vs, g1, g2.trans t2, t3⟩
  · by_cases hnk : name = key
    · -- the user assigns the step size
      subst hnk
      have hst : (d.setItem locked name v).2 = (d.setPlain locked name v).2 := by
        have hk' : name ≠ "type" ∧ name ≠ "check_type" := by
          rcases hk with ⟨rfl, rfl⟩ | ⟨rfl, rfl⟩ <;> decide
        unfold OptDict.setItem
        split
        · rename_i he; simp [he]
        · rename_i he; simp [he, h.kind, hk'.1, hk'.2]
      rw [hst]
      simp only [OptDict.setPlain, s1]
      by_cases hl : Legal { lower := some (.float 0) } "float" v
      · have hc : checkOpt locked v os.val os.decl = .ok () :=
          checkOpt_legal (by rw [s2]; simp) (by rw [s2, s3]; exact hl)
        simp only [hc, OptDict.find_update, if_true, s1, Option.map_some]
        refine ⟨_, rfl, s2, ?_, ?_, ?_⟩
        · rcases (legal_step v).mp hl with rfl | ⟨q, rfl, -⟩ <;> rfl
        · rcases (legal_step v).mp hl with rfl | ⟨q, rfl, hq⟩ <;> simp [StepSpec.assign, StepSpec.value, *]
        · rcases (legal_step v).mp hl with rfl | ⟨q, rfl, hq⟩ <;> simp [StepSpec.assign, *]
      · have : ∃ e, checkOpt locked v os.val os.decl = .error e := by
          cases hc : checkOpt locked v os.val os.decl with
          | error e => exact ⟨e, rfl⟩
          | ok u => exact absurd (by have := (checkOpt_ok hc).1; rwa [s2, s3] at this) hl
        obtain ⟨e, he⟩ := this
        have hs : s.assign name typeKey (locked, name, v) = s := by
          rw [legal_step] at hl
          push Not at hl
          cases v <;> simp [StepSpec.assign]
          · rename_i q; intro hq; exact absurd hq (not_le.mpr (hl.2 q rfl))
          · exact absurd rfl hl.1
        simp only [he, hs]
        exact ⟨os, s1, s2, s3, s4, s5⟩
    · by_cases hnt : name = typeKey
      · -- the user assigns the type
        subst hnt
        have hst : (d.setItem locked name v).2 = match d.setPlain locked name v with
            | (.error _, d') => d'
            | (.ok _, d') => (d'.defaultStep key v).2 := by
          unfold OptDict.setItem
          split
          · rename_i he; simp [he]
          · rename_i he; rcases hk with ⟨rfl, rfl⟩ | ⟨rfl, rfl⟩ <;> simp [he, h.kind]
        rw [hst]
        simp only [OptDict.setPlain, t1]
        by_cases hl : locked = false ∧ ∃ x ∈ vs, v.pyEq x = true
        · have hc : checkOpt locked v ot.val ot.decl = .ok () :=
            checkOpt_legal (by simp [hl.1]) (by rw [t2]; exact hl.2)
          simp only [hc]
          have hf : (d.update name fun o => { o with val := v, changed := true }).find key = some os := by
            simp [OptDict.find_update, hne, s1]
          simp only [OptDict.defaultStep, hf]
          have hv : v = .str "user" ∨ v = .str "fd" ∨ v = .str "cs" := by
            obtain ⟨x, hx, hxe⟩ := hl.2
            rcases t3 with rfl | rfl <;> simp at hx <;> rcases hx with rfl | rfl | rfl <;>
              simp [(pyEq_str _ _).mp hxe]
          by_cases hu : s.user.isSome = true
          · simp only [s5, hu, if_true]
            refine ⟨os, hf, s2, s3, ?_, ?_⟩
            · obtain ⟨x, hx⟩ := Option.isSome_iff_exists.mp hu
              rw [s4]
              rcases hv with rfl | rfl | rfl <;> simp [StepSpec.assign, hnk, hl.1, StepSpec.value, hx]
            · rw [s5]
              rcases hv with rfl | rfl | rfl <;> simp [StepSpec.assign, hnk, hl.1]
          · have hun : s.user = none := by simpa using hu
            simp only [s5, hun, Option.isSome_none, Bool.false_eq_true, if_false]
            rcases hv with rfl | rfl | rfl
            · simp only [show (OptVal.str "user").pyEq (.str "fd") = false by decide,
                show (OptVal.str "user").pyEq (.str "cs") = false by decide, Bool.false_eq_true, if_false]
              exact ⟨os, hf, s2, s3, by simpa [StepSpec.assign, hnk, hl.1] using s4,
                by simp [StepSpec.assign, hnk, hl.1, s5]⟩
            · simp only [show (OptVal.str "fd").pyEq (.str "fd") = true by decide, if_true]
              refine ⟨{ os with val := .float stepFD }, by rw [OptDict.find_update, if_pos rfl, hf]; rfl, s2, rfl, ?_, ?_⟩
              · simp [StepSpec.assign, hnk, hl.1, StepSpec.value, hun]
              · simp [StepSpec.assign, hnk, hl.1, s5]
            · simp only [show (OptVal.str "cs").pyEq (.str "fd") = false by decide,
                show (OptVal.str "cs").pyEq (.str "cs") = true by decide, Bool.false_eq_true, if_true, if_false]
              refine ⟨{ os with val := .float stepCS }, by rw [OptDict.find_update, if_pos rfl, hf]; rfl, s2, rfl, ?_, ?_⟩
              · simp [StepSpec.assign, hnk, hl.1, StepSpec.value, hun]
              · simp [StepSpec.assign, hnk, hl.1, s5]
        · have : ∃ e, checkOpt locked v ot.val ot.decl = .error e := by
            cases hc : checkOpt locked v ot.val ot.decl with
            | error e => exact ⟨e, rfl⟩
            | ok u =>
              have := checkOpt_ok hc
              rw [t2] at this
              exact absurd ⟨by simpa using this.2, this.1⟩ hl
          obtain ⟨e, he⟩ := this
          have hs : s.assign key name (locked, name, v) = s := by
            simp only [StepSpec.assign, hnk, if_false, true_and]
            split
            · rename_i hlk
              split
              · subst v; exact absurd ⟨hlk, .str "fd", by rcases t3 with rfl | rfl <;> simp, by decide⟩ hl
              · split
                · subst v; exact absurd ⟨hlk, .str "cs", by rcases t3 with rfl | rfl <;> simp, by decide⟩ hl
                · rfl
            · rfl
          simp only [he, hs]
          exact ⟨os, s1, s2, s3, s4, s5⟩
      · -- any other option
        have hs : s.assign key typeKey (locked, name, v) = s := by
          simp [StepSpec.assign, hnk, hnt]
        rw [hs]
        have hp : (d.setPlain locked name v).2.find key = some os := by
          rcases setPlain_cases locked name v d with ⟨e, he⟩ | ⟨n, o, hn', ho, -, he⟩
          · rw [he]; exact s1
          · rw [he]
            have : key ≠ n := by
              rcases hn' with rfl | ⟨-, hd⟩
              · exact fun e => hnk e.symm
              · rw [h.depr] at hd
                simp only [derivOptions, List.lookup_cons, List.lookup_nil] at hd
                have h1 : (name == "force_fd") = false := by simpa using hn
                simp only [h1] at hd
                split at hd
                · cases hd; rcases hk with ⟨rfl, -⟩ | ⟨rfl, -⟩ <;> decide
                · cases hd
            simp [OptDict.find_update, this, s1]
        have : (d.setItem locked name v).2.find key = some os := by
          unfold OptDict.setItem
          split
          · rename_i he; rw [he] at hp; exact hp
          · rename_i d' he
            rw [he] at hp
            simp only [h.kind]
            have other : ∀ key', key' ≠ key → (d'.defaultStep key' v).2.find key = some os := by
              intro key' hk'
              rcases defaultStep_cases key' v d' with e | ⟨q, e⟩ <;> rw [e]
              · exact hp
              · simp [OptDict.find_update, hk'.symm, hp]
            rcases hk with ⟨rfl, rfl⟩ | ⟨rfl, rfl⟩
            · simp only [hnt, if_false]
              split
              · exact other _ (by decide)
              · exact hp
            · simp only [hnt, if_false]
              split
              · exact other _ (by decide)
              · exact hp
        exact ⟨os, this, s2, s3, s4, s5⟩

/-- C61. After any sequence of assignments to a system's derivative options through their current names
(any values, accepted or not, before or after setup) the (check) step size is the last legal one the user
assigned; as long as there is none it is the default belonging to the last type that was set to fd or cs. -/
theorem C61_step_size_follows_type (ops : List (Bool × String × OptVal))
    (hops : ∀ op ∈ ops, op.2.1 ≠ "force_fd") :
    (derivOptions.assignAll ops).getItem "step_size" =
      .ok (ops.foldl (StepSpec.assign "step_size" "type") ⟨none, stepFD⟩).value ∧
    (derivOptions.assignAll ops).getItem "check_step_size" =
      .ok (ops.foldl (StepSpec.assign "check_step_size" "check_type") ⟨none, stepFD⟩).value := by
  have main : ∀ key typeKey, ((key = "step_size" ∧ typeKey = "type") ∨
      (key = "check_step_size" ∧ typeKey = "check_type")) → ∀ (ops : List (Bool × String × OptVal)) d s,
      (∀ op ∈ ops, op.2.1 ≠ "force_fd") → StepInv key typeKey d s →
      (d.assignAll ops).getItem key = .ok (ops.foldl (StepSpec.assign key typeKey) s).value := by
    intro key typeKey hk ops
    induction ops with
    | nil =>
      intro d s _ h
      obtain ⟨os, s1, -, -, s4, -⟩ := h.step
      simp [OptDict.assignAll, OptDict.getItem, s1, s4]
    | cons op ops ih =>
      intro d s hops h
      exact ih _ _ (fun q hq => hops q (by simp [hq])) (h.assign hk _ _ _ (hops op (by simp)))
  exact ⟨main _ _ (.inl ⟨rfl, rfl⟩) ops _ _ hops
      ⟨rfl, rfl, ⟨_, _, rfl, rfl, .inl rfl⟩, ⟨_, rfl, rfl, rfl, rfl, rfl⟩⟩,
    main _ _ (.inr ⟨rfl, rfl⟩) ops _ _ hops
      ⟨rfl, rfl, ⟨_, _, rfl, rfl, .inr rfl⟩, ⟨_, rfl, rfl, rfl, rfl, rfl⟩⟩⟩

/-- switching to complex step shrinks the default; a user step then stays -/
example : ([(false, "type", OptVal.str "cs"), (false, "step_size", .float 3), (false, "type", .str "fd"),
    (false, "step_size", .float (-1))].foldl (StepSpec.assign "step_size" "type") ⟨none, stepFD⟩).value = .float 3 ∧
    ([(false, "type", OptVal.str "cs"), (true, "type", .str "fd")].foldl
      (StepSpec.assign "step_size" "type") ⟨none, stepFD⟩).value = .float stepCS := by
  simp [StepSpec.assign, StepSpec.value, show ¬ ((1 : ℚ) ≤ 0) by norm_num]

end OpenMDAO
