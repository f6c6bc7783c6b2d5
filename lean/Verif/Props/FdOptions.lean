import Verif.Spec.FdOptions
import Verif.Props.Options
/-!
# C155: `fd_options`
-/
namespace OpenMDAO

theorem checkOpt_enum (locked lock : Bool) (v cur : OptVal) (vs : List OptVal) (hs : ∀ x ∈ vs, ∃ s, x = .str s) :
    checkOpt locked v cur { values := some vs, lockOnSetup := lock } = .ok () ↔ ¬ (locked = true ∧ lock = true) ∧ v ∈ vs := by
  have hany : (vs.any fun x => v.pyEq x) = true ↔ v ∈ vs := by
    rw [List.any_eq_true]
    constructor
    · rintro ⟨x, hx, h⟩
      obtain ⟨s, rfl⟩ := hs x hx
      rw [(pyEq_str v s).mp h]
      exact hx
    · intro h
      obtain ⟨s, rfl⟩ := hs v h
      exact ⟨_, h, (pyEq_str _ s).mpr rfl⟩
  rw [checkOpt]
  by_cases hl : locked = true ∧ lock = true
  · simp [hl.1, hl.2]
  · have : (locked && lock) = false := by
      rw [Bool.and_eq_false_iff]
      cases locked <;> cases lock <;> simp_all
    simp only [this, Bool.false_eq_true, if_false]
    by_cases ha : (vs.any fun x => v.pyEq x) = true
    · rw [if_pos ha]; exact ⟨fun _ => ⟨hl, hany.mp ha⟩, fun _ => rfl⟩
    · rw [if_neg ha]; exact ⟨fun h => (by cases h), fun h => absurd (hany.mpr h.2) ha⟩

/-- An option with a list of legal values. -/
structure EnumInv (key : String) (vs : List OptVal) (lock : Bool) (d : OptDict) (v : OptVal) : Prop where
  depr : d.depr = derivOptions.depr
  opt : ∃ o, d.find key = some o ∧ o.decl = { values := some vs, lockOnSetup := lock } ∧ o.val = v

theorem EnumInv.set {key : String} {vs : List OptVal} {lock : Bool} {d : OptDict} {v : OptVal} (h : EnumInv key vs lock d v) (hk : key ≠ "step_size" ∧ key ≠ "check_step_size") (hs : ∀ x ∈ vs, ∃ s, x = .str s)
    (locked : Bool) (name : String) (value : OptVal) (hn : name ≠ "force_fd" ∧ name ≠ "step_type") :
    EnumInv key vs lock (d.setItem locked name value).2 (if name = key ∧ value ∈ vs ∧ ¬ (locked = true ∧ lock = true) then value else v) := by
  have hframe := setItem_frame locked name value d
  obtain ⟨o, h1, h2, h3⟩ := h.opt
  have hplain : ∃ o, (d.setPlain locked name value).2.find key = some o ∧ o.decl = { values := some vs, lockOnSetup := lock } ∧
      o.val = if name = key ∧ value ∈ vs ∧ ¬ (locked = true ∧ lock = true) then value else v := by
    rcases setPlain_cases locked name value d with ⟨e, he⟩ | ⟨n, o', hno, hf, hc, he⟩
    · rw [he]
      refine ⟨o, h1, h2, ?_⟩
      rw [if_neg, h3]
      rintro ⟨rfl, hv, hl⟩
      have hc := (checkOpt_enum locked lock value o.val vs hs).mpr ⟨hl, hv⟩
      rw [OptDict.setPlain] at he
      simp only [h1, h2, hc] at he
      cases (Prod.mk.inj he).1
    · rw [he]
      have hnn : n = name := by
        rcases hno with hno | ⟨_, hno⟩
        · exact hno
        · rw [h.depr] at hno
          simp only [derivOptions, List.lookup_cons, List.lookup_nil] at hno
          rw [show (name == "force_fd") = false from beq_false_of_ne hn.1, show (name == "step_type") = false from beq_false_of_ne hn.2] at hno
          cases hno
      subst hnn
      simp only [OptDict.find_update]
      by_cases hnk : key = n
      · subst hnk
        rw [if_pos rfl, h1]
        rw [h1] at hf
        cases hf
        rw [h2] at hc
        have := (checkOpt_enum locked lock value _ vs hs).mp hc
        exact ⟨_, rfl, h2, by rw [if_pos ⟨rfl, this.2, this.1⟩]⟩
      · rw [if_neg hnk]
        exact ⟨o, h1, h2, by rw [if_neg (fun hh => hnk hh.1.symm), h3]⟩
  refine ⟨hframe.2.1.trans h.depr, ?_⟩
  rcases setItem_cases locked name value d with hh | ⟨_, k, q, hkq, hh⟩
  · rw [hh]; exact hplain
  · rw [hh]
    have hne : key ≠ k := by rcases hkq with rfl | rfl; exacts [hk.1, hk.2]
    rw [OptDict.find_update, if_neg hne]
    exact hplain

theorem fdTarget_names (name : String) (value : OptVal) : (fdTarget name value).1 ≠ "force_fd" ∧ (fdTarget name value).1 ≠ "step_type" := by
  unfold fdTarget
  by_cases h1 : name = "force_fd"
  · simp [h1]
  · by_cases h2 : name = "step_type"
    · simp [h2]
    · by_cases h3 : name = "form" ∧ value.pyEq (.str "complex_step") = true
      · simp [h3]
      · by_cases h4 : name = "extra_check_partials_form"
        · simp [h4]
        · simp only [h1, h2, h3, h4, if_false]
          exact ⟨h1, h2⟩

/-- An option after all assignments: the fold of what each assignment does to it. -/
theorem enum_all {key : String} {vs : List OptVal} {lock : Bool} (hk : key ≠ "step_size" ∧ key ≠ "check_step_size") (hs : ∀ x ∈ vs, ∃ s, x = .str s) (f : OptVal → Bool × String × OptVal → OptVal)
    (hf : ∀ v op, (if (fdTarget op.2.1 op.2.2).1 = key ∧ (fdTarget op.2.1 op.2.2).2 ∈ vs ∧ ¬ (op.1 = true ∧ lock = true) then (fdTarget op.2.1 op.2.2).2 else v) = f v op) (ops : List (Bool × String × OptVal)) :
    ∀ (d : OptDict) (v : OptVal), EnumInv key vs lock d v → EnumInv key vs lock (fdAll d ops) (ops.foldl f v) := by
  induction ops with
  | nil => intro d v h; exact h
  | cons op ops ih =>
    intro d v h
    rw [List.foldl_cons]
    refine ih _ _ ?_
    rw [← hf v op]
    exact h.set hk hs op.1 _ _ (fdTarget_names _ _)

theorem EnumInv.get {key : String} {vs : List OptVal} {lock : Bool} {d : OptDict} {v : OptVal} (h : EnumInv key vs lock d v) : d.getItem key = .ok v := by
  obtain ⟨o, h1, _, h3⟩ := h.opt
  rw [OptDict.getItem, h1]
  exact congrArg Except.ok h3

theorem find_none_set (locked : Bool) (name : String) (v : OptVal) (d : OptDict) (n : String) (h : d.find n = none) : (d.setItem locked name v).2.find n = none := by
  have hp : (d.setPlain locked name v).2.find n = none := by
    rcases setPlain_cases locked name v d with ⟨e, he⟩ | ⟨m, o', _, _, _, he⟩
    · rw [he]; exact h
    · rw [he, OptDict.find_update, h]; split <;> rfl
  rcases setItem_cases locked name v d with hh | ⟨_, k, q, _, hh⟩
  · rw [hh]; exact hp
  · rw [hh, OptDict.find_update, hp]; split <;> rfl

theorem find_none_all (n : String) (ops : List (Bool × String × OptVal)) : ∀ d : OptDict, d.find n = none → (fdAll d ops).find n = none := by
  induction ops with
  | nil => intro d h; exact h
  | cons op ops ih => intro d h; exact ih _ (find_none_set _ _ _ _ _ h)

theorem depr_all (ops : List (Bool × String × OptVal)) : ∀ d : OptDict, (fdAll d ops).depr = d.depr := by
  induction ops with
  | nil => intro d; rfl
  | cons op ops ih => intro d; exact (ih _).trans (setItem_frame _ _ _ _).2.1

theorem pyEq_true (v : OptVal) : v.pyEq (.bool true) = true ↔ v = .bool true ∨ v = .int 1 ∨ v = .float 1 := by
  cases v with
  | none => simp [OptVal.pyEq, OptVal.num?]
  | bool b => cases b <;> simp [OptVal.pyEq, OptVal.num?]
  | int i => simp [OptVal.pyEq, OptVal.num?]
  | float q => simp [OptVal.pyEq, OptVal.num?]
  | nan => simp [OptVal.pyEq, OptVal.num?]
  | str s => simp [OptVal.pyEq, OptVal.num?]
  | obj t i => simp [OptVal.pyEq, OptVal.num?]

theorem type_inv (ops : List (Bool × String × OptVal)) : EnumInv "type" [.str "user", .str "fd", .str "cs"] true (fdAll derivOptions ops) (lastType ops) := by
  refine enum_all (by decide) (by simp) _ (fun v op => ?_) ops derivOptions _ ⟨rfl, _, rfl, rfl, rfl⟩
  obtain ⟨locked, name, value⟩ := op
  cases locked with
  | true => simp
  | false =>
    simp only [Bool.false_eq_true, not_false_eq_true, and_true, if_false, typeAfter]
    unfold fdTarget
    by_cases h1 : name = "force_fd"
    · simp only [h1, if_true, pyEq_true]
      split <;> simp
    · by_cases h2 : name = "step_type"
      · simp [h2]
      · by_cases h3 : name = "form" ∧ value = .str "complex_step"
        · obtain ⟨rfl, rfl⟩ := h3
          simp [OptVal.pyEq, OptVal.num?]
        · have h3' : ¬ (name = "form" ∧ value.pyEq (.str "complex_step") = true) := by rwa [pyEq_str]
          by_cases h4 : name = "extra_check_partials_form"
          · simp [h4]
          · simp only [h1, h2, h3, h3', h4, if_false]

/-- C155, in part. After any assignments through `fd_options`: the type of derivatives is the one that was asked for last, by `force_fd`, by the form `complex_step` or as `type`; `force_fd` reads as whether derivatives are approximated; `step_type` and the forms are those that were
assigned last. Assignments of other values do nothing; those to the type do nothing after setup. (Missing: `extra_check_partials_form` and the form `complex_step` cannot be read back, and the type depends on the order of assignments.) -/
theorem C155_settings_partial (ops : List (Bool × String × OptVal)) :
    (fdAll derivOptions ops).getItem "type" = .ok (lastType ops) ∧
    fdGet "force_fd" (fdAll derivOptions ops) = .ok (.bool (decide (lastType ops ≠ .str "user"))) ∧
    fdGet "form" (fdAll derivOptions ops) = .ok (lastLegal ["form"] fdForms (.str "forward") ops) ∧
    fdGet "step_type" (fdAll derivOptions ops) = .ok (lastLegal ["step_type", "step_calc"] [.str "absolute", .str "relative"] (.str "absolute") ops) ∧
    (fdAll derivOptions ops).getItem "check_form" = .ok (lastLegal ["extra_check_partials_form", "check_form"] fdForms (.str "forward") ops) := by
  have ht := type_inv ops
  have hmem : lastType ops = .str "user" ∨ lastType ops = .str "fd" ∨ lastType ops = .str "cs" := by
    rw [lastType]
    have : ∀ (ops : List (Bool × String × OptVal)) (t : OptVal), (t = .str "user" ∨ t = .str "fd" ∨ t = .str "cs") → 
        (let r := ops.foldl (fun t op => if op.1 = true then t else typeAfter t op.2.1 op.2.2) t; r = .str "user" ∨ r = .str "fd" ∨ r = .str "cs") := by
      intro ops
      induction ops with
      | nil => intro t h; exact h
      | cons op ops ih =>
        intro t h
        refine ih _ ?_
        dsimp only
        split
        · exact h
        · rw [typeAfter]
          split_ifs with a b c d
          · exact .inr (.inl rfl)
          · exact .inl rfl
          · exact .inr (.inr rfl)
          · simpa using d.2
          · exact h
    exact this ops _ (.inl rfl)
  have hform : EnumInv "form" fdForms false (fdAll derivOptions ops) (lastLegal ["form"] fdForms (.str "forward") ops) := by
    refine enum_all (by decide) (by simp [fdForms]) _ (fun v op => ?_) ops derivOptions _ ⟨rfl, _, rfl, rfl, rfl⟩
    obtain ⟨locked, name, value⟩ := op
    simp only [Bool.false_eq_true, and_false, not_false_eq_true, and_true]
    unfold fdTarget
    by_cases h1 : name = "force_fd"
    · simp [h1]
    · by_cases h2 : name = "step_type"
      · simp [h2]
      · by_cases h3 : name = "form" ∧ value = .str "complex_step"
        · obtain ⟨rfl, rfl⟩ := h3
          simp [OptVal.pyEq, OptVal.num?, fdForms]
        · have h3' : ¬ (name = "form" ∧ value.pyEq (.str "complex_step") = true) := by rwa [pyEq_str]
          by_cases h4 : name = "extra_check_partials_form"
          · simp [h4]
          · simp only [h1, h2, h3', h4, if_false, List.mem_singleton]
  have hstep : EnumInv "step_calc" [.str "absolute", .str "relative"] false (fdAll derivOptions ops) (lastLegal ["step_type", "step_calc"] [.str "absolute", .str "relative"] (.str "absolute") ops) := by
    refine enum_all (by decide) (by simp) _ (fun v op => ?_) ops derivOptions _ ⟨rfl, _, rfl, rfl, rfl⟩
    obtain ⟨locked, name, value⟩ := op
    simp only [Bool.false_eq_true, and_false, not_false_eq_true, and_true]
    unfold fdTarget
    by_cases h1 : name = "force_fd"
    · simp [h1]
    · by_cases h2 : name = "step_type"
      · simp [h2]
      · by_cases h3 : name = "form" ∧ value.pyEq (.str "complex_step") = true
        · simp [h3]
        · by_cases h4 : name = "extra_check_partials_form"
          · simp [h4]
          · simp only [h1, h2, h3, h4, if_false, List.mem_cons, List.not_mem_nil, or_false, false_or]
  have hcheck : EnumInv "check_form" fdForms false (fdAll derivOptions ops) (lastLegal ["extra_check_partials_form", "check_form"] fdForms (.str "forward") ops) := by
    refine enum_all (by decide) (by simp [fdForms]) _ (fun v op => ?_) ops derivOptions _ ⟨rfl, _, rfl, rfl, rfl⟩
    obtain ⟨locked, name, value⟩ := op
    simp only [Bool.false_eq_true, and_false, not_false_eq_true, and_true]
    unfold fdTarget
    by_cases h1 : name = "force_fd"
    · simp [h1]
    · by_cases h2 : name = "step_type"
      · simp [h2]
      · by_cases h3 : name = "form" ∧ value.pyEq (.str "complex_step") = true
        · simp [h3]
        · by_cases h4 : name = "extra_check_partials_form"
          · simp [h4]
          · simp only [h1, h2, h3, h4, if_false, List.mem_cons, List.not_mem_nil, or_false, false_or]
  refine ⟨ht.get, ?_, ?_, ?_, hcheck.get⟩
  · rw [fdGet, if_pos rfl, ht.get]
    rcases hmem with h | h | h <;> rw [h] <;> simp [OptVal.pyEq, OptVal.num?]
  · rw [fdGet, if_neg (by decide)]
    exact hform.get
  · rw [fdGet, if_neg (by decide), OptDict.getItem, find_none_all "step_type" ops derivOptions rfl, depr_all ops derivOptions]
    have := hstep.get
    rw [OptDict.getItem] at this
    obtain ⟨o, h1, _⟩ := hstep.opt
    rw [h1] at this
    simp only [show derivOptions.depr.lookup "step_type" = some "step_calc" from rfl, h1]
    exact this

/-- C155 is false for two options: `extra_check_partials_form` cannot be read, whatever was assigned, and the form never reads as `complex_step`. -/
theorem C155_read_refuted (ops : List (Bool × String × OptVal)) :
    fdGet "extra_check_partials_form" (fdAll derivOptions ops) = .error .KeyError ∧ fdGet "form" (fdAll derivOptions ops) ≠ .ok (.str "complex_step") := by
  constructor
  · rw [fdGet, if_neg (by decide), OptDict.getItem, find_none_all "extra_check_partials_form" ops derivOptions rfl, depr_all ops derivOptions]
    rfl
  · rw [(C155_settings_partial ops).2.2.1]
    have : ∀ (ops : List (Bool × String × OptVal)) (v : OptVal), v ∈ fdForms → lastLegal ["form"] fdForms v ops ∈ fdForms := by
      intro ops
      induction ops with
      | nil => intro v h; exact h
      | cons op ops ih =>
        intro v h
        refine ih _ ?_
        dsimp only
        split
        · rename_i hh; exact hh.2
        · exact h
    have hm := this ops (.str "forward") (by simp [fdForms])
    intro h
    rw [Except.ok.inj h] at hm
    simp [fdForms] at hm

/-- C155 is false for the order of assignments: forcing finite differences before choosing complex step gives complex step, the other way round finite differences. -/
theorem C155_order_refuted : (fdAll derivOptions [(false, "force_fd", .bool true), (false, "form", .str "complex_step")]).getItem "type" = .ok (.str "cs") ∧
    (fdAll derivOptions [(false, "form", .str "complex_step"), (false, "force_fd", .bool true)]).getItem "type" = .ok (.str "fd") :=
  ⟨(C155_settings_partial _).1, (C155_settings_partial _).1⟩

/-- Assignments of several kinds, one of them after setup. -/
example : lastType [(false, "force_fd", .bool true), (false, "step_type", .str "relative"), (true, "force_fd", .bool false)] = .str "fd" ∧
    lastLegal ["step_type", "step_calc"] [.str "absolute", .str "relative"] (.str "absolute") [(false, "force_fd", .bool true), (false, "step_type", .str "relative"), (true, "force_fd", .bool false)] = .str "relative" :=
  ⟨by decide, by decide⟩

end OpenMDAO
