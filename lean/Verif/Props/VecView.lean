import Verif.Props.Vec
/-!
# Property C07 (`VecWrapper.get_view`, `openmdao/core/vec_wrapper.py:580-651`)
-/
namespace OpenMDAO

variable {α β : Type}

/-- The accessor windows agree with the slices into the vector's own flat array. -/
def Coherent (w : VecW α β) : Prop :=
  ∀ a ∈ w.dat, a.md.stored → ∃ s, a.slice = some (s, s + a.md.size) ∧ a.off = w.off + s ∧ s + a.md.size ≤ w.len

/-- A vector in a legal state: variables own disjoint storage and slices agree with windows. -/
structure GoodVec (w : VecW α β) (m : Mem α β) : Prop where
  layout : Layout w m.buf.length m.heap.length
  coherent : Coherent w

/-- every vector produced by setup is good -/
theorem srcSetup_good [Zero α] (metas : List (VarMeta α β)) (hn : (metas.map (·.name)).Nodup)
    (hd : ∀ m ∈ metas, WellDeclared m) (sb : Bool) :
    ∃ w m, srcSetup metas sb = .ok (w, m) ∧ GoodVec w m ∧ w.derivUnits = false ∧
      TilesFrom 0 (w.dat.filterMap (·.slice)) w.len := by
  obtain ⟨w, m, h1, h2, h3, h4, h5, h6, h7, L, -⟩ := srcSetup_ok metas hn hd sb
  refine ⟨w, m, h1, ⟨L, ?_⟩, h4, ?_⟩
  · intro a ha hs
    rw [h5] at ha
    obtain ⟨q1, q2, q3, q4⟩ := (layAccs_mem metas 0 0 a ha).2.2.2.1 hs
    exact ⟨a.off, by rw [q4, q3], by omega, by omega⟩
  · rw [h5, h3]; have := tiles_layAccs metas 0 0; rwa [Nat.zero_add] at this

/-- accessor without its slice -/
def Acc.core (a : Acc α β) : Acc α β := { a with slice := none }

/-- what a view of `w` under `varmap` should contain, apart from the slices -/
def viewCores (w : VecW α β) (varmap : List (String × String)) : List (Acc α β) :=
  varmap.filterMap (fun nm => (w.find nm.1).map (fun a => { a with name := nm.2, slice := none }))

/-- loop invariant of `get_view` -/
structure ViewInv (w : VecW α β) (vm : List (String × String)) (st : ViewSt α β) : Prop where
  cores : st.dat.map Acc.core = viewCores w vm
  none_ : st.range = none → st.size = 0 ∧ ∀ a ∈ st.dat, ¬ a.md.stored
  some_ : ∀ s e, st.range = some (s, e) → s + st.size = e ∧ e ≤ w.len ∧
    ∀ a ∈ st.dat, a.md.stored → ∃ t, a.slice = some (t, t + a.md.size) ∧ a.off = w.off + s + t ∧
      t + a.md.size ≤ st.size

theorem viewStep_inv {w : VecW α β} (hco : Coherent w) {vm : List (String × String)} {st st' : ViewSt α β}
    (hi : ViewInv w vm st) {nm : String × String} (h : viewStep w st nm = .ok st') :
    ViewInv w (vm ++ [nm]) st' := by
  unfold viewStep at h
  cases hf : w.find nm.1 with
  | none =>
    rw [hf] at h
    simp only [Except.ok.injEq] at h
    subst h
    refine ⟨?_, hi.none_, hi.some_⟩
    rw [hi.cores]
    simp [viewCores, hf]
  | some a =>
    rw [hf] at h
    obtain ⟨ha, -⟩ := find_mem hf
    simp only at h
    split at h
    · rename_i hpr
      have hns : ¬ a.md.stored := by
        rintro ⟨h1, h2⟩; simp [h1, h2] at hpr
      simp only [Except.ok.injEq] at h
      subst h
      refine ⟨?_, ?_, ?_⟩
      · simp [hi.cores, viewCores, hf, Acc.core]
      · intro hr
        obtain ⟨h1, h2⟩ := hi.none_ hr
        refine ⟨h1, ?_⟩
        intro b hb
        rcases List.mem_append.mp hb with hb | hb
        · exact h2 b hb
        · simp only [List.mem_singleton] at hb; subst hb; exact hns
      · intro s e hr
        obtain ⟨h1, h2, h3⟩ := hi.some_ s e hr
        refine ⟨h1, h2, ?_⟩
        intro b hb hbs
        rcases List.mem_append.mp hb with hb | hb
        · exact h3 b hb hbs
        · simp only [List.mem_singleton] at hb; subst hb; exact absurd hbs hns
    · rename_i hpr
      have hs : a.md.stored := by
        simp only [Bool.or_eq_true, not_or, Bool.not_eq_true] at hpr
        exact hpr
      obtain ⟨p, hp1, hp2, hp3⟩ := hco a ha hs
      rw [hp1] at h
      simp only at h
      cases hrg : st.range with
      | none =>
        rw [hrg] at h
        simp only [Except.ok.injEq] at h
        subst h
        obtain ⟨h1, h2⟩ := hi.none_ hrg
        refine ⟨by simp [hi.cores, viewCores, hf, Acc.core], by simp, ?_⟩
        intro s e hse
        simp only [Option.some.injEq, Prod.mk.injEq] at hse
        obtain ⟨rfl, rfl⟩ := hse
        refine ⟨by simp [h1], hp3, ?_⟩
        intro b hb hbs
        rcases List.mem_append.mp hb with hb | hb
        · exact absurd hbs (h2 b hb)
        · simp only [List.mem_singleton] at hb
          subst hb
          exact ⟨st.size, rfl, by simp [h1, hp2], by simp⟩
      | some r =>
        obtain ⟨s0, e0⟩ := r
        rw [hrg] at h
        simp only at h
        split at h
        · rename_i hpe
          simp only [Except.ok.injEq] at h
          subst h
          obtain ⟨h1, h2, h3⟩ := hi.some_ s0 e0 hrg
          refine ⟨by simp [hi.cores, viewCores, hf, Acc.core], by simp, ?_⟩
          intro s e hse
          simp only [Option.some.injEq, Prod.mk.injEq] at hse
          obtain ⟨rfl, rfl⟩ := hse
          refine ⟨by simp only; omega, hp3, ?_⟩
          intro b hb hbs
          rcases List.mem_append.mp hb with hb | hb
          · obtain ⟨t, t1, t2, t3⟩ := h3 b hb hbs
            exact ⟨t, t1, t2, by simp only; omega⟩
          · simp only [List.mem_singleton] at hb
            subst hb
            exact ⟨st.size, rfl, by simp only; omega, by simp⟩
        · simp at h

theorem viewFold_inv {w : VecW α β} (hco : Coherent w) (vm : List (String × String)) {vm0 : List (String × String)}
    {st st' : ViewSt α β} (hi : ViewInv w vm0 st) (h : vm.foldlM (viewStep w) st = .ok st') :
    ViewInv w (vm0 ++ vm) st' := by
  induction vm generalizing vm0 st with
  | nil =>
    simp only [List.foldlM_nil] at h
    cases h
    simpa using hi
  | cons nm vm ih =>
    rw [List.foldlM_cons] at h
    cases hs : viewStep w st nm with
    | error e => rw [hs] at h; cases h
    | ok st1 =>
      rw [hs] at h
      have := ih (viewStep_inv hco hi hs) h
      simpa using this

theorem getView_inv {w v : VecW α β} (hco : Coherent w) {vm : List (String × String)}
    (h : w.getView vm = .ok v) :
    v.dat.map Acc.core = viewCores w vm ∧ Coherent v ∧ v.derivUnits = false ∧
      (∃ s, v.off = w.off + s ∧ (v.len = 0 ∨ s + v.len ≤ w.len)) := by
  unfold VecW.getView at h
  cases hs : vm.foldlM (viewStep w) ⟨none, 0, []⟩ with
  | error e => rw [hs] at h; cases h
  | ok st =>
    rw [hs] at h
    have hi0 : ViewInv w [] (⟨none, 0, []⟩ : ViewSt α β) :=
      ⟨by simp [viewCores], by simp, by simp⟩
    have hi := viewFold_inv hco vm hi0 hs
    simp only [List.nil_append] at hi
    cases hr : st.range with
    | none =>
      simp only [hr, bind, Except.bind, pure, Except.pure, Except.ok.injEq] at h
      subst h
      obtain ⟨-, h2⟩ := hi.none_ hr
      exact ⟨hi.cores, fun a ha hs => absurd hs (h2 a ha), rfl, 0, rfl, Or.inl rfl⟩
    | some r =>
      obtain ⟨s, e⟩ := r
      simp only [hr, bind, Except.bind, pure, Except.pure, Except.ok.injEq] at h
      subst h
      obtain ⟨h1, h2, h3⟩ := hi.some_ s e hr
      refine ⟨hi.cores, ?_, rfl, s, rfl, Or.inr (by simp only; omega)⟩
      intro a ha hs
      obtain ⟨t, t1, t2, t3⟩ := h3 a ha hs
      exact ⟨t, t1, t2, by simp only; omega⟩

theorem mem_viewCores {w v : VecW α β} {vm : List (String × String)} (hc : v.dat.map Acc.core = viewCores w vm)
    {b : Acc α β} (hb : b ∈ v.dat) : ∃ nm ∈ vm, ∃ a, w.find nm.1 = some a ∧ b.name = nm.2 ∧ b.off = a.off ∧
      b.len = a.len ∧ b.addr = a.addr ∧ b.md = a.md := by
  have : b.core ∈ viewCores w vm := by rw [← hc]; exact List.mem_map_of_mem hb
  obtain ⟨nm, hnm, hmap⟩ := List.mem_filterMap.mp this
  cases hf : w.find nm.1 with
  | none => rw [hf] at hmap; simp at hmap
  | some a =>
    rw [hf] at hmap
    simp only [Option.map_some, Option.some.injEq] at hmap
    simp only [Acc.core, Acc.mk.injEq] at hmap
    exact ⟨nm, hnm, a, hf, hmap.1.symm, hmap.2.2.1.symm, hmap.2.2.2.1.symm, hmap.2.2.2.2.1.symm, hmap.2.2.2.2.2.symm⟩

theorem view_names {w v : VecW α β} {vm : List (String × String)} (hc : v.dat.map Acc.core = viewCores w vm) :
    v.dat.map (·.name) = (vm.filter (fun nm => (w.find nm.1).isSome)).map Prod.snd := by
  have e : v.dat.map (·.name) = (v.dat.map Acc.core).map (·.name) := by
    rw [List.map_map]; rfl
  rw [e, hc]
  clear e hc
  induction vm with
  | nil => rfl
  | cons nm vm ih =>
    unfold viewCores at *
    cases hf : w.find nm.1 with
    | none => simp [hf, ih]
    | some a => simp [hf, ih]

theorem view_find {w v : VecW α β} {vm : List (String × String)} (hc : v.dat.map Acc.core = viewCores w vm)
    (hp : (vm.map Prod.snd).Nodup) {n p : String} (hm : (n, p) ∈ vm) {a : Acc α β} (hf : w.find n = some a) :
    ∃ b, v.find p = some b ∧ b.off = a.off ∧ b.len = a.len ∧ b.addr = a.addr ∧ b.md = a.md := by
  have hmem : ({ a with name := p, slice := none } : Acc α β) ∈ viewCores w vm :=
    List.mem_filterMap.mpr ⟨(n, p), hm, by simp [hf]⟩
  rw [← hc] at hmem
  obtain ⟨b, hb, hbc⟩ := List.mem_map.mp hmem
  have hnd : (v.dat.map (·.name)).Nodup := by
    rw [view_names hc]
    exact hp.sublist (List.Sublist.map _ List.filter_sublist)
  simp only [Acc.core, Acc.mk.injEq] at hbc
  refine ⟨b, ?_, hbc.2.2.1, hbc.2.2.2.1, hbc.2.2.2.2.1, hbc.2.2.2.2.2⟩
  rw [← hbc.1]
  exact find_eq hnd hb

/-- C07. A view of a good vector is a good vector again (so views of views at any depth are), contains
exactly the mapped variables of the parent in order, and its flat array is a window of the parent's. -/
theorem C07_view_is_good {w v : VecW α β} {m : Mem α β} (hw : GoodVec w m) {varmap : List (String × String)}
    (hk : (varmap.map Prod.fst).Nodup) (hp : (varmap.map Prod.snd).Nodup) (h : w.getView varmap = .ok v) :
    GoodVec v m ∧
      v.dat.map (·.name) = (varmap.filter (fun nm => (w.find nm.1).isSome)).map Prod.snd ∧
      (∃ s, v.off = w.off + s ∧ (v.len = 0 ∨ s + v.len ≤ w.len)) := by
  obtain ⟨hc, hcv, -, hwin⟩ := getView_inv hw.coherent h
  have L := hw.layout
  have pw : ∀ (R : Acc α β → Acc α β → Prop),
      (∀ a ∈ w.dat, ∀ b ∈ w.dat, a.name ≠ b.name → R a.core b.core) →
      (∀ a b p q, R a b → R { a with name := p } { b with name := q }) →
      (viewCores w varmap).Pairwise R := by
    intro R hR hname
    unfold viewCores
    rw [List.pairwise_filterMap]
    have hk' : varmap.Pairwise (fun x y => x.1 ≠ y.1) := by
      rw [List.Nodup, List.pairwise_map] at hk; exact hk
    refine hk'.imp_of_mem ?_
    intro x y _ _ hne b hb b' hb'
    cases hf : w.find x.1 with
    | none => rw [hf] at hb; simp at hb
    | some a =>
      cases hf' : w.find y.1 with
      | none => rw [hf'] at hb'; simp at hb'
      | some a' =>
        rw [hf] at hb; rw [hf'] at hb'
        simp only [Option.map_some, Option.some.injEq] at hb hb'
        subst hb hb'
        obtain ⟨ha, hn⟩ := find_mem hf
        obtain ⟨ha', hn'⟩ := find_mem hf'
        exact hname _ _ _ _ (hR a ha a' ha' (by rw [hn, hn']; exact hne))
  refine ⟨⟨⟨?_, ?_, ?_, ?_, ?_, ?_⟩, hcv⟩, view_names hc, hwin⟩
  · rw [view_names hc]
    exact hp.sublist (List.Sublist.map _ List.filter_sublist)
  · intro b hb hs
    obtain ⟨nm, -, a, hf, -, e1, e2, -, e4⟩ := mem_viewCores hc hb
    rw [e1, e2, e4]
    exact L.bounds a (find_mem hf).1 (by rwa [e4] at hs)
  · intro b hb
    obtain ⟨nm, -, a, hf, -, -, -, -, e4⟩ := mem_viewCores hc hb
    rw [e4]; exact L.decl a (find_mem hf).1
  · have := pw (fun a b => a.md.stored → b.md.stored → Disj a.off a.len b.off b.len)
      (fun a ha b hb hne => (L.sep ha hb hne).1) (fun a b p q h => h)
    rw [← hc, List.pairwise_map] at this
    exact this
  · intro b hb hs
    obtain ⟨nm, -, a, hf, -, -, -, e3, e4⟩ := mem_viewCores hc hb
    rw [e3]
    exact L.addr a (find_mem hf).1 (by rwa [e4] at hs)
  · have := pw (fun a b => a.md.pbo = true → b.md.pbo = true → a.addr ≠ b.addr)
      (fun a ha b hb hne => (L.sep ha hb hne).2) (fun a b p q h => h)
    rw [← hc, List.pairwise_map] at this
    exact this

variable [Add α] [Mul α] [Zero α] [DecidableEq α]

/-- C07. Reading through the view gives the parent's value; writing through the view has exactly the effect
of writing the parent's variable: the new value is visible in the parent under the parent's name, every
other parent variable is unchanged. -/
theorem C07_view_aliases_parent {w v : VecW α β} {m : Mem α β} (hw : GoodVec w m) (hdu : w.derivUnits = false)
    {varmap : List (String × String)} (hp : (varmap.map Prod.snd).Nodup) (h : w.getView varmap = .ok v)
    {n p : String} (hm : (n, p) ∈ varmap) (hin : (w.find n).isSome = true) :
    v.get m p = w.get m n ∧
    ∀ x m', v.set m p x = .ok m' →
      w.set m n x = .ok m' ∧ w.get m' n = v.get m' p ∧
      (∀ other, other ≠ n → w.get m' other = w.get m other) := by
  obtain ⟨hc, -, hvd, -⟩ := getView_inv hw.coherent h
  obtain ⟨a, hf⟩ := Option.isSome_iff_exists.mp hin
  obtain ⟨b, hb, e1, e2, e3, e4⟩ := view_find hc hp hm hf
  have hget : ∀ m : Mem α β, v.get m p = w.get m n := by
    intro m
    simp only [VecW.get, hf, hb, hdu, hvd, Acc.get, e1, e2, e3, e4]
  refine ⟨hget m, ?_⟩
  intro x m' hs
  have hset : w.set m n x = .ok m' := by
    rw [← hs]
    simp only [VecW.set, hf, hb, Acc.set, e1, e2, e3, e4]
  exact ⟨hset, (hget m').symm, fun other ho => (VecW.set_other hw.layout hset ho).1⟩

omit [Add α] [Mul α] [Zero α] [DecidableEq α] in
theorem viewFold_succeeds {w : VecW α β} (hn : (w.dat.map (·.name)).Nodup) (hco : Coherent w)
    (hsl : ∀ a ∈ w.dat, ¬ a.md.stored → a.slice = none)
    (mid : List (Acc α β)) (hsub : ∀ a ∈ mid, a ∈ w.dat) (vm : List (String × String))
    (hvm : vm.map Prod.fst = mid.map (·.name)) (st : ViewSt α β) (s n : Nat)
    (ht : TilesFrom s (mid.filterMap (·.slice)) n) (hst : ∀ x, st.range = some x → x.2 = s) :
    ∃ st', vm.foldlM (viewStep w) st = .ok st' := by
  induction mid generalizing vm st s with
  | nil =>
    have : vm = [] := by simpa using hvm
    subst this
    exact ⟨st, rfl⟩
  | cons a mid ih =>
    cases vm with
    | nil => simp at hvm
    | cons nm vm =>
      simp only [List.map_cons, List.cons.injEq] at hvm
      obtain ⟨h1, h2⟩ := hvm
      have hf : w.find nm.1 = some a := by rw [h1]; exact find_eq hn (hsub a (by simp))
      rw [List.foldlM_cons]
      by_cases hs : a.md.stored
      · obtain ⟨p, hp1, -, -⟩ := hco a (hsub a (by simp)) hs
        have hpr : (a.md.pbo || a.md.remote) = false := by simp [hs.1, hs.2]
        rw [List.filterMap_cons, hp1] at ht
        cases ht with
        | cons hle ht' =>
          have : ∃ st1, viewStep w st nm = .ok st1 ∧ ∀ x, st1.range = some x → x.2 = s + a.md.size := by
            unfold viewStep
            rw [hf]
            simp only [hpr, hp1, Bool.false_eq_true, if_false]
            cases hr : st.range with
            | none => exact ⟨_, rfl, by intro x hx; simp only [Option.some.injEq] at hx; rw [← hx]⟩
            | some r =>
              have hrs := hst r hr
              obtain ⟨r1, r2⟩ := r
              simp only at hrs
              subst hrs
              simp only [if_true]
              exact ⟨_, rfl, by intro x hx; simp only [Option.some.injEq] at hx; rw [← hx]⟩
          obtain ⟨st1, e1, e2⟩ := this
          rw [e1]
          exact ih (fun b hb => hsub b (by simp [hb])) vm h2 st1 _ ht' e2
      · have hpr : (a.md.pbo || a.md.remote) = true := by
          by_contra hc
          simp only [Bool.or_eq_true, not_or, Bool.not_eq_true] at hc
          exact hs hc
        rw [List.filterMap_cons, hsl a (hsub a (by simp)) hs] at ht
        have e1 : viewStep w st nm =
            .ok ⟨st.range, st.size, st.dat ++ [{ a with name := nm.2, slice := none }]⟩ := by
          unfold viewStep
          rw [hf]
          simp only [hpr, if_true]
        rw [e1]
        exact ih (fun b hb => hsub b (by simp [hb])) vm h2 _ _ ht hst

omit [Add α] [Mul α] [DecidableEq α] in
/-- C07. Creating a view never fails for a contiguous run of a set-up vector's variables (which is what a
subsystem's variables are), whatever the new names. -/
theorem C07_view_of_contiguous_run_exists (metas : List (VarMeta α β)) (hn : (metas.map (·.name)).Nodup)
    (hd : ∀ m ∈ metas, WellDeclared m) (sb : Bool) (w : VecW α β) (m : Mem α β)
    (hset : srcSetup metas sb = .ok (w, m)) (pre mid post : List (Acc α β)) (hw : w.dat = pre ++ mid ++ post)
    (varmap : List (String × String)) (hvm : varmap.map Prod.fst = mid.map (·.name)) :
    ∃ v, w.getView varmap = .ok v := by
  obtain ⟨w', m', h1, hg, -, ht⟩ := srcSetup_good metas hn hd sb
  obtain ⟨w'', m'', h1', -, -, -, h5', -⟩ := srcSetup_ok metas hn hd sb
  rw [h1] at hset; cases hset
  rw [h1] at h1'; cases h1'
  have hsl : ∀ a ∈ w.dat, ¬ a.md.stored → a.slice = none := by
    intro a ha hs
    rw [h5'] at ha
    exact ((layAccs_mem metas 0 0 a ha).2.2.2.2.1 hs).1
  have split : ∀ (l1 l2 : List (Nat × Nat)) s n, TilesFrom s (l1 ++ l2) n → ∃ k, TilesFrom s l1 k ∧ TilesFrom k l2 n := by
    intro l1
    induction l1 with
    | nil => intro l2 s n h; exact ⟨s, TilesFrom.nil s, h⟩
    | cons r l1 ih =>
      intro l2 s n h
      cases h with
      | cons hle h' =>
        obtain ⟨k, k1, k2⟩ := ih _ _ _ h'
        exact ⟨k, TilesFrom.cons hle k1, k2⟩
  rw [hw, List.filterMap_append, List.filterMap_append] at ht
  obtain ⟨k1, t1, -⟩ := split _ _ _ _ ht
  obtain ⟨k2, -, t2⟩ := split _ _ _ _ t1
  obtain ⟨st, hst⟩ := viewFold_succeeds hg.layout.names hg.coherent hsl mid
    (by intro a ha; rw [hw]; simp [ha]) varmap hvm ⟨none, 0, []⟩ k2 k1 t2 (by simp)
  unfold VecW.getView
  rw [hst]
  simp only [bind, Except.bind, pure, Except.pure]
  cases st.range with
  | none => exact ⟨_, rfl⟩
  | some r => exact ⟨_, rfl⟩

/-- A concrete view: variables `b`, `c` of the demo vector under new names; writing through it is seen by
the parent, and skipping a variable in between is refused. -/
example : ((srcSetup demoMetas true).bind (fun r => (r.1.getView [("b", "x"), ("c", "y"), ("zz", "q")]).bind
    (fun v => (v.set r.2 "x" (.arr [5, 6, 7])).bind (fun m => r.1.get m "b")))) = .ok (.arr [5, 6, 7]) := by decide
example : ((srcSetup demoMetas true).bind (fun r => r.1.getView [("a", "x"), ("f", "y")])).toOption.isNone = true := by
  decide

end OpenMDAO
