import Verif.Spec.CheckTotals
import Verif.Props.CheckPartials
import Verif.Props.FdGroup
import Verif.Props.Mode
import Verif.Props.Promotes
/-! # Property C160 -/
namespace OpenMDAO
set_option linter.unusedSectionVars false

variable {σ : Type}

theorem keep_fold (f : Str → Except PyErr (Option Str)) (l : List Str) (h : ∀ p ∈ l, ∃ o, f p = .ok o) :
    ∃ r, l.foldlM (keepStep f) [] = .ok r ∧ ∀ n, n ∈ r ↔ ∃ p ∈ l, f p = .ok (some n) := by
  obtain ⟨r, h1, h2⟩ := append_fold (keepStep f) (fun n p => f p = .ok (some n)) l [] (by
    intro p hp
    obtain ⟨o, ho⟩ := h p hp
    cases o with
    | none => exact ⟨[], fun acc => by simp [keepStep, ho], fun n => by simp [ho]⟩
    | some x => exact ⟨[x], fun acc => by simp [keepStep, ho], fun n => by simp [ho, eq_comm]⟩)
  exact ⟨r, h1, fun n => by rw [h2 n]; simp⟩

theorem dotted_inj {a b : List Str} (ha : GoodParts a) (hb : GoodParts b) (na : a ≠ []) (nb : b ≠ []) (h : dotted a = dotted b) : a = b := by
  rw [← pySplit_dotted ha na, ← pySplit_dotted hb nb, h]

theorem indeps_spec (P : TotProb σ) (cp up) (h : P.Sound cp up) : ∃ l, P.indeps = .ok l ∧ ∀ n, n ∈ l ↔ P.Indep n := by
  unfold TotProb.indeps
  by_cases hd : P.desvars = []
  · rw [if_neg (by simp [hd])]
    obtain ⟨l, h1, h2⟩ := C129_params [] (by simp [GoodParts]) P.root P.parPbo cp h.connParts
      (by simpa using h.sources) (by
        intro c hc rel _ hr
        have := (h.params (dotted c.1, dotted c.2) (by rw [h.conns]; exact List.mem_map.2 ⟨c, hc, rfl⟩)).1
        rw [hr] at this
        exact this)
    have hl : groupFdParams [] P.root P.parPbo P.conns = .ok l := by rw [h.conns]; exact h1
    have hmem : ∀ n, n ∈ l ↔ ∃ comp v, (n, dotted (comp ++ [v])) ∈ P.conns ∧ comp ≠ [] ∧ GoodParts (comp ++ [v]) ∧ P.root.At comp (.comp true) := by
      intro n
      rw [h2 n]
      constructor
      · rintro ⟨rel, src, hr, hm, rfl, ⟨hb, -⟩ | ⟨comp, v, hc, rfl, hat⟩⟩
        · exfalso
          obtain ⟨-, -, -, hlen⟩ := h.connParts _ hm
          have hne : src ≠ [] := by intro he; simp [he] at hlen
          refine hb ⟨src.dropLast, src.getLast hne, ?_, ?_⟩
          · intro he
            have := congrArg List.length he
            simp only [List.length_dropLast, List.length_nil] at this
            simp only at hlen
            omega
          · simp [List.dropLast_append_getLast]
        · refine ⟨comp, v, ?_, hc, (h.connParts _ hm).2.1, hat⟩
          rw [h.conns]
          exact List.mem_map.2 ⟨_, hm, rfl⟩
      · rintro ⟨comp, v, hm, hc, hg, hat⟩
        rw [h.conns, List.mem_map] at hm
        obtain ⟨⟨t, s⟩, hc', he⟩ := hm
        injection he with e1 e2
        obtain ⟨g1, g2, l1, l2⟩ := h.connParts _ hc'
        have hs : s = comp ++ [v] := dotted_inj g2 hg (by intro he; simp [he] at l2) (by simp) e2
        subst hs
        exact ⟨t, comp ++ [v], (by intro he; simp [he] at l1), hc', e1.symm, Or.inr ⟨comp, v, hc, rfl, hat⟩⟩
    have hitem : ∀ p ∈ l, ∃ src, (p, src) ∈ P.conns ∧ ∃ b n, P.parPbo.lookup p = some b ∧ P.toProm.lookup src = some n ∧
        P.sourceItem p = .ok (if b then none else some n) := by
      intro p hp
      obtain ⟨comp, v, hm, -⟩ := (hmem p).1 hp
      obtain ⟨k1, k2⟩ := h.params _ hm
      obtain ⟨b, hb⟩ := Option.isSome_iff_exists.1 k1
      obtain ⟨n, hn⟩ := Option.isSome_iff_exists.1 k2
      refine ⟨_, hm, b, n, hb, hn, ?_⟩
      have hl := (lookup_eq_some_iff_of_nodup P.conns p _ h.targets).2 hm
      unfold TotProb.sourceItem getKey
      simp only [hb, hl, hn, bind, Except.bind]
      cases b <;> rfl
    obtain ⟨r, r1, r2⟩ := keep_fold P.sourceItem l (fun p hp => by
      obtain ⟨src, -, b, n, -, -, e⟩ := hitem p hp
      exact ⟨_, e⟩)
    refine ⟨r, ?_, ?_⟩
    · rw [hl]; exact r1
    · intro n
      rw [r2 n]
      unfold TotProb.Indep
      constructor
      · rintro ⟨p, hp, he⟩
        obtain ⟨src, hm, b, n', hb, hn, e⟩ := hitem p hp
        rw [e] at he
        cases b with
        | true => simp at he
        | false =>
          simp at he
          subst he
          obtain ⟨comp, v, hm', hc, hg, hat⟩ := (hmem p).1 hp
          have : src = dotted (comp ++ [v]) := by
            have a1 := (lookup_eq_some_iff_of_nodup P.conns p _ h.targets).2 hm
            have a2 := (lookup_eq_some_iff_of_nodup P.conns p _ h.targets).2 hm'
            rw [a1] at a2
            injection a2
          subst this
          exact Or.inr ⟨hd, p, comp, v, hm, hc, hg, hat, hb, hn⟩
      · rintro (⟨h0, -⟩ | ⟨-, tgt, comp, v, hm, hc, hg, hat, hb, hn⟩)
        · exact absurd hd h0
        · have hp := (hmem tgt).2 ⟨comp, v, hm, hc, hg, hat⟩
          refine ⟨tgt, hp, ?_⟩
          obtain ⟨src, hm', b, n', hb', hn', e⟩ := hitem tgt hp
          have : src = dotted (comp ++ [v]) := by
            have a1 := (lookup_eq_some_iff_of_nodup P.conns tgt _ h.targets).2 hm
            have a2 := (lookup_eq_some_iff_of_nodup P.conns tgt _ h.targets).2 hm'
            rw [a1] at a2
            injection a2 with a2
            exact a2.symm
          subst this
          rw [hb] at hb'
          rw [hn] at hn'
          cases hb'
          cases hn'
          simpa using e
  · rw [if_pos (by simpa [List.length_pos_iff] using hd)]
    have hitem : ∀ p ∈ P.desvars, ∃ a b, P.toAbsU.lookup p = some a ∧ P.unkPbo.lookup a = some b ∧ P.desvarItem p = .ok (if b then none else some p) := by
      intro p hp
      obtain ⟨a, b, ha, hb⟩ := h.desvars p hp
      refine ⟨a, b, ha, hb, ?_⟩
      unfold TotProb.desvarItem getKey
      simp only [ha, hb, bind, Except.bind]
    obtain ⟨r, r1, r2⟩ := keep_fold P.desvarItem P.desvars (fun p hp => by
      obtain ⟨a, b, -, -, e⟩ := hitem p hp
      exact ⟨_, e⟩)
    refine ⟨r, r1, fun n => ?_⟩
    rw [r2 n]
    unfold TotProb.Indep
    constructor
    · rintro ⟨p, hp, he⟩
      obtain ⟨a, b, ha, hb, e⟩ := hitem p hp
      rw [e] at he
      cases b with
      | true => simp at he
      | false =>
        simp at he
        subst he
        exact Or.inl ⟨hd, hp, a, ha, hb⟩
    · rintro (⟨-, hn, a, ha, hb⟩ | ⟨h0, -⟩)
      · refine ⟨n, hn, ?_⟩
        obtain ⟨a', b', ha', hb', e⟩ := hitem n hn
        rw [ha] at ha'
        cases ha'
        rw [hb] at hb'
        cases hb'
        simpa using e
      · exact absurd h0 hd

theorem respItem_spec (P : TotProb σ) (hn : (P.unknowns.map Prod.fst).Nodup) (u : Str) (hu : u ∈ P.unknowns.map Prod.fst) :
    ∃ a b, (u, a, b) ∈ P.unknowns ∧ P.respItem u = .ok (if b then none else some u) := by
  obtain ⟨⟨u', a, b⟩, hm, rfl⟩ := List.mem_map.1 hu
  refine ⟨a, b, hm, ?_⟩
  unfold TotProb.respItem getKey
  rw [(lookup_eq_some_iff_of_nodup P.unknowns _ _ hn).2 hm]
  rfl

theorem unknown_unique (P : TotProb σ) (hn : (P.unknowns.map Prod.fst).Nodup) {u : Str} {x y : Str × Bool} (hx : (u, x) ∈ P.unknowns) (hy : (u, y) ∈ P.unknowns) : x = y := by
  have a1 := (lookup_eq_some_iff_of_nodup P.unknowns _ _ hn).2 hx
  have a2 := (lookup_eq_some_iff_of_nodup P.unknowns _ _ hn).2 hy
  rw [a1] at a2
  injection a2

theorem resp_keep (P : TotProb σ) (hn : (P.unknowns.map Prod.fst).Nodup) (l : List Str) (hl : ∀ u ∈ l, u ∈ P.unknowns.map Prod.fst) :
    ∃ r, l.foldlM (keepStep P.respItem) [] = .ok r ∧ ∀ n, n ∈ r ↔ n ∈ l ∧ ∃ a, (n, a, false) ∈ P.unknowns := by
  obtain ⟨r, r1, r2⟩ := keep_fold P.respItem l (fun p hp => by
    obtain ⟨a, b, -, e⟩ := respItem_spec P hn p (hl p hp)
    exact ⟨_, e⟩)
  refine ⟨r, r1, fun n => ?_⟩
  rw [r2 n]
  constructor
  · rintro ⟨p, hp, he⟩
    obtain ⟨a, b, hm, e⟩ := respItem_spec P hn p (hl p hp)
    rw [e] at he
    cases b with
    | true => simp at he
    | false =>
      simp at he
      subst he
      exact ⟨hp, a, hm⟩
  · rintro ⟨hp, a, hm⟩
    refine ⟨n, hp, ?_⟩
    obtain ⟨a', b', hm', e⟩ := respItem_spec P hn n (hl n hp)
    have := unknown_unique P hn hm hm'
    cases this
    simpa using e

theorem resps_spec (P : TotProb σ) (cp up) (h : P.Sound cp up) : ∃ l, P.resps = .ok l ∧ ∀ n, n ∈ l ↔ P.Resp n := by
  unfold TotProb.resps
  by_cases hd : P.objs = [] ∧ P.cons = []
  · rw [if_neg (by simp [hd.1, hd.2])]
    obtain ⟨l, h1, h2⟩ := C129_unknowns [] (by simp [GoodParts]) P.root up (by simpa using h.unkParts)
    have hl : groupFdUnknowns [] P.root P.unknowns = .ok l := by rw [h.unknowns]; exact h1
    have hin : ∀ u ∈ l, u ∈ P.unknowns.map Prod.fst := by
      intro u hu
      obtain ⟨comp, v, hm, -⟩ := (h2 u).1 hu
      rw [h.unknowns]
      exact List.mem_map.2 ⟨_, List.mem_map.2 ⟨_, hm, rfl⟩, rfl⟩
    obtain ⟨r, r1, r2⟩ := resp_keep P h.names l hin
    refine ⟨r, by rw [hl]; exact r1, fun n => ?_⟩
    rw [r2 n, h2 n]
    unfold TotProb.Resp
    constructor
    · rintro ⟨⟨comp, v, hm, hat⟩, -⟩
      obtain ⟨g, c', v', b', hc', he, -⟩ := h.unkParts _ hm
      simp only [List.nil_append] at g he
      have hcc : comp = c' := (List.append_inj' he rfl).1
      subst hcc
      refine Or.inr ⟨hd.1, hd.2, comp, v, ?_, hc', g, hat⟩
      rw [h.unknowns]
      exact List.mem_map.2 ⟨_, hm, rfl⟩
    · rintro (⟨h0, -⟩ | ⟨-, -, comp, v, hm, hc, hg, hat⟩)
      · rcases h0 with h0 | h0
        · exact absurd hd.1 h0
        · exact absurd hd.2 h0
      · refine ⟨?_, _, hm⟩
        rw [h.unknowns, List.mem_map] at hm
        obtain ⟨⟨n', parts, b⟩, hm', he⟩ := hm
        injection he with e1 e2
        injection e2 with e2 e3
        simp only at e1 e2 e3
        obtain ⟨g, c', v', b', hc', he', -⟩ := h.unkParts _ hm'
        have : parts = comp ++ [v] := dotted_inj g hg (by simp only at he'; rw [he']; simp) (by simp) e2
        subst this
        subst e1
        subst e3
        exact ⟨comp, v, by simpa using hm', hat⟩
  · have hor : P.objs ≠ [] ∨ P.cons ≠ [] := by
      by_contra hc
      push Not at hc
      exact hd hc
    rw [if_pos (by simpa [List.length_pos_iff] using hor)]
    obtain ⟨r, r1, r2⟩ := resp_keep P h.names (P.objs ++ P.cons) (fun u hu => h.responses u (List.mem_append.1 hu))
    refine ⟨r, r1, fun n => ?_⟩
    rw [r2 n]
    unfold TotProb.Resp
    constructor
    · rintro ⟨hn, a, hm⟩
      exact Or.inl ⟨hor, List.mem_append.1 hn, a, hm⟩
    · rintro (⟨-, hn, a, hm⟩ | ⟨h1, h2, -⟩)
      · exact ⟨List.mem_append.2 hn, a, hm⟩
      · exact absurd ⟨h1, h2⟩ hd

/-! ## The assembly -/

theorem foldl_dictSet_mem {α β : Type} [BEq α] [LawfulBEq α] [DecidableEq α] (l : List (α × β)) (h : (l.map Prod.fst).Nodup) (d : List (α × β)) (k : α) :
    (∀ v, (k, v) ∈ l → (l.foldl (fun d e => dictSet d e.1 e.2) d).lookup k = some v) ∧
    (k ∉ l.map Prod.fst → (l.foldl (fun d e => dictSet d e.1 e.2) d).lookup k = d.lookup k) := by
  induction l generalizing d with
  | nil => simp
  | cons e l ih =>
    rw [List.map_cons, List.nodup_cons] at h
    obtain ⟨i1, i2⟩ := ih h.2 (dictSet d e.1 e.2)
    rw [List.foldl_cons]
    constructor
    · intro v hv
      rcases List.mem_cons.1 hv with hv | hv
      · subst hv
        rw [i2 h.1, lookup_dictSet, if_pos rfl]
      · exact i1 v hv
    · intro hk
      rw [List.map_cons, List.mem_cons, not_or] at hk
      rw [i2 hk.2, lookup_dictSet, if_neg hk.1]

theorem flat_nodup (J : NestJac) (h1 : (J.map Prod.fst).Nodup) (h2 : ∀ r ∈ J, (r.2.map Prod.fst).Nodup) :
    ((J.flatMap fun r => r.2.map fun e => ((r.1, e.1), e.2)).map Prod.fst).Nodup := by
  induction J with
  | nil => simp
  | cons r J ih =>
    rw [List.map_cons, List.nodup_cons] at h1
    rw [List.flatMap_cons, List.map_append, List.nodup_append]
    refine ⟨?_, ih h1.2 fun r hr => h2 r (by simp [hr]), ?_⟩
    · have := h2 r (by simp)
      rw [List.map_map]
      have e : (Prod.fst ∘ fun e : Str × Mat ℝ => ((r.1, e.1), e.2)) = (fun x : Str => (r.1, x)) ∘ Prod.fst := rfl
      rw [e, ← List.map_map]
      exact this.map fun a b hab => by injection hab
    · intro a ha b hb hab
      subst hab
      obtain ⟨x, hx, rfl⟩ := List.mem_map.1 ha
      obtain ⟨y, hy, hxy⟩ := List.mem_map.1 hb
      obtain ⟨z, hz, rfl⟩ := List.mem_map.1 hx
      obtain ⟨w, hw, hy'⟩ := List.mem_flatMap.1 hy
      obtain ⟨q, hq, rfl⟩ := List.mem_map.1 hy'
      simp only [Prod.mk.injEq] at hxy
      exact h1.1 (by rw [← hxy.1]; exact List.mem_map.2 ⟨w, hw, rfl⟩)

theorem flat_spec (J : NestJac) (ind unk : List Str) (n m : Str → Nat) (D : Str → Str → Nat → Nat → ℝ) (h : IsJac J ind unk n m D) (u p : Str) (hu : u ∈ unk) (hp : p ∈ ind) :
    (flatJac J).lookup (u, p) = some ⟨n u, m p, D u p⟩ := by
  obtain ⟨row, h1, h2⟩ := h.entry u hu
  have m1 := (lookup_eq_some_iff_of_nodup J u row h.rows).1 h1
  have m2 := (lookup_eq_some_iff_of_nodup row p _ (h.cols _ m1)).1 (h2 p hp)
  unfold flatJac
  exact (foldl_dictSet_mem _ (flat_nodup J h.rows h.cols) [] (u, p)).1 _ (List.mem_flatMap.2 ⟨_, m1, List.mem_map.2 ⟨_, m2, rfl⟩⟩)

theorem tot_fold (jf jr : Option FlatJac) (fd : FlatJac) (g : Str × Str → TotData) (ks : List (Str × Str)) (h : ∀ k ∈ ks, totPair jf jr fd k = .ok (some (g k)))
    (d : List ((Str × Str) × TotData)) :
    ∃ d', ks.foldlM (totStep jf jr fd) d = .ok d' ∧ ∀ k, d'.lookup k = if k ∈ ks then some (g k) else d.lookup k := by
  induction ks generalizing d with
  | nil => exact ⟨d, rfl, fun k => by simp⟩
  | cons k0 ks ih =>
    obtain ⟨d', h1, h2⟩ := ih (fun k hk => h k (by simp [hk])) (dictSet d k0 (g k0))
    refine ⟨d', ?_, fun k => ?_⟩
    · rw [List.foldlM_cons]
      have : totStep jf jr fd d k0 = .ok (dictSet d k0 (g k0)) := by unfold totStep; rw [h k0 (by simp)]
      rw [this]
      exact h1
    · rw [h2 k, lookup_dictSet]
      by_cases hk : k ∈ ks
      · rw [if_pos hk, if_pos (by simp [hk])]
      · rw [if_neg hk]
        by_cases he : k = k0
        · rw [if_pos he, if_pos (by simp [he]), he]
        · rw [if_neg he, if_neg (by simp [hk, he])]

theorem frob_jacDist (n m : Nat) (f : Nat → Nat → ℝ) : frob ⟨n, m, f⟩ = jacDist n m f fun _ _ => 0 := by
  simp [frob, jacDist]

/-- The entry of the Jacobian when the mode is computed. -/
def subOf (o : Option (Str → Str → Nat → Nat → ℝ)) (n m : Str → Nat) (u p : Str) : Option (Mat ℝ) := o.map fun D => ⟨n u, m p, D u p⟩

theorem getSub_spec (j : Option FlatJac) (o : Option (Str → Str → Nat → Nat → ℝ)) (n m : Str → Nat) (u p : Str) (h0 : j = none → o = none)
    (h : ∀ d, j = some d → ∃ D, o = some D ∧ d.lookup (u, p) = some ⟨n u, m p, D u p⟩) : getSub j (u, p) = .ok (subOf o n m u p) := by
  unfold getSub
  cases j with
  | none => rw [h0 rfl]; rfl
  | some d =>
    obtain ⟨D, rfl, hd⟩ := h d rfl
    cases d with
    | nil => simp at hd
    | cons e d =>
      simp only [truthy, hd]
      rfl

theorem subNorm_some (n m : Nat) (f g : Nat → Nat → ℝ) : subNorm (some ⟨n, m, f⟩) (some ⟨n, m, g⟩) = .ok (some (jacDist n m f g)) := by
  unfold subNorm
  simp only [sub_ok ⟨n, m, f⟩ ⟨n, m, g⟩ rfl rfl]
  rfl

/-- What the report has to contain. -/
noncomputable def pairData (of or : Option (Str → Str → Nat → Nat → ℝ)) (F : Str → Str → Nat → Nat → ℝ) (n m : Str → Nat) (u p : Str) : TotData :=
  let z : Nat → Nat → ℝ := fun _ _ => 0
  let d := fun f g => jacDist (n u) (m p) f g
  let errs := [of.map fun A => d (A u p) (F u p), or.map fun B => d (B u p) (F u p), of.bind fun A => or.map fun B => d (A u p) (B u p)].filterMap id
  { magnitude := [of.map fun A => d (A u p) z, or.map fun B => d (B u p) z, some (d (F u p) z)], abs := errs,
    rel := if d (F u p) z = 0 then [none, none, none, none] else errs.map fun x => some (x / d (F u p) z) }

theorem totPair_spec (jf jr : Option FlatJac) (fd : FlatJac) (of or : Option (Str → Str → Nat → Nat → ℝ)) (F : Str → Str → Nat → Nat → ℝ) (n m : Str → Nat) (u p : Str)
    (hf : getSub jf (u, p) = .ok (subOf of n m u p)) (hr : getSub jr (u, p) = .ok (subOf or n m u p)) (hF : fd.lookup (u, p) = some ⟨n u, m p, F u p⟩) :
    totPair jf jr fd (u, p) = .ok (some (pairData of or F n m u p)) := by
  unfold totPair
  rw [hF]
  simp only [hf, hr, bind, Except.bind]
  have e0 : ∀ x : Mat ℝ, subNorm none (some x) = .ok none := fun _ => rfl
  have e1 : ∀ x : Option (Mat ℝ), subNorm x none = .ok none := fun x => by cases x <;> rfl
  cases of <;> cases or <;>
    simp only [subOf, Option.map_some, Option.map_none, e0, e1, subNorm_some, pairData, frob_jacDist] <;> rfl

theorem jacIf_spec (P : TotProb σ) (s : σ) (b : Bool) (k : GradKind) (n m : Str → Nat) (D : Str → Str → Nat → Nat → ℝ) (hD : b = true → P.Gives s k n m D) (ind unk : List Str)
    (hi : ∀ p ∈ ind, P.Indep p) (hu : ∀ u ∈ unk, P.Resp u) :
    ∃ j, P.jacIf s b k ind unk = .ok j ∧ ∀ u ∈ unk, ∀ p ∈ ind, getSub j (u, p) = .ok (subOf (if b then some D else none) n m u p) := by
  unfold TotProb.jacIf
  cases b with
  | false => exact ⟨none, rfl, fun u _ p _ => rfl⟩
  | true =>
    obtain ⟨J, h1, h2⟩ := hD rfl ind unk hi hu
    refine ⟨some (flatJac J), by simp [h1], fun u hu' p hp' => ?_⟩
    refine getSub_spec _ _ n m u p (fun h => by cases h) fun d hd => ?_
    cases hd
    exact ⟨D, rfl, flat_spec J ind unk n m D h2 u p hu' hp'⟩

theorem start_spec (P : TotProb σ) (stream : Bool) (s0 s : σ) (h : P.Starts stream s0 s) : P.start stream s0 = .ok s := by
  unfold TotProb.start
  rcases h with ⟨h, rfl⟩ | ⟨h, rfl, hr⟩
  · rw [if_neg (by omega)]
  · rw [if_pos (by omega)]
    exact hr

theorem check_core (P : TotProb σ) (stream : Bool) (s0 s : σ) (hst : P.Starts stream s0 s) (n m : Str → Nat) (A B F : Str → Str → Nat → Nat → ℝ)
    (ind unk : List Str) (hi : P.indeps = .ok ind) (hi' : ∀ p, p ∈ ind ↔ P.Indep p) (hu : P.resps = .ok unk) (hu' : ∀ u, u ∈ unk ↔ P.Resp u)
    (md : Bool × Bool) (hm : P.modes ind unk = .ok md) (hA : md.1 = true → P.Gives s .fwd n m A) (hB : md.2 = true → P.Gives s .rev n m B) (hF : P.Gives s .fd n m F) :
    ∃ data, P.check stream s0 = .ok data ∧ ∀ u p, data.lookup (u, p) = if u ∈ unk ∧ p ∈ ind then
      some (pairData (if md.1 then some A else none) (if md.2 then some B else none) F n m u p) else none := by
  obtain ⟨jf, f1, f2⟩ := jacIf_spec P s md.1 .fwd n m A hA ind unk (fun p hp => (hi' p).1 hp) (fun u hu => (hu' u).1 hu)
  obtain ⟨jr, r1, r2⟩ := jacIf_spec P s md.2 .rev n m B hB ind unk (fun p hp => (hi' p).1 hp) (fun u hu => (hu' u).1 hu)
  obtain ⟨J, g1, g2⟩ := hF ind unk (fun p hp => (hi' p).1 hp) (fun u hu => (hu' u).1 hu)
  obtain ⟨data, d1, d2⟩ := tot_fold jf jr (flatJac J) (fun k => pairData (if md.1 then some A else none) (if md.2 then some B else none) F n m k.1 k.2)
    (ind.flatMap fun p => unk.map fun u => (u, p)) (by
      intro k hk
      obtain ⟨p, hp, hk⟩ := List.mem_flatMap.1 hk
      obtain ⟨u, hu, rfl⟩ := List.mem_map.1 hk
      exact totPair_spec jf jr _ _ _ F n m u p (f2 u hu p hp) (r2 u hu p hp) (flat_spec J ind unk n m F g2 u p hu hp)) []
  refine ⟨data, ?_, fun u p => ?_⟩
  · unfold TotProb.check
    rw [start_spec P stream s0 s hst, hi, hu]
    simp only [bind, Except.bind, hm, f1, r1, g1]
    exact d1
  · rw [d2 (u, p)]
    have : (u, p) ∈ (ind.flatMap fun p => unk.map fun u => (u, p)) ↔ u ∈ unk ∧ p ∈ ind := by
      simp only [List.mem_flatMap, List.mem_map, Prod.mk.injEq]
      constructor
      · rintro ⟨p', hp', u', hu', rfl, rfl⟩
        exact ⟨hu', hp'⟩
      · rintro ⟨hu, hp⟩
        exact ⟨p, hp, u, hu, rfl, rfl⟩
    simp only [this]
    rfl

/-! ## C160 -/

/-- **C160, both modes.** Without relevance reduction the check returns an entry for exactly the pairs of a response and an independent variable of the
problem. Its absolute errors are the distances forward - finite difference, reverse - finite difference and forward - reverse of the matrices that
`calc_gradient` returns after the last run; the relative errors are these divided by the magnitude of the finite difference. Partial: the check must not be
the first thing asked of the problem when there is no stream (`C160_silent_refuted`), and `calc_gradient` is taken to succeed. -/
theorem C160_pairs_partial (P : TotProb σ) (cp up) (h : P.Sound cp up) (hred : P.reduce = false) (stream : Bool) (s0 s : σ) (hst : P.Starts stream s0 s)
    (n m : Str → Nat) (A B F : Str → Str → Nat → Nat → ℝ) (hA : P.Gives s .fwd n m A) (hB : P.Gives s .rev n m B) (hF : P.Gives s .fd n m F) :
    ∃ data, P.check stream s0 = .ok data ∧ ∀ u p, (¬ (P.Resp u ∧ P.Indep p) → data.lookup (u, p) = none) ∧
      (P.Resp u ∧ P.Indep p → ∃ X, data.lookup (u, p) = some X ∧
        X.magnitude = [some (jacDist (n u) (m p) (A u p) fun _ _ => 0), some (jacDist (n u) (m p) (B u p) fun _ _ => 0), some (jacDist (n u) (m p) (F u p) fun _ _ => 0)] ∧
        X.abs = [jacDist (n u) (m p) (A u p) (F u p), jacDist (n u) (m p) (B u p) (F u p), jacDist (n u) (m p) (A u p) (B u p)] ∧
        (jacDist (n u) (m p) (F u p) (fun _ _ => 0) ≠ 0 → X.rel = X.abs.map fun x => some (x / jacDist (n u) (m p) (F u p) fun _ _ => 0)) ∧
        (jacDist (n u) (m p) (F u p) (fun _ _ => 0) = 0 → ∀ r ∈ X.rel, r = none)) := by
  obtain ⟨ind, hi, hi'⟩ := indeps_spec P cp up h
  obtain ⟨unk, hu, hu'⟩ := resps_spec P cp up h
  obtain ⟨data, d1, d2⟩ := check_core P stream s0 s hst n m A B F ind unk hi hi' hu hu' (true, true) (by simp [TotProb.modes, hred]) (fun _ => hA) (fun _ => hB) hF
  refine ⟨data, d1, fun u p => ⟨fun hn => ?_, fun hy => ?_⟩⟩
  · rw [d2, if_neg (by rw [hu', hi']; exact hn)]
  · rw [d2, if_pos (by rw [hu', hi']; exact hy)]
    refine ⟨_, rfl, rfl, rfl, fun h0 => ?_, fun h0 => ?_⟩
    · simp only [pairData]
      rw [if_neg h0]
    · simp only [pairData]
      rw [if_pos h0]
      simp

/-- **C160, relevance reduction.** With relevance reduction one mode only is computed, the one `_mode` chooses (C60), and there is one error. -/
theorem C160_reduced_partial (P : TotProb σ) (cp up) (h : P.Sound cp up) (hred : P.reduce = true) (stream : Bool) (s0 s : σ) (hst : P.Starts stream s0 s)
    (hknown : ∀ v, P.Indep v ∨ P.Resp v → String.ofList v ∈ P.sizes.map Prod.fst)
    (n m : Str → Nat) (A B F : Str → Str → Nat → Nat → ℝ) (hA : P.Gives s .fwd n m A) (hB : P.Gives s .rev n m B) (hF : P.Gives s .fd n m F) :
    ∃ data rev, P.check stream s0 = .ok data ∧ (P.lnMode = .fwd → rev = false) ∧ (P.lnMode = .rev → rev = true) ∧
      (P.lnMode = .auto → ∃ ind unk : List Str, (∀ v, v ∈ ind ↔ P.Indep v) ∧ (∀ v, v ∈ unk ↔ P.Resp v) ∧
        (rev = true ↔ totalSize P.sizes (unk.map fun v => [String.ofList v]) < totalSize P.sizes (ind.map fun v => [String.ofList v]))) ∧
      ∀ u p, (¬ (P.Resp u ∧ P.Indep p) → data.lookup (u, p) = none) ∧
      (P.Resp u ∧ P.Indep p → ∃ X, data.lookup (u, p) = some X ∧
        X.magnitude = [if rev then none else some (jacDist (n u) (m p) (A u p) fun _ _ => 0), if rev then some (jacDist (n u) (m p) (B u p) fun _ _ => 0) else none,
          some (jacDist (n u) (m p) (F u p) fun _ _ => 0)] ∧
        X.abs = [jacDist (n u) (m p) (if rev then B u p else A u p) (F u p)] ∧
        (jacDist (n u) (m p) (F u p) (fun _ _ => 0) ≠ 0 → X.rel = X.abs.map fun x => some (x / jacDist (n u) (m p) (F u p) fun _ _ => 0)) ∧
        (jacDist (n u) (m p) (F u p) (fun _ _ => 0) = 0 → ∀ r ∈ X.rel, r = none)) := by
  obtain ⟨ind, hi, hi'⟩ := indeps_spec P cp up h
  obtain ⟨unk, hu, hu'⟩ := resps_spec P cp up h
  have hk : ∀ l : List Str, (∀ v ∈ l, P.Indep v ∨ P.Resp v) → AllKnown P.sizes (l.map fun v => [String.ofList v]) := by
    intro l hl e he x hx
    obtain ⟨v, hv, rfl⟩ := List.mem_map.1 he
    rw [List.mem_singleton] at hx
    subst hx
    exact hknown v (hl v hv)
  obtain ⟨md, c1, c2, -, c4, c5⟩ := C60_mode .auto P.lnMode (ind.map fun v => [String.ofList v]) (unk.map fun v => [String.ofList v]) P.sizes
    (hk ind fun v hv => Or.inl ((hi' v).1 hv)) (hk unk fun v hv => Or.inr ((hu' v).1 hv))
  have hmd : P.modes ind unk = .ok (if md = .fwd then (true, false) else (false, true)) := by
    unfold TotProb.modes
    rw [hred, c1]
    rfl
  have hcase : md = .fwd ∨ md = .rev := by
    cases md
    · exact Or.inl rfl
    · exact Or.inr rfl
    · exact absurd rfl c2
  obtain ⟨data, d1, d2⟩ := check_core P stream s0 s hst n m A B F ind unk hi hi' hu hu' _ hmd (fun _ => hA) (fun _ => hB) hF
  refine ⟨data, decide (md = .rev), d1, fun hl => ?_, fun hl => ?_, fun hl => ⟨ind, unk, hi', hu', ?_⟩, fun u p => ⟨fun hn => ?_, fun hy => ?_⟩⟩
  · have := c4 rfl (by rw [hl]; decide)
    rw [this, hl]; rfl
  · have := c4 rfl (by rw [hl]; decide)
    rw [this, hl]; rfl
  · rw [decide_eq_true_iff]
    exact c5 rfl hl
  · rw [d2, if_neg (by rw [hu', hi']; exact hn)]
  · rw [d2, if_pos (by rw [hu', hi']; exact hy)]
    rcases hcase with rfl | rfl
    · refine ⟨_, rfl, rfl, rfl, fun h0 => ?_, fun h0 => ?_⟩
      · simp only [pairData]
        rw [if_neg h0]
      · simp only [pairData]
        rw [if_pos h0]
        simp
    · refine ⟨_, rfl, rfl, rfl, fun h0 => ?_, fun h0 => ?_⟩
      · simp only [pairData]
        rw [if_neg h0]
      · simp only [pairData]
        rw [if_pos h0]
        simp

/-- **C160, refutation.** The documentation offers `out_stream=None` to suppress the output. On a problem that was not run before, the check with
`out_stream=None` is an `AttributeError`, whatever the problem. -/
theorem C160_silent_refuted (P : TotProb σ) (s0 : σ) (h : P.iterCount s0 = 0) : P.check false s0 = .error .AttributeError := by
  unfold TotProb.check TotProb.start
  rw [if_pos (by omega)]
  rfl

/-- **C160, errors.** Otherwise an exception of the first run is passed on. -/
theorem C160_run_fails (P : TotProb σ) (s0 : σ) (e : PyErr) (h : P.iterCount s0 = 0) (hr : P.runOnce s0 = .error e) : P.check true s0 = .error e := by
  unfold TotProb.check TotProb.start
  rw [if_pos (by omega)]
  simp only [if_true, hr]
  rfl

/-- **C160, zero.** An absolute error is zero exactly when the two matrices are the same. -/
theorem C160_zero (n m : Nat) (f g : Nat → Nat → ℝ) : jacDist n m f g = 0 ↔ ∀ i < n, ∀ j < m, f i j = g i j := by
  have := frob_zero_iff ⟨n, m, fun i j => f i j - g i j⟩
  rw [show jacDist n m f g = frob ⟨n, m, fun i j => f i j - g i j⟩ from rfl, this]
  simp only [sub_eq_zero]

/-- A component `c` with `y`, driven by `x` of the `IndepVarComp` `i`; `o` is a param passed by object from `i.t`. Nothing is declared in the driver. -/
noncomputable def totEx (r : Bool) (l : DMode) : TotProb Nat where
  iterCount := id
  runOnce := fun n => .ok (n + 1)
  grad := fun _ _ ind unk => .ok (unk.dedup.map fun u => (u, ind.dedup.map fun p => (p, ⟨1, 1, fun _ _ => 1⟩)))
  desvars := []
  objs := []
  cons := []
  toAbsU := []
  unkPbo := []
  root := .group [(['i'], .comp true), (['c'], .comp false)]
  conns := [(['c', '.', 'x'], ['i', '.', 'x']), (['c', '.', 'o'], ['i', '.', 't'])]
  parPbo := [(['c', '.', 'x'], false), (['c', '.', 'o'], true)]
  toProm := [(['i', '.', 'x'], ['x']), (['i', '.', 't'], ['t'])]
  unknowns := [(['x'], ['i', '.', 'x'], false), (['t'], ['i', '.', 't'], true), (['y'], ['c', '.', 'y'], false)]
  reduce := r
  lnMode := l
  sizes := [("x", 1), ("t", 0), ("y", 1)]

theorem totEx_sound (r : Bool) (l : DMode) : (totEx r l).Sound [([['c'], ['x']], [['i'], ['x']]), ([['c'], ['o']], [['i'], ['t']])]
    [(['x'], [['i'], ['x']], false), (['t'], [['i'], ['t']], true), (['y'], [['c'], ['y']], false)] where
  conns := rfl
  targets := by simp [totEx]
  connParts := by simp [GoodParts]
  sources := by
    intro c hc comp v hne he
    simp only [List.mem_cons, List.not_mem_nil, or_false] at hc
    have : comp = [['i']] := by
      rcases hc with rfl | rfl
      · exact (List.append_inj' (show [['i']] ++ [['x']] = comp ++ [v] from he) rfl).1.symm
      · exact (List.append_inj' (show [['i']] ++ [['t']] = comp ++ [v] from he) rfl).1.symm
    subst this
    exact ⟨true, .sub _ _ (.comp true) _ _ rfl (.here _)⟩
  params := by simp [totEx, List.lookup]
  unknowns := rfl
  names := by simp [totEx]
  unkParts := by
    intro u hu
    simp only [List.mem_cons, List.not_mem_nil, or_false] at hu
    rcases hu with rfl | rfl | rfl
    · exact ⟨by simp [GoodParts], [['i']], ['x'], true, by simp, rfl, .sub _ _ (.comp true) _ _ rfl (.here _)⟩
    · exact ⟨by simp [GoodParts], [['i']], ['t'], true, by simp, rfl, .sub _ _ (.comp true) _ _ rfl (.here _)⟩
    · exact ⟨by simp [GoodParts], [['c']], ['y'], false, by simp, rfl, .sub _ _ (.comp false) _ _ rfl (.here _)⟩
  desvars := by simp [totEx]
  responses := by simp [totEx]

theorem lookup_const {β : Type} (l : List Str) (f : Str → β) (a : Str) (h : a ∈ l) : (l.map fun u => (u, f u)).lookup a = some (f a) := by
  induction l with
  | nil => simp at h
  | cons b l ih =>
    rw [List.map_cons, List.lookup_cons]
    by_cases hab : a = b
    · subst hab; simp
    · rw [show (a == b) = false by simpa using hab]
      exact ih (by simpa [hab] using h)

theorem totEx_gives (r : Bool) (l : DMode) (s : Nat) (k : GradKind) : (totEx r l).Gives s k (fun _ => 1) (fun _ => 1) fun _ _ _ _ => 1 := by
  intro ind unk _ _
  have hk : ∀ {β : Type} (l : List Str) (f : Str → β), ((l.dedup.map fun u => (u, f u)).map Prod.fst).Nodup := by
    intro β l f
    rw [List.map_map, show (Prod.fst ∘ fun u => (u, f u)) = id from rfl, List.map_id]
    exact List.nodup_dedup l
  refine ⟨_, rfl, hk unk _, ?_, ?_⟩
  · intro r hr
    obtain ⟨u, -, rfl⟩ := List.mem_map.1 hr
    exact hk ind _
  · intro u hu
    exact ⟨_, lookup_const _ _ u (List.mem_dedup.2 hu), fun p hp => lookup_const _ _ p (List.mem_dedup.2 hp)⟩

/-- The check of the problem that was never run: it is run, and there is one pair. -/
example : ∃ data X, (totEx false .auto).check true 0 = .ok data ∧ data.lookup (['y'], ['x']) = some X ∧ X.abs = [0, 0, 0] ∧ data.lookup (['y'], ['t']) = none ∧ data.lookup (['x'], ['x']) = none := by
  have g := totEx_gives false .auto
  obtain ⟨data, h1, h2⟩ := C160_pairs_partial (totEx false .auto) _ _ (totEx_sound _ _) rfl true 0 1 (Or.inr ⟨rfl, rfl, rfl⟩) (fun _ => 1) (fun _ => 1) _ _ _ (g 1 .fwd) (g 1 .rev) (g 1 .fd)
  have hx : (totEx false .auto).Indep ['x'] := Or.inr ⟨rfl, ['c', '.', 'x'], [['i']], ['x'], by simp [totEx, dotted, pyJoin], by simp, by simp [GoodParts],
    .sub _ _ (.comp true) _ _ rfl (.here _), by simp [totEx], by simp [totEx, dotted, pyJoin]⟩
  have hy : (totEx false .auto).Resp ['y'] := Or.inr ⟨rfl, rfl, [['c']], ['y'], by simp [totEx, dotted, pyJoin], by simp, by simp [GoodParts], .sub _ _ (.comp false) _ _ rfl (.here _)⟩
  obtain ⟨X, x1, -, x3, -⟩ := (h2 ['y'] ['x']).2 ⟨hy, hx⟩
  refine ⟨data, X, h1, x1, by rw [x3]; simp [jacDist], (h2 _ _).1 ?_, (h2 _ _).1 ?_⟩
  · rintro ⟨-, h | ⟨-, tgt, comp, v, hm, -, -, -, hb, hn⟩⟩
    · exact h.1 rfl
    · simp only [totEx, List.mem_cons, Prod.mk.injEq, List.not_mem_nil, or_false] at hm
      rcases hm with ⟨rfl, hs⟩ | ⟨rfl, hs⟩
      · rw [hs] at hn
        simp [totEx] at hn
      · simp [totEx, List.lookup] at hb
  · rintro ⟨h | ⟨-, -, comp, v, hm, hc, hg, hat⟩, -⟩
    · rcases h.1 with h | h <;> exact h rfl
    · simp only [totEx, List.mem_cons, Prod.mk.injEq, List.not_mem_nil, or_false] at hm
      rcases hm with ⟨-, hs, -⟩ | ⟨h, -⟩ | ⟨h, -⟩
      · have : comp ++ [v] = [['i']] ++ [['x']] := dotted_inj hg (by simp [GoodParts]) (by simp) (by simp) (by rw [hs]; rfl)
        have := (List.append_inj' this rfl).1
        subst this
        cases hat with
        | sub subs nm s l t hl hrest =>
          simp [List.lookup] at hl
          subst hl
          cases hrest
      · simp at h
      · simp at h

example : (totEx false .auto).check false 0 = .error .AttributeError := C160_silent_refuted (totEx false .auto) 0 rfl

/-- With relevance reduction and reverse mode. -/
example : ∃ data rev, (totEx true .rev).check true 0 = .ok data ∧ rev = true ∧ ∃ X, data.lookup (['y'], ['x']) = some X ∧ X.abs = [0] := by
  have g := totEx_gives true .rev
  obtain ⟨data, rev, h1, -, h3, -, h5⟩ := C160_reduced_partial (totEx true .rev) _ _ (totEx_sound _ _) rfl true 0 1 (Or.inr ⟨rfl, rfl, rfl⟩) (by
    rintro v ((h | ⟨-, tgt, comp, v', hm, -, -, -, hb, hn⟩) | (h | ⟨-, -, comp, v', hm, -⟩))
    · exact absurd rfl h.1
    · simp only [totEx, List.mem_cons, Prod.mk.injEq, List.not_mem_nil, or_false] at hm
      rcases hm with ⟨rfl, hs⟩ | ⟨rfl, hs⟩
      · rw [hs] at hn
        simp [totEx] at hn
        subst hn
        simp [totEx]
      · simp [totEx, List.lookup] at hb
    · rcases h.1 with h | h <;> exact absurd rfl h
    · simp only [totEx, List.mem_cons, Prod.mk.injEq, List.not_mem_nil, or_false] at hm
      rcases hm with ⟨rfl, -⟩ | ⟨rfl, -⟩ | ⟨rfl, -⟩ <;> simp [totEx]) (fun _ => 1) (fun _ => 1) _ _ _ (g 1 .fwd) (g 1 .rev) (g 1 .fd)
  have hx : (totEx true .rev).Indep ['x'] := Or.inr ⟨rfl, ['c', '.', 'x'], [['i']], ['x'], by simp [totEx, dotted, pyJoin], by simp, by simp [GoodParts],
    .sub _ _ (.comp true) _ _ rfl (.here _), by simp [totEx], by simp [totEx, dotted, pyJoin]⟩
  have hy : (totEx true .rev).Resp ['y'] := Or.inr ⟨rfl, rfl, [['c']], ['y'], by simp [totEx, dotted, pyJoin], by simp, by simp [GoodParts], .sub _ _ (.comp false) _ _ rfl (.here _)⟩
  obtain ⟨X, x1, -, x3, -⟩ := (h5 ['y'] ['x']).2 ⟨hy, hx⟩
  exact ⟨data, rev, h1, h3 rfl, X, x1, by rw [x3]; simp [jacDist]⟩

end OpenMDAO
