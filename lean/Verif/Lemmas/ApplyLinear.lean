import Verif.Spec.ApplyLinear
import Mathlib.Tactic.Ring
import Mathlib.Algebra.BigOperators.Group.Finset.Sigma
import Mathlib.Algebra.BigOperators.Group.List.Basic
/-! Helper lemmas for C31. -/
namespace OpenMDAO

set_option linter.unusedSectionVars false

variable {K : Type} [CommRing K]

theorem dot_eq_sum (u v : List K) (n : Nat) (hu : u.length = n) (hv : v.length = n) :
    dot u v = ∑ i ∈ Finset.range n, u.getD i 0 * v.getD i 0 := by
  induction n generalizing u v with
  | zero =>
    rw [List.length_eq_zero_iff] at hu; subst hu; simp [dot]
  | succ n ih =>
    cases u with
    | nil => simp at hu
    | cons x u =>
      cases v with
      | nil => simp at hv
      | cons y v =>
        have := ih u v (by simpa using hu) (by simpa using hv)
        rw [Finset.sum_range_succ']
        simp only [dot, List.zipWith_cons_cons, List.sum_cons] at this ⊢
        rw [this]
        simp [add_comm]

theorem dot_comm' (u v : List K) : dot u v = dot v u := by
  unfold dot
  rw [List.zipWith_comm]
  simp [mul_comm]

theorem dot_add (y v d : List K) (h : d.length = v.length) (hy : y.length = v.length) :
    dot y (List.zipWith (· + ·) v d) = dot y v + dot y d := by
  rw [dot_eq_sum _ _ v.length hy (by simp [h]), dot_eq_sum _ _ v.length hy rfl,
    dot_eq_sum _ _ v.length hy h, ← Finset.sum_add_distrib]
  refine Finset.sum_congr rfl fun i hi => ?_
  rw [Finset.mem_range] at hi
  have h1 : i < d.length := by omega
  rw [List.getD_eq_getElem?_getD, List.getD_eq_getElem?_getD, List.getD_eq_getElem?_getD, List.getD_eq_getElem?_getD,
    List.getElem?_zipWith, List.getElem?_eq_getElem hi, List.getElem?_eq_getElem h1]
  simp [mul_add]

theorem dot_neg_right (y v : List K) : dot y (v.map fun x => -x) = - dot y v := by
  unfold dot
  induction y generalizing v with
  | nil => simp
  | cons a y ih =>
    cases v with
    | nil => simp
    | cons b v => simp [ih v, add_comm]

theorem dot_zeros (y v : List K) : dot y (v.map fun _ => (0 : K)) = 0 := by
  unfold dot
  induction y generalizing v with
  | nil => simp
  | cons a y ih =>
    cases v with
    | nil => simp
    | cons b v => simpa using ih v

theorem dot_scale (y v : List K) (k : K) : dot y (v.map (· * k)) = dot (y.map (· * k)) v := by
  unfold dot
  induction y generalizing v with
  | nil => simp
  | cons a y ih =>
    cases v with
    | nil => simp
    | cons b v =>
      simp only [List.map_cons, List.zipWith_cons_cons, List.sum_cons, ih v]
      ring

/-- A matrix of matching shape can be applied, and its inner product with any vector is the bilinear form. -/
theorem Mat.dot_ok (J : Mat K) (x y : List K) (hx : x.length = J.n) (hy : y.length = J.m) :
    ∃ d, J.dot x = .ok d ∧ d.length = J.m ∧ OpenMDAO.dot y d = bil y J x := by
  refine ⟨_, by rw [Mat.dot, if_pos hx], by simp, ?_⟩
  rw [dot_eq_sum _ _ J.m hy (by simp)]
  unfold bil
  refine Finset.sum_congr rfl fun i hi => ?_
  rw [Finset.mem_range] at hi
  rw [List.getD_eq_getElem?_getD (l := (List.range J.m).map _), List.getElem?_map, List.getElem?_range hi]
  simp only [Option.map_some, Option.getD_some, Finset.mul_sum]
  refine Finset.sum_congr rfl fun j _ => ?_
  ring

theorem bil_T (y : List K) (J : Mat K) (x : List K) : bil x J.T y = bil y J x := by
  unfold bil Mat.T
  rw [Finset.sum_comm]
  refine Finset.sum_congr rfl fun i _ => Finset.sum_congr rfl fun j _ => ?_
  ring

theorem lookup_layout (d : DVec K) (n : String) : d.layout.lookup n = (d.lookup n).map List.length := by
  induction d with
  | nil => rfl
  | cons e d ih =>
    obtain ⟨k, v⟩ := e
    simp only [DVec.layout, List.map_cons, List.lookup_cons] at ih ⊢
    cases hk : n == k with
    | true => simp
    | false => simpa using ih

theorem layout_put (d : DVec K) (n : String) (v w : List K) (h : d.lookup n = some v) (hl : w.length = v.length) :
    (d.put n w).layout = d.layout := by
  induction d with
  | nil => rfl
  | cons e d ih =>
    obtain ⟨k, u⟩ := e
    unfold DVec.put
    rw [List.lookup_cons] at h
    by_cases hk : n = k
    · subst hk
      simp only [beq_self_eq_true] at h
      injection h with h
      subst h
      simp [DVec.layout, hl]
    · have : (n == k) = false := by simpa using hk
      rw [this] at h
      have := ih h
      simp only [DVec.layout] at this
      simp [DVec.layout, hk, this]

/-- Effect of replacing one value on the inner product. -/
theorem dvDot_put (b d : DVec K) (n : String) (v w y : List K) (hl : b.layout = d.layout)
    (h : d.lookup n = some v) (hb : b.lookup n = some y) :
    dvDot b (d.put n w) = dvDot b d + (dot y w - dot y v) := by
  induction d generalizing b with
  | nil => simp at h
  | cons e d ih =>
    obtain ⟨k, u⟩ := e
    cases b with
    | nil => simp at hb
    | cons f b =>
      obtain ⟨k', x⟩ := f
      simp only [DVec.layout, List.map_cons, List.cons.injEq, Prod.mk.injEq] at hl
      obtain ⟨⟨hkk, hlen⟩, hl⟩ := hl
      subst hkk
      rw [List.lookup_cons] at h hb
      unfold DVec.put
      by_cases hk : n = k'
      · subst hk
        simp only [beq_self_eq_true] at h hb
        injection h with h
        injection hb with hb
        subst h hb
        simp [dvDot]
        ring
      · have hne : (n == k') = false := by simpa using hk
        rw [hne] at h hb
        have := ih b hl h hb
        simp only [dvDot] at this
        simp only [dvDot, hk, if_false, List.zipWith_cons_cons, List.sum_cons, this]
        ring

theorem lookup_of_layout (b d : DVec K) (n : String) (v : List K) (hl : b.layout = d.layout) (h : d.lookup n = some v) :
    ∃ y, b.lookup n = some y ∧ y.length = v.length := by
  have h1 := lookup_layout d n
  rw [← hl, lookup_layout b n, h] at h1
  cases hb : b.lookup n with
  | none => rw [hb] at h1; cases h1
  | some y =>
    rw [hb] at h1
    exact ⟨y, rfl, by simpa using h1⟩

theorem lookup_none_of_layout (b d : DVec K) (n : String) (hl : b.layout = d.layout) (h : d.lookup n = none) :
    b.lookup n = none := by
  have h1 := lookup_layout d n
  rw [← hl, lookup_layout b n, h] at h1
  cases hb : b.lookup n with
  | none => rfl
  | some y => rw [hb] at h1; cases h1

/-- One Jacobian block: succeeds, keeps the layout, and adds the bilinear form to the inner product. -/
theorem jacTerm_spec (J : Mat K) (out arg b : DVec K) (o a : String) (hl : b.layout = out.layout)
    (hs : ∀ m n, out.layout.lookup o = some m → arg.layout.lookup a = some n → J.m = m ∧ J.n = n) :
    ∃ out', jacTerm J out o arg a = .ok out' ∧ out'.layout = out.layout ∧
      dvDot b out' = dvDot b out + bilAt b o J arg a := by
  unfold jacTerm
  cases ho : out.lookup o with
  | none =>
    refine ⟨out, rfl, rfl, ?_⟩
    simp [bilAt, lookup_none_of_layout b out o hl ho]
  | some v =>
    cases ha : arg.lookup a with
    | none =>
      refine ⟨out, rfl, rfl, ?_⟩
      unfold bilAt
      cases b.lookup o <;> simp [ha]
    | some x =>
      obtain ⟨hm, hn⟩ := hs v.length x.length (by rw [lookup_layout, ho]; rfl) (by rw [lookup_layout, ha]; rfl)
      obtain ⟨y, hy, hyl⟩ := lookup_of_layout b out o v hl ho
      obtain ⟨d, hd, hdl, hdd⟩ := J.dot_ok x y hn.symm (by rw [hyl, hm])
      have hdv : d.length = v.length := by rw [hdl, hm]
      have hi : iadd v d = .ok (List.zipWith (· + ·) v d) := by unfold iadd; rw [if_pos hdv]
      refine ⟨out.put o (List.zipWith (· + ·) v d), ?_, ?_, ?_⟩
      · simp only [hd, hi]
      · exact layout_put out o v _ ho (by simp [hdv])
      · rw [dvDot_put b out o v _ y hl ho hy, dot_add y v d hdv hyl, hdd]
        simp only [bilAt, hy, ha]
        ring

/-- What a Jacobian entry contributes to `⟨dr, A (dp, du)⟩`. -/
def entryTerm (c : LinComp K) (dr dp du : DVec K) (e : (String × String) × Mat K) : K :=
  if c.skips e.1.2 then 0
  else if c.states.contains e.1.2 then bilAt dr e.1.1 e.2 du e.1.2
  else bilAt dr e.1.1 e.2 dp e.1.2

theorem bilAt_T (ys xs : DVec K) (o a : String) (J : Mat K) : bilAt xs a J.T ys o = bilAt ys o J xs a := by
  unfold bilAt
  cases ys.lookup o <;> cases xs.lookup a <;> simp [bil_T]

theorem jacFwd_fold (c : LinComp K) (dp du b : DVec K) (jac : List ((String × String) × Mat K)) :
    ∀ (dr : DVec K), b.layout = dr.layout → ShapesMatch jac c.states dp.layout dr.layout → du.layout = dr.layout →
    ∃ dr', jac.foldlM (jacStepFwd c dp du) dr = .ok dr' ∧ dr'.layout = dr.layout ∧
      dvDot b dr' = dvDot b dr + (jac.map (entryTerm c b dp du)).sum := by
  induction jac with
  | nil => intro dr _ _ _; exact ⟨dr, rfl, rfl, by simp⟩
  | cons e jac ih =>
    intro dr hl hs hu
    have hstep : ∃ dr1, jacStepFwd c dp du dr e = .ok dr1 ∧ dr1.layout = dr.layout ∧
        dvDot b dr1 = dvDot b dr + entryTerm c b dp du e := by
      unfold jacStepFwd entryTerm
      have hse := hs e (by simp)
      by_cases h1 : c.skips e.1.2
      · simp [h1]
      · by_cases h2 : c.states.contains e.1.2
        · have h2' : e.1.2 ∈ c.states := by simpa using h2
          simp only [h1, h2, if_true]
          refine jacTerm_spec e.2 dr du b e.1.1 e.1.2 hl fun m n hm hn => ?_
          refine hse m n hm ?_
          rw [if_pos h2', ← hu]; exact hn
        · have h2' : e.1.2 ∉ c.states := by simpa using h2
          simp only [h1, h2]
          refine jacTerm_spec e.2 dr dp b e.1.1 e.1.2 hl fun m n hm hn => ?_
          refine hse m n hm ?_
          rw [if_neg h2']; exact hn
    obtain ⟨dr1, h1, h1l, h1d⟩ := hstep
    obtain ⟨dr2, h2, h2l, h2d⟩ := ih dr1 (hl.trans h1l.symm)
      (by rw [h1l]; exact fun e' he' => hs e' (by simp [he'])) (hu.trans h1l.symm)
    refine ⟨dr2, ?_, h2l.trans h1l, ?_⟩
    · rw [List.foldlM_cons, h1]; exact h2
    · rw [h2d, h1d]; simp; ring

theorem jacRev_fold (c : LinComp K) (dr bp bu : DVec K) (jac : List ((String × String) × Mat K)) :
    ∀ (dp du : DVec K), bp.layout = dp.layout → bu.layout = du.layout →
    ShapesMatch jac c.states dp.layout dr.layout → du.layout = dr.layout →
    ∃ r, jac.foldlM (jacStepRev c dr) (dp, du) = .ok r ∧ r.1.layout = dp.layout ∧ r.2.layout = du.layout ∧
      dvDot bp r.1 + dvDot bu r.2 = dvDot bp dp + dvDot bu du + (jac.map (entryTerm c dr bp bu)).sum := by
  induction jac with
  | nil => intro dp du _ _ _ _; exact ⟨(dp, du), rfl, rfl, rfl, by simp⟩
  | cons e jac ih =>
    intro dp du hlp hlu hs hu
    have hstep : ∃ r, jacStepRev c dr (dp, du) e = .ok r ∧ r.1.layout = dp.layout ∧ r.2.layout = du.layout ∧
        dvDot bp r.1 + dvDot bu r.2 = dvDot bp dp + dvDot bu du + entryTerm c dr bp bu e := by
      unfold jacStepRev entryTerm
      have hse := hs e (by simp)
      by_cases h1 : c.skips e.1.2
      · exact ⟨(dp, du), by simp [h1], rfl, rfl, by simp [h1]⟩
      · by_cases h2 : c.states.contains e.1.2
        · have h2' : e.1.2 ∈ c.states := by simpa using h2
          obtain ⟨w, hw, hwl, hwd⟩ := jacTerm_spec e.2.T du dr bu e.1.2 e.1.1 hlu fun m n hm hn => by
            have := hse n m hn (by rw [if_pos h2', ← hu]; exact hm)
            exact ⟨this.2, this.1⟩
          refine ⟨(dp, w), ?_, rfl, hwl, ?_⟩
          · simp [h1, h2', hw, Except.map]
          · simp only [h1, h2, if_true, hwd, bilAt_T]; simp; ring
        · have h2' : e.1.2 ∉ c.states := by simpa using h2
          obtain ⟨w, hw, hwl, hwd⟩ := jacTerm_spec e.2.T dp dr bp e.1.2 e.1.1 hlp fun m n hm hn => by
            have := hse n m hn (by rw [if_neg h2']; exact hm)
            exact ⟨this.2, this.1⟩
          refine ⟨(w, du), ?_, hwl, rfl, ?_⟩
          · simp [h1, h2', hw, Except.map]
          · simp only [h1, h2, hwd, bilAt_T]; simp; ring
    obtain ⟨r1, h1, h1p, h1u, h1d⟩ := hstep
    obtain ⟨r2, h2, h2p, h2u, h2d⟩ := ih r1.1 r1.2 (hlp.trans h1p.symm) (hlu.trans h1u.symm)
      (by rw [h1p]; exact fun e' he' => hs e' (by simp [he'])) (h1u.trans hu)
    refine ⟨r2, ?_, h2p.trans h1p, h2u.trans h1u, ?_⟩
    · rw [List.foldlM_cons, h1]; exact h2
    · rw [h2d, h1d]; simp; ring

theorem layout_scaleBy (f : String → Option K) (d : DVec K) : (scaleBy f d).layout = d.layout := by
  unfold DVec.layout scaleBy
  rw [List.map_map]
  refine List.map_congr_left fun e _ => ?_
  simp only [Function.comp]
  cases f e.1 <;> simp

theorem layout_zeroVec (d : DVec K) : (zeroVec d).layout = d.layout := by
  unfold DVec.layout zeroVec
  rw [List.map_map]
  exact List.map_congr_left fun e _ => by simp

theorem dvDot_zeroVec (b d : DVec K) : dvDot b (zeroVec d) = 0 := by
  unfold dvDot zeroVec
  induction b generalizing d with
  | nil => simp
  | cons e b ih =>
    cases d with
    | nil => simp
    | cons f d =>
      have := ih d
      simp only [List.map_cons, List.zipWith_cons_cons, List.sum_cons, dot_zeros, this, add_zero]

theorem dvDot_scaleBy (f : String → Option K) (b d : DVec K) (hl : b.layout = d.layout) :
    dvDot b (scaleBy f d) = dvDot (scaleBy f b) d := by
  induction b generalizing d with
  | nil => simp [dvDot, scaleBy]
  | cons e b ih =>
    cases d with
    | nil => simp [dvDot, scaleBy]
    | cons g d =>
      simp only [DVec.layout, List.map_cons, List.cons.injEq, Prod.mk.injEq] at hl
      have := ih d hl.2
      simp only [dvDot, scaleBy] at this
      simp only [dvDot, scaleBy, List.map_cons, List.zipWith_cons_cons, List.sum_cons, this]
      rw [hl.1.1]
      cases f g.1 with
      | none => rfl
      | some k => simp only [dot_scale]

/-- inner product with the variable of the given name (0 when absent) -/
def dotAt (b : DVec K) (e : String × List K) : K :=
  match b.lookup e.1 with
  | some y => dot y e.2
  | none => 0

theorem subIdent_spec (c : LinComp K) (b : DVec K) (frm : DVec K) :
    ∀ acc : DVec K, b.layout = acc.layout → (∀ e ∈ frm, acc.layout.lookup e.1 = some e.2.length) →
    ∃ r, subIdent c acc frm = .ok r ∧ r.layout = acc.layout ∧
      dvDot b r = dvDot b acc - (frm.map fun e => if c.ident e.1 then dotAt b e else 0).sum := by
  unfold subIdent
  induction frm with
  | nil => intro acc _ _; exact ⟨acc, rfl, rfl, by simp⟩
  | cons e frm ih =>
    intro acc hl hf
    have hstep : ∃ r, subIdentStep c acc e = .ok r ∧ r.layout = acc.layout ∧
        dvDot b r = dvDot b acc - (if c.ident e.1 then dotAt b e else 0) := by
      unfold subIdentStep
      by_cases h1 : c.ident e.1
      · have h2 := hf e (by simp)
        rw [lookup_layout] at h2
        cases hv : acc.lookup e.1 with
        | none => rw [hv] at h2; cases h2
        | some v =>
          rw [hv] at h2
          have h2 : v.length = e.2.length := by simpa using h2
          obtain ⟨y, hy, hyl⟩ := lookup_of_layout b acc e.1 v hl hv
          have hi : iadd v (e.2.map fun x => -x) = .ok (List.zipWith (· + ·) v (e.2.map fun x => -x)) := by
            unfold iadd; rw [if_pos (by simp [h2])]
          refine ⟨acc.put e.1 (List.zipWith (· + ·) v (e.2.map fun x => -x)), ?_, ?_, ?_⟩
          · simp only [h1, if_true, hi]
          · exact layout_put acc e.1 v _ hv (by simp [h2])
          · rw [dvDot_put b acc e.1 v _ y hl hv hy, dot_add y v _ (by simp [h2]) hyl, dot_neg_right]
            simp only [h1, if_true, dotAt, hy]
            ring
      · exact ⟨acc, by simp [h1], rfl, by simp [h1]⟩
    obtain ⟨r1, h1, h1l, h1d⟩ := hstep
    obtain ⟨r2, h2, h2l, h2d⟩ := ih r1 (hl.trans h1l.symm) (by rw [h1l]; exact fun e' he' => hf e' (by simp [he']))
    refine ⟨r2, ?_, h2l.trans h1l, ?_⟩
    · rw [List.foldlM_cons, h1]; exact h2
    · rw [h2d, h1d]; simp; ring

theorem lookup_self_layout (d : DVec K) (hn : (d.map Prod.fst).Nodup) : ∀ e ∈ d, d.lookup e.1 = some e.2 := by
  induction d with
  | nil => simp
  | cons f d ih =>
    intro e he
    obtain ⟨k, v⟩ := f
    simp only [List.map_cons, List.nodup_cons] at hn
    rw [List.lookup_cons]
    rcases List.mem_cons.mp he with h | h
    · subst h; simp
    · have hne : e.1 ≠ k := fun hh => hn.1 (hh ▸ List.mem_map_of_mem (f := Prod.fst) h)
      have : (e.1 == k) = false := by simpa using hne
      rw [this]
      exact ih hn.2 e h

/-- The `-I` part is symmetric. -/
theorem identSum_symm (c : LinComp K) (a b : DVec K) (hl : a.layout = b.layout) (hn : (a.map Prod.fst).Nodup) :
    (b.map fun e => if c.ident e.1 then dotAt a e else 0).sum =
      (a.map fun e => if c.ident e.1 then dotAt b e else 0).sum := by
  induction a generalizing b with
  | nil =>
    cases b with
    | nil => rfl
    | cons f b => simp [DVec.layout] at hl
  | cons e a ih =>
    cases b with
    | nil => simp [DVec.layout] at hl
    | cons f b =>
      obtain ⟨k, x⟩ := e
      obtain ⟨k', y⟩ := f
      simp only [DVec.layout, List.map_cons, List.cons.injEq, Prod.mk.injEq] at hl
      obtain ⟨⟨hk, hlen⟩, hl⟩ := hl
      subst hk
      simp only [List.map_cons, List.nodup_cons] at hn
      have hkeys : a.map Prod.fst = b.map Prod.fst := by
        have := congrArg (List.map Prod.fst) hl
        simpa [List.map_map, Function.comp_def] using this
      have ha : ∀ (u v : DVec K) (z : List K), k ∉ u.map Prod.fst →
          (u.map fun e => if c.ident e.1 then dotAt ((k, z) :: v) e else 0) =
          (u.map fun e => if c.ident e.1 then dotAt v e else 0) := by
        intro u v z hu
        refine List.map_congr_left fun e he => ?_
        have hne : e.1 ≠ k := fun hh => hu (hh ▸ List.mem_map_of_mem (f := Prod.fst) he)
        have : (e.1 == k) = false := by simpa using hne
        simp only [dotAt, List.lookup_cons, this]
      simp only [List.map_cons, List.sum_cons]
      rw [ha b a x (hkeys ▸ hn.1), ha a b y hn.1, ih b hl hn.2]
      congr 1
      by_cases h : c.ident k <;> simp [h, dotAt, dot_comm']

end OpenMDAO
