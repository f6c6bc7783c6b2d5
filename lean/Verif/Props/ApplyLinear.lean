import Verif.Lemmas.ApplyLinear
import Mathlib.Algebra.Order.Ring.Rat
import Mathlib.Tactic.NormNum
/-!
# C31: forward and reverse Jacobian-vector products of a component are adjoint
-/
namespace OpenMDAO

set_option linter.unusedSectionVars false

variable {K : Type} [CommRing K]

/-- What a Jacobian entry contributes, with the unit factors applied to the params and the residual scaling to the residuals
(neither when the derivatives are finite differences). -/
def fullTerm (c : LinComp K) (jac : List ((String × String) × Mat K)) (b dp du : DVec K) : K :=
  if c.doApply = false then 0
  else if c.forceFd then (jac.map (entryTerm c b dp du)).sum
  else (jac.map (entryTerm c (scaleBy c.residFactor b) (scaleBy c.unitFactor dp) du)).sum

theorem sysApplyFwd_spec (c : LinComp K) (jac : List ((String × String) × Mat K)) (dp du dr b : DVec K)
    (hjac : c.jac = some jac) (hu : du.layout = dr.layout) (hb : b.layout = dr.layout) (hnd : (dr.map Prod.fst).Nodup)
    (hs : ShapesMatch jac c.states dp.layout dr.layout) :
    ∃ o, sysApplyFwd c dp du dr = .ok o ∧ o.dr.layout = dr.layout ∧
      dvDot b o.dr = fullTerm c jac b dp du - (du.map fun e => if c.ident e.1 then dotAt b e else 0).sum := by
  have hz : (zeroVec dr).layout = dr.layout := layout_zeroVec dr
  have hkeys : ∀ x y : DVec K, x.layout = y.layout → x.map Prod.fst = y.map Prod.fst := by
    intro x y h
    have := congrArg (List.map Prod.fst) h
    simpa [DVec.layout, List.map_map, Function.comp_def] using this
  have hpart : ∃ p, applyPartFwd c dp du (zeroVec dr) = .ok p ∧ p.2.layout = dr.layout ∧
      dvDot b p.2 = fullTerm c jac b dp du := by
    unfold applyPartFwd fullTerm
    cases hd : c.doApply with
    | false => exact ⟨_, rfl, hz, by simp [dvDot_zeroVec]⟩
    | true =>
      cases hf : c.forceFd with
      | true =>
        obtain ⟨d, h1, h2, h3⟩ := jacFwd_fold c dp du b jac (zeroVec dr) (by rw [hz, hb]) (by rw [hz]; exact hs)
          (by rw [hz, hu])
        refine ⟨(dp, d), ?_, h2.trans hz, ?_⟩
        · simp [applyLinearJacFwd, hjac, h1, Except.map]
        · simp [h3, dvDot_zeroVec]
      | false =>
        obtain ⟨d, h1, h2, h3⟩ := jacFwd_fold c (scaleBy c.unitFactor dp) du (scaleBy c.residFactor b) jac (zeroVec dr)
          (by rw [hz, layout_scaleBy, hb]) (by rw [hz, layout_scaleBy]; exact hs) (by rw [hz, hu])
        refine ⟨(scaleBy c.unitFactor dp, scaleBy c.residFactor d), ?_, ?_, ?_⟩
        · simp [applyLinearJacFwd, hjac, h1, Except.map]
        · rw [layout_scaleBy, h2, hz]
        · rw [dvDot_scaleBy _ _ _ (by rw [h2, hz, hb]), h3, dvDot_zeroVec]
          simp
  obtain ⟨p, hp, hpl, hpd⟩ := hpart
  have hself : ∀ e ∈ du, p.2.layout.lookup e.1 = some e.2.length := by
    intro e he
    rw [hpl, ← hu, lookup_layout, lookup_self_layout du (by rw [hkeys du dr hu]; exact hnd) e he]
    rfl
  obtain ⟨r, hr, hrl, hrd⟩ := subIdent_spec c b du p.2 (by rw [hpl, hb]) hself
  refine ⟨⟨p.1, du, r⟩, ?_, hrl.trans hpl, ?_⟩
  · simp only [sysApplyFwd, hp, hr, Except.map]
  · rw [hrd, hpd]

theorem sysApplyRev_spec (c : LinComp K) (jac : List ((String × String) × Mat K)) (dp du dr bp bu : DVec K)
    (hjac : c.jac = some jac) (hu : du.layout = dr.layout) (hbp : bp.layout = dp.layout) (hbu : bu.layout = du.layout)
    (hnd : (dr.map Prod.fst).Nodup) (hs : ShapesMatch jac c.states dp.layout dr.layout) :
    ∃ o, sysApplyRev c dp du dr = .ok o ∧ o.dp.layout = dp.layout ∧ o.du.layout = du.layout ∧
      dvDot bp o.dp + dvDot bu o.du =
        fullTerm c jac dr bp bu - (dr.map fun e => if c.ident e.1 then dotAt bu e else 0).sum := by
  have hzp : (zeroVec dp).layout = dp.layout := layout_zeroVec dp
  have hzu : (zeroVec du).layout = du.layout := layout_zeroVec du
  have hself : ∀ e ∈ dr, (zeroVec du).layout.lookup e.1 = some e.2.length := by
    intro e he
    rw [hzu, hu, lookup_layout, lookup_self_layout dr hnd e he]
    rfl
  obtain ⟨du1, hd1, hd1l, hd1d⟩ := subIdent_spec c bu dr (zeroVec du) (by rw [hzu, hbu]) hself
  rw [hzu] at hd1l
  rw [dvDot_zeroVec] at hd1d
  have hpart : ∃ o, applyPartRev c dr (zeroVec dp) du1 = .ok o ∧ o.dp.layout = dp.layout ∧ o.du.layout = du.layout ∧
      dvDot bp o.dp + dvDot bu o.du = fullTerm c jac dr bp bu + dvDot bu du1 := by
    unfold applyPartRev fullTerm
    cases hd : c.doApply with
    | false => exact ⟨_, rfl, hzp, hd1l, by simp [dvDot_zeroVec]⟩
    | true =>
      cases hf : c.forceFd with
      | true =>
        obtain ⟨r, h1, h2, h3, h4⟩ := jacRev_fold c dr bp bu jac (zeroVec dp) du1 (by rw [hzp, hbp]) (by rw [hd1l, hbu])
          (by rw [hzp]; exact hs) (by rw [hd1l, hu])
        refine ⟨⟨r.1, r.2, dr⟩, ?_, h2.trans hzp, h3.trans hd1l, ?_⟩
        · simp [applyLinearJacRev, hjac, h1, Except.map]
        · rw [h4, dvDot_zeroVec]; simp; ring
      | false =>
        obtain ⟨r, h1, h2, h3, h4⟩ := jacRev_fold c (scaleBy c.residFactor dr) (scaleBy c.unitFactor bp) bu jac (zeroVec dp) du1
          (by rw [layout_scaleBy, hzp, hbp]) (by rw [hd1l, hbu])
          (by rw [hzp, layout_scaleBy]; exact hs) (by rw [hd1l, hu, layout_scaleBy])
        refine ⟨⟨scaleBy c.unitFactor r.1, r.2, scaleBy c.residFactor dr⟩, ?_, ?_, h3.trans hd1l, ?_⟩
        · simp [applyLinearJacRev, hjac, h1, Except.map]
        · rw [layout_scaleBy, h2, hzp]
        · rw [dvDot_scaleBy _ _ _ (by rw [h2, hzp, hbp]), h4, dvDot_zeroVec]; simp; ring
  obtain ⟨o, ho, h1, h2, h3⟩ := hpart
  refine ⟨o, ?_, h1, h2, ?_⟩
  · simp only [sysApplyRev, hd1, ho]
  · rw [h3, hd1d]; ring

/-- **C31.** For every component with declared partials of matching shapes, every direction `(dp, du)` and every `dr` (of the
layouts of the component's vectors), forward and reverse application both succeed, whatever the result vectors contained
before (`dr0`, `dp0`, `du0`), and `⟨dr, A(dp, du)⟩ = ⟨dp, Aᵀdr⟩ + ⟨du, Aᵀdr⟩`. All settings are covered: states, `-I` of
explicit outputs, restricted outputs of Gauss-Seidel, relevant inputs, unit factors, residual scaling, missing partials and
partials of variables that are not in the vectors, finite differences, `do_apply`. -/
theorem C31_adjoint (c : LinComp K) (jac : List ((String × String) × Mat K)) (dp du dr dp0 du0 dr0 : DVec K)
    (hjac : c.jac = some jac) (hp : dp0.layout = dp.layout) (hu : du.layout = dr.layout) (hu0 : du0.layout = dr.layout)
    (hr0 : dr0.layout = dr.layout) (hnd : (dr.map Prod.fst).Nodup)
    (hs : ShapesMatch jac c.states dp.layout dr.layout) :
    ∃ f r, sysApplyFwd c dp du dr0 = .ok f ∧ sysApplyRev c dp0 du0 dr = .ok r ∧
      f.dr.layout = dr.layout ∧ r.dp.layout = dp.layout ∧ r.du.layout = dr.layout ∧
      dvDot dr f.dr = dvDot dp r.dp + dvDot du r.du := by
  have hk : dr0.map Prod.fst = dr.map Prod.fst := by
    have := congrArg (List.map Prod.fst) hr0
    simpa [DVec.layout, List.map_map, Function.comp_def] using this
  have hk' : du.map Prod.fst = dr.map Prod.fst := by
    have := congrArg (List.map Prod.fst) hu
    simpa [DVec.layout, List.map_map, Function.comp_def] using this
  obtain ⟨f, h1, h1l, h2⟩ := sysApplyFwd_spec c jac dp du dr0 dr hjac (hu.trans hr0.symm) hr0.symm (by rw [hk]; exact hnd)
    (by rw [hr0]; exact hs)
  obtain ⟨r, h3, h3p, h3u, h4⟩ := sysApplyRev_spec c jac dp0 du0 dr dp du hjac hu0 hp.symm (hu.trans hu0.symm) hnd
    (by rw [hp]; exact hs)
  refine ⟨f, r, h1, h3, h1l.trans hr0, h3p.trans hp, h3u.trans hu0, ?_⟩
  rw [h2, h4, identSum_symm c dr du hu.symm hnd]

/-- **C31 (which operator).** The forward product is, tested against an arbitrary vector `b`, the sum over the declared
partials `(unknown, param)` of `b_unknownᵀ J x_param` with `x` the unit-scaled params, respectively the states, `b` scaled
by the residual scalers, minus `⟨b, du⟩` over the explicit outputs. -/
theorem C31_forward_value (c : LinComp K) (jac : List ((String × String) × Mat K)) (dp du dr0 b : DVec K)
    (hjac : c.jac = some jac) (hu : du.layout = dr0.layout) (hb : b.layout = dr0.layout) (hnd : (dr0.map Prod.fst).Nodup)
    (hs : ShapesMatch jac c.states dp.layout dr0.layout) (hdo : c.doApply = true) (hfd : c.forceFd = false) :
    ∃ f, sysApplyFwd c dp du dr0 = .ok f ∧
      dvDot b f.dr =
        (jac.map fun e =>
          if e.1.2 ∈ c.states then bilAt (scaleBy (fun n => c.scales.lookup n) b) e.1.1 e.2 du e.1.2
          else if c.relInputs = [] ∨ e.1.2 ∈ c.relInputs then
            bilAt (scaleBy (fun n => c.scales.lookup n) b) e.1.1 e.2
              (scaleBy (fun n => if c.derivUnits = true ∧ (c.relInputs = [] ∨ n ∈ c.relInputs) then c.units.lookup n
                else none) dp) e.1.2
          else 0).sum
        - (du.map fun e => if e.1 ∉ c.states ∧ (c.gsOuts = none ∨ e.1 ∈ c.gsOuts.getD []) then dotAt b e else 0).sum := by
  obtain ⟨f, h1, _, h2⟩ := sysApplyFwd_spec c jac dp du dr0 b hjac hu hb hnd hs
  refine ⟨f, h1, ?_⟩
  have e1 : (fun n => c.scales.lookup n) = c.residFactor := rfl
  have e2 : (fun n => if c.derivUnits = true ∧ (c.relInputs = [] ∨ n ∈ c.relInputs) then c.units.lookup n else none) =
      c.unitFactor := by
    funext n
    simp [LinComp.unitFactor]
  have e3 : (fun e : String × List K =>
      if e.1 ∉ c.states ∧ (c.gsOuts = none ∨ e.1 ∈ c.gsOuts.getD []) then dotAt b e else 0) =
      fun e => if c.ident e.1 then dotAt b e else 0 := by
    funext e
    unfold LinComp.ident
    cases c.gsOuts with
    | none => simp
    | some g => simp [and_comm]
  rw [e1, e2, e3]
  rw [h2]
  unfold fullTerm
  simp only [hdo, hfd]
  simp only [Bool.true_eq_false, Bool.false_eq_true, if_false]
  congr 2
  refine List.map_congr_left fun e _ => ?_
  unfold entryTerm LinComp.skips
  by_cases h3 : e.1.2 ∈ c.states
  · simp [h3]
  · by_cases h4 : c.relInputs = []
    · simp [h3, h4]
    · by_cases h5 : e.1.2 ∈ c.relInputs <;> simp [h3, h4, h5]

/-- A component with state `s`, output `y`, params `x` (feet to metres) and `z`; `dy/dz` is not declared. -/
def exComp : LinComp ℚ where
  jac := some [(("y", "x"), ⟨2, 1, fun i _ => (i : ℚ) + 1⟩), (("s", "s"), ⟨1, 1, fun _ _ => 5⟩),
    (("y", "s"), ⟨2, 1, fun _ _ => 2⟩), (("s", "z"), ⟨1, 2, fun _ j => (j : ℚ) + 3⟩)]
  states := ["s"]
  relInputs := []
  units := [("x", 1 / 4)]
  derivUnits := true
  scales := [("s", 1 / 2)]
  forceFd := false
  doApply := true
  gsOuts := none

example : ShapesMatch [(("y", "x"), (⟨2, 1, fun i _ => (i : ℚ) + 1⟩ : Mat ℚ)), (("s", "s"), ⟨1, 1, fun _ _ => 5⟩),
    (("y", "s"), ⟨2, 1, fun _ _ => 2⟩), (("s", "z"), ⟨1, 2, fun _ j => (j : ℚ) + 3⟩)] ["s"]
    (DVec.layout [("x", [(4 : ℚ)]), ("z", [1, 2])]) (DVec.layout [("y", [(1 : ℚ), 2]), ("s", [3])]) := by
  intro e he m n
  simp only [List.mem_cons, List.not_mem_nil, or_false] at he
  rcases he with h | h | h | h <;> subst h <;> simp [DVec.layout, List.lookup_cons] <;> omega

example : (sysApplyFwd exComp [("x", [4]), ("z", [1, 2])] [("y", [1, 2]), ("s", [3])] [("y", [9, 9]), ("s", [9])]).map (·.dr)
    = .ok [("y", [1 * 1 + 2 * 3 - 1, 2 * 1 + 2 * 3 - 2]), ("s", [(5 * 3 + 3 + 8) / 2])] := by decide +kernel

/-- A block with a single row is broadcast by numpy in forward mode and rejected in reverse mode: the shape check is not
symmetric. -/
theorem finding_row_broadcast :
    let c : LinComp ℚ := ⟨some [(("y", "x"), ⟨1, 1, fun _ _ => 1⟩)], [], [], [], true, [], false, true, none⟩
    (sysApplyFwd c [("x", [4])] [("y", [0, 0])] [("y", [0, 0])]).map (·.dr) = .ok [("y", [4, 4])] ∧
    (sysApplyRev c [("x", [4])] [("y", [0, 0])] [("y", [1, 1])]).map (·.dp) = .error .ValueError := by
  decide +kernel

/-- Reverse application scales the incoming residual vector in place, so applying twice does not give the same product: the
product with a scaled state is not a function of the value the caller stored. -/
theorem finding_rev_scales_input :
    let c : LinComp ℚ := ⟨some [(("s", "s"), ⟨1, 1, fun _ _ => 1⟩)], ["s"], [], [], true, [("s", 1 / 2)], false, true, none⟩
    ∃ r1 r2, sysApplyRev c [] [("s", [0])] [("s", [4])] = .ok r1 ∧ sysApplyRev c [] [("s", [0])] r1.dr = .ok r2 ∧
      r1.du = [("s", [2])] ∧ r2.du = [("s", [1])] := by
  refine ⟨_, _, rfl, rfl, ?_, ?_⟩ <;> decide +kernel

end OpenMDAO
