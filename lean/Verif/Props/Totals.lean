import Verif.Lemmas.Totals
import Mathlib.Algebra.Order.Ring.Rat
import Mathlib.Algebra.Field.Rat
import Mathlib.Tactic.NormNum
/-!
# C34: forward and reverse mode give the same total derivatives
-/
namespace OpenMDAO

set_option linter.unusedSectionVars false

variable {K : Type} [Field K]

/-- Everything C34 assumes about the problem: a linear system with matrix `A` of size `n` whose exact derivative matrix is `D`, an
exact solver, and requested names (without repetition) that exist and have valid indices. -/
structure TotOk (E : TotEnv K) (n : Nat) (A D : Nat → Nat → K) (indep unknown : List String) : Prop where
  total : IsTotalDeriv n A D
  solver : ExactSolver n A E.solve
  indep : ValidNames n E.slices E.poi indep
  unknown : ValidNames n E.slices E.qoi unknown

/-- The scaled total derivative that belongs to a row and a column label. -/
def totEntry (E : TotEnv K) (D : Nat → Nat → K) (r c : String × Nat) : K :=
  D r.2 c.2 * factorOf E.dvScale c.1 * factorOf E.cnScale r.1

/-- Values stored in forward mode. -/
theorem totVals_fwd (E : TotEnv K) (n : Nat) (A D : Nat → Nat → K) (indep unknown : List String) (h : TotOk E n A D indep unknown)
    (p u : String) (hp : p ∈ indep) (hu : u ∈ unknown) (q : Nat) (hq : q ∈ selected E.slices E.poi p) :
    ∃ vals, totVals E .fwd (E.solve .fwd (totRhs q)) p u = .ok vals ∧ vals.length = (selected E.slices E.qoi u).length ∧
      ∀ (a o : Nat), (selected E.slices E.qoi u)[a]? = some o → vals[a]? = some (totEntry E D (u, o) (p, q)) := by
  obtain ⟨h1, _, h2⟩ := totIdx_valid n E.slices E.qoi unknown h.unknown u hu
  obtain ⟨_, _, h3⟩ := totIdx_valid n E.slices E.poi indep h.indep p hp
  refine ⟨scaleVals E.cnScale u (scaleVals E.dvScale p ((selected E.slices E.qoi u).map (E.solve .fwd (totRhs q)))), by simp [totVals, h1],
    by simp [scaleVals_length], ?_⟩
  intro a o ha
  rw [scaleVals_getElem, scaleVals_getElem, List.getElem?_map, ha]
  simp only [Option.map_some]
  rw [solve_fwd_total n A D E.solve h.total h.solver q (h3 q hq) o (h2 o (List.mem_of_getElem? ha))]
  rfl

/-- Values stored in reverse mode. -/
theorem totVals_rev (E : TotEnv K) (n : Nat) (A D : Nat → Nat → K) (indep unknown : List String) (h : TotOk E n A D indep unknown)
    (p u : String) (hp : p ∈ indep) (hu : u ∈ unknown) (o : Nat) (ho : o ∈ selected E.slices E.qoi u) :
    ∃ vals, totVals E .rev (E.solve .rev (totRhs o)) u p = .ok vals ∧ vals.length = (selected E.slices E.poi p).length ∧
      ∀ (b q : Nat), (selected E.slices E.poi p)[b]? = some q → vals[b]? = some (totEntry E D (u, o) (p, q)) := by
  obtain ⟨_, _, h2⟩ := totIdx_valid n E.slices E.qoi unknown h.unknown u hu
  obtain ⟨h1, _, h3⟩ := totIdx_valid n E.slices E.poi indep h.indep p hp
  refine ⟨scaleVals E.dvScale p (scaleVals E.cnScale u ((selected E.slices E.poi p).map (E.solve .rev (totRhs o)))), by simp [totVals, h1],
    by simp [scaleVals_length], ?_⟩
  intro b q hb
  rw [scaleVals_getElem, scaleVals_getElem, List.getElem?_map, hb]
  simp only [Option.map_some]
  rw [solve_rev_total n A D E.solve h.total h.solver q (h3 q (List.mem_of_getElem? hb)) o (h2 o ho)]
  unfold totEntry
  congr 1
  ring

/-- Positions and values of an index list, as the loop over `range(len(in_idxs))` visits them. -/
theorem mem_enum (l : List Nat) (i q : Nat) : (i, q) ∈ (List.range l.length).zip l ↔ l[i]? = some q := by
  rw [List.mem_iff_getElem?]
  constructor
  · rintro ⟨k, hk⟩
    rw [List.getElem?_zip_eq_some] at hk
    obtain ⟨h1, h2⟩ := hk
    rw [List.getElem?_range (List.getElem?_eq_some_iff.mp h2).1] at h1
    injection h1 with h1
    subst h1
    exact h2
  · intro h
    refine ⟨i, ?_⟩
    rw [List.getElem?_zip_eq_some]
    exact ⟨List.getElem?_range (List.getElem?_eq_some_iff.mp h).1, h⟩

/-- The two `Jslices` loops when no name is in both lists. -/
theorem jslices_spec (E : TotEnv K) (n : Nat) (A D : Nat → Nat → K) (indep unknown : List String) (h : TotOk E n A D indep unknown)
    (hi : indep.Nodup) (hu : unknown.Nodup) (hdis : ∀ x ∈ indep, x ∉ unknown) :
    ∃ js, jslices E indep unknown = .ok (js, (labels E.slices E.qoi unknown).length, (labels E.slices E.poi indep).length) ∧
      (∀ x ∈ unknown, ∃ off, js.lookup x = some (off, off + (selected E.slices E.qoi x).length) ∧
        off + (selected E.slices E.qoi x).length ≤ (labels E.slices E.qoi unknown).length ∧
        ∀ a o, (selected E.slices E.qoi x)[a]? = some o → (labels E.slices E.qoi unknown)[off + a]? = some (x, o)) ∧
      (∀ x ∈ indep, ∃ off, js.lookup x = some (off, off + (selected E.slices E.poi x).length) ∧
        off + (selected E.slices E.poi x).length ≤ (labels E.slices E.poi indep).length ∧
        ∀ a o, (selected E.slices E.poi x)[a]? = some o → (labels E.slices E.poi indep)[off + a]? = some (x, o)) := by
  obtain ⟨r, h1, h2, h3, h4⟩ := jslice_fold E.slices E.qoi unknown ([], 0) hu
    (fun x hx => (totIdx_valid n E.slices E.qoi unknown h.unknown x hx).2.1)
  obtain ⟨r', h1', h2', h3', h4'⟩ := jslice_fold E.slices E.poi indep (r.1, 0) hi
    (fun x hx => (totIdx_valid n E.slices E.poi indep h.indep x hx).2.1)
  refine ⟨r'.1, ?_, ?_, ?_⟩
  · have e1 : r = (r.1, r.2) := rfl
    unfold jslices
    rw [h1]
    simp only [h1']
    rw [h2, h2']
    simp
  · intro x hx
    obtain ⟨off, a1, a2, a3⟩ := h4 x hx
    refine ⟨off, ?_, a2, a3⟩
    rw [h3' x (fun hh => hdis x hh hx)]
    simpa using a1
  · intro x hx
    obtain ⟨off, a1, a2, a3⟩ := h4' x hx
    exact ⟨off, by simpa using a1, a2, a3⟩

/-- Every cell of the array corresponds to an entry of a variable pair. -/
theorem label_decode (slices : List (String × (Nat × Nat))) (d : List (String × List Nat)) (names : List String) (i : Nat)
    (x : String) (o : Nat) (h : (labels slices d names)[i]? = some (x, o)) : x ∈ names ∧ o ∈ selected slices d x := by
  have := List.mem_of_getElem? h
  unfold labels at this
  rw [List.mem_flatMap] at this
  obtain ⟨y, hy, hm⟩ := this
  rw [List.mem_map] at hm
  obtain ⟨o', ho', he⟩ := hm
  injection he with e1 e2
  subst e1 e2
  exact ⟨hy, ho'⟩

/-- The position of a label is the offset of its variable plus the position within the variable. -/
theorem label_pos (slices : List (String × (Nat × Nat))) (d : List (String × List Nat)) (names : List String) (hn : names.Nodup) :
    ∀ (i : Nat) (x : String) (o off : Nat), (labels slices d names)[i]? = some (x, o) →
      (∀ a o, (selected slices d x)[a]? = some o → (labels slices d names)[off + a]? = some (x, o)) →
      selected slices d x ≠ [] →
      ∃ a, i = off + a ∧ (selected slices d x)[a]? = some o := by
  induction names with
  | nil => intro i x o off h; simp [labels] at h
  | cons y names ih =>
    intro i x o off h hoff hne
    rw [List.nodup_cons] at hn
    have hlab : labels slices d (y :: names) = (selected slices d y).map (fun o => (y, o)) ++ labels slices d names := by
      simp [labels]
    rw [hlab] at h hoff
    have hpos : 0 < (selected slices d x).length := List.length_pos_iff.mpr hne
    have h0 := hoff 0 (selected slices d x)[0] (List.getElem?_eq_getElem hpos)
    rw [Nat.add_zero] at h0
    by_cases hxy : x = y
    · subst hxy
      have hnot : ∀ (k o' : Nat), (labels slices d names)[k]? ≠ some (x, o') :=
        fun k o' hk => hn.1 (label_decode slices d names k x o' hk).1
      have hlt : i < (selected slices d x).length := by
        by_contra hc
        rw [List.getElem?_append_right (by simpa using hc)] at h
        exact hnot _ _ h
      have hoff0 : off = 0 := by
        by_contra hc
        by_cases hl : off < (selected slices d x).length
        · have hbig := hoff ((selected slices d x).length - 1)
            (selected slices d x)[(selected slices d x).length - 1] (List.getElem?_eq_getElem (by omega))
          rw [List.getElem?_append_right (by simp; omega)] at hbig
          exact hnot _ _ hbig
        · rw [List.getElem?_append_right (by simpa using hl)] at h0
          exact hnot _ _ h0
      subst hoff0
      refine ⟨i, by simp, ?_⟩
      rw [List.getElem?_append_left (by simpa using hlt), List.getElem?_map] at h
      cases hs : (selected slices d x)[i]? with
      | none => rw [hs] at h; cases h
      | some v =>
        rw [hs] at h
        simp only [Option.map_some, Option.some.injEq, Prod.mk.injEq, true_and] at h
        rw [h]
    · have hnot : ∀ (k o' : Nat), ((selected slices d y).map fun o => (y, o))[k]? ≠ some (x, o') := by
        intro k o' hk
        have := List.mem_of_getElem? hk
        rw [List.mem_map] at this
        obtain ⟨_, _, he⟩ := this
        injection he with e1 _
        exact hxy e1.symm
      have hge : ∀ (k o' : Nat), ((selected slices d y).map (fun o => (y, o)) ++ labels slices d names)[k]? = some (x, o') →
          (selected slices d y).length ≤ k := by
        intro k o' hk
        by_contra hc
        rw [List.getElem?_append_left (by simpa using hc)] at hk
        exact hnot _ _ hk
      have hi := hge i o h
      have ho := hge off _ h0
      have hshift : ∀ k, (selected slices d y).length ≤ k →
          ((selected slices d y).map (fun o => (y, o)) ++ labels slices d names)[k]? =
          (labels slices d names)[k - (selected slices d y).length]? := by
        intro k hk
        rw [List.getElem?_append_right (by simpa using hk)]
        simp
      rw [hshift i hi] at h
      obtain ⟨a, ha1, ha2⟩ := ih hn.2 (i - (selected slices d y).length) x o (off - (selected slices d y).length) h
        (fun a o' hh => by
          have := hoff a o' hh
          rw [hshift _ (by omega)] at this
          rw [← this]
          congr 1
          omega) hne
      exact ⟨a, by omega, ha2⟩

/-- **C34 (array format).** In forward and in reverse mode the result is the same matrix: one row per selected entry of every
requested unknown, one column per selected entry of every requested independent variable, and the entry is the total derivative
times the scale factors of the two variables. Missing with respect to the full statement: a name that is requested both as
independent variable and as unknown (`C34_overlap_refuted`). -/
theorem C34_array_partial (E : TotEnv K) (n : Nat) (A D : Nat → Nat → K) (indep unknown : List String)
    (h : TotOk E n A D indep unknown) (hi : indep.Nodup) (hu : unknown.Nodup) (hdis : ∀ x ∈ indep, x ∉ unknown) (mode : Mode) :
    ∃ J, totalsArr E mode indep unknown = .ok J ∧
      J.m = (labels E.slices E.qoi unknown).length ∧ J.n = (labels E.slices E.poi indep).length ∧
      ∀ (i j : Nat) (u p : String) (o q : Nat), (labels E.slices E.qoi unknown)[i]? = some (u, o) →
        (labels E.slices E.poi indep)[j]? = some (p, q) →
        J.a i j = D o q * factorOf E.dvScale p * factorOf E.cnScale u := by
  obtain ⟨js, hjs, hrow, hcol⟩ := jslices_spec E n A D indep unknown h hi hu hdis
  let V : Nat → Nat → K := fun i j =>
    match (labels E.slices E.qoi unknown)[i]?, (labels E.slices E.poi indep)[j]? with
    | some r, some c => totEntry E D r c
    | _, _ => 0
  have hV : ∀ i j r c, (labels E.slices E.qoi unknown)[i]? = some r → (labels E.slices E.poi indep)[j]? = some c →
      V i j = totEntry E D r c := by
    intro i j r c h1 h2
    simp only [V, h1, h2]
  -- agreement with V after processing
  let R := (labels E.slices E.qoi unknown).length
  let C := (labels E.slices E.poi indep).length
  let Q : TMat K → TMat K → Prop := fun J0 J => J.m = R ∧ J.n = C ∧ ∀ i j, J0.a i j = V i j → J.a i j = V i j
  have key : ∃ J, totalsArr E mode indep unknown = .ok J ∧ J.m = R ∧ J.n = C ∧
      ∀ u ∈ unknown, ∀ p ∈ indep, ∀ ou op, js.lookup u = some ou → js.lookup p = some op →
        ∀ a b, a < (selected E.slices E.qoi u).length → b < (selected E.slices E.poi p).length →
          J.a (ou.1 + a) (op.1 + b) = V (ou.1 + a) (op.1 + b) := by
    unfold totalsArr
    rw [hjs]
    cases mode with
    | fwd =>
      simp only [if_true]
      obtain ⟨J, hJ, hJm, hJn, hJc⟩ := foldlM_ok (voiArr E .fwd js unknown) (voiOrder E .fwd indep)
        (fun pre J => J.m = R ∧ J.n = C ∧ ∀ p ∈ pre, ∀ u ∈ unknown, ∀ ou op, js.lookup u = some ou → js.lookup p = some op →
          ∀ a b, a < (selected E.slices E.qoi u).length → b < (selected E.slices E.poi p).length →
            J.a (ou.1 + a) (op.1 + b) = V (ou.1 + a) (op.1 + b))
        (by
          intro pre p J0 hp hP
          rw [mem_voiOrder] at hp
          have hidx := totIdx_valid n E.slices E.poi indep h.indep p hp
          obtain ⟨op, hop, hop1, hop2⟩ := hcol p hp
          unfold voiArr
          simp only [if_true]
          rw [hidx.1]
          obtain ⟨J, hJ, ⟨hm, hn, hag⟩, hcells⟩ := foldlM_ok (solveArr E .fwd js unknown p)
            ((List.range (selected E.slices E.poi p).length).zip (selected E.slices E.poi p))
            (fun pre J => Q J0 J ∧ ∀ ip ∈ pre, ∀ u ∈ unknown, ∀ ou, js.lookup u = some ou →
              ∀ a, a < (selected E.slices E.qoi u).length → J.a (ou.1 + a) (op + ip.1) = V (ou.1 + a) (op + ip.1))
            (by
              intro pre ip J1 hip hP1
              obtain ⟨b, q⟩ := ip
              rw [mem_enum] at hip
              have hb := (List.getElem?_eq_some_iff.mp hip).1
              unfold solveArr
              obtain ⟨J, hJ, ⟨hm, hn, hag⟩, hcells⟩ := foldlM_ok
                (storeArr E .fwd js (E.solve .fwd (totRhs q)) p b) unknown
                (fun pre J => Q J1 J ∧ ∀ u ∈ pre, ∀ ou, js.lookup u = some ou →
                  ∀ a, a < (selected E.slices E.qoi u).length → J.a (ou.1 + a) (op + b) = V (ou.1 + a) (op + b))
                (by
                  intro pre u J2 hu2 hP2
                  obtain ⟨⟨hm2, hn2, hag2⟩, hc2⟩ := hP2
                  obtain ⟨ou, hou, hou1, hou2⟩ := hrow u hu2
                  obtain ⟨vals, hv1, hv2, hv3⟩ := totVals_fwd E n A D indep unknown h p u hp hu2 q (List.mem_of_getElem? hip)
                  unfold storeArr
                  rw [hv1, hou, hop]
                  simp only [if_true]
                  by_cases hv0 : vals = []
                  · rw [if_pos hv0]
                    refine ⟨J2, rfl, ⟨hm2, hn2, hag2⟩, ?_⟩
                    intro u' hu' ou' hou' a ha
                    rcases List.mem_append.mp hu' with h' | h'
                    · exact hc2 u' h' ou' hou' a ha
                    · simp only [List.mem_singleton] at h'
                      subst h'
                      rw [← hv2, hv0] at ha
                      simp at ha
                  · rw [if_neg hv0]
                    obtain ⟨J', g1, g2, g3, g4, g5⟩ := setCol_agree V J2 ou (op + b) vals (by rw [hm2, hv2]; exact hou1)
                      (by rw [hn2]; omega)
                      (by
                        intro a v hav
                        have ha := (List.getElem?_eq_some_iff.mp hav).1
                        rw [hv2] at ha
                        have e1 := hou2 a _ (List.getElem?_eq_getElem ha)
                        have e2 := hop2 b q hip
                        rw [hV _ _ _ _ e1 e2]
                        have e3 := hv3 a _ (List.getElem?_eq_getElem ha)
                        rw [e3] at hav
                        injection hav)
                    rw [hv2] at g1 g5
                    refine ⟨J', g1, ⟨g2.trans hm2, g3.trans hn2, fun i j hij => g4 i j (hag2 i j hij)⟩, ?_⟩
                    intro u' hu' ou' hou' a ha
                    rcases List.mem_append.mp hu' with h' | h'
                    · exact g4 _ _ (hc2 u' h' ou' hou' a ha)
                    · simp only [List.mem_singleton] at h'
                      subst h'
                      rw [hou] at hou'
                      injection hou' with hou'
                      subst hou'
                      exact g5 a ha)
                J1 ⟨⟨hP1.1.1, hP1.1.2.1, fun _ _ hij => hij⟩, by simp⟩
              refine ⟨J, hJ, ⟨hm, hn, fun i j hij => hag i j (hP1.1.2.2 i j hij)⟩, ?_⟩
              intro ip' hip' u' hu' ou' hou' a ha
              rcases List.mem_append.mp hip' with h' | h'
              · exact hag _ _ (hP1.2 ip' h' u' hu' ou' hou' a ha)
              · simp only [List.mem_singleton] at h'
                subst h'
                exact hcells u' hu' ou' hou' a ha)
            J0 ⟨⟨hP.1, hP.2.1, fun _ _ hij => hij⟩, by simp⟩
          refine ⟨J, hJ, hm, hn, ?_⟩
          intro p' hp' u' hu' ou' op' hou' hop' a b ha hb
          rcases List.mem_append.mp hp' with h' | h'
          · exact hag _ _ (hP.2.2 p' h' u' hu' ou' op' hou' hop' a b ha hb)
          · simp only [List.mem_singleton] at h'
            subst h'
            rw [hop] at hop'
            injection hop' with hop'
            subst hop'
            exact hcells (b, (selected E.slices E.poi p')[b]) ((mem_enum _ _ _).mpr (List.getElem?_eq_getElem hb)) u' hu' ou' hou' a ha)
        ⟨R, C, fun _ _ => 0⟩ ⟨rfl, rfl, by simp⟩
      exact ⟨J, hJ, hJm, hJn, fun u hu' p hp' ou op h1 h2 a b ha hb =>
        hJc p ((mem_voiOrder E .fwd indep p).mpr hp') u hu' ou op h1 h2 a b ha hb⟩
    | rev =>
      simp only [reduceCtorEq, if_false]
      obtain ⟨J, hJ, hJm, hJn, hJc⟩ := foldlM_ok (voiArr E .rev js indep) (voiOrder E .rev unknown)
        (fun pre J => J.m = R ∧ J.n = C ∧ ∀ u ∈ pre, ∀ p ∈ indep, ∀ ou op, js.lookup u = some ou → js.lookup p = some op →
          ∀ a b, a < (selected E.slices E.qoi u).length → b < (selected E.slices E.poi p).length →
            J.a (ou.1 + a) (op.1 + b) = V (ou.1 + a) (op.1 + b))
        (by
          intro pre u J0 hu' hP
          rw [mem_voiOrder] at hu'
          have hidx := totIdx_valid n E.slices E.qoi unknown h.unknown u hu'
          obtain ⟨ou, hou, hou1, hou2⟩ := hrow u hu'
          unfold voiArr
          simp only [reduceCtorEq, if_false]
          rw [hidx.1]
          obtain ⟨J, hJ, ⟨hm, hn, hag⟩, hcells⟩ := foldlM_ok (solveArr E .rev js indep u)
            ((List.range (selected E.slices E.qoi u).length).zip (selected E.slices E.qoi u))
            (fun pre J => Q J0 J ∧ ∀ ip ∈ pre, ∀ p ∈ indep, ∀ op, js.lookup p = some op →
              ∀ b, b < (selected E.slices E.poi p).length → J.a (ou + ip.1) (op.1 + b) = V (ou + ip.1) (op.1 + b))
            (by
              intro pre ip J1 hip hP1
              obtain ⟨a, o⟩ := ip
              rw [mem_enum] at hip
              have ha := (List.getElem?_eq_some_iff.mp hip).1
              unfold solveArr
              obtain ⟨J, hJ, ⟨hm, hn, hag⟩, hcells⟩ := foldlM_ok
                (storeArr E .rev js (E.solve .rev (totRhs o)) u a) indep
                (fun pre J => Q J1 J ∧ ∀ p ∈ pre, ∀ op, js.lookup p = some op →
                  ∀ b, b < (selected E.slices E.poi p).length → J.a (ou + a) (op.1 + b) = V (ou + a) (op.1 + b))
                (by
                  intro pre p J2 hp2 hP2
                  obtain ⟨⟨hm2, hn2, hag2⟩, hc2⟩ := hP2
                  obtain ⟨op, hop, hop1, hop2⟩ := hcol p hp2
                  obtain ⟨vals, hv1, hv2, hv3⟩ := totVals_rev E n A D indep unknown h p u hp2 hu' o (List.mem_of_getElem? hip)
                  unfold storeArr
                  rw [hv1, hou, hop]
                  simp only [reduceCtorEq, if_false]
                  by_cases hv0 : vals = []
                  · rw [if_pos hv0]
                    refine ⟨J2, rfl, ⟨hm2, hn2, hag2⟩, ?_⟩
                    intro p' hp' op' hop' b hb
                    rcases List.mem_append.mp hp' with h' | h'
                    · exact hc2 p' h' op' hop' b hb
                    · simp only [List.mem_singleton] at h'
                      subst h'
                      rw [← hv2, hv0] at hb
                      simp at hb
                  · rw [if_neg hv0]
                    obtain ⟨J', g1, g2, g3, g4, g5⟩ := setRow_agree V J2 (ou + a) op vals (by rw [hn2, hv2]; exact hop1)
                      (by rw [hm2]; omega)
                      (by
                        intro b v hbv
                        have hb := (List.getElem?_eq_some_iff.mp hbv).1
                        rw [hv2] at hb
                        have e1 := hop2 b _ (List.getElem?_eq_getElem hb)
                        have e2 := hou2 a o hip
                        rw [hV _ _ _ _ e2 e1]
                        have e3 := hv3 b _ (List.getElem?_eq_getElem hb)
                        rw [e3] at hbv
                        injection hbv)
                    rw [hv2] at g1 g5
                    refine ⟨J', g1, ⟨g2.trans hm2, g3.trans hn2, fun i j hij => g4 i j (hag2 i j hij)⟩, ?_⟩
                    intro p' hp' op' hop' b hb
                    rcases List.mem_append.mp hp' with h' | h'
                    · exact g4 _ _ (hc2 p' h' op' hop' b hb)
                    · simp only [List.mem_singleton] at h'
                      subst h'
                      rw [hop] at hop'
                      injection hop' with hop'
                      subst hop'
                      exact g5 b hb)
                J1 ⟨⟨hP1.1.1, hP1.1.2.1, fun _ _ hij => hij⟩, by simp⟩
              refine ⟨J, hJ, ⟨hm, hn, fun i j hij => hag i j (hP1.1.2.2 i j hij)⟩, ?_⟩
              intro ip' hip' p' hp' op' hop' b hb
              rcases List.mem_append.mp hip' with h' | h'
              · exact hag _ _ (hP1.2 ip' h' p' hp' op' hop' b hb)
              · simp only [List.mem_singleton] at h'
                subst h'
                exact hcells p' hp' op' hop' b hb)
            J0 ⟨⟨hP.1, hP.2.1, fun _ _ hij => hij⟩, by simp⟩
          refine ⟨J, hJ, hm, hn, ?_⟩
          intro u' hu'' p' hp' ou' op' hou' hop' a b ha hb
          rcases List.mem_append.mp hu'' with h' | h'
          · exact hag _ _ (hP.2.2 u' h' p' hp' ou' op' hou' hop' a b ha hb)
          · simp only [List.mem_singleton] at h'
            subst h'
            rw [hou] at hou'
            injection hou' with hou'
            subst hou'
            exact hcells (a, (selected E.slices E.qoi u')[a]) ((mem_enum _ _ _).mpr (List.getElem?_eq_getElem ha)) p' hp' op' hop' b hb)
        ⟨R, C, fun _ _ => 0⟩ ⟨rfl, rfl, by simp⟩
      exact ⟨J, hJ, hJm, hJn, fun u hu' p hp' ou op h1 h2 a b ha hb =>
        hJc u ((mem_voiOrder E .rev unknown u).mpr hu') p hp' ou op h1 h2 a b ha hb⟩
  obtain ⟨J, hJ, hJm, hJn, hJc⟩ := key
  refine ⟨J, hJ, hJm, hJn, ?_⟩
  intro i j u p o q hr hc
  obtain ⟨hu', hou⟩ := label_decode _ _ _ _ _ _ hr
  obtain ⟨hp', hoq⟩ := label_decode _ _ _ _ _ _ hc
  obtain ⟨ou, l1, l2, l3⟩ := hrow u hu'
  obtain ⟨op, m1, m2, m3⟩ := hcol p hp'
  obtain ⟨a, ha1, ha2⟩ := label_pos E.slices E.qoi unknown hu i u o ou hr l3 (fun hh => by rw [hh] at hou; simp at hou)
  obtain ⟨b, hb1, hb2⟩ := label_pos E.slices E.poi indep hi j p q op hc m3 (fun hh => by rw [hh] at hoq; simp at hoq)
  have := hJc u hu' p hp' _ _ l1 m1 a b (List.getElem?_eq_some_iff.mp ha2).1 (List.getElem?_eq_some_iff.mp hb2).1
  simp only at this
  rw [← ha1, ← hb1] at this
  rw [this, hV i j _ _ hr hc]
  rfl

/-- The two modes give the same array, cell by cell. -/
theorem C34_array_modes_agree_partial (E : TotEnv K) (n : Nat) (A D : Nat → Nat → K) (indep unknown : List String)
    (h : TotOk E n A D indep unknown) (hi : indep.Nodup) (hu : unknown.Nodup) (hdis : ∀ x ∈ indep, x ∉ unknown) :
    ∃ J J', totalsArr E .fwd indep unknown = .ok J ∧ totalsArr E .rev indep unknown = .ok J' ∧ J.m = J'.m ∧ J.n = J'.n ∧
      ∀ i < J.m, ∀ j < J.n, J.a i j = J'.a i j := by
  obtain ⟨J, a1, a2, a3, a4⟩ := C34_array_partial E n A D indep unknown h hi hu hdis .fwd
  obtain ⟨J', b1, b2, b3, b4⟩ := C34_array_partial E n A D indep unknown h hi hu hdis .rev
  refine ⟨J, J', a1, b1, a2.trans b2.symm, a3.trans b3.symm, ?_⟩
  intro i hi' j hj'
  rw [a2] at hi'
  rw [a3] at hj'
  obtain ⟨⟨u, o⟩, hr⟩ : ∃ r, (labels E.slices E.qoi unknown)[i]? = some r := ⟨_, List.getElem?_eq_getElem hi'⟩
  obtain ⟨⟨p, q⟩, hc⟩ : ∃ r, (labels E.slices E.poi indep)[j]? = some r := ⟨_, List.getElem?_eq_getElem hj'⟩
  rw [a4 i j u p o q hr hc, b4 i j u p o q hr hc]

/-! ### dict format -/

/-- What the dictionary must hold for a cell `(a, b)` of block `[u][p]`. -/
def DictCell (E : TotEnv K) (D : Nat → Nat → K) (J : TDict K) (c : String × String × Nat × Nat) : Prop :=
  ∃ M, J c.1 c.2.1 = some M ∧ ∀ o q, (selected E.slices E.qoi c.1)[c.2.2.1]? = some o → (selected E.slices E.poi c.2.1)[c.2.2.2]? = some q →
    M.a c.2.2.1 c.2.2.2 = totEntry E D (c.1, o) (c.2.1, q)

/-- Blocks have the shape given by the selected entries and are never empty. -/
def DictShape (E : TotEnv K) (indep unknown : List String) (J : TDict K) : Prop :=
  ∀ u p M, J u p = some M → u ∈ unknown ∧ p ∈ indep ∧ M.m = (selected E.slices E.qoi u).length ∧
    M.n = (selected E.slices E.poi p).length ∧ 0 < M.m ∧ 0 < M.n

theorem storeDict_fwd (E : TotEnv K) (n : Nat) (A D : Nat → Nat → K) (indep unknown : List String) (h : TotOk E n A D indep unknown)
    (J : TDict K) (hS : DictShape E indep unknown J) (p u : String) (hp : p ∈ indep) (hu : u ∈ unknown) (b q : Nat)
    (hq : (selected E.slices E.poi p)[b]? = some q) :
    ∃ J', storeDict E .fwd (E.solve .fwd (totRhs q)) p (selected E.slices E.poi p).length b J u = .ok J' ∧ DictShape E indep unknown J' ∧
      (∀ c, DictCell E D J c → DictCell E D J' c) ∧
      ∀ a, a < (selected E.slices E.qoi u).length → DictCell E D J' (u, p, a, b) := by
  obtain ⟨vals, v1, v2, v3⟩ := totVals_fwd E n A D indep unknown h p u hp hu q (List.mem_of_getElem? hq)
  have hb : b < (selected E.slices E.poi p).length := (List.getElem?_eq_some_iff.mp hq).1
  unfold storeDict
  rw [v1]
  simp only [if_true]
  by_cases hv0 : vals = []
  · rw [if_pos hv0]
    refine ⟨J, rfl, hS, fun _ hc => hc, ?_⟩
    intro a ha
    rw [← v2, hv0] at ha
    simp at ha
  · rw [if_neg hv0]
    have hvpos : 0 < vals.length := List.length_pos_iff.mpr hv0
    have hMs : ((J u p).getD ⟨vals.length, (selected E.slices E.poi p).length, fun _ _ => 0⟩).m = vals.length ∧
        ((J u p).getD ⟨vals.length, (selected E.slices E.poi p).length, fun _ _ => 0⟩).n = (selected E.slices E.poi p).length := by
      cases hM : J u p with
      | none => exact ⟨rfl, rfl⟩
      | some M =>
        obtain ⟨_, _, e1, e2, _⟩ := hS u p M hM
        exact ⟨e1.trans v2.symm, e2⟩
    generalize hMdef : (J u p).getD ⟨vals.length, (selected E.slices E.poi p).length, fun _ _ => 0⟩ = M at hMs ⊢
    have hset := setCol_fits M 0 b vals (by omega) (by omega)
    rw [Nat.zero_add] at hset
    rw [hMs.1, hset]
    refine ⟨_, rfl, ?_, ?_, ?_⟩
    · intro u' p' M' hM'
      simp only at hM'
      by_cases hh : u' = u ∧ p' = p
      · rw [if_pos hh] at hM'
        injection hM' with hM'
        subst hM'
        obtain ⟨rfl, rfl⟩ := hh
        exact ⟨hu, hp, hMs.1.trans v2, hMs.2, by show 0 < M.m; omega, by show 0 < M.n; omega⟩
      · rw [if_neg hh] at hM'
        exact hS u' p' M' hM'
    · rintro ⟨u', p', a', b'⟩ ⟨M', hM', hval⟩
      by_cases hh : u' = u ∧ p' = p
      · obtain ⟨rfl, rfl⟩ := hh
        simp only at hM'
        rw [hM', Option.getD_some] at hMdef
        subst hMdef
        refine ⟨_, if_pos ⟨rfl, rfl⟩, ?_⟩
        intro o q' ho hq'
        simp only at ho hq' ⊢
        by_cases hc : b' = b ∧ 0 ≤ a' ∧ a' < vals.length
        · rw [if_pos hc]
          obtain ⟨rfl, _, _⟩ := hc
          rw [hq] at hq'
          injection hq' with hq'
          subst hq'
          rw [List.getD_eq_getElem?_getD, Nat.sub_zero, v3 a' o ho]
          rfl
        · rw [if_neg hc]
          exact hval o q' ho hq'
      · exact ⟨M', (if_neg hh).trans hM', hval⟩
    · intro a ha
      refine ⟨_, if_pos ⟨rfl, rfl⟩, ?_⟩
      intro o q' ho hq'
      simp only at ho hq' ⊢
      rw [if_pos ⟨trivial, by omega, by omega⟩, List.getD_eq_getElem?_getD, Nat.sub_zero, v3 a o ho]
      rw [hq] at hq'
      injection hq' with hq'
      subst hq'
      rfl

theorem storeDict_rev (E : TotEnv K) (n : Nat) (A D : Nat → Nat → K) (indep unknown : List String) (h : TotOk E n A D indep unknown)
    (J : TDict K) (hS : DictShape E indep unknown J) (p u : String) (hp : p ∈ indep) (hu : u ∈ unknown) (a o : Nat)
    (ho : (selected E.slices E.qoi u)[a]? = some o) :
    ∃ J', storeDict E .rev (E.solve .rev (totRhs o)) u (selected E.slices E.qoi u).length a J p = .ok J' ∧ DictShape E indep unknown J' ∧
      (∀ c, DictCell E D J c → DictCell E D J' c) ∧
      ∀ b, b < (selected E.slices E.poi p).length → DictCell E D J' (u, p, a, b) := by
  obtain ⟨vals, v1, v2, v3⟩ := totVals_rev E n A D indep unknown h p u hp hu o (List.mem_of_getElem? ho)
  have ha : a < (selected E.slices E.qoi u).length := (List.getElem?_eq_some_iff.mp ho).1
  unfold storeDict
  rw [v1]
  simp only [reduceCtorEq, if_false]
  by_cases hv0 : vals = []
  · rw [if_pos hv0]
    refine ⟨J, rfl, hS, fun _ hc => hc, ?_⟩
    intro b hb
    rw [← v2, hv0] at hb
    simp at hb
  · rw [if_neg hv0]
    have hvpos : 0 < vals.length := List.length_pos_iff.mpr hv0
    have hMs : ((J u p).getD ⟨(selected E.slices E.qoi u).length, vals.length, fun _ _ => 0⟩).n = vals.length ∧
        ((J u p).getD ⟨(selected E.slices E.qoi u).length, vals.length, fun _ _ => 0⟩).m = (selected E.slices E.qoi u).length := by
      cases hM : J u p with
      | none => exact ⟨rfl, rfl⟩
      | some M =>
        obtain ⟨_, _, e1, e2, _⟩ := hS u p M hM
        exact ⟨e2.trans v2.symm, e1⟩
    generalize hMdef : (J u p).getD ⟨(selected E.slices E.qoi u).length, vals.length, fun _ _ => 0⟩ = M at hMs ⊢
    have hset := setCol_fits M.T 0 a vals (by show _ ≤ M.n; omega) (by show _ < M.m; omega)
    rw [Nat.zero_add] at hset
    rw [hMs.1, TMat.setRow, hset]
    refine ⟨_, rfl, ?_, ?_, ?_⟩
    · intro u' p' M' hM'
      simp only at hM'
      by_cases hh : u' = u ∧ p' = p
      · rw [if_pos hh] at hM'
        injection hM' with hM'
        subst hM'
        obtain ⟨rfl, rfl⟩ := hh
        exact ⟨hu, hp, hMs.2, hMs.1.trans v2, by show 0 < M.m; omega, by show 0 < M.n; omega⟩
      · rw [if_neg hh] at hM'
        exact hS u' p' M' hM'
    · rintro ⟨u', p', a', b'⟩ ⟨M', hM', hval⟩
      by_cases hh : u' = u ∧ p' = p
      · obtain ⟨rfl, rfl⟩ := hh
        simp only at hM'
        rw [hM', Option.getD_some] at hMdef
        subst hMdef
        refine ⟨_, if_pos ⟨rfl, rfl⟩, ?_⟩
        intro o' q ho' hq
        simp only [TMat.T] at ho' hq ⊢
        by_cases hc : a' = a ∧ 0 ≤ b' ∧ b' < vals.length
        · rw [if_pos hc]
          obtain ⟨rfl, _, _⟩ := hc
          rw [ho] at ho'
          injection ho' with ho'
          subst ho'
          rw [List.getD_eq_getElem?_getD, Nat.sub_zero, v3 b' q hq]
          rfl
        · rw [if_neg hc]
          exact hval o' q ho' hq
      · exact ⟨M', (if_neg hh).trans hM', hval⟩
    · intro b hb
      refine ⟨_, if_pos ⟨rfl, rfl⟩, ?_⟩
      intro o' q ho' hq
      simp only [TMat.T] at ho' hq ⊢
      rw [if_pos ⟨trivial, by omega, by omega⟩, List.getD_eq_getElem?_getD, Nat.sub_zero, v3 b q hq]
      rw [ho] at ho'
      injection ho' with ho'
      subst ho'
      rfl

/-- A fold in which every step keeps an invariant, keeps the cells that are right, and makes the cells of its element right. -/
theorem fold_cells {σ ε γ : Type} (f : σ → ε → Except PyErr σ) (S : σ → Prop) (G : σ → γ → Prop) (T : ε → γ → Prop) (l : List ε)
    (hstep : ∀ e ∈ l, ∀ s, S s → ∃ s', f s e = .ok s' ∧ S s' ∧ (∀ c, G s c → G s' c) ∧ ∀ c, T e c → G s' c) :
    ∀ s, S s → ∃ s', l.foldlM f s = .ok s' ∧ S s' ∧ (∀ c, G s c → G s' c) ∧ ∀ e ∈ l, ∀ c, T e c → G s' c := by
  induction l with
  | nil => intro s hs; exact ⟨s, rfl, hs, fun _ h => h, by simp⟩
  | cons e l ih =>
    intro s hs
    obtain ⟨s1, a1, a2, a3, a4⟩ := hstep e (by simp) s hs
    obtain ⟨s2, b1, b2, b3, b4⟩ := ih (fun e' he' => hstep e' (by simp [he'])) s1 a2
    refine ⟨s2, ?_, b2, fun c hc => b3 c (a3 c hc), ?_⟩
    · rw [List.foldlM_cons, a1]; exact b1
    · intro e' he' c hc
      rcases List.mem_cons.mp he' with h | h
      · subst h; exact b3 c (a4 c hc)
      · exact b4 e' h c hc

/-- **C34 (dict format).** In either mode `J[u][p]` exists for every requested pair with at least one entry each, has one row per
selected entry of `u` and one column per selected entry of `p`, and holds the scaled total derivatives. No condition on names that
are requested on both sides is needed here. -/
theorem C34_dict (E : TotEnv K) (n : Nat) (A D : Nat → Nat → K) (indep unknown : List String)
    (h : TotOk E n A D indep unknown) (mode : Mode) :
    ∃ J, totalsDict E mode indep unknown = .ok J ∧
      (∀ u p M, J u p = some M → u ∈ unknown ∧ p ∈ indep ∧ M.m = (selected E.slices E.qoi u).length ∧
        M.n = (selected E.slices E.poi p).length ∧ 0 < M.m ∧ 0 < M.n) ∧
      ∀ u ∈ unknown, ∀ p ∈ indep, ∀ (a b o q : Nat), (selected E.slices E.qoi u)[a]? = some o →
        (selected E.slices E.poi p)[b]? = some q →
        ∃ M, J u p = some M ∧ M.a a b = D o q * factorOf E.dvScale p * factorOf E.cnScale u := by
  have key : ∃ J, totalsDict E mode indep unknown = .ok J ∧ DictShape E indep unknown J ∧
      ∀ u ∈ unknown, ∀ p ∈ indep, ∀ (a b : Nat), a < (selected E.slices E.qoi u).length → b < (selected E.slices E.poi p).length →
        DictCell E D J (u, p, a, b) := by
    cases mode with
    | fwd =>
      unfold totalsDict
      simp only [if_true]
      obtain ⟨J, j1, j2, _, j4⟩ := fold_cells (voiDict E .fwd unknown) (DictShape E indep unknown) (DictCell E D)
        (fun p c => c.2.1 = p ∧ c.1 ∈ unknown ∧ c.2.2.1 < (selected E.slices E.qoi c.1).length ∧
          c.2.2.2 < (selected E.slices E.poi c.2.1).length) (voiOrder E .fwd indep)
        (by
          intro p hp J0 hS0
          rw [mem_voiOrder] at hp
          unfold voiDict
          simp only [if_true]
          rw [(totIdx_valid n E.slices E.poi indep h.indep p hp).1]
          obtain ⟨J, j1, j2, j3, j4⟩ := fold_cells (solveDict E .fwd unknown p (selected E.slices E.poi p).length)
            (DictShape E indep unknown) (DictCell E D)
            (fun ip c => c.2.1 = p ∧ c.1 ∈ unknown ∧ c.2.2.1 < (selected E.slices E.qoi c.1).length ∧ c.2.2.2 = ip.1)
            ((List.range (selected E.slices E.poi p).length).zip (selected E.slices E.poi p))
            (by
              rintro ⟨b, q⟩ hbq J1 hS1
              rw [mem_enum] at hbq
              unfold solveDict
              obtain ⟨J, j1, j2, j3, j4⟩ := fold_cells
                (storeDict E .fwd (E.solve .fwd (totRhs q)) p (selected E.slices E.poi p).length b)
                (DictShape E indep unknown) (DictCell E D)
                (fun u c => c.2.1 = p ∧ c.1 = u ∧ c.2.2.1 < (selected E.slices E.qoi c.1).length ∧ c.2.2.2 = b) unknown
                (by
                  intro u hu J2 hS2
                  obtain ⟨J', g1, g2, g3, g4⟩ := storeDict_fwd E n A D indep unknown h J2 hS2 p u hp hu b q hbq
                  refine ⟨J', g1, g2, g3, ?_⟩
                  rintro ⟨u', p', a', b'⟩ ⟨rfl, rfl, ha, rfl⟩
                  exact g4 a' ha)
                J1 hS1
              exact ⟨J, j1, j2, j3, fun c hc => j4 c.1 hc.2.1 c ⟨hc.1, rfl, hc.2.2.1, hc.2.2.2⟩⟩)
            J0 hS0
          refine ⟨J, j1, j2, j3, ?_⟩
          rintro ⟨u', p', a', b'⟩ ⟨rfl, hu, ha, hb⟩
          exact j4 (b', (selected E.slices E.poi p')[b']) ((mem_enum _ _ _).mpr (List.getElem?_eq_getElem hb)) _ ⟨rfl, hu, ha, rfl⟩)
        (fun _ _ => none) (by intro u p M hM; cases hM)
      exact ⟨J, j1, j2, fun u hu p hp a b ha hb => j4 p ((mem_voiOrder E .fwd indep p).mpr hp) _ ⟨rfl, hu, ha, hb⟩⟩
    | rev =>
      unfold totalsDict
      simp only [reduceCtorEq, if_false]
      obtain ⟨J, j1, j2, _, j4⟩ := fold_cells (voiDict E .rev indep) (DictShape E indep unknown) (DictCell E D)
        (fun u c => c.1 = u ∧ c.2.1 ∈ indep ∧ c.2.2.1 < (selected E.slices E.qoi c.1).length ∧
          c.2.2.2 < (selected E.slices E.poi c.2.1).length) (voiOrder E .rev unknown)
        (by
          intro u hu J0 hS0
          rw [mem_voiOrder] at hu
          unfold voiDict
          simp only [reduceCtorEq, if_false]
          rw [(totIdx_valid n E.slices E.qoi unknown h.unknown u hu).1]
          obtain ⟨J, j1, j2, j3, j4⟩ := fold_cells (solveDict E .rev indep u (selected E.slices E.qoi u).length)
            (DictShape E indep unknown) (DictCell E D)
            (fun ip c => c.1 = u ∧ c.2.1 ∈ indep ∧ c.2.2.2 < (selected E.slices E.poi c.2.1).length ∧ c.2.2.1 = ip.1)
            ((List.range (selected E.slices E.qoi u).length).zip (selected E.slices E.qoi u))
            (by
              rintro ⟨a, o⟩ hao J1 hS1
              rw [mem_enum] at hao
              unfold solveDict
              obtain ⟨J, j1, j2, j3, j4⟩ := fold_cells
                (storeDict E .rev (E.solve .rev (totRhs o)) u (selected E.slices E.qoi u).length a)
                (DictShape E indep unknown) (DictCell E D)
                (fun p c => c.1 = u ∧ c.2.1 = p ∧ c.2.2.2 < (selected E.slices E.poi c.2.1).length ∧ c.2.2.1 = a) indep
                (by
                  intro p hp J2 hS2
                  obtain ⟨J', g1, g2, g3, g4⟩ := storeDict_rev E n A D indep unknown h J2 hS2 p u hp hu a o hao
                  refine ⟨J', g1, g2, g3, ?_⟩
                  rintro ⟨u', p', a', b'⟩ ⟨rfl, rfl, hb, rfl⟩
                  exact g4 b' hb)
                J1 hS1
              exact ⟨J, j1, j2, j3, fun c hc => j4 c.2.1 hc.2.1 c ⟨hc.1, rfl, hc.2.2.1, hc.2.2.2⟩⟩)
            J0 hS0
          refine ⟨J, j1, j2, j3, ?_⟩
          rintro ⟨u', p', a', b'⟩ ⟨rfl, hp, ha, hb⟩
          exact j4 (a', (selected E.slices E.qoi u')[a']) ((mem_enum _ _ _).mpr (List.getElem?_eq_getElem ha)) _ ⟨rfl, hp, hb, rfl⟩)
        (fun _ _ => none) (by intro u p M hM; cases hM)
      exact ⟨J, j1, j2, fun u hu p hp a b ha hb => j4 u ((mem_voiOrder E .rev unknown u).mpr hu) _ ⟨rfl, hp, ha, hb⟩⟩
  obtain ⟨J, j1, j2, j3⟩ := key
  refine ⟨J, j1, j2, ?_⟩
  intro u hu p hp a b o q ho hq
  obtain ⟨M, hM, hval⟩ := j3 u hu p hp a b (List.getElem?_eq_some_iff.mp ho).1 (List.getElem?_eq_some_iff.mp hq).1
  exact ⟨M, hM, hval o q ho hq⟩

/-! ### Non-vacuity and the overlapping case -/

/-- Model `y = 3 x` with unknowns `x`, `y`: matrix `[[-1, 0], [3, -1]]`, derivatives `[[1, 0], [3, 1]]`. -/
def exA34 : Nat → Nat → ℚ := fun i j => if i = j then -1 else if i = 1 ∧ j = 0 then 3 else 0
def exD34 : Nat → Nat → ℚ := fun i j => if i = j then 1 else if i = 1 ∧ j = 0 then 3 else 0
/-- Forward or back substitution for that matrix. -/
def exSolve34 : Mode → (Nat → ℚ) → Nat → ℚ
  | .fwd, r, 0 => -r 0
  | .fwd, r, _ => -r 1 - 3 * r 0
  | .rev, r, 0 => -r 0 - 3 * r 1
  | .rev, r, _ => -r 1
def exEnv34 : TotEnv ℚ :=
  { slices := [("x", (0, 1)), ("y", (1, 2))], poi := [], qoi := [("y", [0])], dvScale := [("x", 2)], cnScale := [("y", 1/2)],
    vois := fun _ => [], solve := exSolve34 }

theorem ex34_total : IsTotalDeriv 2 exA34 exD34 where
  right := by
    intro i hi q hq
    have : i = 0 ∨ i = 1 := by omega
    have : q = 0 ∨ q = 1 := by omega
    rcases ‹i = 0 ∨ i = 1› with rfl | rfl <;> rcases ‹q = 0 ∨ q = 1› with rfl | rfl <;>
      norm_num [exA34, exD34, Finset.sum_range_succ]
  left := by
    intro i hi q hq
    have : i = 0 ∨ i = 1 := by omega
    have : q = 0 ∨ q = 1 := by omega
    rcases ‹i = 0 ∨ i = 1› with rfl | rfl <;> rcases ‹q = 0 ∨ q = 1› with rfl | rfl <;>
      norm_num [exA34, exD34, Finset.sum_range_succ]

theorem ex34_solver : ExactSolver 2 exA34 exSolve34 where
  fwd := by
    intro r i hi
    have : i = 0 ∨ i = 1 := by omega
    rcases this with rfl | rfl <;> norm_num [exA34, exSolve34, Finset.sum_range_succ]
  rev := by
    intro r i hi
    have : i = 0 ∨ i = 1 := by omega
    rcases this with rfl | rfl <;> norm_num [exA34, exSolve34, Finset.sum_range_succ]

theorem ex34_names (names : List String) (d : List (String × List Nat)) (hd : d = [] ∨ d = [("y", [0])])
    (h : ∀ x ∈ names, x = "x" ∨ x = "y") : ValidNames 2 exEnv34.slices d names := by
  intro x hx
  rcases h x hx with rfl | rfl
  · refine ⟨0, 1, rfl, by omega, by omega, ?_⟩
    intro l hl
    rcases hd with rfl | rfl <;> simp [List.lookup] at hl
  · refine ⟨1, 2, rfl, by omega, by omega, ?_⟩
    intro l hl
    rcases hd with rfl | rfl
    · simp [List.lookup] at hl
    · simp only [List.lookup, beq_self_eq_true, Option.some.injEq] at hl
      subst hl
      simp

example : TotOk exEnv34 2 exA34 exD34 ["x"] ["y"] :=
  ⟨ex34_total, ex34_solver, ex34_names _ _ (Or.inl rfl) (by simp), ex34_names _ _ (Or.inr rfl) (by simp)⟩

/-- **C34 is false when a name is requested on both sides.** `Jslices` is one dict for rows and columns, so the row range of such
an unknown is overwritten by its column range. Here dy/dx = 3 (scaled 3) and dx/dx = 1 (scaled 2) are requested as rows 0 and 1; in
both modes row 0 holds 2, the entry of dx/dx, and row 1 stays zero. -/
theorem C34_overlap_refuted :
    ∃ (E : TotEnv ℚ) (A D : Nat → Nat → ℚ) (indep unknown : List String), TotOk E 2 A D indep unknown ∧ indep.Nodup ∧ unknown.Nodup ∧
      labels E.slices E.qoi unknown = [("y", 1), ("x", 0)] ∧ labels E.slices E.poi indep = [("x", 0)] ∧
      totEntry E D ("y", 1) ("x", 0) = 3 ∧ totEntry E D ("x", 0) ("x", 0) = 2 ∧
      (totalsArr E .fwd indep unknown).map (fun J => (J.a 0 0, J.a 1 0)) = .ok (2, 0) ∧
      (totalsArr E .rev indep unknown).map (fun J => (J.a 0 0, J.a 1 0)) = .ok (2, 0) := by
  refine ⟨exEnv34, exA34, exD34, ["x"], ["y", "x"],
    ⟨ex34_total, ex34_solver, ex34_names _ _ (Or.inl rfl) (by simp), ex34_names _ _ (Or.inr rfl) (by simp)⟩,
    by simp, by simp, by decide, by decide, ?_, ?_, ?_, ?_⟩
  · norm_num [totEntry, exD34, exEnv34, factorOf, List.lookup]; try rfl
  · norm_num [totEntry, exD34, exEnv34, factorOf, List.lookup]; try rfl
  · decide +kernel
  · decide +kernel

/-- With the unknowns listed the other way round and another solving order the two modes even differ. -/
theorem C34_modes_differ_refuted :
    ∃ (E : TotEnv ℚ) (A D : Nat → Nat → ℚ) (indep unknown : List String), TotOk E 2 A D indep unknown ∧
      (totalsArr E .fwd indep unknown).map (fun J => J.a 0 0) ≠ (totalsArr E .rev indep unknown).map (fun J => J.a 0 0) := by
  refine ⟨{ exEnv34 with vois := fun _ => ["x", "y"] }, exA34, exD34, ["x"], ["y", "x"],
    ⟨ex34_total, ex34_solver, ex34_names _ _ (Or.inl rfl) (by simp), ex34_names _ _ (Or.inr rfl) (by simp)⟩, ?_⟩
  decide +kernel

end OpenMDAO
