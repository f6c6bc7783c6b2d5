import Verif.Spec.GroupXfer
import Verif.Lemmas.DataTransfer
import Verif.Lemmas.Connections
import Verif.Lemmas.List
import Mathlib.Data.List.Induction
/-!
# Lemmas for the transfer indices of a group
-/
namespace OpenMDAO

theorem flatMap_at {α β : Type} (f : α → List β) (l : List α) (n k : Nat) (a : α) (hn : l[n]? = some a) (hk : k < (f a).length) :
    (l.flatMap f)[((l.take n).map fun x => (f x).length).sum + k]? = (f a)[k]? := by
  induction l generalizing n with
  | nil => simp at hn
  | cons b l ih =>
    cases n with
    | zero =>
      simp only [List.getElem?_cons_zero, Option.some.injEq] at hn
      subst hn
      simp [List.flatMap_cons, List.getElem?_append_left hk]
    | succ n =>
      simp only [List.getElem?_cons_succ] at hn
      rw [List.flatMap_cons, List.take_succ_cons, List.map_cons, List.sum_cons, Nat.add_assoc,
        List.getElem?_append_right (Nat.le_add_right _ _), Nat.add_sub_cancel_left, ih n hn]

theorem take_range_map {β : Type} (f : Nat → β) (n m : Nat) (h : n ≤ m) : ((List.range m).take n).map f = (List.range n).map f := by
  rw [List.take_range, Nat.min_eq_left h]

theorem szAt_row (sz : List (List Nat)) (r : Nat) : (List.range (sz.getD r []).length).map (szAt sz r) = sz.getD r [] := by
  apply List.ext_getElem (by simp)
  intro i h1 h2
  simp [szAt, List.getD_eq_getElem?_getD] at h1 ⊢
  rw [List.getElem?_eq_getElem h1]; rfl

theorem rowCells_length (sz : List (List Nat)) (r : Nat) :
    ((List.range (sz.getD r []).length).flatMap fun i => (List.range (szAt sz r i)).map fun k => (r, i, k)).length = (sz.getD r []).sum := by
  rw [List.length_flatMap]
  simp only [List.length_map, List.length_range]
  rw [show (fun i => szAt sz r i) = szAt sz r from rfl, szAt_row]

theorem vecCells_at (sz : List (List Nat)) (r i k : Nat) (hr : r < sz.length) (hc : HasCol sz i) (hk : k < szAt sz r i) :
    (vecCells sz)[varOffset sz r i + k]? = some (r, i, k) := by
  have hi : i < (sz.getD r []).length := by
    rw [List.getD_eq_getElem?_getD, List.getElem?_eq_getElem hr]
    exact hc _ (List.getElem_mem hr)
  have h1 : (((List.range (sz.getD r []).length).flatMap fun i => (List.range (szAt sz r i)).map fun k => (r, i, k)))[
      ((sz.getD r []).take i).sum + k]? = some (r, i, k) := by
    have := flatMap_at (fun i => (List.range (szAt sz r i)).map fun k => (r, i, k)) (List.range (sz.getD r []).length) i k i
      (by rw [List.getElem?_range hi]) (by simpa using hk)
    simp only [List.length_map, List.length_range] at this
    rw [show (fun x => szAt sz r x) = szAt sz r from rfl] at this
    rw [List.map_take, szAt_row] at this
    rw [this]
    simp [hk]
  have hlt : ((sz.getD r []).take i).sum + k <
      ((List.range (sz.getD r []).length).flatMap fun i => (List.range (szAt sz r i)).map fun k => (r, i, k)).length :=
    (List.getElem?_eq_some_iff.mp h1).1
  have := flatMap_at (fun r => (List.range (sz.getD r []).length).flatMap fun i => (List.range (szAt sz r i)).map fun k => (r, i, k))
    (List.range sz.length) r (((sz.getD r []).take i).sum + k) r (by rw [List.getElem?_range hr]) hlt
  rw [h1] at this
  rw [← this]
  simp only [rowCells_length]
  unfold vecCells varOffset
  rw [Nat.add_assoc]
  congr 3
  rw [take_range_map _ _ _ (Nat.le_of_lt hr)]
  apply List.ext_getElem
  · simp [Nat.le_of_lt hr]
  · intro q h1 h2
    simp only [List.length_map, List.length_take, List.length_range] at h1 h2
    have : q < sz.length := by omega
    simp [List.getD_eq_getElem?_getD, List.getElem?_eq_getElem this]

theorem varCells_at (sz : List (List Nat)) (r i k : Nat) (hr : r < sz.length) (hk : k < szAt sz r i) :
    (varCells sz i)[rankStart sz r i + k]? = some (r, i, k) := by
  have := flatMap_at (fun r => (List.range (szAt sz r i)).map fun k => (r, i, k)) (List.range sz.length) r k r
    (by rw [List.getElem?_range hr]) (by simpa using hk)
  simp only [List.length_map, List.length_range] at this
  rw [take_range_map _ _ _ (Nat.le_of_lt hr)] at this
  unfold varCells rankStart
  rw [this]
  simp [hk]

theorem rankStart_succ (sz : List (List Nat)) (r i : Nat) : rankStart sz (r + 1) i = rankStart sz r i + szAt sz r i := by
  simp [rankStart, List.range_succ]

theorem varCells_length (sz : List (List Nat)) (i : Nat) : (varCells sz i).length = rankStart sz sz.length i := by
  simp [varCells, rankStart, List.length_flatMap]

/-- State of the loop over ranks at one entry. -/
theorem placeAll_entry (sz : List (List Nat)) (i : Nat) (args : List Int) (n k : Nat) (a : Int) (ha : args[k]? = some a) :
    ∃ o, (placeAll sz n i args)[k]? = some o ∧
      ((0 ≤ a ∧ a < rankStart sz n i) → ∃ r, r < n ∧ ∃ m : Nat, m < szAt sz r i ∧ a = rankStart sz r i + m ∧ o = some ((varOffset sz r i + m : Nat) : Int)) ∧
      (¬ (0 ≤ a ∧ a < rankStart sz n i) → o = none) := by
  induction n with
  | zero =>
    refine ⟨none, ?_, by simp [rankStart], fun _ => rfl⟩
    have : k < args.length := (List.getElem?_eq_some_iff.mp ha).1
    simp [placeAll, this]
  | succ n ih =>
    obtain ⟨o, h1, h2, h3⟩ := ih
    have hstep : placeAll sz (n + 1) i args = placeRank sz i args (placeAll sz n i args) n := by
      simp [placeAll, List.range_succ]
    rw [hstep]
    simp only [placeRank]
    rw [List.getElem?_zipWith, ha, h1]
    simp only
    refine ⟨_, rfl, ?_, ?_⟩
    · rw [rankStart_succ]
      rintro ⟨p1, p2⟩
      split <;> rename_i h
      · obtain ⟨m, hm⟩ := Int.eq_ofNat_of_zero_le (show 0 ≤ a - rankStart sz n i by omega)
        refine ⟨n, by omega, m, by omega, by omega, ?_⟩
        congr 1; push_cast; omega
      · obtain ⟨r, r1, m, r2, r3, r4⟩ := h2 ⟨p1, by push_cast at p2; omega⟩
        exact ⟨r, by omega, m, r2, r3, r4⟩
    · rw [rankStart_succ]
      intro hn
      have hnn : ¬ ((rankStart sz n i : Int) ≤ a ∧ a < rankStart sz n i + szAt sz n i) := by
        rintro ⟨q1, q2⟩
        apply hn
        push_cast
        exact ⟨by omega, by omega⟩
      rw [if_neg hnn]
      apply h3
      rintro ⟨q1, q2⟩
      apply hn
      push_cast
      exact ⟨q1, by omega⟩

theorem placeAll_length (sz : List (List Nat)) (i : Nat) (args : List Int) (n : Nat) : (placeAll sz n i args).length = args.length := by
  induction n with
  | zero => simp [placeAll]
  | succ n ih =>
    have hstep : placeAll sz (n + 1) i args = placeRank sz i args (placeAll sz n i args) n := by
      simp [placeAll, List.range_succ]
    rw [hstep]
    simp [placeRank, ih]

/-! ## Layout of the vectors -/

/-- Total size of the entries with a slice. -/
def slotSum (l : List XSlot) : Nat := ((flatSizes l).map Prod.snd).sum

theorem flatSizes_append (a b : List XSlot) : flatSizes (a ++ b) = flatSizes a ++ flatSizes b := by simp [flatSizes]

theorem slotSum_append (a b : List XSlot) : slotSum (a ++ b) = slotSum a + slotSum b := by simp [slotSum, flatSizes_append]

theorem flatSizes_cons (s : XSlot) (l : List XSlot) : flatSizes (s :: l) = (if s.slice.isSome then [(s.path, s.size)] else []) ++ flatSizes l := by
  cases h : s.slice <;> simp [flatSizes, h]

/-- Slices follow each other without gap. -/
structure Laid (n : Nat) (slots : List XSlot) : Prop where
  total : n = slotSum slots
  slc : ∀ pre s post ab, slots = pre ++ s :: post → s.slice = some ab → ab = (slotSum pre, slotSum pre + s.size)

theorem Laid.nil : Laid 0 [] := ⟨rfl, by intro pre s post ab h; cases pre <;> simp at h⟩

theorem Laid.snoc {n : Nat} {slots : List XSlot} (h : Laid n slots) (s : XSlot) (hs : ∀ ab, s.slice = some ab → ab = (n, n + s.size)) :
    Laid (n + if s.slice.isSome then s.size else 0) (slots ++ [s]) := by
  refine ⟨?_, ?_⟩
  · rw [slotSum_append, ← h.total]
    cases hh : s.slice <;> simp [slotSum, flatSizes, hh]
  · intro pre t post ab he ht
    rcases List.eq_nil_or_concat post with rfl | ⟨q, x, rfl⟩
    · have := List.append_inj' he (by simp)
      obtain ⟨rfl, h2⟩ := this
      simp only [List.cons.injEq, and_true] at h2
      subst h2
      rw [← h.total]
      exact hs _ ht
    · have he' : slots ++ [s] = (pre ++ t :: q) ++ [x] := by simpa using he
      obtain ⟨h1, _⟩ := List.append_inj' he' rfl
      exact h.slc pre t q ab h1 ht

/-- What is known of an entry of a laid-out vector. -/
theorem Laid.entry {n : Nat} {slots : List XSlot} (h : Laid n slots) (hnd : (slots.map XSlot.path).Nodup) {s : XSlot} (hs : s ∈ slots)
    (hv : s.slice.isSome = true) :
    ∃ a i, s.slice = some (a, a + s.size) ∧ a + s.size ≤ n ∧ colOf (flatSizes slots) s.path = .ok i ∧
      varOffset [(flatSizes slots).map Prod.snd] 0 i = a ∧ szAt [(flatSizes slots).map Prod.snd] 0 i = s.size := by
  obtain ⟨pre, post, he⟩ := List.append_of_mem hs
  obtain ⟨ab, hab⟩ := Option.isSome_iff_exists.mp hv
  have hslc := h.slc pre s post ab he hab
  have hfl : flatSizes slots = flatSizes pre ++ (s.path, s.size) :: flatSizes post := by
    rw [he, flatSizes_append, flatSizes_cons, if_pos hv]; rfl
  refine ⟨slotSum pre, (flatSizes pre).length, by rw [hab, hslc], ?_, ?_, ?_, ?_⟩
  · rw [h.total]
    simp only [slotSum]
    rw [hfl]
    simp
  · rw [hfl]
    unfold colOf
    have hnot : ∀ x ∈ flatSizes pre, (x.1 == s.path) = false := by
      intro x hx
      rw [beq_eq_false_iff_ne]
      intro hxe
      obtain ⟨t, ht, rfl⟩ := List.mem_map.mp hx
      have htp := (List.mem_filter.mp ht).1
      rw [he, List.map_append, List.map_cons, List.nodup_append] at hnd
      exact hnd.2.2 t.path (List.mem_map_of_mem htp) s.path (by simp) hxe
    rw [List.findIdx?_append]
    have : (flatSizes pre).findIdx? (fun x => x.1 == s.path) = none := by
      rw [List.findIdx?_eq_none_iff]
      intro x hx
      simpa using hnot x hx
    rw [this]
    simp [List.findIdx?_cons]
  · rw [hfl]
    simp [varOffset, slotSum]
  · rw [hfl]
    simp [szAt]

theorem Laid.disjoint {n : Nat} {slots : List XSlot} (h : Laid n slots) {s t : XSlot} (hs : s ∈ slots) (ht : t ∈ slots) (hne : s ≠ t)
    {a b : Nat} (ha : s.slice = some (a, a + s.size)) (hb : t.slice = some (b, b + t.size)) : a + s.size ≤ b ∨ b + t.size ≤ a := by
  have key : ∀ (x y : XSlot) (pre mid post : List XSlot) (p q : Nat), slots = pre ++ x :: (mid ++ y :: post) →
      x.slice = some (p, p + x.size) → y.slice = some (q, q + y.size) → p + x.size ≤ q := by
    intro x y pre mid post p q he hx hy
    have h1 := h.slc pre x _ _ he hx
    have h2 := h.slc (pre ++ x :: mid) y post _ (by rw [he]; simp) hy
    simp only [Prod.mk.injEq] at h1 h2
    have : slotSum (pre ++ x :: mid) = slotSum pre + (x.size + slotSum mid) := by
      rw [slotSum_append]
      congr 1
      simp [slotSum, flatSizes_cons, hx]
    omega
  obtain ⟨pre, post, he⟩ := List.append_of_mem hs
  rw [he] at ht
  rcases List.mem_append.mp ht with ht | ht
  · obtain ⟨p1, p2, rfl⟩ := List.append_of_mem ht
    right
    exact key t s p1 p2 post b a (by rw [he]; simp) hb ha
  · rcases List.mem_cons.mp ht with rfl | ht
    · exact absurd rfl hne
    · obtain ⟨p1, p2, rfl⟩ := List.append_of_mem ht
      left
      exact key s t pre p1 p2 a b he ha hb

theorem uVec_spec (us : List GUnk) : Laid (us.foldl uSlot (0, [])).1 (us.foldl uSlot (0, [])).2 ∧
    (us.foldl uSlot (0, [])).2.map (fun s => (s.path, s.size, s.slice.isSome)) = (us.filter GUnk.rel).map (fun u => (u.path, u.size, !u.pbo)) := by
  induction us using List.reverseRecOn with
  | nil => exact ⟨Laid.nil, rfl⟩
  | append_singleton us u ih =>
    rw [List.foldl_append]
    simp only [List.foldl_cons, List.foldl_nil]
    generalize us.foldl uSlot (0, []) = st at ih ⊢
    obtain ⟨h1, h2⟩ := ih
    unfold uSlot
    cases hr : u.rel with
    | false => simpa [hr] using ⟨h1, h2⟩
    | true =>
      cases hp : u.pbo with
      | true =>
        refine ⟨by simpa using h1.snoc ⟨u.path, none, u.size⟩ (by simp), ?_⟩
        simp [hr, hp, h2]
      | false =>
        refine ⟨by simpa using h1.snoc ⟨u.path, some (st.1, st.1 + u.size), u.size⟩ (by simp), ?_⟩
        simp [hr, hp, h2]

theorem find_unk {g : XGroup} (h : XGroupOk g) {u : GUnk} (hu : u ∈ g.us) : g.unk u.path = some u := by
  have hnd := h.unames
  unfold XGroup.unk
  generalize g.us = l at hu hnd
  induction l with
  | nil => simp at hu
  | cons x l ih =>
    rw [List.map_cons, List.nodup_cons] at hnd
    rcases List.mem_cons.mp hu with rfl | hu
    · simp
    · have : (x.path == u.path) = false := by
        rw [beq_eq_false_iff_ne]
        intro hx
        exact hnd.1 (hx ▸ List.mem_map_of_mem hu)
      rw [List.find?_cons, this]
      exact ih hu hnd.2

theorem find_par {g : XGroup} (h : XGroupOk g) {p : GPar} (hp : p ∈ g.ps) : g.par p.path = some p := by
  have hnd := h.pnames
  unfold XGroup.par
  generalize g.ps = l at hp hnd
  induction l with
  | nil => simp at hp
  | cons x l ih =>
    rw [List.map_cons, List.nodup_cons] at hnd
    rcases List.mem_cons.mp hp with rfl | hp
    · simp
    · have : (x.path == p.path) = false := by
        rw [beq_eq_false_iff_ne]
        intro hx
        exact hnd.1 (hx ▸ List.mem_map_of_mem hp)
      rw [List.find?_cons, this]
      exact ih hp hnd.2

theorem find_slot {slots : List XSlot} (hnd : (slots.map XSlot.path).Nodup) {s : XSlot} (hs : s ∈ slots) :
    slots.find? (fun t => t.path == s.path) = some s := by
  induction slots with
  | nil => simp at hs
  | cons x l ih =>
    rw [List.map_cons, List.nodup_cons] at hnd
    rcases List.mem_cons.mp hs with rfl | hs
    · simp
    · have : (x.path == s.path) = false := by
        rw [beq_eq_false_iff_ne]
        intro hx
        exact hnd.1 (hx ▸ List.mem_map_of_mem hs)
      rw [List.find?_cons, this]
      exact ih hnd.2 hs

theorem lookup_of_nodup {α β : Type} [BEq α] [LawfulBEq α] {d : List (α × β)} {k : α} {v : β} (hnd : (d.map Prod.fst).Nodup) (h : (k, v) ∈ d) :
    d.lookup k = some v := by
  induction d with
  | nil => simp at h
  | cons e d ih =>
    obtain ⟨a, b⟩ := e
    rw [List.map_cons, List.nodup_cons] at hnd
    rcases List.mem_cons.mp h with h' | h'
    · simp only [Prod.mk.injEq] at h'
      simp [List.lookup, h'.1, h'.2]
    · have : (k == a) = false := by
        rw [beq_eq_false_iff_ne]
        intro hk
        subst hk
        exact hnd.1 (List.mem_map.mpr ⟨_, h', rfl⟩)
      rw [List.lookup_cons, this]
      exact ih hnd.2 h'

theorem pVec_spec {g : XGroup} (h : XGroupOk g) : ∃ pv, g.pVec = .ok pv ∧ Laid pv.1 pv.2 ∧
    pv.2.map XSlot.path = (g.ps.filter GPar.rel).map GPar.path ∧
    ∀ p ∈ g.ps, p.rel = true → ∀ u ∈ g.us, (p.path, u.path) ∈ g.conns →
      ∃ s ∈ pv.2, s.path = p.path ∧ s.size = pSize p u ∧ s.slice.isSome = !u.pbo := by
  unfold XGroup.pVec
  have key : ∀ l : List GPar, (∀ p ∈ l, p ∈ g.ps) → ∃ pv, l.foldlM (pSlot g) (0, []) = .ok pv ∧ Laid pv.1 pv.2 ∧
    pv.2.map XSlot.path = (l.filter GPar.rel).map GPar.path ∧
    ∀ p ∈ l, p.rel = true → ∀ u ∈ g.us, (p.path, u.path) ∈ g.conns →
      ∃ s ∈ pv.2, s.path = p.path ∧ s.size = pSize p u ∧ s.slice.isSome = !u.pbo := by
    intro l
    induction l using List.reverseRecOn with
    | nil => intro _; exact ⟨(0, []), rfl, Laid.nil, rfl, by simp⟩
    | append_singleton l p ih =>
      intro hl
      obtain ⟨st, h1, h2, h3, h4⟩ := ih (fun q hq => hl q (by simp [hq]))
      have hp := hl p (by simp)
      rw [List.foldlM_append, h1]
      simp only [bind, Except.bind, List.foldlM_cons, List.foldlM_nil, pure, Except.pure]
      cases hr : p.rel with
      | false =>
        refine ⟨st, by simp [pSlot, hr], h2, by simp [hr, h3], ?_⟩
        intro q hq hqr u hu hc
        rcases List.mem_append.mp hq with hq | hq
        · exact h4 q hq hqr u hu hc
        · rw [List.mem_singleton] at hq
          subst hq
          rw [hr] at hqr; cases hqr
      | true =>
        obtain ⟨sn, hsn⟩ := h.all p hp
        obtain ⟨u, hu, hun⟩ := h.src _ hsn
        simp only at hun
        subst hun
        have hlk := lookup_of_nodup h.cnames hsn
        have hfu := find_unk h hu
        have hpbo : pPbo p u = u.pbo := by
          unfold pPbo
          cases hb : u.pbo with
          | true => simp
          | false => simp [(h.vec p hp u hu hsn hb).1]
        refine ⟨(st.1 + pSize p u, st.2 ++ [⟨p.path, if pPbo p u then none else some (st.1, st.1 + pSize p u), pSize p u⟩]),
          by rw [pSlot, if_pos hr, hlk]; simp only [hfu], ?_, ?_, ?_⟩
        · have := h2.snoc ⟨p.path, if pPbo p u then none else some (st.1, st.1 + pSize p u), pSize p u⟩ (by
            cases hb : pPbo p u <;> simp)
          cases hb : pPbo p u with
          | false => simpa [hb] using this
          | true =>
            have hz : pSize p u = 0 := by
              obtain ⟨e1, e2⟩ := h.obj p hp u hu hsn (by rw [← hpbo, hb])
              simp [pSize, e1, e2]
            simpa [hb, hz] using this
        · simp [hr, h3]
        · intro q hq hqr v hv hc
          rcases List.mem_append.mp hq with hq | hq
          · obtain ⟨s, s1, s2⟩ := h4 q hq hqr v hv hc
            exact ⟨s, by simp [s1], s2⟩
          · rw [List.mem_singleton] at hq
            subst hq
            have hve : v = u := by
              have := lookup_of_nodup h.cnames hc
              rw [hlk] at this
              have hvp : u.path = v.path := by simpa using this
              have h1 := find_unk h hv
              rw [← hvp, hfu] at h1
              simpa using h1.symm
            subst hve
            refine ⟨_, List.mem_append_right _ (List.mem_singleton_self _), rfl, rfl, ?_⟩
            rw [hpbo]
            cases v.pbo <;> simp
  exact key g.ps (fun p hp => hp)

/-! ## Index pairs of the connections -/

/-- Positions in the source a parameter takes. -/
def takenIdxs (p : GPar) (u : GUnk) : List Nat :=
  match p.srcIdx with
  | some l => l.map Int.toNat
  | none => List.range u.size

theorem natIdxs_some (l : List Nat) : natIdxs (l.map fun n : Nat => some (n : Int)) = .ok l := by
  induction l with
  | nil => rfl
  | cons a l ih =>
    simp only [natIdxs, List.map_cons, List.mapM_cons] at ih ⊢
    simp only [bind, Except.bind, pure, Except.pure]
    rw [ih]

/-- Start of the slice of a variable. -/
def slotStart (slots : List XSlot) (path : Str) : Nat :=
  match slots.find? (fun s => s.path == path) with
  | some s => (s.slice.getD (0, 0)).1
  | none => 0

theorem mem_uVec {g : XGroup} {u : GUnk} (hu : u ∈ g.us) (hr : u.rel = true) :
    ∃ s ∈ g.uVec.2, s.path = u.path ∧ s.size = u.size ∧ s.slice.isSome = !u.pbo := by
  have h2 := (uVec_spec g.us).2
  have : (u.path, u.size, !u.pbo) ∈ (g.us.filter GUnk.rel).map (fun u => (u.path, u.size, !u.pbo)) :=
    List.mem_map_of_mem (f := fun u : GUnk => (u.path, u.size, !u.pbo)) (List.mem_filter.mpr ⟨hu, hr⟩)
  rw [← h2] at this
  obtain ⟨s, hs, he⟩ := List.mem_map.mp this
  simp only [Prod.mk.injEq] at he
  exact ⟨s, hs, he.1, he.2.1, he.2.2⟩

theorem uVec_nodup {g : XGroup} (h : XGroupOk g) : (g.uVec.2.map XSlot.path).Nodup := by
  have h2 := congrArg (List.map Prod.fst) (uVec_spec g.us).2
  simp only [List.map_map] at h2
  have e1 : g.uVec.2.map XSlot.path = (g.us.filter GUnk.rel).map GUnk.path := h2
  rw [e1]
  exact h.unames.sublist (List.filter_sublist.map _)

theorem connIdxs_ok {g : XGroup} (h : XGroupOk g) {pv : Nat × List XSlot} (hpv : g.pVec = .ok pv) (mode : Mode) {u : GUnk} {p : GPar}
    (hu : u ∈ g.us) (hp : p ∈ g.ps) (hc : (p.path, u.path) ∈ g.conns) (hur : u.rel = true) (hpr : p.rel = true) (hb : u.pbo = false) :
    connIdxs g.uVec.2 pv.2 mode u p = .ok ((takenIdxs p u).map (slotStart g.uVec.2 u.path + ·), (List.range (pSize p u)).map (slotStart pv.2 p.path + ·)) ∧
    slotStart g.uVec.2 u.path + u.size ≤ g.uVec.1 ∧ slotStart pv.2 p.path + pSize p u ≤ pv.1 ∧
    (∃ s ∈ g.uVec.2, s.path = u.path ∧ s.size = u.size ∧ s.slice = some (slotStart g.uVec.2 u.path, slotStart g.uVec.2 u.path + u.size)) ∧
    (∃ s ∈ pv.2, s.path = p.path ∧ s.size = pSize p u ∧ s.slice = some (slotStart pv.2 p.path, slotStart pv.2 p.path + pSize p u)) ∧
    (takenIdxs p u).length = pSize p u ∧ (∀ k ∈ takenIdxs p u, k < u.size) ∧ 0 < pSize p u := by
  obtain ⟨pv', e, hl, hn, hm⟩ := pVec_spec h
  rw [hpv] at e; cases e
  have hpn : (pv.2.map XSlot.path).Nodup := by
    rw [hn]; exact h.pnames.sublist (List.filter_sublist.map _)
  obtain ⟨su, su1, su2, su3, su4⟩ := mem_uVec hu hur
  obtain ⟨sp, sp1, sp2, sp3, sp4⟩ := hm p hp hpr u hu hc
  rw [hb] at su4 sp4
  obtain ⟨a, i, a1, a2, a3, a4, a5⟩ := (uVec_spec g.us).1.entry (uVec_nodup h) su1 (by simpa using su4)
  obtain ⟨b, j, b1, b2, b3, b4, b5⟩ := hl.entry hpn sp1 (by simpa using sp4)
  have hsu : slotStart g.uVec.2 u.path = a := by
    have := find_slot (uVec_nodup h) su1
    rw [su2] at this
    simp [slotStart, this, a1]
  have hsp : slotStart pv.2 p.path = b := by
    have := find_slot hpn sp1
    rw [sp2] at this
    simp [slotStart, this, b1]
  obtain ⟨v1, v2, v3⟩ := h.vec p hp u hu hc hb
  have hlen : (takenIdxs p u).length = pSize p u := by
    cases hs : p.srcIdx with
    | none => simp [takenIdxs, pSize, hs]
    | some l => simp [takenIdxs, pSize, hs, (v3 l hs).2.1]
  have hlt : ∀ k ∈ takenIdxs p u, k < u.size := by
    intro k hk
    cases hs : p.srcIdx with
    | none => simpa [takenIdxs, hs] using hk
    | some l =>
      simp only [takenIdxs, hs, List.mem_map] at hk
      obtain ⟨x, hx, rfl⟩ := hk
      have := (v3 l hs).2.2 x hx
      omega
  have hpos : 0 < pSize p u := by
    cases hs : p.srcIdx with
    | none => simpa [pSize, hs] using v2
    | some l =>
      have := v3 l hs
      simp only [pSize, hs, Option.isSome_some, if_true, this.2.1]
      exact List.length_pos_iff.mpr this.1
  rw [hsu, hsp]
  rw [su3] at a1 a2
  rw [sp3] at b1 b2
  refine ⟨?_, a2, b2, ⟨su, su1, su2, su3, a1⟩, ⟨sp, sp1, sp2, sp3, b1⟩, hlen, hlt, hpos⟩
  rw [su2] at a3
  rw [sp2] at b3
  have hsrc : (getGlobalIdxs 1 0 mode ⟨false, none, u.size⟩ ⟨false, p.srcIdx, pSize p u⟩ 0 0 i j
      [(flatSizes g.uVec.2).map Prod.snd] [(flatSizes pv.2).map Prod.snd]) =
      ((takenIdxs p u).map (fun n : Nat => some ((a + n : Nat) : Int)), (List.range (pSize p u)).map (b + ·)) := by
    cases hs : p.srcIdx with
    | none =>
      have hps : pSize p u = u.size := by simp [pSize, hs]
      simp only [getGlobalIdxs, argIdxs, hps, takenIdxs, hs]
      have e1 : ∀ q : Nat, (if mode = Mode.rev then q else q) = q := by intro q; split <;> rfl
      simp [idxArange, a4, b4, XGroup.uVec] at *
      intro x hx
      omega
    | some l =>
      have hps : pSize p u = l.length := by simp [pSize, hs, (v3 l hs).2.1]
      have hpl : placeAll [(flatSizes g.uVec.2).map Prod.snd] 1 i l = l.map (fun x => some ((a + x.toNat : Nat) : Int)) := by
        apply List.ext_getElem?
        intro k
        cases hk : l[k]? with
        | none =>
          have : l.length ≤ k := by simpa using hk
          rw [List.getElem?_eq_none (by rw [placeAll_length]; exact this), List.getElem?_eq_none (by simpa using this)]
        | some x =>
          obtain ⟨o, o1, o2, _⟩ := placeAll_entry [(flatSizes g.uVec.2).map Prod.snd] i l 1 k x hk
          have hx := (v3 l hs).2.2 x (List.mem_of_getElem? hk)
          have hrs : rankStart [(flatSizes g.uVec.2).map Prod.snd] 1 i = u.size := by
            simp only [rankStart, List.range_one, List.map_cons, List.map_nil, List.sum_cons, List.sum_nil, Nat.add_zero]
            rw [← su3]; exact a5
          rw [hrs] at o2
          obtain ⟨r, r1, m, r2, r3, r4⟩ := o2 hx
          have hr0 : r = 0 := by omega
          subst hr0
          have ha4 : varOffset [(flatSizes g.uVec.2).map Prod.snd] 0 i = a := a4
          have hm0 : x.toNat = m := by
            simp only [rankStart, List.range_zero, List.map_nil, List.sum_nil] at r3
            omega
          rw [o1, r4, ha4, List.getElem?_map, hk, Option.map_some, hm0]
      have ht : takenIdxs p u = l.map Int.toNat := by simp [takenIdxs, hs]
      rw [ht, List.map_map]
      simp only [getGlobalIdxs, argIdxs, hpl]
      simp [hps, b4, Function.comp_def]
  unfold connIdxs
  have ha3 : colOf (flatSizes g.uVec.2) u.path = .ok i := a3
  have : ((takenIdxs p u).map (fun n : Nat => some ((a + n : Nat) : Int))) = (((takenIdxs p u).map (a + ·)).map fun n : Nat => some (n : Int)) := by
    simp [List.map_map, Function.comp_def]
  simp only [ha3, b3, bind, Except.bind, pure, Except.pure, hsrc, this, natIdxs_some]

/-! ## The transfer dictionary -/

/-- Index pair of a connection of the group, `none` if it is not passed by vector or not relevant. -/
def vecPair (g : XGroup) (pv : List XSlot) (c : Str × Str) : Option (List Nat × List Nat) :=
  match g.unk c.2, g.par c.1 with
  | some u, some p =>
    if u.rel && p.rel && !u.pbo then
      some ((takenIdxs p u).map (slotStart g.uVec.2 u.path + ·), (List.range (pSize p u)).map (slotStart pv p.path + ·))
    else none
  | _, _ => none

/-- Object pair of a connection. -/
def objPair (g : XGroup) (c : Str × Str) : Option (Str × Str) :=
  match g.unk c.2, g.par c.1 with
  | some u, some p => if u.rel && p.rel && u.pbo then some c else none
  | _, _ => none

/-- Key of a connection in one direction. -/
def keyOf (g : XGroup) (mode : Mode) (c : Str × Str) : Str :=
  match mode with
  | .fwd => nearestChild g.path c.1
  | .rev => nearestChild g.path c.2

theorem addXfer_lookup (d : List ((Str × Mode) × XferLists)) (key k : Str × Mode) (vs : List (List Nat × List Nat)) (os : List (Str × Str)) :
    ((addXfer d key vs os).lookup k).getD ⟨[], []⟩ =
      if k = key then ⟨((d.lookup k).getD ⟨[], []⟩).vecs ++ vs, ((d.lookup k).getD ⟨[], []⟩).objs ++ os⟩ else (d.lookup k).getD ⟨[], []⟩ := by
  unfold addXfer
  rw [lookup_dictSet]
  split <;> rename_i h
  · subst h; rfl
  · rfl

theorem addXfer_full (d : List ((Str × Mode) × XferLists)) (key : Str × Mode) (vs : List (List Nat × List Nat)) (os : List (Str × Str)) (m : Mode) :
    (fullLists (addXfer d key vs os) m).vecs.Perm ((fullLists d m).vecs ++ if key.2 = m then vs else []) ∧
    (fullLists (addXfer d key vs os) m).objs.Perm ((fullLists d m).objs ++ if key.2 = m then os else []) := by
  unfold addXfer
  induction d with
  | nil =>
    by_cases hm : key.2 = m <;> simp [dictSet, fullLists, hm]
  | cons e d ih =>
    obtain ⟨k, x⟩ := e
    by_cases hk : k = key
    · subst hk
      by_cases hm : k.2 = m
      · simp only [dictSet, if_true, List.lookup_cons, beq_self_eq_true, Option.getD_some, fullLists, List.filter_cons, hm, decide_true, List.flatMap_cons]
        refine ⟨?_, ?_⟩
        · rw [List.append_assoc, List.append_assoc]
          exact List.Perm.append_left _ List.perm_append_comm
        · rw [List.append_assoc, List.append_assoc]
          exact List.Perm.append_left _ List.perm_append_comm
      · simp [dictSet, fullLists, hm]
    · have hb : (key == k) = false := by rw [beq_eq_false_iff_ne]; exact fun h => hk h.symm
      rw [List.lookup_cons, hb]
      simp only [dictSet, if_neg hk]
      by_cases hm : k.2 = m
      · simp only [fullLists, List.filter_cons, hm, decide_true, if_true, List.flatMap_cons, List.append_assoc] at ih ⊢
        exact ⟨ih.1.append_left _, ih.2.append_left _⟩
      · simp only [fullLists, List.filter_cons, hm, decide_false, Bool.false_eq_true, if_false] at ih ⊢
        exact ih

theorem xferDict_spec {g : XGroup} (h : XGroupOk g) {pv : Nat × List XSlot} (hpv : g.pVec = .ok pv) : ∃ d, g.xferDict = .ok d ∧
    (∀ m, (fullLists d m).vecs.Perm (g.conns.filterMap (vecPair g pv.2))) ∧
    ((fullLists d .fwd).objs.Perm (g.conns.filterMap (objPair g))) ∧
    (∀ k m, ((d.lookup (k, m)).getD ⟨[], []⟩).vecs = (g.conns.filter fun c => keyOf g m c = k).filterMap (vecPair g pv.2)) ∧
    (∀ k, ((d.lookup (k, .fwd)).getD ⟨[], []⟩).objs = (g.conns.filter fun c => keyOf g .fwd c = k).filterMap (objPair g)) := by
  unfold XGroup.xferDict
  rw [hpv]
  simp only [bind, Except.bind]
  have key : ∀ l : List (Str × Str), (∀ c ∈ l, c ∈ g.conns) → ∃ d, l.foldlM (connXfer g g.uVec.2 pv.2) [] = .ok d ∧
      (∀ m, (fullLists d m).vecs.Perm (l.filterMap (vecPair g pv.2))) ∧
      ((fullLists d .fwd).objs.Perm (l.filterMap (objPair g))) ∧
      (∀ k m, ((d.lookup (k, m)).getD ⟨[], []⟩).vecs = (l.filter fun c => keyOf g m c = k).filterMap (vecPair g pv.2)) ∧
      (∀ k, ((d.lookup (k, .fwd)).getD ⟨[], []⟩).objs = (l.filter fun c => keyOf g .fwd c = k).filterMap (objPair g)) := by
    intro l
    induction l using List.reverseRecOn with
    | nil =>
      intro _
      exact ⟨[], rfl, fun m => by simp [fullLists], by simp [fullLists], fun k m => by simp, fun k => by simp⟩
    | append_singleton l c ih =>
      intro hl
      obtain ⟨d, h1, h2, h3, h4, h5⟩ := ih (fun q hq => hl q (by simp [hq]))
      have hc := hl c (by simp)
      obtain ⟨u, hu, hun⟩ := h.src c hc
      obtain ⟨p, hp, hpn⟩ := h.tgt c hc
      have hfu : g.unk c.2 = some u := hun ▸ find_unk h hu
      have hfp : g.par c.1 = some p := hpn ▸ find_par h hp
      have hcc : (p.path, u.path) ∈ g.conns := by rw [hun, hpn]; exact hc
      rw [List.foldlM_append, h1]
      simp only [bind, Except.bind, List.foldlM_cons, List.foldlM_nil, pure, Except.pure]
      by_cases hr : (u.rel && p.rel) = true
      · obtain ⟨hur, hpr⟩ := Bool.and_eq_true_iff.mp hr
        cases hb : u.pbo with
        | true =>
          have hv : vecPair g pv.2 c = none := by simp [vecPair, hfu, hfp, hb]
          have ho : objPair g c = some c := by simp [objPair, hfu, hfp, hb, hur, hpr]
          have hstep : connXfer g g.uVec.2 pv.2 d c =
              .ok (addXfer (addXfer d (nearestChild g.path c.1, .fwd) [] [(c.1, c.2)]) (nearestChild g.path c.2, .rev) [] []) := by
            simp [connXfer, hfu, hfp, hur, hpr, hb]
          refine ⟨_, by rw [hstep], ?_, ?_, ?_, ?_⟩
          · intro m
            rw [List.filterMap_append]
            simp only [List.filterMap_cons, hv, List.filterMap_nil, List.append_nil]
            refine ((addXfer_full _ _ _ _ m).1.trans ?_)
            simp only [ite_self, List.append_nil]
            refine ((addXfer_full _ _ _ _ m).1.trans ?_)
            simpa using h2 m
          · rw [List.filterMap_append]
            simp only [List.filterMap_cons, ho, List.filterMap_nil]
            refine ((addXfer_full _ _ _ _ .fwd).2.trans ?_)
            simp only [ite_self, List.append_nil]
            refine ((addXfer_full _ _ _ _ .fwd).2.trans ?_)
            simpa using h3.append_right _
          · intro k m
            rw [addXfer_lookup, addXfer_lookup]
            rw [List.filter_append, List.filterMap_append, ← h4 k m]
            have : ([c].filter fun c => keyOf g m c = k).filterMap (vecPair g pv.2) = [] := by
              by_cases hk : keyOf g m c = k <;> simp [hk, hv]
            rw [this]
            split <;> split <;> simp
          · intro k
            rw [addXfer_lookup, addXfer_lookup]
            rw [List.filter_append, List.filterMap_append, ← h5 k]
            have hn : ¬ ((k, Mode.fwd) = (nearestChild g.path c.2, Mode.rev)) := by simp
            rw [if_neg hn]
            by_cases hk : nearestChild g.path c.1 = k
            · subst hk
              simp [keyOf, ho]
            · have hk' : ¬ (k = nearestChild g.path c.1) := fun e => hk e.symm
              simp [keyOf, hk, hk']
        | false =>
          obtain ⟨hf, -⟩ := connIdxs_ok h hpv .fwd hu hp hcc hur hpr hb
          obtain ⟨hrv, -⟩ := connIdxs_ok h hpv .rev hu hp hcc hur hpr hb
          have ho : objPair g c = none := by simp [objPair, hfu, hfp, hb]
          generalize hpair : ((takenIdxs p u).map (slotStart g.uVec.2 u.path + ·), (List.range (pSize p u)).map (slotStart pv.2 p.path + ·)) = pr at hf hrv
          have hv : vecPair g pv.2 c = some pr := by simp [vecPair, hfu, hfp, hb, hur, hpr, ← hpair]
          have hstep : connXfer g g.uVec.2 pv.2 d c =
              .ok (addXfer (addXfer d (nearestChild g.path c.1, .fwd) [pr] []) (nearestChild g.path c.2, .rev) [pr] []) := by
            simp [connXfer, hfu, hfp, hur, hpr, hb, hf, hrv, bind, Except.bind, pure, Except.pure]
          refine ⟨_, by rw [hstep], ?_, ?_, ?_, ?_⟩
          · intro m
            rw [List.filterMap_append]
            simp only [List.filterMap_cons, hv, List.filterMap_nil]
            refine ((addXfer_full _ _ _ _ m).1.trans ?_)
            cases m with
            | fwd =>
              simp only [reduceCtorEq, if_false, List.append_nil]
              refine ((addXfer_full _ _ _ _ .fwd).1.trans ?_)
              simpa using (h2 .fwd).append_right _
            | rev =>
              simp only [if_true]
              refine List.Perm.append_right _ ((addXfer_full _ _ _ _ .rev).1.trans ?_)
              simpa using h2 .rev
          · rw [List.filterMap_append]
            simp only [List.filterMap_cons, ho, List.filterMap_nil, List.append_nil]
            refine ((addXfer_full _ _ _ _ .fwd).2.trans ?_)
            simp only [ite_self, List.append_nil]
            refine ((addXfer_full _ _ _ _ .fwd).2.trans ?_)
            simpa using h3
          · intro k m
            rw [addXfer_lookup, addXfer_lookup]
            rw [List.filter_append, List.filterMap_append, ← h4 k m]
            cases m with
            | fwd =>
              have hn : ¬ ((k, Mode.fwd) = (nearestChild g.path c.2, Mode.rev)) := by simp
              rw [if_neg hn]
              by_cases hk : nearestChild g.path c.1 = k
              · subst hk
                simp [keyOf, hv]
              · have hk' : ¬ (k = nearestChild g.path c.1) := fun e => hk e.symm
                simp [keyOf, hk, hk']
            | rev =>
              have hn : ¬ ((k, Mode.rev) = (nearestChild g.path c.1, Mode.fwd)) := by simp
              rw [if_neg hn]
              by_cases hk : nearestChild g.path c.2 = k
              · subst hk
                simp [keyOf, hv]
              · have hk' : ¬ (k = nearestChild g.path c.2) := fun e => hk e.symm
                simp [keyOf, hk, hk']
          · intro k
            rw [addXfer_lookup, addXfer_lookup]
            rw [List.filter_append, List.filterMap_append, ← h5 k]
            have : ([c].filter fun c => keyOf g .fwd c = k).filterMap (objPair g) = [] := by
              by_cases hk : keyOf g .fwd c = k <;> simp [hk, ho]
            rw [this]
            split <;> split <;> simp
      · have hstep : connXfer g g.uVec.2 pv.2 d c = .ok d := by
          simp only [connXfer, hfu, hfp]
          rw [if_neg hr]
        have hr' : (u.rel && p.rel) = false := by simpa using hr
        have hv : vecPair g pv.2 c = none := by simp only [vecPair, hfu, hfp, hr']; rfl
        have ho : objPair g c = none := by simp only [objPair, hfu, hfp, hr']; rfl
        refine ⟨d, by rw [hstep], ?_, ?_, ?_, ?_⟩
        · intro m; simpa [List.filterMap_append, hv] using h2 m
        · simpa [List.filterMap_append, ho] using h3
        · intro k m
          rw [h4 k m, List.filter_append, List.filterMap_append]
          by_cases hk : keyOf g m c = k <;> simp [hk, hv]
        · intro k
          rw [h5 k, List.filter_append, List.filterMap_append]
          by_cases hk : keyOf g .fwd c = k <;> simp [hk, ho]
  exact key g.conns (fun c hc => hc)

end OpenMDAO
