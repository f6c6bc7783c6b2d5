import Verif.Spec.Hdf5
import Verif.Lemmas.Connections
import Mathlib.Data.List.Induction
import Mathlib.Tactic.Tauto
/-!
# C153: cases in HDF5 files
-/
namespace OpenMDAO

set_option linter.unusedSectionVars false
variable {V : Type}

/-! ## What is in the file stays -/

/-- The same for the members of groups. -/
def KidsKeep (a b : List (Str × HNode V)) : Prop := ∀ k p v, (a.lookup k).bind (fun n => n.at p) = some (.data v) → (b.lookup k).bind (fun n => n.at p) = some (.data v)

theorem at_group (a : List (Str × Nat)) (kids : List (Str × HNode V)) (k : Str) (p : List Str) : (HNode.group a kids).at (k :: p) = (kids.lookup k).bind fun n => n.at p := by
  rw [HNode.at]
  cases kids.lookup k <;> rfl

theorem KidsKeep.refl (a : List (Str × HNode V)) : KidsKeep a a := fun _ _ _ h => h

theorem KidsKeep.trans {a b c : List (Str × HNode V)} (h : KidsKeep a b) (h' : KidsKeep b c) : KidsKeep a c := fun k p v x => h' k p v (h k p v x)

theorem keep_new {a : List (Str × HNode V)} {k : Str} {n : HNode V} (h : a.lookup k = none) : KidsKeep a (dictSet a k n) := by
  intro q p v hv
  rw [lookup_dictSet]
  by_cases e : q = k
  · rw [e, h] at hv; cases hv
  · rw [if_neg e]; exact hv

theorem keep_group {a : List (Str × HNode V)} {k : Str} {at1 at2 : List (Str × Nat)} {b b' : List (Str × HNode V)} (h : hRequire (a.lookup k) = .ok (at1, b)) (hk : KidsKeep b b') : KidsKeep a (dictSet a k (.group at2 b')) := by
  intro q p v hv
  rw [lookup_dictSet]
  by_cases e : q = k
  · subst e
    rw [if_pos rfl]
    cases hl : a.lookup q with
    | none => rw [hl] at hv; cases hv
    | some n =>
      rw [hl] at hv h
      cases n with
      | data x => cases h
      | group a0 b0 =>
        cases h
        cases p with
        | nil => cases hv
        | cons c p =>
          simp only [Option.bind_some, at_group] at hv ⊢
          exact hk c p v hv
  · rw [if_neg e]; exact hv

theorem keep_foldlM {β : Type} {f : List (Str × HNode V) → β → Except PyErr (List (Str × HNode V))} (hf : ∀ a x b, f a x = .ok b → KidsKeep a b) (l : List β) :
    ∀ a b, l.foldlM f a = .ok b → KidsKeep a b := by
  induction l with
  | nil => intro a b h; cases h; exact KidsKeep.refl a
  | cons x l ih =>
    intro a b h
    rw [List.foldlM_cons] at h
    cases hx : f a x with
    | error e => rw [hx] at h; cases h
    | ok c => rw [hx] at h; exact (hf a x c hx).trans (ih c b h)

theorem keep_create {a b : List (Str × HNode V)} {k : Str} {n : HNode V} (h : hCreate a k n = .ok b) : KidsKeep a b := by
  rw [hCreate] at h
  cases hl : a.lookup k with
  | some x => rw [hl] at h; cases h
  | none => rw [hl] at h; cases h; exact keep_new hl

theorem keep_part {numeric : V → Bool} {a b : List (Str × HNode V)} {x : Str × List (Str × V)} (h : hPart numeric a x = .ok b) : KidsKeep a b := by
  rw [hPart] at h
  cases hl : a.lookup x.1 with
  | some y => rw [hl] at h; cases h
  | none =>
    rw [hl] at h
    simp only [Option.isSome_none, Bool.false_eq_true, if_false] at h
    split at h
    · cases h; exact keep_new hl
    · cases h

theorem keep_row {a b : List (Str × HNode V)} {x : Str × List (Str × V)} (h : hRow a x = .ok b) : KidsKeep a b := by
  rw [hRow] at h
  cases hr : hRequire (a.lookup x.1) with
  | error e => rw [hr] at h; cases h
  | ok g =>
    rw [hr] at h
    simp only at h
    cases hc : x.2.foldlM hCell g.2 with
    | error e => rw [hc] at h; cases h
    | ok cells => rw [hc] at h; cases h; exact keep_group hr (keep_foldlM (fun _ _ _ h => keep_create h) _ _ _ hc)

theorem keep_derData {a b : List (Str × HNode V)} {d : HDer V} (h : hDerData a d = .ok b) : KidsKeep a b := by
  cases d with
  | arr v => exact keep_create h
  | dict l =>
    rw [hDerData] at h
    cases hr : hRequire (a.lookup "Derivatives".toList) with
    | error e => rw [hr] at h; cases h
    | ok g =>
      rw [hr] at h
      simp only at h
      cases hc : l.foldlM hRow g.2 with
      | error e => rw [hc] at h; cases h
      | ok rows => rw [hc] at h; cases h; exact keep_group hr (keep_foldlM (fun _ _ _ h => keep_row h) _ _ _ hc)
  | other => cases h

theorem keep_iter {numeric : V → Bool} {a b : List (Str × HNode V)} {k : Str} {s : Nat} {d : RecData V} (h : hIter numeric a k s d = .ok b) : KidsKeep a b := by
  rw [hIter] at h
  cases hr : hRequire (a.lookup k) with
  | error e => rw [hr] at h; cases h
  | ok g =>
    rw [hr] at h
    simp only at h
    cases hc : (hParts d).foldlM (hPart numeric) g.2 with
    | error e => rw [hc] at h; cases h
    | ok kids => rw [hc] at h; cases h; exact keep_group hr (keep_foldlM (fun _ _ _ h => keep_part h) _ _ _ hc)

theorem hDerivs_ok {f f' : List (Str × HNode V)} {k : Str} {s : Nat} {d : HDer V} (h : hDerivs f k s d = .ok f') :
    ∃ a kids g ds, f.lookup k = some (.group a kids) ∧ hRequire (kids.lookup "Derivs".toList) = .ok g ∧ hDerData g.2 d = .ok ds ∧
      f' = dictSet f k (.group a (dictSet kids "Derivs".toList (.group (dictSet g.1 "success".toList s) ds))) := by
  rw [hDerivs] at h
  cases hl : f.lookup k with
  | none => rw [hl] at h; cases h
  | some n =>
    rw [hl] at h
    cases n with
    | data v => cases h
    | group a kids =>
      simp only at h
      cases hr : hRequire (kids.lookup "Derivs".toList) with
      | error e => rw [hr] at h; cases h
      | ok g =>
        rw [hr] at h
        simp only at h
        cases hd : hDerData g.2 d with
        | error e => rw [hd] at h; cases h
        | ok ds => rw [hd] at h; cases h; exact ⟨a, kids, g, ds, rfl, hr, hd, rfl⟩

theorem keep_step {numeric : V → Bool} {o : RecOpts} {filtered : List (Str × Filt)} {a b : List (Str × HNode V)} {op : RecOp V (HDer V)} (h : hStep numeric o filtered a op = .ok b) : KidsKeep a b := by
  cases op with
  | iter c s v =>
    rw [hStep] at h
    cases hr : recIteration o filtered c v with
    | error e => rw [hr] at h; cases h
    | ok d => rw [hr] at h; exact keep_iter h
  | derivs c s d =>
    rw [hStep] at h
    split at h
    · obtain ⟨at1, kids, g, ds, h1, h2, h3, rfl⟩ := hDerivs_ok h
      refine keep_group (at1 := at1) (b := kids) (by rw [h1]; rfl) (keep_group h2 (keep_derData h3))
    · cases h; exact KidsKeep.refl a

/-- C153. Nothing that was recorded is changed or lost later. -/
theorem C153_kept (numeric : V → Bool) (o : RecOpts) (filtered : List (Str × Filt)) (pre post : List (RecOp V (HDer V))) (f f' : List (Str × HNode V))
    (h : hRun numeric o filtered pre = .ok f) (h' : hRun numeric o filtered (pre ++ post) = .ok f') : KeepsData f f' := by
  rw [hRun] at h h'
  rw [List.foldlM_append, h] at h'
  have hk : KidsKeep f f' := keep_foldlM (fun _ _ _ h => keep_step h) post f f' h'
  intro path v hv
  cases path with
  | nil => cases hv
  | cons k p => rw [at_group] at hv ⊢; exact hk k p v hv

/-! ## Derivatives are in the file -/

theorem cells_at {l : List (Str × V)} {g g' : List (Str × HNode V)} (h : l.foldlM hCell g = .ok g') {k : Str} {v : V} (hv : (k, v) ∈ l) : g'.lookup k = some (.data v) := by
  induction l generalizing g with
  | nil => cases hv
  | cons e l ih =>
    rw [List.foldlM_cons] at h
    cases he : hCell g e with
    | error x => rw [he] at h; cases h
    | ok g1 =>
      rw [he] at h
      rcases List.mem_cons.mp hv with rfl | hv
      · have h1 : g1.lookup k = some (.data v) := by
          rw [hCell, hCreate] at he
          split at he
          · cases he
          · cases he; rw [lookup_dictSet, if_pos rfl]
        have := keep_foldlM (fun _ _ _ h => keep_create h) l g1 g' h k [] v (by rw [h1]; rfl)
        cases hg : g'.lookup k with
        | none => rw [hg] at this; cases this
        | some n => rw [hg] at this; exact this
      · exact ih h hv

theorem rows_at {l : List (Str × List (Str × V))} {g g' : List (Str × HNode V)} (h : l.foldlM hRow g = .ok g') {k : Str} {row : List (Str × V)} (hr : (k, row) ∈ l) {i : Str} {v : V} (hv : (i, v) ∈ row) :
    (g'.lookup k).bind (fun n => n.at [i]) = some (.data v) := by
  induction l generalizing g with
  | nil => cases hr
  | cons e l ih =>
    rw [List.foldlM_cons] at h
    cases he : hRow g e with
    | error x => rw [he] at h; cases h
    | ok g1 =>
      rw [he] at h
      rcases List.mem_cons.mp hr with rfl | hr
      · refine keep_foldlM (fun _ _ _ h => keep_row h) l g1 g' h k [i] v ?_
        rw [hRow] at he
        cases hq : hRequire (g.lookup k) with
        | error x => simp only [hq] at he; cases he
        | ok a =>
          simp only [hq] at he
          cases hc : row.foldlM hCell a.2 with
          | error x => rw [hc] at he; cases he
          | ok cells =>
            rw [hc] at he
            cases he
            rw [lookup_dictSet, if_pos rfl, Option.bind_some, at_group, cells_at hc hv]
            rfl
      · exact ih h hr

/-- C153. The derivatives are in the file: an array below `Derivs/Derivatives` of its iteration, a dictionary with one dataset for each pair of variables. -/
theorem C153_derivs_stored (numeric : V → Bool) (o : RecOpts) (filtered : List (Str × Filt)) (pre post : List (RecOp V (HDer V))) (c : Coord) (s : Nat) (d : HDer V) (f : List (Str × HNode V)) (hd : o.recD = true)
    (h : hRun numeric o filtered (pre ++ .derivs c s d :: post) = .ok f) :
    (∀ v, d = .arr v → (HNode.group [] f).at [formatCoord c, "Derivs".toList, "Derivatives".toList] = some (.data v)) ∧
    (∀ l, d = .dict l → ∀ of row wrt v, (of, row) ∈ l → (wrt, v) ∈ row → (HNode.group [] f).at [formatCoord c, "Derivs".toList, "Derivatives".toList, of, wrt] = some (.data v)) := by
  have h0 := h
  rw [hRun, List.foldlM_append] at h
  cases hp : pre.foldlM (hStep numeric o filtered) [] with
  | error e => rw [hp] at h; cases h
  | ok f0 =>
    rw [hp] at h
    change (RecOp.derivs c s d :: post).foldlM (hStep numeric o filtered) f0 = .ok f at h
    rw [List.foldlM_cons] at h
    cases hs : hStep numeric o filtered f0 (.derivs c s d) with
    | error e => rw [hs] at h; cases h
    | ok f1 =>
      have hrun : hRun numeric o filtered (pre ++ [.derivs c s d]) = .ok f1 := by
        rw [hRun, List.foldlM_append, hp]
        change [RecOp.derivs c s d].foldlM (hStep numeric o filtered) f0 = .ok f1
        rw [List.foldlM_cons, hs]
        rfl
      have hk := C153_kept numeric o filtered (pre ++ [.derivs c s d]) post f1 f hrun (by rw [List.append_assoc]; exact h0)
      rw [hStep, if_pos hd] at hs
      obtain ⟨a, kids, g, ds, h1, h2, h3, rfl⟩ := hDerivs_ok hs
      constructor
      · rintro v rfl
        refine hk _ _ ?_
        rw [hDerData, hCreate] at h3
        split at h3
        · cases h3
        · cases h3
          simp only [at_group, lookup_dictSet, if_true, Option.bind_some]
          rfl
      · rintro l rfl ov row wrt v hr hv
        refine hk _ _ ?_
        rw [hDerData] at h3
        cases hq : hRequire (g.2.lookup "Derivatives".toList) with
        | error e => rw [hq] at h3; cases h3
        | ok b =>
          rw [hq] at h3
          simp only at h3
          cases hc : l.foldlM hRow b.2 with
          | error e => rw [hc] at h3; cases h3
          | ok rows =>
            rw [hc] at h3
            cases h3
            simp only [at_group, lookup_dictSet, if_true, Option.bind_some]
            have := rows_at hc hr hv
            simpa only [at_group] using this

/-! ## Reading -/

theorem recIteration_shape {o : RecOpts} {filtered : List (Str × Filt)} {c : Coord} {v : RecVecs V} {d : RecData V} (h : recIteration o filtered c v = .ok d) :
    d.p.isSome = o.recP ∧ d.u.isSome = o.recU ∧ d.r.isSome = o.recR := by
  have hpart : ∀ {on : Bool} {l : List (Str × V)} {names : List Str} {x : Option (List (Str × V))}, recPart on l names = .ok x → x.isSome = on := by
    intro on l names x hx
    rw [recPart] at hx
    cases on with
    | false => cases hx; rfl
    | true =>
      simp only [if_true] at hx
      cases hf : filterVec l names with
      | error e => rw [hf] at hx; cases hx
      | ok y => rw [hf] at hx; cases hx; rfl
  rw [recIteration] at h
  split at h
  · cases hf : filtered.lookup (getPathname c) with
    | none => rw [hf] at h; cases h
    | some f =>
      rw [hf] at h
      simp only at h
      split at h
      · rename_i h1 h2 h3
        cases h
        exact ⟨hpart h1, hpart h2, hpart h3⟩
      all_goals cases h
  · rename_i hn
    cases h
    simp only [Bool.or_eq_true, not_or, Bool.not_eq_true] at hn
    exact ⟨hn.1.1.symm, hn.1.2.symm, hn.2.symm⟩

/-- The group of a vector. -/
def vecNode (l : List (Str × V)) : HNode V := .group [] (l.map fun e => (e.1, .data e.2))

theorem hPart_ok {numeric : V → Bool} {a b : List (Str × HNode V)} {x : Str × List (Str × V)} (h : hPart numeric a x = .ok b) : a.lookup x.1 = none ∧ b = dictSet a x.1 (vecNode x.2) := by
  rw [hPart] at h
  cases hl : a.lookup x.1 with
  | some y => rw [hl] at h; cases h
  | none =>
    rw [hl] at h
    simp only [Option.isSome_none, Bool.false_eq_true, if_false] at h
    split at h
    · cases h; exact ⟨rfl, rfl⟩
    · cases h

theorem named_ok {numeric : V → Bool} {n : Str} {x : Option (List (Str × V))} {a b : List (Str × HNode V)} (h : (hNamed n x).foldlM (hPart numeric) a = .ok b) :
    (∀ q, q ≠ n → b.lookup q = a.lookup q) ∧ (x = none → b = a) ∧ (∀ l, x = some l → a.lookup n = none ∧ b.lookup n = some (vecNode l)) := by
  cases x with
  | none => cases h; exact ⟨fun _ _ => rfl, fun _ => rfl, fun _ h => by cases h⟩
  | some l =>
    rw [hNamed, List.foldlM_cons] at h
    cases hp : hPart numeric a (n, l) with
    | error e => rw [hp] at h; cases h
    | ok c =>
      rw [hp] at h
      cases h
      obtain ⟨h1, rfl⟩ := hPart_ok hp
      refine ⟨fun q hq => by rw [lookup_dictSet, if_neg hq], (fun h => by cases h), ?_⟩
      rintro l' h
      cases h
      exact ⟨h1, by rw [lookup_dictSet, if_pos rfl]⟩

theorem foldlM_append_ok {α β : Type} {f : β → α → Except PyErr β} {l l' : List α} {a c : β} (h : (l ++ l').foldlM f a = .ok c) : ∃ b, l.foldlM f a = .ok b ∧ l'.foldlM f b = .ok c := by
  rw [List.foldlM_append] at h
  cases hb : l.foldlM f a with
  | error e => rw [hb] at h; cases h
  | ok b => rw [hb] at h; exact ⟨b, rfl, h⟩

/-- The members of the group of an iteration. -/
structure IterKids (d : RecData V) (kids : List (Str × HNode V)) : Prop where
  p : kids.lookup "Parameters".toList = d.p.map vecNode
  u : kids.lookup "Unknowns".toList = d.u.map vecNode
  r : kids.lookup "Residuals".toList = d.r.map vecNode
  rest : ∀ k, k ∉ ["Parameters".toList, "Unknowns".toList, "Residuals".toList, "Derivs".toList] → kids.lookup k = none
  der : ∀ v, kids.lookup "Derivs".toList ≠ some (.data v)

theorem parts_ok {numeric : V → Bool} {d : RecData V} {a b : List (Str × HNode V)} (h : (hParts d).foldlM (hPart numeric) a = .ok b) :
    (d.p.isSome = true → a.lookup "Parameters".toList = none) ∧ (d.u.isSome = true → a.lookup "Unknowns".toList = none) ∧ (d.r.isSome = true → a.lookup "Residuals".toList = none) ∧
    b.lookup "Parameters".toList = (d.p.map vecNode).or (a.lookup "Parameters".toList) ∧ b.lookup "Unknowns".toList = (d.u.map vecNode).or (a.lookup "Unknowns".toList) ∧
    b.lookup "Residuals".toList = (d.r.map vecNode).or (a.lookup "Residuals".toList) ∧ ∀ k, k ∉ ["Parameters".toList, "Unknowns".toList, "Residuals".toList] → b.lookup k = a.lookup k := by
  rw [hParts] at h
  obtain ⟨y, h12, h3⟩ := foldlM_append_ok h
  obtain ⟨x, h1, h2⟩ := foldlM_append_ok h12
  obtain ⟨p1, p2, p3⟩ := named_ok h1
  obtain ⟨u1, u2, u3⟩ := named_ok h2
  obtain ⟨r1, r2, r3⟩ := named_ok h3
  have n1 : "Parameters".toList ≠ "Unknowns".toList := by decide
  have n2 : "Parameters".toList ≠ "Residuals".toList := by decide
  have n3 : "Unknowns".toList ≠ "Residuals".toList := by decide
  refine ⟨fun hs => ?_, fun hs => ?_, fun hs => ?_, ?_, ?_, ?_, fun k hk => ?_⟩
  · obtain ⟨l, hl⟩ := Option.isSome_iff_exists.mp hs
    exact (p3 l hl).1
  · obtain ⟨l, hl⟩ := Option.isSome_iff_exists.mp hs
    rw [← p1 _ n1.symm]; exact (u3 l hl).1
  · obtain ⟨l, hl⟩ := Option.isSome_iff_exists.mp hs
    rw [← p1 _ n2.symm, ← u1 _ n3.symm]; exact (r3 l hl).1
  · rw [r1 _ n2, u1 _ n1]
    cases hp : d.p with
    | none => rw [p2 hp]; rfl
    | some l => rw [(p3 l hp).2]; rfl
  · rw [r1 _ n3]
    cases hp : d.u with
    | none => rw [u2 hp, p1 _ n1.symm]; rfl
    | some l => rw [(u3 l hp).2]; rfl
  · cases hp : d.r with
    | none => rw [r2 hp, u1 _ n3.symm, p1 _ n2.symm]; rfl
    | some l => rw [(r3 l hp).2]; rfl
  · simp only [List.mem_cons, List.not_mem_nil, or_false, not_or] at hk
    rw [r1 _ hk.2.2, u1 _ hk.2.1, p1 _ hk.1]

/-- What the file holds for a key. -/
def KeyState (o : RecOpts) (filtered : List (Str × Filt)) (ops : List (RecOp V (HDer V))) (f : List (Str × HNode V)) (key : Str) : Prop :=
  (NoneUnder key ops ∧ f.lookup key = none) ∨ ∃ s d a kids, LastUnder o filtered key ops s d ∧ f.lookup key = some (.group a kids) ∧ a.lookup "success".toList = some s ∧ IterKids d kids

theorem noneUnder_snoc {D : Type} {key : Str} {ops : List (RecOp V D)} {op : RecOp V D} (h : NoneUnder key ops) (ho : ∀ c s v, op = .iter c s v → formatCoord c ≠ key) : NoneUnder key (ops ++ [op]) := by
  intro c s v hm
  rcases List.mem_append.mp hm with hm | hm
  · exact h c s v hm
  · exact ho c s v (List.mem_singleton.mp hm).symm

theorem lastUnder_snoc {D : Type} {o : RecOpts} {filtered : List (Str × Filt)} {key : Str} {ops : List (RecOp V D)} {op : RecOp V D} {s : Nat} {d : RecData V} (h : LastUnder o filtered key ops s d)
    (ho : ∀ c s v, op = .iter c s v → formatCoord c ≠ key) : LastUnder o filtered key (ops ++ [op]) s d := by
  obtain ⟨pre, c, v, post, rfl, h1, h2, h3⟩ := h
  refine ⟨pre, c, v, post ++ [op], by simp, h1, h2, fun c' s' v' hm => ?_⟩
  rcases List.mem_append.mp hm with hm | hm
  · exact h3 c' s' v' hm
  · exact ho c' s' v' (List.mem_singleton.mp hm).symm

theorem iterKids_step {numeric : V → Bool} {o : RecOpts} {filtered : List (Str × Filt)} {c c0 : Coord} {v v0 : RecVecs V} {d d0 : RecData V} {k0 kids : List (Str × HNode V)} (hr : recIteration o filtered c v = .ok d) (hr0 : recIteration o filtered c0 v0 = .ok d0)
    (hk0 : IterKids d0 k0) (hp : (hParts d).foldlM (hPart numeric) k0 = .ok kids) : IterKids d kids := by
  obtain ⟨e1, e2, e3, e4, e5, e6, e7⟩ := parts_ok hp
  obtain ⟨q1, q2, q3⟩ := recIteration_shape hr
  obtain ⟨w1, w2, w3⟩ := recIteration_shape hr0
  have same : ∀ {x y : Option (List (Str × V))} {n : Option (HNode V)}, x.isSome = y.isSome → n = y.map vecNode → (x.map vecNode).or n = x.map vecNode := by
    intro x y n hxy hy
    cases x with
    | none =>
      cases y with
      | none => rw [hy]; rfl
      | some _ => cases hxy
    | some l => rfl
  refine ⟨by rw [e4]; exact same (q1.trans w1.symm) hk0.p, by rw [e5]; exact same (q2.trans w2.symm) hk0.u, by rw [e6]; exact same (q3.trans w3.symm) hk0.r, fun k hk => ?_, fun v => by rw [e7 _ (by decide)]; exact hk0.der v⟩
  simp only [List.mem_cons, List.not_mem_nil, or_false, not_or] at hk
  rw [e7 k (by simp only [List.mem_cons, List.not_mem_nil, or_false, not_or]; exact ⟨hk.1, hk.2.1, hk.2.2.1⟩)]
  exact hk0.rest k (by simp only [List.mem_cons, List.not_mem_nil, or_false, not_or]; exact hk)

theorem iterKids_first {numeric : V → Bool} {d : RecData V} {kids : List (Str × HNode V)} (hp : (hParts d).foldlM (hPart numeric) [] = .ok kids) : IterKids d kids := by
  obtain ⟨e1, e2, e3, e4, e5, e6, e7⟩ := parts_ok hp
  refine ⟨by rw [e4, List.lookup_nil, Option.or_none], by rw [e5, List.lookup_nil, Option.or_none], by rw [e6, List.lookup_nil, Option.or_none], fun k hk => ?_, fun v => by rw [e7 _ (by decide)]; simp⟩
  simp only [List.mem_cons, List.not_mem_nil, or_false, not_or] at hk
  rw [e7 k (by simp only [List.mem_cons, List.not_mem_nil, or_false, not_or]; exact ⟨hk.1, hk.2.1, hk.2.2.1⟩)]
  rfl

theorem keyState_other {o : RecOpts} {filtered : List (Str × Filt)} {ops : List (RecOp V (HDer V))} {op : RecOp V (HDer V)} {f f' : List (Str × HNode V)} {key : Str} (h : KeyState o filtered ops f key) (hf : f'.lookup key = f.lookup key)
    (ho : ∀ c s v, op = .iter c s v → formatCoord c ≠ key) : KeyState o filtered (ops ++ [op]) f' key := by
  rcases h with ⟨h1, h2⟩ | ⟨s0, d0, a0, k0, h1, h2, h3, h4⟩
  · exact .inl ⟨noneUnder_snoc h1 ho, hf.trans h2⟩
  · exact .inr ⟨s0, d0, a0, k0, lastUnder_snoc h1 ho, hf.trans h2, h3, h4⟩

theorem keyState_iter {numeric : V → Bool} {o : RecOpts} {filtered : List (Str × Filt)} {ops : List (RecOp V (HDer V))} {f0 f1 : List (Str × HNode V)} (hprev : ∀ key, KeyState o filtered ops f0 key) {c : Coord} {s : Nat} {v : RecVecs V}
    (hs : hStep numeric o filtered f0 (.iter c s v) = .ok f1) (key : Str) : KeyState o filtered (ops ++ [.iter c s v]) f1 key := by
  rw [hStep] at hs
  cases hr : recIteration o filtered c v with
  | error e => rw [hr] at hs; cases hs
  | ok d =>
    rw [hr] at hs
    simp only [hIter] at hs
    cases hq : hRequire (f0.lookup (formatCoord c)) with
    | error e => rw [hq] at hs; cases hs
    | ok g =>
      rw [hq] at hs
      simp only at hs
      cases hp : (hParts d).foldlM (hPart numeric) g.2 with
      | error e => rw [hp] at hs; cases hs
      | ok kids =>
        rw [hp] at hs
        cases hs
        by_cases hk : formatCoord c = key
        · subst hk
          have hlast : LastUnder o filtered (formatCoord c) (ops ++ [.iter c s v]) s d := ⟨ops, c, v, [], rfl, rfl, hr, fun _ _ _ h => by simp at h⟩
          refine .inr ⟨s, d, _, kids, hlast, by rw [lookup_dictSet, if_pos rfl], by rw [lookup_dictSet, if_pos rfl], ?_⟩
          rcases hprev (formatCoord c) with ⟨_, hn⟩ | ⟨s0, d0, a0, k0, ⟨pre, c0, v0, post, _, _, hr0, _⟩, hl0, _, hk0⟩
          · rw [hn] at hq
            cases hq
            exact iterKids_first hp
          · rw [hl0] at hq
            cases hq
            exact iterKids_step hr hr0 hk0 hp
        · refine keyState_other (hprev key) (by rw [lookup_dictSet, if_neg (Ne.symm hk)]) fun c' s' v' e => ?_
          cases e
          exact hk

theorem keyState_derivs {numeric : V → Bool} {o : RecOpts} {filtered : List (Str × Filt)} {ops : List (RecOp V (HDer V))} {f0 f1 : List (Str × HNode V)} (hprev : ∀ key, KeyState o filtered ops f0 key) {c : Coord} {s : Nat} {d : HDer V}
    (hs : hStep numeric o filtered f0 (.derivs c s d) = .ok f1) (key : Str) : KeyState o filtered (ops ++ [.derivs c s d]) f1 key := by
  have ho : ∀ c' s' v', RecOp.derivs c s d = RecOp.iter (V := V) c' s' v' → formatCoord c' ≠ key := by
    intro c' s' v' e
    cases e
  rw [hStep] at hs
  split at hs
  · obtain ⟨a, kids, g, ds, g1, g2, g3, rfl⟩ := hDerivs_ok hs
    by_cases hk : key = formatCoord c
    · subst hk
      rcases hprev (formatCoord c) with ⟨_, hn⟩ | ⟨s0, d0, a0, k0, h1, h2, h3, h4⟩
      · rw [hn] at g1; cases g1
      · rw [h2] at g1
        cases g1
        refine .inr ⟨s0, d0, a, _, lastUnder_snoc h1 ho, by rw [lookup_dictSet, if_pos rfl], h3, ?_⟩
        refine ⟨by rw [lookup_dictSet, if_neg (by decide)]; exact h4.p, by rw [lookup_dictSet, if_neg (by decide)]; exact h4.u, by rw [lookup_dictSet, if_neg (by decide)]; exact h4.r, fun k hk => ?_, fun v => by rw [lookup_dictSet, if_pos rfl]; simp⟩
        have hne : k ≠ "Derivs".toList := by
          intro e
          rw [e] at hk
          exact hk (by decide)
        rw [lookup_dictSet, if_neg hne]
        exact h4.rest k hk
    · exact keyState_other (hprev key) (by rw [lookup_dictSet, if_neg hk]) ho
  · cases hs
    exact keyState_other (hprev key) rfl ho

theorem keyState_run (numeric : V → Bool) (o : RecOpts) (filtered : List (Str × Filt)) (ops : List (RecOp V (HDer V))) :
    ∀ f, hRun numeric o filtered ops = .ok f → ∀ key, KeyState o filtered ops f key := by
  induction ops using List.reverseRecOn with
  | nil => intro f h key; cases h; exact .inl ⟨fun _ _ _ h => by simp at h, rfl⟩
  | append_singleton ops op ih =>
    intro f h key
    obtain ⟨f0, h0, h1⟩ := foldlM_append_ok h
    rw [List.foldlM_cons] at h1
    cases hs : hStep numeric o filtered f0 op with
    | error e => rw [hs] at h1; cases h1
    | ok f1 =>
      rw [hs] at h1
      cases h1
      cases op with
      | iter c s v => exact keyState_iter (ih f0 h0) hs key
      | derivs c s d => exact keyState_derivs (ih f0 h0) hs key

theorem lastUnder_unique {D : Type} {o : RecOpts} {filtered : List (Str × Filt)} {key : Str} {ops : List (RecOp V D)} {s s' : Nat} {d d' : RecData V} (h : LastUnder o filtered key ops s d) (h' : LastUnder o filtered key ops s' d') : s = s' ∧ d = d' := by
  obtain ⟨pre, c, v, post, rfl, h1, h2, h3⟩ := h
  obtain ⟨pre', c', v', post', he, h1', h2', h3'⟩ := h'
  rcases List.append_eq_append_iff.mp he with ⟨x, hx, hy⟩ | ⟨x, hx, hy⟩
  · cases x with
    | nil =>
      rw [List.nil_append] at hy
      cases hy
      rw [h2] at h2'
      cases h2'
      exact ⟨rfl, rfl⟩
    | cons y x =>
      rw [List.cons_append] at hy
      cases hy
      exact absurd h1' (h3 c' s' v' (by simp))
  · cases x with
    | nil =>
      rw [List.nil_append] at hy
      cases hy
      rw [h2] at h2'
      cases h2'
      exact ⟨rfl, rfl⟩
    | cons y x =>
      rw [List.cons_append] at hy
      cases hy
      exact absurd h1 (h3' c s v (by simp))

theorem lookup_toPy (kids : List (Str × HNode V)) (k : Str) : (kidsToPy kids).lookup k = (kids.lookup k).map HNode.toPy := by
  induction kids with
  | nil => rfl
  | cons e l ih =>
    obtain ⟨q, n⟩ := e
    rw [kidsToPy, List.lookup_cons, List.lookup_cons]
    split
    · rfl
    · exact ih

theorem vecNode_toPy (l : List (Str × V)) : (vecNode l).toPy = vecDict l := by
  rw [vecNode, HNode.toPy, vecDict]
  congr 1
  induction l with
  | nil => rfl
  | cons e l ih => rw [List.map_cons, kidsToPy, ih]; rfl

/-- C153, in part. A case is read back with the params, unknowns and residuals of the last iteration recorded under its key; a key that was not recorded raises KeyError. (The flag of success and the derivatives are not read: `C153_status_refuted`.) -/
theorem C153_case_partial (numeric : V → Bool) (o : RecOpts) (filtered : List (Str × Filt)) (ops : List (RecOp V (HDer V))) (f : List (Str × HNode V)) (h : hRun numeric o filtered ops = .ok f) (key : Str) :
    (NoneUnder key ops → h5GetCase f key = .error .KeyError) ∧
    ∀ s d, LastUnder o filtered key ops s d → ∃ c, h5GetCase f key = .ok c ∧ c.parameters = d.p.map vecDict ∧ c.unknowns = d.u.map vecDict ∧ c.resids = d.r.map vecDict := by
  have hm : ∀ x : Option (List (Str × V)), (x.map vecNode).map HNode.toPy = x.map vecDict := by
    intro x
    cases x with
    | none => rfl
    | some l => exact congrArg some (vecNode_toPy l)
  rcases keyState_run numeric o filtered ops f h key with ⟨h1, h2⟩ | ⟨s0, d0, a, kids, h1, h2, h3, h4⟩
  · refine ⟨fun _ => by rw [h5GetCase, h2], ?_⟩
    rintro s d ⟨pre, c, v, post, rfl, h5, _, _⟩
    exact absurd h5 (h1 c s v (by simp))
  · constructor
    · intro hn
      obtain ⟨pre, c, v, post, rfl, h5, _, _⟩ := h1
      exact absurd h5 (hn c s0 v (by simp))
    · intro s d hl
      obtain ⟨_, rfl⟩ := lastUnder_unique hl h1
      refine ⟨_, by rw [h5GetCase, h2], ?_, ?_, ?_⟩ <;> simp only [h5Case, HNode.toPy, PyTree.get, lookup_toPy, h4.p, h4.u, h4.r, hm]

/-- C153 is false for the rest of a case: whatever was recorded, the flag of success and the derivatives are `None` in every case that is read back, as the former is an attribute of the group and the latter are in a group of another name. -/
theorem C153_status_refuted (numeric : V → Bool) (o : RecOpts) (filtered : List (Str × Filt)) (ops : List (RecOp V (HDer V))) (f : List (Str × HNode V)) (h : hRun numeric o filtered ops = .ok f) (key : Str) (c : H5Case V)
    (hc : h5GetCase f key = .ok c) : c.success = none ∧ c.derivs = none := by
  rcases keyState_run numeric o filtered ops f h key with ⟨h1, h2⟩ | ⟨s0, d0, a, kids, h1, h2, h3, h4⟩
  · rw [h5GetCase, h2] at hc; cases hc
  · rw [h5GetCase, h2] at hc
    cases hc
    constructor <;> simp only [h5Case, HNode.toPy, PyTree.get, lookup_toPy, h4.rest "success".toList (by decide), h4.rest "Derivatives".toList (by decide), Option.map_none]

/-- C153. The flag of success is in the file, as an attribute. -/
theorem C153_success_stored (numeric : V → Bool) (o : RecOpts) (filtered : List (Str × Filt)) (ops : List (RecOp V (HDer V))) (f : List (Str × HNode V)) (h : hRun numeric o filtered ops = .ok f) (key : Str) (s : Nat) (d : RecData V)
    (hl : LastUnder o filtered key ops s d) : ∃ a kids, f.lookup key = some (.group a kids) ∧ a.lookup "success".toList = some s := by
  rcases keyState_run numeric o filtered ops f h key with ⟨h1, h2⟩ | ⟨s0, d0, a, kids, h1, h2, h3, h4⟩
  · obtain ⟨pre, c, v, post, rfl, h5, _, _⟩ := hl
    exact absurd h5 (h1 c s v (by simp))
  · obtain ⟨rfl, rfl⟩ := lastUnder_unique hl h1
    exact ⟨a, kids, h2, h3⟩

/-- C153. Nothing is overwritten: a second iteration under the same key raises `ValueError`, if any vector is recorded. -/
theorem C153_repeated (numeric : V → Bool) (o : RecOpts) (filtered : List (Str × Filt)) (ops : List (RecOp V (HDer V))) (f : List (Str × HNode V)) (h : hRun numeric o filtered ops = .ok f) (c : Coord) (s s' : Nat) (v : RecVecs V)
    (d d' : RecData V) (hl : LastUnder o filtered (formatCoord c) ops s' d') (hr : recIteration o filtered c v = .ok d) (ho : o.recP = true ∨ o.recU = true ∨ o.recR = true) :
    hRun numeric o filtered (ops ++ [.iter c s v]) = .error .ValueError := by
  rcases keyState_run numeric o filtered ops f h (formatCoord c) with ⟨h1, h2⟩ | ⟨s0, d0, a, kids, h1, h2, h3, h4⟩
  · obtain ⟨pre, c', v', post, rfl, h5, _, _⟩ := hl
    exact absurd h5 (h1 c' s' v' (by simp))
  · obtain ⟨pre, c0, v0, post, _, _, hr0, _⟩ := h1
    obtain ⟨q1, q2, q3⟩ := recIteration_shape hr
    obtain ⟨w1, w2, w3⟩ := recIteration_shape hr0
    have hfirst : ∀ (x : Str × List (Str × V)) (l : List (Str × List (Str × V))) (y : Option (List (Str × V))), kids.lookup x.1 = y.map vecNode → y.isSome = true → (x :: l).foldlM (hPart numeric) kids = .error .ValueError := by
      intro x l y hy hs
      have hx : (kids.lookup x.1).isSome = true := by
        rw [hy]
        cases y with
        | none => cases hs
        | some _ => rfl
      rw [List.foldlM_cons, hPart, if_pos hx]
      rfl
    have hfail : (hParts d).foldlM (hPart numeric) kids = .error .ValueError := by
      rw [hParts]
      cases hp : d.p with
      | some l => exact hfirst _ _ d0.p h4.p (by rw [w1, ← q1, hp]; rfl)
      | none =>
        cases hu : d.u with
        | some l => exact hfirst _ _ d0.u h4.u (by rw [w2, ← q2, hu]; rfl)
        | none =>
          cases hv : d.r with
          | some l => exact hfirst _ _ d0.r h4.r (by rw [w3, ← q3, hv]; rfl)
          | none =>
            rw [hp] at q1
            rw [hu] at q2
            rw [hv] at q3
            rw [← q1, ← q2, ← q3] at ho
            simp at ho
    rw [hRun] at h ⊢
    rw [List.foldlM_append, h]
    change [RecOp.iter c s v].foldlM (hStep numeric o filtered) f = _
    rw [List.foldlM_cons, hStep, hr]
    simp only [hIter, h2, hRequire, hfail]
    rfl

/-- C153. Derivatives of an iteration that was not recorded raise `KeyError`. -/
theorem C153_derivs_first (numeric : V → Bool) (o : RecOpts) (filtered : List (Str × Filt)) (ops : List (RecOp V (HDer V))) (f : List (Str × HNode V)) (h : hRun numeric o filtered ops = .ok f) (c : Coord) (s : Nat) (d : HDer V)
    (hd : o.recD = true) (hn : NoneUnder (formatCoord c) ops) : hRun numeric o filtered (ops ++ [.derivs c s d]) = .error .KeyError := by
  rcases keyState_run numeric o filtered ops f h (formatCoord c) with ⟨h1, h2⟩ | ⟨s0, d0, a, kids, ⟨pre, c', v', post, rfl, h5, _, _⟩, _⟩
  · rw [hRun] at h ⊢
    rw [List.foldlM_append, h]
    change [RecOp.derivs c s d].foldlM (hStep numeric o filtered) f = _
    rw [List.foldlM_cons, hStep, if_pos hd, hDerivs, h2]
    rfl
  · exact absurd h5 (hn c' s0 v' (by simp))

/-- C153. A value that is no number and no array raises `NotImplementedError`. -/
theorem C153_not_numeric (numeric : V → Bool) (o : RecOpts) (filtered : List (Str × Filt)) (ops : List (RecOp V (HDer V))) (f : List (Str × HNode V)) (h : hRun numeric o filtered ops = .ok f) (c : Coord) (s : Nat) (v : RecVecs V)
    (d : RecData V) (hn : NoneUnder (formatCoord c) ops) (hr : recIteration o filtered c v = .ok d) :
    (∃ f', hRun numeric o filtered (ops ++ [.iter c s v]) = .ok f') ∧ (∀ l, d.p = some l ∨ d.u = some l ∨ d.r = some l → ∀ e ∈ l, numeric e.2 = true) ∨
    hRun numeric o filtered (ops ++ [.iter c s v]) = .error .NotImplementedError ∧ ∃ l, (d.p = some l ∨ d.u = some l ∨ d.r = some l) ∧ ∃ e ∈ l, numeric e.2 = false := by
  rcases keyState_run numeric o filtered ops f h (formatCoord c) with ⟨h1, h2⟩ | ⟨s0, d0, a, kids, ⟨pre, c', v', post, rfl, h5, _, _⟩, _⟩
  · have hone : ∀ (n : Str) (x : Option (List (Str × V))) (k : List (Str × HNode V)), k.lookup n = none →
        (∃ k', (hNamed n x).foldlM (hPart numeric) k = .ok k' ∧ (∀ q, q ≠ n → k'.lookup q = k.lookup q)) ∧ (∀ l, x = some l → ∀ e ∈ l, numeric e.2 = true) ∨
        (hNamed n x).foldlM (hPart numeric) k = .error .NotImplementedError ∧ ∃ l, x = some l ∧ ∃ e ∈ l, numeric e.2 = false := by
      intro n x k hk
      cases x with
      | none => exact .inl ⟨⟨k, rfl, fun _ _ => rfl⟩, fun _ h => by cases h⟩
      | some l =>
        rw [hNamed, List.foldlM_cons, hPart]
        simp only [hk, Option.isSome_none, Bool.false_eq_true, if_false]
        by_cases ha : (l.all fun e => numeric e.2) = true
        · rw [if_pos ha]
          refine .inl ⟨⟨_, rfl, fun q hq => by rw [lookup_dictSet, if_neg hq]⟩, ?_⟩
          rintro l' h
          cases h
          exact List.all_eq_true.mp ha
        · rw [if_neg ha]
          refine .inr ⟨rfl, l, rfl, ?_⟩
          simpa using ha
    have hall : (∃ k, (hParts d).foldlM (hPart numeric) [] = .ok k) ∧ (∀ l, d.p = some l ∨ d.u = some l ∨ d.r = some l → ∀ e ∈ l, numeric e.2 = true) ∨
        (hParts d).foldlM (hPart numeric) [] = .error .NotImplementedError ∧ ∃ l, (d.p = some l ∨ d.u = some l ∨ d.r = some l) ∧ ∃ e ∈ l, numeric e.2 = false := by
      rw [hParts, List.foldlM_append, List.foldlM_append]
      rcases hone "Parameters".toList d.p [] rfl with ⟨⟨k1, g1, g2⟩, g3⟩ | ⟨g1, l, g2, g3⟩
      · rw [g1]
        simp only [Bind.bind, Except.bind]
        rcases hone "Unknowns".toList d.u k1 (by rw [g2 _ (by decide)]; rfl) with ⟨⟨k2, u1, u2⟩, u3⟩ | ⟨u1, l, u2, u3⟩
        · rw [u1]
          simp only
          rcases hone "Residuals".toList d.r k2 (by rw [u2 _ (by decide), g2 _ (by decide)]; rfl) with ⟨⟨k3, r1, r2⟩, r3⟩ | ⟨r1, l, r2, r3⟩
          · rw [r1]
            refine .inl ⟨⟨k3, rfl⟩, ?_⟩
            rintro l (hl | hl | hl)
            · exact g3 l hl
            · exact u3 l hl
            · exact r3 l hl
          · rw [r1]
            exact .inr ⟨rfl, l, .inr (.inr r2), r3⟩
        · rw [u1]
          exact .inr ⟨rfl, l, .inr (.inl u2), u3⟩
      · rw [g1]
        exact .inr ⟨rfl, l, .inl g2, g3⟩
    rw [hRun] at h
    rw [hRun, List.foldlM_append, h]
    simp only [Bind.bind, Except.bind, List.foldlM_cons, List.foldlM_nil, hStep, hr, hIter, h2, hRequire]
    rcases hall with ⟨⟨k, hk⟩, h6⟩ | ⟨hk, h6⟩
    · rw [hk]
      exact .inl ⟨⟨_, rfl⟩, h6⟩
    · rw [hk]
      exact .inr ⟨rfl, h6⟩
  · exact absurd h5 (hn c' s0 v' (by simp))

/-- C153. Derivatives that are neither an array nor a dictionary raise `ValueError`. -/
theorem C153_derivs_type (numeric : V → Bool) (o : RecOpts) (filtered : List (Str × Filt)) (ops : List (RecOp V (HDer V))) (f : List (Str × HNode V)) (h : hRun numeric o filtered ops = .ok f) (c : Coord) (s s' : Nat) (d : RecData V)
    (hd : o.recD = true) (hl : LastUnder o filtered (formatCoord c) ops s' d) : hRun numeric o filtered (ops ++ [.derivs c s .other]) = .error .ValueError := by
  rcases keyState_run numeric o filtered ops f h (formatCoord c) with ⟨h1, h2⟩ | ⟨s0, d0, a, kids, h1, h2, h3, h4⟩
  · obtain ⟨pre, c', v', post, rfl, h5, _, _⟩ := hl
    exact absurd h5 (h1 c' s' v' (by simp))
  · rw [hRun] at h
    rw [hRun, List.foldlM_append, h]
    simp only [Bind.bind, Except.bind, List.foldlM_cons, List.foldlM_nil, hStep, hd, if_true, hDerivs, h2]
    cases hq : hRequire (kids.lookup "Derivs".toList) with
    | ok g => rfl
    | error e =>
      cases hk : kids.lookup "Derivs".toList with
      | none => rw [hk] at hq; cases hq
      | some n =>
        rw [hk] at hq
        cases n with
        | group a b => cases hq
        | data v => exact absurd hk (h4.der v)

theorem nodup_hStep {numeric : V → Bool} {o : RecOpts} {filtered : List (Str × Filt)} {f f' : List (Str × HNode V)} {op : RecOp V (HDer V)} (h : (f.map Prod.fst).Nodup) (hs : hStep numeric o filtered f op = .ok f') : (f'.map Prod.fst).Nodup := by
  cases op with
  | iter c s v =>
    rw [hStep] at hs
    cases hr : recIteration o filtered c v with
    | error e => rw [hr] at hs; cases hs
    | ok d =>
      rw [hr] at hs
      simp only [hIter] at hs
      split at hs
      · cases hs
      · split at hs
        · cases hs
        · cases hs
          exact nodup_keys_dictSet _ _ _ h
  | derivs c s d =>
    rw [hStep] at hs
    split at hs
    · obtain ⟨a, kids, g, ds, g1, g2, g3, rfl⟩ := hDerivs_ok hs
      exact nodup_keys_dictSet _ _ _ h
    · cases hs
      exact h

theorem nodup_hRun (numeric : V → Bool) (o : RecOpts) (filtered : List (Str × Filt)) (ops : List (RecOp V (HDer V))) : ∀ f, hRun numeric o filtered ops = .ok f → (f.map Prod.fst).Nodup := by
  induction ops using List.reverseRecOn with
  | nil => intro f h; cases h; exact List.nodup_nil
  | append_singleton ops op ih =>
    intro f h
    obtain ⟨f0, h0, h1⟩ := foldlM_append_ok h
    rw [List.foldlM_cons] at h1
    cases hs : hStep numeric o filtered f0 op with
    | error e => rw [hs] at h1; cases h1
    | ok f1 =>
      rw [hs] at h1
      cases h1
      exact nodup_hStep (ih f0 h0) hs

/-- C153. By number the cases are got in alphabetical order of their keys, each recorded key once; numbers below zero count from the end; other numbers raise `IndexError`. -/
theorem C153_by_number (numeric : V → Bool) (o : RecOpts) (filtered : List (Str × Filt)) (ops : List (RecOp V (HDer V))) (f : List (Str × HNode V)) (h : hRun numeric o filtered ops = .ok f) :
    ∃ keys : List Str, keys.Pairwise (· < ·) ∧ (∀ k, k ∈ keys ↔ ∃ c s v, RecOp.iter c s v ∈ ops ∧ formatCoord c = k) ∧
      (∀ i : Nat, ∀ hi : i < keys.length, h5GetCaseAt f (i : Int) = h5GetCase f (keys[i]'hi) ∧ h5GetCaseAt f ((i : Int) - (keys.length : Int)) = h5GetCase f (keys[i]'hi)) ∧
      ∀ i : Int, (i < -(keys.length : Int) ∨ (keys.length : Int) ≤ i) → h5GetCaseAt f i = .error .IndexError := by
  have hperm : (h5Keys f).Perm (f.map Prod.fst) := List.perm_insertionSort _ _
  have hnd : (h5Keys f).Nodup := hperm.nodup_iff.mpr (nodup_hRun numeric o filtered ops f h)
  have hsort : (h5Keys f).Pairwise (· ≤ ·) := List.pairwise_insertionSort _ _
  refine ⟨h5Keys f, ?_, fun k => ?_, fun i hi => ⟨?_, ?_⟩, fun i hi => ?_⟩
  · have := hsort.and hnd
    refine this.imp fun hab => ?_
    exact List.not_le.mp fun hba => hab.2 (List.le_antisymm hab.1 hba)
  · rw [hperm.mem_iff]
    rw [← lookup_isSome_iff_mem_keys]
    rcases keyState_run numeric o filtered ops f h k with ⟨h1, h2⟩ | ⟨s0, d0, a, kids, ⟨pre, c, v, post, rfl, h5, _, _⟩, h2, _⟩
    · rw [h2]
      constructor
      · intro h; cases h
      · rintro ⟨c, s, v, hm, hk⟩
        exact absurd hk (h1 c s v hm)
    · rw [h2]
      exact ⟨fun _ => ⟨c, s0, v, by simp, h5⟩, fun _ => rfl⟩
  · rw [h5GetCaseAt]
    simp only [if_neg (show ¬ ((i : Int) < 0) by omega), Int.toNat_natCast, List.getElem?_eq_getElem hi]
  · rw [h5GetCaseAt]
    simp only [if_pos (show ((i : Int) - ((h5Keys f).length : Int) < 0) by omega), show (i : Int) - ((h5Keys f).length : Int) + ((h5Keys f).length : Int) = (i : Int) by omega, if_neg (show ¬ ((i : Int) < 0) by omega),
      Int.toNat_natCast, List.getElem?_eq_getElem hi]
  · rw [h5GetCaseAt]
    by_cases h0 : i < 0
    · rw [if_pos h0, if_pos (by omega)]
    · rw [if_neg h0, if_neg h0, List.getElem?_eq_none (by omega)]

/-! ## A file of three iterations -/

/-- Options and filter of the sample. -/
def h5Opts : RecOpts := ⟨false, true, false, true, [['*']], []⟩

/-- The iteration with number `n` of the sample. -/
def h5Op (n : Nat) : RecOp Nat (HDer Nat) := .iter ⟨0, [(['D'], [n])]⟩ 1 ⟨[], [(['x'], n), (['y'], 2 * n)], []⟩

/-- The sample. -/
def h5Ops : List (RecOp Nat (HDer Nat)) := [h5Op 9, .derivs ⟨0, [(['D'], [9])]⟩ 1 (.dict [(['y'], [(['x'], 2)])]), h5Op 10]

theorem h5Ops_ok : ∃ f, hRun (fun _ => true) h5Opts [([], ⟨[], [['x'], ['y']], []⟩)] h5Ops = .ok f := ⟨_, rfl⟩

/-- The sample meets the hypotheses of the theorems above: iteration 9 with its unknowns is the last under its key, there is nothing under another one. -/
example : LastUnder h5Opts [([], ⟨[], [['x'], ['y']], []⟩)] "rank0:D|9".toList h5Ops 1 ⟨none, some [(['x'], 9), (['y'], 18)], none⟩ ∧ NoneUnder "rank0:D|8".toList h5Ops := by
  constructor
  · refine ⟨[], ⟨0, [(['D'], [9])]⟩, _, _, rfl, by decide, by decide, ?_⟩
    intro c s v hm
    simp only [h5Op, List.mem_cons, List.not_mem_nil, or_false, reduceCtorEq, false_or, RecOp.iter.injEq] at hm
    rw [hm.1]
    decide
  · intro c s v hm
    simp only [h5Ops, h5Op, List.mem_cons, List.not_mem_nil, or_false, reduceCtorEq, false_or, RecOp.iter.injEq] at hm
    rcases hm with hm | hm <;> (rw [hm.1]; decide)

/-- The order of the cases is not that of the run: the last case in the file of the sample is the one of iteration 9, the first one that was recorded. -/
theorem C153_order_refuted : ∃ f, hRun (fun _ => true) h5Opts [([], ⟨[], [['x'], ['y']], []⟩)] h5Ops = .ok f ∧ h5Keys f = ["rank0:D|10".toList, "rank0:D|9".toList] ∧
    h5GetCaseAt f (-1) = h5GetCase f "rank0:D|9".toList := ⟨_, rfl, by decide, rfl⟩

/-- The case of iteration 9 as it is read: neither the flag nor the derivatives, which were recorded, are in it. -/
example : ∃ f c, hRun (fun _ => true) h5Opts [([], ⟨[], [['x'], ['y']], []⟩)] h5Ops = .ok f ∧ h5GetCase f "rank0:D|9".toList = .ok c ∧ c.unknowns = some (vecDict [(['x'], 9), (['y'], 18)]) ∧ c.success = none ∧ c.derivs = none := ⟨_, _, rfl, rfl, rfl, rfl, rfl⟩

/-- The same problem run again: the first iteration has the key of the first iteration before, and cannot be recorded. -/
example : ∃ f, hRun (fun _ => true) h5Opts [([], ⟨[], [['x'], ['y']], []⟩)] h5Ops = .ok f ∧ hRun (fun _ => true) h5Opts [([], ⟨[], [['x'], ['y']], []⟩)] (h5Ops ++ [h5Op 9]) = .error .ValueError := ⟨_, rfl, rfl⟩

end OpenMDAO
