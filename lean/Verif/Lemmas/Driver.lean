import Verif.Model.Driver
import Verif.Lemmas.Vec
/-! Helper lemmas for C20 - C23. -/
namespace OpenMDAO

variable {K : Type}

/-- Specification: the `i`-th entry of a value broadcast to an array. -/
def NumArr.at (x : NumArr K) (i : Nat) : Option K :=
  match x with
  | .s y => some y
  | .a [y] => some y
  | .a l => l[i]?

/-- Specification: the value can be broadcast to `m` entries. -/
def NumArr.Fits (x : NumArr K) (m : Nat) : Prop :=
  match x with
  | .s _ => True
  | .a l => l.length = m ∨ l.length = 1

/-- the data of a value -/
def NumArr.data (x : NumArr K) : List K := match x with | .s y => [y] | .a l => l

theorem NumArr.at_full {l : List K} {m i : Nat} (h : l.length = m) (hi : i < m) : (NumArr.a l).at i = l[i]? := by
  match l, h with
  | [], _ => rfl
  | [y], h => have : i = 0 := by simp at h; omega
              subst this; rfl
  | _ :: _ :: _, _ => rfl

theorem NumArr.at_some {x : NumArr K} {m i : Nat} (h : x.Fits m) (hi : i < m) : ∃ y, x.at i = some y := by
  cases x with
  | s y => exact ⟨y, rfl⟩
  | a l =>
    rcases h with h | h
    · rw [NumArr.at_full h hi]; exact ⟨l[i], by simp [h, hi]⟩
    · obtain ⟨y, rfl⟩ := List.length_eq_one_iff.mp h; exact ⟨y, rfl⟩

theorem bc_spec (f : K → K → K) {x y : NumArr K} {m : Nat} (hx : x.Fits m) (hy : y.Fits m) :
    ∃ z, NumArr.bc f x y = .ok z ∧ z.Fits m ∧
      (∀ i a b, i < m → x.at i = some a → y.at i = some b → z.at i = some (f a b)) ∧
      (∀ l, x = .a l → l.length = m → ∃ l', z = .a l' ∧ l'.length = m) := by
  match x, y with
  | .s a, .s b => exact ⟨_, rfl, trivial, by simp [NumArr.at], by simp⟩
  | .s a, .a l =>
    refine ⟨_, rfl, by simpa [NumArr.Fits] using hy, ?_, by simp⟩
    intro i a' b hi ha hb
    simp only [NumArr.at, Option.some.injEq] at ha; subst ha
    match l, hb with
    | [], hb => simp [NumArr.at] at hb
    | [c], hb => simp only [NumArr.at, Option.some.injEq] at hb; subst hb; rfl
    | c :: d :: l, hb =>
      have hb' : (c :: d :: l)[i]? = some b := hb
      show (List.map (f a) (c :: d :: l))[i]? = _
      rw [List.getElem?_map, hb']; rfl
  | .a l, .s b =>
    refine ⟨_, rfl, by simpa [NumArr.Fits] using hx, ?_, ?_⟩
    · intro i a' b' hi ha hb
      simp only [NumArr.at, Option.some.injEq] at hb; subst hb
      match l, ha with
      | [], ha => simp [NumArr.at] at ha
      | [c], ha => simp only [NumArr.at, Option.some.injEq] at ha; subst ha; rfl
      | c :: d :: l, ha =>
        have ha' : (c :: d :: l)[i]? = some a' := ha
        show (List.map (f · b) (c :: d :: l))[i]? = _
        rw [List.getElem?_map, ha']; rfl
    · intro l' h h2; cases h; exact ⟨_, rfl, by simpa using h2⟩
  | .a l, .a k =>
    by_cases hlen : l.length = k.length
    · refine ⟨.a (List.zipWith f l k), by simp [NumArr.bc, hlen], ?_, ?_, ?_⟩
      · simp only [NumArr.Fits, List.length_zipWith] at hx ⊢; omega
      · intro i a b hi ha hb
        match l, k, hlen with
        | [], _, _ => simp [NumArr.at] at ha
        | [c], [d], _ =>
          simp only [NumArr.at, Option.some.injEq] at ha hb; subst ha hb; rfl
        | c :: c' :: l, d :: d' :: k, _ =>
          have ha' : (c :: c' :: l)[i]? = some a := ha
          have hb' : (d :: d' :: k)[i]? = some b := hb
          show (List.zipWith f (c :: c' :: l) (d :: d' :: k))[i]? = _
          rw [List.getElem?_zipWith, ha', hb']
      · intro l' h h2; cases h; exact ⟨_, rfl, by simp; omega⟩
    · by_cases h1 : l.length = 1
      · obtain ⟨c, rfl⟩ := List.length_eq_one_iff.mp h1
        have hk : k.length = m := by
          rcases hy with h | h
          · exact h
          · simp at hlen; omega
        refine ⟨.a (k.map (f c)), by simp only [NumArr.bc, hlen, if_false], .inl (by simpa using hk), ?_, ?_⟩
        · intro i a b hi ha hb
          simp only [NumArr.at, Option.some.injEq] at ha; subst ha
          rw [NumArr.at_full (m := m) (by simpa using hk) hi, List.getElem?_map]
          rw [NumArr.at_full hk hi] at hb; rw [hb]; rfl
        · intro l' h h2; cases h; exact ⟨_, rfl, by simpa using hk⟩
      · have hl : l.length = m := by rcases hx with h | h; exact h; omega
        have hk : k.length = 1 := by rcases hy with h | h; omega; exact h
        obtain ⟨d, rfl⟩ := List.length_eq_one_iff.mp hk
        have he : NumArr.bc f (.a l) (.a [d]) = .ok (.a (l.map (f · d))) := by
          simp only [NumArr.bc, hlen, if_false]
          match l, h1 with
          | [], _ => rfl
          | [_], h => simp at h
          | _ :: _ :: _, _ => rfl
        refine ⟨_, he, .inl (by simpa using hl), ?_, ?_⟩
        · intro i a b hi ha hb
          simp only [NumArr.at, Option.some.injEq] at hb; subst hb
          rw [NumArr.at_full (m := m) (by simpa using hl) hi, List.getElem?_map]
          rw [NumArr.at_full hl hi] at ha; rw [ha]; rfl
        · intro l' h h2; cases h; exact ⟨_, rfl, by simpa using hl⟩

theorem foldl_set_const (ps : List Nat) (v : List K) (x : K) :
    (ps.foldl (fun w k => w.set k x) v).length = v.length ∧
    (∀ p ∈ ps, p < v.length → (ps.foldl (fun w k => w.set k x) v)[p]? = some x) ∧
    (∀ p, p ∉ ps → (ps.foldl (fun w k => w.set k x) v)[p]? = v[p]?) := by
  induction ps generalizing v with
  | nil => simp
  | cons q ps ih =>
    obtain ⟨h1, h2, h3⟩ := ih (v.set q x)
    simp only [List.foldl_cons]
    refine ⟨by simpa using h1, ?_, ?_⟩
    · intro p hp hlt
      by_cases hq : p ∈ ps
      · exact h2 p hq (by simpa using hlt)
      · have : p = q := by simpa [hq] using hp
        subst this
        rw [h3 p hq]; simp [hlt]
    · intro p hp
      simp only [List.mem_cons, not_or] at hp
      rw [h3 p hp.2, List.getElem?_set_ne (Ne.symm hp.1)]

/-- assigning a broadcast value to distinct valid positions -/
theorem npAssign_fits (v : List K) (idx : Idx) (ps : List Nat) (hps : idx.positions v.length = ps) (hnd : ps.Nodup)
    (hb : ∀ k ∈ ps, k < v.length) (z : NumArr K) (hz : z.Fits ps.length) :
    ∃ v', npAssign v idx z.data = .ok v' ∧ v'.length = v.length ∧
      (∀ i p : Nat, ps[i]? = some p → v'[p]? = z.at i) ∧ (∀ p, p ∉ ps → v'[p]? = v[p]?) := by
  have hany : ps.any (fun k => decide (v.length ≤ k)) = false := by
    rw [List.any_eq_false]; intro k hk; simpa using hb k hk
  by_cases hl : ps.length = z.data.length
  · refine ⟨_, by simp only [npAssign, hps, hany, Bool.false_eq_true, if_false]; exact if_pos hl,
      (foldl_set_zip _ _ _).1, ?_, fun p hp => (foldl_set_zip _ _ _).2 p hp⟩
    intro i p hp
    have hi : i < ps.length := (List.getElem?_eq_some_iff.mp hp).1
    rw [foldl_set_zip_mem _ _ _ hnd hb i p hp (by omega)]
    cases z with
    | s y =>
      simp only [NumArr.data, List.length_singleton] at hl
      have : i = 0 := by omega
      subst this; rfl
    | a l => exact (NumArr.at_full hl.symm hi).symm
  · obtain ⟨x, hx, hat⟩ : ∃ x, z.data = [x] ∧ ∀ i, z.at i = some x := by
      cases z with
      | s y => exact ⟨y, rfl, fun _ => rfl⟩
      | a l =>
        rcases hz with h | h
        · exact absurd h.symm hl
        · obtain ⟨y, rfl⟩ := List.length_eq_one_iff.mp h; exact ⟨y, rfl, fun _ => rfl⟩
    obtain ⟨c1, c2, c3⟩ := foldl_set_const ps v x
    refine ⟨ps.foldl (fun w k => w.set k x) v, ?_, c1, ?_, c3⟩
    · simp only [npAssign, hps, hany, Bool.false_eq_true, if_false, hx]
      rw [hx] at hl
      exact if_neg hl
    · intro i p hp
      have hm := List.mem_of_getElem? hp
      rw [c2 p hm (hb p hm), hat]

theorem npGet_positions (v : List K) (ps : List Nat) (hb : ∀ k ∈ ps, k < v.length) :
    ∃ l, npGet v (.arr ps) = .ok l ∧ l.length = ps.length ∧ ∀ i p : Nat, ps[i]? = some p → l[i]? = v[p]? := by
  obtain ⟨l, h1, h2⟩ := npGet_map v (.arr ps) hb
  simp only [Idx.positions] at h2
  refine ⟨l, h1, by simpa using congrArg List.length h2, ?_⟩
  intro i p hp
  have := congrArg (fun t => t[i]?) h2
  simp only [List.getElem?_map, hp, Option.map_some] at this
  have hlt := hb p (List.mem_of_getElem? hp)
  rw [List.getElem?_eq_getElem hlt] at this ⊢
  cases h : l[i]? with
  | none => simp [h] at this
  | some y => simpa [h] using this

end OpenMDAO
