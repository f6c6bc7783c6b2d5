import Verif.Model.Vec
import Verif.Lemmas.ArrayUtil
import Verif.Spec.Vec
import Mathlib.Data.List.Pairwise
/-! Helper lemmas for C05 - C08. -/
namespace OpenMDAO

variable {α β : Type}

/-- contents of a numpy view window -/
def region (b : List α) (off len : Nat) : List α := (b.drop off).take len

theorem region_length (b : List α) {off len : Nat} (h : off + len ≤ b.length) :
    (region b off len).length = len := by
  simp [region]; omega

theorem region_getElem? (b : List α) (off len i : Nat) :
    (region b off len)[i]? = if i < len then b[off + i]? else none := by
  simp [region, List.getElem?_take, List.getElem?_drop]

theorem window_positions {off len n : Nat} (h : off + len ≤ n) :
    (window off len).positions n = (List.range len).map (fun i => off + i) := by
  have := filter_range_progression off 1 len n (by omega) (by intro i hi; omega)
  simpa [window, Idx.positions, PySlice.positions] using this

theorem npGet_map (v : List α) (idx : Idx) (h : ∀ k ∈ idx.positions v.length, k < v.length) :
    ∃ vals, npGet v idx = .ok vals ∧ vals.map some = (idx.positions v.length).map (fun k => v[k]?) := by
  unfold npGet
  generalize idx.positions v.length = ps at h
  induction ps with
  | nil => exact ⟨[], rfl, rfl⟩
  | cons p ps ih =>
    obtain ⟨vals, h1, h2⟩ := ih (fun k hk => h k (by simp [hk]))
    have hp := h p (by simp)
    refine ⟨v[p] :: vals, ?_, ?_⟩
    · rw [List.mapM_cons, h1]
      simp [hp]
      rfl
    · simp [h2, hp]

theorem npGet_window (b : List α) {off len : Nat} (h : off + len ≤ b.length) :
    npGet b (window off len) = .ok (region b off len) := by
  obtain ⟨vals, h1, h2⟩ := npGet_map b (window off len) (by
    rw [window_positions h]; intro k hk
    simp only [List.mem_map, List.mem_range] at hk
    obtain ⟨i, hi, rfl⟩ := hk; omega)
  rw [h1]
  congr 1
  rw [window_positions h] at h2
  have : vals.map some = (region b off len).map some := by
    rw [h2]
    apply List.ext_getElem?
    intro i
    simp only [List.getElem?_map, region_getElem?]
    by_cases hi : i < len
    · simp only [hi, List.getElem?_range, Option.map_some, if_true]
      rw [List.getElem?_eq_getElem (by omega)]
      rfl
    · simp [hi]
  exact List.map_injective_iff.mpr (Option.some_injective α) this

theorem foldl_set_zip (ps : List Nat) (vals b : List α) :
    ((ps.zip vals).foldl (fun w p => w.set p.1 p.2) b).length = b.length ∧
    ∀ k, k ∉ ps → ((ps.zip vals).foldl (fun w p => w.set p.1 p.2) b)[k]? = b[k]? := by
  induction ps generalizing vals b with
  | nil => simp
  | cons p ps ih =>
    cases vals with
    | nil => simp
    | cons x vals =>
      obtain ⟨h1, h2⟩ := ih vals (b.set p x)
      refine ⟨by simpa using h1, ?_⟩
      intro k hk
      simp only [List.mem_cons, not_or] at hk
      simp only [List.zip_cons_cons, List.foldl_cons]
      rw [h2 k hk.2, List.getElem?_set_ne (Ne.symm hk.1)]

theorem foldl_set_zip_mem (ps : List Nat) (vals b : List α) (hnd : ps.Nodup) (hb : ∀ k ∈ ps, k < b.length)
    (i : Nat) (p : Nat) (hp : ps[i]? = some p) (hi : i < vals.length) :
    ((ps.zip vals).foldl (fun w p => w.set p.1 p.2) b)[p]? = vals[i]? := by
  induction ps generalizing vals b i with
  | nil => simp at hp
  | cons q ps ih =>
    rw [List.nodup_cons] at hnd
    cases vals with
    | nil => simp at hi
    | cons x vals =>
      simp only [List.zip_cons_cons, List.foldl_cons]
      cases i with
      | zero =>
        simp only [List.getElem?_cons_zero, Option.some.injEq] at hp
        subst hp
        rw [(foldl_set_zip ps vals _).2 q hnd.1]
        have := hb q (by simp)
        simp [this]
      | succ i =>
        simp only [List.getElem?_cons_succ] at hp ⊢
        exact ih vals (b.set q x) hnd.2 (fun k hk => by simpa using hb k (by simp [hk])) i hp
          (by simpa using hi)

/-- two windows do not overlap -/
def Disj (o l o' l' : Nat) : Prop := o + l ≤ o' ∨ o' + l' ≤ o

theorem region_congr {b b' : List α} {o l : Nat} (h : ∀ k, o ≤ k → k < o + l → b'[k]? = b[k]?) :
    region b' o l = region b o l := by
  apply List.ext_getElem?
  intro i
  rw [region_getElem?, region_getElem?]
  split
  · exact h _ (by omega) (by omega)
  · rfl

/-- writing to a window: what was written, and that nothing outside changed -/
theorem npAssign_window (b : List α) {off len : Nat} (vals : List α) (h : off + len ≤ b.length) :
    (vals.length = len → ∃ b', npAssign b (window off len) vals = .ok b' ∧ b'.length = b.length ∧
      region b' off len = vals ∧ ∀ k, ¬ (off ≤ k ∧ k < off + len) → b'[k]? = b[k]?) ∧
    (∀ x, vals = [x] → ∃ b', npAssign b (window off len) vals = .ok b' ∧ b'.length = b.length ∧
      region b' off len = List.replicate len x ∧ ∀ k, ¬ (off ≤ k ∧ k < off + len) → b'[k]? = b[k]?) ∧
    (vals.length ≠ len → vals.length ≠ 1 → npAssign b (window off len) vals = .error .ValueError) := by
  have hps := window_positions h
  have hmem : ∀ k, k ∈ (window off len).positions b.length ↔ (off ≤ k ∧ k < off + len) := by
    intro k
    rw [hps]
    simp only [List.mem_map, List.mem_range]
    constructor
    · rintro ⟨i, hi, rfl⟩; omega
    · intro hk; exact ⟨k - off, by omega, by omega⟩
  have hany : ((window off len).positions b.length).any (fun k => decide (b.length ≤ k)) = false := by
    rw [List.any_eq_false]
    intro k hk
    have := (hmem k).mp hk
    simp; omega
  have hnd : ((window off len).positions b.length).Nodup := by
    rw [hps]
    exact List.Nodup.map (fun a b h => by simpa using h) List.nodup_range
  have hlen : ((window off len).positions b.length).length = len := by rw [hps]; simp
  have hget : ∀ i, i < len → ((window off len).positions b.length)[i]? = some (off + i) := by
    intro i hi; rw [hps]; simp [hi]
  have main : vals.length = len → ∃ b', npAssign b (window off len) vals = .ok b' ∧ b'.length = b.length ∧
      region b' off len = vals ∧ ∀ k, ¬ (off ≤ k ∧ k < off + len) → b'[k]? = b[k]? := by
    intro hl
    refine ⟨_, by simp only [npAssign, hany, Bool.false_eq_true, if_false]; exact if_pos (by omega),
      (foldl_set_zip _ _ _).1, ?_, fun k hk => (foldl_set_zip _ _ _).2 k (by rwa [hmem])⟩
    apply List.ext_getElem?
    intro i
    rw [region_getElem?]
    by_cases hi : i < len
    · rw [if_pos hi]
      exact foldl_set_zip_mem _ _ _ hnd (fun k hk => by have := (hmem k).mp hk; omega) i _ (hget i hi) (by omega)
    · rw [if_neg hi, List.getElem?_eq_none (by omega)]
  refine ⟨main, ?_, ?_⟩
  · rintro x rfl
    by_cases h1 : len = 1
    · subst h1
      obtain ⟨b', e1, e2, e3, e4⟩ := main rfl
      exact ⟨b', e1, e2, by rw [e3]; rfl, e4⟩
    · refine ⟨((window off len).positions b.length).foldl (fun w k => w.set k x) b, ?_, ?_, ?_, ?_⟩
      · simp only [npAssign, hany, Bool.false_eq_true, if_false]
        rw [if_neg (by simp; omega)]
      all_goals
        have e : ∀ (ps : List Nat) (b : List α), ps.foldl (fun w k => w.set k x) b =
            (ps.zip (List.replicate ps.length x)).foldl (fun w p => w.set p.1 p.2) b := by
          intro ps
          induction ps with
          | nil => intro b; rfl
          | cons p ps ih => intro b; simp [List.replicate_succ, ih]
        rw [e]
      · exact (foldl_set_zip _ _ _).1
      · apply List.ext_getElem?
        intro i
        rw [region_getElem?]
        by_cases hi : i < len
        · rw [if_pos hi, hlen]
          exact foldl_set_zip_mem _ _ _ hnd (fun k hk => by have := (hmem k).mp hk; omega) i _ (hget i hi)
            (by simpa using hi)
        · rw [if_neg hi, List.getElem?_eq_none (by simpa using hi)]
      · intro k hk
        exact (foldl_set_zip _ _ _).2 k (by rwa [hmem])
  · intro h1 h2
    simp only [npAssign, hany, Bool.false_eq_true, if_false]
    rw [if_neg (by omega)]
    match vals, h2 with
    | [], _ => rfl
    | _ :: _ :: _, _ => rfl

theorem npAssign_point (b : List α) {off : Nat} (x : α) (h : off < b.length) :
    npAssign b (.arr [off]) [x] = .ok (b.set off x) := by
  simp [npAssign, Idx.positions]; omega

/-- accessors of a vector whose variables own disjoint storage inside the buffer -/
structure Layout (w : VecW α β) (bufLen heapLen : Nat) : Prop where
  names : (w.dat.map (·.name)).Nodup
  bounds : ∀ a ∈ w.dat, a.md.stored → a.off + a.len ≤ bufLen ∧ a.len = a.md.size
  decl : ∀ a ∈ w.dat, WellDeclared a.md
  disj : w.dat.Pairwise (fun a b => a.md.stored → b.md.stored → Disj a.off a.len b.off b.len)
  addr : ∀ a ∈ w.dat, a.md.pbo = true → a.addr < heapLen
  addrs : w.dat.Pairwise (fun a b => a.md.pbo = true → b.md.pbo = true → a.addr ≠ b.addr)

theorem Layout.sep {w : VecW α β} {n h : Nat} (L : Layout w n h) {a b : Acc α β} (ha : a ∈ w.dat)
    (hb : b ∈ w.dat) (hne : a.name ≠ b.name) :
    (a.md.stored → b.md.stored → Disj a.off a.len b.off b.len) ∧
    (a.md.pbo = true → b.md.pbo = true → a.addr ≠ b.addr) := by
  have hab : a ≠ b := by rintro rfl; exact hne rfl
  constructor
  · have : Std.Symm (fun a b : Acc α β => a.md.stored → b.md.stored → Disj a.off a.len b.off b.len) :=
      ⟨by intro x y hxy h1 h2; have := hxy h2 h1; unfold Disj at *; omega⟩
    exact List.Pairwise.forall L.disj ha hb hab
  · have : Std.Symm (fun a b : Acc α β => a.md.pbo = true → b.md.pbo = true → a.addr ≠ b.addr) :=
      ⟨by intro x y hxy h1 h2; exact (hxy h2 h1).symm⟩
    exact List.Pairwise.forall L.addrs ha hb hab

theorem find_mem {w : VecW α β} {name : String} {a : Acc α β} (h : w.find name = some a) :
    a ∈ w.dat ∧ a.name = name := by
  unfold VecW.find at h
  exact ⟨List.mem_of_find?_eq_some h, by simpa using List.find?_some h⟩

theorem find_eq {w : VecW α β} (hn : (w.dat.map (·.name)).Nodup) {a : Acc α β} (ha : a ∈ w.dat) :
    w.find a.name = some a := by
  unfold VecW.find
  generalize w.dat = l at *
  induction l with
  | nil => simp at ha
  | cons b l ih =>
    rw [List.map_cons, List.nodup_cons] at hn
    rcases List.mem_cons.mp ha with rfl | ha
    · simp
    · have : b.name ≠ a.name := by
        intro h; apply hn.1; rw [h]; exact List.mem_map_of_mem (f := (·.name)) ha
      simp [this, ih hn.2 ha]

variable [Add α] [Mul α] [Zero α] [DecidableEq α]

theorem Acc.get_stored {a : Acc α β} {m : Mem α β} (hs : a.md.stored) (hb : a.off + a.len ≤ m.buf.length)
    (du : Bool) : a.get du m =
      (let v := match a.md.unitConv, du with
        | some c, false => (region m.buf a.off a.len).map (convUnits c)
        | _, _ => region m.buf a.off a.len
      if a.md.scalar then
        match v with
        | x :: _ => .ok (.num x)
        | [] => .error .IndexError
      else .ok (.arr v)) := by
  unfold Acc.get
  rw [hs.1, hs.2, npGet_window _ hb]
  rfl

/-- effect of one accessor's setter -/
theorem Acc.set_spec {a : Acc α β} {m : Mem α β} (v : PyVal α β)
    (hb : a.md.stored → a.off + a.len ≤ m.buf.length ∧ a.len = a.md.size)
    (hd : WellDeclared a.md) (ha : a.md.pbo = true → a.addr < m.heap.length) :
    (storedAs a.md v = none → ∃ e, a.set m v = .error e) ∧
    (∀ s, storedAs a.md v = some s → ∃ m', a.set m v = .ok m' ∧
      m'.buf.length = m.buf.length ∧ m'.heap.length = m.heap.length ∧
      (a.md.unitConv = none → ∀ du, a.get du m' = .ok s) ∧
      (a.md.stored → m'.heap = m.heap ∧ ∀ k, ¬ (a.off ≤ k ∧ k < a.off + a.len) → m'.buf[k]? = m.buf[k]?) ∧
      (a.md.pbo = true → m'.buf = m.buf ∧ ∀ k, k ≠ a.addr → m'.heap[k]? = m.heap[k]?)) := by
  by_cases hr : a.md.remote = true
  · refine ⟨fun _ => ⟨.RuntimeError, by simp [Acc.set, hr]⟩, ?_⟩
    intro s hs; simp [storedAs, hr] at hs
  have hr : a.md.remote = false := by simpa using hr
  by_cases hp : a.md.pbo = true
  · refine ⟨by simp [storedAs, hr, hp], ?_⟩
    intro s hs
    simp only [storedAs, hr, hp, Bool.false_eq_true, if_false, if_true, Option.some.injEq] at hs
    subst hs
    refine ⟨{ m with heap := m.heap.set a.addr v }, ?_, rfl, by simp, ?_, ?_, ?_⟩
    · simp [Acc.set, hr, hp, ha hp]
    · intro hu du
      simp [Acc.get, hr, hp, ha hp, hu]
    · intro h; exact absurd h.1 (by simp [hp])
    · intro _
      exact ⟨rfl, fun k hk => List.getElem?_set_ne (Ne.symm hk)⟩
  have hp : a.md.pbo = false := by simpa using hp
  have hst : a.md.stored := ⟨hp, hr⟩
  obtain ⟨hb1, hb2⟩ := hb hst
  by_cases hsc : a.md.scalar = true
  · have hlen : a.len = 1 := by rw [hb2]; exact hd.scalar hsc hp
    have key : ∀ x, ((v = .num x ∨ v = .arr [x]) → ∃ m', a.set m v = .ok m' ∧
      m'.buf.length = m.buf.length ∧ m'.heap.length = m.heap.length ∧
      (a.md.unitConv = none → ∀ du, a.get du m' = .ok (.num x)) ∧
      (a.md.stored → m'.heap = m.heap ∧ ∀ k, ¬ (a.off ≤ k ∧ k < a.off + a.len) → m'.buf[k]? = m.buf[k]?) ∧
      (a.md.pbo = true → m'.buf = m.buf ∧ ∀ k, k ≠ a.addr → m'.heap[k]? = m.heap[k]?)) := by
      intro x hv
      have e : a.set m v = .ok { m with buf := m.buf.set a.off x } := by
        rcases hv with rfl | rfl <;>
        · simp only [Acc.set, hr, hp, hsc, hlen, Bool.false_eq_true, if_false, if_true, Nat.zero_lt_one]
          rw [npAssign_point _ _ (by omega)]
          rfl
      refine ⟨_, e, by simp, rfl, ?_, ?_, by simp [hp]⟩
      · intro hu du
        rw [Acc.get_stored hst (by simpa using hb1), hu, hsc, hlen]
        have : region (m.buf.set a.off x) a.off 1 = [x] := by
          apply List.ext_getElem?
          intro i
          rw [region_getElem?]
          rcases i with _ | i
          · have : a.off < m.buf.length := by omega
            simp [this]
          · simp
        simp [this]
      · intro _
        refine ⟨rfl, fun k hk => List.getElem?_set_ne (by omega)⟩
    match v, key with
    | .num x, key =>
      refine ⟨by simp [storedAs, hr, hp, hsc], ?_⟩
      intro s hs
      simp only [storedAs, hr, hp, hsc, Bool.false_eq_true, if_false, if_true, Option.some.injEq] at hs
      subst hs
      exact key x (Or.inl rfl)
    | .arr [x], key =>
      refine ⟨by simp [storedAs, hr, hp, hsc], ?_⟩
      intro s hs
      simp only [storedAs, hr, hp, hsc, Bool.false_eq_true, if_false, if_true, Option.some.injEq] at hs
      subst hs
      exact key x (Or.inr rfl)
    | .arr [], _ =>
      exact ⟨fun _ => ⟨.ValueError, by simp [Acc.set, hr, hp, hsc]⟩, by simp [storedAs, hr, hp, hsc]⟩
    | .arr (_ :: _ :: _), _ =>
      exact ⟨fun _ => ⟨.ValueError, by simp [Acc.set, hr, hp, hsc]⟩, by simp [storedAs, hr, hp, hsc]⟩
    | .obj _, _ =>
      exact ⟨fun _ => ⟨.TypeError, by simp [Acc.set, hr, hp, hsc]⟩, by simp [storedAs, hr, hp, hsc]⟩
  have hsc : a.md.scalar = false := by simpa using hsc
  match v with
  | .num _ =>
    exact ⟨fun _ => ⟨.AttributeError, by simp [Acc.set, hr, hp, hsc]⟩, by simp [storedAs, hr, hp, hsc]⟩
  | .obj _ =>
    exact ⟨fun _ => ⟨.AttributeError, by simp [Acc.set, hr, hp, hsc]⟩, by simp [storedAs, hr, hp, hsc]⟩
  | .arr l =>
    obtain ⟨w1, w2, w3⟩ := npAssign_window m.buf (off := a.off) (len := a.len) l hb1
    have fin : ∀ (s : List α) (b' : List α), npAssign m.buf (window a.off a.len) l = .ok b' →
        b'.length = m.buf.length → region b' a.off a.len = s →
        (∀ k, ¬ (a.off ≤ k ∧ k < a.off + a.len) → b'[k]? = m.buf[k]?) →
        ∃ m', a.set m (.arr l) = .ok m' ∧
      m'.buf.length = m.buf.length ∧ m'.heap.length = m.heap.length ∧
      (a.md.unitConv = none → ∀ du, a.get du m' = .ok (.arr s)) ∧
      (a.md.stored → m'.heap = m.heap ∧ ∀ k, ¬ (a.off ≤ k ∧ k < a.off + a.len) → m'.buf[k]? = m.buf[k]?) ∧
      (a.md.pbo = true → m'.buf = m.buf ∧ ∀ k, k ≠ a.addr → m'.heap[k]? = m.heap[k]?) := by
      intro s b' e1 e2 e3 e4
      refine ⟨{ m with buf := b' }, ?_, e2, rfl, ?_, fun _ => ⟨rfl, e4⟩, by simp [hp]⟩
      · simp only [Acc.set, hr, hp, hsc, Bool.false_eq_true, if_false, e1]
        rfl
      · intro hu du
        rw [Acc.get_stored hst (by simpa [e2] using hb1), hu, hsc]
        simp [e3]
    by_cases hl : l.length = a.md.size
    · refine ⟨by simp [storedAs, hr, hp, hsc, hl], ?_⟩
      intro s hs
      simp only [storedAs, hr, hp, hsc, hl, Bool.false_eq_true, if_false, if_true, Option.some.injEq] at hs
      subst hs
      obtain ⟨b', e1, e2, e3, e4⟩ := w1 (by omega)
      exact fin l b' e1 e2 e3 e4
    · match l, hl, w2, w3, fin with
      | [x], hl, w2, _, fin =>
        refine ⟨by simp only [storedAs, hr, hp, hsc, hl, Bool.false_eq_true, if_false]; simp, ?_⟩
        intro s hs
        simp only [storedAs, hr, hp, hsc, hl, Bool.false_eq_true, if_false, Option.some.injEq] at hs
        subst hs
        obtain ⟨b', e1, e2, e3, e4⟩ := w2 x rfl
        exact fin _ b' e1 e2 (by rw [e3, hb2]) e4
      | [], hl, _, w3, _ =>
        refine ⟨fun _ => ⟨.ValueError, ?_⟩, by simp only [storedAs, hr, hp, hsc, hl, Bool.false_eq_true, if_false]; simp⟩
        simp only [Acc.set, hr, hp, hsc, Bool.false_eq_true, if_false]
        rw [w3 (by omega) (by simp)]
        rfl
      | x :: y :: r, hl, _, w3, _ =>
        refine ⟨fun _ => ⟨.ValueError, ?_⟩, by simp only [storedAs, hr, hp, hsc, hl, Bool.false_eq_true, if_false]; simp⟩
        simp only [Acc.set, hr, hp, hsc, Bool.false_eq_true, if_false]
        rw [w3 (by omega) (by simp)]
        rfl

/-- a getter only looks at its own storage -/
theorem Acc.get_congr {a : Acc α β} {m m' : Mem α β} (du : Bool)
    (hl : m'.buf.length = m.buf.length)
    (hb : a.md.stored → a.off + a.len ≤ m.buf.length ∧ ∀ k, a.off ≤ k → k < a.off + a.len → m'.buf[k]? = m.buf[k]?)
    (hh : a.md.pbo = true → m'.heap[a.addr]? = m.heap[a.addr]?) : a.get du m' = a.get du m := by
  by_cases hr : a.md.remote = true
  · simp [Acc.get, hr]
  have hr : a.md.remote = false := by simpa using hr
  by_cases hp : a.md.pbo = true
  · simp only [Acc.get, hr, hp, Bool.false_eq_true, if_false, if_true, hh hp]
  have hp : a.md.pbo = false := by simpa using hp
  obtain ⟨h1, h2⟩ := hb ⟨hp, hr⟩
  rw [Acc.get_stored ⟨hp, hr⟩ h1, Acc.get_stored ⟨hp, hr⟩ (by omega), region_congr h2]

/-- setting a variable leaves every other variable's value alone -/
theorem VecW.set_other {w : VecW α β} {m m' : Mem α β} (L : Layout w m.buf.length m.heap.length)
    {name other : String} {v : PyVal α β} (h : w.set m name v = .ok m') (hne : other ≠ name) :
    w.get m' other = w.get m other ∧ m'.buf.length = m.buf.length ∧ m'.heap.length = m.heap.length := by
  unfold VecW.set at h
  cases hf : w.find name with
  | none => rw [hf] at h; simp at h
  | some a =>
    rw [hf] at h
    simp only at h
    obtain ⟨ha, rfl⟩ := find_mem hf
    obtain ⟨s1, s2⟩ := Acc.set_spec (m := m) v (L.bounds a ha) (L.decl a ha) (L.addr a ha)
    cases hs : storedAs a.md v with
    | none => obtain ⟨e, he⟩ := s1 hs; rw [he] at h; simp at h
    | some s =>
      obtain ⟨m'', e1, e2, e3, -, e5, e6⟩ := s2 s hs
      rw [e1] at h
      simp only [Except.ok.injEq] at h
      subst h
      refine ⟨?_, e2, e3⟩
      unfold VecW.get
      cases hg : w.find other with
      | none => rfl
      | some b =>
        obtain ⟨hb, rfl⟩ := find_mem hg
        have hsep := L.sep ha hb (Ne.symm hne)
        have hrem : a.md.remote = false := by
          by_contra hc
          simp only [Bool.not_eq_false] at hc
          simp [storedAs, hc] at hs
        apply Acc.get_congr _ e2
        · intro hbs
          refine ⟨(L.bounds b hb hbs).1, fun k h1 h2 => ?_⟩
          by_cases hap : a.md.pbo = true
          · rw [(e6 hap).1]
          · have hast : a.md.stored := ⟨by simpa using hap, hrem⟩
            apply (e5 hast).2
            have := hsep.1 hast hbs
            unfold Disj at this; omega
        · intro hbp
          by_cases hap : a.md.pbo = true
          · exact (e6 hap).2 _ (hsep.2 hap hbp).symm
          · have hast : a.md.stored := ⟨by simpa using hap, hrem⟩
            rw [(e5 hast).1]

section Setup
omit [Add α] [Mul α] [Zero α] [DecidableEq α]

/-- accessors created by the two passes of setup, given the running size and number of objects -/
def layAccs : Nat → Nat → List (VarMeta α β) → List (Acc α β)
  | _, _, [] => []
  | s, h, m :: ms =>
    if m.relevant = false then layAccs s h ms
    else if m.stored then ⟨m.name, some (s, s + m.size), s, m.size, h, m⟩ :: layAccs (s + m.size) h ms
    else ⟨m.name, none, 0, 0, h, m⟩ :: layAccs s (if m.pbo then h + 1 else h) ms

def laySize : List (VarMeta α β) → Nat
  | [] => 0
  | m :: ms => if m.relevant = true ∧ m.stored then m.size + laySize ms else laySize ms

def layHeap : List (VarMeta α β) → List (PyVal α β)
  | [] => []
  | m :: ms => if m.relevant = true ∧ m.pbo = true then m.objVal :: layHeap ms else layHeap ms

theorem foldl_addVar (metas : List (VarMeta α β)) (st : SetupSt α β) :
    (metas.foldl addVar st).size = st.size + laySize metas ∧
    (metas.foldl addVar st).dat.map mapSlice =
      st.dat.map mapSlice ++ layAccs st.size st.heap.length metas ∧
    (metas.foldl addVar st).heap = st.heap ++ layHeap metas := by
  induction metas generalizing st with
  | nil => simp [laySize, layAccs, layHeap]
  | cons m ms ih =>
    obtain ⟨h1, h2, h3⟩ := ih (addVar st m)
    rw [List.foldl_cons, h1, h2, h3]
    rcases hr : m.relevant <;> rcases hp : m.pbo <;> rcases hm : m.remote <;>
      simp [addVar, hr, hp, hm, laySize, layAccs, layHeap, VarMeta.stored, mapSlice, Nat.add_assoc]

theorem layAccs_mem (metas : List (VarMeta α β)) (s h : Nat) : ∀ a ∈ layAccs s h metas,
    a.md ∈ metas ∧ a.md.relevant = true ∧ a.name = a.md.name ∧
    (a.md.stored → s ≤ a.off ∧ a.off + a.len ≤ s + laySize metas ∧ a.len = a.md.size ∧
      a.slice = some (a.off, a.off + a.len)) ∧
    (¬ a.md.stored → a.slice = none ∧ a.len = 0) ∧
    (a.md.pbo = true → h ≤ a.addr ∧ a.addr < h + (layHeap metas).length ∧
      (layHeap metas)[a.addr - h]? = some a.md.objVal) := by
  induction metas generalizing s h with
  | nil => intro a ha; simp [layAccs] at ha
  | cons m ms ih =>
    intro a ha
    by_cases hr : m.relevant = false
    · simp only [layAccs, hr, if_true] at ha
      obtain ⟨h1, h2⟩ := ih s h a ha
      refine ⟨by simp [h1], ?_⟩
      simpa [laySize, layHeap, hr] using h2
    · have hr' : m.relevant = true := by simpa using hr
      by_cases hs : m.stored
      · have hp : m.pbo = false := hs.1
        simp only [layAccs, hr', hs, if_true, List.mem_cons, Bool.true_eq_false, if_false] at ha
        rcases ha with rfl | ha
        · refine ⟨by simp, hr', rfl, fun _ => ?_, fun h => absurd hs h, by simp [hp]⟩
          simp [laySize, hr', hs]
        · obtain ⟨h1, h2, h3, h4, h5, h6⟩ := ih _ _ a ha
          refine ⟨by simp [h1], h2, h3, ?_, h5, ?_⟩
          · intro hst
            obtain ⟨q1, q2, q3⟩ := h4 hst
            simp only [laySize, hr', hs, and_self, if_true]
            exact ⟨by omega, by omega, q3⟩
          · simpa [layHeap, hr', hp] using h6
      · simp only [layAccs, hr', hs, if_false, List.mem_cons, Bool.true_eq_false] at ha
        rcases ha with rfl | ha
        · refine ⟨by simp, hr', rfl, fun h => absurd h hs, fun _ => ⟨rfl, rfl⟩, ?_⟩
          intro hp
          simp [layHeap, hr', show m.pbo = true from hp]
        · obtain ⟨h1, h2, h3, h4, h5, h6⟩ := ih _ _ a ha
          refine ⟨by simp [h1], h2, h3, ?_, h5, ?_⟩
          · simpa [laySize, hs] using h4
          · intro hap
            obtain ⟨q1, q2, q3⟩ := h6 hap
            by_cases hp : m.pbo = true
            · simp only [hp, if_true] at q1 q2 q3
              simp only [layHeap, hr', hp, and_self, if_true, List.length_cons]
              refine ⟨by omega, by omega, ?_⟩
              rw [show a.addr - h = (a.addr - (h+1)) + 1 by omega, List.getElem?_cons_succ]
              exact q3
            · simp only [hp, Bool.false_eq_true, if_false] at q1 q2 q3
              simp only [layHeap, hp]
              simpa using ⟨q1, q2, q3⟩

theorem layAccs_pairwise (metas : List (VarMeta α β)) (s h : Nat) :
    (layAccs s h metas).Pairwise (fun a b => a.md.stored → b.md.stored → a.off + a.len ≤ b.off) ∧
    (layAccs s h metas).Pairwise (fun a b => a.md.pbo = true → b.md.pbo = true → a.addr ≠ b.addr) := by
  induction metas generalizing s h with
  | nil => simp [layAccs]
  | cons m ms ih =>
    unfold layAccs
    split
    · exact ih s h
    · split
      · rename_i hs
        refine ⟨List.pairwise_cons.mpr ⟨?_, (ih _ _).1⟩, List.pairwise_cons.mpr ⟨?_, (ih _ _).2⟩⟩
        · intro b hb _ hbs
          exact ((layAccs_mem ms _ _ b hb).2.2.2.1 hbs).1
        · intro b _ hp
          simp only [hs.1] at hp
          simp at hp
      · rename_i hs
        refine ⟨List.pairwise_cons.mpr ⟨?_, (ih _ _).1⟩, List.pairwise_cons.mpr ⟨?_, (ih _ _).2⟩⟩
        · intro b _ h
          exact absurd h hs
        · intro b hb hp hbp
          simp only at hp
          have := ((layAccs_mem ms _ _ b hb).2.2.2.2.2 hbp).1
          simp only [hp, if_true] at this
          simp only; omega

theorem layAccs_md (metas : List (VarMeta α β)) (s h : Nat) :
    (layAccs s h metas).map (·.md) = metas.filter (·.relevant) := by
  induction metas generalizing s h with
  | nil => rfl
  | cons m ms ih =>
    unfold layAccs
    split
    · rename_i hr; simp [ih, hr]
    · rename_i hr
      have hr' : m.relevant = true := by simpa using hr
      split <;> simp [ih, hr']

theorem layAccs_names (metas : List (VarMeta α β)) (s h : Nat) :
    (layAccs s h metas).map (·.name) = (metas.filter (·.relevant)).map (·.name) := by
  rw [← layAccs_md metas s h, List.map_map]
  apply List.map_congr_left
  intro a ha
  exact (layAccs_mem metas s h a ha).2.2.1

/-- initialisation writes every stored variable's declared value -/
theorem initVars_ok (accs : List (Acc α β)) (buf : List α)
    (hb : ∀ a ∈ accs, a.md.stored → a.off + a.len ≤ buf.length ∧ a.len = a.md.size)
    (hd : ∀ a ∈ accs, WellDeclared a.md)
    (hp : accs.Pairwise (fun a b => a.md.stored → b.md.stored → Disj a.off a.len b.off b.len)) :
    ∃ buf', accs.foldlM (initVar true) buf = .ok buf' ∧ buf'.length = buf.length ∧
      (∀ a ∈ accs, a.md.stored → region buf' a.off a.len = a.md.val) ∧
      (∀ o l, (∀ a ∈ accs, a.md.stored → Disj a.off a.len o l) → region buf' o l = region buf o l) := by
  induction accs generalizing buf with
  | nil => exact ⟨buf, rfl, rfl, by simp, fun _ _ _ => rfl⟩
  | cons a accs ih =>
    rw [List.pairwise_cons] at hp
    have step : ∃ b1, initVar true buf a = .ok b1 ∧ b1.length = buf.length ∧
        (a.md.stored → region b1 a.off a.len = a.md.val) ∧
        (∀ o l, (a.md.stored → Disj a.off a.len o l) → region b1 o l = region buf o l) := by
      by_cases hs : a.md.stored
      · obtain ⟨h1, h2⟩ := hb a (by simp) hs
        have hv := (hd a (by simp)).val hs.1
        by_cases hsc : a.md.scalar = true
        · have h3 := (hd a (by simp)).scalar hsc hs.1
          obtain ⟨x, hx⟩ : ∃ x, a.md.val = [x] := by
            rw [h3] at hv; exact List.length_eq_one_iff.mp hv
          have hlen : a.len = 1 := by omega
          refine ⟨buf.set a.off x, ?_, by simp, ?_, ?_⟩
          · simp [initVar, hs.1, hs.2, hsc, hx, hlen, npAssign_point buf x (show a.off < buf.length by omega)]
          · intro _
            rw [hx, hlen]
            apply List.ext_getElem?
            intro i
            rw [region_getElem?]
            rcases i with _ | i
            · have : a.off < buf.length := by omega
              simp [this]
            · simp
          · intro o l hdj
            apply region_congr
            intro k hk1 hk2
            rw [List.getElem?_set_ne]
            have := hdj hs; unfold Disj at this; omega
        · obtain ⟨b', e1, e2, e3, e4⟩ := (npAssign_window buf (off := a.off) (len := a.len) a.md.val h1).1 (by omega)
          refine ⟨b', ?_, e2, fun _ => e3, ?_⟩
          · simp [initVar, hs.1, hs.2, hsc, e1]
          · intro o l hdj
            apply region_congr
            intro k hk1 hk2
            apply e4
            have := hdj hs; unfold Disj at this; omega
      · refine ⟨buf, ?_, rfl, fun h => absurd h hs, fun _ _ _ => rfl⟩
        have : (a.md.pbo || a.md.remote) = true := by
          by_contra hc
          simp only [Bool.or_eq_true, not_or, Bool.not_eq_true] at hc
          exact hs hc
        simp [initVar, this]
    obtain ⟨b1, s1, s2, s3, s4⟩ := step
    obtain ⟨b2, t1, t2, t3, t4⟩ := ih b1 (fun c hc => by rw [s2]; exact hb c (by simp [hc]))
      (fun c hc => hd c (by simp [hc])) hp.2
    refine ⟨b2, by rw [List.foldlM_cons, s1]; exact t1, by omega, ?_, ?_⟩
    · intro c hc hcs
      rcases List.mem_cons.mp hc with rfl | hc
      · rw [t4 c.off c.len (fun d hd' hds => ?_), s3 hcs]
        have := hp.1 d hd' hcs hds
        unfold Disj at *; omega
      · exact t3 c hc hcs
    · intro o l hdj
      rw [t4 o l (fun c hc => hdj c (by simp [hc])), s4 o l (hdj a (by simp))]

theorem initVars_false (accs : List (Acc α β)) (buf : List α) :
    accs.foldlM (initVar false) buf = .ok buf := by
  induction accs with
  | nil => rfl
  | cons a accs ih =>
    rw [List.foldlM_cons]
    have : initVar false buf a = .ok buf := by simp [initVar]
    rw [this]; exact ih

end Setup

omit [Add α] [Mul α] [DecidableEq α] in
/-- Setup of a source vector: layout, initial values. -/
theorem srcSetup_ok (metas : List (VarMeta α β)) (hn : (metas.map (·.name)).Nodup)
    (hd : ∀ m ∈ metas, WellDeclared m) (sb : Bool) :
    ∃ w m, srcSetup metas sb = .ok (w, m) ∧ w.off = 0 ∧ w.len = laySize metas ∧ w.derivUnits = false ∧
      w.dat = layAccs 0 0 metas ∧ m.buf.length = laySize metas ∧ m.heap = layHeap metas ∧
      Layout w m.buf.length m.heap.length ∧
      (sb = true → ∀ a ∈ w.dat, a.md.stored → region m.buf a.off a.len = a.md.val) := by
  obtain ⟨h1, h2, h3⟩ := foldl_addVar metas (⟨0, [], []⟩ : SetupSt α β)
  simp only [Nat.zero_add, List.map_nil, List.nil_append, List.length_nil] at h1 h2 h3
  have hmem := layAccs_mem metas 0 0
  have hpw := layAccs_pairwise metas 0 0
  have L : ∀ w : VecW α β, w.dat = layAccs 0 0 metas → Layout w (laySize metas) (layHeap metas).length := by
    intro w hw
    refine ⟨?_, ?_, ?_, ?_, ?_, ?_⟩
    · rw [hw, layAccs_names]
      exact hn.sublist (List.Sublist.map _ List.filter_sublist)
    · intro a ha hs
      rw [hw] at ha
      have := (hmem a ha).2.2.2.1 hs
      exact ⟨by omega, this.2.2.1⟩
    · intro a ha; rw [hw] at ha; exact hd _ (hmem a ha).1
    · rw [hw]; exact hpw.1.imp (fun h h1 h2 => Or.inl (h h1 h2))
    · intro a ha hp
      rw [hw] at ha
      have := (hmem a ha).2.2.2.2.2 hp
      omega
    · rw [hw]; exact hpw.2
  have L0 := L ⟨0, laySize metas, layAccs 0 0 metas, false⟩ rfl
  have hinit : ∃ buf, (layAccs 0 0 metas).foldlM (initVar sb) (List.replicate (laySize metas) 0) = .ok buf ∧
      buf.length = laySize metas ∧
      (sb = true → ∀ a ∈ layAccs 0 0 metas, a.md.stored → region buf a.off a.len = a.md.val) := by
    cases sb with
    | false => exact ⟨_, initVars_false _ _, by simp, by simp⟩
    | true =>
      obtain ⟨b, e1, e2, e3, -⟩ := initVars_ok (layAccs 0 0 metas) (List.replicate (laySize metas) (0:α))
        (by simpa using L0.bounds) L0.decl L0.disj
      exact ⟨b, e1, by simpa using e2, fun _ => e3⟩
  obtain ⟨buf, e1, e2, e3⟩ := hinit
  refine ⟨⟨0, laySize metas, layAccs 0 0 metas, false⟩, ⟨buf, layHeap metas⟩, ?_, rfl, rfl, rfl, rfl, e2, rfl,
    ?_, e3⟩
  · simp only [srcSetup, h1, h2, h3, e1]
    rfl
  · simp only [e2]; exact L0

end OpenMDAO
