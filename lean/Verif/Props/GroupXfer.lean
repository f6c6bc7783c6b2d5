import Verif.Lemmas.GroupXfer
import Verif.Props.DataTransfer
/-!
# Properties C67 and C68 (`openmdao/core/group.py:1364-1635`)
-/
namespace OpenMDAO
set_option linter.unusedSectionVars false

/-- C67, distributed source or `src_indices`. Whenever index arrays are handed out for such a connection, entry `k` of the source indices addresses, in the vector of unknowns distributed over all
processes, the cell that is number `src_indices[k]` (number `k` without `src_indices`) of the whole distributed source variable; it is undefined exactly when that number is no entry of the variable. -/
theorem C67_distributed_source (iproc : Nat) (mode : Mode) (u p : XAcc) (uown pown i j : Nat) (usz psz : List (List Nat))
    (hd : u.srcIdx.isSome = true ∨ p.srcIdx.isSome = true) (hc : HasCol usz i)
    (hne : (getGlobalIdxs usz.length iproc mode u p uown pown i j usz psz).1 ≠ []) (k : Nat) (a : Int)
    (ha : (match p.srcIdx with | some l => l[k]? | none => if k < p.size then some (k : Int) else none) = some a) :
    ∃ o, (getGlobalIdxs usz.length iproc mode u p uown pown i j usz psz).1[k]? = some o ∧
      (∀ n : Nat, a = n → n < (varCells usz i).length → ∃ g : Nat, o = some (g : Int) ∧ (vecCells usz)[g]? = (varCells usz i)[n]? ∧ g < (vecCells usz).length) ∧
      (o = none ↔ ¬ ∃ n : Nat, a = n ∧ n < (varCells usz i).length) := by
  have hargs : (argIdxs p)[k]? = some a := by
    unfold argIdxs
    cases hp : p.srcIdx with
    | some l => simpa [hp] using ha
    | none =>
      rw [hp] at ha
      simp only [Option.ite_none_right_eq_some, Option.some.injEq] at ha
      obtain ⟨h1, h2⟩ := ha
      simp [idxArange, h1, h2]
  have hval : (getGlobalIdxs usz.length iproc mode u p uown pown i j usz psz).1 = placeAll usz usz.length i (argIdxs p) := by
    revert hne
    simp only [getGlobalIdxs]
    split
    · simp
    · have hdd : (u.srcIdx.isSome || p.srcIdx.isSome) = true := by simpa using hd
      rw [if_pos hdd]
      split
      · split <;> simp
      · split <;> simp
  rw [hval]
  obtain ⟨o, h1, h2, h3⟩ := placeAll_entry usz i (argIdxs p) usz.length k a hargs
  rw [← varCells_length] at h2 h3
  refine ⟨o, h1, ?_, ?_⟩
  · intro n hn hl
    obtain ⟨r, r1, m, r2, r3, r4⟩ := h2 ⟨by omega, by omega⟩
    refine ⟨_, r4, ?_, ?_⟩
    · rw [vecCells_at usz r i m r1 hc r2, show n = rankStart usz r i + m by omega, varCells_at usz r i m r1 r2]
    · exact (List.getElem?_eq_some_iff.mp (vecCells_at usz r i m r1 hc r2)).1
  · constructor
    · rintro ho ⟨n, hn, hl⟩
      obtain ⟨r, r1, m, r2, r3, r4⟩ := h2 ⟨by omega, by omega⟩
      rw [ho] at r4; cases r4
    · intro hno
      apply h3
      rintro ⟨q1, q2⟩
      obtain ⟨n, rfl⟩ := Int.eq_ofNat_of_zero_le q1
      exact hno ⟨n, rfl, by omega⟩

/-- C67, plain connection: forward, entry `k` is read from entry `k` of the source on the process that owns it and lands in entry `k` of the parameter on this process; in reverse, entry `k` of the
source on this process collects from entry `k` of the parameter on the process that owns that. -/
theorem C67_plain_connection (nproc iproc : Nat) (mode : Mode) (u p : XAcc) (uown pown i j : Nat) (usz psz : List (List Nat))
    (hu : u.srcIdx = none) (hp : p.srcIdx = none) (hcu : HasCol usz i) (hcp : HasCol psz j)
    (hlocal : (if mode = .fwd then p.remote else u.remote) = false) (k : Nat) (hk : k < p.size) :
    ∃ g t : Nat, (getGlobalIdxs nproc iproc mode u p uown pown i j usz psz).1[k]? = some (some (g : Int)) ∧
      (getGlobalIdxs nproc iproc mode u p uown pown i j usz psz).2[k]? = some t ∧
      (let ur := if mode = .fwd then uown else iproc
       ur < usz.length → k < szAt usz ur i → (vecCells usz)[g]? = some (ur, i, k)) ∧
      (let pr := if mode = .fwd then iproc else pown
       pr < psz.length → k < szAt psz pr j → (vecCells psz)[t]? = some (pr, j, k)) := by
  have hargs : (argIdxs p)[k]? = some (k : Int) := by simp [argIdxs, hp, idxArange, hk]
  have hlen : (argIdxs p).length = p.size := by simp [argIdxs, hp, idxArange]
  cases mode with
  | fwd =>
    simp only [if_true] at hlocal
    refine ⟨varOffset usz uown i + k, varOffset psz iproc j + k, ?_, ?_, ?_, ?_⟩
    · simp [getGlobalIdxs, hu, hp, hlocal, hargs, Int.add_comm]
    · simp [getGlobalIdxs, hu, hp, hlocal, hlen, hk]
    · simp only [if_true]
      intro h1 h2
      exact vecCells_at usz uown i k h1 hcu h2
    · simp only [if_true]
      intro h1 h2
      exact vecCells_at psz iproc j k h1 hcp h2
  | rev =>
    simp only [reduceCtorEq, if_false] at hlocal
    refine ⟨varOffset usz iproc i + k, varOffset psz pown j + k, ?_, ?_, ?_, ?_⟩
    · simp [getGlobalIdxs, hu, hp, hlocal, hargs, Int.add_comm]
    · simp [getGlobalIdxs, hu, hp, hlocal, hlen, hk]
    · simp only [reduceCtorEq, if_false]
      intro h1 h2
      exact vecCells_at usz iproc i k h1 hcu h2
    · simp only [reduceCtorEq, if_false]
      intro h1 h2
      exact vecCells_at psz pown j k h1 hcp h2

/-- C67, target side of a distributed connection: entry `k` of the target indices is entry `k` of the parameter's part on this process, and both arrays have one entry per entry of the parameter. -/
theorem C67_distributed_target (nproc iproc : Nat) (mode : Mode) (u p : XAcc) (uown pown i j : Nat) (usz psz : List (List Nat))
    (hd : u.srcIdx.isSome = true ∨ p.srcIdx.isSome = true) (hcp : HasCol psz j) (hr : iproc < psz.length)
    (hlocal : p.remote = false) (hown : mode = .rev → p.srcIdx = none → u.remote = false ∧ iproc = pown) :
    (getGlobalIdxs nproc iproc mode u p uown pown i j usz psz).1.length = (p.srcIdx.map List.length).getD p.size ∧
    (getGlobalIdxs nproc iproc mode u p uown pown i j usz psz).2.length = (p.srcIdx.map List.length).getD p.size ∧
    ∀ k, k < (p.srcIdx.map List.length).getD p.size → k < szAt psz iproc j →
      ∃ t, (getGlobalIdxs nproc iproc mode u p uown pown i j usz psz).2[k]? = some t ∧ (vecCells psz)[t]? = some (iproc, j, k) := by
  have hlen : (argIdxs p).length = (p.srcIdx.map List.length).getD p.size := by
    cases hp : p.srcIdx <;> simp [argIdxs, hp, idxArange]
  have hval : getGlobalIdxs nproc iproc mode u p uown pown i j usz psz =
      (placeAll usz nproc i (argIdxs p), (List.range (argIdxs p).length).map fun k => varOffset psz iproc j + k) := by
    simp only [getGlobalIdxs, hlocal]
    have hdd : (u.srcIdx.isSome || p.srcIdx.isSome) = true := by simpa using hd
    have hcond : ¬ ((¬ mode = Mode.rev ∧ false = true) ∨ (mode = Mode.rev ∧ ¬ p.srcIdx.isSome = true ∧ u.remote = true) ∨
        (mode = Mode.rev ∧ u.srcIdx.isSome = true ∧ ¬ p.srcIdx.isSome = true ∧ iproc ≠ pown)) := by
      rintro (⟨_, h⟩ | ⟨h1, h2, h3⟩ | ⟨h1, _, h2, h3⟩)
      · cases h
      · have := (hown h1 (by simpa using h2)).1
        rw [this] at h3; cases h3
      · exact h3 (hown h1 (by simpa using h2)).2
    rw [if_neg hcond, if_pos hdd]
    simp
  rw [hval, ← hlen]
  refine ⟨placeAll_length _ _ _ _, by simp, ?_⟩
  intro k hk hs
  exact ⟨varOffset psz iproc j + k, by simp [hk], vecCells_at psz iproc j k hr hcp hs⟩

/-- C67, the cases without indices: exactly when (forward) the parameter is on another process, or (reverse) the source is, or in reverse a distributed source without `src_indices` is collected only
by the owner of the parameter, or a parameter with `src_indices` lives elsewhere. -/
theorem C67_nothing_to_move (nproc iproc : Nat) (mode : Mode) (u p : XAcc) (uown pown i j : Nat) (usz psz : List (List Nat))
    (hsz : 0 < (p.srcIdx.map List.length).getD p.size) :
    getGlobalIdxs nproc iproc mode u p uown pown i j usz psz = ([], []) ↔
      (mode = .fwd ∧ p.remote = true) ∨
      (mode = .rev ∧ p.srcIdx = none ∧ u.remote = true) ∨
      (mode = .rev ∧ p.srcIdx = none ∧ u.srcIdx ≠ none ∧ iproc ≠ pown) ∨
      (mode = .rev ∧ p.srcIdx ≠ none ∧ p.remote = true ∧ iproc ≠ pown) := by
  have hlen : (argIdxs p).length = (p.srcIdx.map List.length).getD p.size := by
    cases hp : p.srcIdx <;> simp [argIdxs, hp, idxArange]
  have hn : argIdxs p ≠ [] := by
    intro h
    rw [h] at hlen
    simp at hlen
    omega
  cases mode <;> cases hp : p.srcIdx <;> cases hu : u.srcIdx <;> cases hr : p.remote <;> cases hur : u.remote <;>
    by_cases ho : iproc = pown <;>
    simp [getGlobalIdxs, hp, hu, hr, hur, ho, hn] <;> omega

/-- Three processes, two unknowns; unknown 1 is distributed with local sizes 2, 1, 2. Entries 4, 0, 2 of it are requested. -/
example : getGlobalIdxs 3 1 .fwd ⟨false, some [2], 1⟩ ⟨false, some [4, 0, 2], 3⟩ 0 1 1 0 [[1, 2], [0, 1], [0, 2]] [[0], [3], [0]] =
    ([some 5, some 1, some 3], [0, 1, 2]) ∧ HasCol [[1, 2], [0, 1], [0, 2]] 1 ∧
    vecCells [[1, 2], [0, 1], [0, 2]] = [(0, 0, 0), (0, 1, 0), (0, 1, 1), (1, 1, 0), (2, 1, 0), (2, 1, 1)] ∧
    varCells [[1, 2], [0, 1], [0, 2]] 1 = [(0, 1, 0), (0, 1, 1), (1, 1, 0), (2, 1, 0), (2, 1, 1)] := by
  refine ⟨by decide +kernel, by unfold HasCol; decide, by decide +kernel, by decide +kernel⟩

/-- A plain connection whose source lives on process 1 and whose parameter lives on processes 0 and 2. -/
example : getGlobalIdxs 3 2 .fwd ⟨true, none, 2⟩ ⟨false, none, 2⟩ 1 0 0 0 [[0, 1], [2, 0], [0, 0]] [[2], [0], [2]] = ([some 1, some 2], [2, 3]) ∧
    getGlobalIdxs 3 1 .rev ⟨false, none, 2⟩ ⟨true, none, 2⟩ 1 0 0 0 [[0, 1], [2, 0], [0, 0]] [[2], [0], [2]] = ([some 1, some 2], [0, 1]) ∧
    getGlobalIdxs 3 2 .rev ⟨true, none, 2⟩ ⟨false, none, 2⟩ 1 0 0 0 [[0, 1], [2, 0], [0, 0]] [[2], [0], [2]] = ([], []) := by
  refine ⟨by decide +kernel, by decide +kernel, by decide +kernel⟩

/-! ## C68 -/

theorem vecPair_some {g : XGroup} (h : XGroupOk g) {pv : Nat × List XSlot} (_ : g.pVec = .ok pv) {c : Str × Str} (hc : c ∈ g.conns)
    {pr : List Nat × List Nat} (hp : vecPair g pv.2 c = some pr) :
    ∃ u ∈ g.us, ∃ p ∈ g.ps, u.path = c.2 ∧ p.path = c.1 ∧ u.rel = true ∧ p.rel = true ∧ u.pbo = false ∧
      pr = ((takenIdxs p u).map (slotStart g.uVec.2 u.path + ·), (List.range (pSize p u)).map (slotStart pv.2 p.path + ·)) := by
  obtain ⟨u, hu, hun⟩ := h.src c hc
  obtain ⟨p, hpm, hpn⟩ := h.tgt c hc
  have hfu : g.unk c.2 = some u := hun ▸ find_unk h hu
  have hfp : g.par c.1 = some p := hpn ▸ find_par h hpm
  unfold vecPair at hp
  rw [hfu, hfp] at hp
  simp only [Option.ite_none_right_eq_some, Bool.and_eq_true, Bool.not_eq_true', Option.some.injEq] at hp
  exact ⟨u, hu, p, hpm, hun, hpn, hp.1.1.1, hp.1.1.2, hp.1.2, hp.2.symm⟩

theorem conns_valid {g : XGroup} (h : XGroupOk g) {pv : Nat × List XSlot} (hpv : g.pVec = .ok pv) (L : List (Str × Str))
    (hL : L.Sublist g.conns) : ConnsOk g.uVec.1 pv.1 (L.filterMap (vecPair g pv.2)) ∧ TargetsDistinct (L.filterMap (vecPair g pv.2)) := by
  have hmem : ∀ c ∈ L, c ∈ g.conns := fun c hc => hL.mem hc
  have hnd : (L.map Prod.fst).Nodup := h.cnames.sublist (hL.map _)
  have hall : ∀ pr ∈ L.filterMap (vecPair g pv.2), pr.1.length = pr.2.length ∧ pr.1 ≠ [] ∧ (∀ k ∈ pr.1, k < g.uVec.1) ∧ ∀ k ∈ pr.2, k < pv.1 := by
    intro pr hpr
    obtain ⟨c, hc, hcp⟩ := List.mem_filterMap.mp hpr
    obtain ⟨u, hu, p, hp, e1, e2, r1, r2, hb, rfl⟩ := vecPair_some h hpv (hmem c hc) hcp
    have hcc : (p.path, u.path) ∈ g.conns := by rw [e1, e2]; exact hmem c hc
    obtain ⟨-, q1, q2, -, -, q3, q4, q5⟩ := connIdxs_ok h hpv .fwd hu hp hcc r1 r2 hb
    refine ⟨by simp [q3], ?_, ?_, ?_⟩
    · intro he
      have := congrArg List.length he
      simp [q3] at this
      omega
    · intro k hk
      simp only [List.mem_map] at hk
      obtain ⟨m, hm, rfl⟩ := hk
      have := q4 m hm
      omega
    · intro k hk
      simp only [List.mem_map, List.mem_range] at hk
      obtain ⟨m, hm, rfl⟩ := hk
      omega
  refine ⟨⟨fun c hc => (hall c hc).1, fun c hc => (hall c hc).2.1, fun c hc => (hall c hc).2.2.1, fun c hc => (hall c hc).2.2.2⟩, ?_⟩
  unfold TargetsDistinct
  clear hall hL
  obtain ⟨pv', e, hlaid, -, -⟩ := pVec_spec h
  rw [hpv] at e; cases e
  induction L with
  | nil => simp
  | cons c L ih =>
    rw [List.map_cons, List.nodup_cons] at hnd
    have ih' := ih (fun d hd => hmem d (List.mem_cons_of_mem _ hd)) hnd.2
    cases hcp : vecPair g pv.2 c with
    | none => rw [List.filterMap_cons, hcp]; exact ih'
    | some pr =>
      rw [List.filterMap_cons, hcp]
      simp only [List.flatMap_cons]
      obtain ⟨u, hu, p, hp, e1, e2, r1, r2, hb, hpr⟩ := vecPair_some h hpv (hmem c (by simp)) hcp
      have hcc : (p.path, u.path) ∈ g.conns := by rw [e1, e2]; exact hmem c (by simp)
      obtain ⟨-, -, -, -, ⟨s, s1, s2, s3, s4⟩, -, -, -⟩ := connIdxs_ok h hpv .fwd hu hp hcc r1 r2 hb
      rw [List.nodup_append]
      refine ⟨?_, ih', ?_⟩
      · rw [hpr]
        exact (List.nodup_range).map (fun a b hab => by simpa using hab)
      · intro t ht t' ht' htt
        subst htt
        obtain ⟨pr', hpr', htp⟩ := List.mem_flatMap.mp ht'
        obtain ⟨c', hc', hcp'⟩ := List.mem_filterMap.mp hpr'
        have hc'm := hmem c' (List.mem_cons_of_mem _ hc')
        obtain ⟨u', hu', p', hp', f1, f2, r1', r2', hb', rfl⟩ := vecPair_some h hpv hc'm hcp'
        have hcc' : (p'.path, u'.path) ∈ g.conns := by rw [f1, f2]; exact hc'm
        obtain ⟨-, -, -, -, ⟨s', s1', s2', s3', s4'⟩, -, -, -⟩ := connIdxs_ok h hpv .fwd hu' hp' hcc' r1' r2' hb'
        rw [hpr] at ht
        simp only [List.mem_map, List.mem_range] at ht htp
        obtain ⟨k, hk, rfl⟩ := ht
        obtain ⟨k', hk', hkk⟩ := htp
        have hne : s ≠ s' := by
          rintro rfl
          apply hnd.1
          rw [← e2, ← s2, s2', f2]
          exact List.mem_map_of_mem hc'
        rw [← s3] at s4 hk
        rw [← s3'] at s4' hk'
        have := hlaid.disjoint s1 s1' hne s4 s4'
        omega

theorem ConnsOk.perm {ns nt : Nat} {a b : Conns} (h : ConnsOk ns nt a) (hp : b.Perm a) : ConnsOk ns nt b :=
  ⟨fun c hc => h.len c (hp.mem_iff.mp hc), fun c hc => h.nonempty c (hp.mem_iff.mp hc), fun c hc => h.src c (hp.mem_iff.mp hc),
    fun c hc => h.tgt c (hp.mem_iff.mp hc)⟩

/-- The connections a transfer to (fwd) or from (rev) `target` is about. -/
def selConns (g : XGroup) (target : Str) (m : Mode) : List (Str × Str) :=
  if target = [] then g.conns else g.conns.filter fun c => keyOf g m c = target

theorem selConns_sublist (g : XGroup) (target : Str) (m : Mode) : (selConns g target m).Sublist g.conns := by
  unfold selConns
  split
  · exact List.Sublist.refl _
  · exact List.filter_sublist

theorem xferLists_spec {g : XGroup} (h : XGroupOk g) {pv : Nat × List XSlot} (hpv : g.pVec = .ok pv) (target : Str) (m : Mode) :
    ∃ o, g.xferLists target m = .ok o ∧
      ((o.map XferLists.vecs).getD []).Perm ((selConns g target m).filterMap (vecPair g pv.2)) ∧
      (m = .fwd → ((o.map XferLists.objs).getD []).Perm ((selConns g target m).filterMap (objPair g))) := by
  obtain ⟨d, h1, h2, h3, h4, h5⟩ := xferDict_spec h hpv
  unfold XGroup.xferLists
  rw [h1]
  simp only [bind, Except.bind, pure, Except.pure]
  unfold selConns
  split <;> rename_i ht
  · exact ⟨_, rfl, by simpa using h2 m, by rintro rfl; simpa using h3⟩
  · have h4' := h4 target m
    have h5' := h5 target
    cases hl : d.lookup (target, m) with
    | none =>
      rw [hl] at h4'
      refine ⟨none, rfl, by rw [← h4']; simp, ?_⟩
      rintro rfl
      rw [hl] at h5'
      rw [← h5']
      simp
    | some x =>
      rw [hl] at h4'
      simp only [Option.getD_some] at h4'
      by_cases he : (x.vecs.isEmpty && x.objs.isEmpty) = true
      · simp only [he, if_true]
        simp only [Bool.and_eq_true, List.isEmpty_iff] at he
        refine ⟨none, rfl, by rw [← h4', he.1]; simp, ?_⟩
        rintro rfl
        rw [hl] at h5'
        rw [← h5']
        simp [he.2]
      · simp only [he]
        refine ⟨some x, rfl, by rw [← h4']; simp, ?_⟩
        rintro rfl
        rw [hl] at h5'
        rw [← h5']
        simp

theorem connected_perm {a b : Conns} (hp : b.Perm a) (s t : Nat) : Connected b s t ↔ Connected a s t := by
  unfold Connected
  constructor <;> rintro ⟨c, hc, r⟩
  · exact ⟨c, hp.mem_iff.mp hc, r⟩
  · exact ⟨c, hp.mem_iff.mpr hc, r⟩

theorem fwd_entries {α : Type} {g : XGroup} (h : XGroupOk g) {pv : Nat × List XSlot} (hpv : g.pVec = .ok pv) (target : Str)
    (u p : List α) (hu : u.length = g.uVec.1) (hp : p.length = pv.1) :
    ∃ out, g.transferFwd target u p = .ok out ∧ out.length = p.length ∧
      (∀ s t, Connected ((selConns g target .fwd).filterMap (vecPair g pv.2)) s t → out[t]? = u[s]?) ∧
      (∀ t, (∀ s, ¬ Connected ((selConns g target .fwd).filterMap (vecPair g pv.2)) s t) → out[t]? = p[t]?) := by
  obtain ⟨o, h1, h2, -⟩ := xferLists_spec h hpv target .fwd
  obtain ⟨c1, c2⟩ := conns_valid h hpv _ (selConns_sublist g target .fwd)
  unfold XGroup.transferFwd
  rw [h1]
  simp only [bind, Except.bind, pure, Except.pure]
  cases o with
  | none =>
    simp only [Option.map_none, Option.getD_none, List.nil_perm] at h2
    refine ⟨p, rfl, rfl, ?_, fun t _ => rfl⟩
    rw [h2]
    rintro s t ⟨c, hc, _⟩
    simp at hc
  | some x =>
    simp only [Option.map_some, Option.getD_some] at h2
    have hok := c1.perm h2
    rw [← hu, ← hp] at hok
    have hd : TargetsDistinct x.vecs := ((h2.flatMap_right _).nodup_iff).mpr c2
    obtain ⟨sc, hsc, -, -⟩ := mkTransfer_ok .fwd x.vecs hok.valid
    obtain ⟨out, o1, o2, o3, o4⟩ := fwdVec_spec .fwd x.vecs u p hok hd sc hsc
    refine ⟨out, by simp only [hsc]; exact o1, o2, ?_, ?_⟩
    · intro s t hc
      exact o3 s t ((connected_perm h2 s t).mpr hc)
    · intro t ht
      exact o4 t (fun s hs => ht s ((connected_perm h2 s t).mp hs))

theorem slotVals_slice {α : Type} {slots : List XSlot} (hnd : (slots.map XSlot.path).Nodup) {s : XSlot} (hs : s ∈ slots) {a b : Nat}
    (ha : s.slice = some (a, b)) (v : List α) : slotVals slots s.path v = some ((v.drop a).take (b - a)) := by
  unfold slotVals
  rw [find_slot hnd hs]
  simp [ha]

theorem pVec_nodup {g : XGroup} (h : XGroupOk g) {pv : Nat × List XSlot} (hpv : g.pVec = .ok pv) : (pv.2.map XSlot.path).Nodup := by
  obtain ⟨pv', e, -, hn, -⟩ := pVec_spec h
  rw [hpv] at e; cases e
  rw [hn]; exact h.pnames.sublist (List.filter_sublist.map _)

/-- C68 (well-formed groups). After a forward transfer to `target` (`''`: to all subsystems), every relevant vector parameter in the target subsystem holds the entries of its source selConns by
`src_indices` in that order (all entries without `src_indices`); every vector parameter of another subsystem, or with an irrelevant source, keeps its value. -/
theorem C68_forward_partial {α : Type} (g : XGroup) (h : XGroupOk g) (target : Str) :
    ∃ pv, g.pVec = .ok pv ∧ ∀ uv pvals : List α, uv.length = g.uVec.1 → pvals.length = pv.1 →
    ∃ out, g.transferFwd target uv pvals = .ok out ∧ out.length = pvals.length ∧
      (∀ p ∈ g.ps, ∀ u ∈ g.us, (p.path, u.path) ∈ g.conns → p.rel = true → u.rel = true → u.pbo = false →
        (target = [] ∨ nearestChild g.path p.path = target) →
        ∃ sv tv, slotVals g.uVec.2 u.path uv = some sv ∧ sv.length = u.size ∧ slotVals pv.2 p.path out = some tv ∧ tv.map some = picked p.srcIdx sv) ∧
      (∀ p ∈ g.ps, ∀ u ∈ g.us, (p.path, u.path) ∈ g.conns → p.rel = true → u.pbo = false →
        (u.rel = false ∨ (target ≠ [] ∧ nearestChild g.path p.path ≠ target)) →
        slotVals pv.2 p.path out = slotVals pv.2 p.path pvals ∧ (slotVals pv.2 p.path out).isSome = true) := by
  obtain ⟨pv, hpv, hlaid, hn, hmm⟩ := pVec_spec h
  refine ⟨pv, hpv, ?_⟩
  intro uv pvals huv hpl
  obtain ⟨out, o1, o2, o3, o4⟩ := fwd_entries h hpv target uv pvals huv hpl
  refine ⟨out, o1, o2, ?_, ?_⟩
  · intro p hp u hu hc hpr hur hb htg
    obtain ⟨-, q1, q2, ⟨su, su1, su2, su3, su4⟩, ⟨sp, sp1, sp2, sp3, sp4⟩, q3, q4, q5⟩ := connIdxs_ok h hpv .fwd hu hp hc hur hpr hb
    generalize hA : slotStart g.uVec.2 u.path = A at *
    generalize hB : slotStart pv.2 p.path = B at *
    have hsv := slotVals_slice (uVec_nodup h) su1 su4 uv
    have htv := slotVals_slice (pVec_nodup h hpv) sp1 sp4 out
    rw [su2] at hsv
    rw [sp2] at htv
    have hsvl : ((uv.drop A).take (A + u.size - A)).length = u.size := by
      rw [List.length_take, List.length_drop, huv]; omega
    refine ⟨_, _, hsv, hsvl, htv, ?_⟩
    have hpair : vecPair g pv.2 (p.path, u.path) = some ((takenIdxs p u).map (A + ·), (List.range (pSize p u)).map (B + ·)) := by
      simp [vecPair, find_unk h hu, find_par h hp, hur, hpr, hb, hA, hB]
    have hsel : (p.path, u.path) ∈ selConns g target .fwd := by
      unfold selConns
      split <;> rename_i ht
      · exact hc
      · rcases htg with ht' | ht'
        · exact absurd ht' ht
        · exact List.mem_filter.mpr ⟨hc, decide_eq_true ht'⟩
    have hent : ∀ k x, (takenIdxs p u)[k]? = some x → out[B + k]? = uv[A + x]? := by
      intro k x hk
      have hk' : k < pSize p u := by rw [← q3]; exact (List.getElem?_eq_some_iff.mp hk).1
      apply o3
      exact ⟨_, List.mem_filterMap.mpr ⟨_, hsel, hpair⟩, k, by simp [hk], by simp [hk']⟩
    have hpk : picked p.srcIdx ((uv.drop A).take (A + u.size - A)) = (takenIdxs p u).map (fun x => uv[A + x]?) := by
      have hget : ∀ x, x < u.size → ((uv.drop A).take (A + u.size - A))[x]? = uv[A + x]? := by
        intro x hx
        rw [List.getElem?_take_of_lt (by omega), List.getElem?_drop]
      cases hs : p.srcIdx with
      | none =>
        simp only [picked, takenIdxs, hs]
        apply List.ext_getElem?
        intro k
        rw [List.getElem?_map, List.getElem?_map]
        by_cases hk : k < u.size
        · rw [List.getElem?_range hk, hget k hk, Option.map_some]
          have : A + k < uv.length := by omega
          rw [List.getElem?_eq_getElem this]
          rfl
        · rw [List.getElem?_eq_none (by rw [hsvl]; omega), List.getElem?_eq_none (by simp; omega)]
          rfl
      | some l =>
        simp only [picked, takenIdxs, hs, List.map_map]
        apply List.map_congr_left
        intro x hx
        have := q4 x.toNat (by simp only [takenIdxs, hs]; exact List.mem_map_of_mem hx)
        simp only [Function.comp]
        exact hget _ this
    rw [hpk]
    apply List.ext_getElem?
    intro k
    rw [List.getElem?_map, List.getElem?_map]
    by_cases hk : k < pSize p u
    · obtain ⟨x, hx⟩ : ∃ x, (takenIdxs p u)[k]? = some x := ⟨_, List.getElem?_eq_getElem (by rw [q3]; exact hk)⟩
      rw [hx, List.getElem?_take_of_lt (by omega), List.getElem?_drop, hent k x hx]
      have : A + x < uv.length := by
        have := q4 x (List.mem_of_getElem? hx)
        omega
      rw [Option.map_some, List.getElem?_eq_getElem this]
      rfl
    · rw [List.getElem?_eq_none (l := takenIdxs p u) (by rw [q3]; omega)]
      rw [List.getElem?_eq_none (by rw [List.length_take]; omega)]
      rfl
  · intro p hp u hu hc hpr hb hout
    obtain ⟨sp, sp1, sp2, sp3, sp4⟩ := hmm p hp hpr u hu hc
    rw [hb] at sp4
    obtain ⟨B, -, b1, -⟩ := hlaid.entry (pVec_nodup h hpv) sp1 (by simpa using sp4)
    have htv := fun v : List α => slotVals_slice (pVec_nodup h hpv) sp1 b1 v
    rw [sp2] at htv
    rw [htv, htv]
    refine ⟨?_, rfl⟩
    congr 1
    apply List.ext_getElem?
    intro k
    by_cases hk : k < sp.size
    · rw [List.getElem?_take_of_lt (by omega), List.getElem?_take_of_lt (by omega), List.getElem?_drop, List.getElem?_drop]
      apply o4
      rintro s ⟨pr, hprm, k', -, hk'⟩
      obtain ⟨c', hc', hcp'⟩ := List.mem_filterMap.mp hprm
      have hc'm := (selConns_sublist g target .fwd).mem hc'
      obtain ⟨u', hu', p', hp', f1, f2, r1', r2', hb', rfl⟩ := vecPair_some h hpv hc'm hcp'
      have hcc' : (p'.path, u'.path) ∈ g.conns := by rw [f1, f2]; exact hc'm
      obtain ⟨-, -, -, -, ⟨s', s1', s2', s3', s4'⟩, -, -, -⟩ := connIdxs_ok h hpv .fwd hu' hp' hcc' r1' r2' hb'
      have hkb : k' < pSize p' u' ∧ slotStart pv.2 p'.path + k' = B + k := by
        rw [List.getElem?_map] at hk'
        obtain ⟨w, hw, hw2⟩ := Option.map_eq_some_iff.mp hk'
        have hlt : k' < pSize p' u' := by simpa using (List.getElem?_eq_some_iff.mp hw).1
        rw [List.getElem?_range hlt] at hw
        simp only [Option.some.injEq] at hw
        subst hw
        exact ⟨hlt, hw2⟩
      by_cases hne : sp = s'
      · subst hne
        have hpp : p'.path = p.path := by rw [← s2', sp2]
        have hpe : p' = p := by
          have e1 := find_par h hp'
          rw [hpp, find_par h hp] at e1
          simpa using e1.symm
        subst hpe
        have hue : u' = u := by
          have e1 := lookup_of_nodup h.cnames hcc'
          rw [lookup_of_nodup h.cnames hc] at e1
          have e2 : u.path = u'.path := by simpa using e1
          have e3 := find_unk h hu'
          rw [← e2, find_unk h hu] at e3
          simpa using e3.symm
        subst hue
        rcases hout with hout | ⟨ho1, ho2⟩
        · rw [hout] at r1'; cases r1'
        · unfold selConns at hc'
          rw [if_neg ho1] at hc'
          have := of_decide_eq_true (List.mem_filter.mp hc').2
          rw [keyOf, ← f2] at this
          exact ho2 this
      · rw [← s3'] at s4' hkb
        have := hlaid.disjoint sp1 s1' hne b1 s4'
        omega
    · rw [List.getElem?_eq_none (by rw [List.length_take]; omega), List.getElem?_eq_none (by rw [List.length_take]; omega)]

theorem rev_entries {α : Type} [AddCommMonoid α] {g : XGroup} (h : XGroupOk g) {pv : Nat × List XSlot} (hpv : g.pVec = .ok pv) (target : Str)
    (u p : List α) (hu : u.length = g.uVec.1) (hp : p.length = pv.1) :
    ∃ out, g.transferRev target u p = .ok out ∧ out.length = u.length ∧
      ∀ i, out[i]? = u[i]?.map (· + (((((selConns g target .rev).filterMap (vecPair g pv.2)).flatMap (fun c => c.1.zip c.2)).filter
        (fun q => q.1 = i)).map (fun q => p.getD q.2 0)).sum) := by
  obtain ⟨o, h1, h2, -⟩ := xferLists_spec h hpv target .rev
  obtain ⟨c1, -⟩ := conns_valid h hpv _ (selConns_sublist g target .rev)
  unfold XGroup.transferRev
  rw [h1]
  simp only [bind, Except.bind, pure, Except.pure]
  cases o with
  | none =>
    simp only [Option.map_none, Option.getD_none, List.nil_perm] at h2
    refine ⟨u, rfl, rfl, ?_⟩
    rw [h2]
    intro i
    simp
  | some x =>
    simp only [Option.map_some, Option.getD_some] at h2
    have hok := c1.perm h2
    rw [← hu, ← hp] at hok
    obtain ⟨sc, out, o1, o2, o3, o4, -⟩ := C04_reverse_transfer_accumulates x.vecs u p hok
    refine ⟨out, by simp only [o1]; exact o2, o3, ?_⟩
    intro i
    rw [o4 i, ((((h2.flatMap_right _).filter _).map _).sum_eq)]

theorem sum_flat {α : Type} [AddCommMonoid α] (L : List (Str × Str)) (f : Str × Str → Option (List Nat × List Nat)) (i : Nat) (w : Nat → α) :
    ((((L.filterMap f).flatMap (fun c => c.1.zip c.2)).filter (fun q => decide (q.1 = i))).map (fun q => w q.2)).sum =
    (L.map fun c => match f c with
      | some pr => (((pr.1.zip pr.2).filter (fun q => decide (q.1 = i))).map (fun q => w q.2)).sum
      | none => 0).sum := by
  induction L with
  | nil => simp
  | cons c L ih =>
    cases hc : f c with
    | none => rw [List.filterMap_cons, hc, List.map_cons, List.sum_cons, hc]; simpa using ih
    | some pr =>
      rw [List.filterMap_cons, hc, List.map_cons, List.sum_cons, hc]
      simp only [List.flatMap_cons, List.filter_append, List.map_append, List.sum_append]
      rw [ih]

theorem zip_contrib {α : Type} [AddCommMonoid α] (taken : List Nat) (A B n m : Nat) (v : List α) (hl : taken.length = m) (hm : B + m ≤ v.length) :
    ((((taken.map (A + ·)).zip ((List.range m).map (B + ·))).filter (fun q => decide (q.1 = A + n))).map (fun q => v.getD q.2 0)).sum =
    (((taken.zip ((v.drop B).take m)).filter (fun e => decide (e.1 = n))).map Prod.snd).sum := by
  have : ((taken.map (A + ·)).zip ((List.range m).map (B + ·))).map (fun q => (q.1, v.getD q.2 0)) =
      (taken.zip ((v.drop B).take m)).map (fun q => (A + q.1, q.2)) := by
    apply List.ext_getElem
    · simp [hl]; omega
    · intro k h1 h2
      simp only [List.length_map, List.length_zip, List.length_range] at h1
      have hb : B + k < v.length := by omega
      simp [List.getD_eq_getElem?_getD, List.getElem?_eq_getElem hb]
  have e1 : ((((taken.map (A + ·)).zip ((List.range m).map (B + ·))).filter (fun q => decide (q.1 = A + n))).map (fun q => v.getD q.2 0)) =
      ((((taken.map (A + ·)).zip ((List.range m).map (B + ·))).map (fun q => (q.1, v.getD q.2 0))).filter (fun q => decide (q.1 = A + n))).map Prod.snd := by
    rw [List.filter_map, List.map_map]
    rfl
  rw [e1, this, List.filter_map, List.map_map]
  have : ((fun q : Nat × α => decide (q.1 = A + n)) ∘ fun q : Nat × α => (A + q.1, q.2)) = fun e => decide (e.1 = n) := by
    funext e
    simp
  rw [this]
  rfl

theorem taken_contrib {α : Type} [AddCommMonoid α] (p : GPar) (u : GUnk) (n : Nat) (vals : List α) (hn : n < u.size) (hv : vals.length = pSize p u)
    (hs : ∀ l, p.srcIdx = some l → ∀ a ∈ l, 0 ≤ a) :
    (((((takenIdxs p u).zip vals).filter (fun e => decide (e.1 = n))).map Prod.snd).sum) = contrib p.srcIdx n vals := by
  cases hp : p.srcIdx with
  | some l =>
    simp only [takenIdxs, contrib, hp]
    rw [List.zip_map_left, List.filter_map, List.map_map]
    congr 1
    have : ((l.zip vals).filter ((fun e : Nat × α => decide (e.1 = n)) ∘ Prod.map Int.toNat id)) = (l.zip vals).filter fun e => decide (e.1 = (n : Int)) := by
      apply List.filter_congr
      intro e he
      have h0 := hs l hp e.1 (List.of_mem_zip (a := e.1) (b := e.2) he).1
      simp only [Function.comp, Prod.map]
      congr 1
      apply propext
      constructor <;> intro h <;> omega
    rw [this]
    rfl
  | none =>
    simp only [takenIdxs, contrib, hp]
    have hv' : vals.length = u.size := by simpa [pSize, hp] using hv
    rw [← hv'] at hn ⊢
    have key : ∀ (w : List α) (s n : Nat), s ≤ n → n < s + w.length →
        ((((List.range' s w.length).zip w).filter (fun e => decide (e.1 = n))).map Prod.snd).sum = w.getD (n - s) 0 := by
      intro w
      induction w with
      | nil => intro s n h1 h2; simp at h2; omega
      | cons x w ih =>
        intro s n h1 h2
        rw [List.length_cons, List.range'_succ, List.zip_cons_cons, List.filter_cons]
        by_cases hsn : s = n
        · subst hsn
          simp only [decide_true, if_true, List.map_cons, List.sum_cons, Nat.sub_self, List.getD_cons_zero]
          have : ((List.range' (s + 1) w.length).zip w).filter (fun e => decide (e.1 = s)) = [] := by
            rw [List.filter_eq_nil_iff]
            intro e he hes
            have := (List.of_mem_zip (a := e.1) (b := e.2) he).1
            simp only [decide_eq_true_eq] at hes
            rw [List.mem_range'_1] at this
            omega
          simp [this]
        · simp only [decide_eq_true_eq, hsn, if_false]
          rw [ih (s + 1) n (by omega) (by simp at h2; omega), show n - s = n - (s + 1) + 1 by omega, List.getD_cons_succ]
    have := key vals 0 n (Nat.zero_le _) (by omega)
    rw [Nat.sub_zero] at this
    rw [← this, List.range_eq_range']

/-- C68 (well-formed groups), reverse direction: entry `n` of every relevant vector source of the target subsystem (`''`: of all) is increased by the sum, over all connections from that source, of
the entries of the connected parameter that are taken from entry `n`; sources in other subsystems keep their value. -/
theorem C68_reverse_partial {α : Type} [AddCommMonoid α] (g : XGroup) (h : XGroupOk g) (target : Str) :
    ∃ pv, g.pVec = .ok pv ∧ ∀ uv pvals : List α, uv.length = g.uVec.1 → pvals.length = pv.1 →
    ∃ out, g.transferRev target uv pvals = .ok out ∧ out.length = uv.length ∧
      ∀ u ∈ g.us, u.rel = true → u.pbo = false →
        ∃ old new, slotVals g.uVec.2 u.path uv = some old ∧ slotVals g.uVec.2 u.path out = some new ∧ old.length = u.size ∧ new.length = u.size ∧
          ((target = [] ∨ nearestChild g.path u.path = target) → ∀ n, n < u.size →
            new[n]? = old[n]?.map (· + ((g.conns.filter fun c => decide (c.2 = u.path)).map (connContrib g pv.2 pvals n)).sum)) ∧
          (target ≠ [] → nearestChild g.path u.path ≠ target → new = old) := by
  obtain ⟨pv, hpv, -⟩ := pVec_spec h
  refine ⟨pv, hpv, ?_⟩
  intro uv pvals huv hpl
  obtain ⟨out, o1, o2, o3⟩ := rev_entries h hpv target uv pvals huv hpl
  refine ⟨out, o1, o2, ?_⟩
  intro u hu hur hub
  obtain ⟨su, su1, su2, su3, su4⟩ := mem_uVec hu hur
  rw [hub] at su4
  obtain ⟨A, -, a1, a2, -⟩ := (uVec_spec g.us).1.entry (uVec_nodup h) su1 (by simpa using su4)
  have a2' : A + su.size ≤ g.uVec.1 := a2
  have hsv := fun v : List α => slotVals_slice (uVec_nodup h) su1 a1 v
  rw [su2] at hsv
  rw [su3] at hsv a2'
  have hsA : slotStart g.uVec.2 u.path = A := by
    have := find_slot (uVec_nodup h) su1
    rw [su2] at this
    simp [slotStart, this, a1]
  have hlen : ∀ v : List α, v.length = uv.length → ((v.drop A).take (A + u.size - A)).length = u.size := by
    intro v hv
    rw [List.length_take, List.length_drop, hv, huv]; omega
  have hget : ∀ (v : List α) x, x < u.size → ((v.drop A).take (A + u.size - A))[x]? = v[A + x]? := by
    intro v x hx
    rw [List.getElem?_take_of_lt (by omega), List.getElem?_drop]
  -- the contribution of one selected connection to entry `n`
  have hterm : ∀ c ∈ g.conns, ∀ n, n < u.size →
      (match vecPair g pv.2 c with
        | some pr => (((pr.1.zip pr.2).filter (fun q => decide (q.1 = A + n))).map (fun q => pvals.getD q.2 0)).sum
        | none => 0) = if c.2 = u.path then connContrib g pv.2 pvals n c else 0 := by
    intro c hc n hn
    obtain ⟨p, hp, hpn⟩ := h.tgt c hc
    have hfp : g.par c.1 = some p := hpn ▸ find_par h hp
    have hfp' : g.ps.find? (fun p => p.path == c.1) = some p := hfp
    cases hcp : vecPair g pv.2 c with
    | none =>
      simp only
      split <;> rename_i hcu
      · have hfu : g.unk c.2 = some u := by rw [hcu]; exact find_unk h hu
        have hpr : p.rel = false := by
          simp only [vecPair, hfu, hfp, hur, hub] at hcp
          cases hr : p.rel with
          | false => rfl
          | true => rw [hr] at hcp; simp at hcp
        simp [connContrib, hfp', hpr]
      · rfl
    | some pr =>
      obtain ⟨u', hu', p', hp', e1, e2, r1, r2, hb, hpr⟩ := vecPair_some h hpv hc hcp
      have hpe : p' = p := by
        have := find_par h hp'
        rw [e2, hfp] at this
        simpa using this.symm
      subst hpe
      have hcc : (p'.path, u'.path) ∈ g.conns := by rw [e1, e2]; exact hc
      obtain ⟨-, q1, q2, ⟨t, t1, t2, t3, t4⟩, ⟨sp, sp1, sp2, sp3, sp4⟩, q3, q4, q5⟩ := connIdxs_ok h hpv .rev hu' hp' hcc r1 r2 hb
      simp only
      split <;> rename_i hcu
      · have hue : u' = u := by
          have e3 := find_unk h hu'
          rw [e1, hcu, find_unk h hu] at e3
          simpa using e3.symm
        subst hue
        rw [hpr, hsA]
        simp only
        rw [zip_contrib (takenIdxs p' u') A (slotStart pv.2 p'.path) n (pSize p' u') pvals q3 (by omega)]
        have hvl : ((pvals.drop (slotStart pv.2 p'.path)).take (pSize p' u')).length = pSize p' u' := by
          rw [List.length_take, List.length_drop, hpl]; omega
        rw [taken_contrib p' u' n _ hn hvl (fun l hl a ha => (((h.vec p' hp' u' hu' hcc hb).2.2 l hl).2.2 a ha).1)]
        have hval := slotVals_slice (pVec_nodup h hpv) sp1 sp4 pvals
        rw [sp2, e2, Nat.add_sub_cancel_left] at hval
        simp [connContrib, hfp', r2, hval, e2]
      · have : (pr.1.zip pr.2).filter (fun q => decide (q.1 = A + n)) = [] := by
          rw [List.filter_eq_nil_iff]
          intro q hq hqn
          simp only [decide_eq_true_eq] at hqn
          have hq1 := (List.of_mem_zip (a := q.1) (b := q.2) hq).1
          rw [hpr] at hq1
          simp only [List.mem_map] at hq1
          obtain ⟨x, hx, hxq⟩ := hq1
          have hxl := q4 x hx
          have hne : su ≠ t := by
            rintro rfl
            apply hcu
            rw [← e1, ← t2, su2]
          rw [← t3] at t4 hxl
          have := (uVec_spec g.us).1.disjoint su1 t1 hne a1 t4
          omega
        simp [this]
  refine ⟨_, _, hsv uv, hsv out, hlen uv rfl, hlen out o2, ?_, ?_⟩
  · intro htg n hn
    rw [hget out n hn, hget uv n hn, o3 (A + n)]
    congr 2
    funext z
    congr 1
    refine (sum_flat _ _ _ (fun k => pvals.getD k 0)).trans ?_
    have hsel : ((selConns g target .rev).map fun c => match vecPair g pv.2 c with
        | some pr => (((pr.1.zip pr.2).filter (fun q => decide (q.1 = A + n))).map (fun q => pvals.getD q.2 0)).sum
        | none => 0).sum = ((selConns g target .rev).map fun c => if c.2 = u.path then connContrib g pv.2 pvals n c else 0).sum := by
      congr 1
      apply List.map_congr_left
      intro c hc
      exact hterm c ((selConns_sublist g target .rev).mem hc) n hn
    rw [hsel]
    have hsum : ∀ L : List (Str × Str), (L.map fun c => if c.2 = u.path then connContrib g pv.2 pvals n c else 0).sum =
        ((L.filter fun c => decide (c.2 = u.path)).map (connContrib g pv.2 pvals n)).sum := by
      intro L
      induction L with
      | nil => rfl
      | cons c L ih =>
        by_cases hcu : c.2 = u.path <;> simp [hcu, ih]
    rw [hsum]
    congr 2
    unfold selConns
    split <;> rename_i ht
    · rfl
    · rw [List.filter_filter]
      apply List.filter_congr
      intro c hc
      rcases htg with htg | htg
      · exact absurd htg ht
      · by_cases hcu : c.2 = u.path
        · simp [hcu, keyOf, htg]
        · simp [hcu]
  · intro ht1 ht2
    apply List.ext_getElem?
    intro n
    by_cases hn : n < u.size
    · rw [hget out n hn, hget uv n hn, o3 (A + n)]
      have : ((((selConns g target .rev).filterMap (vecPair g pv.2)).flatMap (fun c => c.1.zip c.2)).filter (fun q => decide (q.1 = A + n))) = [] := by
        rw [List.filter_eq_nil_iff]
        intro q hq hqn
        simp only [decide_eq_true_eq] at hqn
        obtain ⟨pr, hprm, hqz⟩ := List.mem_flatMap.mp hq
        obtain ⟨c, hc, hcp⟩ := List.mem_filterMap.mp hprm
        have hcm := (selConns_sublist g target .rev).mem hc
        obtain ⟨u', hu', p', hp', e1, e2, r1, r2, hb, hpr⟩ := vecPair_some h hpv hcm hcp
        have hcc : (p'.path, u'.path) ∈ g.conns := by rw [e1, e2]; exact hcm
        obtain ⟨-, q1, q2, ⟨t, t1, t2, t3, t4⟩, -, q3, q4, q5⟩ := connIdxs_ok h hpv .rev hu' hp' hcc r1 r2 hb
        have hq1 := (List.of_mem_zip (a := q.1) (b := q.2) hqz).1
        rw [hpr] at hq1
        simp only [List.mem_map] at hq1
        obtain ⟨x, hx, hxq⟩ := hq1
        have hxl := q4 x hx
        have hne : su ≠ t := by
          rintro rfl
          unfold selConns at hc
          rw [if_neg ht1] at hc
          have := of_decide_eq_true (List.mem_filter.mp hc).2
          rw [keyOf, ← e1, ← t2, su2] at this
          exact ht2 this
        rw [← t3] at t4 hxl
        have := (uVec_spec g.us).1.disjoint su1 t1 hne a1 t4
        omega
      rw [this]
      simp
    · rw [List.getElem?_eq_none (by rw [hlen out o2]; omega), List.getElem?_eq_none (by rw [hlen uv rfl]; omega)]

/-- C68, objects: the pass-by-object pairs of a forward transfer are exactly the relevant connections with a pass-by-object source into the target subsystem, each once. -/
theorem C68_objects_partial (g : XGroup) (h : XGroupOk g) (target : Str) : ∃ o, g.xferLists target .fwd = .ok o ∧
    ((o.map XferLists.objs).getD []).Nodup ∧
    ∀ p ∈ g.ps, ∀ u ∈ g.us, ((p.path, u.path) ∈ (o.map XferLists.objs).getD [] ↔
      (p.path, u.path) ∈ g.conns ∧ u.pbo = true ∧ u.rel = true ∧ p.rel = true ∧ (target = [] ∨ nearestChild g.path p.path = target)) := by
  obtain ⟨pv, hpv, -⟩ := pVec_spec h
  obtain ⟨o, h1, -, h2⟩ := xferLists_spec h hpv target .fwd
  have h2 := h2 rfl
  have hobj : ∀ c d, objPair g c = some d → d = c := by
    intro c d hc
    unfold objPair at hc
    split at hc
    · simp only [Option.ite_none_right_eq_some, Option.some.injEq] at hc
      exact hc.2.symm
    · cases hc
  refine ⟨o, h1, ?_, ?_⟩
  · rw [h2.nodup_iff]
    refine List.Nodup.filterMap ?_ (((List.Nodup.of_map _ h.cnames).sublist (selConns_sublist g target .fwd)))
    intro a a' b hb hb'
    rw [Option.mem_def] at hb hb'
    rw [← hobj a b hb, ← hobj a' b hb']
  · intro p hp u hu
    rw [h2.mem_iff, List.mem_filterMap]
    have hval : objPair g (p.path, u.path) = if u.rel && p.rel && u.pbo then some (p.path, u.path) else none := by
      simp only [objPair, find_unk h hu, find_par h hp]
    have hsel : (p.path, u.path) ∈ selConns g target .fwd ↔ (p.path, u.path) ∈ g.conns ∧ (target = [] ∨ nearestChild g.path p.path = target) := by
      unfold selConns
      split <;> rename_i ht
      · simp [ht]
      · rw [List.mem_filter]
        constructor
        · rintro ⟨q1, q2⟩; exact ⟨q1, .inr (of_decide_eq_true q2)⟩
        · rintro ⟨q1, q2⟩; exact ⟨q1, decide_eq_true (q2.resolve_left ht)⟩
    constructor
    · rintro ⟨c, hc, hcp⟩
      have := hobj c _ hcp
      subst this
      rw [hval] at hcp
      simp only [Option.ite_none_right_eq_some, Bool.and_eq_true, and_true] at hcp
      obtain ⟨q1, q2⟩ := hsel.mp hc
      exact ⟨q1, hcp.2, hcp.1.1, hcp.1.2, q2⟩
    · rintro ⟨q1, q2, q3, q4, q5⟩
      refine ⟨_, hsel.mpr ⟨q1, q5⟩, ?_⟩
      rw [hval]
      simp [q2, q3, q4]

/-- C68, full transfers: the reverse transfer is the transpose of the forward transfer, whatever the order in which the two directions visit the connections. -/
theorem C68_adjoint_partial {α : Type} [CommSemiring α] (g : XGroup) (h : XGroupOk g) :
    ∃ pv, g.pVec = .ok pv ∧ ∀ s t : List α, s.length = g.uVec.1 → t.length = pv.1 →
    ∃ fs rt, g.transferFwd [] s (List.replicate pv.1 0) = .ok fs ∧ g.transferRev [] (List.replicate g.uVec.1 0) t = .ok rt ∧
      dot fs t = dot s rt := by
  obtain ⟨pv, hpv, -⟩ := pVec_spec h
  refine ⟨pv, hpv, ?_⟩
  intro s t hs ht
  set V := g.conns.filterMap (vecPair g pv.2)
  have hsel : ∀ m, (selConns g [] m).filterMap (vecPair g pv.2) = V := fun m => by simp [selConns, V]
  obtain ⟨c1, c2⟩ := conns_valid h hpv g.conns (List.Sublist.refl _)
  rw [← hs, ← ht] at c1
  obtain ⟨scf, scr, fs, rt, f1, r1, f2, r2, hdot⟩ := C04_reverse_is_adjoint V s t c1 c2
  obtain ⟨fs', g1, g2, g3, g4⟩ := fwd_entries h hpv [] s (List.replicate pv.1 0) hs (by simp)
  obtain ⟨rt', k1, k2, k3⟩ := rev_entries h hpv [] (List.replicate g.uVec.1 0) t (by simp) ht
  rw [hsel] at g3 g4 k3
  obtain ⟨out, q1, q2, q3, q4⟩ := fwdVec_spec .fwd V s (List.replicate t.length 0) (by simpa using c1) c2 scf f1
  rw [f2, Except.ok.injEq] at q1
  subst q1
  obtain ⟨scr', out', w1, w2, w3, w4, -⟩ := C04_reverse_transfer_accumulates V (List.replicate s.length 0) t (by simpa using c1)
  rw [r1, Except.ok.injEq] at w1
  subst w1
  rw [r2, Except.ok.injEq] at w2
  subst w2
  have e1 : fs' = fs := by
    apply List.ext_getElem?
    intro i
    by_cases hc : ∃ a, Connected V a i
    · obtain ⟨a, ha⟩ := hc
      rw [g3 a i ha, q3 a i ha]
    · have hc' : ∀ a, ¬ Connected V a i := fun a ha => hc ⟨a, ha⟩
      rw [g4 i hc', q4 i hc', ht]
  have e2 : rt' = rt := by
    apply List.ext_getElem?
    intro i
    rw [k3 i, w4 i, hs]
  exact ⟨fs, rt, e1 ▸ g1, e2 ▸ k1, hdot⟩

section witnesses

/-- A group with a vector source used twice (once through `src_indices`), a pass-by-object connection and a second component. -/
def xferEx : XGroup where
  path := []
  us := [⟨"a.x".toList, 3, false, true⟩, ⟨"b.o".toList, 0, true, true⟩, ⟨"b.y".toList, 2, false, true⟩]
  ps := [⟨"c.p".toList, 2, false, true, some [2, 2]⟩, ⟨"c.q".toList, 0, true, true, none⟩, ⟨"d.r".toList, 2, false, true, none⟩,
    ⟨"d.s".toList, 3, false, true, none⟩]
  conns := [("c.p".toList, "a.x".toList), ("c.q".toList, "b.o".toList), ("d.r".toList, "b.y".toList), ("d.s".toList, "a.x".toList)]

theorem xferEx_ok : XGroupOk xferEx where
  unames := by decide +kernel
  pnames := by decide +kernel
  cnames := by decide +kernel
  src := by decide +kernel
  tgt := by decide +kernel
  all := by
    have : ∀ p ∈ xferEx.ps, ∃ c ∈ xferEx.conns, c.1 = p.path := by decide +kernel
    intro p hp
    obtain ⟨c, hc, hcp⟩ := this p hp
    exact ⟨c.2, by rw [← hcp]; exact hc⟩
  vec := by
    have : ∀ p ∈ xferEx.ps, ∀ u ∈ xferEx.us, (p.path, u.path) ∈ xferEx.conns → u.pbo = false → p.pbo = false ∧ 0 < u.size ∧
        ∀ l ∈ p.srcIdx, l ≠ [] ∧ p.size = l.length ∧ ∀ a ∈ l, 0 ≤ a ∧ a < u.size := by decide +kernel
    exact this
  obj := by decide +kernel

/-- Meets the hypotheses of the four theorems; the transfers move what the theorems say. -/
example : xferEx.transferFwd [] [1, 2, 3, 4, 5] [0, 0, 0, 0, 0, 0, (0 : Int)] = .ok [3, 3, 4, 5, 1, 2, 3] ∧
    xferEx.transferFwd "d".toList [1, 2, 3, 4, 5] [0, 0, 0, 0, 0, 0, (0 : Int)] = .ok [0, 0, 4, 5, 1, 2, 3] ∧
    xferEx.transferRev [] [0, 0, 0, 0, 0] [1, 2, 3, 4, 5, 6, (7 : Int)] = .ok [5, 6, 10, 3, 4] ∧
    xferEx.transferRev "b".toList [0, 0, 0, 0, 0] [1, 2, 3, 4, 5, 6, (7 : Int)] = .ok [0, 0, 0, 3, 4] := by
  decide +kernel

/-- A pass-by-object source `b.o` of size 0 feeding a parameter that was declared as a vector of size 2 with `src_indices`. Connection checks do not compare them (`_checks.py:35`). -/
def xferPbo : XGroup where
  path := []
  us := [⟨"b.o".toList, 0, true, true⟩, ⟨"a.x".toList, 2, false, true⟩]
  ps := [⟨"c.p".toList, 2, false, true, some [0, 1]⟩, ⟨"c.q".toList, 2, false, true, none⟩]
  conns := [("c.p".toList, "b.o".toList), ("c.q".toList, "a.x".toList)]

/-- C68 is false without the condition on pass-by-object sources: the parameter vector counts the `src_indices` of such a parameter (`vec_wrapper.py:1104-1106`), the index arrays do not
(`vec_wrapper.py:1273-1290`), so a plain connection of another parameter delivers to the wrong place and the parameter keeps its old value. -/
theorem C68_object_source_refuted : ∃ (g : XGroup) (pv : Nat × List XSlot) (uv pvals out : List Int), g.pVec = .ok pv ∧ uv.length = g.uVec.1 ∧ pvals.length = pv.1 ∧
    (∀ p ∈ g.ps, ∀ u ∈ g.us, (p.path, u.path) ∈ g.conns → u.pbo = false → p.pbo = false ∧ p.srcIdx = none ∧ p.size = u.size ∧ 0 < u.size) ∧
    g.transferFwd [] uv pvals = .ok out ∧
    ∃ p ∈ g.ps, ∃ u ∈ g.us, (p.path, u.path) ∈ g.conns ∧ u.pbo = false ∧ p.rel = true ∧ u.rel = true ∧
      slotVals pv.2 p.path out = slotVals pv.2 p.path pvals ∧ slotVals pv.2 p.path out ≠ slotVals g.uVec.2 u.path uv := by
  refine ⟨xferPbo, (4, [⟨"c.p".toList, none, 2⟩, ⟨"c.q".toList, some (2, 4), 2⟩]), [7, 8], [0, 0, 0, 0], [7, 8, 0, 0],
    by decide +kernel, by decide +kernel, by decide +kernel, by decide +kernel, by decide +kernel, ?_⟩
  exact ⟨⟨"c.q".toList, 2, false, true, none⟩, by decide +kernel, ⟨"a.x".toList, 2, false, true⟩, by decide +kernel, by decide +kernel, rfl, rfl, rfl,
    by decide +kernel, by decide +kernel⟩

/-- Source and parameter of the same shape, but three `src_indices` for a parameter of size 2. -/
def xferLong : XGroup where
  path := []
  us := [⟨"a.y".toList, 1, false, true⟩, ⟨"a.x".toList, 2, false, true⟩]
  ps := [⟨"c.p".toList, 2, false, true, some [0, 1, 0]⟩, ⟨"c.q".toList, 1, false, true, none⟩]
  conns := [("c.p".toList, "a.x".toList), ("c.q".toList, "a.y".toList)]

/-- C68 is false without the condition on the number of `src_indices`, which is not checked when source and parameter have the same shape (`_checks.py:113-115`): the surplus index writes into
the next parameter. -/
theorem C68_index_count_refuted : ∃ (g : XGroup) (pv : Nat × List XSlot) (uv pvals out : List Int), g.pVec = .ok pv ∧ uv.length = g.uVec.1 ∧ pvals.length = pv.1 ∧
    (∀ p ∈ g.ps, ∀ u ∈ g.us, (p.path, u.path) ∈ g.conns → u.pbo = false ∧ p.pbo = false ∧ p.size = u.size ∧ 0 < u.size ∧
      ∀ l ∈ p.srcIdx, ∀ a ∈ l, 0 ≤ a ∧ a < u.size) ∧
    g.transferFwd [] uv pvals = .ok out ∧
    ∃ p ∈ g.ps, ∃ u ∈ g.us, (p.path, u.path) ∈ g.conns ∧ p.srcIdx = none ∧ p.rel = true ∧ u.rel = true ∧
      slotVals pv.2 p.path out ≠ slotVals g.uVec.2 u.path uv := by
  refine ⟨xferLong, (3, [⟨"c.p".toList, some (0, 2), 2⟩, ⟨"c.q".toList, some (2, 3), 1⟩]), [9, 7, 8], [0, 0, 0], [7, 8, 7],
    by decide +kernel, by decide +kernel, by decide +kernel, by decide +kernel, by decide +kernel, ?_⟩
  exact ⟨⟨"c.q".toList, 1, false, true, none⟩, by decide +kernel, ⟨"a.y".toList, 1, false, true⟩, by decide +kernel, by decide +kernel, rfl, rfl, rfl,
    by decide +kernel⟩

/-- A parameter declared pass-by-object with a vector source of the same shape. -/
def xferPboPar : XGroup where
  path := []
  us := [⟨"a.x".toList, 1, false, true⟩]
  ps := [⟨"c.p".toList, 1, true, true, none⟩]
  conns := [("c.p".toList, "a.x".toList)]

/-- C68, error branch: a parameter declared pass-by-object cannot be connected to a vector source; setup of the data transfer stops with a `KeyError` (`group.py:1463`). -/
theorem C68_object_parameter_fails_partial (target : Str) (mode : Mode) : xferPboPar.xferLists target mode = .error .KeyError := by
  have : xferPboPar.xferDict = .error .KeyError := by decide +kernel
  unfold XGroup.xferLists
  rw [this]
  rfl

end witnesses

end OpenMDAO

