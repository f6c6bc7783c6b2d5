import Verif.Spec.Checks
import Verif.Lemmas.Connections
import Verif.Lemmas.List
import Mathlib.Data.List.Nodup
/-!
# C56: source index subsets are validated; C66: file references to one file share one source
-/
namespace OpenMDAO
set_option linter.unusedSectionVars false

theorem srcTotal_iff (s : SrcMeta) (n : Nat) : srcTotal s = .ok n ↔ EntriesOf s n := by
  unfold srcTotal EntriesOf
  cases h : s.md.srcIdx <;> cases s.distrib <;> simp [eq_comm]

theorem foldl_max_le (is : List Int) : ∀ (i n : Int), n ≤ is.foldl max i ↔ ∃ x ∈ i :: is, n ≤ x := by
  induction is with
  | nil => simp
  | cons a is ih =>
    intro i n
    rw [List.foldl_cons, ih]
    simp only [List.mem_cons, exists_eq_or_imp]
    rw [show (n ≤ max i a ↔ n ≤ i ∨ n ≤ a) from ⟨fun h => by omega, fun h => by omega⟩]
    rw [or_assoc]

theorem foldl_min_lt (is : List Int) : ∀ (i n : Int), is.foldl min i < n ↔ ∃ x ∈ i :: is, x < n := by
  induction is with
  | nil => simp
  | cons a is ih =>
    intro i n
    rw [List.foldl_cons, ih]
    simp only [List.mem_cons, exists_eq_or_imp]
    rw [show (min i a < n ↔ i < n ∨ a < n) from ⟨fun h => by omega, fun h => by omega⟩]
    rw [or_assoc]

theorem indexErrs_iff (tgt : Path) (s : SrcMeta) (t : DeclMeta) (is : List Int) (hi : t.srcIdx = some is) (n : Nat) (hn : EntriesOf s n) :
    indexErrs tgt s t = .ok [] ↔ is ≠ [] ∧ ∀ i ∈ is, 0 ≤ i ∧ i < n := by
  unfold indexErrs
  rw [hi]
  cases is with
  | nil => simp [(srcTotal_iff s n).2 hn, bind, Except.bind]
  | cons i is =>
    simp only [(srcTotal_iff s n).2 hn, bind, Except.bind, pure, Except.pure, Except.ok.injEq, List.append_eq_nil_iff, foldl_max_le, foldl_min_lt,
      ite_eq_right_iff, List.cons_ne_nil, imp_false, not_exists, not_and, ne_eq, not_false_eq_true, true_and, not_le, not_lt]
    constructor
    · rintro ⟨h1, h2⟩ x hx; exact ⟨h2 x hx, h1 x hx⟩
    · intro h; exact ⟨fun x hx => (h x hx).2, fun x hx => (h x hx).1⟩

/-- C56, one connection between variables with shapes: it is accepted iff there is at least one index, every index is a position in the source and, unless source and target have the same shape, there
are as many indices as the target has entries. -/
theorem C56_one_connection (tgt : Path) (s : SrcMeta) (t : DeclMeta) (is : List Int) (n : Nat) (hs : s.md.shape ≠ none) (ht : t.shape ≠ none)
    (hi : t.srcIdx = some is) (hn : EntriesOf s n) :
    checkShapes tgt s t = .ok [] ↔ is ≠ [] ∧ (∀ i ∈ is, 0 ≤ i ∧ i < n) ∧ (s.md.shape = t.shape ∨ is.length = t.size) := by
  obtain ⟨a, ha⟩ := Option.ne_none_iff_exists'.1 hs
  obtain ⟨b, hb⟩ := Option.ne_none_iff_exists'.1 ht
  have hx := indexErrs_iff tgt s t is hi n hn
  have hsh : ∃ l, shapeErrs tgt s t = .ok l ∧ (l = [] ↔ (s.md.shape = t.shape ∨ is.length = t.size)) := by
    unfold shapeErrs
    rw [hi]
    by_cases h : s.md.shape = t.shape
    · exact ⟨[], by simp [h], by simp [h]⟩
    · by_cases h2 : is.length = t.size
      · exact ⟨[], by simp [h, h2], by simp [h2]⟩
      · exact ⟨[.count tgt], by simp [h, h2], by simp [h, h2]⟩
  obtain ⟨l, hl, hl'⟩ := hsh
  unfold checkShapes
  simp only [ha, hb, bind, Except.bind, hl]
  rw [← ha, ← hb]
  rw [← and_assoc, ← hx, ← hl']
  cases indexErrs tgt s t with
  | error e => simp
  | ok m => simp [pure, Except.pure, and_comm]

/-- A connection without source indices from a source that is not distributed is accepted iff the shapes are the same. -/
theorem C56_whole_source (tgt : Path) (s : SrcMeta) (t : DeclMeta) (hs : s.md.shape ≠ none) (ht : t.shape ≠ none)
    (hi : t.srcIdx = none) (hd : s.md.srcIdx = none) :
    checkShapes tgt s t = .ok [] ↔ s.md.shape = t.shape := by
  obtain ⟨a, ha⟩ := Option.ne_none_iff_exists'.1 hs
  obtain ⟨b, hb⟩ := Option.ne_none_iff_exists'.1 ht
  unfold checkShapes shapeErrs indexErrs
  simp only [ha, hb, hi, hd, bind, Except.bind, pure, Except.pure]
  by_cases h : a = b <;> simp [h]

theorem foldlM_checks {α : Type} (f : α → Except PyErr (List ChkErr)) (cs : List α) : ∀ (e0 r : List ChkErr),
    cs.foldlM (fun e c => do let x ← f c; return e ++ x) e0 = .ok r →
    (r = [] → e0 = [] ∧ ∀ c ∈ cs, f c = .ok []) ∧ (e0 = [] → (∀ c ∈ cs, f c = .ok []) → r = []) := by
  induction cs with
  | nil =>
    intro e0 r h
    simp only [List.foldlM_nil, pure, Except.pure, Except.ok.injEq] at h
    subst h; simp
  | cons c cs ih =>
    intro e0 r h
    rw [List.foldlM_cons] at h
    cases hc : f c with
    | error x => rw [hc] at h; simp [bind, Except.bind] at h
    | ok x =>
      rw [hc] at h
      simp only [bind, Except.bind, pure, Except.pure] at h
      obtain ⟨i1, i2⟩ := ih _ _ h
      constructor
      · intro hr
        obtain ⟨j1, j2⟩ := i1 hr
        rw [List.append_eq_nil_iff] at j1
        refine ⟨j1.1, ?_⟩
        intro d hd
        rcases List.mem_cons.1 hd with rfl | hd
        · rw [hc, j1.2]
        · exact j2 d hd
      · intro h0 hall
        have := hall c (by simp)
        rw [hc] at this
        simp only [Except.ok.injEq] at this
        exact i2 (by simp [h0, this]) (fun d hd => hall d (by simp [hd]))

/-- the check of one entry of the connection dictionary -/
def checkEntry (params : List (Path × DeclMeta)) (unknowns : List (Path × SrcMeta)) (c : Path × Path) : Except PyErr (List ChkErr) :=
  match params.lookup c.1, unknowns.lookup c.2 with
  | some t, some s => checkConn c.1 s t
  | _, _ => .error .KeyError

theorem checkStep_eq (params : List (Path × DeclMeta)) (unknowns : List (Path × SrcMeta)) :
    checkStep params unknowns = fun e c => do let x ← checkEntry params unknowns c; return e ++ x := by
  funext e c
  unfold checkStep checkEntry
  cases params.lookup c.1 with
  | none => rfl
  | some t => cases unknowns.lookup c.2 <;> rfl

theorem checkConnections_split {conns : List (Path × Path)} {params : List (Path × DeclMeta)} {unknowns : List (Path × SrcMeta)}
    (h : checkConnections conns params unknowns = .ok []) :
    (∀ c ∈ conns, checkEntry params unknowns c = .ok []) ∧
      ∃ d, params.foldlM (fileStep conns unknowns) [] = .ok d ∧ d.flatMap fileErrs = [] := by
  unfold checkConnections at h
  rw [checkStep_eq] at h
  cases ha : conns.foldlM (fun e c => do let x ← checkEntry params unknowns c; return e ++ x) [] with
  | error e => rw [ha] at h; simp [bind, Except.bind] at h
  | ok a =>
    rw [ha] at h
    cases hd : params.foldlM (fileStep conns unknowns) [] with
    | error e => rw [hd] at h; simp [bind, Except.bind] at h
    | ok d =>
      rw [hd] at h
      simp only [bind, Except.bind, pure, Except.pure, Except.ok.injEq, List.append_eq_nil_iff] at h
      exact ⟨((foldlM_checks _ _ _ _ ha).1 h.1).2, d, rfl, h.2⟩

/-- C56, whole model, for sources declared without `pass_by_obj` and targets that are not objects: if the checks report nothing, every index of every connection is a position in its source, and unless
the shapes of source and target are the same the number of indices is the size of the target. -/
theorem C56_accepted_partial {conns : List (Path × Path)} {params : List (Path × DeclMeta)} {unknowns : List (Path × SrcMeta)}
    (h : checkConnections conns params unknowns = .ok []) {tgt src : Path} (hc : (tgt, src) ∈ conns) {t : DeclMeta} {s : SrcMeta}
    (ht : params.lookup tgt = some t) (hs : unknowns.lookup src = some s) (hpbo : s.md.pbo = none) (hss : s.md.shape ≠ none) (hts : t.shape ≠ none)
    {is : List Int} (hi : t.srcIdx = some is) {n : Nat} (hn : EntriesOf s n) :
    is ≠ [] ∧ (∀ i ∈ is, 0 ≤ i ∧ i < n) ∧ (s.md.shape ≠ t.shape → is.length = t.size) := by
  have := (checkConnections_split h).1 _ hc
  unfold checkEntry at this
  simp only [ht, hs] at this
  unfold checkConn at this
  cases hty : checkTypes s.md t with
  | error e => rw [hty] at this; simp [bind, Except.bind] at this
  | ok u =>
    rw [hty] at this
    simp only [bind, Except.bind, hpbo, if_true] at this
    rw [C56_one_connection tgt s t is n hss hts hi hn] at this
    exact ⟨this.1, this.2.1, fun hne => this.2.2.resolve_left hne⟩

/-- C56 (types): a connection passes the type check exactly if both values are of one kind, or both are file references with the same binary flag, or one entry of a source that is no file is
selected for a float. -/
theorem C56_types_iff (s t : DeclMeta) : checkTypes s t = .ok () ↔
    SameKind s.val t.val ∨ SameFileKind s.val t.val ∨ (t.val = .real ∧ (∀ f x, s.val ≠ .file f x) ∧ ∃ i, t.srcIdx = some [i]) := by
  have hone : ∀ l : Option (List Int), (match l with | some [_] => (if t.val = ChkVal.real then (.ok () : Except PyErr Unit) else .error .TypeError) | _ => .error .TypeError) = .ok () ↔
      t.val = .real ∧ ∃ i, l = some [i] := by
    intro l
    rcases l with _ | _ | ⟨i, _ | ⟨j, l⟩⟩ <;> simp
  have hsame : ∀ a b : ChkVal, sameType a b = true ↔ SameKind a b := by
    intro a b
    constructor
    · intro h
      cases a <;> cases b <;> simp only [sameType, Bool.false_eq_true] at h
      · exact .real
      · exact .array _ _ _ _
      · rw [beq_iff_eq] at h; subst h; exact .other _
    · intro h
      cases h <;> simp [sameType]
  have hf1 : ∀ a : ChkVal, a.isFile = true ↔ ∃ f x, a = .file f x := by
    intro a; cases a <;> simp [ChkVal.isFile]
  have hk1 : ∀ {a b : ChkVal}, SameKind a b → a.isFile = false ∧ b.isFile = false := by
    intro a b h; cases h <;> simp [ChkVal.isFile]
  unfold checkTypes
  by_cases hfile : (s.val.isFile || t.val.isFile) = true
  · rw [if_pos hfile]
    have hnk : ¬ SameKind s.val t.val := fun h => by simp [hk1 h] at hfile
    have hnr : ¬ (t.val = .real ∧ (∀ f x, s.val ≠ .file f x) ∧ ∃ i, t.srcIdx = some [i]) := by
      rintro ⟨h1, h2, -⟩
      rw [h1] at hfile
      simp only [ChkVal.isFile, Bool.or_false] at hfile
      obtain ⟨f, x, hx⟩ := (hf1 _).1 (by simpa using hfile)
      exact h2 f x hx
    simp only [hnk, hnr, false_or, or_false]
    cases hs : s.val with
    | file f x =>
      cases ht : t.val with
      | file f' x' =>
        simp only [validateFile, SameFileKind]
        constructor
        · intro h
          refine ⟨f, x, f', x', rfl, rfl, ?_⟩
          revert h
          rcases x with _ | _ | _ <;> rcases x' with _ | _ | _ <;> simp
        · rintro ⟨g, y, g', y', h1, h2, h3⟩
          simp only [ChkVal.file.injEq] at h1 h2
          obtain ⟨-, rfl⟩ := h1
          obtain ⟨-, rfl⟩ := h2
          revert h3
          rcases x with _ | _ | _ <;> rcases x' with _ | _ | _ <;> simp
      | real => simp [validateFile, SameFileKind]
      | array l b => simp [validateFile, SameFileKind]
      | other l => simp [validateFile, SameFileKind]
    | real => rw [hs] at hfile; cases ht : t.val <;> simp_all [validateFile, SameFileKind, ChkVal.isFile]
    | array l b => rw [hs] at hfile; cases ht : t.val <;> simp_all [validateFile, SameFileKind, ChkVal.isFile]
    | other l => rw [hs] at hfile; cases ht : t.val <;> simp_all [validateFile, SameFileKind, ChkVal.isFile]
  · rw [if_neg hfile]
    have hnf : ¬ SameFileKind s.val t.val := by
      rintro ⟨f, x, f', x', h1, -⟩
      rw [h1] at hfile
      simp [ChkVal.isFile] at hfile
    have hns : ∀ f x, s.val ≠ .file f x := by
      intro f x h1
      rw [h1] at hfile
      simp [ChkVal.isFile] at hfile
    simp only [hnf, false_or]
    by_cases hsm : sameType s.val t.val = true
    · rw [if_pos hsm]
      simp [(hsame _ _).1 hsm]
    · rw [if_neg hsm]
      have : ¬ SameKind s.val t.val := fun h => hsm ((hsame _ _).2 h)
      simp only [this, false_or]
      refine (hone t.srcIdx).trans ?_
      simp [hns]

/-- C56 (types, whole setup): in an accepted model every connection passes the type check. -/
theorem C56_types_accepted {conns : List (Path × Path)} {params : List (Path × DeclMeta)} {unknowns : List (Path × SrcMeta)}
    (h : checkConnections conns params unknowns = .ok []) {tgt src : Path} (hc : (tgt, src) ∈ conns) {t : DeclMeta} {s : SrcMeta}
    (ht : params.lookup tgt = some t) (hs : unknowns.lookup src = some s) :
    SameKind s.md.val t.val ∨ SameFileKind s.md.val t.val ∨ (t.val = .real ∧ (∀ f x, s.md.val ≠ .file f x) ∧ ∃ i, t.srcIdx = some [i]) := by
  rw [← C56_types_iff]
  have := (checkConnections_split h).1 _ hc
  unfold checkEntry at this
  simp only [ht, hs] at this
  unfold checkConn at this
  simp only [bind, Except.bind] at this
  cases hx : checkTypes s.md t with
  | ok u => rfl
  | error e => rw [hx] at this; cases this

/-- Problem.setup hands the indices of a connection to the check unless the target is an object, and a target declared without size gets as many entries as there are indices, so that for it the number
of indices always equals its size. -/
theorem C56_unsized_target (s t t' : DeclMeta) (is : List Int) (hp : t.pbo ≠ some true) (h : prepTarget s t (some is) = .ok t') :
    t'.srcIdx = some is ∧ (t.shape = some (.tup []) → t'.size = is.length ∧ t'.shape = some (.tup [is.length]) ∧
        is ≠ [] ∧ ∃ d ds b, s.val = .array (d :: ds) b ∧ t'.val = .array (is.length :: ds) b ∧ ∀ i ∈ is, -(d : Int) ≤ i ∧ i < d) ∧
      (t.shape ≠ some (.tup []) → t'.size = t.size ∧ t'.shape = t.shape) := by
  unfold prepTarget at h
  rw [if_neg hp] at h
  unfold pullShape at h
  by_cases h0 : t.shape = some (.tup [])
  · rw [if_pos h0] at h
    cases hv : takeRows s.val is with
    | error e => simp [hv, bind, Except.bind] at h
    | ok v =>
      simp only [hv, bind, Except.bind, pure, Except.pure, Except.ok.injEq] at h
      subst h
      refine ⟨rfl, fun _ => ⟨rfl, rfl, ?_⟩, fun h => absurd h0 h⟩
      unfold takeRows at hv
      split at hv
      · rename_i d ds b hsv
        split_ifs at hv with h1 h2
        simp only [Except.ok.injEq] at hv
        refine ⟨h1, d, ds, b, hsv, hv.symm, ?_⟩
        simpa using h2
      · cases hv
      · cases hv
  · rw [if_neg h0] at h
    simp only [bind, Except.bind, pure, Except.pure, Except.ok.injEq] at h
    subst h
    simp [h0]

/-- A vector of the given size. -/
def vecMeta (n : Nat) (idx : Option (List Int)) (pbo : Option Bool) : DeclMeta := ⟨.array [n] true, some (.tup [n]), n, pbo, idx, false⟩

example : checkConnections [(["c", "x"], ["p", "y"])] [(["c", "x"], vecMeta 2 (some [4, 0]) none)] [(["p", "y"], ⟨vecMeta 5 none none, none⟩)] = .ok [] := by decide +kernel
example : checkConnections [(["c", "x"], ["p", "y"])] [(["c", "x"], vecMeta 2 (some [5, -1]) none)] [(["p", "y"], ⟨vecMeta 5 none none, none⟩)] =
    .ok [.tooLarge ["c", "x"], .negative ["c", "x"]] := by decide +kernel

example : checkConnections [(["c", "x"], ["p", "y"])] [(["c", "x"], { vecMeta 1 (some [2]) none with val := .real })] [(["p", "y"], ⟨vecMeta 3 none none, none⟩)] = .ok [] := by decide +kernel

/-- C56 fails when source and target have the same shape: the number of indices is not looked at. Here a target of size 3 gets two indices. -/
theorem C56_count_refuted :
    checkConnections [(["c", "x"], ["p", "y"])] [(["c", "x"], vecMeta 3 (some [0, 1]) none)] [(["p", "y"], ⟨vecMeta 3 none none, none⟩)] = .ok [] ∧
      [0, 1].length ≠ (vecMeta 3 (some [0, 1]) none).size := by decide +kernel

/-- C56 fails for a source that was declared with `pass_by_obj=False`: the mere presence of the key switches all checks off. Here index 9 of a source of size 3 is accepted. -/
theorem C56_false_flag_refuted :
    checkConnections [(["c", "x"], ["p", "y"])] [(["c", "x"], vecMeta 2 (some [0, 9]) none)] [(["p", "y"], ⟨vecMeta 3 none (some false), none⟩)] = .ok [] ∧
      ¬ ∀ i ∈ [0, 9], 0 ≤ i ∧ i < (vecMeta 3 none (some false)).size := by decide +kernel

/-- An empty index list is not reported as an error of the connection: setup stops with the `ValueError` of `max` instead. -/
theorem finding_C56_empty :
    checkConnections [(["c", "x"], ["p", "y"])] [(["c", "x"], vecMeta 0 (some []) none)] [(["p", "y"], ⟨vecMeta 3 none none, none⟩)] = .error .ValueError := by decide +kernel

/-! ### File references -/

/-- parameters of the prefix that refer to the file -/
structure FileInv (conns : List (Path × Path)) (pre : List (Path × DeclMeta)) (d : List (Nat × FileUse)) : Prop where
  keys : (d.map Prod.fst).Nodup
  ins : ∀ f i, i ∈ ((d.lookup f).getD ⟨[], []⟩).ins ↔ ∃ p ∈ pre, RefersTo p.2 f ∧ i = (p.1, (conns.lookup p.1).isSome)
  outs : ∀ f x, x ∈ ((d.lookup f).getD ⟨[], []⟩).outs ↔ ∃ p ∈ pre, RefersTo p.2 f ∧ conns.lookup p.1 = some x
  nodup : ∀ f, ((d.lookup f).getD ⟨[], []⟩).outs.Nodup

theorem mem_setAdd (l : List Path) (x y : Path) : y ∈ setAdd l x ↔ y ∈ l ∨ y = x := by
  unfold setAdd
  split
  · constructor
    · exact .inl
    · rintro (h | rfl)
      · exact h
      · assumption
  · simp

theorem nodup_setAdd (l : List Path) (x : Path) (h : l.Nodup) : (setAdd l x).Nodup := by
  unfold setAdd
  split
  · exact h
  · rw [List.nodup_append]
    refine ⟨h, by simp, ?_⟩
    intro a ha b hb
    rw [List.mem_singleton] at hb
    subst hb
    intro e; subst e; contradiction

theorem fileStep_inv {conns : List (Path × Path)} {unknowns : List (Path × SrcMeta)} {pre : List (Path × DeclMeta)} {d d' : List (Nat × FileUse)}
    (hi : FileInv conns pre d) (p : Path × DeclMeta) (hst : fileStep conns unknowns d p = .ok d') : FileInv conns (pre ++ [p]) d' := by
  unfold fileStep at hst
  have hnone : (∀ f, ¬ RefersTo p.2 f) → FileInv conns (pre ++ [p]) d := by
    intro hno
    refine ⟨hi.keys, ?_, ?_, hi.nodup⟩
    · intro f i
      rw [hi.ins]
      constructor
      · rintro ⟨q, hq, h⟩; exact ⟨q, by simp [hq], h⟩
      · rintro ⟨q, hq, h⟩
        rw [List.mem_append, List.mem_singleton] at hq
        rcases hq with hq | rfl
        · exact ⟨q, hq, h⟩
        · exact absurd h.1 (hno f)
    · intro f i
      rw [hi.outs]
      constructor
      · rintro ⟨q, hq, h⟩; exact ⟨q, by simp [hq], h⟩
      · rintro ⟨q, hq, h⟩
        rw [List.mem_append, List.mem_singleton] at hq
        rcases hq with hq | rfl
        · exact ⟨q, hq, h⟩
        · exact absurd h.1 (hno f)
  cases hv : p.2.val with
  | real => rw [hv] at hst; simp only [Except.ok.injEq] at hst; subst hst; exact hnone (by intro f ⟨b, hb⟩; rw [hv] at hb; simp at hb)
  | array l b => rw [hv] at hst; simp only [Except.ok.injEq] at hst; subst hst; exact hnone (by intro f ⟨b, hb⟩; rw [hv] at hb; simp at hb)
  | other l => rw [hv] at hst; simp only [Except.ok.injEq] at hst; subst hst; exact hnone (by intro f ⟨b, hb⟩; rw [hv] at hb; simp at hb)
  | file f b =>
    rw [hv] at hst
    simp only at hst
    have href : ∀ g, RefersTo p.2 g ↔ g = f := by
      intro g
      unfold RefersTo
      rw [hv]
      constructor
      · rintro ⟨b', e⟩; simp only [ChkVal.file.injEq] at e; exact e.1.symm
      · rintro rfl; exact ⟨b, rfl⟩
    have main : ∀ (u' : FileUse), d' = dictSet d f u' → (∀ i, i ∈ u'.ins ↔ i ∈ ((d.lookup f).getD ⟨[], []⟩).ins ∨ i = (p.1, (conns.lookup p.1).isSome)) →
        (∀ x, x ∈ u'.outs ↔ x ∈ ((d.lookup f).getD ⟨[], []⟩).outs ∨ conns.lookup p.1 = some x) → u'.outs.Nodup → FileInv conns (pre ++ [p]) d' := by
      intro u' hd' h1 h2 h3
      subst hd'
      refine ⟨nodup_keys_dictSet _ _ _ hi.keys, ?_, ?_, ?_⟩
      · intro g i
        rw [lookup_dictSet]
        by_cases hg : g = f
        · subst hg
          simp only [if_true, Option.getD_some, h1, hi.ins]
          constructor
          · rintro (⟨q, hq, h⟩ | rfl)
            · exact ⟨q, by simp [hq], h⟩
            · exact ⟨p, by simp, (href g).2 rfl, rfl⟩
          · rintro ⟨q, hq, h⟩
            rw [List.mem_append, List.mem_singleton] at hq
            rcases hq with hq | rfl
            · exact .inl ⟨q, hq, h⟩
            · exact .inr h.2
        · rw [if_neg hg, hi.ins]
          constructor
          · rintro ⟨q, hq, h⟩; exact ⟨q, by simp [hq], h⟩
          · rintro ⟨q, hq, h⟩
            rw [List.mem_append, List.mem_singleton] at hq
            rcases hq with hq | rfl
            · exact ⟨q, hq, h⟩
            · exact absurd ((href g).1 h.1) hg
      · intro g i
        rw [lookup_dictSet]
        by_cases hg : g = f
        · subst hg
          simp only [if_true, Option.getD_some, h2, hi.outs]
          constructor
          · rintro (⟨q, hq, h⟩ | h)
            · exact ⟨q, by simp [hq], h⟩
            · exact ⟨p, by simp, (href g).2 rfl, h⟩
          · rintro ⟨q, hq, h⟩
            rw [List.mem_append, List.mem_singleton] at hq
            rcases hq with hq | rfl
            · exact .inl ⟨q, hq, h⟩
            · exact .inr h.2
        · rw [if_neg hg, hi.outs]
          constructor
          · rintro ⟨q, hq, h⟩; exact ⟨q, by simp [hq], h⟩
          · rintro ⟨q, hq, h⟩
            rw [List.mem_append, List.mem_singleton] at hq
            rcases hq with hq | rfl
            · exact ⟨q, hq, h⟩
            · exact absurd ((href g).1 h.1) hg
      · intro g
        rw [lookup_dictSet]
        by_cases hg : g = f
        · simpa [hg] using h3
        · rw [if_neg hg]; exact hi.nodup g
    cases hcn : conns.lookup p.1 with
    | none =>
      rw [hcn] at hst
      simp only [Except.ok.injEq] at hst
      refine main _ hst.symm (by simp [hcn]) (by simp [hcn]) (hi.nodup f)
    | some s =>
      rw [hcn] at hst
      simp only at hst
      cases hu : unknowns.lookup s with
      | none => rw [hu] at hst; simp at hst
      | some m =>
        rw [hu] at hst
        simp only at hst
        split at hst
        · simp only [Except.ok.injEq] at hst
          refine main _ hst.symm (by simp [hcn]) ?_ (nodup_setAdd _ _ (hi.nodup f))
          intro x
          simp only [mem_setAdd, hcn, Option.some.injEq, eq_comm]
        · simp at hst

theorem fileFold_inv {conns : List (Path × Path)} {unknowns : List (Path × SrcMeta)} (ps : List (Path × DeclMeta)) :
    ∀ (pre : List (Path × DeclMeta)) (d d' : List (Nat × FileUse)), FileInv conns pre d → ps.foldlM (fileStep conns unknowns) d = .ok d' → FileInv conns (pre ++ ps) d' := by
  induction ps with
  | nil =>
    intro pre d d' hi h
    simp only [List.foldlM_nil, pure, Except.pure, Except.ok.injEq] at h
    subst h; simpa using hi
  | cons p ps ih =>
    intro pre d d' hi h
    rw [List.foldlM_cons] at h
    cases hs : fileStep conns unknowns d p with
    | error e => rw [hs] at h; simp [bind, Except.bind] at h
    | ok d1 =>
      rw [hs] at h
      have := ih (pre ++ [p]) d1 d' (fileStep_inv hi p hs) h
      simpa using this

theorem fileErrs_nil (e : Nat × FileUse) : fileErrs e = [] ↔ e.2.outs.length ≤ 1 ∧ (e.2.outs ≠ [] → ∀ i ∈ e.2.ins, i.2 = true) := by
  unfold fileErrs
  simp only [List.append_eq_nil_iff, ite_eq_right_iff, List.cons_ne_nil, imp_false, not_lt, List.flatMap_eq_nil_iff, Bool.and_eq_true, Bool.not_eq_true',
    List.isEmpty_eq_false_iff, not_and, ne_eq]
  constructor
  · rintro ⟨h1, h2⟩
    refine ⟨h1, fun h3 i hi => ?_⟩
    by_contra h
    exact (h2 i hi) (by simpa using h) h3
  · rintro ⟨h1, h2⟩
    refine ⟨h1, fun i hi h h3 => ?_⟩
    have := h2 h3 i hi
    rw [h] at this; simp at this

theorem fileErrs_iff {conns : List (Path × Path)} {params : List (Path × DeclMeta)} {d : List (Nat × FileUse)} (hi : FileInv conns params d) :
    d.flatMap fileErrs = [] ↔ ∀ p ∈ params, ∀ q ∈ params, ∀ f, RefersTo p.2 f → RefersTo q.2 f → ∀ s, conns.lookup p.1 = some s → conns.lookup q.1 = some s := by
  rw [List.flatMap_eq_nil_iff]
  constructor
  · intro h p hp q hq f hpf hqf s hs
    have hsout : s ∈ ((d.lookup f).getD ⟨[], []⟩).outs := (hi.outs f s).2 ⟨p, hp, hpf, hs⟩
    have hlk : ∃ u, d.lookup f = some u := by
      cases hd : d.lookup f with
      | none => rw [hd] at hsout; simp at hsout
      | some u => exact ⟨u, rfl⟩
    obtain ⟨u, hu⟩ := hlk
    have hm : (f, u) ∈ d := (lookup_eq_some_iff_of_nodup d f u hi.keys).1 hu
    have he := (fileErrs_nil (f, u)).1 (h _ hm)
    have hins := hi.ins f (q.1, (conns.lookup q.1).isSome)
    have houts := hi.outs f
    rw [hu] at hsout hins houts
    simp only [Option.getD_some] at hsout hins houts he
    have hqc := he.2 (List.ne_nil_of_mem hsout) _ (hins.2 ⟨q, hq, hqf, rfl⟩)
    simp only at hqc
    obtain ⟨s', hs'⟩ := Option.isSome_iff_exists.1 hqc
    have hs'out : s' ∈ u.outs := (houts s').2 ⟨q, hq, hqf, hs'⟩
    have : s' = s := by
      match hou : u.outs, he.1, hsout, hs'out with
      | [x], _, h1, h2 =>
        rw [List.mem_singleton] at h1 h2
        rw [h1, h2]
      | x :: y :: l, h, _, _ => simp at h
    rw [hs', this]
  · intro h e he
    obtain ⟨f, u⟩ := e
    have hu : d.lookup f = some u := (lookup_eq_some_iff_of_nodup d f u hi.keys).2 he
    have hins := hi.ins f
    have houts := hi.outs f
    have hnd := hi.nodup f
    rw [hu] at hins houts hnd
    simp only [Option.getD_some] at hins houts hnd
    rw [fileErrs_nil]
    constructor
    · by_contra hlen
      match hou : u.outs with
      | [] => rw [hou] at hlen; simp at hlen
      | [x] => rw [hou] at hlen; simp at hlen
      | x :: y :: l =>
        rw [hou] at hnd
        obtain ⟨p, hp, hpf, hps⟩ := (houts x).1 (by rw [hou]; simp)
        obtain ⟨q, hq, hqf, hqs⟩ := (houts y).1 (by rw [hou]; simp)
        have := h p hp q hq f hpf hqf x hps
        rw [hqs] at this
        simp only [Option.some.injEq] at this
        subst this
        simp at hnd
    · intro hne i hin
      obtain ⟨x, hx⟩ := List.exists_mem_of_ne_nil _ hne
      obtain ⟨p, hp, hpf, hps⟩ := (houts x).1 hx
      obtain ⟨q, hq, hqf, rfl⟩ := (hins i).1 hin
      have := h p hp q hq f hpf hqf x hps
      simp [this]

theorem fileInv_nil (conns : List (Path × Path)) : FileInv conns [] [] := ⟨by simp, by simp, by simp, by simp⟩

/-- C66: if the checks report nothing, all file-reference parameters that refer to one file have the same source as soon as one of them is connected. -/
theorem C66_same_source {conns : List (Path × Path)} {params : List (Path × DeclMeta)} {unknowns : List (Path × SrcMeta)}
    (h : checkConnections conns params unknowns = .ok []) {p q : Path × DeclMeta} (hp : p ∈ params) (hq : q ∈ params) {f : Nat}
    (hpf : RefersTo p.2 f) (hqf : RefersTo q.2 f) {s : Path} (hs : conns.lookup p.1 = some s) : conns.lookup q.1 = some s := by
  obtain ⟨-, d, hd, he⟩ := checkConnections_split h
  have hi := fileFold_inv params [] [] d (fileInv_nil conns) hd
  simp only [List.nil_append] at hi
  exact (fileErrs_iff hi).1 he p hp q hq f hpf hqf s hs

theorem fileStep_ok {conns : List (Path × Path)} {unknowns : List (Path × SrcMeta)} (d : List (Nat × FileUse)) (p : Path × DeclMeta)
    (hok : ∀ f s, RefersTo p.2 f → conns.lookup p.1 = some s → ∃ m, unknowns.lookup s = some m ∧ m.md.val.isFile = true) :
    ∃ d', fileStep conns unknowns d p = .ok d' := by
  unfold fileStep
  cases hv : p.2.val with
  | file f b =>
    simp only
    cases hc : conns.lookup p.1 with
    | none => exact ⟨_, rfl⟩
    | some s =>
      obtain ⟨m, h1, h2⟩ := hok f s ⟨b, hv⟩ hc
      simp [h1, h2]
  | _ => exact ⟨_, rfl⟩

/-- C66, the other direction: if every connection passes and that condition holds, nothing is reported. -/
theorem C66_complete {conns : List (Path × Path)} {params : List (Path × DeclMeta)} {unknowns : List (Path × SrcMeta)}
    (hc : ∀ c ∈ conns, ∃ t s, params.lookup c.1 = some t ∧ unknowns.lookup c.2 = some s ∧ checkConn c.1 s t = .ok [])
    (hk : (params.map Prod.fst).Nodup)
    (hsame : ∀ p ∈ params, ∀ q ∈ params, ∀ f, RefersTo p.2 f → RefersTo q.2 f → ∀ s, conns.lookup p.1 = some s → conns.lookup q.1 = some s) :
    checkConnections conns params unknowns = .ok [] := by
  have hent : ∀ c ∈ conns, checkEntry params unknowns c = .ok [] := by
    intro c hcm
    obtain ⟨t, s, h1, h2, h3⟩ := hc c hcm
    unfold checkEntry
    rw [h1, h2]
    exact h3
  have hfold : ∀ (cs : List (Path × Path)), (∀ c ∈ cs, checkEntry params unknowns c = .ok []) →
      cs.foldlM (fun e c => do let x ← checkEntry params unknowns c; return e ++ x) [] = .ok [] := by
    intro cs
    induction cs with
    | nil => intro _; rfl
    | cons c cs ih =>
      intro h
      rw [List.foldlM_cons, h c (by simp)]
      simp only [bind, Except.bind, pure, Except.pure, List.append_nil]
      exact ih (fun d hd => h d (by simp [hd]))
  have hfile : ∀ (ps : List (Path × DeclMeta)) (d : List (Nat × FileUse)), (∀ p ∈ ps, p ∈ params) → ∃ d', ps.foldlM (fileStep conns unknowns) d = .ok d' := by
    intro ps
    induction ps with
    | nil => intro d _; exact ⟨d, rfl⟩
    | cons p ps ih =>
      intro d hps
      rw [List.foldlM_cons]
      have : ∃ d', fileStep conns unknowns d p = .ok d' := by
        apply fileStep_ok
        rintro f s ⟨b, hf⟩ hs
        have hmem : (p.1, s) ∈ conns := lookup_mem hs
        obtain ⟨t, m, h1, h2, h3⟩ := hc _ hmem
        have ht : params.lookup p.1 = some p.2 := (lookup_eq_some_iff_of_nodup params p.1 p.2 hk).2 (hps p (by simp))
        simp only at h1 h2
        rw [ht] at h1
        cases h1
        refine ⟨m, h2, ?_⟩
        unfold checkConn checkTypes at h3
        have : p.2.val.isFile = true := by rw [hf]; rfl
        rw [this, Bool.or_true, if_pos rfl, hf] at h3
        cases hm : m.md.val with
        | file _ _ => rfl
        | _ => rw [hm] at h3; simp [validateFile, bind, Except.bind] at h3
      obtain ⟨d', hd'⟩ := this
      rw [hd']
      exact ih d' (fun q hq => hps q (by simp [hq]))
  obtain ⟨d, hd⟩ := hfile params [] (fun p hp => hp)
  have hi := fileFold_inv params [] [] d (fileInv_nil conns) hd
  simp only [List.nil_append] at hi
  unfold checkConnections
  rw [checkStep_eq, hfold conns hent, hd]
  simp only [bind, Except.bind, pure, Except.pure, List.nil_append, Except.ok.injEq]
  exact (fileErrs_iff hi).2 hsame

/-- Metadata of a file reference. -/
def fileMeta (f : Nat) : DeclMeta := ⟨.file f none, none, 0, some true, none, false⟩

example : checkConnections [(["a", "f"], ["p", "o"]), (["b", "f"], ["p", "o"])] [(["a", "f"], fileMeta 7), (["b", "f"], fileMeta 7), (["c", "f"], fileMeta 8)]
    [(["p", "o"], ⟨fileMeta 7, none⟩)] = .ok [] := by decide +kernel
example : checkConnections [(["a", "f"], ["p", "o"])] [(["a", "f"], fileMeta 7), (["b", "f"], fileMeta 7)] [(["p", "o"], ⟨fileMeta 7, none⟩)] =
    .ok [.unconnectedFile ["b", "f"]] := by decide +kernel

/-- The path of the source plays no role: an unconnected parameter may refer to the very file that a connected output writes. -/
theorem finding_C66_output_file :
    checkConnections [(["a", "f"], ["p", "o"])] [(["a", "f"], fileMeta 7), (["b", "f"], fileMeta 8)] [(["p", "o"], ⟨fileMeta 8, none⟩)] = .ok [] := by decide +kernel
