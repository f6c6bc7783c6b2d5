import Verif.Spec.ViewConn
import Verif.Props.Explicit
import Verif.Lemmas.Connections
import Verif.Lemmas.List
import Mathlib.Data.List.Forall2
import Mathlib.Data.List.Perm.Basic
/-!
# C176: the table of connections
-/
namespace OpenMDAO
set_option linter.unusedSectionVars false
variable {α K : Type} [DecidableEq α] [Add K] [Mul K]

/-- What a step does when it succeeds. -/
theorem viewConnStep_ok {M : ViewSys α K} {st st' : List (α × List α) × List (α × List K)} {p : ViewParam α K} (h : viewConnStep M st p = .ok st') :
    (M.conns.lookup p.name = none ∧ st' = (st.1, dictSet st.2 p.name p.init)) ∨
    ∃ s idxs S v, M.conns.lookup p.name = some (s, idxs) ∧ M.unknowns.lookup s = some S ∧ viewTake S idxs = .ok v ∧
      st' = (dictAppend st.1 s p.name, dictSet st.2 p.name (viewConv p.conv v)) := by
  unfold viewConnStep at h
  cases hc : M.conns.lookup p.name with
  | none => rw [hc] at h; cases h; exact Or.inl ⟨rfl, rfl⟩
  | some c =>
    obtain ⟨s, idxs⟩ := c
    rw [hc] at h
    dsimp only at h
    cases hu : M.unknowns.lookup s with
    | none => rw [hu] at h; cases h
    | some S =>
      rw [hu] at h
      dsimp only at h
      cases ht : viewTake S idxs with
      | error e => rw [ht] at h; cases h
      | ok v =>
        rw [ht] at h
        cases h
        exact Or.inr ⟨s, idxs, S, v, rfl, hu, ht, rfl⟩

/-- The value shown for a parameter. -/
def ShownVal (M : ViewSys α K) (p : ViewParam α K) (x : List K) : Prop :=
  (M.conns.lookup p.name = none ∧ x = p.init) ∨
    ∃ s idxs S v, M.conns.lookup p.name = some (s, idxs) ∧ M.unknowns.lookup s = some S ∧ viewTake S idxs = .ok v ∧ x = viewConv p.conv v

theorem flat_snd_append (d : List (α × List α)) (k v : α) : ((dictAppend d k v).flatMap Prod.snd).Perm (d.flatMap Prod.snd ++ [v]) := by
  induction d with
  | nil => simp [dictAppend]
  | cons e d ih =>
    obtain ⟨a, b⟩ := e
    unfold dictAppend
    split
    · simp only [List.flatMap_cons, List.append_assoc]
      exact List.Perm.append_left b List.perm_append_comm
    · simp only [List.flatMap_cons, List.append_assoc]
      exact List.Perm.append_left b ih

theorem view_fold (M : ViewSys α K) (ps : List (ViewParam α K)) : ∀ st st', ps.foldlM (viewConnStep M) st = .ok st' →
    (∀ s, (st'.1.lookup s).getD [] = (st.1.lookup s).getD [] ++ (ps.filter fun p => ((M.conns.lookup p.name).map Prod.fst) = some s).map ViewParam.name) ∧
    ((st.1.map Prod.fst).Nodup → (st'.1.map Prod.fst).Nodup) ∧
    (∀ s, (st'.1.lookup s).isSome ↔ (st.1.lookup s).isSome ∨ ∃ p ∈ ps, M.To s p.name) ∧
    (st'.1.flatMap Prod.snd).Perm (st.1.flatMap Prod.snd ++ (ps.map ViewParam.name).filter fun t => (M.conns.lookup t).isSome) ∧
    (∀ t, t ∉ ps.map ViewParam.name → st'.2.lookup t = st.2.lookup t) ∧
    ((ps.map ViewParam.name).Nodup → ∀ p ∈ ps, ∃ x, st'.2.lookup p.name = some x ∧ ShownVal M p x) ∧
    (∀ s, (∃ p ∈ ps, M.To s p.name) → (M.unknowns.lookup s).isSome) := by
  induction ps with
  | nil =>
    intro st st' h
    cases h
    simp
  | cons p ps ih =>
    intro st st' h
    rw [List.foldlM_cons] at h
    cases hw : viewConnStep M st p with
    | error e => rw [hw] at h; cases h
    | ok s1 =>
      rw [hw] at h
      obtain ⟨i1, i2, i3, i4, i5, i6, i7⟩ := ih s1 st' h
      rcases viewConnStep_ok hw with ⟨hc, rfl⟩ | ⟨s, idxs, S, v, hc, hu, ht, rfl⟩
      · refine ⟨fun q => ?_, i2, fun q => ?_, ?_, fun t ht => ?_, fun hn q hq => ?_, ?_⟩
        · rw [i1 q]; simp [hc]
        · rw [i3 q]; simp [ViewSys.To, hc]
        · simpa [hc] using i4
        · rw [i5 t (fun h => ht (by simp [h]))]
          rw [lookup_dictSet]
          have : t ≠ p.name := fun h => ht (by simp [h])
          simp [this]
        · rw [List.map_cons, List.nodup_cons] at hn
          rcases List.mem_cons.1 hq with rfl | hq
          · refine ⟨_, ?_, Or.inl ⟨hc, rfl⟩⟩
            rw [i5 _ hn.1, lookup_dictSet]
            simp
          · exact i6 hn.2 q hq
        · rintro q ⟨r, hr, hto⟩
          rcases List.mem_cons.1 hr with rfl | hr
          · obtain ⟨_, hto⟩ := hto; rw [hc] at hto; cases hto
          · exact i7 q ⟨r, hr, hto⟩
      · refine ⟨fun q => ?_, fun hn => i2 (nodup_dictAppend _ _ _ hn), fun q => ?_, ?_, fun t ht => ?_, fun hn q hq => ?_, ?_⟩
        · rw [i1 q, lookup_dictAppend]
          by_cases hq : q = s
          · subst hq; simp [hc]
          · simp [hc, hq, Ne.symm hq]
        · rw [i3 q, lookup_dictAppend]
          by_cases hq : q = s
          · subst hq; simp [ViewSys.To, hc]
          · simp [ViewSys.To, hc, hq, Ne.symm hq]
        · refine i4.trans ?_
          rw [List.map_cons, List.filter_cons, hc]
          simp only [Option.isSome_some, if_true]
          have := (flat_snd_append st.1 s p.name).append_right ((ps.map ViewParam.name).filter fun t => (M.conns.lookup t).isSome)
          simpa using this
        · rw [i5 t (fun h => ht (by simp [h]))]
          rw [lookup_dictSet]
          have : t ≠ p.name := fun h => ht (by simp [h])
          simp [this]
        · rw [List.map_cons, List.nodup_cons] at hn
          rcases List.mem_cons.1 hq with rfl | hq
          · refine ⟨_, ?_, Or.inr ⟨s, idxs, S, v, hc, hu, ht, rfl⟩⟩
            rw [i5 _ hn.1, lookup_dictSet]
            simp
          · exact i6 hn.2 q hq
        · rintro q ⟨r, hr, hto⟩
          rcases List.mem_cons.1 hr with rfl | hr
          · obtain ⟨_, hto⟩ := hto; rw [hc] at hto; cases hto; simp [hu]
          · exact i7 q ⟨r, hr, hto⟩

theorem viewConns_ok {M : ViewSys α K} {T : ViewTab α K} (h : viewConns M = .ok T) : ∃ st, M.params.foldlM (viewConnStep M) ([], []) = .ok st ∧
    T.src2tgts = st.1 ∧ T.vals = (M.unknowns.filter fun u => (st.1.lookup u.1).isNone).foldl (fun d u => dictSet d u.1 u.2.flat) st.2 ∧
    T.noconn = ((M.params.map ViewParam.name).filter fun t => (M.conns.lookup t).isNone) ∧
    T.noconnSrcs = (M.unknowns.filter fun u => (st.1.lookup u.1).isNone).map Prod.fst := by
  unfold viewConns at h
  cases hf : M.params.foldlM (viewConnStep M) ([], []) with
  | error e => rw [hf] at h; cases h
  | ok st => rw [hf] at h; cases h; exact ⟨st, rfl, rfl, rfl, rfl, rfl⟩

/-- **C176 (the rows).** Under each source stand the parameters connected to it, in the order of the parameters; a source has at most one row. The row
of those without connection has the parameters that are not connected. -/
theorem C176_rows (M : ViewSys α K) (T : ViewTab α K) (h : viewConns M = .ok T) :
    (T.src2tgts.map Prod.fst).Nodup ∧
    (∀ s, (T.src2tgts.lookup s).getD [] =
      (M.params.map ViewParam.name).filter fun t => ((M.conns.lookup t).map Prod.fst) = some s) ∧
    ∀ t, t ∈ T.noconn ↔ t ∈ M.params.map ViewParam.name ∧ ∀ s, ¬ M.To s t := by
  obtain ⟨st, hf, h1, _, h3, _⟩ := viewConns_ok h
  obtain ⟨i1, i2, _, _, _, _, _⟩ := view_fold M M.params _ _ hf
  refine ⟨by rw [h1]; exact i2 (by simp), fun s => ?_, fun t => ?_⟩
  · rw [h1, i1 s, List.filter_map]
    rfl
  · rw [h3, List.mem_filter]
    refine and_congr_right fun _ => ?_
    unfold ViewSys.To
    cases hc : M.conns.lookup t with
    | none => simp
    | some c =>
      obtain ⟨s, i⟩ := c
      simp only [Option.isNone_some, Bool.false_eq_true, false_iff, not_forall, not_not]
      exact ⟨s, i, rfl⟩

/-- **C176 (each parameter once).** The rows together list every parameter, as often as it is a parameter of the system. -/
theorem C176_once (M : ViewSys α K) (T : ViewTab α K) (h : viewConns M = .ok T) :
    (T.src2tgts.flatMap Prod.snd ++ T.noconn).Perm (M.params.map ViewParam.name) := by
  obtain ⟨st, hf, h1, _, h3, _⟩ := viewConns_ok h
  obtain ⟨_, _, _, i4, _, _, _⟩ := view_fold M M.params _ _ hf
  rw [h1, h3]
  refine (i4.append_right _).trans ?_
  simp only [List.flatMap_nil, List.nil_append]
  have := List.filter_append_perm (fun t => (M.conns.lookup t).isSome) (M.params.map ViewParam.name)
  simpa using this

/-- **C176 (sources without target).** They are the unknowns that no parameter is connected to. -/
theorem C176_sources (M : ViewSys α K) (T : ViewTab α K) (h : viewConns M = .ok T) (s : α) :
    s ∈ T.noconnSrcs ↔ s ∈ M.unknowns.map Prod.fst ∧ ∀ p ∈ M.params, ¬ M.To s p.name := by
  obtain ⟨st, hf, _, _, _, h4⟩ := viewConns_ok h
  obtain ⟨_, _, i3, _, _, _, _⟩ := view_fold M M.params _ _ hf
  have key : ∀ q, (st.1.lookup q).isNone = true ↔ ∀ p ∈ M.params, ¬ M.To q p.name := by
    intro q
    rw [← not_iff_not, ← Option.not_isSome, Bool.not_eq_true', Bool.not_eq_false, i3 q]
    simp
  rw [h4, List.mem_map, List.mem_map]
  constructor
  · rintro ⟨u, hu, rfl⟩
    rw [List.mem_filter] at hu
    exact ⟨⟨u, hu.1, rfl⟩, (key _).1 hu.2⟩
  · rintro ⟨⟨u, hu, rfl⟩, hk⟩
    exact ⟨u, List.mem_filter.2 ⟨hu, (key _).2 hk⟩, rfl⟩

theorem foldl_dictSet_other (us : List (α × ViewSrc K)) (d : List (α × List K)) (t : α) (h : t ∉ us.map Prod.fst) :
    (us.foldl (fun d u => dictSet d u.1 u.2.flat) d).lookup t = d.lookup t := by
  induction us generalizing d with
  | nil => rfl
  | cons u us ih =>
    rw [List.foldl_cons, ih _ (fun h' => h (by simp [h'])), lookup_dictSet]
    have : t ≠ u.1 := fun h' => h (by simp [h'])
    simp [this]

theorem viewSet_mem (us : List (α × ViewSrc K)) (d : List (α × List K)) (u : α × ViewSrc K) (hn : (us.map Prod.fst).Nodup) (h : u ∈ us) :
    (us.foldl (fun d u => dictSet d u.1 u.2.flat) d).lookup u.1 = some u.2.flat := by
  induction us generalizing d with
  | nil => cases h
  | cons v us ih =>
    rw [List.map_cons, List.nodup_cons] at hn
    rw [List.foldl_cons]
    rcases List.mem_cons.1 h with rfl | h
    · rw [foldl_dictSet_other _ _ _ hn.1, lookup_dictSet]
      simp
    · exact ih _ hn.2 h

/-- **C176 (values of sources without target).** They are shown with their value. -/
theorem C176_source_values (M : ViewSys α K) (T : ViewTab α K) (h : viewConns M = .ok T) (hn : (M.unknowns.map Prod.fst).Nodup)
    (u : α × ViewSrc K) (hu : u ∈ M.unknowns) (hs : ∀ p ∈ M.params, ¬ M.To u.1 p.name) : T.vals.lookup u.1 = some u.2.flat := by
  obtain ⟨st, hf, _, h2, _, _⟩ := viewConns_ok h
  obtain ⟨_, _, i3, _, _, _, _⟩ := view_fold M M.params _ _ hf
  rw [h2]
  refine viewSet_mem _ _ u (hn.sublist (List.filter_sublist.map _)) (List.mem_filter.2 ⟨hu, ?_⟩)
  rw [← Option.not_isSome, Bool.not_eq_true', ← Bool.not_eq_true, i3 u.1]
  rintro (h | ⟨p, hp, hto⟩)
  · simp at h
  · exact hs p hp hto

theorem viewRow_one (flat : List K) (i : Int) (x : List K) (h : viewRow flat.length 1 flat i = .ok x) (hi : 0 ≤ i) :
    ∃ y, x = [y] ∧ flat[i.toNat]? = some y := by
  unfold viewRow at h
  simp only [if_neg (show ¬ i < 0 by omega)] at h
  split at h
  · cases h
  · rename_i hn
    cases h
    have hlt : i.toNat < flat.length := by omega
    refine ⟨flat[i.toNat], ?_, List.getElem?_eq_getElem hlt⟩
    rw [Nat.mul_one, List.drop_eq_getElem_cons hlt]
    rfl

theorem viewTake_received (S : ViewSrc K) (idxs : Option (List Int)) (v : List K) (h : viewTake S idxs = .ok v)
    (hd : ∀ l, idxs = some l → S.dims = some [S.flat.length] ∧ ∀ i ∈ l, 0 ≤ i) : Received S.flat idxs v := by
  cases idxs with
  | none => cases h; rfl
  | some l =>
    obtain ⟨h1, h2⟩ := hd l rfl
    unfold viewTake at h
    simp only [h1, List.foldl_nil] at h
    cases hm : l.mapM (viewRow S.flat.length 1 S.flat) with
    | error e => rw [hm] at h; cases h
    | ok rows =>
      rw [hm] at h
      cases h
      change List.Forall₂ _ l rows.flatten
      clear h1 hd
      induction l generalizing rows with
      | nil => simp only [List.mapM_nil] at hm; cases hm; exact .nil
      | cons i l ih =>
        rw [List.mapM_cons] at hm
        cases hi : viewRow S.flat.length 1 S.flat i with
        | error e => rw [hi] at hm; cases hm
        | ok x =>
          cases hl : l.mapM (viewRow S.flat.length 1 S.flat) with
          | error e => rw [hi, hl] at hm; cases hm
          | ok xs =>
            rw [hi, hl] at hm
            cases hm
            obtain ⟨y, rfl, hy⟩ := viewRow_one _ _ _ hi (h2 i (by simp))
            rw [List.flatten_cons, List.singleton_append]
            exact .cons ⟨h2 i (by simp), hy⟩ (ih (fun j hj => h2 j (by simp [hj])) xs hl)

/-- **C176 (the values).** The value shown for a connected parameter is what it receives: the entries of the source at its indices, in its
own units. Missing: indices into a source that is not an array with one dimension (see the refutations), and parameters without
connection. -/
theorem C176_values_partial (M : ViewSys α K) (T : ViewTab α K) (h : viewConns M = .ok T) (hn : (M.params.map ViewParam.name).Nodup)
    (hdis : ∀ t ∈ M.params.map ViewParam.name, t ∉ M.unknowns.map Prod.fst) (p : ViewParam α K) (hp : p ∈ M.params) (s : α)
    (idxs : Option (List Int)) (hc : M.conns.lookup p.name = some (s, idxs))
    (hd : ∀ S l, M.unknowns.lookup s = some S → idxs = some l → S.dims = some [S.flat.length] ∧ ∀ i ∈ l, 0 ≤ i) :
    ∃ S v, M.unknowns.lookup s = some S ∧ Received S.flat idxs v ∧
      T.vals.lookup p.name = some (match p.conv with | none => v | some (scale, offset) => v.map fun x => (x + offset) * scale) := by
  obtain ⟨st, hf, _, h2, _, _⟩ := viewConns_ok h
  obtain ⟨_, _, _, _, _, i6, _⟩ := view_fold M M.params _ _ hf
  obtain ⟨x, hx, hsh⟩ := i6 hn p hp
  have hval : T.vals.lookup p.name = some x := by
    rw [h2, foldl_dictSet_other, hx]
    intro hin
    refine hdis p.name (List.mem_map_of_mem hp) ?_
    obtain ⟨u, hu, he⟩ := List.mem_map.1 hin
    exact he ▸ List.mem_map_of_mem (List.mem_filter.1 hu).1
  rcases hsh with ⟨h0, _⟩ | ⟨s', i', S, v, h0, hu, ht, rfl⟩
  · rw [hc] at h0; cases h0
  · rw [hc] at h0
    cases h0
    refine ⟨S, v, hu, viewTake_received S idxs v ht (fun l hl => hd S l hu hl), ?_⟩
    rw [hval]
    unfold viewConv
    rcases p.conv with _ | ⟨a, b⟩ <;> rfl

/-- **C176 (it works).** If every connected source is an unknown of the system, and no connection has indices, a table is made. -/
theorem C176_made (M : ViewSys α K) (h : ∀ p ∈ M.params, ∀ s i, M.conns.lookup p.name = some (s, i) → i = none ∧ (M.unknowns.lookup s).isSome) :
    ∃ T, viewConns M = .ok T := by
  have gen : ∀ (ps : List (ViewParam α K)), (∀ p ∈ ps, ∀ s i, M.conns.lookup p.name = some (s, i) → i = none ∧ (M.unknowns.lookup s).isSome) →
      ∀ st, ∃ st', ps.foldlM (viewConnStep M) st = .ok st' := by
    intro ps
    induction ps with
    | nil => intro _ st; exact ⟨st, rfl⟩
    | cons p ps ih =>
      intro hh st
      have : ∃ s1, viewConnStep M st p = .ok s1 := by
        unfold viewConnStep
        cases hc : M.conns.lookup p.name with
        | none => exact ⟨_, rfl⟩
        | some c =>
          obtain ⟨s, i⟩ := c
          obtain ⟨rfl, hu⟩ := hh p (by simp) s i hc
          obtain ⟨S, hS⟩ := Option.isSome_iff_exists.1 hu
          dsimp only
          rw [hS]
          exact ⟨_, rfl⟩
      obtain ⟨s1, h1⟩ := this
      obtain ⟨st', h2⟩ := ih (fun p hp => hh p (by simp [hp])) s1
      exact ⟨st', by rw [List.foldlM_cons, h1]; exact h2⟩
  obtain ⟨st, hst⟩ := gen M.params h ([], [])
  exact ⟨_, by unfold viewConns; rw [hst]⟩

/-! ## Concrete systems -/

/-- Source 10 with three entries feeds parameter 1 (all, in other units) and parameter 2 (two entries); parameter 3 is not connected; nothing is
connected to source 11. -/
def viewEx : ViewSys Nat Int where
  params := [⟨1, [0, 0, 0], [0, 0, 0], some (2, 1)⟩, ⟨2, [0, 0], [0, 0], none⟩, ⟨3, [7], [7], none⟩]
  unknowns := [(10, ⟨some [3], [5, 6, 7]⟩), (11, ⟨none, [9]⟩)]
  conns := [(1, (10, none)), (2, (10, some [2, 0]))]

/-- Nothing is connected to source 11. -/
example : (11, ⟨none, [9]⟩) ∈ viewEx.unknowns ∧ (viewEx.unknowns.map Prod.fst).Nodup ∧ ∀ p ∈ viewEx.params, ¬ viewEx.To 11 p.name := by
  refine ⟨.tail _ (.head _), by decide, ?_⟩
  intro p hp
  simp only [viewEx, List.mem_cons, List.not_mem_nil, or_false] at hp
  rcases hp with rfl | rfl | rfl <;> rintro ⟨i, h⟩ <;> simp [viewEx, List.lookup] at h

example : viewEx.params.map ViewParam.name = [1, 2, 3] ∧ (viewConns viewEx).toOption.map (fun T => (T.src2tgts, T.vals, T.noconn, T.noconnSrcs)) =
    some ([(10, [1, 2])], [(1, [12, 14, 16]), (2, [7, 5]), (3, [7]), (11, [9])], [3], [11]) := by decide

/-- **Refutation: indices into an array with two dimensions.** They are indices into the flat array, but rows are taken: with the indices 0, 1
into a two by two array all four entries are shown, with the index 3 there is an `IndexError`. -/
theorem C176_rows_taken_refuted : ∃ (M : ViewSys Nat Int) (T : ViewTab Nat Int), viewConns M = .ok T ∧
    M.conns.lookup 1 = some (10, some [0, 1]) ∧ (∀ v, Received [5, 6, 7, 8] (some [0, 1]) v → v = [5, 6]) ∧
    M.unknowns.lookup 10 = some ⟨some [2, 2], [5, 6, 7, 8]⟩ ∧ T.vals.lookup 1 = some [5, 6, 7, 8] ∧
    viewConns { M with conns := [(1, (10, some [3]))] } = .error .IndexError := by
  refine ⟨⟨[⟨1, [0, 0], [0, 0], none⟩], [(10, ⟨some [2, 2], [5, 6, 7, 8]⟩)], [(1, (10, some [0, 1]))]⟩, _, rfl, rfl, ?_, rfl, rfl, rfl⟩
  intro v hv
  cases hv with
  | cons h1 hv =>
    cases hv with
    | cons h2 hv =>
      cases hv
      have e1 := h1.2
      have e2 := h2.2
      simp at e1 e2
      rw [e1, e2]

/-- **Refutation: indices into a number.** An array may be connected to a number with indices that are all zero. There is no table then. -/
theorem C176_scalar_refuted : ∃ M : ViewSys Nat Int, M.conns.lookup 1 = some (10, some [0, 0]) ∧ Received [5] (some [0, 0]) [5, 5] ∧
    M.unknowns.lookup 10 = some ⟨none, [5]⟩ ∧ viewConns M = .error .IndexError :=
  ⟨⟨[⟨1, [0, 0], [0, 0], none⟩], [(10, ⟨none, [5]⟩)], [(1, (10, some [0, 0]))]⟩, rfl,
    .cons ⟨by decide, rfl⟩ (.cons ⟨by decide, rfl⟩ .nil), rfl, rfl⟩

/-- **Refutation: a subsystem.** A system inside the model may be given. If one of its parameters is connected to something outside, there is no
table: the connections are those of the whole problem, the unknowns those of the system. -/
theorem C176_subsystem_refuted : ∃ M : ViewSys Nat Int, M.conns.lookup 1 = some (10, none) ∧ M.unknowns.lookup 10 = none ∧
    viewConns M = .error .KeyError :=
  ⟨⟨[⟨1, [0], [0], none⟩], [], [(1, (10, none))]⟩, rfl, rfl, rfl⟩

/-- **Refutation: a parameter without connection.** The user has set it to 8 after `setup`; the table shows the value it was declared with. -/
theorem C176_unconnected_refuted : ∃ (M : ViewSys Nat Int) (T : ViewTab Nat Int) (p : ViewParam Nat Int), p ∈ M.params ∧ p.cur = [8] ∧
    viewConns M = .ok T ∧ T.vals.lookup p.name = some [7] :=
  ⟨⟨[⟨1, [7], [8], none⟩], [], []⟩, _, ⟨1, [7], [8], none⟩, by simp, rfl, rfl, rfl⟩

end OpenMDAO
