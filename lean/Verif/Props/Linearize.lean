import Verif.Spec.Linearize
import Verif.Lemmas.Connections
import Verif.Lemmas.FiniteDiff
import Mathlib.Data.List.Induction
import Mathlib.Data.List.Forall2
import Mathlib.Tactic.Tauto
/-! Theorems about the linearization of a component (C166). -/
namespace OpenMDAO
set_option linter.unusedSectionVars false

variable {P K : Type} [Zero K]

/-! ## The allocated dictionary -/

theorem fold_dictSet_iff {α β : Type} [DecidableEq α] [BEq α] [LawfulBEq α] (l : List (α × β)) (hf : ∀ k v v', (k, v) ∈ l → (k, v') ∈ l → v = v') (k : α) (v : β) :
    (l.foldl (fun d e => dictSet d e.1 e.2) []).lookup k = some v ↔ (k, v) ∈ l := by
  induction l using List.reverseRecOn generalizing v with
  | nil => simp
  | append_singleton l e ih =>
    have hf' : ∀ k v v', (k, v) ∈ l → (k, v') ∈ l → v = v' := fun k v v' h h' => hf k v v' (List.mem_append_left _ h) (List.mem_append_left _ h')
    rw [List.foldl_append, List.foldl_cons, List.foldl_nil, lookup_dictSet, List.mem_append, List.mem_singleton]
    by_cases h : k = e.1
    · rw [if_pos h]
      constructor
      · intro e'
        injection e' with e'
        right; rw [h, ← e']
      · rintro (h' | h')
        · rw [hf k v e.2 (List.mem_append_left _ h') (by rw [h]; simp)]
        · rw [← h']
    · rw [if_neg h, ih hf']
      constructor
      · exact Or.inl
      · rintro (h' | h')
        · exact h'
        · exact absurd (by rw [← h']) h

/-- The entries that are allocated. -/
def jacEntries (c : JComp) : List (JKey × JVal K) :=
  (c.unknowns.filter JVar.used).flatMap fun u =>
    (c.params.filter JVar.used).map (fun p => ((u.name, p.name), jzeros u.size p.size)) ++
      ((c.unknowns.filter JVar.used).filter JVar.state).map (fun s => ((u.name, s.name), jzeros u.size s.size))

theorem freshJac_entries (c : JComp) : (freshJac c : JacDict K) = (jacEntries c).foldl (fun d e => dictSet d e.1 e.2) [] := by
  unfold freshJac jacEntries
  rw [List.foldl_flatMap]
  congr 1
  funext jac u
  rw [List.foldl_append, List.foldl_map, List.foldl_map]

theorem mem_jacEntries (c : JComp) (k : JKey) (J : JVal K) : (k, J) ∈ jacEntries c ↔
    ∃ u ∈ c.unknowns, u.used = true ∧ ∃ q : JVar, q.used = true ∧ (q ∈ c.params ∨ (q ∈ c.unknowns ∧ q.state = true)) ∧ k = (u.name, q.name) ∧ J = jzeros u.size q.size := by
  unfold jacEntries
  simp only [List.mem_flatMap, List.mem_filter, List.mem_append, List.mem_map, Prod.mk.injEq]
  constructor
  · rintro ⟨u, ⟨h1, h2⟩, ⟨p, ⟨h3, h4⟩, h5, h6⟩ | ⟨s, ⟨⟨h3, h4⟩, h7⟩, h5, h6⟩⟩
    · exact ⟨u, h1, h2, p, h4, Or.inl h3, h5.symm, h6.symm⟩
    · exact ⟨u, h1, h2, s, h4, Or.inr ⟨h3, h7⟩, h5.symm, h6.symm⟩
  · rintro ⟨u, h1, h2, q, h4, h3 | ⟨h3, h7⟩, h5, h6⟩
    · exact ⟨u, ⟨h1, h2⟩, Or.inl ⟨q, ⟨h3, h4⟩, h5.symm, h6.symm⟩⟩
    · exact ⟨u, ⟨h1, h2⟩, Or.inr ⟨q, ⟨⟨h3, h4⟩, h7⟩, h5.symm, h6.symm⟩⟩

theorem jvar_of_name {l : List JVar} (h : (l.map JVar.name).Nodup) {a b : JVar} (ha : a ∈ l) (hb : b ∈ l) (e : a.name = b.name) : a = b :=
  List.inj_on_of_nodup_map h ha hb e

/-- C166. `alloc_jacobian` of a component that has not been linearized gives a zero matrix, of the size of the unknown by the size of the input, for every pair of an unknown and a param or state that are
local and not passed by object, and nothing else. -/
theorem C166_alloc (c : JComp) (hd : c.Distinct) (a b : String) (J : JVal K) :
    (allocJac c (some [])).lookup (a, b) = some J ↔
      ∃ u ∈ c.unknowns, (u.pbo = false ∧ u.remote = false) ∧ u.name = a ∧ ∃ q : JVar, (q.pbo = false ∧ q.remote = false) ∧ q.name = b ∧ (q ∈ c.params ∨ (q ∈ c.unknowns ∧ q.state = true)) ∧
        J = .arr2 (List.replicate u.size (List.replicate q.size 0)) := by
  have hu : ∀ v : JVar, (v.pbo = false ∧ v.remote = false) ↔ v.used = true := fun v => by simp [JVar.used]
  simp only [hu]
  have e : allocJac c (some []) = (freshJac c : JacDict K) := rfl
  rw [e, freshJac_entries, fold_dictSet_iff, mem_jacEntries]
  · constructor
    · rintro ⟨u, h1, h2, q, h3, h4, h5, h6⟩
      injection h5 with h5 h7
      exact ⟨u, h1, h2, h5.symm, q, h3, h7.symm, h4, h6⟩
    · rintro ⟨u, h1, h2, rfl, q, h3, rfl, h4, h6⟩
      exact ⟨u, h1, h2, q, h3, h4, rfl, h6⟩
  · intro k v v' h h'
    rw [mem_jacEntries] at h h'
    obtain ⟨u, h1, h2, q, h3, h4, rfl, rfl⟩ := h
    obtain ⟨u', g1, g2, q', g3, g4, g5, rfl⟩ := h'
    injection g5 with g5 g6
    have m : ∀ {q : JVar}, (q ∈ c.params ∨ (q ∈ c.unknowns ∧ q.state = true)) → q ∈ c.params ++ c.unknowns := by
      intro q h; rw [List.mem_append]; tauto
    rw [jvar_of_name hd (List.mem_append_right _ h1) (List.mem_append_right _ g1) g5, jvar_of_name hd (m h4) (m g4) g6]

/-! ## Linearizing again -/

theorem linearizeAll_snoc (c : JComp) (o : LinOpts) (fd : P → Except PyErr (JacDict K)) (lin : LinFn P K) (xs : List P) (x : P) (cache : Option (JacDict K)) (h : linearizeAll c o fd lin xs = .ok cache) :
    linearizeAll c o fd lin (xs ++ [x]) = sysLinearize c o fd lin x cache := by
  unfold linearizeAll at h ⊢
  rw [List.foldlM_append, h]
  simp only [bind, Except.bind, List.foldlM_cons, List.foldlM_nil]
  cases sysLinearize c o fd lin x cache <;> rfl

/-- C166 (partial). With finite differences, or when `linearize` makes its own dictionary, the Jacobian depends on the point only: it is the same after any history of linearizations as for a new component. Missing:
`linearize` with `alloc_jacobian`, see `C166_alloc_history_partial` and `C166_stale_refuted`. -/
theorem C166_no_history_partial (c : JComp) (o : LinOpts) (fd : P → Except PyErr (JacDict K)) (lin : LinFn P K) (hown : (∃ f, lin = .own f) ∨ isNotUser o.type = true) (xs : List P) (x : P)
    (cache : Option (JacDict K)) (h : linearizeAll c o fd lin xs = .ok cache) : linearizeAll c o fd lin (xs ++ [x]) = linearizeAll c o fd lin [x] := by
  rw [linearizeAll_snoc c o fd lin xs x cache h]
  have e := linearizeAll_snoc c o fd lin [] x (some []) rfl
  rw [List.nil_append] at e
  rw [e]
  unfold sysLinearize
  by_cases hu : isNotUser o.type = true
  · rw [if_pos hu, if_pos hu]
  · rw [if_neg hu, if_neg hu]
    rcases hown with ⟨f, rfl⟩ | h1
    · simp only [callLinearize]
      cases f x <;> rfl
    · exact absurd h1 hu

/-- C166 (partial). Which Jacobian that is: with the literal `'user'` what `linearize` returned, with another type the finite differences, each entry made two-dimensional. Missing: `alloc_jacobian` under finite
differences, see `C166_fd_overwritten_refuted`, and a string `'user'` that is not the literal, see `C166_type_refuted`. -/
theorem C166_value_partial (c : JComp) (o : LinOpts) (fd : P → Except PyErr (JacDict K)) (f : P → Except PyErr (Option (JacDict K))) (x : P) (cache : Option (JacDict K)) :
    (o.type = litUser → ∀ jac, f x = .ok jac → sysLinearize c o fd (.own f) x cache = normJac jac) ∧
    (o.type.text ≠ "user" → ∀ d jac, fd x = .ok d → f x = .ok jac → sysLinearize c o fd (.own f) x cache = normJac (some d)) := by
  constructor
  · intro ht jac hf
    unfold sysLinearize
    rw [ht, if_neg (by decide)]
    simp only [callLinearize, hf]
  · intro ht d jac hfd hf
    have hn : isNotUser o.type = true := by unfold isNotUser; simp [ht]
    unfold sysLinearize
    rw [if_pos hn, hfd]
    simp only [callLinearize, hf]
    split <;> rfl

/-- Two arrays that agree outside some positions. -/
def AgreeVal (S : JPos → Prop) (k : JKey) (a b : JVal K) : Prop :=
  ∃ R R' : List (List K), a = .arr2 R ∧ b = .arr2 R' ∧ R.map List.length = R'.map List.length ∧ ∀ i j : Nat, ¬ S (k, i, j) → entry2 R i j = entry2 R' i j

/-- Two dictionaries with the same keys and shapes that agree outside some positions. -/
def AgreeJ (S : JPos → Prop) (a b : JacDict K) : Prop := List.Forall₂ (fun e f => e.1 = f.1 ∧ AgreeVal S e.1 e.2 f.2) a b

theorem AgreeJ.lookup {S : JPos → Prop} {a b : JacDict K} (h : AgreeJ S a b) (k : JKey) :
    (a.lookup k = none ∧ b.lookup k = none) ∨ ∃ x y, a.lookup k = some x ∧ b.lookup k = some y ∧ AgreeVal S k x y := by
  induction h with
  | nil => exact Or.inl ⟨rfl, rfl⟩
  | @cons e f a b he _ ih =>
    obtain ⟨ke, ve⟩ := e
    obtain ⟨kf, vf⟩ := f
    obtain ⟨rfl, hv⟩ := he
    rw [List.lookup_cons, List.lookup_cons]
    by_cases hk : k = ke
    · subst hk
      simp only [beq_self_eq_true]
      exact Or.inr ⟨ve, vf, rfl, rfl, hv⟩
    · have : (k == ke) = false := by simp [hk]
      simp only [this]
      exact ih

theorem AgreeVal.mono {S T : JPos → Prop} {k : JKey} {a b : JVal K} (h : AgreeVal S k a b) (hm : ∀ i j, S (k, i, j) → T (k, i, j)) : AgreeVal T k a b := by
  obtain ⟨R, R', h1, h2, h3, h4⟩ := h
  exact ⟨R, R', h1, h2, h3, fun i j hn => h4 i j (fun hs => hn (hm i j hs))⟩

theorem AgreeJ.set {S T : JPos → Prop} {a b : JacDict K} (h : AgreeJ S a b) (k : JKey) {x y : JVal K} (hxy : AgreeVal T k x y) (hm : ∀ k' i j, k' ≠ k → S (k', i, j) → T (k', i, j))
    (hk : (a.map Prod.fst).Nodup) (hmem : k ∈ a.map Prod.fst) : AgreeJ T (dictSet a k x) (dictSet b k y) := by
  induction h with
  | nil => simp at hmem
  | @cons e f a b he ht ih =>
    obtain ⟨ke, ve⟩ := e
    obtain ⟨kf, vf⟩ := f
    obtain ⟨rfl, hv⟩ := he
    rw [List.map_cons, List.nodup_cons] at hk
    unfold dictSet
    by_cases hke : ke = k
    · subst hke
      rw [if_pos rfl, if_pos rfl]
      refine .cons ⟨rfl, hxy⟩ ?_
      have hall : ∀ e ∈ a, e.1 ≠ ke := fun e he hne => hk.1 (List.mem_map.mpr ⟨e, he, hne⟩)
      clear ih hk hmem
      induction ht with
      | nil => exact .nil
      | @cons e f a b he ht ih2 =>
        refine .cons ⟨he.1, he.2.mono (fun i j hs => hm _ i j (hall e (by simp)) hs)⟩ (ih2 (fun e he => hall e (List.mem_cons_of_mem _ he)))
    · rw [if_neg hke, if_neg hke]
      refine .cons ⟨rfl, hv.mono (fun i j hs => hm _ i j hke hs)⟩ (ih hk.2 ?_)
      rw [List.map_cons, List.mem_cons] at hmem
      rcases hmem with h | h
      · exact absurd h.symm hke
      · exact h

theorem entry2_set (R : List (List K)) (i j : Nat) (v : K) (r : List K) (hr : R[i]? = some r) (hj : j < r.length) (a b : Nat) :
    entry2 (R.set i (r.set j v)) a b = if a = i ∧ b = j then some v else entry2 R a b := by
  unfold entry2
  rw [List.getElem?_set]
  have hi : i < R.length := (List.getElem?_eq_some_iff.mp hr).1
  by_cases ha : i = a
  · subst ha
    rw [if_pos rfl, if_pos hi]
    simp only [Option.bind_some, hr, List.getElem?_set, true_and]
    by_cases hb : j = b
    · subst hb; simp [hj]
    · rw [if_neg hb, if_neg (fun e => hb e.symm)]
  · rw [if_neg ha, if_neg (fun e => ha e.1.symm)]

/-- One assignment makes two dictionaries agree at its position as well, and fails on both or on none. -/
theorem AgreeJ.write {S : JPos → Prop} {a b : JacDict K} (h : AgreeJ S a b) (hk : (a.map Prod.fst).Nodup) (w : JWrite K) :
    (∃ e, writeJac a w = .error e ∧ writeJac b w = .error e) ∨
    ∃ a' b', writeJac a w = .ok a' ∧ writeJac b w = .ok b' ∧ AgreeJ (fun q => S q ∧ q ≠ (w.key, w.row, w.col)) a' b' ∧ (a'.map Prod.fst).Nodup := by
  unfold writeJac
  rcases h.lookup w.key with ⟨h1, h2⟩ | ⟨x, y, h1, h2, h3⟩
  · rw [h1, h2]; exact Or.inl ⟨_, rfl, rfl⟩
  · rw [h1, h2]
    dsimp only
    obtain ⟨R, R', rfl, rfl, hl, hent⟩ := h3
    simp only [setEntry]
    have hlen : R.length = R'.length := by simpa using congrArg List.length hl
    have hrow : ∀ i : Nat, (R[i]?).map List.length = (R'[i]?).map List.length := by
      intro i; rw [← List.getElem?_map, ← List.getElem?_map, hl]
    have hi := hrow w.row
    cases hr : R[w.row]? with
    | none =>
      rw [hr] at hi
      cases hr' : R'[w.row]? with
      | none => exact Or.inl ⟨_, rfl, rfl⟩
      | some r' => rw [hr'] at hi; simp at hi
    | some r =>
      rw [hr] at hi
      cases hr' : R'[w.row]? with
      | none => rw [hr'] at hi; simp at hi
      | some r' =>
        rw [hr'] at hi
        simp only [Option.map_some, Option.some.injEq] at hi
        dsimp only
        by_cases hj : w.col < r.length
        · rw [if_pos hj, if_pos (by omega)]
          right
          refine ⟨_, _, rfl, rfl, ?_, nodup_keys_dictSet _ _ _ hk⟩
          apply h.set w.key (T := fun q => S q ∧ q ≠ (w.key, w.row, w.col)) _ _ hk
          · obtain ⟨e, he, hek⟩ : ∃ e ∈ a, e.1 = w.key := by
              exact ⟨_, lookup_mem h1, rfl⟩
            exact List.mem_map.mpr ⟨e, he, hek⟩
          · refine ⟨_, _, rfl, rfl, ?_, ?_⟩
            · rw [List.map_set, List.map_set, List.length_set, List.length_set, hl, hi]
            · intro i j hn
              rw [entry2_set R _ _ _ r hr hj, entry2_set R' _ _ _ r' hr' (by omega)]
              by_cases hij : i = w.row ∧ j = w.col
              · rw [if_pos hij, if_pos hij]
              · rw [if_neg hij, if_neg hij]
                apply hent
                intro hs
                apply hn
                refine ⟨hs, ?_⟩
                intro e
                injection e with _ e
                injection e with e1 e2
                exact hij ⟨e1, e2⟩
          · intro k' i j hne hs
            refine ⟨hs, ?_⟩
            intro e
            injection e with e _
            exact hne e
        · rw [if_neg hj, if_neg (by omega)]
          exact Or.inl ⟨_, rfl, rfl⟩

/-- A list of assignments makes two dictionaries agree at all positions it sets, and fails on both or on none. -/
theorem AgreeJ.writes : ∀ (ws : List (JWrite K)) {S : JPos → Prop} {a b : JacDict K}, AgreeJ S a b → (a.map Prod.fst).Nodup →
    (∃ e, ws.foldlM writeJac a = .error e ∧ ws.foldlM writeJac b = .error e) ∨
    ∃ a' b', ws.foldlM writeJac a = .ok a' ∧ ws.foldlM writeJac b = .ok b' ∧ AgreeJ (fun q => S q ∧ ¬ written ws q) a' b' ∧ (a'.map Prod.fst).Nodup
  | [], S, a, b, h, hk => by
    refine Or.inr ⟨a, b, rfl, rfl, ?_, hk⟩
    exact h.imp (fun e f he => ⟨he.1, he.2.mono (fun i j hs => ⟨hs, by rintro ⟨w, hw, -⟩; simp at hw⟩)⟩)
  | w :: ws, S, a, b, h, hk => by
    rw [List.foldlM_cons, List.foldlM_cons]
    rcases h.write hk w with ⟨e, h1, h2⟩ | ⟨a', b', h1, h2, h3, h4⟩
    · rw [h1, h2]; exact Or.inl ⟨e, rfl, rfl⟩
    · rw [h1, h2]
      rcases AgreeJ.writes ws h3 h4 with ⟨e, g1, g2⟩ | ⟨a'', b'', g1, g2, g3, g4⟩
      · exact Or.inl ⟨e, g1, g2⟩
      · refine Or.inr ⟨a'', b'', g1, g2, ?_, g4⟩
        refine g3.imp (fun e f he => ⟨he.1, he.2.mono ?_⟩)
        rintro i j ⟨⟨hs, hq⟩, hn⟩
        refine ⟨hs, ?_⟩
        rintro ⟨w', hw', e'⟩
        rcases List.mem_cons.mp hw' with rfl | hw'
        · exact hq e'.symm
        · exact hn ⟨w', hw', e'⟩

theorem entry2_ext {R R' : List (List K)} (hl : R.map List.length = R'.map List.length) (h : ∀ i j, entry2 R i j = entry2 R' i j) : R = R' := by
  apply List.ext_getElem?
  intro i
  have hrow : (R[i]?).map List.length = (R'[i]?).map List.length := by rw [← List.getElem?_map, ← List.getElem?_map, hl]
  cases hr : R[i]? with
  | none =>
    cases hr' : R'[i]? with
    | none => rfl
    | some r' => rw [hr, hr'] at hrow; simp at hrow
  | some r =>
    cases hr' : R'[i]? with
    | none => rw [hr, hr'] at hrow; simp at hrow
    | some r' =>
      congr 1
      apply List.ext_getElem?
      intro j
      have := h i j
      unfold entry2 at this
      rw [hr, hr'] at this
      simpa using this

/-- Dictionaries that agree everywhere are equal. -/
theorem AgreeJ.eq {S : JPos → Prop} {a b : JacDict K} (h : AgreeJ S a b) (hs : ∀ q, ¬ S q) : a = b := by
  induction h with
  | nil => rfl
  | @cons e f a b he _ ih =>
    obtain ⟨ke, ve⟩ := e
    obtain ⟨kf, vf⟩ := f
    obtain ⟨rfl, R, R', h1, h2, h3, h4⟩ := he
    dsimp only at h1 h2
    subst h1 h2
    rw [ih, entry2_ext h3 (fun i j => h4 i j (hs _))]

/-- A dictionary of two-dimensional arrays agrees with itself. -/
theorem AgreeJ.refl (a : JacDict K) (h : ∀ e ∈ a, ∃ R, e.2 = .arr2 R) : AgreeJ (fun _ => False) a a := by
  unfold AgreeJ
  rw [List.forall₂_same]
  intro e he
  obtain ⟨R, hR⟩ := h e he
  exact ⟨rfl, R, R, hR, hR, rfl, fun _ _ _ => rfl⟩

theorem AgreeJ.norm {S : JPos → Prop} {a b : JacDict K} (h : AgreeJ S a b) : normJac (some a) = .ok (some a) := by
  have : a.mapM normEntry = .ok a := by
    induction h with
    | nil => rfl
    | @cons e f a b he _ ih =>
      obtain ⟨ke, ve⟩ := e
      obtain ⟨-, R, R', h1, -⟩ := he
      dsimp only at h1
      subst h1
      rw [List.mapM_cons, ih]
      rfl
  unfold normJac
  simp only [this]

theorem fresh_arr2 (c : JComp) : ∀ e ∈ (freshJac c : JacDict K), ∃ R, e.2 = .arr2 R := by
  rw [freshJac_entries]
  have key : ∀ (l : List (JKey × JVal K)) (d : JacDict K), (∀ e ∈ l, ∃ R, e.2 = .arr2 R) → (∀ e ∈ d, ∃ R, e.2 = .arr2 R) → ∀ e ∈ l.foldl (fun d e => dictSet d e.1 e.2) d, ∃ R, e.2 = .arr2 R := by
    intro l
    induction l with
    | nil => intro d _ h; exact h
    | cons e l ih =>
      intro d hl hd
      rw [List.foldl_cons]
      apply ih _ (fun x hx => hl x (List.mem_cons_of_mem _ hx))
      intro x hx
      rcases mem_dictSet _ _ _ _ hx with h | h
      · exact hd x h
      · rw [h]; exact hl e (by simp)
  apply key _ _ _ (by simp)
  rintro ⟨k, J⟩ he
  rw [mem_jacEntries] at he
  obtain ⟨u, _, _, q, _, _, _, rfl⟩ := he
  exact ⟨_, rfl⟩

theorem fresh_nodup (c : JComp) : ((freshJac c : JacDict K).map Prod.fst).Nodup := by
  rw [freshJac_entries]
  have key : ∀ (l : List (JKey × JVal K)) (d : JacDict K), (d.map Prod.fst).Nodup → ((l.foldl (fun d e => dictSet d e.1 e.2) d).map Prod.fst).Nodup := by
    intro l
    induction l with
    | nil => intro d h; exact h
    | cons e l ih => intro d h; rw [List.foldl_cons]; exact ih _ (nodup_keys_dictSet _ _ _ h)
  exact key _ _ (by simp)

/-- What the cache can be after linearizations with `alloc_jacobian`: empty, or like a new dictionary except at positions that were set. -/
def CacheInv (c : JComp) (T : JPos → Prop) (cache : Option (JacDict K)) : Prop :=
  ∃ d, cache = some d ∧ (d = [] ∨ (AgreeJ T d (freshJac c) ∧ (d.map Prod.fst).Nodup))

theorem CacheInv.alloc {c : JComp} {T : JPos → Prop} {cache : Option (JacDict K)} (h : CacheInv c T cache) : AgreeJ T (allocJac c cache) (freshJac c) ∧ ((allocJac c cache).map Prod.fst).Nodup := by
  obtain ⟨d, rfl, h⟩ := h
  have base : AgreeJ T (freshJac c : JacDict K) (freshJac c) := (AgreeJ.refl _ (fresh_arr2 c)).imp (fun e f he => ⟨he.1, he.2.mono (fun _ _ hf => hf.elim)⟩)
  cases d with
  | nil => exact ⟨base, fresh_nodup c⟩
  | cons e es =>
    rcases h with h | h
    · cases h
    · exact h

theorem dictSet_own {α β : Type} [DecidableEq α] [BEq α] [LawfulBEq α] (d : List (α × β)) (k : α) (v : β) (h : d.lookup k = some v) : dictSet d k v = d := by
  induction d with
  | nil => simp at h
  | cons e d ih =>
    obtain ⟨a, b⟩ := e
    rw [List.lookup_cons] at h
    unfold dictSet
    by_cases hk : a = k
    · subst hk
      simp only [beq_self_eq_true] at h
      injection h with h
      rw [if_pos rfl, h]
    · have : (k == a) = false := by simp only [beq_eq_false_iff_ne]; exact fun e => hk e.symm
      simp only [this] at h
      rw [if_neg hk, ih h]

/-- One assignment changes nothing but its position. -/
theorem AgreeJ.frame {S : JPos → Prop} {a a' F : JacDict K} (h : AgreeJ S a F) (hk : (a.map Prod.fst).Nodup) (w : JWrite K) (hw : writeJac a w = .ok a') :
    AgreeJ (fun q => S q ∨ q = (w.key, w.row, w.col)) a' F ∧ (a'.map Prod.fst).Nodup := by
  unfold writeJac at hw
  rcases h.lookup w.key with ⟨h1, h2⟩ | ⟨x, y, h1, h2, h3⟩
  · rw [h1] at hw; cases hw
  · rw [h1] at hw
    dsimp only at hw
    obtain ⟨R, R', rfl, rfl, hl, hent⟩ := h3
    simp only [setEntry] at hw
    cases hr : R[w.row]? with
    | none => rw [hr] at hw; cases hw
    | some r =>
      rw [hr] at hw
      dsimp only at hw
      by_cases hj : w.col < r.length
      · rw [if_pos hj] at hw
        injection hw with hw
        subst hw
        refine ⟨?_, nodup_keys_dictSet _ _ _ hk⟩
        rw [← dictSet_own F w.key _ h2]
        apply h.set w.key _ _ hk (List.mem_map.mpr ⟨_, lookup_mem h1, rfl⟩)
        · refine ⟨_, _, rfl, rfl, ?_, ?_⟩
          · rw [List.map_set, List.length_set, ← hl]
            apply List.ext_getElem?
            intro i
            rw [List.getElem?_set]
            by_cases hi : w.row = i
            · subst hi
              have : w.row < R.length := (List.getElem?_eq_some_iff.mp hr).1
              rw [if_pos rfl, List.length_map, if_pos this, List.getElem?_map, hr]
              rfl
            · rw [if_neg hi]
          · intro i j hn
            rw [entry2_set R _ _ _ r hr hj, if_neg]
            · exact hent i j (fun hs => hn (Or.inl hs))
            · rintro ⟨rfl, rfl⟩
              exact hn (Or.inr rfl)
        · intro k' i j _ hs
          exact Or.inl hs
      · rw [if_neg hj] at hw; cases hw

theorem AgreeJ.frames : ∀ (ws : List (JWrite K)) {S : JPos → Prop} {a a' F : JacDict K}, AgreeJ S a F → (a.map Prod.fst).Nodup → ws.foldlM writeJac a = .ok a' →
    AgreeJ (fun q => S q ∨ written ws q) a' F
  | [], S, a, a', F, h, hk, hw => by
    have : a = a' := by injection hw
    subst this
    exact h.imp (fun e f he => ⟨he.1, he.2.mono (fun _ _ hs => Or.inl hs)⟩)
  | w :: ws, S, a, a', F, h, hk, hw => by
    rw [List.foldlM_cons] at hw
    cases h1 : writeJac a w with
    | error e => rw [h1] at hw; cases hw
    | ok b =>
      rw [h1] at hw
      obtain ⟨h2, h3⟩ := h.frame hk w h1
      have := AgreeJ.frames ws h2 h3 hw
      refine this.imp (fun e f he => ⟨he.1, he.2.mono ?_⟩)
      rintro i j ((hs | hs) | ⟨w', hw', e'⟩)
      · exact Or.inl hs
      · exact Or.inr ⟨w, by simp, hs.symm⟩
      · exact Or.inr ⟨w', List.mem_cons_of_mem _ hw', e'⟩

theorem sysLin_alloc (c : JComp) (o : LinOpts) (ht : o.type = litUser) (fd : P → Except PyErr (JacDict K)) (w : P → List (JWrite K)) (x : P) {T : JPos → Prop} {cache : Option (JacDict K)} (h : CacheInv c T cache) :
    (∃ e, sysLinearize c o fd (.alloc w) x cache = .error e ∧ sysLinearize c o fd (.alloc w) x (some []) = .error e) ∨
    ∃ a b, sysLinearize c o fd (.alloc w) x cache = .ok (some a) ∧ sysLinearize c o fd (.alloc w) x (some []) = .ok (some b) ∧ AgreeJ (fun q => T q ∧ ¬ written (w x) q) a b ∧
      AgreeJ (fun q => T q ∨ written (w x) q) a (freshJac c) ∧ (a.map Prod.fst).Nodup := by
  obtain ⟨h1, h2⟩ := h.alloc
  have hn : ¬ isNotUser o.type = true := by rw [ht]; decide
  unfold sysLinearize
  rw [if_neg hn, if_neg hn]
  have e0 : allocJac c (some []) = (freshJac c : JacDict K) := rfl
  simp only [callLinearize, e0]
  rcases AgreeJ.writes (w x) h1 h2 with ⟨e, g1, g2⟩ | ⟨a, b, g1, g2, g3, g4⟩
  · rw [g1, g2]; exact Or.inl ⟨e, rfl, rfl⟩
  · rw [g1, g2]
    right
    have gf := AgreeJ.frames (w x) h1 h2 g1
    have gb : normJac (some b) = .ok (some b) := by
      have gr := AgreeJ.frames (w x) (AgreeJ.refl _ (fresh_arr2 c)) (fresh_nodup c) g2
      exact gr.norm
    dsimp only
    exact ⟨a, b, g3.norm, gb, g3, gf, g4⟩

theorem history_inv (c : JComp) (o : LinOpts) (ht : o.type = litUser) (fd : P → Except PyErr (JacDict K)) (w : P → List (JWrite K)) (xs : List P) (cache : Option (JacDict K))
    (h : linearizeAll c o fd (.alloc w) xs = .ok cache) : CacheInv c (fun q => ∃ y ∈ xs, written (w y) q) cache := by
  induction xs using List.reverseRecOn generalizing cache with
  | nil =>
    have : cache = some [] := by injection h with h; exact h.symm
    exact ⟨[], this, Or.inl rfl⟩
  | append_singleton xs x ih =>
    cases hc : linearizeAll c o fd (.alloc w) xs with
    | error e =>
      unfold linearizeAll at h hc
      rw [List.foldlM_append, hc] at h
      cases h
    | ok c0 =>
      rw [linearizeAll_snoc c o fd _ xs x c0 hc] at h
      rcases sysLin_alloc c o ht fd w x (ih c0 hc) with ⟨e, g1, -⟩ | ⟨a, b, g1, -, -, g4, g5⟩
      · rw [g1] at h; cases h
      · rw [g1] at h
        injection h with h
        subst h
        refine ⟨a, rfl, Or.inr ⟨?_, g5⟩⟩
        refine g4.imp (fun e f he => ⟨he.1, he.2.mono ?_⟩)
        rintro i j (⟨y, hy, hw⟩ | hw)
        · exact ⟨y, List.mem_append_left _ hy, hw⟩
        · exact ⟨x, by simp, hw⟩

/-- C166 (partial). With `alloc_jacobian` the Jacobian at a point is that of a new component, error included, if the call at this point sets every entry that an earlier call has set. Missing: other programs, see
`C166_stale_refuted`. -/
theorem C166_alloc_history_partial (c : JComp) (o : LinOpts) (ht : o.type = litUser) (fd : P → Except PyErr (JacDict K)) (w : P → List (JWrite K)) (xs : List P) (x : P) (cache : Option (JacDict K))
    (h : linearizeAll c o fd (.alloc w) xs = .ok cache) (hcov : ∀ y ∈ xs, ∀ q, written (w y) q → written (w x) q) :
    linearizeAll c o fd (.alloc w) (xs ++ [x]) = linearizeAll c o fd (.alloc w) [x] := by
  rw [linearizeAll_snoc c o fd _ xs x cache h]
  have e := linearizeAll_snoc c o fd (.alloc w) [] x (some []) rfl
  rw [List.nil_append] at e
  rw [e]
  rcases sysLin_alloc c o ht fd w x (history_inv c o ht fd w xs cache h) with ⟨e, g1, g2⟩ | ⟨a, b, g1, g2, g3, -⟩
  · rw [g1, g2]
  · rw [g1, g2, g3.eq]
    rintro q ⟨⟨y, hy, hw⟩, hn⟩
    exact hn (hcov y hy q hw)

/-- C166. Every entry that is kept is two-dimensional: a number is a matrix of size 1 by 1, a one-dimensional array a column, a matrix is as it was, and no key is added, lost or moved. -/
theorem C166_entries (d : JacDict K) (r : Option (JacDict K)) (h : normJac (some d) = .ok r) :
    ∃ n, r = some n ∧ List.Forall₂ (fun e f => f.1 = e.1 ∧ (∃ rows, f.2 = .arr2 rows) ∧ (∀ v, e.2 = .num v → f.2 = .arr2 [[v]]) ∧ (∀ l, e.2 = .arr1 l → f.2 = .arr2 (l.map fun v => [v])) ∧
      (∀ rows, e.2 = .arr2 rows → f.2 = .arr2 rows)) d n := by
  unfold normJac at h
  dsimp only at h
  cases hm : d.mapM normEntry with
  | error e => rw [hm] at h; cases h
  | ok n =>
    rw [hm] at h
    injection h with h
    refine ⟨n, h.symm, ?_⟩
    clear h
    induction d generalizing n with
    | nil =>
      have : n = [] := by injection hm with hm; exact hm.symm
      subst this
      exact .nil
    | cons e d ih =>
      rw [List.mapM_cons] at hm
      cases h1 : normEntry e with
      | error x => rw [h1] at hm; cases hm
      | ok f =>
        rw [h1] at hm
        cases h2 : d.mapM normEntry with
        | error x => rw [h2] at hm; cases hm
        | ok n' =>
          rw [h2] at hm
          have hn : n = f :: n' := by injection hm with hm; exact hm.symm
          subst hn
          refine .cons ?_ (ih n' h2)
          obtain ⟨k, v⟩ := e
          unfold normEntry at h1
          cases v <;> simp only [jac2d] at h1 <;> first | (injection h1 with h1; subst h1; simp) | cases h1

/-- A number, a column and a matrix. -/
example : normJac (some [(("y", "x"), .num (3 : Int)), (("y", "z"), .arr1 [1, 2]), (("w", "z"), .arr2 [[1, 2], [3, 4]])]) =
    .ok (some [(("y", "x"), .arr2 [[3]]), (("y", "z"), .arr2 [[1], [2]]), (("w", "z"), .arr2 [[1, 2], [3, 4]])]) := by decide

theorem AgreeJ.jacEntry {S : JPos → Prop} {a b : JacDict K} (h : AgreeJ S a b) (q : JPos) (hq : ¬ S q) : jacEntry a q = OpenMDAO.jacEntry b q := by
  unfold OpenMDAO.jacEntry
  rcases h.lookup q.1 with ⟨h1, h2⟩ | ⟨x, y, h1, h2, R, R', rfl, rfl, hl, hent⟩
  · rw [h1, h2]
  · rw [h1, h2]
    exact hent q.2.1 q.2.2 hq

theorem AgreeJ.arr2 {S : JPos → Prop} {a b : JacDict K} (h : AgreeJ S a b) : ∀ e ∈ a, ∃ R, e.2 = .arr2 R := by
  induction h with
  | nil => intro e he; cases he
  | @cons e f a b he _ ih =>
    intro e' h'
    rcases List.mem_cons.mp h' with rfl | h'
    · obtain ⟨-, R, R', h1, -⟩ := he
      exact ⟨R, h1⟩
    · exact ih e' h'

theorem writeJac_entry {a b : JacDict K} (w : JWrite K) (h : writeJac a w = .ok b) : jacEntry b (w.key, w.row, w.col) = some w.val := by
  unfold writeJac at h
  cases h1 : a.lookup w.key with
  | none => rw [h1] at h; cases h
  | some J =>
    rw [h1] at h
    dsimp only at h
    cases J with
    | num v => cases h
    | arr0 v => cases h
    | arr1 v => cases h
    | arr2 R =>
      simp only [setEntry] at h
      cases hr : R[w.row]? with
      | none => rw [hr] at h; cases h
      | some r =>
        rw [hr] at h
        dsimp only at h
        by_cases hj : w.col < r.length
        · rw [if_pos hj] at h
          injection h with h
          subst h
          unfold jacEntry
          rw [lookup_dictSet, if_pos rfl]
          dsimp only
          rw [entry2_set R _ _ _ r hr hj, if_pos ⟨rfl, rfl⟩]
        · rw [if_neg hj] at h; cases h

/-- C166. What a new component has after `linearize` with `alloc_jacobian`: the last value that was set where something was set, the allocated zero elsewhere. -/
theorem C166_alloc_value (c : JComp) (lo : Bool) (fd : P → Except PyErr (JacDict K)) (w : P → List (JWrite K)) (x : P) (J : JacDict K)
    (h : linearizeAll c ⟨litUser, lo⟩ fd (.alloc w) [x] = .ok (some J)) :
    (∀ q, ¬ written (w x) q → jacEntry J q = jacEntry (allocJac c (some [])) q) ∧
    (∀ pre w0 post, w x = pre ++ w0 :: post → ¬ written post (w0.key, w0.row, w0.col) → jacEntry J (w0.key, w0.row, w0.col) = some w0.val) := by
  have e := linearizeAll_snoc c ⟨litUser, lo⟩ fd (.alloc w) [] x (some []) rfl
  rw [List.nil_append] at e
  rw [e] at h
  have hn : ¬ isNotUser litUser = true := by decide
  unfold sysLinearize at h
  rw [if_neg hn] at h
  have e0 : allocJac c (some []) = (freshJac c : JacDict K) := rfl
  simp only [callLinearize, e0] at h
  have hr := AgreeJ.refl (freshJac c : JacDict K) (fresh_arr2 c)
  cases hw : (w x).foldlM writeJac (freshJac c) with
  | error e => rw [hw] at h; cases h
  | ok b =>
    rw [hw] at h
    have gf := AgreeJ.frames (w x) hr (fresh_nodup c) hw
    have hb : b = J := by
      have g1 := gf.norm
      dsimp only at h
      rw [g1] at h
      injection h with h
      injection h
    subst hb
    constructor
    · intro q hq
      rw [e0]
      exact gf.jacEntry q (fun hs => hs.elim (fun f => f) hq)
    · intro pre w0 post hsplit hnp
      rw [hsplit, List.foldlM_append] at hw
      cases h1 : pre.foldlM writeJac (freshJac c : JacDict K) with
      | error e => rw [h1] at hw; cases hw
      | ok a1 =>
        rw [h1] at hw
        change (w0 :: post).foldlM writeJac a1 = _ at hw
        rw [List.foldlM_cons] at hw
        cases h2 : writeJac a1 w0 with
        | error e => rw [h2] at hw; cases hw
        | ok a2 =>
          rw [h2] at hw
          change post.foldlM writeJac a2 = _ at hw
          have k1 := AgreeJ.frames pre hr (fresh_nodup c) h1
          rcases AgreeJ.writes pre hr (fresh_nodup c) with ⟨e, g1, -⟩ | ⟨a, b', g1, -, -, g4⟩
          · rw [h1] at g1; cases g1
          · rw [h1] at g1
            injection g1 with g1
            subst g1
            obtain ⟨k2, n2⟩ := k1.frame g4 w0 h2
            have k3 : AgreeJ (fun _ => False) a2 a2 := AgreeJ.refl a2 (AgreeJ.arr2 k2)
            have k4 := AgreeJ.frames post k3 n2 hw
            rw [k4.jacEntry _ (fun hs => hs.elim (fun f => f) hnp)]
            exact writeJac_entry w0 h2

/-! ## Samples and what is false -/

/-- An output `y` of size 1 and a param `x` of size 2. -/
def linSample : JComp := ⟨[⟨"x", 2, false, false, false⟩, ⟨"s", 1, true, false, false⟩], [⟨"y", 1, false, false, false⟩]⟩

/-- `y = max(x0, x1)`: only the derivative that is not zero is set. -/
def linMax (x : Int × Int) : List (JWrite Int) := if x.2 < x.1 then [⟨("y", "x"), 0, 0, 1⟩] else [⟨("y", "x"), 0, 1, 1⟩]

example : linSample.Distinct ∧ (allocJac linSample (some []) : JacDict Int) = [(("y", "x"), .arr2 [[0, 0]])] := by
  refine ⟨by unfold JComp.Distinct; decide, by decide⟩

/-- An entry set twice, another one not at all. -/
example : linearizeAll linSample ⟨litUser, false⟩ (fun _ => .ok []) (.alloc fun _ : Unit => [⟨("y", "x"), 0, 1, (4 : Int)⟩, ⟨("y", "x"), 0, 1, 5⟩]) [()] = .ok (some [(("y", "x"), .arr2 [[0, 5]])]) := by decide

/-- The condition of `C166_alloc_history_partial` for points on one side. -/
example : linearizeAll linSample ⟨litUser, false⟩ (fun _ => .ok []) (.alloc linMax) [(3, 1), (5, 2)] = .ok (some [(("y", "x"), .arr2 [[1, 0]])]) ∧
    (∀ y ∈ [((3 : Int), (1 : Int))], ∀ q, written (linMax y) q → written (linMax (5, 2)) q) := by
  refine ⟨by decide, ?_⟩
  intro y hy q h
  rw [List.mem_singleton] at hy
  subst hy
  exact h

/-- C166 is false of the code: the larger of two params, linearized where the first is larger and then where the second is. `linearize` sets the derivative that is one in the dictionary of `alloc_jacobian`, which should be
zero otherwise; but at the second point it is the dictionary of the first, and the Jacobian is [1, 1] instead of [0, 1]. -/
theorem C166_stale_refuted :
    linearizeAll linSample ⟨litUser, false⟩ (fun _ => .ok []) (.alloc linMax) [(3, 1), (2, 5)] = .ok (some [(("y", "x"), .arr2 [[1, 1]])]) ∧
    linearizeAll linSample ⟨litUser, false⟩ (fun _ => .ok []) (.alloc linMax) [(2, 5)] = .ok (some [(("y", "x"), .arr2 [[0, 1]])]) :=
  ⟨by decide, by decide⟩

/-- C166 is false of the code: with finite differences and the option to call `linearize` as well, `alloc_jacobian` hands out the Jacobian of the finite differences, and what `linearize` sets replaces it. -/
theorem C166_fd_overwritten_refuted :
    linearizeAll linSample ⟨litFd, true⟩ (fun _ => .ok [(("y", "x"), .arr2 [[7, 8]])]) (.alloc linMax) [(3, 1)] = .ok (some [(("y", "x"), .arr2 [[1, 8]])]) ∧
    linearizeAll linSample ⟨litFd, false⟩ (fun _ => .ok [(("y", "x"), .arr2 [[7, 8]])]) (.alloc linMax) [(3, 1)] = .ok (some [(("y", "x"), .arr2 [[7, 8]])]) :=
  ⟨by decide, by decide⟩

/-- C166 is false of the code: a type option `'user'` that is not the literal object (read from a file, say) means finite differences, because the strings are compared with `is not`. -/
theorem C166_type_refuted (c : JComp) (lo : Bool) (fd : P → Except PyErr (JacDict K)) (f : P → Except PyErr (Option (JacDict K))) (x : P) (cache : Option (JacDict K)) (d : JacDict K) (hd : fd x = .ok d)
    (jac : Option (JacDict K)) (hf : f x = .ok jac) : sysLinearize c ⟨⟨"user", false⟩, lo⟩ fd (.own f) x cache = normJac (some d) := by
  unfold sysLinearize
  rw [if_pos (show isNotUser ⟨"user", false⟩ = true from rfl), hd]
  simp only [callLinearize, hf]
  split <;> rfl

/-- A gradient given as a one-dimensional array becomes a column, also when the unknown has size 1 and the param has the size of the array: the shape of the pair is not looked at. -/
theorem finding_C166_gradient_column (l : List K) (k : JKey) : normJac (some [(k, .arr1 l)]) = .ok (some [(k, .arr2 (l.map fun v => [v]))]) := rfl

end OpenMDAO
