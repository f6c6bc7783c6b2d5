import Verif.Lemmas.Connections
/-! # Lemmas about `src_indices` in connection chains and about absence of other exceptions -/
namespace OpenMDAO
set_option linter.unusedSectionVars false

/-- The entries of `v` that a connection with the given `src_indices` hands over. -/
def pick {β : Type} (i : SrcIdx) (v : List β) : Option (List β) :=
  match i with
  | none => some v
  | some is => is.mapM (fun k => v[k]?)

/-- Several connections one after the other. -/
def pickAll {β : Type} : List SrcIdx → List β → Option (List β)
  | [], v => some v
  | i :: is, v => (pick i v).bind (pickAll is)

theorem pickAll_append {β : Type} : ∀ (is js : List SrcIdx) (v : List β), pickAll (is ++ js) v = (pickAll is v).bind (pickAll js)
  | [], js, v => by simp [pickAll]
  | i :: is, js, v => by
    simp only [List.cons_append, pickAll]
    cases pick i v with
    | none => rfl
    | some w => simp only [Option.bind_some]; exact pickAll_append is js w

theorem mapM_some_iff {α β : Type} (f : α → Option β) : ∀ (l : List α) (w : List β), l.mapM f = some w ↔ w.map some = l.map f
  | [], w => by cases w <;> simp
  | a :: l, w => by
    rw [List.mapM_cons]
    cases hf : f a with
    | none => cases w <;> simp [hf]
    | some b =>
      cases hl : l.mapM f with
      | none =>
        cases w with
        | nil => simp
        | cons c w =>
          simp only [Option.bind_eq_bind, Option.bind_some, Option.bind_none, List.map_cons, List.cons.injEq, hf, Option.some.injEq]
          constructor
          · intro h; cases h
          · rintro ⟨-, h⟩
            rw [← mapM_some_iff f l w, hl] at h; cases h
      | some u =>
        cases w with
        | nil => simp
        | cons c w =>
          simp only [Option.bind_eq_bind, Option.bind_some, Option.pure_def, List.map_cons, List.cons.injEq, hf, Option.some.injEq]
          rw [← mapM_some_iff f l w, hl]
          simp only [Option.some.injEq, eq_comm]

theorem npGet_arr_ok {α : Type} (v : List α) : ∀ (t : List Nat) (w : List α), npGet v (.arr t) = .ok w ↔ w.map some = t.map (fun k => v[k]?) := by
  intro t
  unfold npGet
  simp only [Idx.positions]
  induction t with
  | nil => intro w; cases w <;> simp [pure, Except.pure]
  | cons k t ih =>
    intro w
    rw [List.mapM_cons]
    cases hk : v[k]? with
    | none => cases w <;> simp [bind, Except.bind, hk]
    | some x =>
      simp only [bind, Except.bind]
      split
      · rename_i e he
        cases w with
        | nil => simp
        | cons c w =>
          simp only [List.map_cons, List.cons.injEq]
          constructor
          · intro h; cases h
          · rintro ⟨-, h⟩
            rw [← ih w, he] at h; cases h
      · rename_i u hu
        cases w with
        | nil => simp [pure, Except.pure]
        | cons c w =>
          simp only [pure, Except.pure, Except.ok.injEq, List.cons.injEq, List.map_cons, hk, Option.some.injEq, ← ih w, hu, eq_comm]

theorem npGet_arr_err {α : Type} (v : List α) : ∀ (t : List Nat) (e : PyErr), npGet v (.arr t) = .error e → e = .IndexError := by
  intro t
  unfold npGet
  simp only [Idx.positions]
  induction t with
  | nil => intro e h; simp [pure, Except.pure] at h
  | cons k t ih =>
    intro e h
    rw [List.mapM_cons] at h
    cases hk : v[k]? with
    | none => rw [hk] at h; simp only [bind, Except.bind, Except.error.injEq] at h; exact h.symm
    | some x =>
      rw [hk] at h
      simp only [bind, Except.bind] at h
      split at h
      · rename_i e' he
        simp only [Except.error.injEq] at h; subst h
        exact ih _ he
      · cases h

theorem composeIdx_pick {tidxs sidxs i : SrcIdx} (h : composeIdx tidxs sidxs = .ok i) {β : Type} {v w w' : List β}
    (h1 : pick sidxs v = some w) (h2 : pick tidxs w = some w') : pick i v = some w' := by
  unfold composeIdx at h
  split at h
  · simp only [Except.ok.injEq] at h; subst h
    simp only [pick, Option.some.injEq] at h2; subst h2; exact h1
  · simp only [Except.ok.injEq] at h; subst h
    simp only [pick, Option.some.injEq] at h1; subst h1; exact h2
  · rename_i t s
    cases hg : npGet s (.arr t) with
    | error e => rw [hg] at h; cases h
    | ok c =>
      rw [hg] at h
      simp only [Except.map, Except.ok.injEq] at h; subst h
      simp only [pick, mapM_some_iff] at h1 h2 ⊢
      rw [npGet_arr_ok] at hg
      have hw : ∀ k j : Nat, s[k]? = some j → w[k]? = v[j]? := by
        intro k j hk
        have := congrArg (fun l => l[k]?) h1
        simp only [List.getElem?_map, hk, Option.map_some] at this
        cases hwk : w[k]? with
        | none => rw [hwk] at this; cases this
        | some x => rw [hwk] at this; simpa using this
      clear h1
      induction t generalizing c w' with
      | nil => cases c <;> simp_all
      | cons k t ih =>
        cases c with
        | nil => simp at hg
        | cons j c =>
          cases w' with
          | nil => simp at h2
          | cons x w' =>
            simp only [List.map_cons, List.cons.injEq] at hg h2 ⊢
            exact ⟨by rw [h2.1]; exact hw k j hg.1.symm, ih (w' := w') (h2 := h2.2) c hg.2⟩

/-- A declared direct connection with its `src_indices`. -/
def JoinedIdx (toAbsU : List (String × String)) (toAbsP : List (String × List String)) (explicit : ConnDict) (s t : String) (i : SrcIdx) : Prop :=
  DPair explicit t (s, i) ∨
  ((∃ pp ∈ toAbsP, t ∈ pp.2 ∧ toAbsU.lookup pp.1 = some s) ∧ i = none) ∨
  ((∃ pp ∈ toAbsP, toAbsU.lookup pp.1 = none ∧ pp.2.head? = some s ∧ t ∈ pp.2.tail) ∧ i = none)

/-- A chain of declared connections from `s` to `t` with their index arrays. -/
inductive Chain (E : String → String → SrcIdx → Prop) (s : String) : String → List SrcIdx → Prop
  | start : Chain E s s []
  | step {a b : String} {is : List SrcIdx} {i : SrcIdx} : Chain E s a is → E a b i → Chain E s b (is ++ [i])

/-- `i` hands over what a chain of declared connections hands over. -/
def Follows (E : String → String → SrcIdx → Prop) (s t : String) (i : SrcIdx) : Prop :=
  ∃ is, Chain E s t is ∧ ∀ (β : Type) (v w : List β), pickAll is v = some w → pick i v = some w

theorem edges_addEdge (g : InGraph) (s t : String) (i : SrcIdx) (e : String × String) (j : SrcIdx)
    (h : (g.addEdge s t i).edges.lookup e = some j) : (e = (s, t) ∧ j = i) ∨ g.edges.lookup e = some j := by
  simp only [InGraph.addEdge, arcs_addNode, lookup_dictSet] at h
  split_ifs at h with he
  · exact .inl ⟨he, by simpa using h.symm⟩
  · exact .inr h

theorem inputGraph_attr (toAbsU : List (String × String)) (toAbsP : List (String × List String)) (explicit : ConnDict)
    {a b : String} {i : SrcIdx} (h : (inputGraph (addImplicit toAbsU toAbsP explicit).1 (addImplicit toAbsU toAbsP explicit).2
      toAbsP).edges.lookup (a, b) = some i) : JoinedIdx toAbsU toAbsP explicit a b i := by
  obtain ⟨hc, hn⟩ := addImplicit_spec toAbsU toAbsP explicit []
  -- the connections
  have h1 : ∀ (conns : ConnDict) (g : InGraph),
      (conns.foldl (fun g c => c.2.foldl (fun g s => g.addEdge s.1 c.1 s.2) g) g).edges.lookup (a, b) = some i →
      g.edges.lookup (a, b) = some i ∨ DPair conns b (a, i) := by
    intro conns
    induction conns with
    | nil => intro g h; exact .inl h
    | cons c conns ih =>
      intro g h
      rw [List.foldl_cons] at h
      rcases ih _ h with h | ⟨l, h2, h3⟩
      · have : ∀ (l : List (String × SrcIdx)) (g : InGraph), (l.foldl (fun g s => g.addEdge s.1 c.1 s.2) g).edges.lookup (a, b) = some i →
            g.edges.lookup (a, b) = some i ∨ (b = c.1 ∧ (a, i) ∈ l) := by
          intro l
          induction l with
          | nil => intro g h; exact .inl h
          | cons x l ihl =>
            intro g h
            rw [List.foldl_cons] at h
            rcases ihl _ h with h | ⟨h2, h3⟩
            · rcases edges_addEdge _ _ _ _ _ _ h with ⟨h4, h5⟩ | h4
              · simp only [Prod.mk.injEq] at h4
                exact .inr ⟨h4.2, by rw [h4.1, h5]; exact List.mem_cons_self⟩
              · exact .inl h4
            · exact .inr ⟨h2, List.mem_cons_of_mem _ h3⟩
        rcases this _ _ h with h | ⟨h2, h3⟩
        · exact .inl h
        · exact .inr ⟨c.2, by rw [h2]; exact List.mem_cons_self, h3⟩
      · exact .inr ⟨l, List.mem_cons_of_mem _ h2, h3⟩
  have h2 : ∀ (nc : List String) (l : List (String × List String)) (g : InGraph), (l.foldl (graphProm nc) g).edges.lookup (a, b) = some i →
      g.edges.lookup (a, b) = some i ∨ (SameProm nc l a b ∧ i = none) := by
    intro nc l
    induction l with
    | nil => intro g h; exact .inl h
    | cons pp l ih =>
      intro g h
      rw [List.foldl_cons] at h
      rcases ih _ h with h | ⟨⟨qq, h3⟩, h4⟩
      · have hnode : ∀ (l : List String) (g : InGraph), (l.foldl InGraph.addNode g).edges = g.edges := by
          intro l
          induction l with
          | nil => intro g; rfl
          | cons x l ihl => intro g; rw [List.foldl_cons, ihl, arcs_addNode]
        unfold graphProm at h
        simp only at h
        split_ifs at h with hm
        · cases hpp : pp.2 with
          | nil => rw [hpp] at h; simp only [List.foldl_nil] at h; exact .inl h
          | cons start rest =>
            rw [hpp] at h
            simp only at h
            have : ∀ (l : List String) (g : InGraph), (l.foldl (fun g p => g.addEdge start p none) g).edges.lookup (a, b) = some i →
                g.edges.lookup (a, b) = some i ∨ (a = start ∧ b ∈ l ∧ i = none) := by
              intro l
              induction l with
              | nil => intro g h; exact .inl h
              | cons x l ihl =>
                intro g h
                rw [List.foldl_cons] at h
                rcases ihl _ h with h | ⟨h2, h3, h4⟩
                · rcases edges_addEdge _ _ _ _ _ _ h with ⟨h4, h5⟩ | h4
                  · simp only [Prod.mk.injEq] at h4
                    exact .inr ⟨h4.1, by rw [h4.2]; exact List.mem_cons_self, h5⟩
                  · exact .inl h4
                · exact .inr ⟨h2, List.mem_cons_of_mem _ h3, h4⟩
            rcases this _ _ h with h | ⟨h5, h6, h7⟩
            · rw [hnode] at h; exact .inl h
            · exact .inr ⟨⟨pp, List.mem_cons_self, hm, by rw [hpp, h5]; rfl, by rw [hpp]; exact h6⟩, h7⟩
        · rw [hnode] at h; exact .inl h
      · exact .inr ⟨⟨qq, List.mem_cons_of_mem _ h3.1, h3.2⟩, h4⟩
  unfold JoinedIdx
  rcases h2 _ _ _ h with h | ⟨⟨pp, h3, h4, h5⟩, h6⟩
  · rcases h1 _ _ h with h | h
    · simp at h
    · rcases (hc b (a, i)).mp h with h | ⟨pp, h3, h4, h5, h6⟩
      · exact .inl h
      · exact .inr (.inl ⟨⟨pp, h3, h4, h6⟩, h5⟩)
  · rcases (hn _).mp h4 with h7 | ⟨qq, -, -, h7⟩
    · simp at h7
    · exact .inr (.inr ⟨⟨pp, h3, h7, h5⟩, h6⟩)

/-- Invariant of the walks: all recorded index arrays follow declared chains. -/
def NCFollows (E : String → String → SrcIdx → Prop) (nc : NewConns) : Prop :=
  ∀ t l, nc.lookup t = some (some l) → ∀ c ∈ l, Follows E c.1 t c.2

theorem walkFold_follows {E : String → String → SrcIdx → Prop} (g : InGraph) (hE : ∀ a b i, g.edges.lookup (a, b) = some i → E a b i)
    (src : String) : ∀ (es : List (String × String)) (st st' : List (String × SrcIdx) × NewConns),
    es.foldlM (walkStep g src) st = .ok st' → (∀ n i, st.1.lookup n = some i → Follows E src n i) → NCFollows E st.2 → NCFollows E st'.2 := by
  intro es
  induction es with
  | nil => intro st st' h _ h2; simp [pure, Except.pure] at h; subst h; exact h2
  | cons e es ih =>
    intro st st' h h1 h2
    rw [List.foldlM_cons] at h
    cases hw : walkStep g src st e with
    | error err => rw [hw] at h; cases h
    | ok st1 =>
      rw [hw] at h
      simp only [bind, Except.bind] at h
      unfold walkStep at hw
      split at hw
      · rename_i tidxs sidxs ht hs
        cases hc : composeIdx tidxs sidxs with
        | error err => rw [hc] at hw; cases hw
        | ok idxs =>
          rw [hc] at hw
          simp only at hw
          cases ha : appendConn st.2 e.2 (src, idxs) with
          | error err => rw [ha] at hw; cases hw
          | ok nc =>
            rw [ha] at hw
            simp only [Except.ok.injEq] at hw
            subst hw
            obtain ⟨is, hch, hgood⟩ := h1 _ _ hs
            have hnew : Follows E src e.2 idxs := by
              refine ⟨is ++ [tidxs], .step hch (hE e.1 e.2 tidxs ht), ?_⟩
              intro β v w hw
              rw [pickAll_append] at hw
              cases hp : pickAll is v with
              | none => rw [hp] at hw; cases hw
              | some u =>
                rw [hp] at hw
                simp only [Option.bind_some, pickAll, Option.bind_eq_some_iff, Option.some.injEq] at hw
                obtain ⟨w', hw, rfl⟩ := hw
                exact composeIdx_pick hc (hgood β v u hp) hw
            refine ih _ _ h ?_ ?_
            · intro n i hn
              simp only [lookup_dictSet] at hn
              split_ifs at hn with hne
              · simp only [Option.some.injEq] at hn; subst hn; subst hne; exact hnew
              · exact h1 n i hn
            · intro t l hl c hcl
              simp only at hl
              unfold appendConn at ha
              split at ha
              · rename_i l0 hl0
                simp only [Except.ok.injEq] at ha; subst ha
                rw [lookup_dictSet] at hl
                split_ifs at hl with hte
                · simp only [Option.some.injEq] at hl; subst hl; subst hte
                  rcases List.mem_append.mp hcl with h3 | h3
                  · exact h2 _ _ hl0 c h3
                  · rw [List.mem_singleton] at h3; subst h3; exact hnew
                · exact h2 t l hl c hcl
              · cases ha
              · simp only [Except.ok.injEq] at ha; subst ha
                rw [lookup_dictSet] at hl
                split_ifs at hl with hte
                · simp only [Option.some.injEq] at hl; subst hl; subst hte
                  rw [List.mem_singleton] at hcl; subst hcl; exact hnew
                · exact h2 t l hl c hcl
      · cases hw

theorem walkAll_follows {E : String → String → SrcIdx → Prop} (g : InGraph) (hE : ∀ a b i, g.edges.lookup (a, b) = some i → E a b i) :
    ∀ (us : List String) (nc nc' : NewConns), us.foldlM (walkSrc g) nc = .ok nc' → NCFollows E nc → NCFollows E nc' := by
  intro us
  induction us with
  | nil => intro nc nc' h hnd; simp [pure, Except.pure] at h; subst h; exact hnd
  | cons u us ih =>
    intro nc nc' h hnd
    rw [List.foldlM_cons] at h
    cases hw : walkSrc g nc u with
    | error e => rw [hw] at h; cases h
    | ok nc1 =>
      rw [hw] at h
      simp only [bind, Except.bind] at h
      refine ih nc1 nc' h ?_
      unfold walkSrc at hw
      cases hf : (dfsEdges g.arcs u).foldlM (walkStep g u) ([(u, none)], dictSet nc u none) with
      | error err => rw [hf] at hw; cases hw
      | ok st =>
        rw [hf] at hw
        simp only [Except.map, Except.ok.injEq] at hw
        subst hw
        refine walkFold_follows g hE u _ _ _ hf ?_ ?_
        · intro n i hn
          simp only [List.lookup_cons] at hn
          split at hn
          · rename_i he
            have : n = u := by simpa using he
            subst this
            simp only [Option.some.injEq] at hn; subst hn
            exact ⟨[], .start, fun β v w h => by simpa [pickAll, pick] using h⟩
          · simp at hn
        · intro t l hl
          simp only [lookup_dictSet] at hl
          split_ifs at hl with hte
          · cases hl
          · exact hnd t l hl

/-! ## Which exceptions are possible -/

theorem walkFold_err (g : InGraph) (src : String) : ∀ (es : List (String × String)) (st : List (String × SrcIdx) × NewConns) (err : PyErr),
    es.foldlM (walkStep g src) st = .error err → (∀ e ∈ es, e ∈ g.arcs) → (es.map Prod.snd).Nodup →
    (∀ pre e post, es = pre ++ e :: post → (st.1.lookup e.1).isSome = true ∨ e.1 ∈ pre.map Prod.snd) →
    (∀ t ∈ es.map Prod.snd, st.2.lookup t ≠ some none) → err = .IndexError ∧ ∃ e x, g.edges.lookup e = some (some x) := by
  intro es
  induction es with
  | nil => intro st err h; simp [pure, Except.pure] at h
  | cons e es ih =>
    intro st err h ha hnd hord hnn
    rw [List.foldlM_cons] at h
    simp only [List.map_cons, List.nodup_cons] at hnd
    have hk : (st.1.lookup e.1).isSome = true := by
      rcases hord [] e es rfl with h | h
      · exact h
      · simp at h
    obtain ⟨sidxs, hs⟩ := Option.isSome_iff_exists.mp hk
    obtain ⟨tidxs, ht⟩ := Option.isSome_iff_exists.mp ((lookup_isSome_iff_mem_keys g.edges e).mpr (ha e List.mem_cons_self))
    cases hw : walkStep g src st e with
    | error err' =>
      rw [hw] at h
      simp only [bind, Except.bind, Except.error.injEq] at h
      subst h
      unfold walkStep at hw
      rw [ht, hs] at hw
      simp only at hw
      cases hc : composeIdx tidxs sidxs with
      | error e2 =>
        rw [hc] at hw
        simp only [Except.error.injEq] at hw; subst hw
        unfold composeIdx at hc
        split at hc
        · cases hc
        · cases hc
        · rename_i t s
          cases hg : npGet s (.arr t) with
          | ok c => rw [hg] at hc; cases hc
          | error e3 =>
            rw [hg] at hc
            simp only [Except.map, Except.error.injEq] at hc; subst hc
            exact ⟨npGet_arr_err _ _ _ hg, e, t, ht⟩
      | ok idxs =>
        rw [hc] at hw
        simp only at hw
        unfold appendConn at hw
        split at hw
        · rename_i ha'
          split at ha'
          · cases ha'
          · rename_i hn
            exact absurd hn (hnn e.2 (by simp))
          · cases ha'
        · cases hw
    | ok st1 =>
      rw [hw] at h
      simp only [bind, Except.bind] at h
      unfold walkStep at hw
      rw [ht, hs] at hw
      simp only at hw
      cases hc : composeIdx tidxs sidxs with
      | error e2 => rw [hc] at hw; cases hw
      | ok idxs =>
        rw [hc] at hw
        simp only at hw
        cases hap : appendConn st.2 e.2 (src, idxs) with
        | error e2 => rw [hap] at hw; cases hw
        | ok nc =>
          rw [hap] at hw
          simp only [Except.ok.injEq] at hw
          subst hw
          refine ih _ err h (fun x hx => ha x (List.mem_cons_of_mem _ hx)) hnd.2 ?_ ?_
          · intro pre x post hpe
            simp only [lookup_dictSet]
            rcases hord (e :: pre) x post (by rw [hpe]; rfl) with h3 | h3
            · left; split_ifs
              · rfl
              · exact h3
            · simp only [List.map_cons, List.mem_cons] at h3
              rcases h3 with h3 | h3
              · left; rw [if_pos h3]; rfl
              · exact .inr h3
          · intro t htm
            have htne : t ≠ e.2 := fun hc => hnd.1 (hc ▸ htm)
            have : nc.lookup t = st.2.lookup t := by
              unfold appendConn at hap
              split at hap
              · simp only [Except.ok.injEq] at hap; rw [← hap, lookup_dictSet, if_neg htne]
              · cases hap
              · simp only [Except.ok.injEq] at hap; rw [← hap, lookup_dictSet, if_neg htne]
            rw [this]
            exact hnn t (by simp only [List.map_cons, List.mem_cons]; exact .inr htm)

theorem walkAll_err (g : InGraph) : ∀ (us done : List String) (nc : NewConns) (err : PyErr), us.foldlM (walkSrc g) nc = .error err →
    NCInv g done nc → (done ++ us).Nodup → (∀ u ∈ done ++ us, ∀ s, (s, u) ∉ g.arcs) →
    err = .IndexError ∧ ∃ e x, g.edges.lookup e = some (some x) := by
  intro us
  induction us with
  | nil => intro done nc err h; simp [pure, Except.pure] at h
  | cons u us ih =>
    intro done nc err h hi hnd hno
    rw [List.foldlM_cons] at h
    have hu : u ∉ done := by
      rw [List.nodup_append] at hnd
      intro hc; exact hnd.2.2 u hc u List.mem_cons_self rfl
    cases hw : walkSrc g nc u with
    | error e =>
      rw [hw] at h
      simp only [bind, Except.bind, Except.error.injEq] at h
      subst h
      unfold walkSrc at hw
      cases hf : (dfsEdges g.arcs u).foldlM (walkStep g u) ([(u, none)], dictSet nc u none) with
      | ok st => rw [hf] at hw; cases hw
      | error err =>
        rw [hf] at hw
        simp only [Except.map, Except.error.injEq] at hw
        subst hw
        obtain ⟨b1, b2, b3, b4⟩ := dfsEdges_basic g.arcs u
        refine walkFold_err g u _ _ _ hf (fun x hx => (b1 x hx).1) b2 ?_ ?_
        · intro pre e post hpe
          rcases b4 pre e post hpe with h3 | h3
          · left; simp [h3]
          · exact .inr h3
        · intro t ht hc
          obtain ⟨x, hx, rfl⟩ := List.mem_map.mp ht
          have hxa := (b1 x hx).1
          have hxd : x.2 ∉ done ++ (u :: us) := fun hc => hno x.2 hc x.1 hxa
          simp only [List.mem_append, List.mem_cons, not_or] at hxd
          simp only [lookup_dictSet] at hc
          rw [if_neg hxd.2.1] at hc
          rcases hi.2 x.2 hxd.1 with ⟨h4, -⟩ | ⟨l, -, h4, -⟩
          · rw [h4] at hc; cases hc
          · rw [h4] at hc; cases hc
    | ok nc1 =>
      rw [hw] at h
      simp only [bind, Except.bind] at h
      exact ih (done ++ [u]) nc1 err h (walkSrc_spec hw hi hu (hno u (by simp))) (by simpa using hnd) (by simpa using hno)

theorem dangAll_noerr {g : InGraph} {nc0 : NewConns} {us : List String} (hn : NCInv g us nc0) (hno : ∀ u ∈ us, ∀ s, (s, u) ∉ g.arcs)
    (toProm : String → String) : ∀ (ns : List String) (st : DangSt), DangInv g nc0 st →
    ∃ st', ns.foldlM (dangNode g toProm) st = .ok st' := by
  intro ns
  induction ns with
  | nil => intro st _; exact ⟨st, rfl⟩
  | cons n ns ih =>
    intro st hi
    rw [List.foldlM_cons]
    have : ∃ st1, dangNode g toProm st n = .ok st1 := by
      unfold dangNode
      split_ifs
      · simp only
        cases hfind : ((dfsEdges g.arcs n).map Prod.snd).find? (fun t => (st.nc.lookup t).isSome) with
        | none => exact ⟨_, rfl⟩
        | some t =>
          simp only
          have htm : t ∈ (dfsEdges g.arcs n).map Prod.snd := List.mem_of_find?_eq_some hfind
          obtain ⟨x, hx, rfl⟩ := List.mem_map.mp htm
          have hxa := ((dfsEdges_basic g.arcs n).1 x hx).1
          have hxu : x.2 ∉ us := fun hc => hno x.2 hc x.1 hxa
          have hsome := List.find?_some hfind
          obtain ⟨y, hy⟩ := Option.isSome_iff_exists.mp hsome
          have : ∃ c l, st.nc.lookup x.2 = some (some (c :: l)) := by
            rcases hn.2 x.2 hxu with ⟨h4, -⟩ | ⟨l, hne, h4, -⟩
            · rcases hi.new x.2 h4 with h5 | ⟨src, t, h5, -⟩
              · rw [hy] at h5; cases h5
              · exact ⟨_, _, h5⟩
            · cases l with
              | nil => exact absurd rfl hne
              | cons c l => exact ⟨c, l, hi.mono _ _ h4⟩
          obtain ⟨c, l, hcl⟩ := this
          unfold firstSrc
          rw [hcl]
          exact ⟨_, rfl⟩
      · exact ⟨_, rfl⟩
    obtain ⟨st1, h1⟩ := this
    rw [h1]
    exact ih st1 (dangNode_spec hi h1)

end OpenMDAO
