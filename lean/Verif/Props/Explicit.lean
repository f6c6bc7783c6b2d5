import Verif.Spec.Explicit
import Verif.Lemmas.Connections
import Verif.Lemmas.List
import Mathlib.Data.List.Forall2
import Mathlib.Algebra.BigOperators.Group.List.Basic
/-!
# Properties C143 (explicit connections) and C144 (shapes from the source)
-/
namespace OpenMDAO
set_option linter.unusedSectionVars false

/-! ## Dictionaries -/

theorem lookup_dictAppend {α β : Type} [DecidableEq α] (d : List (α × List β)) (k q : α) (v : β) :
    (dictAppend d k v).lookup q = if q = k then some ((d.lookup k).getD [] ++ [v]) else d.lookup q := by
  induction d with
  | nil =>
    by_cases h : q = k
    · subst h; simp [dictAppend]
    · have : (q == k) = false := by simpa using h
      simp [dictAppend, List.lookup_cons, this, h]
  | cons e d ih =>
    obtain ⟨a, b⟩ := e
    simp only [dictAppend]
    by_cases hak : a = k
    · subst hak
      rw [if_pos rfl, List.lookup_cons, List.lookup_cons, List.lookup_cons]
      by_cases h : q = a
      · subst h; simp
      · have : (q == a) = false := by simpa using h
        simp [this, h]
    · rw [if_neg hak, List.lookup_cons, List.lookup_cons, List.lookup_cons]
      have hka : (k == a) = false := by simpa using Ne.symm hak
      by_cases h : q = a
      · subst h; simp [hak]
      · have : (q == a) = false := by simpa using h
        rw [this, hka]; exact ih

theorem keys_dictAppend {α β : Type} [DecidableEq α] (d : List (α × List β)) (k q : α) (v : β) : q ∈ (dictAppend d k v).map Prod.fst ↔ q = k ∨ q ∈ d.map Prod.fst := by
  rw [← lookup_isSome_iff_mem_keys, ← lookup_isSome_iff_mem_keys, lookup_dictAppend]
  by_cases h : q = k <;> simp [h]

theorem nodup_dictAppend {α β : Type} [DecidableEq α] (d : List (α × List β)) (k : α) (v : β) (h : (d.map Prod.fst).Nodup) : ((dictAppend d k v).map Prod.fst).Nodup := by
  induction d with
  | nil => simp [dictAppend]
  | cons e d ih =>
    obtain ⟨a, b⟩ := e
    simp only [List.map_cons, List.nodup_cons] at h
    simp only [dictAppend]
    by_cases hak : a = k
    · subst hak; simpa using h
    · rw [if_neg hak, List.map_cons, List.nodup_cons]
      refine ⟨?_, ih h.2⟩
      rw [keys_dictAppend]
      rintro (h' | h')
      · exact hak h'
      · exact h.1 h'

theorem listed_append (d : ConnDict) (k : String) (v : String × SrcIdx) (t a : String) (i : SrcIdx) : Listed (dictAppend d k v) t a i ↔ Listed d t a i ∨ (t = k ∧ (a, i) = v) := by
  unfold Listed
  rw [lookup_dictAppend]
  by_cases h : t = k
  · subst h
    rw [if_pos rfl]
    constructor
    · rintro ⟨l, hl, hm⟩
      cases hl
      rcases List.mem_append.mp hm with hm | hm
      · cases hk : d.lookup t with
        | none => rw [hk] at hm; cases hm
        | some l => rw [hk] at hm; exact .inl ⟨l, rfl, hm⟩
      · exact .inr ⟨rfl, List.mem_singleton.mp hm⟩
    · rintro (⟨l, hl, hm⟩ | ⟨_, hv⟩)
      · exact ⟨_, rfl, List.mem_append_left _ (by rw [hl]; exact hm)⟩
      · exact ⟨_, rfl, List.mem_append_right _ (by rw [hv]; simp)⟩
  · rw [if_neg h]
    constructor
    · exact .inl
    · rintro (h' | ⟨h', _⟩)
      · exact h'
      · exact absurd h' h

/-- Invariant of dictionaries of connections. -/
structure ConnInv (d : ConnDict) (keys : String → Prop) (list : String → String → SrcIdx → Prop) : Prop where
  nodup : (d.map Prod.fst).Nodup
  keys : ∀ t ∈ d.map Prod.fst, keys t
  list : ∀ t a i, Listed d t a i ↔ list t a i

theorem ConnInv.append {d : ConnDict} {P : String → Prop} {Q : String → String → SrcIdx → Prop} (h : ConnInv d P Q) (k : String) (v : String × SrcIdx) :
    ConnInv (dictAppend d k v) (fun t => P t ∨ t = k) (fun t a i => Q t a i ∨ (t = k ∧ (a, i) = v)) := by
  refine ⟨nodup_dictAppend _ _ _ h.nodup, ?_, ?_⟩
  · intro t ht
    rcases (keys_dictAppend _ _ _ _).mp ht with ht | ht
    · exact .inr ht
    · exact .inl (h.keys t ht)
  · intro t a i
    rw [listed_append, h.list]

theorem ConnInv.imp {d : ConnDict} {P P' : String → Prop} {Q Q' : String → String → SrcIdx → Prop} (h : ConnInv d P Q) (hp : ∀ t, P t → P' t) (hq : ∀ t a i, Q t a i ↔ Q' t a i) : ConnInv d P' Q' :=
  ⟨h.nodup, fun t ht => hp t (h.keys t ht), fun t a i => (h.list t a i).trans (hq t a i)⟩

/-! ## One group -/

section
variable (toU : List (String × String)) (toP : List (String × List String))

theorem sources_fold (t : String) (i : SrcIdx) (ss : List String) : ∀ (d : ConnDict) (P : String → Prop) (Q : String → String → SrcIdx → Prop), ConnInv d P Q →
    ConnInv (ss.foldl (fun d a => dictAppend d t (a, i)) d) (fun x => P x ∨ (x = t ∧ ss ≠ [])) (fun x a j => Q x a j ∨ (x = t ∧ a ∈ ss ∧ j = i)) := by
  induction ss with
  | nil => intro d P Q h; exact h.imp (fun t => .inl) (by simp)
  | cons s ss ih =>
    intro d P Q h
    refine (ih _ _ _ (h.append t (s, i))).imp ?_ ?_
    · rintro x ((hx | hx) | ⟨hx, _⟩)
      · exact .inl hx
      · exact .inr ⟨hx, by simp⟩
      · exact .inr ⟨hx, by simp⟩
    · intro x a j
      simp only [List.mem_cons, Prod.mk.injEq]
      tauto

theorem targets_fold (i : SrcIdx) (ss ts : List String) : ∀ (d : ConnDict) (P : String → Prop) (Q : String → String → SrcIdx → Prop), ConnInv d P Q →
    ConnInv (ts.foldl (fun d t => ss.foldl (fun d a => dictAppend d t (a, i)) d) d) (fun x => P x ∨ x ∈ ts) (fun x a j => Q x a j ∨ (x ∈ ts ∧ a ∈ ss ∧ j = i)) := by
  induction ts with
  | nil => intro d P Q h; exact h.imp (fun t => .inl) (by simp)
  | cons t ts ih =>
    intro d P Q h
    refine (ih _ _ _ (sources_fold t i ss _ _ _ h)).imp ?_ ?_
    · rintro x ((hx | hx) | hx)
      · exact .inl hx
      · exact .inr (by simp [hx.1])
      · exact .inr (by simp [hx])
    · intro x a j
      simp only [List.mem_cons]
      tauto

/-- `srcNames` in terms of the specification. -/
theorem srcNames_spec (src : ConnDict) (subs : List CGroup) (s : String) :
    (∀ ss, srcNames toU toP s = .ok ss → ∀ a, a ∈ ss ↔ SourceOf (.mk toU toP src subs) s a) ∧ (∀ e, srcNames toU toP s = .error e → e = .NameError ∧ ¬ NameExists (.mk toU toP src subs) s) ∧
      (¬ NameExists (.mk toU toP src subs) s → srcNames toU toP s = .error .NameError) := by
  unfold srcNames SourceOf NameExists NoUnknown UnknownOf ParamsOf
  cases hu : toU.lookup s with
  | some u => refine ⟨?_, by simp, by simp [hu]⟩; rintro ss h a; cases h; simp [hu, eq_comm]
  | none =>
    cases hp : toP.lookup s with
    | some l => refine ⟨?_, by simp, by simp [hp]⟩; rintro ss h a; cases h; simp [hu, hp]
    | none => simp [hu, hp]

/-- The sources of one target. -/
theorem tgt_fold (src : ConnDict) (subs : List CGroup) (n : String) : ∀ (srcs : List (String × SrcIdx)) (d d' : ConnDict) (P : String → Prop) (Q : String → String → SrcIdx → Prop), ConnInv d P Q →
    srcs.foldlM (explicitSrc toU toP n) d = .ok d' →
    ConnInv d' (fun x => P x ∨ ∃ l, ParamsOf (.mk toU toP src subs) n l ∧ x ∈ l)
      (fun x a j => Q x a j ∨ ∃ s l, (s, j) ∈ srcs ∧ ParamsOf (.mk toU toP src subs) n l ∧ x ∈ l ∧ SourceOf (.mk toU toP src subs) s a) := by
  intro srcs
  induction srcs with
  | nil => intro d d' P Q h he; cases he; exact h.imp (fun t => .inl) (by simp)
  | cons s srcs ih =>
    intro d d' P Q h he
    rw [List.foldlM_cons] at he
    cases hs : explicitSrc toU toP n d s with
    | error e => rw [hs] at he; cases he
    | ok d1 =>
      rw [hs] at he
      unfold explicitSrc at hs
      cases hn : srcNames toU toP s.1 with
      | error e => rw [hn] at hs; cases hs
      | ok ss =>
        rw [hn] at hs
        cases hp : toP.lookup n with
        | none => rw [hp] at hs; cases hs
        | some ts =>
          rw [hp] at hs
          cases hs
          have hso := (srcNames_spec toU toP src subs s.1).1 ss hn
          have hpo : ∀ l, ParamsOf (.mk toU toP src subs) n l ↔ l = ts := by
            intro l
            unfold ParamsOf
            simp only [hp, Option.some.injEq]
            exact eq_comm
          refine (ih _ _ _ _ (targets_fold s.2 ss ts _ _ _ h) he).imp ?_ ?_
          · rintro x ((hx | hx) | hx)
            · exact .inl hx
            · exact .inr ⟨ts, (hpo _).mpr rfl, hx⟩
            · exact .inr hx
          · intro x a j
            constructor
            · rintro ((hq | ⟨h1, h2, h3⟩) | ⟨s', l, h1, h2⟩)
              · exact .inl hq
              · exact .inr ⟨s.1, ts, by rw [h3]; simp, (hpo _).mpr rfl, h1, (hso a).mp h2⟩
              · exact .inr ⟨s', l, List.mem_cons_of_mem _ h1, h2⟩
            · rintro (hq | ⟨s', l, h1, h2, h3, h4⟩)
              · exact .inl (.inl hq)
              · rcases List.mem_cons.mp h1 with h1 | h1
                · subst h1
                  rw [(hpo l).mp h2] at h3
                  exact .inl (.inr ⟨h3, (hso a).mpr h4, rfl⟩)
                · exact .inr ⟨s', l, h1, h2, h3, h4⟩

/-- All targets of a group. -/
theorem src_fold (src : ConnDict) (subs : List CGroup) : ∀ (part : ConnDict) (d d' : ConnDict) (P : String → Prop) (Q : String → String → SrcIdx → Prop), ConnInv d P Q →
    part.foldlM (explicitTgt toU toP) d = .ok d' →
    ConnInv d' (fun x => P x ∨ ∃ n l, ParamsOf (.mk toU toP src subs) n l ∧ x ∈ l)
      (fun x a j => Q x a j ∨ ∃ s n l, (∃ srcs, (n, srcs) ∈ part ∧ (s, j) ∈ srcs) ∧ ParamsOf (.mk toU toP src subs) n l ∧ x ∈ l ∧ SourceOf (.mk toU toP src subs) s a) := by
  intro part
  induction part with
  | nil => intro d d' P Q h he; cases he; exact h.imp (fun t => .inl) (by simp)
  | cons e part ih =>
    intro d d' P Q h he
    rw [List.foldlM_cons] at he
    cases hs : explicitTgt toU toP d e with
    | error e => rw [hs] at he; cases he
    | ok d1 =>
      rw [hs] at he
      refine (ih _ _ _ _ (tgt_fold toU toP src subs e.1 e.2 _ _ _ _ h hs) he).imp ?_ ?_
      · rintro x ((hx | ⟨l, hx⟩) | hx)
        · exact .inl hx
        · exact .inr ⟨_, l, hx⟩
        · exact .inr hx
      · intro x a j
        constructor
        · rintro ((hq | ⟨s, l, h1, h2⟩) | ⟨s, n, l, ⟨srcs, h1, h2⟩, h3⟩)
          · exact .inl hq
          · exact .inr ⟨s, e.1, l, ⟨e.2, by simp, h1⟩, h2⟩
          · exact .inr ⟨s, n, l, ⟨srcs, List.mem_cons_of_mem _ h1, h2⟩, h3⟩
        · rintro (hq | ⟨s, n, l, ⟨srcs, h1, h2⟩, h3⟩)
          · exact .inl (.inl hq)
          · rcases List.mem_cons.mp h1 with h1 | h1
            · subst h1
              exact .inl (.inr ⟨s, l, h2, h3⟩)
            · exact .inr ⟨s, n, l, ⟨srcs, h1, h2⟩, h3⟩

end

/-! ## The tree -/

/-- What the groups of a tree say about a target. -/
def Said (g : CGroup) (t a : String) (i : SrcIdx) : Prop := ∃ h, InTree g h ∧ ∃ s n l, ConnDeclared h s n i ∧ ParamsOf h n l ∧ t ∈ l ∧ SourceOf h s a

theorem inTree_mk {toU toP src subs h} : InTree (.mk toU toP src subs) h ↔ h = .mk toU toP src subs ∨ ∃ s ∈ subs, InTree s h := by
  constructor
  · intro hi
    cases hi with
    | self => exact .inl rfl
    | sub _ _ _ _ s _ h1 h2 => exact .inr ⟨s, h1, h2⟩
  · rintro (rfl | ⟨s, h1, h2⟩)
    · exact .self _
    · exact .sub _ _ _ _ s h h1 h2

theorem lookup_dictUpdate {α β : Type} [DecidableEq α] (new : List (α × β)) : ∀ (d : List (α × β)) (q : α), (new.map Prod.fst).Nodup →
    (dictUpdate d new).lookup q = (new.lookup q).or (d.lookup q) := by
  induction new with
  | nil => intro d q _; rfl
  | cons e new ih =>
    intro d q hn
    rw [List.map_cons, List.nodup_cons] at hn
    have := ih (dictSet d e.1 e.2) q hn.2
    rw [show dictUpdate d (e :: new) = dictUpdate (dictSet d e.1 e.2) new from rfl, this, lookup_dictSet]
    obtain ⟨a, b⟩ := e
    rw [List.lookup_cons]
    by_cases h : q = a
    · subst h
      have hnone : new.lookup q = none := by
        cases hl : new.lookup q with
        | none => rfl
        | some v => exact absurd ((lookup_isSome_iff_mem_keys new q).mp (by rw [hl]; rfl)) hn.1
      simp [hnone]
    · have hb : (q == a) = false := by simpa using h
      simp [hb, h]

theorem nodup_dictUpdate {α β : Type} [DecidableEq α] (new : List (α × β)) : ∀ (d : List (α × β)), (d.map Prod.fst).Nodup → ((dictUpdate d new).map Prod.fst).Nodup := by
  induction new with
  | nil => intro d h; exact h
  | cons e new ih => intro d h; exact ih _ (nodup_keys_dictSet d e.1 e.2 h)

theorem ConnInv.update {d n : ConnDict} {P P' : String → Prop} {Q Q' : String → String → SrcIdx → Prop} (h : ConnInv d P Q) (hn : ConnInv n P' Q') (hd : ∀ t, P t → ¬ P' t) :
    ConnInv (dictUpdate d n) (fun t => P t ∨ P' t) (fun t a i => Q t a i ∨ Q' t a i) := by
  refine ⟨nodup_dictUpdate n d h.nodup, ?_, ?_⟩
  · intro t ht
    rw [← lookup_isSome_iff_mem_keys, lookup_dictUpdate n d t hn.nodup] at ht
    cases hl : n.lookup t with
    | some v => exact .inr (hn.keys t ((lookup_isSome_iff_mem_keys n t).mp (by rw [hl]; rfl)))
    | none =>
      rw [hl, Option.none_or] at ht
      exact .inl (h.keys t ((lookup_isSome_iff_mem_keys d t).mp ht))
  · intro t a i
    rw [← h.list, ← hn.list]
    unfold Listed
    rw [lookup_dictUpdate n d t hn.nodup]
    cases hl : n.lookup t with
    | none => simp
    | some v =>
      have hp' := hn.keys t ((lookup_isSome_iff_mem_keys n t).mp (by rw [hl]; rfl))
      have hnone : d.lookup t = none := by
        cases hd' : d.lookup t with
        | none => rfl
        | some w => exact absurd hp' (hd t (h.keys t ((lookup_isSome_iff_mem_keys d t).mp (by rw [hd']; rfl))))
      simp [hnone]

mutual
theorem conns_spec : ∀ (g : CGroup), SubsApart g → ∀ d, explicitConns g = .ok d → ConnInv d (HasParam g) (Said g)
  | .mk toU toP src subs => by
    intro ha d he
    cases ha with
    | mk _ _ _ _ h1 h2 =>
      rw [explicitConns] at he
      cases hs : explicitSubs subs [] with
      | error e => rw [hs] at he; cases he
      | ok d0 =>
        rw [hs] at he
        have hinv := subs_spec subs h1 h2 [] d0 (fun _ => False) (fun _ _ _ => False) ⟨by simp, by simp, by simp [Listed]⟩ (by simp) hs
        refine (src_fold toU toP src subs src d0 d _ _ hinv he).imp ?_ ?_
        · rintro t ((hf | ⟨s, hs, h, hh, r⟩) | ⟨n, l, h1, h2⟩)
          · cases hf
          · exact ⟨h, inTree_mk.mpr (.inr ⟨s, hs, hh⟩), r⟩
          · exact ⟨_, .self _, n, l, h1, h2⟩
        · intro t a i
          constructor
          · rintro ((hf | ⟨s, hs, h, hh, r⟩) | ⟨s, n, l, h1, h2⟩)
            · cases hf
            · exact ⟨h, inTree_mk.mpr (.inr ⟨s, hs, hh⟩), r⟩
            · exact ⟨_, .self _, s, n, l, h1, h2⟩
          · rintro ⟨h, hh, r⟩
            rcases inTree_mk.mp hh with rfl | ⟨s, hs, hh⟩
            · exact .inr r
            · exact .inl (.inr ⟨s, hs, h, hh, r⟩)
theorem subs_spec : ∀ (gs : List CGroup), gs.Pairwise (fun a b => ∀ t, HasParam a t → ¬ HasParam b t) → (∀ s ∈ gs, SubsApart s) → ∀ (d d' : ConnDict) (P : String → Prop) (Q : String → String → SrcIdx → Prop),
    ConnInv d P Q → (∀ t, P t → ∀ s ∈ gs, ¬ HasParam s t) → explicitSubs gs d = .ok d' → ConnInv d' (fun t => P t ∨ ∃ s ∈ gs, HasParam s t) (fun t a i => Q t a i ∨ ∃ s ∈ gs, Said s t a i)
  | [] => by
    intro _ _ d d' P Q h _ he
    rw [explicitSubs] at he
    cases he
    exact h.imp (fun t => .inl) (by simp)
  | g :: gs => by
    intro hp ha d d' P Q h hd he
    rw [explicitSubs] at he
    cases hg : explicitConns g with
    | error e => rw [hg] at he; cases he
    | ok n =>
      rw [hg] at he
      rw [List.pairwise_cons] at hp
      have hn := conns_spec g (ha g (by simp)) n hg
      have hu := h.update hn fun t ht => hd t ht g (by simp)
      refine (subs_spec gs hp.2 (fun s hs => ha s (List.mem_cons_of_mem _ hs)) _ d' _ _ hu ?_ he).imp ?_ ?_
      · rintro t (ht | ht) s hs
        · exact hd t ht s (List.mem_cons_of_mem _ hs)
        · exact hp.1 s hs t ht
      · rintro t ((ht | ht) | ⟨s, hs, ht⟩)
        · exact .inl ht
        · exact .inr ⟨g, by simp, ht⟩
        · exact .inr ⟨s, List.mem_cons_of_mem _ hs, ht⟩
      · intro t a i
        simp only [List.exists_mem_cons_iff]
        tauto
end

/-- C143. A source with indices is listed for a target exactly if some group of the tree connects them: there is a connection in the group from a name that stands for the source to a name that stands for the target. -/
theorem C143_sources (g : CGroup) (hg : SubsApart g) (d : ConnDict) (h : explicitConns g = .ok d) (t a : String) (i : SrcIdx) :
    Listed d t a i ↔ ∃ h, InTree g h ∧ ∃ s n l, ConnDeclared h s n i ∧ ParamsOf h n l ∧ t ∈ l ∧ SourceOf h s a := (conns_spec g hg d h).list t a i

/-! ## Errors -/

/-- A connection of a group that cannot be made. -/
def BadIn (h : CGroup) : Prop := ∃ s n i, ConnDeclared h s n i ∧ (¬ NameExists h s ∨ ¬ ∃ l, ParamsOf h n l)

theorem explicitSrc_error (toU : List (String × String)) (toP : List (String × List String)) (src : ConnDict) (subs : List CGroup) (n : String) (d : ConnDict) (s : String × SrcIdx) :
    (∀ e, explicitSrc toU toP n d s = .error e → e = .NameError) ∧
      ((∃ e, explicitSrc toU toP n d s = .error e) ↔ ¬ NameExists (.mk toU toP src subs) s.1 ∨ ¬ ∃ l, ParamsOf (.mk toU toP src subs) n l) := by
  have hs := srcNames_spec toU toP src subs s.1
  have hpo : (∃ l, ParamsOf (.mk toU toP src subs) n l) ↔ (toP.lookup n).isSome = true := by
    unfold ParamsOf
    simp only [Option.isSome_iff_exists]
  unfold explicitSrc
  cases hn : srcNames toU toP s.1 with
  | error e =>
    have := hs.2.1 e hn
    refine ⟨?_, ?_⟩
    · rintro e' he; cases he; exact this.1
    · simp [this.2]
  | ok ss =>
    have hex : NameExists (.mk toU toP src subs) s.1 := by
      by_contra hc
      rw [hs.2.2 hc] at hn
      cases hn
    rw [hpo]
    cases hp : toP.lookup n with
    | none => exact ⟨by (rintro e he; cases he; rfl), by simp⟩
    | some ts => exact ⟨by (rintro e he; cases he), by simp [hex]⟩

theorem foldlM_error_iff {α β : Type} (f : β → α → Except PyErr β) (e0 : PyErr) (Bad : α → Prop) : ∀ (l : List α) (b : β),
    (∀ a ∈ l, ∀ b, (∀ e, f b a = .error e → e = e0) ∧ ((∃ e, f b a = .error e) ↔ Bad a)) → (∀ e, l.foldlM f b = .error e → e = e0) ∧ ((∃ e, l.foldlM f b = .error e) ↔ ∃ a ∈ l, Bad a) := by
  intro l
  induction l with
  | nil =>
    intro b _
    refine ⟨?_, ?_⟩
    · rintro e h; cases h
    · constructor
      · rintro ⟨e, h⟩; cases h
      · rintro ⟨a, h, _⟩; cases h
  | cons a l ih =>
    intro b h
    have ha := h a (by simp) b
    rw [List.foldlM_cons]
    cases hf : f b a with
    | error e =>
      refine ⟨?_, ?_⟩
      · rintro e' he; cases he; exact ha.1 e hf
      · constructor
        · intro _; exact ⟨a, by simp, ha.2.mp ⟨e, hf⟩⟩
        · intro _; exact ⟨e, rfl⟩
    | ok b' =>
      have hna : ¬ Bad a := fun hb => by
        obtain ⟨e, he⟩ := ha.2.mpr hb
        rw [hf] at he
        cases he
      have := ih b' fun x hx => h x (List.mem_cons_of_mem _ hx)
      refine ⟨this.1, ?_⟩
      rw [show (Except.ok b' >>= fun b => l.foldlM f b) = l.foldlM f b' from rfl, this.2]
      simp [hna]

mutual
theorem conns_error : ∀ (g : CGroup), (∀ e, explicitConns g = .error e → e = .NameError) ∧ ((∃ e, explicitConns g = .error e) ↔ ∃ h, InTree g h ∧ BadIn h)
  | .mk toU toP src subs => by
    have hsub := subs_error subs
    have hown : ∀ d, (∀ e, src.foldlM (explicitTgt toU toP) d = .error e → e = .NameError) ∧ ((∃ e, src.foldlM (explicitTgt toU toP) d = .error e) ↔ BadIn (.mk toU toP src subs)) := by
      intro d
      have := foldlM_error_iff (explicitTgt toU toP) .NameError (fun e => ∃ s ∈ e.2, ¬ NameExists (.mk toU toP src subs) s.1 ∨ ¬ ∃ l, ParamsOf (.mk toU toP src subs) e.1 l) src d fun e _ b =>
        foldlM_error_iff (explicitSrc toU toP e.1) .NameError _ e.2 b fun s _ d => explicitSrc_error toU toP src subs e.1 d s
      refine ⟨this.1, this.2.trans ?_⟩
      constructor
      · rintro ⟨e, he, s, hs, hb⟩
        exact ⟨s.1, e.1, s.2, ⟨e.2, he, hs⟩, hb⟩
      · rintro ⟨s, n, i, ⟨srcs, h1, h2⟩, hb⟩
        exact ⟨(n, srcs), h1, (s, i), h2, hb⟩
    rw [explicitConns]
    cases hs : explicitSubs subs [] with
    | error e =>
      refine ⟨?_, ?_⟩
      · rintro e' he; cases he; exact (hsub []).1 e hs
      · constructor
        · intro _
          obtain ⟨s, h1, h, h2, h3⟩ := (hsub []).2.mp ⟨e, hs⟩
          exact ⟨h, inTree_mk.mpr (.inr ⟨s, h1, h2⟩), h3⟩
        · intro _; exact ⟨e, rfl⟩
    | ok d =>
      refine ⟨(hown d).1, (hown d).2.trans ?_⟩
      constructor
      · intro hb; exact ⟨_, .self _, hb⟩
      · rintro ⟨h, hh, hb⟩
        rcases inTree_mk.mp hh with rfl | ⟨s, h1, h2⟩
        · exact hb
        · obtain ⟨e, he⟩ := (hsub []).2.mpr ⟨s, h1, h, h2, hb⟩
          rw [hs] at he
          cases he
theorem subs_error : ∀ (gs : List CGroup) (d : ConnDict), (∀ e, explicitSubs gs d = .error e → e = .NameError) ∧ ((∃ e, explicitSubs gs d = .error e) ↔ ∃ s ∈ gs, ∃ h, InTree s h ∧ BadIn h)
  | [], d => by
    rw [explicitSubs]
    refine ⟨?_, ?_⟩
    · rintro e h; cases h
    · constructor
      · rintro ⟨e, h⟩; cases h
      · rintro ⟨s, h, _⟩; cases h
  | g :: gs, d => by
    have hg := conns_error g
    rw [explicitSubs]
    cases hs : explicitConns g with
    | error e =>
      refine ⟨?_, ?_⟩
      · rintro e' he; cases he; exact hg.1 e hs
      · constructor
        · intro _; exact ⟨g, by simp, hg.2.mp ⟨e, hs⟩⟩
        · intro _; exact ⟨e, rfl⟩
    | ok n =>
      have := subs_error gs (dictUpdate d n)
      refine ⟨this.1, this.2.trans ?_⟩
      have hno : ¬ ∃ h, InTree g h ∧ BadIn h := fun hc => by
        obtain ⟨e, he⟩ := hg.2.mpr hc
        rw [hs] at he
        cases he
      simp [hno]
end

/-- C143. The connections cannot be made, with a `NameError`, exactly if in some group of the tree there is a connection from a name that nothing has or to a name that no param has. -/
theorem C143_errors (g : CGroup) : (∀ e, explicitConns g = .error e → e = .NameError) ∧
    ((∃ e, explicitConns g = .error e) ↔ ∃ h, InTree g h ∧ ∃ s n i, ConnDeclared h s n i ∧ (¬ NameExists h s ∨ ¬ ∃ l, ParamsOf h n l)) := conns_error g

/-! ## Calls of `connect` -/

theorem call_fold (s : String) (i : SrcIdx) (ts : List String) : ∀ (d : ConnDict) (t : String),
    ((ts.foldl (fun d t => dictAppend d t (s, i)) d).lookup t).getD [] = (d.lookup t).getD [] ++ (ts.filter (· = t)).map fun _ => (s, i) := by
  induction ts with
  | nil => intro d t; simp
  | cons u ts ih =>
    intro d t
    rw [List.foldl_cons, ih, lookup_dictAppend]
    by_cases h : t = u
    · subst h; simp
    · have h' : ¬ u = t := fun e => h e.symm
      rw [if_neg h]
      simp [h']

/-- C143. After some calls of `connect`, the sources of a target are those of the calls that name it, with their indices, in the order of the calls. -/
theorem C143_calls (calls : List ConnCall) (rs : List (String × List String × SrcIdx)) (h : List.Forall₂ GoodCall calls rs) :
    ∃ src, calls.foldlM connectCall [] = .ok src ∧ ∀ t, (src.lookup t).getD [] = callsFor t rs := by
  suffices ∀ d : ConnDict, ∃ src, calls.foldlM connectCall d = .ok src ∧ ∀ t, (src.lookup t).getD [] = (d.lookup t).getD [] ++ callsFor t rs by
    obtain ⟨src, h1, h2⟩ := this []
    exact ⟨src, h1, fun t => by rw [h2]; rfl⟩
  induction h with
  | nil => intro d; exact ⟨d, rfl, by simp [callsFor]⟩
  | @cons c r calls' rs' hc _ ih =>
    intro d
    obtain ⟨h1, h2, h3⟩ := hc
    have hchk : c.idxs.check = .ok r.2.2 := by
      rcases h3 with ⟨h3, h4⟩ | ⟨l, h3, h4⟩ <;> rw [h3, h4] <;> rfl
    obtain ⟨src, hs1, hs2⟩ := ih (c.targets.foldl (fun d t => dictAppend d t (c.source, r.2.2)) d)
    refine ⟨src, ?_, ?_⟩
    · rw [List.foldlM_cons, connectCall, hchk]
      exact hs1
    · intro t
      rw [hs2, call_fold]
      simp [callsFor, h1, h2]

/-- C143. Indices that are a string or not integers are a `TypeError`. -/
theorem C143_call_errors (src : ConnDict) (c : ConnCall) : (∀ e, connectCall src c = .error e → e = .TypeError) ∧ ((∃ e, connectCall src c = .error e) ↔ c.idxs = .str ∨ c.idxs = .other) := by
  unfold connectCall
  cases hi : c.idxs with
  | none => exact ⟨by (rintro e h; cases h), ⟨by (rintro ⟨e, h⟩; cases h), by (rintro (h | h) <;> cases h)⟩⟩
  | ints l => exact ⟨by (rintro e h; cases h), ⟨by (rintro ⟨e, h⟩; cases h), by (rintro (h | h) <;> cases h)⟩⟩
  | str => exact ⟨by (rintro e h; cases h; rfl), ⟨fun _ => .inl rfl, fun _ => ⟨_, rfl⟩⟩⟩
  | other => exact ⟨by (rintro e h; cases h; rfl), ⟨fun _ => .inr rfl, fun _ => ⟨_, rfl⟩⟩⟩

/-! ## Shapes from the source -/

section
variable {K : Type}

theorem rowOf_one (k : Nat) (data : List K) (h : k < data.length) : rowOf 1 k data = [data[k]] := by
  unfold rowOf
  rw [Nat.mul_one, List.drop_eq_getElem_cons h]
  rfl

theorem flatMap_row (data : List K) : ∀ (l : List Nat), (∀ k ∈ l, k < data.length) → ∃ d', (l.flatMap fun k : Nat => rowOf 1 k data) = d' ∧ d'.length = l.length ∧ ∀ (k j : Nat), l[k]? = some j → d'[k]? = data[j]? := by
  intro l
  induction l with
  | nil => intro _; exact ⟨[], rfl, rfl, by simp⟩
  | cons a l ih =>
    intro h
    obtain ⟨d', h1, h2, h3⟩ := ih fun k hk => h k (List.mem_cons_of_mem _ hk)
    have ha := h a (by simp)
    refine ⟨data[a] :: d', ?_, by simp [h2], ?_⟩
    · rw [List.flatMap_cons, h1, rowOf_one a data ha]; rfl
    · intro k j hk
      cases k with
      | zero => simp only [List.getElem?_cons_zero, Option.some.injEq] at hk ⊢; subst hk; simp [ha]
      | succ k => simpa using h3 k j (by simpa using hk)

/-- One connection. -/
theorem shapeStep_spec (unknowns params : List (String × AMeta K)) (t s : String) (i : SrcIdx) (params' : List (String × AMeta K)) (h : shapeStep unknowns params (t, s, i) = .ok params') :
    (∀ q, q ≠ t → params'.lookup q = params.lookup q) ∧ ∃ m m', params.lookup t = some m ∧ params'.lookup t = some m' ∧ FromSource unknowns s i m m' := by
  unfold shapeStep at h
  cases hm : params.lookup t with
  | none => simp only [hm] at h; cases h
  | some m =>
    simp only [hm] at h
    by_cases hp : m.pbo = true
    · rw [if_pos hp] at h
      cases h
      refine ⟨fun _ _ => rfl, m, m, rfl, hm, rfl, fun _ => rfl, ?_, ?_, ?_⟩
      · intro hc; rw [hp] at hc; cases hc
      · intro hc; rw [hp] at hc; cases hc
      · intro hc; rw [hp] at hc; cases hc
    · have hpf : m.pbo = false := by simpa using hp
      rw [if_neg hp] at h
      by_cases hsh : m.shape = some []
      · rw [if_pos hsh] at h
        cases hu : unknowns.lookup s with
        | none => simp only [hu] at h; cases h
        | some ms =>
          simp only [hu] at h
          cases ht : takeShape m ms i with
          | error e => rw [ht] at h; cases h
          | ok m1 =>
            rw [ht] at h
            cases h
            refine ⟨fun q hq => by rw [lookup_dictSet, if_neg hq], m, keepIdx m1 i, rfl, by rw [lookup_dictSet, if_pos rfl], ?_⟩
            cases i with
            | none =>
              cases ht
              exact ⟨rfl, fun hc => absurd hc hp, fun _ => rfl, fun _ hc => absurd hsh hc, fun _ _ => ⟨ms, hu, fun _ => ⟨rfl, rfl, rfl⟩, by (rintro l hl; cases hl)⟩⟩
            | some l =>
              rw [takeShape] at ht
              cases hv : npTake ms.val l with
              | error e => rw [hv] at ht; cases ht
              | ok v =>
                rw [hv] at ht
                cases ht
                refine ⟨rfl, fun hc => absurd hc hp, fun _ => rfl, fun _ hc => absurd hsh hc, fun _ _ => ⟨ms, hu, by (intro hl; cases hl), ?_⟩⟩
                rintro l' hl'
                cases hl'
                refine ⟨rfl, rfl, ?_⟩
                intro n data hd hlen
                rw [hd, npTake] at hv
                by_cases hb : (l.any fun k : Nat => decide (n ≤ k)) = true
                · rw [if_pos hb] at hv; cases hv
                · rw [if_neg hb] at hv
                  cases hv
                  have hlt : ∀ k ∈ l, k < n := by
                    intro k hk
                    by_contra hc
                    exact hb (List.any_eq_true.mpr ⟨k, hk, by simpa using hc⟩)
                  obtain ⟨d', h1, h2, h3⟩ := flatMap_row data l fun k hk => hlen ▸ hlt k hk
                  refine ⟨d', ?_, h2, fun k j hk => ⟨hlt j (List.mem_of_getElem? hk), h3 k j hk⟩⟩
                  show AVal.arr _ _ = _
                  rw [List.prod_nil, h1]
      · rw [if_neg hsh] at h
        cases h
        refine ⟨fun q hq => by rw [lookup_dictSet, if_neg hq], m, keepIdx m i, rfl, by rw [lookup_dictSet, if_pos rfl], ?_⟩
        cases i with
        | none => exact ⟨rfl, fun hc => absurd hc hp, fun _ => rfl, fun _ _ => ⟨rfl, rfl, rfl⟩, fun _ hc => absurd hc hsh⟩
        | some l => exact ⟨rfl, fun hc => absurd hc hp, fun _ => rfl, fun _ _ => ⟨rfl, rfl, rfl⟩, fun _ hc => absurd hc hsh⟩

/-- C144, what holds. Every connected param has afterwards what `FromSource` says, and all other params are as before. -/
theorem C144_params_partial (unknowns : List (String × AMeta K)) (conns : List (String × String × SrcIdx)) : ∀ (params params' : List (String × AMeta K)), (conns.map Prod.fst).Nodup →
    shapeLoop unknowns params conns = .ok params' →
    (∀ q, q ∉ conns.map Prod.fst → params'.lookup q = params.lookup q) ∧
      ∀ t s i, (t, s, i) ∈ conns → ∃ m m', params.lookup t = some m ∧ params'.lookup t = some m' ∧ FromSource unknowns s i m m' := by
  induction conns with
  | nil => intro params params' _ h; cases h; exact ⟨fun _ _ => rfl, by rintro t s i h; cases h⟩
  | cons c conns ih =>
    obtain ⟨t, s, i⟩ := c
    intro params params' hn h
    rw [List.map_cons, List.nodup_cons] at hn
    rw [shapeLoop, List.foldlM_cons] at h
    cases h1 : shapeStep unknowns params (t, s, i) with
    | error e => rw [h1] at h; cases h
    | ok p1 =>
      rw [h1] at h
      obtain ⟨hs1, m, m', hs2, hs3, hs4⟩ := shapeStep_spec unknowns params t s i p1 h1
      obtain ⟨hr1, hr2⟩ := ih p1 params' hn.2 h
      refine ⟨?_, ?_⟩
      · intro q hq
        rw [List.map_cons, List.mem_cons, not_or] at hq
        rw [hr1 q hq.2, hs1 q hq.1]
      · intro t' s' i' hm0
        rcases List.mem_cons.mp hm0 with hm | hm
        · cases hm
          exact ⟨m, m', hs2, by rw [hr1 t hn.1]; exact hs3, hs4⟩
        · obtain ⟨m, m', h3, h4, h5⟩ := hr2 t' s' i' hm
          have hne : t' ≠ t := by
            rintro rfl
            exact hn.1 (List.mem_map.mpr ⟨_, hm, rfl⟩)
          exact ⟨m, m', by rw [← hs1 t' hne]; exact h3, h4, h5⟩

theorem npTake_error (v : AVal K) (l : List Nat) : (∃ e, npTake v l = .error e) ↔ ¬ Selectable v l := by
  unfold npTake Selectable
  cases v with
  | num x => simp
  | arr dims data =>
    cases dims with
    | nil => simp
    | cons n rest =>
      by_cases hb : (l.any fun k : Nat => decide (n ≤ k)) = true
      · simp only [hb, if_true]
        refine ⟨fun _ => ?_, fun _ => ⟨_, rfl⟩⟩
        rintro ⟨n', rest', data', he, hk⟩
        cases he
        obtain ⟨k, hk1, hk2⟩ := List.any_eq_true.mp hb
        exact absurd (hk k hk1) (by simpa using hk2)
      · simp only [hb, Bool.false_eq_true, if_false]
        refine ⟨by (rintro ⟨e, h⟩; cases h), fun hc => absurd ⟨n, rest, data, rfl, ?_⟩ hc⟩
        intro k hk
        by_contra hcc
        exact hb (List.any_eq_true.mpr ⟨k, hk, by simpa using hcc⟩)

theorem shapeStep_error (unknowns params : List (String × AMeta K)) (t s : String) (i : SrcIdx) : (∃ e, shapeStep unknowns params (t, s, i) = .error e) ↔ CannotTake unknowns s i (params.lookup t) := by
  unfold shapeStep
  cases hm : params.lookup t with
  | none => simp [CannotTake]
  | some m =>
    unfold CannotTake
    by_cases hp : m.pbo = true
    · simp [hp]
    · have hpf : m.pbo = false := by simpa using hp
      by_cases hsh : m.shape = some []
      · simp only [hpf, hsh, if_true, Bool.false_eq_true, if_false]
        cases hu : unknowns.lookup s with
        | none => simp [hpf, hsh]
        | some ms =>
          cases i with
          | none => simp [takeShape]
          | some l =>
            simp only [takeShape]
            have := npTake_error ms.val l
            cases hv : npTake ms.val l with
            | error e =>
              rw [hv] at this
              have hb := this.mp ⟨e, rfl⟩
              simp [Except.map, hb, hpf, hsh]
            | ok v =>
              rw [hv] at this
              have hb : Selectable ms.val l := by
                by_contra hc
                obtain ⟨e, he⟩ := this.mpr hc
                cases he
              simp [Except.map, hb, hpf]
      · simp [hp, hsh]

/-- C144. The setup fails here exactly if some connected param, or the source of one without a shape, does not exist, or if a param without a shape is connected with indices to a number or has an index past the end of the first dimension of the source. -/
theorem C144_errors (unknowns : List (String × AMeta K)) (conns : List (String × String × SrcIdx)) : ∀ (params : List (String × AMeta K)), (conns.map Prod.fst).Nodup →
    ((∃ e, shapeLoop unknowns params conns = .error e) ↔ ∃ t s i, (t, s, i) ∈ conns ∧ CannotTake unknowns s i (params.lookup t)) := by
  induction conns with
  | nil =>
    intro params _
    constructor
    · rintro ⟨e, h⟩; cases h
    · rintro ⟨t, s, i, h, _⟩; cases h
  | cons c conns ih =>
    obtain ⟨t, s, i⟩ := c
    intro params hn
    rw [List.map_cons, List.nodup_cons] at hn
    have hs := shapeStep_error unknowns params t s i
    rw [shapeLoop, List.foldlM_cons]
    cases h1 : shapeStep unknowns params (t, s, i) with
    | error e => exact ⟨fun _ => ⟨t, s, i, by simp, hs.mp ⟨e, h1⟩⟩, fun _ => ⟨e, rfl⟩⟩
    | ok p1 =>
      have hno : ¬ CannotTake unknowns s i (params.lookup t) := fun hc => by
        obtain ⟨e, he⟩ := hs.mpr hc
        rw [h1] at he
        cases he
      have hl := (shapeStep_spec unknowns params t s i p1 h1).1
      refine (ih p1 hn.2).trans ?_
      constructor
      · rintro ⟨t', s', i', hm, hc⟩
        have hne : t' ≠ t := by
          rintro rfl
          exact hn.1 (List.mem_map.mpr ⟨_, hm, rfl⟩)
        exact ⟨t', s', i', List.mem_cons_of_mem _ hm, by rw [← hl t' hne]; exact hc⟩
      · rintro ⟨t', s', i', hm0, hc⟩
        rcases List.mem_cons.mp hm0 with hm | hm
        · cases hm; exact absurd hc hno
        · have hne : t' ≠ t := by
            rintro rfl
            exact hn.1 (List.mem_map.mpr ⟨_, hm, rfl⟩)
          exact ⟨t', s', i', hm, by rw [hl t' hne]; exact hc⟩

end

/-- C144 refuted: the claim that a param without a shape takes the selected entries of its source. From a 3 by 2 array the entries 0 and 3 are asked for; the index 3 is an entry of the array but the setup fails. -/
theorem C144_two_dimensional_refuted : ∃ (unknowns params : List (String × AMeta Nat)) (s : AMeta Nat) (data : List Nat), unknowns.lookup "s.y" = some s ∧ s.val = .arr [3, 2] data ∧ data.length = 6 ∧
    (∃ p, params.lookup "t.x" = some p ∧ p.shape = some [] ∧ p.pbo = false) ∧ shapeLoop unknowns params [("t.x", "s.y", some [0, 3])] = .error .IndexError :=
  ⟨[("s.y", ⟨some [3, 2], 6, .arr [3, 2] [10, 11, 20, 21, 30, 31], false, none⟩)], [("t.x", ⟨some [], 0, .num 0, false, none⟩)], _, _, rfl, rfl, rfl, ⟨_, rfl, rfl, rfl⟩, rfl⟩

/-- C144 refuted, even where the setup succeeds: with entries 0 and 2 of the array the param is given two rows, four numbers, although its size is 2. -/
theorem C144_rows_refuted : ∃ (unknowns params params' : List (String × AMeta Nat)), shapeLoop unknowns params [("t.x", "s.y", some [0, 2])] = .ok params' ∧
    ∃ m data, params'.lookup "t.x" = some m ∧ m.shape = some [2] ∧ m.size = 2 ∧ m.val = .arr [2, 2] data ∧ data.length = 4 :=
  ⟨[("s.y", ⟨some [3, 2], 6, .arr [3, 2] [10, 11, 20, 21, 30, 31], false, none⟩)], [("t.x", ⟨some [], 0, .num 0, false, none⟩)], _, rfl, _, _, rfl, rfl, rfl, rfl, rfl⟩

/-- C144 refuted: entry 0 of a number. -/
theorem C144_number_refuted : ∃ (unknowns params : List (String × AMeta Nat)) (s p : AMeta Nat), unknowns.lookup "s.y" = some s ∧ s.val = .num 7 ∧ s.size = 1 ∧ params.lookup "t.x" = some p ∧ p.shape = some [] ∧
    shapeLoop unknowns params [("t.x", "s.y", some [0])] = .error .TypeError :=
  ⟨[("s.y", ⟨none, 1, .num 7, false, none⟩)], [("t.x", ⟨some [], 0, .num 0, false, none⟩)], _, _, rfl, rfl, rfl, rfl, rfl, rfl⟩

/-! ## Examples -/

section
/-- Two groups in a root: `g1` with a connection of its own, the root connects `y` to the promoted name `x` of two params. -/
def exG1 : CGroup := .mk [("c.y", "g1.c.y")] [("c.x", ["g1.c.x"]), ("d.x", ["g1.d.x"])] [("d.x", [("c.y", none)])] []
def exG2 : CGroup := .mk [("e.y", "g2.e.y")] [("e.x", ["g2.e.x"]), ("e.z", ["g2.e.z"])] [] []
def exRoot : CGroup := .mk [("y", "g2.e.y"), ("g1.c.y", "g1.c.y")] [("x", ["g1.c.x", "g2.e.x"]), ("g1.d.x", ["g1.d.x"])] [("x", [("y", some [1, 2])]), ("g1.d.x", [("y", none)])] [exG1, exG2]

example : explicitConns exRoot = .ok [("g1.d.x", [("g1.c.y", none), ("g2.e.y", none)]), ("g1.c.x", [("g2.e.y", some [1, 2])]), ("g2.e.x", [("g2.e.y", some [1, 2])])] := by rfl

theorem hasParam_leaf (toU : List (String × String)) (toP : List (String × List String)) (src : ConnDict) (t : String) : HasParam (.mk toU toP src []) t ↔ ∃ n l, toP.lookup n = some l ∧ t ∈ l := by
  constructor
  · rintro ⟨h, hh, r⟩
    rcases inTree_mk.mp hh with rfl | ⟨s, hs, _⟩
    · exact r
    · cases hs
  · intro r; exact ⟨_, .self _, r⟩

example : SubsApart exRoot := by
  refine .mk _ _ _ _ ?_ ?_
  · simp only [List.pairwise_cons, List.mem_singleton, forall_eq, List.not_mem_nil, false_imp_iff, implies_true, List.Pairwise.nil, and_true]
    intro t h1 h2
    rw [exG1, hasParam_leaf] at h1
    rw [exG2, hasParam_leaf] at h2
    obtain ⟨n, l, h1, h3⟩ := h1
    obtain ⟨n', l', h2, h4⟩ := h2
    have ha : t = "g1.c.x" ∨ t = "g1.d.x" := by
      have := lookup_mem h1
      simp only [List.mem_cons, Prod.mk.injEq, List.not_mem_nil, or_false] at this
      rcases this with ⟨_, rfl⟩ | ⟨_, rfl⟩
      · exact .inl (by simpa using h3)
      · exact .inr (by simpa using h3)
    have hb : t = "g2.e.x" ∨ t = "g2.e.z" := by
      have := lookup_mem h2
      simp only [List.mem_cons, Prod.mk.injEq, List.not_mem_nil, or_false] at this
      rcases this with ⟨_, rfl⟩ | ⟨_, rfl⟩
      · exact .inl (by simpa using h4)
      · exact .inr (by simpa using h4)
    rcases ha with rfl | rfl <;> simp at hb
  · intro s hs
    simp only [List.mem_cons, List.not_mem_nil, or_false] at hs
    rcases hs with rfl | rfl <;> exact .mk _ _ _ _ (by simp) (by simp)

/-- A source that does not exist. -/
example : explicitConns (.mk [("y", "c.y")] [("x", ["d.x"])] [("x", [("z", none)])] []) = .error .NameError := rfl

/-- A target that is an unknown. -/
example : explicitConns (.mk [("y", "c.y")] [("x", ["d.x"])] [("y", [("y", none)])] []) = .error .NameError := rfl

example : [ConnCall.mk "a" ["x", "z"] .none, ConnCall.mk "b" ["x"] (.ints [2, 0])].foldlM connectCall [] = .ok [("x", [("a", none), ("b", some [2, 0])]), ("z", [("a", none)])] := rfl

example : List.Forall₂ GoodCall [ConnCall.mk "a" ["x", "z"] .none, ConnCall.mk "b" ["x"] (.ints [2, 0])] [("a", ["x", "z"], none), ("b", ["x"], some [2, 0])] :=
  .cons ⟨rfl, rfl, .inl ⟨rfl, rfl⟩⟩ (.cons ⟨rfl, rfl, .inr ⟨_, rfl, rfl⟩⟩ .nil)

/-- Entries 2 and 0 of an array of three. -/
example : shapeLoop [("s.y", ⟨some [3], 3, .arr [3] [10, 20, 30], false, none⟩)] [("t.x", (⟨some [], 0, .num 0, false, none⟩ : AMeta Nat)), ("u.x", ⟨none, 1, .num 5, false, none⟩)] [("t.x", "s.y", some [2, 0])] =
    .ok [("t.x", ⟨some [2], 2, .arr [2] [30, 10], false, some [2, 0]⟩), ("u.x", ⟨none, 1, .num 5, false, none⟩)] := rfl

end

end OpenMDAO
