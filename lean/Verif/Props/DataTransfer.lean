import Verif.Lemmas.DataTransfer
/-!
# Properties C03 and C04 (`openmdao/core/data_transfer.py`)
-/
namespace OpenMDAO

/-- A connection list: pairs (source indices, target indices), as handed to `DataTransfer`. -/
abbrev Conns := List (List Nat × List Nat)

/-- Specification: source entry `s` is connected to target entry `t`. -/
def Connected (conns : Conns) (s t : Nat) : Prop :=
  ∃ c ∈ conns, ∃ j : Nat, c.1[j]? = some s ∧ c.2[j]? = some t

/-- Connections a model can hand over: paired non-empty index arrays inside the vectors. -/
structure ConnsOk (ns nt : Nat) (conns : Conns) : Prop where
  len : ∀ c ∈ conns, c.1.length = c.2.length
  nonempty : ∀ c ∈ conns, c.1 ≠ []
  src : ∀ c ∈ conns, ∀ k ∈ c.1, k < ns
  tgt : ∀ c ∈ conns, ∀ k ∈ c.2, k < nt

/-- No target entry is listed twice. -/
def TargetsDistinct (conns : Conns) : Prop := (conns.flatMap Prod.snd).Nodup

theorem ConnsOk.valid {ns nt : Nat} {conns : Conns} (h : ConnsOk ns nt conns) :
    ∀ c ∈ conns, ValidConn ns nt c ∧ c.1 ≠ [] :=
  fun c hc => ⟨⟨h.len c hc, h.src c hc, h.tgt c hc⟩, h.nonempty c hc⟩

theorem connected_iff_mem (conns : Conns) (s t : Nat) :
    Connected conns s t ↔ (s, t) ∈ conns.flatMap (fun c => c.1.zip c.2) := by
  simp only [Connected, List.mem_flatMap]
  constructor
  · rintro ⟨c, hc, j, h1, h2⟩
    refine ⟨c, hc, ?_⟩
    apply List.mem_of_getElem? (i := j)
    rw [List.getElem?_zip_eq_some]; exact ⟨h1, h2⟩
  · rintro ⟨c, hc, hm⟩
    obtain ⟨j, hj⟩ := List.getElem?_of_mem hm
    rw [List.getElem?_zip_eq_some] at hj
    exact ⟨c, hc, j, hj⟩

theorem pairs_bounds {ns nt : Nat} {conns : Conns} (h : ConnsOk ns nt conns) :
    ∀ p ∈ conns.flatMap (fun c => c.1.zip c.2), p.1 < ns ∧ p.2 < nt := by
  intro p hp
  obtain ⟨c, hc, hm⟩ := List.mem_flatMap.mp hp
  have hz := List.of_mem_zip (a := p.1) (b := p.2) hm
  exact ⟨h.src c hc _ hz.1, h.tgt c hc _ hz.2⟩

theorem fwdVec_spec {α : Type} (mode : Mode) (conns : Conns) (src tgt : List α)
    (h : ConnsOk src.length tgt.length conns) (hd : TargetsDistinct conns) (sc : List Scatter)
    (hsc : mkTransfer mode conns = .ok sc) :
    ∃ out, transferFwdVec sc src tgt = .ok out ∧ out.length = tgt.length ∧
      (∀ s t, Connected conns s t → out[t]? = src[s]?) ∧
      (∀ t, (∀ s, ¬ Connected conns s t) → out[t]? = tgt[t]?) := by
  obtain ⟨sc', h1, h2, h3⟩ := mkTransfer_ok mode conns h.valid
  rw [h1] at hsc; cases hsc
  refine ⟨_, transferFwdVec_pairs sc src tgt h2, assignPairs_length _ _ _, ?_, ?_⟩
  · intro s t hc
    rw [connected_iff_mem] at hc
    have hb := pairs_bounds h _ hc
    refine assignPairs_mem src _ tgt ?_ (s, t) (h3.mem_iff.mpr hc) hb.1 hb.2
    have := h3.map Prod.snd
    rw [zip_snd_flatMap h.len] at this
    exact this.nodup_iff.mpr hd
  · intro t ht
    apply assignPairs_not_mem
    intro hm
    obtain ⟨p, hp, rfl⟩ := List.mem_map.mp hm
    exact ht p.1 ((connected_iff_mem _ _ _).mpr (h3.mem_iff.mp hp))

/-- C03. For every connection list with distinct targets and whatever mode the transfer object was built
for, a forward transfer succeeds, every connected target entry receives its source entry, all other target
entries keep their value; under complex step the same holds for the imaginary parts (which otherwise stay
untouched). -/
theorem C03_forward_transfer_delivers {α β : Type} (mode : Mode) (conns : Conns)
    (byobj : List (String × String)) (inComplexStep deriv : Bool) (src tgt : XferVec α β)
    (h : ConnsOk src.vec.length tgt.vec.length conns) (hd : TargetsDistinct conns)
    (hi : inComplexStep = true → src.imag.length = src.vec.length ∧ tgt.imag.length = tgt.vec.length) :
    ∃ sc out, mkTransfer mode conns = .ok sc ∧
      transferFwd sc byobj inComplexStep deriv src tgt = .ok out ∧
      out.vec.length = tgt.vec.length ∧
      (∀ s t, Connected conns s t → out.vec[t]? = src.vec[s]?) ∧
      (∀ t, (∀ s, ¬ Connected conns s t) → out.vec[t]? = tgt.vec[t]?) ∧
      (inComplexStep = true → (∀ s t, Connected conns s t → out.imag[t]? = src.imag[s]?) ∧
        (∀ t, (∀ s, ¬ Connected conns s t) → out.imag[t]? = tgt.imag[t]?)) ∧
      (inComplexStep = false → out.imag = tgt.imag) := by
  obtain ⟨sc, h1, -, -⟩ := mkTransfer_ok mode conns h.valid
  obtain ⟨v, e1, e2, e3, e4⟩ := fwdVec_spec mode conns src.vec tgt.vec h hd sc h1
  cases inComplexStep with
  | false =>
    exact ⟨sc, ⟨v, tgt.imag, _⟩, h1, by rw [transferFwd, e1]; exact rfl, e2, e3, e4, by simp, fun _ => rfl⟩
  | true =>
    obtain ⟨hi1, hi2⟩ := hi rfl
    obtain ⟨w, f1, f2, f3, f4⟩ := fwdVec_spec mode conns src.imag tgt.imag (by rw [hi1, hi2]; exact h) hd sc h1
    refine ⟨sc, _, h1, by rw [transferFwd, e1, f1]; exact rfl, e2, e3, e4, fun _ => ⟨f3, f4⟩, by simp⟩

/-- C03, pass-by-object part: unless it is a derivative transfer every by-object target receives the object
of its source (distinct targets), nothing else changes; in a derivative transfer no object moves. -/
theorem C03_byobj_transfer {α β : Type} (sc : List Scatter) (byobj : List (String × String))
    (inComplexStep deriv : Bool) (src tgt out : XferVec α β) (hnd : (byobj.map Prod.fst).Nodup)
    (h : transferFwd sc byobj inComplexStep deriv src tgt = .ok out) :
    (deriv = false → ∀ t s, (t, s) ∈ byobj → out.objs t = src.objs s) ∧
    (∀ t, t ∉ byobj.map Prod.fst → out.objs t = tgt.objs t) ∧
    (deriv = true → out.objs = tgt.objs) := by
  have ho : out.objs = if deriv then tgt.objs
    else byobj.foldl (fun o c => fun n => if n = c.1 then src.objs c.2 else o n) tgt.objs := by
    simp only [transferFwd] at h
    cases h1 : transferFwdVec sc src.vec tgt.vec with
    | error e => rw [h1] at h; cases h
    | ok v =>
      rw [h1] at h
      cases inComplexStep with
      | false => cases h; rfl
      | true =>
        cases h2 : transferFwdVec sc src.imag tgt.imag with
        | error e => rw [h2] at h; cases h
        | ok w => rw [h2] at h; cases h; rfl
  have hskip : ∀ (l : List (String × String)) (f : String → β) t, t ∉ l.map Prod.fst →
      l.foldl (fun o c => fun n => if n = c.1 then src.objs c.2 else o n) f t = f t := by
    intro l
    induction l with
    | nil => intros; rfl
    | cons c cs ih =>
      intro f t ht
      simp only [List.map_cons, List.mem_cons, not_or] at ht
      rw [List.foldl_cons, ih _ _ ht.2]
      simp [ht.1]
  refine ⟨?_, ?_, ?_⟩
  · intro hd t s hm
    rw [ho, hd]
    simp only [Bool.false_eq_true, if_false]
    clear ho h
    generalize tgt.objs = f
    induction byobj generalizing f with
    | nil => simp at hm
    | cons c cs ih =>
      rw [List.map_cons, List.nodup_cons] at hnd
      rw [List.foldl_cons]
      rcases List.mem_cons.mp hm with rfl | hm
      · rw [hskip _ _ _ hnd.1]; simp
      · exact ih hnd.2 hm _
  · intro t ht
    rw [ho]
    split
    · rfl
    · exact hskip _ _ _ ht
  · intro hd; rw [ho, hd]; rfl

/-- C03, error branch: a connection with an empty source index array makes construction of the forward
transfer fail with `IndexError` instead of being dropped. -/
theorem C03_empty_connection_rejected (conns : Conns) (c : List Nat × List Nat) (hc : c ∈ conns)
    (h : c.1 = []) : mkTransfer .fwd conns = .error .IndexError := by
  unfold mkTransfer
  apply if_pos
  rw [List.any_eq_true]
  exact ⟨c, hc, by simp [keyFails, h]⟩

/-- C03/C04, error branch of both modes: construction fails exactly when some connection has an empty index array on the
side the mode sorts by (sources forward, targets reverse), then with `IndexError`; in all other cases it succeeds. -/
theorem C03_construction_fails_iff (conns : Conns) :
    (mkTransfer .fwd conns = .error .IndexError ↔ ∃ c ∈ conns, c.1 = []) ∧
    (mkTransfer .rev conns = .error .IndexError ↔ ∃ c ∈ conns, c.2 = []) ∧
    (∀ mode, mkTransfer mode conns ≠ .error .IndexError → ∃ sc, mkTransfer mode conns = .ok sc) := by
  refine ⟨?_, ?_, ?_⟩
  · unfold mkTransfer
    split <;> rename_i h
    · simpa [keyFails] using h
    · simpa [keyFails] using h
  · unfold mkTransfer
    split <;> rename_i h
    · simpa [keyFails] using h
    · simpa [keyFails] using h
  · intro mode h
    unfold mkTransfer at h ⊢
    split at h
    · exact absurd rfl h
    · rename_i hc
      rw [if_neg hc]
      exact ⟨_, rfl⟩

example : mkTransfer .rev [([], [])] = .error .IndexError ∧ (∃ sc, mkTransfer .rev [([], [1])] = .ok sc) :=
  ⟨by decide, _, rfl⟩

example : ConnsOk 6 5 [([3, 1], [0, 1]), ([4, 5], [3, 4])] ∧
    TargetsDistinct [([3, 1], [0, 1]), ([4, 5], [3, 4])] := by
  refine ⟨⟨by decide, by decide, by decide, by decide⟩, by unfold TargetsDistinct; decide⟩
example : mkTransfer .fwd [([2, 3], [2, 3]), ([0, 1], [0, 1])] =
    .ok [⟨.slice ⟨0, 4, some 1⟩, .slice ⟨0, 4, some 1⟩, true⟩] := by decide

/-- C04. A reverse transfer adds to every source entry the sum, over every listed pair with that source
entry (with repetitions), of the target entry of the pair; entries without connection are unchanged. -/
theorem C04_reverse_transfer_accumulates {α : Type} [AddCommMonoid α] (conns : Conns) (src tgt : List α)
    (h : ConnsOk src.length tgt.length conns) :
    ∃ sc out, mkTransfer .rev conns = .ok sc ∧ transferRev sc src tgt = .ok out ∧
      out.length = src.length ∧
      (∀ i, out[i]? = src[i]?.map (· + (((conns.flatMap (fun c => c.1.zip c.2)).filter
        (fun p => p.1 = i)).map (fun p => tgt.getD p.2 0)).sum)) ∧
      (∀ i, (∀ t, ¬ Connected conns i t) → out[i]? = src[i]?) := by
  obtain ⟨sc, h1, h2, h3⟩ := mkTransfer_ok .rev conns h.valid
  have key : ∀ i, (addPairs tgt (allPairs src.length tgt.length sc) src)[i]? =
      src[i]?.map (· + (((conns.flatMap (fun c => c.1.zip c.2)).filter
        (fun p => p.1 = i)).map (fun p => tgt.getD p.2 0)).sum) := by
    intro i
    rw [addPairs_getElem? _ _ _ _ (fun p hp => (pairs_bounds h _ (h3.mem_iff.mp hp)).2),
      ((h3.filter _).map _).sum_eq]
  refine ⟨sc, _, h1, transferRev_pairs sc src tgt h2, addPairs_length _ _ _, key, ?_⟩
  intro i hi
  rw [key i]
  have : (conns.flatMap (fun c => c.1.zip c.2)).filter (fun p => p.1 = i) = [] := by
    rw [List.filter_eq_nil_iff]
    intro p hp hpi
    simp only [decide_eq_true_eq] at hpi
    exact hi p.2 ((connected_iff_mem _ _ _).mpr (by rw [← hpi]; exact hp))
  rw [this]
  simp

/-- C04. Reverse transfer is the adjoint of forward transfer: `<forward(s), t> = <s, reverse(t)>` for zero
initial destination vectors. -/
theorem C04_reverse_is_adjoint {α : Type} [CommSemiring α] (conns : Conns) (s t : List α)
    (h : ConnsOk s.length t.length conns) (hd : TargetsDistinct conns) :
    ∃ scf scr fs rt, mkTransfer .fwd conns = .ok scf ∧ mkTransfer .rev conns = .ok scr ∧
      transferFwdVec scf s (List.replicate t.length 0) = .ok fs ∧
      transferRev scr (List.replicate s.length 0) t = .ok rt ∧
      dot fs t = dot s rt := by
  obtain ⟨scf, f1, f2, f3⟩ := mkTransfer_ok .fwd conns h.valid
  obtain ⟨scr, r1, r2, r3⟩ := mkTransfer_ok .rev conns h.valid
  refine ⟨scf, scr, _, _, f1, r1,
    transferFwdVec_pairs (mode := .fwd) scf s _ (by simpa using f2),
    transferRev_pairs scr _ t (by simpa using r2), ?_⟩
  have bf := fun p hp => pairs_bounds h p (f3.mem_iff.mp hp)
  have br := fun p hp => pairs_bounds h p (r3.mem_iff.mp hp)
  have hnd : ((allPairs s.length t.length scf).map Prod.snd).Nodup := by
    have := f3.map Prod.snd
    rw [zip_snd_flatMap h.len] at this
    exact this.nodup_iff.mpr hd
  simp only [List.length_replicate]
  rw [dot_assignPairs _ _ _ _ hnd (fun p hp => (bf p hp).1) (fun p hp => (bf p hp).2)
      (fun p hp => by simp [(bf p hp).2]),
    dot_addPairs _ _ _ _ (fun p hp => (br p hp).1) (fun p hp => (br p hp).2) (by simp),
    ((f3.trans r3.symm).map _).sum_eq]
  congr 1
  have z1 : ∀ (n : Nat) (u : List α), (List.zipWith (· * ·) (List.replicate n (0:α)) u).sum = 0 := by
    intro n
    induction n with
    | zero => simp
    | succ n ih => intro u; cases u <;> simp [List.replicate_succ, ih]
  have z2 : ∀ (n : Nat) (u : List α), (List.zipWith (· * ·) u (List.replicate n (0:α))).sum = 0 := by
    intro n
    induction n with
    | zero => simp
    | succ n ih => intro u; cases u <;> simp [List.replicate_succ, ih]
  simp only [dot]
  rw [z1, z2]

/-- Repeated source indices: both contributions arrive. -/
example : (mkTransfer .rev [([1, 1, 0], [0, 1, 2])]).bind (fun sc => transferRev sc [10, 20, 30] [1, 2, 4]) =
    .ok [14, 23, 30] := by decide
example : ConnsOk 3 3 [([1, 1, 0], [0, 1, 2])] ∧ TargetsDistinct [([1, 1, 0], [0, 1, 2])] := by
  refine ⟨⟨by decide, by decide, by decide, by decide⟩, by unfold TargetsDistinct; decide⟩

end OpenMDAO
