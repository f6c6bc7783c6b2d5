import Verif.Spec.MetaLife
import Mathlib.Data.List.Nodup
/-!
# C172: surrogates of a `MetaModel` are separate, trained once, on the data of the first run
-/
namespace OpenMDAO
set_option linter.unusedSectionVars false
variable {S D X Y : Type}

/-! ## `setup` -/

theorem copy_fold (a : Nat) (ns : List String) : ∀ (m : MetaObj S), ns.Nodup → a < m.next →
    (ns.foldl (mlCopy a) m).outs = m.outs ∧ (ns.foldl (mlCopy a) m).useDef = m.useDef ∧
    (ns.foldl (mlCopy a) m).dflt = m.dflt ∧ m.next ≤ (ns.foldl (mlCopy a) m).next ∧
    (∀ b < m.next, (ns.foldl (mlCopy a) m).heap b = m.heap b) ∧
    (∀ n, ¬ (n ∈ ns ∧ m.useDef n = true) → (ns.foldl (mlCopy a) m).sur n = m.sur n) ∧
    (∀ n ∈ ns, m.useDef n = true → ∃ b, m.next ≤ b ∧ b < (ns.foldl (mlCopy a) m).next ∧
      (ns.foldl (mlCopy a) m).sur n = some b ∧ (ns.foldl (mlCopy a) m).heap b = m.heap a) ∧
    (∀ n ∈ ns, ∀ n' ∈ ns, m.useDef n = true → m.useDef n' = true →
      (ns.foldl (mlCopy a) m).sur n = (ns.foldl (mlCopy a) m).sur n' → n = n') := by
  induction ns with
  | nil => intro m _ _; simp
  | cons k ns ih =>
    intro m hd ha
    obtain ⟨hk, hd⟩ := List.nodup_cons.1 hd
    rw [List.foldl_cons]
    by_cases hu : m.useDef k = true
    · have e : mlCopy a m k = { m with sur := putKey m.sur k (some m.next), heap := putKey m.heap m.next (m.heap a), next := m.next + 1 } := by
        simp [mlCopy, hu]
      rw [e]
      obtain ⟨h1, h2, h3, h4, h5, h6, h7, h8⟩ := ih { m with sur := putKey m.sur k (some m.next), heap := putKey m.heap m.next (m.heap a), next := m.next + 1 } hd (by simp; omega)
      generalize ns.foldl (mlCopy a) _ = r at *
      dsimp only at *
      have hka : r.sur k = some m.next := by
        rw [h6 k (fun h => hk h.1)]; simp [putKey]
      have hh : putKey m.heap m.next (m.heap a) a = m.heap a := by
        simp [putKey]
      refine ⟨h1, h2, h3, by omega, ?_, ?_, ?_, ?_⟩
      · intro b hb
        rw [h5 b (by omega)]
        simp only [putKey]; rw [if_neg (by omega)]
      · intro n hn
        rw [h6 n (fun h => hn ⟨List.mem_cons_of_mem _ h.1, h.2⟩)]
        simp only [putKey]
        rw [if_neg]
        rintro rfl
        exact hn ⟨by simp, hu⟩
      · intro n hn hun
        rcases List.mem_cons.1 hn with rfl | hn
        · refine ⟨m.next, Nat.le_refl _, by omega, hka, ?_⟩
          rw [h5 m.next (by omega)]; simp [putKey]
        · obtain ⟨b, q1, q2, q3, q4⟩ := h7 n hn hun
          exact ⟨b, by omega, q2, q3, q4.trans hh⟩
      · intro n hn n' hn' hun hun' heq
        rcases List.mem_cons.1 hn with e1 | hn <;> rcases List.mem_cons.1 hn' with e2 | hn'
        · rw [e1, e2]
        · obtain ⟨b, q1, _, q3, _⟩ := h7 n' hn' hun'
          rw [e1, hka, q3] at heq
          have := Option.some.inj heq
          omega
        · obtain ⟨b, q1, _, q3, _⟩ := h7 n hn hun
          rw [e2, hka, q3] at heq
          have := Option.some.inj heq
          omega
        · exact h8 n hn n' hn' hun hun' heq
    · have e : mlCopy a m k = m := by simp [mlCopy, hu]
      rw [e]
      obtain ⟨h1, h2, h3, h4, h5, h6, h7, h8⟩ := ih m hd ha
      refine ⟨h1, h2, h3, h4, h5, ?_, ?_, ?_⟩
      · intro n hn
        exact h6 n (fun h => hn ⟨List.mem_cons_of_mem _ h.1, h.2⟩)
      · intro n hn hun
        rcases List.mem_cons.1 hn with rfl | hn
        · exact absurd hun hu
        · exact h7 n hn hun
      · intro n hn n' hn' hun hun'
        rcases List.mem_cons.1 hn with rfl | hn
        · exact absurd hun hu
        rcases List.mem_cons.1 hn' with rfl | hn'
        · exact absurd hun' hu
        exact h8 n hn n' hn' hun hun'

/-- **C172 (setup).** After `setup` the component is to be trained; every output without a surrogate of its own has a copy of the
default surrogate in the state that one has; the other outputs keep their surrogate and its state; no two outputs share one. -/
theorem C172_setup (m : MetaObj S) (h : m.Separate) :
    m.setup.train = true ∧ m.setup.Separate ∧ m.setup.outs = m.outs ∧ m.setup.dflt = m.dflt ∧ m.setup.useDef = m.useDef ∧
    (∀ a, m.dflt = some a → m.setup.heap a = m.heap a ∧ ∀ n ∈ m.outs, m.useDef n = true → m.setup.Has n (m.heap a)) ∧
    ∀ n ∈ m.outs, (m.useDef n = false ∨ m.dflt = none) → m.setup.sur n = m.sur n ∧ ∀ s, m.Has n s → m.setup.Has n s := by
  rcases hd : m.dflt with _ | a
  · have e : m.setup = { m with train := true } := by simp only [MetaObj.setup, hd]
    rw [e]
    exact ⟨rfl, ⟨h.nodup, h.inj, h.dflt, h.used, h.dused⟩, rfl, hd, rfl, by simp, fun n _ _ => ⟨rfl, fun s hs => hs⟩⟩
  · have e : m.setup = { m.outs.foldl (mlCopy a) m with train := true } := by simp only [MetaObj.setup, hd]
    rw [e]
    obtain ⟨h1, h2, h3, h4, h5, h6, h7, h8⟩ := copy_fold a m.outs m h.nodup (h.dused a hd)
    have ha := h.dused a hd
    dsimp only
    generalize m.outs.foldl (mlCopy a) m = r at *
    have old : ∀ n ∈ m.outs, ¬ m.useDef n = true → r.sur n = m.sur n := fun n _ hu => h6 n (fun q => hu q.2)
    refine ⟨rfl, ⟨by dsimp only; rw [h1]; exact h.nodup, ?_, ?_, ?_, ?_⟩, h1, h3.trans hd, h2, ?_, ?_⟩
    · dsimp only
      rw [h1]
      intro n hn n' hn' b hb hb'
      by_cases hu : m.useDef n = true <;> by_cases hu' : m.useDef n' = true
      · exact h8 n hn n' hn' hu hu' (hb.trans hb'.symm)
      · obtain ⟨c, q1, _, q3, _⟩ := h7 n hn hu
        rw [old n' hn' hu'] at hb'
        have := h.used n' hn' b hb'
        rw [q3] at hb
        have := Option.some.inj hb
        omega
      · obtain ⟨c, q1, _, q3, _⟩ := h7 n' hn' hu'
        rw [old n hn hu] at hb
        have := h.used n hn b hb
        rw [q3] at hb'
        have := Option.some.inj hb'
        omega
      · rw [old n hn hu] at hb
        rw [old n' hn' hu'] at hb'
        exact h.inj n hn n' hn' b hb hb'
    · dsimp only
      rw [h1, h3]
      intro n hn b hb
      by_cases hu : m.useDef n = true
      · obtain ⟨c, q1, _, q3, _⟩ := h7 n hn hu
        rw [q3] at hb
        have := Option.some.inj hb
        rw [hd]
        intro q
        have := Option.some.inj q
        omega
      · rw [old n hn hu] at hb
        exact h.dflt n hn b hb
    · dsimp only
      rw [h1]
      intro n hn b hb
      by_cases hu : m.useDef n = true
      · obtain ⟨c, _, q2, q3, _⟩ := h7 n hn hu
        rw [q3] at hb
        have := Option.some.inj hb
        omega
      · rw [old n hn hu] at hb
        have := h.used n hn b hb
        omega
    · dsimp only
      rw [h3]
      intro b hb
      have := h.dused b hb
      omega
    · intro b hb
      obtain rfl := Option.some.inj hb
      refine ⟨h5 a ha, fun n hn hu => ?_⟩
      obtain ⟨c, _, _, q3, q4⟩ := h7 n hn hu
      exact ⟨c, q3, q4⟩
    · intro n hn hu
      have hu : ¬ m.useDef n = true := by rcases hu with hu | hu <;> simp_all
      refine ⟨old n hn hu, ?_⟩
      rintro s ⟨b, hb, hs⟩
      exact ⟨b, (old n hn hu).trans hb, (h5 b (h.used n hn b hb)).trans hs⟩

/-! ## Training -/

theorem trainLoop_frame (ops : SurOps S D X Y) (t : TrainSet D) (ns : List String) : ∀ m : MetaObj S,
    (mlTrainLoop ops t ns m).1.outs = m.outs ∧ (mlTrainLoop ops t ns m).1.sur = m.sur ∧
    (mlTrainLoop ops t ns m).1.useDef = m.useDef ∧ (mlTrainLoop ops t ns m).1.dflt = m.dflt ∧
    (mlTrainLoop ops t ns m).1.next = m.next ∧ (mlTrainLoop ops t ns m).1.train = m.train ∧
    ∀ b, (∀ n ∈ ns, m.sur n ≠ some b) → (mlTrainLoop ops t ns m).1.heap b = m.heap b := by
  induction ns with
  | nil => intro m; simp [mlTrainLoop]
  | cons k ns ih =>
    intro m
    unfold mlTrainLoop
    cases hk : t.out k with
    | error e => simp
    | ok d =>
      dsimp only
      cases hs : m.sur k with
      | none =>
        obtain ⟨h1, h2, h3, h4, h5, h6, h7⟩ := ih m
        exact ⟨h1, h2, h3, h4, h5, h6, fun b hb => h7 b fun n hn => hb n (List.mem_cons_of_mem _ hn)⟩
      | some a =>
        dsimp only
        have hput : ∀ b, (∀ n ∈ k :: ns, m.sur n ≠ some b) → (m.put a (ops.train (m.heap a) d).1).heap b = m.heap b := by
          intro b hb
          have : b ≠ a := fun q => hb k (by simp) (q ▸ hs)
          simp [MetaObj.put, putKey, this]
        cases (ops.train (m.heap a) d).2 with
        | some e => exact ⟨rfl, rfl, rfl, rfl, rfl, rfl, hput⟩
        | none =>
          obtain ⟨h1, h2, h3, h4, h5, h6, h7⟩ := ih (m.put a (ops.train (m.heap a) d).1)
          exact ⟨h1, h2, h3, h4, h5, h6, fun b hb => (h7 b fun n hn => hb n (List.mem_cons_of_mem _ hn)).trans (hput b hb)⟩

theorem trainLoop_spec (ops : SurOps S D X Y) (t : TrainSet D) (ns : List String) : ∀ m : MetaObj S, ns.Nodup →
    (∀ n ∈ ns, ∀ n' ∈ ns, ∀ a, m.sur n = some a → m.sur n' = some a → n = n') → (mlTrainLoop ops t ns m).2 = none →
    ∀ n ∈ ns, ∃ d, t.out n = .ok d ∧ ∀ a, m.sur n = some a →
      ops.train (m.heap a) d = ((mlTrainLoop ops t ns m).1.heap a, none) := by
  induction ns with
  | nil => intro m _ _ _ n hn; simp at hn
  | cons k ns ih =>
    intro m hd hinj hok n hn
    obtain ⟨hk, hd⟩ := List.nodup_cons.1 hd
    have hinj' : ∀ n ∈ ns, ∀ n' ∈ ns, ∀ a, m.sur n = some a → m.sur n' = some a → n = n' := fun n hn n' hn' =>
      hinj n (List.mem_cons_of_mem _ hn) n' (List.mem_cons_of_mem _ hn')
    unfold mlTrainLoop at hok ⊢
    cases ht : t.out k with
    | error e => rw [ht] at hok; simp at hok
    | ok d =>
      rw [ht] at hok
      dsimp only at hok ⊢
      cases hs : m.sur k with
      | none =>
        rw [hs] at hok
        dsimp only at hok ⊢
        rcases List.mem_cons.1 hn with rfl | hn
        · exact ⟨d, ht, fun a ha => by rw [hs] at ha; cases ha⟩
        · exact ih m hd hinj' hok n hn
      | some a =>
        rw [hs] at hok
        dsimp only at hok ⊢
        cases he : (ops.train (m.heap a) d).2 with
        | some e => rw [he] at hok; simp at hok
        | none =>
          rw [he] at hok
          dsimp only at hok ⊢
          rcases List.mem_cons.1 hn with rfl | hn
          · refine ⟨d, ht, fun b hb => ?_⟩
            rw [hs] at hb
            obtain rfl := Option.some.inj hb
            have hf := (trainLoop_frame ops t ns (m.put a (ops.train (m.heap a) d).1)).2.2.2.2.2.2 a (by
              intro n' hn' q
              have := hinj n (by simp) n' (List.mem_cons_of_mem _ hn') a hs q
              exact hk (this ▸ hn'))
            rw [hf]
            refine Prod.ext ?_ he
            simp [MetaObj.put, putKey]
          · obtain ⟨d', q1, q2⟩ := ih (m.put a (ops.train (m.heap a) d).1) hd hinj' hok n hn
            refine ⟨d', q1, fun b hb => ?_⟩
            have hne : b ≠ a := by
              rintro rfl
              have := hinj k (by simp) n (List.mem_cons_of_mem _ hn) b hs hb
              exact hk (this ▸ hn)
            have := q2 b hb
            have e : (m.put a (ops.train (m.heap a) d).1).heap b = m.heap b := by simp [MetaObj.put, putKey, hne]
            rw [e] at this
            exact this

/-! ## Prediction -/

theorem predict_frame (ops : SurOps S D X Y) (m : MetaObj S) (x : X) (ns : List String) : ∀ (u : String → Y) (n : String), n ∉ ns →
    (mlPredict ops m x ns u).1 n = u n := by
  induction ns with
  | nil => intro u n _; rfl
  | cons k ns ih =>
    intro u n hn
    obtain ⟨h1, h2⟩ := not_or.1 (fun h => hn (List.mem_cons.2 h))
    unfold mlPredict
    cases m.sur k with
    | none => rfl
    | some a =>
      dsimp only
      cases ops.predict (m.heap a) x with
      | error e => rfl
      | ok y =>
        dsimp only
        rw [ih _ n h2]
        simp [putKey, h1]

theorem predict_spec (ops : SurOps S D X Y) (m : MetaObj S) (x : X) (ns : List String) : ∀ (u : String → Y), ns.Nodup →
    ((mlPredict ops m x ns u).2 = none ↔ ∀ n ∈ ns, ∃ s y, m.Has n s ∧ ops.predict s x = .ok y) ∧
    ((mlPredict ops m x ns u).2 = none → ∀ n ∈ ns, ∃ s, m.Has n s ∧ ops.predict s x = .ok ((mlPredict ops m x ns u).1 n)) := by
  induction ns with
  | nil => intro u _; simp [mlPredict]
  | cons k ns ih =>
    intro u hd
    obtain ⟨hk, hd⟩ := List.nodup_cons.1 hd
    unfold mlPredict
    cases hs : m.sur k with
    | none =>
      refine ⟨⟨fun h => by simp at h, fun h => ?_⟩, fun h => by simp at h⟩
      obtain ⟨s, y, ⟨a, ha, _⟩, _⟩ := h k (by simp)
      rw [hs] at ha; cases ha
    | some a =>
      dsimp only
      cases hp : ops.predict (m.heap a) x with
      | error e =>
        refine ⟨⟨fun h => by simp at h, fun h => ?_⟩, fun h => by simp at h⟩
        obtain ⟨s, y, ⟨b, hb, hb2⟩, hy⟩ := h k (by simp)
        rw [hs] at hb
        obtain rfl := Option.some.inj hb
        rw [← hb2, hp] at hy; cases hy
      | ok y =>
        dsimp only
        obtain ⟨h1, h2⟩ := ih (putKey u k y) hd
        constructor
        · rw [h1]
          constructor
          · intro h n hn
            rcases List.mem_cons.1 hn with rfl | hn
            · exact ⟨m.heap a, y, ⟨a, hs, rfl⟩, hp⟩
            · exact h n hn
          · exact fun h n hn => h n (List.mem_cons_of_mem _ hn)
        · intro hok n hn
          rcases List.mem_cons.1 hn with rfl | hn
          · refine ⟨m.heap a, ⟨a, hs, rfl⟩, ?_⟩
            rw [predict_frame ops m x ns _ n hk, hp]
            simp [putKey]
          · exact h2 hok n hn

/-! ## Runs -/

theorem run_frame (ops : SurOps S D X Y) (t : TrainSet D) (x : X) (m : MetaObj S) (u : String → Y) :
    (m.run ops t x u).1.outs = m.outs ∧ (m.run ops t x u).1.sur = m.sur ∧ (m.run ops t x u).1.useDef = m.useDef ∧
    (m.run ops t x u).1.dflt = m.dflt ∧ (m.run ops t x u).1.next = m.next ∧
    ∀ b, (∀ n ∈ m.outs, m.sur n ≠ some b) → (m.run ops t x u).1.heap b = m.heap b := by
  obtain ⟨h1, h2, h3, h4, h5, h6, h7⟩ := trainLoop_frame ops t m.outs m
  unfold MetaObj.run
  split
  · unfold mlTrain
    cases t.pre with
    | some e => exact ⟨rfl, rfl, rfl, rfl, rfl, fun _ _ => rfl⟩
    | none =>
      dsimp only
      cases (mlTrainLoop ops t m.outs m).2 with
      | some e => exact ⟨h1, h2, h3, h4, h5, h7⟩
      | none => exact ⟨h1, h2, h3, h4, h5, h7⟩
  · exact ⟨rfl, rfl, rfl, rfl, rfl, fun _ _ => rfl⟩

/-- **C172 (a run that trains).** When the flag is set and the run succeeds, every output has the value predicted by its own surrogate,
trained, from the state it had before the run, on the data of that output at the time of the run; the flag is cleared. -/
theorem C172_train_run (ops : SurOps S D X Y) (t : TrainSet D) (x : X) (m : MetaObj S) (u : String → Y) (h : m.Separate)
    (ht : m.train = true) (hok : (m.run ops t x u).2.2 = none) :
    (m.run ops t x u).1.train = false ∧ t.pre = none ∧
    ∀ n ∈ m.outs, ∃ s s' d, m.Has n s ∧ t.out n = .ok d ∧ ops.train s d = (s', none) ∧ (m.run ops t x u).1.Has n s' ∧
      ops.predict s' x = .ok ((m.run ops t x u).2.1 n) := by
  obtain ⟨h1, h2, h3, h4, h5, h6, h7⟩ := trainLoop_frame ops t m.outs m
  unfold MetaObj.run at hok ⊢
  rw [if_pos ht] at hok ⊢
  unfold mlTrain at hok ⊢
  cases hp : t.pre with
  | some e => rw [hp] at hok; simp at hok
  | none =>
    rw [hp] at hok
    dsimp only at hok ⊢
    cases hl : (mlTrainLoop ops t m.outs m).2 with
    | some e => rw [hl] at hok; simp at hok
    | none =>
      rw [hl] at hok
      dsimp only at hok ⊢
      refine ⟨rfl, rfl, fun n hn => ?_⟩
      obtain ⟨s', ⟨a, ha, hs⟩, hy⟩ := (predict_spec ops _ x m.outs u h.nodup).2 hok n hn
      have ha' : m.sur n = some a := by rw [← h2]; exact ha
      obtain ⟨d, hd, htr⟩ := trainLoop_spec ops t m.outs m h.nodup h.inj hl n hn
      have := htr a ha'
      exact ⟨m.heap a, s', d, ⟨a, ha', rfl⟩, hd, by rw [this]; exact Prod.ext hs rfl, ⟨a, ha, hs⟩, hy⟩

/-- **C172 (a run that does not train).** With the flag cleared a run changes no surrogate, does not look at the training data, and
succeeds exactly when every output has a surrogate that predicts; the values are the predictions. -/
theorem C172_later_run (ops : SurOps S D X Y) (t t' : TrainSet D) (x : X) (m : MetaObj S) (u : String → Y) (h : m.outs.Nodup)
    (ht : m.train = false) :
    (m.run ops t x u).1 = m ∧ m.run ops t x u = m.run ops t' x u ∧
    ((m.run ops t x u).2.2 = none ↔ ∀ n ∈ m.outs, ∃ s y, m.Has n s ∧ ops.predict s x = .ok y) ∧
    ((m.run ops t x u).2.2 = none → ∀ n ∈ m.outs, ∃ s, m.Has n s ∧ ops.predict s x = .ok ((m.run ops t x u).2.1 n)) := by
  have e : ∀ t : TrainSet D, m.run ops t x u = (m, mlPredict ops m x m.outs u) := fun t => by simp [MetaObj.run, ht]
  rw [e t, e t']
  exact ⟨rfl, rfl, predict_spec ops m x m.outs u h⟩

/-- **C172 (a training that fails).** If the flag is still set after a run, the run raised an exception and set no output; so the next
run trains again. -/
theorem C172_failed_training (ops : SurOps S D X Y) (t : TrainSet D) (x : X) (m : MetaObj S) (u : String → Y)
    (h : (m.run ops t x u).1.train = true) : (m.run ops t x u).2.1 = u ∧ (m.run ops t x u).2.2 ≠ none := by
  unfold MetaObj.run at h ⊢
  split at h
  · rename_i ht
    rw [if_pos ht]
    unfold mlTrain at h ⊢
    cases hp : t.pre with
    | some e => simp
    | none =>
      rw [hp] at h
      dsimp only at h ⊢
      cases hl : (mlTrainLoop ops t m.outs m).2 with
      | some e => simp
      | none => rw [hl] at h; simp at h
  · rename_i ht
    exact absurd h ht

/-- **C172 (bad training data).** When the data are rejected by the checks, or cannot be made into a matrix for some output, the flag
stays set: the next run trains again. -/
theorem C172_bad_data (ops : SurOps S D X Y) (t : TrainSet D) (x : X) (m : MetaObj S) (u : String → Y) (ht : m.train = true)
    (n : String) (hn : n ∈ m.outs) (e : PyErr) (hbad : t.pre = some e ∨ t.out n = .error e) :
    (m.run ops t x u).1.train = true := by
  obtain ⟨h1, h2, h3, h4, h5, h6, h7⟩ := trainLoop_frame ops t m.outs m
  unfold MetaObj.run
  rw [if_pos ht]
  unfold mlTrain
  cases hp : t.pre with
  | some e => exact ht
  | none =>
    dsimp only
    have hl : (mlTrainLoop ops t m.outs m).2 ≠ none := by
      have hb : t.out n = .error e := by
        rcases hbad with hb | hb
        · rw [hp] at hb; cases hb
        · exact hb
      clear h1 h2 h3 h4 h5 h6 h7 hbad ht
      generalize m.outs = ns at hn
      induction ns generalizing m with
      | nil => simp at hn
      | cons k ns ih =>
        unfold mlTrainLoop
        cases hk : t.out k with
        | error e => simp
        | ok d =>
          have hn' : n ∈ ns := by
            rcases List.mem_cons.1 hn with rfl | hn
            · rw [hb] at hk; cases hk
            · exact hn
          dsimp only
          cases m.sur k with
          | none => exact ih m hn'
          | some a =>
            dsimp only
            cases (ops.train (m.heap a) d).2 with
            | some e => simp
            | none => exact ih _ hn'
    cases hl2 : (mlTrainLoop ops t m.outs m).2 with
    | some e => exact h6.trans ht
    | none => exact absurd hl2 hl

/-- **C172 (no surrogate).** A run of a component with an output that has no surrogate raises an exception. -/
theorem C172_missing (ops : SurOps S D X Y) (t : TrainSet D) (x : X) (m : MetaObj S) (u : String → Y) (h : m.outs.Nodup) (n : String)
    (hn : n ∈ m.outs) (hs : m.sur n = none) : (m.run ops t x u).2.2 ≠ none := by
  intro hok
  have key : ∀ m' : MetaObj S, m'.sur = m.sur → (mlPredict ops m' x m.outs u).2 ≠ none := by
    intro m' hm hok
    obtain ⟨s, y, ⟨a, ha, _⟩, _⟩ := (predict_spec ops m' x m.outs u h).1.1 hok n hn
    rw [hm, hs] at ha; cases ha
  unfold MetaObj.run at hok
  split at hok
  · have hf := trainLoop_frame ops t m.outs m
    unfold mlTrain at hok
    cases hp : t.pre with
    | some e => rw [hp] at hok; simp at hok
    | none =>
      rw [hp] at hok
      dsimp only at hok
      cases hl : (mlTrainLoop ops t m.outs m).2 with
      | some e => rw [hl] at hok; simp at hok
      | none =>
        rw [hl] at hok
        dsimp only at hok
        refine key _ ?_ hok
        exact hf.2.1
  · exact key m rfl hok

/-- **C172 (every history).** Whatever is done to a component whose surrogates are separate, they stay separate, and the default
surrogate itself is never trained: a later `setup` starts again from the state it was given in. -/
theorem C172_default_untouched (ops : SurOps S D X Y) (es : List (MetaEvent D X)) : ∀ (m : MetaObj S) (u : String → Y), m.Separate →
    (es.foldl (metaStep ops) (m, u)).1.Separate ∧ (es.foldl (metaStep ops) (m, u)).1.dflt = m.dflt ∧
    (es.foldl (metaStep ops) (m, u)).1.outs = m.outs ∧ (es.foldl (metaStep ops) (m, u)).1.useDef = m.useDef ∧
    ∀ a, m.dflt = some a → (es.foldl (metaStep ops) (m, u)).1.heap a = m.heap a := by
  induction es with
  | nil => intro m u h; exact ⟨h, rfl, rfl, rfl, fun _ _ => rfl⟩
  | cons e es ih =>
    intro m u h
    rw [List.foldl_cons]
    cases e with
    | setup =>
      obtain ⟨_, q2, q3, q4, q5, q6, _⟩ := C172_setup m h
      obtain ⟨r1, r2, r3, r4, r5⟩ := ih m.setup u q2
      exact ⟨r1, r2.trans q4, r3.trans q3, r4.trans q5, fun a ha => (r5 a (q4.trans ha)).trans (q6 a ha).1⟩
    | run t x =>
      obtain ⟨q1, q2, q3, q4, q5, q6⟩ := run_frame ops t x m u
      obtain ⟨r1, r2, r3, r4, r5⟩ := ih (m.run ops t x u).1 (m.run ops t x u).2.1
        ⟨q1 ▸ h.nodup, by rw [q1, q2]; exact h.inj, by rw [q1, q2, q4]; exact h.dflt, by rw [q1, q2, q5]; exact h.used,
          by rw [q4, q5]; exact h.dused⟩
      exact ⟨r1, r2.trans q4, r3.trans q1, r4.trans q3, fun a ha => (r5 a (q4.trans ha)).trans
        (q6 a fun n hn hs => h.dflt n hn a hs ha)⟩
    | retrain => exact ih { m with train := true } u ⟨h.nodup, h.inj, h.dflt, h.used, h.dused⟩

/-- A run without training changes nothing, so any number of them does not. -/
theorem later_runs (ops : SurOps S D X Y) (rs : List (TrainSet D × X)) : ∀ (m : MetaObj S) (u : String → Y), m.train = false →
    ((rs.map fun r => MetaEvent.run r.1 r.2).foldl (metaStep ops) (m, u)).1 = m := by
  induction rs with
  | nil => intro m u _; rfl
  | cons r rs ih =>
    intro m u ht
    rw [List.map_cons, List.foldl_cons]
    have e : metaStep ops (m, u) (.run r.1 r.2) = (m, (m.run ops r.1 r.2 u).2.1) := by
      simp [metaStep, MetaObj.run, ht]
    rw [e]
    exact ih m _ ht

/-- **C172 (partial).** Take any history of a component with separate surrogates, then `setup`, a run that succeeds, any number of
further runs, and one more run that succeeds. Every output without a surrogate of its own then has the value predicted by a
surrogate that is the default surrogate, in its state at the beginning, trained once on the data of that output in the first run
after `setup`. Missing: training data that change later are not used (`C172_changed_data_refuted`), and a surrogate given to two
outputs (`C172_shared_refuted`). -/
theorem C172_default_partial (ops : SurOps S D X Y) (es : List (MetaEvent D X)) (m : MetaObj S) (u u1 u2 : String → Y) (h : m.Separate)
    (a : Nat) (ha : m.dflt = some a) (t t2 : TrainSet D) (x x2 : X) (rs : List (TrainSet D × X))
    (m1 : MetaObj S) (hm1 : m1 = (es.foldl (metaStep ops) (m, u)).1.setup)
    (hok : (m1.run ops t x u1).2.2 = none)
    (m2 : MetaObj S) (hm2 : m2 = ((rs.map fun r => MetaEvent.run r.1 r.2).foldl (metaStep ops) ((m1.run ops t x u1).1, u2)).1)
    (hok2 : (m2.run ops t2 x2 u2).2.2 = none) :
    ∀ n ∈ m.outs, m.useDef n = true → ∃ d s, t.out n = .ok d ∧ ops.train (m.heap a) d = (s, none) ∧
      ops.predict s x = .ok ((m1.run ops t x u1).2.1 n) ∧ ops.predict s x2 = .ok ((m2.run ops t2 x2 u2).2.1 n) := by
  intro n hn hu
  obtain ⟨r1, r2, r3, r4, r5⟩ := C172_default_untouched ops es m u h
  obtain ⟨q1, q2, q3, q4, q5, q6, _⟩ := C172_setup _ r1
  rw [← hm1] at q1 q2 q3 q4 q5 q6
  obtain ⟨a1, ha1, hs1⟩ := (q6 a (r2.trans ha)).2 n (r3 ▸ hn) (by rw [r4]; exact hu)
  have hn1 : n ∈ m1.outs := by rw [q3, r3]; exact hn
  obtain ⟨hf, _, hrun⟩ := C172_train_run ops t x m1 u1 q2 q1 hok
  obtain ⟨s, s', d, ⟨b, hb, hs⟩, hd, htr, ⟨c, hc, hs'⟩, hy⟩ := hrun n hn1
  obtain ⟨f1, f2, _, _, _, _⟩ := run_frame ops t x m1 u1
  rw [later_runs ops rs _ _ hf] at hm2
  subst hm2
  have hn2 : n ∈ (m1.run ops t x u1).1.outs := f1 ▸ hn1
  obtain ⟨s2, ⟨c2, hc2, hs2⟩, hy2⟩ := (C172_later_run ops t2 t2 x2 _ u2 (f1 ▸ q2.nodup) hf).2.2.2 hok2 n hn2
  have e1 : b = a1 := Option.some.inj (hb.symm.trans ha1)
  have e2 : c2 = c := Option.some.inj (hc2.symm.trans hc)
  subst e1 e2
  refine ⟨d, s', hd, ?_, hy, ?_⟩
  · rw [← htr, ← hs, hs1, r5 a ha]
  · rw [← hs', hs2]; exact hy2

/-! ## Concrete components -/

/-- A surrogate that predicts the number it was trained with last, plus the input; untrained it raises an exception. -/
def lastOps : SurOps (Option Nat) Nat Nat Nat where
  train := fun _ d => (some d, none)
  predict := fun s x => match s with
    | none => .error .RuntimeError
    | some d => .ok (d + x)

/-- Two outputs, the surrogates given by `s`, and a default surrogate at address 0. -/
def twoOuts (s : Option Nat) : MetaObj (Option Nat) :=
  ((⟨[], fun _ => none, fun _ => false, some 0, fun _ => none, 2, false⟩ : MetaObj (Option Nat)).addOut "y" s).addOut "z" s

/-- `y` is 10, `z` is 20 in the training data. -/
def tenTwenty : TrainSet Nat := ⟨none, fun n => .ok (if n = "y" then 10 else 20)⟩

theorem twoOuts_sep : (twoOuts none).Separate := by
  constructor
  · decide
  · intro n _ n' _ a h
    simp [twoOuts, MetaObj.addOut, putKey] at h
  · intro n _ a h
    simp [twoOuts, MetaObj.addOut, putKey] at h
  · intro n _ a h
    simp [twoOuts, MetaObj.addOut, putKey] at h
  · intro a h
    simp [twoOuts, MetaObj.addOut] at h
    simp [twoOuts, MetaObj.addOut]; omega

/-- The hypotheses of `C172_default_partial` are met; the outputs are 10 and 20 plus the input. -/
example : (twoOuts none).Separate ∧ (twoOuts none).dflt = some 0 ∧ (twoOuts none).useDef "y" = true ∧
    ((twoOuts none).setup.run lastOps tenTwenty 1 (fun _ => 0)).2.2 = none ∧
    ((twoOuts none).setup.run lastOps tenTwenty 1 (fun _ => 0)).2.1 "y" = 11 ∧
    ((twoOuts none).setup.run lastOps tenTwenty 1 (fun _ => 0)).2.1 "z" = 21 :=
  ⟨twoOuts_sep, rfl, by decide, by decide, by decide, by decide⟩

/-- The hypotheses of `C172_missing`, `C172_failed_training` and `C172_bad_data` are met. -/
example : (twoOuts none).sur "y" = none ∧ "y" ∈ (twoOuts none).outs ∧ (twoOuts none).outs.Nodup ∧ (twoOuts none).setup.train = true ∧
    ((twoOuts none).setup.run lastOps ⟨some .RuntimeError, tenTwenty.out⟩ 1 (fun _ => 0)).1.train = true :=
  ⟨by decide, by decide, by decide, rfl, by decide⟩

/-- **Refutation: changed training data are not used.** The comment at `meta_model.py:65-68` says that the component retrains with
the new data whenever the values are changed. It is trained on the data of the first run; with other data in the second run, of
which no output is the prediction, it goes on with the first. -/
theorem C172_changed_data_refuted : ∃ (t t' : TrainSet Nat) (m : MetaObj (Option Nat)) (u : String → Nat), m.Separate ∧
    t.out "y" = .ok 10 ∧ t'.out "y" = .ok 30 ∧ "y" ∈ m.outs ∧ (m.setup.run lastOps t 1 u).2.2 = none ∧
    ((m.setup.run lastOps t 1 u).1.run lastOps t' 1 u).2.2 = none ∧ ((m.setup.run lastOps t 1 u).1.run lastOps t' 1 u).2.1 "y" = 11 :=
  ⟨tenTwenty, ⟨none, fun _ => .ok 30⟩, twoOuts none, fun _ => 0, twoOuts_sep, by decide, rfl, by decide, by decide, by decide, by decide⟩

/-- **Refutation: a surrogate given to two outputs.** The one object is trained on the data of `y`, then on those of `z`, and both
outputs are predicted by the second training. -/
theorem C172_shared_refuted : ∃ (t : TrainSet Nat) (m : MetaObj (Option Nat)) (u : String → Nat),
    m.sur "y" = some 1 ∧ m.sur "z" = some 1 ∧ t.out "y" = .ok 10 ∧ t.out "z" = .ok 20 ∧ m.outs = ["y", "z"] ∧
    (m.setup.run lastOps t 1 u).2.2 = none ∧ (m.setup.run lastOps t 1 u).2.1 "y" = 21 ∧ (m.setup.run lastOps t 1 u).2.1 "z" = 21 :=
  ⟨tenTwenty, twoOuts (some 1), fun _ => 0, by decide, by decide, by decide, by decide, by decide, by decide, by decide, by decide⟩

/-- With the flag set by the user, the new data are used. -/
example : ((metaStep lastOps (((twoOuts none).setup.run lastOps tenTwenty 1 (fun _ => 0)).1, fun _ => 0) .retrain).1.run lastOps
    ⟨none, fun _ => .ok 30⟩ 1 (fun _ => 0)).2.1 "y" = 31 := by decide

end OpenMDAO
